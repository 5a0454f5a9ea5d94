import Verif.Core

/-! # Weakest preconditions that allow certain panics and endless loops -/

namespace Tower
namespace Act
variable {W α β : Type}

/-- if the code returns, `Q` holds; if it panics, with a message for which `pan` holds; if it does not return, `spn` holds -/
def wpx (pan : String → Prop) (spn : Prop) (x : Act W α) (Q : α → W → Prop) (w : W) : Prop :=
  match x.run w with
  | .ok a w' => Q a w'
  | .panic m => pan m
  | .spin => spn

variable {pan : String → Prop} {spn : Prop}

@[simp] theorem wpx_pure (a : α) (Q : α → W → Prop) (w : W) : wpx pan spn (Pure.pure a : Act W α) Q w = Q a w := rfl

@[simp] theorem wpx_bind (x : Act W α) (f : α → Act W β) (Q : β → W → Prop) (w : W) :
    wpx pan spn (x >>= f) Q w = wpx pan spn x (fun a w' => wpx pan spn (f a) Q w') w := by
  unfold wpx; rw [run_bind]
  cases x.run w <;> rfl

@[simp] theorem wpx_panic (m : String) (Q : α → W → Prop) (w : W) : wpx pan spn (Act.panic m : Act W α) Q w = pan m := rfl
@[simp] theorem wpx_spin (Q : α → W → Prop) (w : W) : wpx pan spn (Act.spin : Act W α) Q w = spn := rfl
@[simp] theorem wpx_lift (f : W → α × W) (Q : α → W → Prop) (w : W) : wpx pan spn (Act.lift f) Q w = Q (f w).1 (f w).2 := rfl

theorem wpx_mono {x : Act W α} {Q Q' : α → W → Prop} {w : W} (h : wpx pan spn x Q w) (hq : ∀ a w', Q a w' → Q' a w') :
    wpx pan spn x Q' w := by
  unfold wpx at *
  cases hx : x.run w <;> simp_all

theorem wpx_ok {x : Act W α} {Q : α → W → Prop} {w w' : W} {a : α} (h : wpx pan spn x Q w) (hx : x.run w = .ok a w') : Q a w' := by
  simpa [wpx, hx] using h

theorem wpx_panics {x : Act W α} {Q : α → W → Prop} {w : W} {m : String} (h : wpx pan spn x Q w) (hx : x.run w = .panic m) : pan m := by
  simpa [wpx, hx] using h

theorem wpx_spins {x : Act W α} {Q : α → W → Prop} {w : W} (h : wpx pan spn x Q w) (hx : x.run w = .spin) : spn := by
  simpa [wpx, hx] using h

theorem wpx_weaken {pan' : String → Prop} {spn' : Prop} {x : Act W α} {Q Q' : α → W → Prop} {w : W} (h : wpx pan spn x Q w) (hp : ∀ m, pan m → pan' m) (hs : spn → spn')
    (hq : ∀ a w', Q a w' → Q' a w') : wpx pan' spn' x Q' w := by
  unfold wpx at *
  cases hx : x.run w with
  | ok a w' => rw [hx] at h; exact hq a w' h
  | panic m => rw [hx] at h; exact hp m h
  | spin => rw [hx] at h; exact hs h

theorem wpx_run {x : Act W α} {Q : α → W → Prop} {w : W} (h : wpx pan spn x Q w) : wpx pan spn x (fun a w' => Q a w' ∧ x.run w = .ok a w') w := by
  unfold wpx at *
  cases hx : x.run w with
  | ok a w' => rw [hx] at h; exact ⟨h, rfl⟩
  | panic m => rw [hx] at h; exact h
  | spin => rw [hx] at h; exact h

/-- the code itself -/
theorem wpx_self {x : Act W α} {w : W} (hp : ∀ m, x.run w = .panic m → pan m) (hs : x.run w = .spin → spn) :
    wpx pan spn x (fun a w' => x.run w = .ok a w') w := by
  unfold wpx
  cases hx : x.run w with
  | ok a w' => rfl
  | panic m => exact hp m hx
  | spin => exact hs hx

end Act
end Tower
