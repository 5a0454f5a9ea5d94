import Verif.Spec.LiveSpec
import Verif.Proof.Wpx
import Verif.Proof.Prompt3

/-! # Not hanging: lemmas -/

set_option linter.unusedSimpArgs false

namespace Tower
open Act
variable {W : Type}

/-- it returns or panics; if it returns, `Q` -/
abbrev Act.calm {α : Type} (x : Act W α) (Q : α → W → Prop) (w : W) : Prop := wpx (fun _ => True) False x Q w

namespace Act
variable {α β : Type}

@[simp] theorem calm_get (Q : W → W → Prop) (w : W) : calm (Act.get : Act W W) Q w = Q w w := rfl
@[simp] theorem calm_modify (f : W → W) (Q : Unit → W → Prop) (w : W) : calm (Act.modify f) Q w = Q () (f w) := rfl

theorem calm_of {x : Act W α} {Q : α → W → Prop} {w : W} (hs : x.run w ≠ .spin) (h : ∀ a w', x.run w = .ok a w' → Q a w') : calm x Q w := by
  unfold calm wpx
  cases hx : x.run w with
  | ok a w' => exact h a w' hx
  | panic m => trivial
  | spin => exact hs hx

theorem calm.spin {x : Act W α} {Q : α → W → Prop} {w : W} (h : calm x Q w) : x.run w ≠ .spin := fun hx => wpx_spins h hx

/-- a statement followed by others, knowing how it ran -/
theorem calm_bind {x : Act W α} {f : α → Act W β} {Q : β → W → Prop} {w : W} (hs : x.run w ≠ .spin) (h : ∀ a w', x.run w = .ok a w' → calm (f a) Q w') : calm (x >>= f) Q w := by
  show wpx _ _ (x >>= f) Q w
  rw [wpx_bind]; exact calm_of hs h

end Act

section
variable {A B V V' : Type} {F : Fairness W} {poll : A → Act W (Poll V × A)} {poll' : B → Act W (Poll V' × B)}

/-- one poll of something that finishes -/
theorem Finishes.step {a : A} (h : Finishes F poll a) (w : W) : calm (poll a) (fun r _ => r.1 = .pending → Finishes F poll r.2) w := by
  have key : ∀ ws, F.fair ws → Ends poll a (wcons w ws) := fun ws hf => h _ (F.cons w ws hf)
  obtain ⟨ws0, hf0⟩ := F.some
  refine calm_of ?_ ?_
  · intro hs
    cases key ws0 hf0 with
    | ready h1 => rw [show wcons w ws0 0 = w from rfl, hs] at h1; cases h1
    | panics h1 => rw [show wcons w ws0 0 = w from rfl, hs] at h1; cases h1
    | pending h1 _ => rw [show wcons w ws0 0 = w from rfl, hs] at h1; cases h1
  · rintro ⟨p, a'⟩ w' hr rfl ws hf
    cases key ws hf with
    | ready h1 => rw [show wcons w ws 0 = w from rfl, hr] at h1; cases h1
    | panics h1 => rw [show wcons w ws 0 = w from rfl, hr] at h1; cases h1
    | pending h1 h2 => rw [show wcons w ws 0 = w from rfl, hr] at h1; cases h1; exact h2

theorem Finishes.spin {a : A} (h : Finishes F poll a) (w : W) : (poll a).run w ≠ .spin := (h.step w).spin
theorem Finishes.pending {a a' : A} {w w' : W} (h : Finishes F poll a) (hr : (poll a).run w = .ok (.pending, a') w') : Finishes F poll a' := wpx_ok (h.step w) hr rfl

/-- Something finishes if each of its polls is one of something that finishes, until it is `Ready` or in a state from which it finishes. -/
theorem Finishes.sim (K : A → B → Prop) (h : ∀ a b w, K a b → (poll a).run w ≠ .spin →
      calm (poll' b) (fun r _ => r.1 = .pending → Finishes F poll' r.2 ∨ ∃ a' w1, (poll a).run w = .ok (.pending, a') w1 ∧ K a' r.2) w)
    {a : A} {b : B} (ha : Finishes F poll a) (hk : K a b) : Finishes F poll' b := by
  intro ws hf
  have he := ha ws hf
  induction he generalizing b with
  | @ready a ws v a' w' h1 =>
    have := h a b (ws 0) hk (by rw [h1]; intro hh; cases hh)
    cases h2 : (poll' b).run (ws 0) with
    | spin => exact (this.spin h2).elim
    | panic m => exact .panics h2
    | ok r w1 =>
      obtain ⟨p, b'⟩ := r
      cases p with
      | ready v => exact .ready h2
      | pending =>
        rcases wpx_ok this h2 rfl with h3 | ⟨a1, w1, h3, _⟩
        · exact .pending h2 (h3 _ (F.tail _ hf))
        · rw [h1] at h3; cases h3
  | @panics a ws m h1 =>
    have := h a b (ws 0) hk (by rw [h1]; intro hh; cases hh)
    cases h2 : (poll' b).run (ws 0) with
    | spin => exact (this.spin h2).elim
    | panic m => exact .panics h2
    | ok r w1 =>
      obtain ⟨p, b'⟩ := r
      cases p with
      | ready v => exact .ready h2
      | pending =>
        rcases wpx_ok this h2 rfl with h3 | ⟨a1, w1, h3, _⟩
        · exact .pending h2 (h3 _ (F.tail _ hf))
        · rw [h1] at h3; cases h3
  | @pending a ws a' w' h1 h2 ih =>
    have := h a b (ws 0) hk (by rw [h1]; intro hh; cases hh)
    cases h4 : (poll' b).run (ws 0) with
    | spin => exact (this.spin h4).elim
    | panic m => exact .panics h4
    | ok r w1 =>
      obtain ⟨p, b'⟩ := r
      cases p with
      | ready v => exact .ready h4
      | pending =>
        rcases wpx_ok this h4 rfl with h3 | ⟨a1, w1, h3, h5⟩
        · exact .pending h4 (h3 _ (F.tail _ hf))
        · rw [h1] at h3; cases h3
          exact .pending h4 (ih (ha.pending h1) h5 (F.tail _ hf))

/-- something that is never `Pending` -/
theorem Finishes.now {b : B} (h : ∀ w, calm (poll' b) (fun r _ => r.1 ≠ .pending) w) : Finishes F poll' b := by
  intro ws _
  cases h2 : (poll' b).run (ws 0) with
  | spin => exact ((h _).spin h2).elim
  | panic m => exact .panics h2
  | ok r w1 =>
    obtain ⟨p, b'⟩ := r
    cases p with
    | ready v => exact .ready h2
    | pending => exact (wpx_ok (h _) h2 rfl).elim

/-- the same without the other states -/
theorem Finishes.map {a : A} {b : B} (K : A → B → Prop) (h : ∀ a b w, K a b → (poll a).run w ≠ .spin →
      calm (poll' b) (fun r _ => r.1 = .pending → ∃ a' w1, (poll a).run w = .ok (.pending, a') w1 ∧ K a' r.2) w)
    (ha : Finishes F poll a) (hk : K a b) : Finishes F poll' b :=
  ha.sim K (fun a b w hk hs => wpx_mono (h a b w hk hs) fun _ _ h hp => .inr (h hp)) hk
end

/-- an invariant of the handles that users who keep the contract can have, that gives `NeverHangs` -/
structure Live {Req Res Err : Type} (F : Fairness W) (S : Service W Req Res Err) (I : Bool → S.σ → Prop) : Prop where
  ready : ∀ b s, I b s → Finishes F S.pollReady s
  isReady : ∀ b s s' w w', I b s → (S.pollReady s).run w = .ok (.ready (.ok ()), s') w' → I true s'
  isPending : ∀ b s s' w w', I b s → (S.pollReady s).run w = .ok (.pending, s') w' → I false s'
  call : ∀ s r w, I true s → calm (S.call s r) (fun x _ => Finishes F S.poll x.1 ∧ I false x.2) w
  clone : ∀ b s, I b s → I false (S.clone s)

section
variable {Req Res Err : Type} {F : Fairness W} {S : Service W Req Res Err} {I : Bool → S.σ → Prop}

theorem Live.never (L : Live F S I) {s₀ : S.σ} (h₀ : I false s₀) : NeverHangs F S s₀ := by
  have key : ∀ b s, Reach S s₀ b s → I b s := by
    intro b s h
    induction h with
    | new => exact h₀
    | ready _ hr ih => exact L.isReady _ _ _ _ _ ih hr
    | pending _ hr ih => exact L.isPending _ _ _ _ _ ih hr
    | call _ hr ih => exact (wpx_ok (L.call _ _ _ ih) hr).2
    | clone _ ih => exact L.clone _ _ ih
  exact ⟨fun b s h => L.ready b s (key b s h), fun s r w h => (L.call s r w (key _ _ h)).spin, fun s r w f s' w' h hr => (wpx_ok (L.call s r w (key _ _ h)) hr).1⟩

theorem NeverHangs.live {s₀ : S.σ} (h : NeverHangs F S s₀) : Live F S (Reach S s₀) where
  ready := h.ready
  isReady _ _ _ _ _ hr hw := .ready hr hw
  isPending _ _ _ _ _ hr hw := .pending hr hw
  call s r w hr := calm_of (h.call s r w hr) fun a w' ha => ⟨h.poll s r w a.1 a.2 w' hr ha, .call hr ha⟩
  clone _ _ hr := .clone hr

/-- everything about one `poll_ready` -/
theorem Live.pollReady (L : Live F S I) {b : Bool} {s : S.σ} (h : I b s) (w : W) :
    calm (S.pollReady s) (fun r _ => (r.1 = .ready (.ok ()) → I true r.2) ∧ (r.1 = .pending → I false r.2)) w :=
  calm_of ((L.ready b s h).spin w) fun r w' hr => by
    obtain ⟨p, s'⟩ := r
    exact ⟨fun hp => by cases hp; exact L.isReady _ _ _ _ _ h hr, fun hp => by cases hp; exact L.isPending _ _ _ _ _ h hr⟩

end
end Tower
