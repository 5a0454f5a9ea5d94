import Verif.Proof.AlikeMw
import Verif.Model.Load

/-! # Bisimulations of the load tracking services -/

namespace Tower
open Act
variable {W : Type}

theorem Act.Rel.snd {A α β : Type} {r : α → β → Prop} {x : Act W α} {y : Act W β} (h : Act.Rel r x y) : Act.Rel r (x.snd : Act (A × W) α) (y.snd : Act (A × W) β) := by
  rintro ⟨a, w⟩
  have hw := h w
  show Out.Rel r (Act.run _ _) (Act.run _ _)
  simp only [Act.snd]
  cases hx : x.run w <;> cases hy : y.run w <;> rw [hx, hy] at hw <;> simp only [Out.Rel] at hw ⊢
  · exact ⟨hw.1, by rw [hw.2]⟩
  · exact hw

section
variable {Q R R' E : Type} {S T : Service W Q R E} {rs : Bool → S.σ → T.σ → Prop} {rf : S.φ → T.φ → Prop}

theorem Alike.tracked (A : Alike S T rs rf) (K : Tracker) (C : Completion R R') :
    Alike (tracked K C S) (tracked K C T) rs (fun x y => rf x.1 y.1 ∧ x.2 = y.2) where
  ready b s t h := (A.ready b s t h).snd
  call s t r h := by
    refine Rel.bind Rel.rfl ?_
    rintro k _ ⟨⟩
    exact Rel.bind (A.call s t r h).snd fun _ _ hab => Rel.pure ⟨⟨hab.1, rfl⟩, hab.2⟩
  poll := by
    rintro ⟨x, k⟩ ⟨y, k'⟩ ⟨h, e⟩
    dsimp only at h e; subst e
    refine Rel.bind (A.poll x y h).snd ?_
    rintro ⟨p, x'⟩ ⟨q, y'⟩ ⟨e, k1⟩
    dsimp only at e k1; subst e
    match p, k1 with
    | .pending, k1 => exact Rel.pure ⟨rfl, fun _ => ⟨k1 rfl, rfl⟩⟩
    | .ready (.error e), _ => exact Rel.pure ⟨rfl, by intro h; cases h⟩
    | .ready (.ok v), _ =>
      cases k with
      | none => exact Rel.panic
      | some k =>
        refine Rel.bind Rel.rfl ?_
        rintro o _ ⟨⟩
        exact Rel.pure ⟨rfl, by intro h; cases h⟩
  clone b s t h := A.clone b s t h

theorem Alike.constant (A : Alike S T rs rf) (M : Type) : Alike (Constant M S) (Constant M T) (fun b s t => rs b s.1 t.1 ∧ s.2 = t.2) rf where
  ready b s t h := Rel.bind (A.ready b _ _ h.1) fun _ _ hab => Rel.pure (ReadyRel.imp (rs' := fun b (s : S.σ × M) (t : T.σ × M) => rs b s.1 t.1 ∧ s.2 = t.2) hab fun _ k => ⟨k, h.2⟩)
  call s t r h := Rel.bind (A.call _ _ r h.1) fun _ _ hab => Rel.pure ⟨hab.1, hab.2, h.2⟩
  poll x y h := A.poll x y h
  clone b s t h := ⟨A.clone b _ _ h.1, h.2⟩

end
end Tower
