import Verif.Spec.LiveAllSpec
import Verif.Proof.Live
import Mathlib.Order.Monotone.Basic

/-! # Coming to an end: something that is polled again and again, at some of the polls of what holds it -/

set_option linter.unusedSimpArgs false

namespace Tower
open Act
variable {W A V : Type}

/-- polled in the worlds of the list, each time `Pending` -/
inductive Pends (poll : A → Act W (Poll V × A)) : A → List W → A → Prop
  | nil (a : A) : Pends poll a [] a
  | cons {a b c : A} {w w' : W} {l : List W} : (poll a).run w = .ok (.pending, b) w' → Pends poll b l c → Pends poll a (w :: l) c

theorem Pends.append {poll : A → Act W (Poll V × A)} {a b c : A} {l l' : List W} (h : Pends poll a l b) (h' : Pends poll b l' c) : Pends poll a (l ++ l') c := by
  induction h with
  | nil => exact h'
  | cons h1 _ ih => exact .cons h1 (ih h')

theorem Pends.of_nil {poll : A → Act W (Poll V × A)} {a b : A} (h : Pends poll a [] b) : a = b := by
  generalize hl : ([] : List W) = l at h
  cases h with
  | nil => rfl
  | cons => cases hl

theorem seq_choice {B : Type} (Good : Nat → B → Prop) (Rel : Nat → B → B → Prop) (h : ∀ n b, Good n b → ∃ b', Good (n + 1) b' ∧ Rel n b b') (b : B) (hb : Good 0 b) :
    ∃ bs : Nat → B, bs 0 = b ∧ (∀ n, Good n (bs n)) ∧ ∀ n, Rel n (bs n) (bs (n + 1)) := by
  let step : (n : Nat) → { x : B // Good n x } → { x : B // Good (n + 1) x } := fun n x => ⟨(h n x.1 x.2).choose, (h n x.1 x.2).choose_spec.1⟩
  let seq : (n : Nat) → { x : B // Good n x } := fun n => Nat.rec ⟨b, hb⟩ (fun n x => step n x) n
  exact ⟨fun n => (seq n).1, rfl, fun n => (seq n).2, fun n => (h n (seq n).1 (seq n).2).choose_spec.2⟩

/-- the polls of a piece: where we are in the sequence of lists -/
structure Spot (W A : Type) where
  n : Nat
  w : W
  rest : List W
  a : A

theorem track {poll : A → Act W (Poll V × A)} (f : Nat → A) (L : Nat → List W) (hp : ∀ n, Pends poll (f n) (L n) (f (n + 1))) (hinf : ∀ n, ∃ m, n ≤ m ∧ L m ≠ []) :
    ∃ (g : Nat → Nat) (vs : Nat → W), Monotone g ∧ (∀ n, (∃ k, g k = n) ↔ L n ≠ []) ∧ (∀ k, vs k ∈ L (g k)) ∧ ¬ Ends poll (f 0) vs := by
  classical
  have skip : ∀ n d, (∀ m, n ≤ m → m < n + d → L m = []) → f (n + d) = f n := by
    intro n d
    induction d with
    | zero => intro _; rfl
    | succ d ih =>
      intro h
      have h1 := hp (n + d)
      rw [h (n + d) (by omega) (by omega)] at h1
      have h2 := ih fun m h3 h4 => h m h3 (by omega)
      rw [← h2]
      exact (h1.of_nil).symm
  have first : ∀ n, ∃ m w l, n ≤ m ∧ L m = w :: l ∧ f m = f n ∧ ∀ j, n ≤ j → j < m → L j = [] := by
    intro n
    have hs := Nat.find_spec (hinf n)
    have hmin : ∀ j, n ≤ j → j < Nat.find (hinf n) → L j = [] := fun j h1 h2 => by
      have := Nat.find_min (hinf n) h2
      by_contra h3
      exact this ⟨h1, h3⟩
    generalize Nat.find (hinf n) = m at hs hmin
    obtain ⟨w, l, hl⟩ := List.exists_cons_of_ne_nil hs.2
    refine ⟨m, w, l, hs.1, hl, ?_, hmin⟩
    obtain ⟨d, rfl⟩ := Nat.exists_eq_add_of_le hs.1
    exact skip n d hmin
  let Good : Nat → Spot W A → Prop := fun _ x => Pends poll x.a (x.w :: x.rest) (f (x.n + 1)) ∧ x.w ∈ L x.n ∧ ∀ v ∈ x.rest, v ∈ L x.n
  let Rel : Nat → Spot W A → Spot W A → Prop := fun _ x y => (∃ w', (poll x.a).run x.w = .ok (.pending, y.a) w') ∧ x.n ≤ y.n ∧ (∀ j, x.n < j → j < y.n → L j = []) ∧ (y.n = x.n → y.rest.length < x.rest.length)
  have hstep : ∀ n x, Good n x → ∃ y, Good (n + 1) y ∧ Rel n x y := by
    rintro k ⟨n, w, rest, a⟩ ⟨h1, h2, h3⟩
    cases h1 with
    | @cons _ b _ _ w' _ h4 h5 =>
      cases rest with
      | cons w1 rest =>
        exact ⟨⟨n, w1, rest, b⟩, ⟨h5, h3 w1 (by simp), fun v hv => h3 v (by simp [hv])⟩, ⟨w', h4⟩, Nat.le_refl _, fun j hj hj' => by dsimp only at hj hj'; omega, fun _ => by simp⟩
      | nil =>
        obtain ⟨m, w1, l, hm, hl, hf, hj⟩ := first (n + 1)
        have hb : b = f (n + 1) := h5.of_nil
        refine ⟨⟨m, w1, l, b⟩, ⟨?_, by simp [hl], fun v hv => by simp [hl, hv]⟩, ⟨w', h4⟩, show n ≤ m by omega, fun j h6 h7 => hj j h6 h7, fun h6 => ?_⟩
        · show Pends poll b (w1 :: l) (f (m + 1))
          rw [hb, ← hf, ← hl]; exact hp m
        · exact absurd (show m = n from h6) (by omega)
  obtain ⟨m0, w0, l0, hm0, hl0, hf0, hj0⟩ := first 0
  obtain ⟨xs, hx0, hG, hR⟩ := seq_choice Good Rel hstep ⟨m0, w0, l0, f 0⟩ ⟨by show Pends poll (f 0) (w0 :: l0) (f (m0 + 1)); rw [← hf0, ← hl0]; exact hp m0, by simp [hl0], fun v hv => by simp [hl0, hv]⟩
  refine ⟨fun k => (xs k).n, fun k => (xs k).w, monotone_nat_of_le_succ fun k => (hR k).2.1, fun n => ⟨?_, ?_⟩, fun k => (hG k).2.1, ?_⟩
  · rintro ⟨k, rfl⟩ h
    have := (hG k).2.1
    rw [h] at this
    cases this
  · intro hn
    have far : ∃ k, n ≤ (xs k).n := by
      have : ∀ N, ∃ k, N ≤ (xs k).n := by
        intro N
        induction N with
        | zero => exact ⟨0, Nat.zero_le _⟩
        | succ N ih =>
          obtain ⟨k, hk⟩ := ih
          by_contra hno
          have hno : ∀ j, (xs j).n ≤ N := fun j => Nat.lt_succ_iff.1 (Nat.lt_of_not_le fun h => hno ⟨j, h⟩)
          have hmono : Monotone fun k => (xs k).n := monotone_nat_of_le_succ fun k => (hR k).2.1
          have hconst : ∀ j, (xs (k + j)).n = N := fun j => Nat.le_antisymm (hno _) (Nat.le_trans hk (hmono (Nat.le_add_right k j)))
          have hlen : ∀ j, (xs (k + j)).rest.length + j ≤ (xs k).rest.length := by
            intro j
            induction j with
            | zero => exact Nat.le_refl _
            | succ j ih =>
              have := (hR (k + j)).2.2.2 (by rw [show k + j + 1 = k + (j + 1) from rfl, hconst, hconst])
              rw [show k + j + 1 = k + (j + 1) from rfl] at this
              omega
          have := hlen ((xs k).rest.length + 1)
          omega
      exact this n
    have hs := Nat.find_spec far
    have hmin := fun j => Nat.find_min (m := j) far
    generalize Nat.find far = k at hs hmin
    cases k with
    | zero =>
      refine ⟨0, Nat.le_antisymm ?_ hs⟩
      show (xs 0).n ≤ n
      rw [hx0]
      exact Nat.le_of_not_lt fun h => hn (hj0 n (Nat.zero_le _) h)
    | succ k =>
      refine ⟨k + 1, Nat.le_antisymm ?_ hs⟩
      have h1 : (xs k).n < n := Nat.lt_of_not_le (hmin k (Nat.lt_succ_self k))
      exact Nat.le_of_not_lt fun h => hn ((hR k).2.2.1 n h1 h)
  · have key : ∀ a ws, Ends poll a ws → ∀ k, a = (xs k).a → ws = (fun j => (xs (k + j)).w) → False := by
      intro a ws he
      induction he with
      | ready h1 =>
        rintro k rfl rfl
        obtain ⟨w', h2⟩ := (hR k).1
        rw [show (fun j => (xs (k + j)).w) 0 = (xs k).w from rfl, h2] at h1
        cases h1
      | panics h1 =>
        rintro k rfl rfl
        obtain ⟨w', h2⟩ := (hR k).1
        rw [show (fun j => (xs (k + j)).w) 0 = (xs k).w from rfl, h2] at h1
        cases h1
      | pending h1 _ ih =>
        rintro k rfl rfl
        obtain ⟨w', h2⟩ := (hR k).1
        rw [show (fun j => (xs (k + j)).w) 0 = (xs k).w from rfl, h2] at h1
        cases h1
        exact ih (k + 1) rfl (by funext j; show (xs (k + (j + 1))).w = _; rw [show k + 1 + j = k + (j + 1) by omega])
    intro he
    exact key _ _ he 0 (by rw [hx0]) (by funext j; simp)

end Tower
