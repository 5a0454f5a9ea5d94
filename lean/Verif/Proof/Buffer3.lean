import Verif.Proof.Buffer2

/-! # Buffer: the messages -/

set_option linter.unusedSimpArgs false

namespace Tower
variable {W Req Res Err : Type} {S : Service W Req Res Err}

/-- the message the worker holds before it is dispatched -/
def WPc.pend {φ Req E : Type} : WPc φ Req E → List (Msg Req)
  | .check m | .got m | .call m | .fail1 m _ | .fail2 m _ | .fail3 m => [m]
  | _ => []

/-- the message the worker has dispatched and not replied to -/
def WPc.replying {φ Req E : Type} : WPc φ Req E → Option (Msg Req × φ)
  | .reply m f => some (m, f)
  | _ => none

/-- accepted messages not dispatched yet, oldest first -/
def Buf.pend (x : Buf S) : List (Msg Req) := x.pc.pend ++ x.cur.toList ++ x.queue

/-- what happened to the messages; `A` accepted, `Df` dispatched, `P` pending, `R` being replied to -/
structure MInv (S : Service W Req Res Err) (A : List (Msg Req)) (Df : List (Msg Req × S.φ)) (P : List (Msg Req)) (R : Option (Msg Req × S.φ))
    (shots : Nat → Shot S.φ Err) (futs : Nat → BFut S.φ Err) (calls : Nat) (dying : Prop) (failed : Option Err) : Prop where
  sub : (Df.map (·.1) ++ P).Sublist A
  inc : (A.map (·.id)).Pairwise (· < ·)
  lt : ∀ m ∈ A, m.id < calls
  pW : ∀ m ∈ P, shots m.id = .waiting ∧ (futs m.id = .rx ∨ futs m.id = .dropped)
  rW : ∀ m f, R = some (m, f) → shots m.id = .waiting ∧ (futs m.id = .rx ∨ futs m.id = .dropped) ∧ (m, f) ∈ Df
  dS : ∀ m f, (m, f) ∈ Df → R = some (m, f) ∨ shots m.id = .sent (.ok f) ∨ (shots m.id = .gone ∧ futs m.id = .dropped)
  fate : ∀ m ∈ A, m ∉ Df.map (·.1) → m ∉ P → futs m.id = .dropped ∨ (∃ e, failed = some e ∧ shots m.id = .sent (.error e)) ∨
    (dying ∧ shots m.id = .gone)
  skip : ∀ m ∈ A, m ∉ Df.map (·.1) → (∃ m' ∈ Df.map (·.1), m.id < m'.id) → futs m.id = .dropped
  fnone : ∀ i, calls ≤ i → futs i = .none
  inn : ∀ i f, futs i = .inner f → ∃ m f0, (m, f0) ∈ Df ∧ m.id = i ∧ Desc S f0 f
  rxA : ∀ i, futs i = .rx → ∃ m ∈ A, m.id = i
  accf : ∀ m ∈ A, futs m.id ≠ .none ∧ ∀ e, futs m.id ≠ .failed e

namespace MInv
variable {A : List (Msg Req)} {Df : List (Msg Req × S.φ)} {P : List (Msg Req)} {R : Option (Msg Req × S.φ)}
  {shots : Nat → Shot S.φ Err} {futs : Nat → BFut S.φ Err} {calls : Nat} {dying : Prop} {failed : Option Err}

theorem inj (h : MInv S A Df P R shots futs calls dying failed) {m m' : Msg Req} (hm : m ∈ A) (hm' : m' ∈ A) (he : m.id = m'.id) : m = m' := by
  have hn : (A.map (·.id)).Nodup := h.inc.imp (fun h => Nat.ne_of_lt h)
  exact List.inj_on_of_nodup_map hn hm hm' he

theorem memD (h : MInv S A Df P R shots futs calls dying failed) {m : Msg Req} (hm : m ∈ Df.map (·.1)) : m ∈ A :=
  h.sub.subset (by rw [List.mem_append]; exact .inl hm)

theorem memP (h : MInv S A Df P R shots futs calls dying failed) {m : Msg Req} (hm : m ∈ P) : m ∈ A :=
  h.sub.subset (by rw [List.mem_append]; exact .inr hm)

theorem sorted (h : MInv S A Df P R shots futs calls dying failed) : ((Df.map (·.1) ++ P).map (·.id)).Pairwise (· < ·) :=
  h.inc.sublist (h.sub.map _)

theorem dp (h : MInv S A Df P R shots futs calls dying failed) {m m' : Msg Req} (hm : m ∈ Df.map (·.1)) (hm' : m' ∈ P) : m.id < m'.id := by
  have := h.sorted
  rw [List.map_append] at this
  exact (List.pairwise_append.1 this).2.2 _ (List.mem_map_of_mem hm) _ (List.mem_map_of_mem hm')

theorem head (h : MInv S A Df P R shots futs calls dying failed) {m : Msg Req} {Q : List (Msg Req)} (hP : P = m :: Q) :
    (∀ m' ∈ Q, m.id < m'.id) ∧ m ∉ Q ∧ m ∉ Df.map (·.1) := by
  have hs := h.sorted
  rw [List.map_append, hP, List.map_cons] at hs
  have h1 := (List.pairwise_append.1 hs).2.1
  have h2 := (List.pairwise_cons.1 h1).1
  have h3 : ∀ m' ∈ Q, m.id < m'.id := fun m' hm' => h2 _ (List.mem_map_of_mem hm')
  refine ⟨h3, fun hm => Nat.lt_irrefl _ (h3 m hm), fun hm => ?_⟩
  have := h.dp hm (m' := m) (by rw [hP]; simp)
  omega

/-- nothing but the dispositions changes -/
theorem same_dying (h : MInv S A Df P R shots futs calls dying failed) {dying' : Prop} {failed' : Option Err} (hd : dying → dying')
    (hf : ∀ e, failed = some e → failed' = some e) : MInv S A Df P R shots futs calls dying' failed' := by
  obtain ⟨a, b, c, d, e, f, g, i, j, k, l, m⟩ := h
  refine ⟨a, b, c, d, e, f, ?_, i, j, k, l, m⟩
  intro m' h1 h2 h3
  rcases g m' h1 h2 h3 with h4 | ⟨e', h4, h5⟩ | ⟨h4, h5⟩
  · exact .inl h4
  · exact .inr (.inl ⟨e', hf e' h4, h5⟩)
  · exact .inr (.inr ⟨hd h4, h5⟩)

/-- a pending message leaves; its oneshot sender is used or dropped -/
theorem leave (h : MInv S A Df P R shots futs calls dying failed) {m : Msg Req} {l Q : List (Msg Req)} (hP : P = l ++ m :: Q) {v : Shot S.φ Err}
    (hv : futs m.id = .dropped ∨ (∃ e, failed = some e ∧ v = .sent (.error e)) ∨ (dying ∧ v = .gone)) :
    MInv S A Df (l ++ Q) R (Function.update shots m.id v) futs calls dying failed := by
  have hm : m ∈ P := by rw [hP]; simp
  have hmA := h.memP hm
  have hmD : m ∉ Df.map (·.1) := fun h' => by have := h.dp h' hm; omega
  have hmQ : m ∉ l ++ Q := by
    have hs := h.sorted
    rw [List.map_append] at hs
    have hs := (List.pairwise_append.1 hs).2.1
    have hn : (P.map (·.id)).Nodup := hs.imp (fun h => Nat.ne_of_lt h)
    rw [hP] at hn
    have := List.Nodup.of_map _ hn
    exact (List.nodup_cons.1 (List.nodup_middle.1 this)).1
  have hsub : ∀ m' ∈ l ++ Q, m' ∈ P := by
    intro m' h'; rw [hP]; simp only [List.mem_append, List.mem_cons] at h' ⊢; tauto
  have hid : ∀ m' ∈ A, m' ≠ m → m'.id ≠ m.id := fun m' h1 h2 h3 => h2 (h.inj h1 hmA h3)
  obtain ⟨a, b, c, d, e, f, g, i, j, k, p, q⟩ := h
  refine ⟨?_, b, c, ?_, ?_, ?_, ?_, i, j, k, p, q⟩
  · refine List.Sublist.trans ?_ a
    rw [hP]
    exact List.Sublist.append_left (List.Sublist.append_left (List.sublist_cons_self _ _) _) _
  · intro m' hm'
    have hne : m' ≠ m := fun h' => hmQ (h' ▸ hm')
    have := d m' (hsub m' hm')
    rw [Function.update_of_ne (hid m' (a.subset (by simp only [List.mem_append]; exact .inr (hsub m' hm'))) hne)]
    exact this
  · intro m' f' hR
    have := e m' f' hR
    have hne : m' ≠ m := fun h' => hmD (List.mem_map.2 ⟨_, this.2.2, h'⟩)
    have hA : m' ∈ A := a.subset (by simp only [List.mem_append]; exact .inl (List.mem_map.2 ⟨_, this.2.2, rfl⟩))
    rw [Function.update_of_ne (hid m' hA hne)]
    exact this
  · intro m' f' hD
    have hne : m' ≠ m := fun h' => hmD (List.mem_map.2 ⟨_, hD, h'⟩)
    have hA : m' ∈ A := a.subset (by simp only [List.mem_append]; exact .inl (List.mem_map.2 ⟨_, hD, rfl⟩))
    rw [Function.update_of_ne (hid m' hA hne)]
    exact f m' f' hD
  · intro m' h1 h2 h3
    by_cases hne : m' = m
    · subst hne
      rw [Function.update_self]
      exact hv
    · rw [Function.update_of_ne (hid m' h1 hne)]
      refine g m' h1 h2 ?_
      rw [hP]
      simp only [List.mem_append, List.mem_cons, not_or] at h3 ⊢
      exact ⟨h3.1, hne, h3.2⟩

/-- the first pending message is dispatched -/
theorem dispatch (h : MInv S A Df P R shots futs calls dying failed) {m : Msg Req} {Q : List (Msg Req)} (hP : P = m :: Q) (f0 : S.φ)
    (hR : R = none) (hd : ¬ dying) (hf : failed = none) :
    MInv S A (Df ++ [(m, f0)]) Q (some (m, f0)) shots futs calls dying failed := by
  obtain ⟨h1, h2, h3⟩ := h.head hP
  have hs := h.sorted
  have hmP : m ∈ P := by rw [hP]; simp
  have hmA := h.memP hmP
  have hinj := fun m' hm' he => h.inj (m := m') (m' := m) hm' hmA he
  have hPm : ∀ m' ∈ P, m.id ≤ m'.id := by
    intro m' hm'; rw [hP] at hm'
    simp only [List.mem_cons] at hm'
    rcases hm' with rfl | hm'
    · exact Nat.le_refl _
    · exact Nat.le_of_lt (h1 m' hm')
  obtain ⟨a, b, c, d, e, f, g, i, j, k, p, q⟩ := h
  refine ⟨?_, b, c, ?_, ?_, ?_, ?_, ?_, j, ?_, p, q⟩
  · rw [hP] at a
    simpa using a
  · intro m' hm'; exact d m' (by rw [hP]; simp [hm'])
  · intro m' f' he
    cases he
    exact ⟨(d m hmP).1, (d m hmP).2, by simp⟩
  · intro m' f' hm'
    simp only [List.mem_append, List.mem_singleton] at hm'
    rcases hm' with hm' | hm'
    · rcases f m' f' hm' with h5 | h5
      · rw [hR] at h5; cases h5
      · exact .inr h5
    · cases hm'; exact .inl rfl
  · intro m' h5 h6 h7
    simp only [List.map_append, List.map_cons, List.map_nil, List.mem_append, List.mem_singleton, not_or] at h6
    refine g m' h5 h6.1 ?_
    rw [hP]; simp only [List.mem_cons, not_or]; exact ⟨h6.2, h7⟩
  · intro m' h5 h6 ⟨m2, h7, h8⟩
    simp only [List.map_append, List.map_cons, List.map_nil, List.mem_append, List.mem_singleton, not_or] at h6 h7
    rcases h7 with h7 | h7
    · exact i m' h5 h6.1 ⟨m2, h7, h8⟩
    · subst h7
      have hnP : m' ∉ P := fun h9 => by have := hPm m' h9; omega
      rcases g m' h5 h6.1 hnP with h9 | ⟨e', h9, _⟩ | ⟨h9, _⟩
      · exact h9
      · rw [hf] at h9; cases h9
      · exact absurd h9 hd
  · intro i' f' h5
    obtain ⟨m', f0', h6, h7⟩ := k i' f' h5
    exact ⟨m', f0', by simp [h6], h7⟩

/-- the future of the dispatched message is sent -/
theorem reply (h : MInv S A Df P R shots futs calls dying failed) {m : Msg Req} {f0 : S.φ} (hR : R = some (m, f0)) {v : Shot S.φ Err}
    (hv : (futs m.id = .dropped ∧ v = .gone) ∨ v = .sent (.ok f0)) :
    MInv S A Df P none (Function.update shots m.id v) futs calls dying failed := by
  have hr := h.rW m f0 hR
  have hmD : m ∈ Df.map (·.1) := List.mem_map.2 ⟨_, hr.2.2, rfl⟩
  have hmA := h.memD hmD
  have hid : ∀ m' ∈ A, m' ≠ m → m'.id ≠ m.id := fun m' h1 h2 h3 => h2 (h.inj h1 hmA h3)
  have hnP : ∀ m' ∈ P, m' ≠ m := fun m' hm' he => by have := h.dp hmD hm'; rw [he] at this; omega
  have hPA := fun m' hm' => h.memP (m := m') hm'
  have hDA := fun m' hm' => h.memD (m := m') hm'
  obtain ⟨a, b, c, d, e, f, g, i, j, k, p, q⟩ := h
  refine ⟨a, b, c, ?_, by simp, ?_, ?_, i, j, k, p, q⟩
  · intro m' hm'
    rw [Function.update_of_ne (hid m' (hPA m' hm') (hnP m' hm'))]
    exact d m' hm'
  · intro m' f' hm'
    by_cases hne : m' = m
    · subst hne
      -- each message was dispatched once
      have hf' : f' = f0 := by
        have hn : (Df.map (·.1)).Nodup := by
          have h1 : ((Df.map (·.1)).map (·.id)).Pairwise (· < ·) := b.sublist (((List.sublist_append_left _ _).trans a).map _)
          exact List.Nodup.of_map _ (h1.imp (fun h => Nat.ne_of_lt h))
        have := List.inj_on_of_nodup_map hn hm' hr.2.2 rfl
        cases this; rfl
      subst hf'
      rw [Function.update_self]
      rcases hv with ⟨h5, h6⟩ | h5
      · exact .inr (.inr ⟨h6, h5⟩)
      · exact .inr (.inl h5)
    · rw [Function.update_of_ne (hid m' (hDA m' (List.mem_map.2 ⟨_, hm', rfl⟩)) hne)]
      rcases f m' f' hm' with h5 | h5
      · rw [hR] at h5; cases h5; exact absurd rfl hne
      · exact .inr h5
  · intro m' h1 h2 h3
    have hne : m' ≠ m := fun h' => h2 (h' ▸ hmD)
    rw [Function.update_of_ne (hid m' h1 hne)]
    exact g m' h1 h2 h3

/-- a new message -/
theorem accept (h : MInv S A Df P R shots futs calls dying failed) (r : Req) :
    MInv S (A ++ [⟨calls, r⟩]) Df (P ++ [⟨calls, r⟩]) R (Function.update shots calls .waiting) (Function.update futs calls .rx) (calls + 1)
      dying failed := by
  have hPA := fun m' hm' => h.memP (m := m') hm'
  have hDA := fun m' hm' => h.memD (m := m') hm'
  obtain ⟨a, b, c, d, e, f, g, i, j, k, p, q⟩ := h
  have ne : ∀ m ∈ A, m.id ≠ calls := fun m hm => Nat.ne_of_lt (c m hm)
  have hfn := j calls (Nat.le_refl _)
  refine ⟨?_, ?_, ?_, ?_, ?_, ?_, ?_, ?_, ?_, ?_, ?_, ?_⟩
  · rw [← List.append_assoc]; exact a.append (List.Sublist.refl _)
  · rw [List.map_append]
    refine List.pairwise_append.2 ⟨b, by simp, ?_⟩
    intro x hx y hy
    simp only [List.mem_map] at hx
    obtain ⟨m, hm, rfl⟩ := hx
    simp at hy; subst hy; exact c m hm
  · intro m hm
    simp only [List.mem_append, List.mem_singleton] at hm
    rcases hm with hm | rfl
    · have := c m hm; omega
    · simp
  · intro m hm
    simp only [List.mem_append, List.mem_singleton] at hm
    rcases hm with hm | rfl
    · have hn := ne m (hPA m hm)
      rw [Function.update_of_ne hn, Function.update_of_ne hn]; exact d m hm
    · simp
  · intro m f' hR
    have hn := ne m (hDA m (List.mem_map.2 ⟨_, (e m f' hR).2.2, rfl⟩))
    rw [Function.update_of_ne hn, Function.update_of_ne hn]; exact e m f' hR
  · intro m f' hD
    have hn := ne m (hDA m (List.mem_map.2 ⟨_, hD, rfl⟩))
    rw [Function.update_of_ne hn, Function.update_of_ne hn]; exact f m f' hD
  · intro m h1 h2 h3
    simp only [List.mem_append, List.mem_singleton, not_or] at h1 h3
    rcases h1 with h1 | h1
    · have hn := ne m h1
      rw [Function.update_of_ne hn, Function.update_of_ne hn]
      exact g m h1 h2 h3.1
    · exact absurd h1 h3.2
  · intro m h1 h2 h3
    simp only [List.mem_append, List.mem_singleton] at h1
    rcases h1 with h1 | h1
    · have hn := ne m h1
      rw [Function.update_of_ne hn]; exact i m h1 h2 h3
    · obtain ⟨m', h4, h5⟩ := h3
      have := c m' (hDA m' h4)
      subst h1; simp only at h5; omega
  · intro i' hi'
    rw [Function.update_of_ne (by omega)]; exact j i' (by omega)
  · intro i' f' hf
    by_cases hi : i' = calls
    · subst hi; rw [Function.update_self] at hf; cases hf
    · rw [Function.update_of_ne hi] at hf; exact k i' f' hf
  · intro i' hf
    by_cases hi : i' = calls
    · exact ⟨⟨calls, r⟩, by simp, hi.symm⟩
    · rw [Function.update_of_ne hi] at hf
      obtain ⟨m, hm, he⟩ := p i' hf
      exact ⟨m, by simp [hm], he⟩
  · intro m hm
    simp only [List.mem_append, List.mem_singleton] at hm
    rcases hm with hm | rfl
    · rw [Function.update_of_ne (ne m hm)]; exact q m hm
    · simp

/-- a response future moves on -/
theorem setFut (h : MInv S A Df P R shots futs calls dying failed) {i : Nat} {v : BFut S.φ Err} (h0 : futs i ≠ .none)
    (hd : v = .dropped ∨ futs i ≠ .dropped) (hw : v = .dropped ∨ shots i ≠ .waiting) (h1 : v ≠ .none) (h2 : ∀ e, v ≠ .failed e) (h3 : v ≠ .rx)
    (hin : ∀ f, v = .inner f → ∃ m f0, (m, f0) ∈ Df ∧ m.id = i ∧ Desc S f0 f) :
    MInv S A Df P R shots (Function.update futs i v) calls dying failed := by
  obtain ⟨a, b, c, d, e, f, g, i', j, k, p, q⟩ := h
  have drop : ∀ n, futs n = .dropped → Function.update futs i v n = .dropped := by
    intro n hn
    by_cases hni : n = i
    · subst hni
      rw [Function.update_self]
      rcases hd with h' | h'
      · exact h'
      · exact absurd hn h'
    · rw [Function.update_of_ne hni]; exact hn
  have wait : ∀ n, shots n = .waiting → (futs n = .rx ∨ futs n = .dropped) →
      (Function.update futs i v n = .rx ∨ Function.update futs i v n = .dropped) := by
    intro n hn hf
    by_cases hni : n = i
    · subst hni
      rw [Function.update_self]
      rcases hw with h' | h'
      · exact .inr h'
      · exact absurd hn h'
    · rw [Function.update_of_ne hni]; exact hf
  refine ⟨a, b, c, ?_, ?_, ?_, ?_, ?_, ?_, ?_, ?_, ?_⟩
  · intro m hm; exact ⟨(d m hm).1, wait _ (d m hm).1 (d m hm).2⟩
  · intro m f' hR; exact ⟨(e m f' hR).1, wait _ (e m f' hR).1 (e m f' hR).2.1, (e m f' hR).2.2⟩
  · intro m f' hD
    rcases f m f' hD with h5 | h5 | ⟨h5, h6⟩
    · exact .inl h5
    · exact .inr (.inl h5)
    · exact .inr (.inr ⟨h5, drop _ h6⟩)
  · intro m h5 h6 h7
    rcases g m h5 h6 h7 with h8 | h8
    · exact .inl (drop _ h8)
    · exact .inr h8
  · intro m h5 h6 h7; exact drop _ (i' m h5 h6 h7)
  · intro n hn
    by_cases hni : n = i
    · subst hni; exact absurd (j n hn) h0
    · rw [Function.update_of_ne hni]; exact j n hn
  · intro n f' hf
    by_cases hni : n = i
    · subst hni; rw [Function.update_self] at hf; exact hin f' hf
    · rw [Function.update_of_ne hni] at hf; exact k n f' hf
  · intro n hf
    by_cases hni : n = i
    · subst hni; rw [Function.update_self] at hf; exact absurd hf h3
    · rw [Function.update_of_ne hni] at hf; exact p n hf
  · intro m hm
    by_cases hni : m.id = i
    · rw [hni, Function.update_self]; exact ⟨h1, h2⟩
    · rw [Function.update_of_ne hni]; exact q m hm

end MInv

/-- the invariant of messages of a state after a history -/
def MsgInv (tr : List (BEv S)) (x : Buf S) : Prop :=
  MInv S (accepted tr) (dispatches tr) x.pend x.pc.replying x.shots x.futs x.calls x.dying x.failed

theorem accepted_append (t u : List (BEv S)) : accepted (t ++ u) = accepted t ++ accepted u := by
  induction t with
  | nil => rfl
  | cons e t ih => cases e <;> simp [accepted, ih]

theorem dispatches_append (t u : List (BEv S)) : dispatches (t ++ u) = dispatches t ++ dispatches u := by
  induction t with
  | nil => rfl
  | cons e t ih => cases e <;> simp [dispatches, ih]

theorem MsgInv.init (bound : Nat) (svc : S.σ) : MsgInv [] (Buf.init S bound svc) := by
  constructor <;> simp [Buf.init, accepted, dispatches, Buf.pend, WPc.pend, WPc.replying]

/-- a step that does not concern messages -/
theorem MsgInv.of_same {x y : Buf S} {tr ev} (h : MsgInv tr x) (ha : accepted [ev] = []) (hd : dispatches [ev] = []) (hp : y.pend = x.pend)
    (hr : y.pc.replying = x.pc.replying) (h1 : y.shots = x.shots) (h2 : y.futs = x.futs) (h3 : y.calls = x.calls) (h4 : x.dying → y.dying)
    (h5 : ∀ e, x.failed = some e → y.failed = some e) : MsgInv (tr ++ [ev]) y := by
  unfold MsgInv at *
  rw [accepted_append, dispatches_append, ha, hd, hp, hr, h1, h2, h3]
  simp only [List.append_nil]
  exact h.same_dying h4 h5

end Tower
