import Verif.Spec.MockSpec
import Mathlib.Data.List.Nodup
import Mathlib.Data.List.Perm.Basic
import Mathlib.Data.List.Range

/-! # Invariants of mocks -/

namespace Tower
set_option linter.unusedSimpArgs false
set_option linter.unusedSectionVars false
variable {Req U E α : Type}

namespace Mock

theorem locked_ok {f : Act (MockW Req U E) α} {w w' : MockW Req U E} {a : α} : (locked f).run w = .ok a w' ↔ w.poisoned = false ∧ f.run w = .ok a w' := by
  unfold locked
  rw [Act.run_bind]
  simp only [Act.run_get]
  split
  · rename_i h; simp [h]
  · rename_i h
    rw [Bool.not_eq_true] at h
    simp [h]

theorem pollReady_ok {k : Nat} {m m' : Mock} {w w' : MockW Req U E} {p : Poll (Except (MErr E) Unit)} : (m.pollReady k).run w = .ok (p, m') w' → w.poisoned = false ∧
    ((w.closed = true ∧ p = .ready (.error .closed) ∧ m' = m ∧ w' = w) ∨
     (w.closed = false ∧ ∃ e, w.err = some e ∧ p = .ready (.error (.user e)) ∧ m' = m ∧ w' = { w with err := none }) ∨
     (w.closed = false ∧ w.err = none ∧ m.canSend = true ∧ p = .ready (.ok ()) ∧ m' = m ∧ w' = w) ∨
     (w.closed = false ∧ w.err = none ∧ m.canSend = false ∧ 0 < w.rem ∧ p = .ready (.ok ()) ∧ m' = { m with canSend := true } ∧ w' = w) ∨
     (w.closed = false ∧ w.err = none ∧ m.canSend = false ∧ w.rem = 0 ∧ p = .pending ∧ m' = m ∧ w' = { w with tasks := w.tasks.filter (fun t => t.1 != m.id) ++ [(m.id, k)] })) := by
  intro h
  unfold pollReady at h
  rw [locked_ok] at h
  obtain ⟨h0, h⟩ := h
  refine ⟨h0, ?_⟩
  rw [Act.run_bind] at h
  simp only [Act.run_get] at h
  split at h
  · rename_i hc
    cases h
    exact Or.inl ⟨hc, rfl, rfl, rfl⟩
  · rename_i hc
    rw [Bool.not_eq_true] at hc
    right
    split at h
    · rename_i e he
      cases h
      exact Or.inl ⟨hc, e, he, rfl, rfl, rfl⟩
    · rename_i he
      right
      split at h
      · rename_i hs
        cases h
        exact Or.inl ⟨hc, he, hs, rfl, rfl, rfl⟩
      · rename_i hs
        rw [Bool.not_eq_true] at hs
        right
        split at h
        · rename_i hr
          split at h
          · cases h
          · cases h
            exact Or.inl ⟨hc, he, hs, hr, rfl, rfl, rfl⟩
        · rename_i hr
          cases h
          exact Or.inr ⟨hc, he, hs, by omega, rfl, rfl, rfl⟩

theorem call_ok {m m' : Mock} {q : Req} {f : Option Nat} {w w' : MockW Req U E} : (m.call q).run w = .ok (f, m') w' → w.poisoned = false ∧
    ((w.closed = true ∧ f = none ∧ m' = m ∧ w' = w) ∨
     (w.closed = false ∧ m.canSend = true ∧ m' = { m with canSend := false } ∧
       ((w.rx = false ∧ f = none ∧ w' = { w with rem := w.rem - 1 }) ∨
        (w.rx = true ∧ f = some w.slots.length ∧ w' = { w with rem := w.rem - 1, slots := w.slots ++ [⟨none, true, true⟩], queue := w.queue ++ [(w.slots.length, q)] })))) := by
  intro h
  unfold call at h
  rw [locked_ok] at h
  obtain ⟨h0, h⟩ := h
  refine ⟨h0, ?_⟩
  rw [Act.run_bind] at h
  simp only [Act.run_get] at h
  have hrem : (if w.rem > 0 then w.rem - 1 else w.rem) = w.rem - 1 := by split <;> omega
  split at h
  · rename_i hc
    cases h
    exact Or.inl ⟨hc, rfl, rfl, rfl⟩
  · rename_i hc
    rw [Bool.not_eq_true] at hc
    right
    split at h
    · cases h
    · rename_i hs
      rw [Bool.not_eq_false] at hs
      refine ⟨hc, hs, ?_⟩
      rw [Act.run_bind] at h
      simp only [Act.run_modify] at h
      split at h
      · rename_i hr
        rw [Act.run_bind] at h
        simp only [Act.run_modify, Act.run_pure] at h
        rw [hrem] at h
        cases h
        exact ⟨rfl, Or.inr ⟨hr, rfl, rfl⟩⟩
      · rename_i hr
        rw [Bool.not_eq_true] at hr
        simp only [Act.run_pure] at h
        rw [hrem] at h
        cases h
        exact ⟨rfl, Or.inl ⟨hr, rfl, rfl⟩⟩

theorem clone_ok {m m' : Mock} {w w' : MockW Req U E} (h : m.clone.run w = .ok m' w') :
    w.poisoned = false ∧ m' = ⟨w.nextId, false⟩ ∧ w' = { w with nextId := w.nextId + 1, senders := w.senders + 1 } := by
  unfold clone at h
  rw [locked_ok] at h
  obtain ⟨h0, h⟩ := h
  cases h
  exact ⟨h0, rfl, rfl⟩

theorem drop_ok {m : Mock} {w w' : MockW Req U E} (h : m.drop.run w = .ok () w') :
    w.poisoned = false ∧ w' = { w with tasks := w.tasks.filter (fun t => t.1 != m.id), senders := w.senders - 1 } := by
  unfold drop at h
  rw [locked_ok] at h
  obtain ⟨h0, h⟩ := h
  cases h
  exact ⟨h0, rfl⟩

theorem allow_ok {n : Nat} {ks : List Nat} {w w' : MockW Req U E} (h : (allow n).run w = .ok ks w') :
    w.poisoned = false ∧ ((0 < n ∧ ks = w.tasks.map Prod.snd ∧ w' = { w with rem := n, tasks := [] }) ∨ (n = 0 ∧ ks = [] ∧ w' = { w with rem := n })) := by
  unfold allow at h
  rw [locked_ok] at h
  obtain ⟨h0, h⟩ := h
  refine ⟨h0, ?_⟩
  rw [Act.run_bind] at h
  simp only [Act.run_get] at h
  rw [Act.run_bind] at h
  simp only [Act.run_modify] at h
  split at h
  · cases h; exact Or.inl ⟨‹_›, rfl, rfl⟩
  · cases h; exact Or.inr ⟨by omega, rfl, rfl⟩

theorem sendError_ok {e : E} {ks : List Nat} {w w' : MockW Req U E} (h : (sendError e).run w = .ok ks w') :
    w.poisoned = false ∧ ks = w.tasks.map Prod.snd ∧ w' = { w with err := some e, tasks := [] } := by
  unfold sendError at h
  rw [locked_ok] at h
  obtain ⟨h0, h⟩ := h
  cases h
  exact ⟨h0, rfl, rfl⟩

theorem dropHandle_ok {ks : List Nat} {w w' : MockW Req U E} (h : dropHandle.run w = .ok ks w') :
    w.poisoned = false ∧ ks = w.tasks.map Prod.snd ∧ w' = { w with closed := true, tasks := [] } := by
  unfold dropHandle at h
  rw [locked_ok] at h
  obtain ⟨h0, h⟩ := h
  cases h
  exact ⟨h0, rfl, rfl⟩

theorem pollRequest_ok {p : Poll (Option (Nat × Req))} {w w' : MockW Req U E} (h : pollRequest.run w = .ok p w') :
    (∃ x l, w.queue = x :: l ∧ p = .ready (some x) ∧ w' = { w with queue := l }) ∨ (w.queue = [] ∧ w.senders = 0 ∧ p = .ready none ∧ w' = w) ∨
    (w.queue = [] ∧ w.senders ≠ 0 ∧ p = .pending ∧ w' = w) := by
  unfold pollRequest at h
  rw [Act.run_bind] at h
  simp only [Act.run_get] at h
  split at h
  · rename_i x l hq
    cases h
    exact Or.inl ⟨x, l, hq, rfl, rfl⟩
  · rename_i hq
    right
    split at h
    · cases h; exact Or.inl ⟨hq, ‹_›, rfl, rfl⟩
    · cases h; exact Or.inr ⟨hq, ‹_›, rfl, rfl⟩

theorem pollFut_ok {n : Nat} {p : Poll (Except (MErr E) U)} {w w' : MockW Req U E} (h : (pollFut (some n)).run w = .ok p w') :
    ∃ s, w.slots[n]? = some s ∧ s.rx = true ∧
      ((∃ v, s.val = some v ∧ p = .ready (output v) ∧ w' = { w with slots := w.slots.modify n (fun s => { s with rx := false }) }) ∨
       (s.val = none ∧ s.tx = true ∧ p = .pending ∧ w' = w) ∨
       (s.val = none ∧ s.tx = false ∧ p = .ready (.error .closed) ∧ w' = { w with slots := w.slots.modify n (fun s => { s with rx := false }) })) := by
  unfold pollFut at h
  rw [Act.run_bind] at h
  simp only [Act.run_get] at h
  split at h
  · cases h
  · rename_i s hs
    refine ⟨s, hs, ?_⟩
    split at h
    · cases h
    · rename_i hr
      rw [Bool.not_eq_false] at hr
      refine ⟨hr, ?_⟩
      split at h
      · rename_i v hv
        cases h
        exact Or.inl ⟨v, hv, rfl, rfl⟩
      · rename_i hv
        right
        split at h
        · cases h; exact Or.inl ⟨hv, ‹_›, rfl, rfl⟩
        · rename_i ht
          rw [Bool.not_eq_true] at ht
          cases h; exact Or.inr ⟨hv, ht, rfl, rfl⟩

end Mock

section logs
variable (log : List (MEv Req U E)) (e : MEv Req U E)
theorem acceptedReqs_snoc : acceptedReqs (log ++ [e]) = acceptedReqs log ++ e.acc := by simp [acceptedReqs]
theorem receivedReqs_snoc : receivedReqs (log ++ [e]) = receivedReqs log ++ e.got := by simp [receivedReqs]
theorem allowance_snoc : allowance (log ++ [e]) = MEv.allowance (allowance log) e := by simp [allowance]
theorem errNow_snoc : errNow (log ++ [e]) = MEv.errNow (errNow log) e := by simp [errNow]
theorem mockReady_snoc (i : Nat) : mockReady (log ++ [e]) i = MEv.mockReady i (mockReady log i) e := by simp [mockReady]
theorem waiting_snoc (i : Nat) : waiting (log ++ [e]) i = MEv.waiting i (waiting log i) e := by simp [waiting]
theorem mocksMade_snoc : mocksMade (log ++ [e]) = mocksMade log + if e.isClone = true then 1 else 0 := by
  unfold mocksMade; rw [List.countP_append]; cases h : e.isClone <;> simp [h, Nat.add_right_comm]
end logs

/-- the invariant, for readiness -/
structure MockInv (s : MSt Req U E) (log : List (MEv Req U E)) : Prop where
  pois : s.w.poisoned = true ↔ Panicked log
  rem : s.w.rem = (allowance log).1 - (allowance log).2
  closed : s.w.closed = true ↔ HandleDropped log
  err : s.w.err = errNow log
  nodup : (s.mocks.map Mock.id).Nodup
  lt : ∀ m ∈ s.mocks, m.id < s.w.nextId
  made : s.w.nextId = mocksMade log
  len : s.mocks.length ≤ s.w.nextId
  can : ∀ m ∈ s.mocks, m.canSend = mockReady log m.id
  tasks : ∀ i k, (i, k) ∈ s.w.tasks ↔ waiting log i = some k
  idle : s.w.tasks ≠ [] → s.w.rem = 0 ∧ s.w.err = none ∧ s.w.closed = false
  tlive : ∀ i k, (i, k) ∈ s.w.tasks → ∃ m ∈ s.mocks, m.id = i ∧ m.canSend = false
  bound : (allowance log).1 ≤ (allowance log).2 → (allowance log).2 + s.mocks.countP Mock.canSend + min 1 (allowance log).1 ≤ (allowance log).1 + s.w.nextId
  hdl : s.handle = false → s.w.closed = true ∨ s.w.poisoned = true
  hdl' : s.w.closed = true → s.handle = false
  rx : s.w.rx = false → s.handle = false
  fresh : ∀ i, s.w.nextId ≤ i → mockReady log i = false ∧ waiting log i = none

/-- an event that does not matter for readiness -/
structure MEv.Neutral (e : MEv Req U E) : Prop where
  a : ∀ a, MEv.allowance a e = a
  r : ∀ a, MEv.errNow a e = a
  rd : ∀ i a, MEv.mockReady i a e = a
  wt : ∀ i a, MEv.waiting i a e = a
  cl : e.isClone = false
  pn : e ≠ .panicked
  hd : ∀ ks, e ≠ .handleDropped ks

theorem panicked_snoc {log : List (MEv Req U E)} {e : MEv Req U E} (h : e ≠ .panicked) : Panicked (log ++ [e]) ↔ Panicked log := by
  unfold Panicked
  simp only [List.mem_append, List.mem_singleton]
  exact ⟨fun x => x.elim id (fun y => absurd y.symm h), Or.inl⟩

theorem handleDropped_snoc {log : List (MEv Req U E)} {e : MEv Req U E} (h : ∀ ks, e ≠ .handleDropped ks) : HandleDropped (log ++ [e]) ↔ HandleDropped log := by
  unfold HandleDropped
  simp only [List.mem_append, List.mem_singleton]
  exact ⟨fun ⟨ks, x⟩ => ⟨ks, x.elim id (fun y => absurd y.symm (h ks))⟩, fun ⟨ks, x⟩ => ⟨ks, Or.inl x⟩⟩

theorem MockInv.neutral {s s' : MSt Req U E} {log : List (MEv Req U E)} {e : MEv Req U E} (h : MockInv s log) (hn : e.Neutral) (h1 : s'.w.poisoned = s.w.poisoned) (h2 : s'.w.rem = s.w.rem)
    (h3 : s'.w.tasks = s.w.tasks) (h4 : s'.w.closed = s.w.closed) (h5 : s'.w.nextId = s.w.nextId) (h6 : s'.w.err = s.w.err) (h7 : s'.mocks = s.mocks) (h8 : s'.handle = s.handle)
    (h9 : s'.w.rx = false → s.handle = false) : MockInv s' (log ++ [e]) where
  pois := by rw [h1, panicked_snoc hn.pn]; exact h.pois
  rem := by rw [h2, allowance_snoc, hn.a]; exact h.rem
  closed := by rw [h4, handleDropped_snoc hn.hd]; exact h.closed
  err := by rw [h6, errNow_snoc, hn.r]; exact h.err
  nodup := by rw [h7]; exact h.nodup
  lt := by rw [h7, h5]; exact h.lt
  made := by rw [h5, mocksMade_snoc, hn.cl]; exact h.made
  len := by rw [h7, h5]; exact h.len
  can := by rw [h7]; intro m hm; rw [mockReady_snoc, hn.rd]; exact h.can m hm
  tasks := by rw [h3]; intro i k; rw [waiting_snoc, hn.wt]; exact h.tasks i k
  idle := by rw [h3, h2, h6, h4]; exact h.idle
  tlive := by rw [h3, h7]; exact h.tlive
  bound := by rw [allowance_snoc, hn.a, h7, h5]; exact h.bound
  hdl := by rw [h8, h4, h1]; exact h.hdl
  hdl' := by rw [h8, h4]; exact h.hdl'
  rx := by rw [h8]; exact h9
  fresh := by rw [h5]; intro i hi; rw [mockReady_snoc, hn.rd, waiting_snoc, hn.wt]; exact h.fresh i hi

theorem MockInv.tasks_nil {s : MSt Req U E} {log : List (MEv Req U E)} (h : MockInv s log) (hh : s.w.rem ≠ 0 ∨ s.w.err ≠ none ∨ s.w.closed = true) : s.w.tasks = [] := by
  by_contra hne
  obtain ⟨h1, h2, h3⟩ := h.idle hne
  rcases hh with hh | hh | hh
  · exact hh h1
  · exact hh h2
  · rw [h3] at hh; cases hh

theorem MockInv.waiting_none {s : MSt Req U E} {log : List (MEv Req U E)} (h : MockInv s log) (ht : s.w.tasks = []) (i : Nat) : waiting log i = none := by
  cases hw : waiting log i with
  | none => rfl
  | some k => have := (h.tasks i k).2 hw; rw [ht] at this; cases this

theorem id_ne_of_nodup {l l' : List Mock} {m : Mock} (h : ((l ++ m :: l').map Mock.id).Nodup) : ∀ x ∈ l ++ l', x.id ≠ m.id := by
  simp only [List.map_append, List.map_cons, List.nodup_append, List.nodup_cons, List.mem_map, List.mem_cons] at h
  intro x hx he
  rcases List.mem_append.1 hx with hx | hx
  · exact h.2.2 x.id ⟨x, hx, rfl⟩ m.id (Or.inl rfl) he
  · exact h.2.1.1 ⟨x, hx, he⟩

theorem mockReady_poll_of_true {log : List (MEv Req U E)} {j : Nat} (h : mockReady log j = true) (i k : Nat) : mockReady (log ++ [.poll j k (.ready (.ok ()))]) i = mockReady log i := by
  rw [mockReady_snoc]; simp only [MEv.mockReady]
  split
  · rename_i he; rw [← he]; exact h.symm
  · rfl

theorem MockInv.poison {s : MSt Req U E} {log : List (MEv Req U E)} (ih : MockInv s log) : MockInv s.poison (log ++ [.panicked]) :=
  { ih with
    pois := by simp [MSt.poison, Panicked]
    rem := by rw [allowance_snoc]; exact ih.rem
    closed := by rw [handleDropped_snoc (by simp)]; exact ih.closed
    err := by rw [errNow_snoc]; exact ih.err
    made := by rw [mocksMade_snoc]; exact ih.made
    can := by intro x hx; rw [mockReady_snoc]; exact ih.can x hx
    tasks := by intro i k; rw [waiting_snoc]; exact ih.tasks i k
    bound := by rw [allowance_snoc]; exact ih.bound
    hdl := by intro _; exact Or.inr rfl
    fresh := by intro i hi; rw [mockReady_snoc, waiting_snoc]; exact ih.fresh i hi }

theorem MockInv.rx_true {s : MSt Req U E} {log : List (MEv Req U E)} (ih : MockInv s log) (h1 : s.w.closed = false) (h2 : s.w.poisoned = false) : s.w.rx = true := by
  by_contra h
  rw [Bool.not_eq_true] at h
  rcases ih.hdl (ih.rx h) with h | h
  · rw [h1] at h; cases h
  · rw [h2] at h; cases h

theorem MRun.minv {s : MSt Req U E} {log : List (MEv Req U E)} (h : MRun s log) : MockInv s log := by
  induction h with
  | pair =>
    constructor <;> simp [Mock.world0, Mock.pair, Panicked, allowance, HandleDropped, errNow, mockReady, waiting, mocksMade]
  | @poll s log l m l' k p m' w' _ hm hr ih =>
    have hmem : m ∈ s.mocks := by rw [hm]; simp
    have hne := id_ne_of_nodup (hm ▸ ih.nodup)
    obtain ⟨hp, hc⟩ := Mock.pollReady_ok hr
    rcases hc with ⟨h1, rfl, rfl, rfl⟩ | ⟨h1, e, h2, rfl, rfl, rfl⟩ | ⟨h1, h2, h3, rfl, rfl, rfl⟩ | ⟨h1, h2, h3, h4, rfl, rfl, rfl⟩ | ⟨h1, h2, h3, h4, rfl, rfl, rfl⟩
    · rw [← hm]
      have ht := ih.tasks_nil (Or.inr (Or.inr h1))
      have hw := ih.waiting_none ht
      exact { ih with
        pois := by rw [panicked_snoc (by simp)]; exact ih.pois
        rem := by rw [allowance_snoc]; exact ih.rem
        closed := by rw [handleDropped_snoc (by simp)]; exact ih.closed
        err := by rw [errNow_snoc]; exact ih.err
        made := by rw [mocksMade_snoc]; exact ih.made
        can := by intro x hx; rw [mockReady_snoc]; exact ih.can x hx
        tasks := by intro i k'; rw [waiting_snoc]; simp [MEv.waiting, ht, hw]
        bound := by rw [allowance_snoc]; exact ih.bound
        fresh := by intro i hi; rw [mockReady_snoc, waiting_snoc]; refine ⟨(ih.fresh i hi).1, ?_⟩; simp [MEv.waiting, hw] }
    · rw [← hm]
      have ht := ih.tasks_nil (Or.inr (Or.inl (by rw [h2]; simp)))
      have hw := ih.waiting_none ht
      exact { ih with
        pois := by rw [panicked_snoc (by simp)]; exact ih.pois
        rem := by rw [allowance_snoc]; exact ih.rem
        closed := by rw [handleDropped_snoc (by simp)]; exact ih.closed
        err := by rw [errNow_snoc]; rfl
        made := by rw [mocksMade_snoc]; exact ih.made
        can := by intro x hx; rw [mockReady_snoc]; exact ih.can x hx
        tasks := by intro i k'; rw [waiting_snoc]; simp [MEv.waiting, ht, hw]
        idle := by intro hh; exact absurd ht hh
        bound := by rw [allowance_snoc]; exact ih.bound
        fresh := by intro i hi; rw [mockReady_snoc, waiting_snoc]; refine ⟨(ih.fresh i hi).1, ?_⟩; simp [MEv.waiting, hw] }
    · rw [← hm]
      have hrd : mockReady log m'.id = true := by rw [← ih.can m' hmem]; exact h3
      have hwt : ∀ i, waiting (log ++ [.poll m'.id k (.ready (.ok ()))]) i = waiting log i := by
        intro i
        rw [waiting_snoc]; simp only [MEv.waiting]
        split
        · rename_i he
          cases hw : waiting log i with
          | none => rfl
          | some k' =>
            obtain ⟨x, hx, hxi, hxc⟩ := ih.tlive i k' ((ih.tasks i k').2 hw)
            have : x = m' := List.inj_on_of_nodup_map ih.nodup hx hmem (hxi.trans he.symm)
            rw [this, h3] at hxc; cases hxc
        · rfl
      exact { ih with
        pois := by rw [panicked_snoc (by simp)]; exact ih.pois
        rem := by rw [allowance_snoc]; exact ih.rem
        closed := by rw [handleDropped_snoc (by simp)]; exact ih.closed
        err := by rw [errNow_snoc]; exact ih.err
        made := by rw [mocksMade_snoc]; exact ih.made
        can := by intro x hx; rw [mockReady_poll_of_true hrd]; exact ih.can x hx
        tasks := by intro i k'; rw [hwt]; exact ih.tasks i k'
        bound := by rw [allowance_snoc]; exact ih.bound
        fresh := by intro i hi; rw [mockReady_poll_of_true hrd, hwt]; exact ih.fresh i hi }
    · have ht := ih.tasks_nil (Or.inl (by omega))
      have hw := ih.waiting_none ht
      exact { ih with
        pois := by rw [panicked_snoc (by simp)]; exact ih.pois
        rem := by rw [allowance_snoc]; exact ih.rem
        closed := by rw [handleDropped_snoc (by simp)]; exact ih.closed
        err := by rw [errNow_snoc]; exact ih.err
        nodup := by have := ih.nodup; rw [hm] at this; simpa using this
        lt := by
          intro x hx
          simp only [List.mem_append, List.mem_cons] at hx
          rcases hx with hx | rfl | hx
          · exact ih.lt x (by rw [hm]; simp [hx])
          · exact ih.lt m hmem
          · exact ih.lt x (by rw [hm]; simp [hx])
        len := by have := ih.len; rw [hm] at this; simpa using this
        made := by rw [mocksMade_snoc]; exact ih.made
        can := by
          intro x hx
          rw [mockReady_snoc]
          simp only [List.mem_append, List.mem_cons] at hx
          by_cases hxm : x = { m with canSend := true }
          · subst hxm; simp [MEv.mockReady]
          · have hx' : x ∈ l ++ l' := by simp; tauto
            rw [MEv.mockReady, if_neg (fun e => hne x hx' e.symm)]
            exact ih.can x (by rw [hm]; simp; simp at hx'; tauto)
        tasks := by intro i k'; rw [waiting_snoc]; simp [MEv.waiting, ht, hw]
        idle := by intro hh; exact absurd ht hh
        tlive := by intro i k hh; rw [ht] at hh; cases hh
        bound := by
          rw [allowance_snoc]
          simp only [MEv.allowance]
          intro hh
          have := ih.rem
          omega
        fresh := by
          intro i hi
          have hmi : m.id ≠ i := by have := ih.lt m hmem; have hi' : s.w.nextId ≤ i := hi; omega
          rw [mockReady_snoc, waiting_snoc]
          simp only [MEv.mockReady, MEv.waiting, if_neg hmi]
          exact ih.fresh i hi }
    · rw [← hm]
      exact { ih with
        pois := by rw [panicked_snoc (by simp)]; exact ih.pois
        rem := by rw [allowance_snoc]; exact ih.rem
        closed := by rw [handleDropped_snoc (by simp)]; exact ih.closed
        err := by rw [errNow_snoc]; exact ih.err
        made := by rw [mocksMade_snoc]; exact ih.made
        can := by intro x hx; rw [mockReady_snoc]; exact ih.can x hx
        tasks := by
          intro i k'
          rw [waiting_snoc]
          simp only [MEv.waiting, List.mem_append, List.mem_filter, List.mem_singleton, Prod.mk.injEq, bne_iff_ne, ne_eq]
          by_cases he : m'.id = i
          · subst he; simp [eq_comm]
          · rw [if_neg he, ← ih.tasks i k']
            constructor
            · rintro (⟨hh, _⟩ | ⟨hh, _⟩)
              · exact hh
              · exact absurd hh.symm he
            · intro hh; exact Or.inl ⟨hh, fun x => he x.symm⟩
        idle := by intro _; exact ⟨h4, h2, h1⟩
        tlive := by
          intro i k' hh
          simp only [List.mem_append, List.mem_filter, List.mem_singleton, Prod.mk.injEq] at hh
          rcases hh with ⟨hh, _⟩ | ⟨rfl, rfl⟩
          · exact ih.tlive i k' hh
          · exact ⟨m', hmem, rfl, h3⟩
        bound := by rw [allowance_snoc]; exact ih.bound
        fresh := by
          intro i hi
          have hmi : m'.id ≠ i := by have := ih.lt m' hmem; have hi' : s.w.nextId ≤ i := hi; omega
          rw [mockReady_snoc, waiting_snoc]
          simp only [MEv.mockReady, MEv.waiting, if_neg hmi]
          exact ih.fresh i hi }
  | pollPanics _ _ _ ih => exact ih.poison
  | @call s log l m l' q f m' w' _ hm hr ih =>
    have hmem : m ∈ s.mocks := by rw [hm]; simp
    have hne := id_ne_of_nodup (hm ▸ ih.nodup)
    obtain ⟨hp, hc⟩ := Mock.call_ok hr
    rcases hc with ⟨h1, rfl, rfl, rfl⟩ | ⟨h1, h2, rfl, hc⟩
    · rw [← hm]
      exact ih.neutral ⟨fun _ => rfl, fun _ => rfl, fun _ _ => rfl, fun _ _ => rfl, rfl, by simp, by simp⟩ rfl rfl rfl rfl rfl rfl rfl rfl ih.rx
    · rcases hc with ⟨h3, _, _⟩ | ⟨h3, rfl, rfl⟩
      · rw [ih.rx_true h1 hp] at h3; cases h3
      · have hcount : s.mocks.countP Mock.canSend = (l ++ { m with canSend := false } :: l').countP Mock.canSend + 1 := by
          rw [hm]; simp [List.countP_append, List.countP_cons, h2]; omega
        have hcl : s.mocks.countP Mock.canSend ≤ s.mocks.length := List.countP_le_length
        have hlen := ih.len
        exact { ih with
          pois := by rw [panicked_snoc (by simp)]; exact ih.pois
          rem := by rw [allowance_snoc]; simp only [MEv.allowance]; have := ih.rem; omega
          closed := by rw [handleDropped_snoc (by simp)]; exact ih.closed
          err := by rw [errNow_snoc]; exact ih.err
          nodup := by have := ih.nodup; rw [hm] at this; simpa using this
          lt := by
            intro x hx
            simp only [List.mem_append, List.mem_cons] at hx
            rcases hx with hx | rfl | hx
            · exact ih.lt x (by rw [hm]; simp [hx])
            · exact ih.lt m hmem
            · exact ih.lt x (by rw [hm]; simp [hx])
          len := by have := ih.len; rw [hm] at this; simpa using this
          made := by rw [mocksMade_snoc]; exact ih.made
          can := by
            intro x hx
            rw [mockReady_snoc]
            simp only [List.mem_append, List.mem_cons] at hx
            by_cases hxm : x = { m with canSend := false }
            · subst hxm; simp [MEv.mockReady]
            · have hx' : x ∈ l ++ l' := by simp; tauto
              rw [MEv.mockReady, if_neg (fun e => hne x hx' e.symm)]
              exact ih.can x (by rw [hm]; simp; simp at hx'; tauto)
          tasks := by intro i k'; rw [waiting_snoc]; exact ih.tasks i k'
          idle := by
            intro hh
            obtain ⟨a1, a2, a3⟩ := ih.idle hh
            exact ⟨by simp only; omega, a2, a3⟩
          tlive := by
            intro i k hh
            obtain ⟨x, hx, hxi, hxc⟩ := ih.tlive i k hh
            refine ⟨x, ?_, hxi, hxc⟩
            rw [hm] at hx
            simp only [List.mem_append, List.mem_cons] at hx ⊢
            rcases hx with hx | rfl | hx
            · exact Or.inl hx
            · rw [h2] at hxc; cases hxc
            · exact Or.inr (Or.inr hx)
          bound := by
            rw [allowance_snoc]
            simp only [MEv.allowance]
            intro hh
            have hb := ih.bound
            have := ih.rem
            by_cases hle : (allowance log).1 ≤ (allowance log).2
            · have := hb hle
              omega
            · omega
          fresh := by
            intro i hi
            have hmi : m.id ≠ i := by have := ih.lt m hmem; have hi' : s.w.nextId ≤ i := hi; omega
            rw [mockReady_snoc, waiting_snoc]
            simp only [MEv.mockReady, MEv.waiting, if_neg hmi]
            exact ih.fresh i hi }
  | callPanics _ _ _ ih => exact ih.poison
  | @clone s log m m' w' _ hm hr ih =>
    obtain ⟨hp, rfl, rfl⟩ := Mock.clone_ok hr
    exact { ih with
      pois := by rw [panicked_snoc (by simp)]; exact ih.pois
      rem := by rw [allowance_snoc]; exact ih.rem
      closed := by rw [handleDropped_snoc (by simp)]; exact ih.closed
      err := by rw [errNow_snoc]; exact ih.err
      nodup := by
        rw [List.map_append, List.nodup_append]
        refine ⟨ih.nodup, by simp, ?_⟩
        intro a ha b hb
        simp only [List.map_cons, List.map_nil, List.mem_singleton] at hb
        obtain ⟨x, hx, rfl⟩ := List.mem_map.1 ha
        have := ih.lt x hx
        omega
      lt := by
        intro x hx
        simp only [List.mem_append, List.mem_singleton] at hx
        rcases hx with hx | rfl
        · have := ih.lt x hx; simp only; omega
        · simp
      made := by rw [mocksMade_snoc]; simp only [MEv.isClone, if_true]; rw [ih.made]
      len := by have := ih.len; simp only [List.length_append, List.length_singleton]; omega
      can := by
        intro x hx
        rw [mockReady_snoc]
        simp only [List.mem_append, List.mem_singleton] at hx
        rcases hx with hx | rfl
        · exact ih.can x hx
        · exact ((ih.fresh _ (Nat.le_refl _)).1).symm
      tasks := by intro i k; rw [waiting_snoc]; exact ih.tasks i k
      tlive := by
        intro i k hh
        obtain ⟨x, hx, hh⟩ := ih.tlive i k hh
        exact ⟨x, List.mem_append_left _ hx, hh⟩
      bound := by
        rw [allowance_snoc, List.countP_append]
        simp only [MEv.allowance, List.countP_singleton]
        intro hh
        have := ih.bound hh
        simp only [Bool.false_eq_true, if_false]
        omega
      fresh := by
        intro i hi
        rw [mockReady_snoc, waiting_snoc]
        exact ih.fresh i (by simp only at hi; omega) }
  | @drop s log l m l' w' _ hm hr ih =>
    have hmem : m ∈ s.mocks := by rw [hm]; simp
    have hne := id_ne_of_nodup (hm ▸ ih.nodup)
    obtain ⟨hp, rfl⟩ := Mock.drop_ok hr
    have hsub : ∀ x ∈ l ++ l', x ∈ s.mocks := by intro x hx; rw [hm]; simp at hx ⊢; tauto
    exact { ih with
      pois := by rw [panicked_snoc (by simp)]; exact ih.pois
      rem := by rw [allowance_snoc]; exact ih.rem
      closed := by rw [handleDropped_snoc (by simp)]; exact ih.closed
      err := by rw [errNow_snoc]; exact ih.err
      nodup := by
        refine List.Nodup.sublist (List.Sublist.map _ ?_) ih.nodup
        rw [hm]
        exact List.Sublist.append (List.Sublist.refl _) (List.sublist_cons_self _ _)
      lt := fun x hx => ih.lt x (hsub x hx)
      made := by rw [mocksMade_snoc]; exact ih.made
      len := by have := ih.len; rw [hm] at this; simp at this ⊢; omega
      can := by intro x hx; rw [mockReady_snoc]; exact ih.can x (hsub x hx)
      tasks := by
        intro i k
        rw [waiting_snoc]
        simp only [MEv.waiting, List.mem_filter, bne_iff_ne, ne_eq]
        by_cases he : m.id = i
        · simp [he]
        · rw [if_neg he, ← ih.tasks i k]
          exact ⟨fun hh => hh.1, fun hh => ⟨hh, fun x => he x.symm⟩⟩
      idle := by
        intro hh
        apply ih.idle
        intro hn
        simp only [hn, List.filter_nil, ne_eq, not_true_eq_false] at hh
      tlive := by
        intro i k hh
        simp only [List.mem_filter, bne_iff_ne, ne_eq] at hh
        obtain ⟨x, hx, hxi, hxc⟩ := ih.tlive i k hh.1
        refine ⟨x, ?_, hxi, hxc⟩
        rw [hm] at hx
        simp only [List.mem_append, List.mem_cons] at hx ⊢
        rcases hx with hx | rfl | hx
        · exact Or.inl hx
        · exact absurd hxi.symm hh.2
        · exact Or.inr hx
      bound := by
        rw [allowance_snoc]
        simp only [MEv.allowance]
        intro hh
        have := ih.bound hh
        rw [hm] at this
        simp only [List.countP_append, List.countP_cons] at this ⊢
        omega
      fresh := by
        intro i hi
        have hmi : m.id ≠ i := by have := ih.lt m hmem; have hi' : s.w.nextId ≤ i := hi; omega
        rw [mockReady_snoc, waiting_snoc]
        simp only [MEv.mockReady, MEv.waiting, if_neg hmi]
        exact ih.fresh i hi }
  | @recv s log p w' _ hh hr ih =>
    have : ∀ p, (MEv.received p : MEv Req U E).Neutral := fun p => ⟨fun _ => rfl, fun _ => rfl, fun _ _ => rfl, fun _ _ => rfl, rfl, by simp, by simp⟩
    rcases Mock.pollRequest_ok hr with ⟨x, l, _, _, rfl⟩ | ⟨_, _, _, rfl⟩ | ⟨_, _, _, rfl⟩ <;>
    exact ih.neutral (this p) rfl rfl rfl rfl rfl rfl rfl rfl ih.rx
  | @allow s log n ks w' _ hh hr ih =>
    have hcl : s.mocks.countP Mock.canSend ≤ s.mocks.length := List.countP_le_length
    have hlen := ih.len
    obtain ⟨hp, ⟨hn, _, rfl⟩ | ⟨rfl, _, rfl⟩⟩ := Mock.allow_ok hr
    · exact { ih with
        pois := by rw [panicked_snoc (by simp)]; exact ih.pois
        rem := by rw [allowance_snoc]; rfl
        closed := by rw [handleDropped_snoc (by simp)]; exact ih.closed
        err := by rw [errNow_snoc]; exact ih.err
        made := by rw [mocksMade_snoc]; exact ih.made
        can := by intro x hx; rw [mockReady_snoc]; exact ih.can x hx
        tasks := by intro i k; rw [waiting_snoc]; simp [MEv.waiting, hn]
        idle := by intro hh; exact absurd rfl hh
        tlive := by intro i k hh; cases hh
        bound := by
          rw [allowance_snoc]
          simp only [MEv.allowance]
          intro hh; omega
        fresh := by
          intro i hi
          rw [mockReady_snoc, waiting_snoc]
          exact ⟨(ih.fresh i hi).1, by simp [MEv.waiting, hn]⟩ }
    · exact { ih with
        pois := by rw [panicked_snoc (by simp)]; exact ih.pois
        rem := by rw [allowance_snoc]; rfl
        closed := by rw [handleDropped_snoc (by simp)]; exact ih.closed
        err := by rw [errNow_snoc]; exact ih.err
        made := by rw [mocksMade_snoc]; exact ih.made
        can := by intro x hx; rw [mockReady_snoc]; exact ih.can x hx
        tasks := by intro i k; rw [waiting_snoc]; exact ih.tasks i k
        idle := by intro hh; exact ⟨rfl, (ih.idle hh).2⟩
        bound := by
          rw [allowance_snoc]
          simp only [MEv.allowance]
          intro hh
          omega
        fresh := by
          intro i hi
          rw [mockReady_snoc, waiting_snoc]
          exact ih.fresh i hi }
  | @sendError s log e ks w' _ hh hr ih =>
    obtain ⟨hp, _, rfl⟩ := Mock.sendError_ok hr
    exact { ih with
      pois := by rw [panicked_snoc (by simp)]; exact ih.pois
      rem := by rw [allowance_snoc]; exact ih.rem
      closed := by rw [handleDropped_snoc (by simp)]; exact ih.closed
      err := by rw [errNow_snoc]; rfl
      made := by rw [mocksMade_snoc]; exact ih.made
      can := by intro x hx; rw [mockReady_snoc]; exact ih.can x hx
      tasks := by intro i k; rw [waiting_snoc]; simp [MEv.waiting]
      idle := by intro hh; exact absurd rfl hh
      tlive := by intro i k hh; cases hh
      bound := by rw [allowance_snoc]; exact ih.bound
      fresh := by
        intro i hi
        rw [mockReady_snoc, waiting_snoc]
        exact ⟨(ih.fresh i hi).1, rfl⟩ }
  | @dropHandle s log ks w' _ hh hr ih =>
    obtain ⟨hp, _, rfl⟩ := Mock.dropHandle_ok hr
    exact { ih with
      pois := by rw [panicked_snoc (by simp)]; exact ih.pois
      rem := by rw [allowance_snoc]; exact ih.rem
      closed := ⟨fun _ => ⟨ks, by simp⟩, fun _ => rfl⟩
      err := by rw [errNow_snoc]; exact ih.err
      made := by rw [mocksMade_snoc]; exact ih.made
      can := by intro x hx; rw [mockReady_snoc]; exact ih.can x hx
      tasks := by intro i k; rw [waiting_snoc]; simp [MEv.waiting]
      idle := by intro hh; exact absurd rfl hh
      tlive := by intro i k hh; cases hh
      bound := by rw [allowance_snoc]; exact ih.bound
      hdl := fun _ => Or.inl rfl
      hdl' := fun _ => rfl
      rx := fun _ => rfl
      fresh := by
        intro i hi
        rw [mockReady_snoc, waiting_snoc]
        exact ⟨(ih.fresh i hi).1, rfl⟩ }
  | dropHandlePanics _ _ _ ih =>
    exact { ih.poison with hdl := fun _ => Or.inr rfl, hdl' := fun _ => rfl, rx := fun _ => rfl }
  | dropRx _ hh _ hr ih =>
    cases hr
    exact ih.neutral ⟨fun _ => rfl, fun _ => rfl, fun _ _ => rfl, fun _ _ => rfl, rfl, by simp, by simp⟩ rfl rfl rfl rfl rfl rfl rfl rfl (fun _ => hh)
  | respond _ _ hr ih =>
    cases hr
    exact ih.neutral ⟨fun _ => rfl, fun _ => rfl, fun _ _ => rfl, fun _ _ => rfl, rfl, by simp, by simp⟩ rfl rfl rfl rfl rfl rfl rfl rfl ih.rx
  | dropResponse _ _ hr ih =>
    cases hr
    exact ih.neutral ⟨fun _ => rfl, fun _ => rfl, fun _ _ => rfl, fun _ _ => rfl, rfl, by simp, by simp⟩ rfl rfl rfl rfl rfl rfl rfl rfl ih.rx
  | @pollFut s log n p w' _ hr ih =>
    obtain ⟨sl, _, _, hc⟩ := Mock.pollFut_ok hr
    have : ∀ p, (MEv.futPolled n p : MEv Req U E).Neutral := fun p => ⟨fun _ => rfl, fun _ => rfl, fun _ _ => rfl, fun _ _ => rfl, rfl, by simp, by simp⟩
    rcases hc with ⟨v, _, _, rfl⟩ | ⟨_, _, _, rfl⟩ | ⟨_, _, _, rfl⟩ <;>
    exact ih.neutral (this p) rfl rfl rfl rfl rfl rfl rfl rfl ih.rx
  | dropFut _ _ hr ih =>
    cases hr
    exact ih.neutral ⟨fun _ => rfl, fun _ => rfl, fun _ _ => rfl, fun _ _ => rfl, rfl, by simp, by simp⟩ rfl rfl rfl rfl rfl rfl rfl rfl ih.rx
end Tower
