import Verif.Proof.Mock1

/-! # Invariants of mocks: requests and responses -/

namespace Tower
set_option linter.unusedSimpArgs false
set_option linter.unusedSectionVars false
variable {Req U E α : Type}

section logs
variable (log : List (MEv Req U E)) (e : MEv Req U E)
theorem answers_snoc : answers (log ++ [e]) = answers log ++ e.ans := by simp [answers]
theorem futDone_snoc : futDone (log ++ [e]) = futDone log ++ e.fin := by simp [futDone]
end logs

/-- the invariant, for requests and responses -/
structure MChan (s : MSt Req U E) (log : List (MEv Req U E)) : Prop where
  nums : (acceptedReqs log).map Prod.fst = List.range s.w.slots.length
  que : s.w.rx = true → receivedReqs log ++ s.w.queue = acceptedReqs log
  que' : s.w.rx = false → s.w.queue = [] ∧ receivedReqs log <+: acceptedReqs log
  held : (s.held ++ answers log).Perm ((receivedReqs log).map Prod.fst)
  senders : s.w.senders = s.mocks.length
  tx : ∀ n sl, s.w.slots[n]? = some sl → (sl.tx = true ↔ n ∈ s.held ∨ n ∈ s.w.queue.map Prod.fst)
  rxs : ∀ n sl, s.w.slots[n]? = some sl → (sl.rx = false ↔ n ∈ futDone log)
  val : ∀ n sl, s.w.slots[n]? = some sl → sl.rx = true → ∀ r, sl.val = some r ↔ .responded n r ∈ log
  doneLt : ∀ n ∈ futDone log, n < s.w.slots.length
  qd : s.w.rx = false ↔ .queueDropped ∈ log

/-- an event that does not matter for requests and responses -/
structure MEv.Quiet (e : MEv Req U E) : Prop where
  a : e.acc = []
  g : e.got = []
  n : e.ans = []
  f : e.fin = []
  q : e ≠ .queueDropped
  r : ∀ n r, e ≠ .responded n r

theorem mem_snoc_ne {log : List (MEv Req U E)} {e x : MEv Req U E} (h : e ≠ x) : x ∈ log ++ [e] ↔ x ∈ log := by
  simp only [List.mem_append, List.mem_singleton]
  exact ⟨fun y => y.elim id (fun y => absurd y.symm h), Or.inl⟩

theorem MChan.quiet {s s' : MSt Req U E} {log : List (MEv Req U E)} {e : MEv Req U E} (h : MChan s log) (hn : e.Quiet) (h1 : s'.w.slots = s.w.slots) (h2 : s'.w.queue = s.w.queue)
    (h3 : s'.w.rx = s.w.rx) (h4 : s'.held = s.held) (h5 : s'.w.senders = s'.mocks.length) : MChan s' (log ++ [e]) where
  nums := by rw [acceptedReqs_snoc, hn.a, List.append_nil, h1]; exact h.nums
  que := by rw [acceptedReqs_snoc, hn.a, receivedReqs_snoc, hn.g, List.append_nil, List.append_nil, h2, h3]; exact h.que
  que' := by rw [acceptedReqs_snoc, hn.a, receivedReqs_snoc, hn.g, List.append_nil, List.append_nil, h2, h3]; exact h.que'
  held := by rw [answers_snoc, hn.n, receivedReqs_snoc, hn.g, List.append_nil, List.append_nil, h4]; exact h.held
  senders := h5
  tx := by rw [h1, h2, h4]; exact h.tx
  rxs := by rw [h1, futDone_snoc, hn.f, List.append_nil]; exact h.rxs
  val := by rw [h1]; intro n sl h5 h6 r; rw [mem_snoc_ne (hn.r n r)]; exact h.val n sl h5 h6 r
  doneLt := by rw [h1, futDone_snoc, hn.f, List.append_nil]; exact h.doneLt
  qd := by rw [h3, mem_snoc_ne hn.q]; exact h.qd

theorem MChan.got_lt {s : MSt Req U E} {log : List (MEv Req U E)} (h : MChan s log) : receivedReqs log <+: acceptedReqs log := by
  cases hr : s.w.rx with
  | true => exact ⟨_, h.que hr⟩
  | false => exact (h.que' hr).2

theorem MChan.got_num_lt {s : MSt Req U E} {log : List (MEv Req U E)} (h : MChan s log) {n : Nat} (hn : n ∈ (receivedReqs log).map Prod.fst) : n < s.w.slots.length := by
  have : n ∈ (acceptedReqs log).map Prod.fst := by
    obtain ⟨t, ht⟩ := h.got_lt
    rw [← ht, List.map_append]; exact List.mem_append_left _ hn
  rw [h.nums, List.mem_range] at this
  exact this

theorem MChan.got_nodup {s : MSt Req U E} {log : List (MEv Req U E)} (h : MChan s log) : ((receivedReqs log).map Prod.fst).Nodup := by
  obtain ⟨t, ht⟩ := h.got_lt
  have : ((acceptedReqs log).map Prod.fst).Nodup := by rw [h.nums]; exact List.nodup_range
  rw [← ht, List.map_append, List.nodup_append] at this
  exact this.1

theorem mem_answers_of_responded {log : List (MEv Req U E)} {n : Nat} {r : Except E U} (h : .responded n r ∈ log) : n ∈ answers log := by
  unfold answers
  rw [List.mem_flatMap]
  exact ⟨_, h, by simp [MEv.ans]⟩

theorem MChan.ans_lt {s : MSt Req U E} {log : List (MEv Req U E)} (h : MChan s log) {n : Nat} (hn : n ∈ answers log) : n < s.w.slots.length :=
  h.got_num_lt (h.held.subset (List.mem_append_right _ hn))

theorem getElem?_drops (q : List (Nat × Req)) : ∀ (l : List (Slot U E)) (n : Nat),
    (q.foldl (fun l x => Mock.dropTx x.1 l) l)[n]? = (l[n]?).map (fun s => if n ∈ q.map Prod.fst then { s with tx := false } else s) := by
  induction q with
  | nil => intro l n; simp
  | cons x q ih =>
    intro l n
    rw [List.foldl_cons, ih]
    unfold Mock.dropTx
    rw [List.getElem?_modify]
    cases hl : l[n]? with
    | none => simp
    | some s =>
      by_cases h1 : x.1 = n <;> by_cases h2 : n ∈ q.map Prod.fst <;> simp [h1, h2, eq_comm]
      intro h; exact absurd h.symm h1

theorem length_drops (q : List (Nat × Req)) : ∀ (l : List (Slot U E)), (q.foldl (fun l x => Mock.dropTx x.1 l) l).length = l.length := by
  induction q with
  | nil => intro l; rfl
  | cons x q ih => intro l; rw [List.foldl_cons, ih]; simp [Mock.dropTx]

theorem MChan.fin_step {s s' : MSt Req U E} {log : List (MEv Req U E)} {e : MEv Req U E} {n : Nat} (h : MChan s log) (hn : n < s.w.slots.length) (ha : e.acc = []) (hg : e.got = []) (hans : e.ans = []) (hf : e.fin = [n])
    (hq : e ≠ .queueDropped) (hr : ∀ n r, e ≠ .responded n r)
    (h1 : s'.w.slots = s.w.slots.modify n (fun s => { s with rx := false })) (h2 : s'.w.queue = s.w.queue)
    (h3 : s'.w.rx = s.w.rx) (h4 : s'.held = s.held) (h5 : s'.w.senders = s'.mocks.length) : MChan s' (log ++ [e]) where
  nums := by rw [acceptedReqs_snoc, ha, List.append_nil, h1, List.length_modify]; exact h.nums
  que := by rw [acceptedReqs_snoc, ha, receivedReqs_snoc, hg, List.append_nil, List.append_nil, h2, h3]; exact h.que
  que' := by rw [acceptedReqs_snoc, ha, receivedReqs_snoc, hg, List.append_nil, List.append_nil, h2, h3]; exact h.que'
  held := by rw [answers_snoc, hans, receivedReqs_snoc, hg, List.append_nil, List.append_nil, h4]; exact h.held
  senders := h5
  tx := by
    rw [h1, h2, h4]
    intro i sl hs
    rw [List.getElem?_modify] at hs
    cases hl : s.w.slots[i]? with
    | none => rw [hl] at hs; simp at hs
    | some sl0 =>
      rw [hl] at hs
      rw [← h.tx i sl0 hl]
      split at hs <;> (simp at hs; subst hs; simp)
  rxs := by
    rw [h1, futDone_snoc, hf]
    intro i sl hs
    rw [List.getElem?_modify] at hs
    cases hl : s.w.slots[i]? with
    | none => rw [hl] at hs; simp at hs
    | some sl0 =>
      rw [hl] at hs
      rw [List.mem_append, List.mem_singleton, ← h.rxs i sl0 hl]
      split at hs
      · simp at hs; subst hs; simp [*]
      · simp at hs; subst hs; simp; intro hh; exact absurd hh.symm ‹_›
  val := by
    rw [h1]
    intro i sl hs hrx r
    rw [mem_snoc_ne (hr i r)]
    rw [List.getElem?_modify] at hs
    cases hl : s.w.slots[i]? with
    | none => rw [hl] at hs; simp at hs
    | some sl0 =>
      rw [hl] at hs
      split at hs
      · simp at hs; subst hs; cases hrx
      · simp at hs; subst hs; exact h.val i sl0 hl hrx r
  doneLt := by
    rw [h1, futDone_snoc, hf, List.length_modify]
    intro i hi
    rw [List.mem_append, List.mem_singleton] at hi
    rcases hi with hi | rfl
    · exact h.doneLt i hi
    · exact hn
  qd := by rw [h3, mem_snoc_ne hq]; exact h.qd

/-- a `SendResponse` is used (`v`) or dropped -/
theorem MChan.ans_step {s s' : MSt Req U E} {log : List (MEv Req U E)} {e : MEv Req U E} {n : Nat} (f : Slot U E → Slot U E) (h : MChan s log) (hh : n ∈ s.held) (ha : e.acc = []) (hg : e.got = []) (hans : e.ans = [n]) (hf : e.fin = [])
    (hq : e ≠ .queueDropped) (hr : ∀ i r, e = .responded i r → i = n) (ftx : ∀ sl, (f sl).tx = false) (frx : ∀ sl, (f sl).rx = sl.rx)
    (fval : ∀ sl, sl.rx = true → sl.val = none → ∀ r, (f sl).val = some r ↔ e = .responded n r)
    (h1 : s'.w.slots = s.w.slots.modify n f) (h2 : s'.w.queue = s.w.queue)
    (h3 : s'.w.rx = s.w.rx) (h4 : s'.held = s.held.erase n) (h5 : s'.w.senders = s'.mocks.length) : MChan s' (log ++ [e]) := by
  have hnd : (s.held ++ answers log).Nodup := h.held.nodup_iff.2 h.got_nodup
  have hna : n ∉ answers log := fun hx => (List.nodup_append.1 hnd).2.2 n hh n hx rfl
  have hhd : s.held.Nodup := (List.nodup_append.1 hnd).1
  have hng : n ∈ (receivedReqs log).map Prod.fst := h.held.subset (List.mem_append_left _ hh)
  have hnq : n ∉ s.w.queue.map Prod.fst := by
    cases hrx : s.w.rx with
    | false => rw [(h.que' hrx).1]; simp
    | true =>
      have : ((acceptedReqs log).map Prod.fst).Nodup := by rw [h.nums]; exact List.nodup_range
      rw [← h.que hrx, List.map_append, List.nodup_append] at this
      intro hx
      exact this.2.2 n hng n hx rfl
  exact {
    nums := by rw [acceptedReqs_snoc, ha, List.append_nil, h1, List.length_modify]; exact h.nums
    que := by rw [acceptedReqs_snoc, ha, receivedReqs_snoc, hg, List.append_nil, List.append_nil, h2, h3]; exact h.que
    que' := by rw [acceptedReqs_snoc, ha, receivedReqs_snoc, hg, List.append_nil, List.append_nil, h2, h3]; exact h.que'
    held := by
      rw [answers_snoc, hans, receivedReqs_snoc, hg, List.append_nil, h4]
      refine List.Perm.trans ?_ h.held
      refine List.Perm.trans ?_ (List.Perm.append_right _ (List.perm_cons_erase hh).symm)
      rw [← List.append_assoc]
      exact List.perm_append_singleton _ _
    senders := h5
    tx := by
      rw [h1, h2, h4]
      intro i sl hs
      rw [List.getElem?_modify] at hs
      cases hl : s.w.slots[i]? with
      | none => rw [hl] at hs; simp at hs
      | some sl0 =>
        rw [hl] at hs
        by_cases he : n = i
        · subst he
          simp at hs; subst hs
          rw [ftx]
          simp only [Bool.false_eq_true, false_iff, not_or]
          exact ⟨hhd.not_mem_erase, hnq⟩
        · simp only [if_neg he] at hs
          simp at hs; subst hs
          rw [List.mem_erase_of_ne (fun x => he x.symm)]
          exact h.tx i sl0 hl
    rxs := by
      rw [h1, futDone_snoc, hf, List.append_nil]
      intro i sl hs
      rw [List.getElem?_modify] at hs
      cases hl : s.w.slots[i]? with
      | none => rw [hl] at hs; simp at hs
      | some sl0 =>
        rw [hl] at hs
        rw [← h.rxs i sl0 hl]
        split at hs <;> (simp at hs; subst hs; simp [frx])
    val := by
      rw [h1]
      intro i sl hs hrx r
      rw [List.getElem?_modify] at hs
      cases hl : s.w.slots[i]? with
      | none => rw [hl] at hs; simp at hs
      | some sl0 =>
        rw [hl] at hs
        by_cases he : n = i
        · subst he
          simp at hs; subst hs
          rw [frx] at hrx
          have hv : sl0.val = none := by
            cases hv : sl0.val with
            | none => rfl
            | some r' => exact absurd (mem_answers_of_responded ((h.val _ _ hl hrx r').1 hv)) hna
          rw [fval sl0 hrx hv, List.mem_append, List.mem_singleton]
          constructor
          · intro hx; exact Or.inr hx.symm
          · rintro (hx | hx)
            · exact absurd (mem_answers_of_responded hx) hna
            · exact hx.symm
        · simp only [if_neg he] at hs
          simp at hs; subst hs
          rw [mem_snoc_ne (fun x => he (hr i r x).symm)]
          exact h.val i sl0 hl hrx r
    doneLt := by
      rw [h1, futDone_snoc, hf, List.append_nil, List.length_modify]; exact h.doneLt
    qd := by rw [h3, mem_snoc_ne hq]; exact h.qd }

theorem MRun.chan {s : MSt Req U E} {log : List (MEv Req U E)} (h : MRun s log) : MChan s log := by
  induction h with
  | pair =>
    constructor <;> simp [Mock.world0, Mock.pair, acceptedReqs, receivedReqs, answers, futDone]
  | @poll s log l m l' k p m' w' _ hm hr ih =>
    have hs : s.w.senders = (l ++ m' :: l').length := by rw [ih.senders, hm]; simp
    obtain ⟨hp, hc⟩ := Mock.pollReady_ok hr
    have : (MEv.poll m.id k p : MEv Req U E).Quiet := ⟨rfl, rfl, rfl, rfl, by simp, by simp⟩
    rcases hc with ⟨h1, rfl, rfl, rfl⟩ | ⟨h1, e, h2, rfl, rfl, rfl⟩ | ⟨h1, h2, h3, rfl, rfl, rfl⟩ | ⟨h1, h2, h3, h4, rfl, rfl, rfl⟩ | ⟨h1, h2, h3, h4, rfl, rfl, rfl⟩ <;>
    exact ih.quiet this rfl rfl rfl rfl hs
  | pollPanics _ _ _ ih => exact ih.quiet ⟨rfl, rfl, rfl, rfl, by simp, by simp⟩ rfl rfl rfl rfl ih.senders
  | @call s log l m l' q f m' w' hrun hm hr ih =>
    have hs : s.w.senders = (l ++ m' :: l').length := by rw [ih.senders, hm]; simp
    obtain ⟨hp, hc⟩ := Mock.call_ok hr
    rcases hc with ⟨h1, rfl, rfl, rfl⟩ | ⟨h1, h2, rfl, hc⟩
    · exact ih.quiet ⟨rfl, rfl, rfl, rfl, by simp, by simp⟩ rfl rfl rfl rfl hs
    · rcases hc with ⟨h3, rfl, rfl⟩ | ⟨h3, rfl, rfl⟩
      · exact ih.quiet ⟨rfl, rfl, rfl, rfl, by simp, by simp⟩ rfl rfl rfl rfl hs
      · have hlast : ∀ (n : Nat) (sl : Slot U E), (s.w.slots ++ [⟨none, true, true⟩])[n]? = some sl → (s.w.slots[n]? = some sl ∧ n < s.w.slots.length) ∨ (n = s.w.slots.length ∧ sl = ⟨none, true, true⟩) := by
          intro n sl hn
          rw [List.getElem?_append] at hn
          split at hn
          · exact Or.inl ⟨hn, by assumption⟩
          · right
            have hn0 : n - s.w.slots.length = 0 := by
              by_contra hne
              rw [List.getElem?_eq_none (by simp; omega)] at hn; cases hn
            rw [hn0] at hn
            simp at hn
            exact ⟨by omega, hn.symm⟩
        exact {
          nums := by
            rw [acceptedReqs_snoc]
            simp [MEv.acc, ih.nums, List.range_succ]
          que := by
            intro _
            rw [acceptedReqs_snoc, receivedReqs_snoc]
            simp only [MEv.acc, MEv.got, List.append_nil]
            rw [← List.append_assoc, ih.que h3]
          que' := by intro hh; change s.w.rx = false at hh; rw [h3] at hh; cases hh
          held := by rw [answers_snoc, receivedReqs_snoc]; simp only [MEv.ans, MEv.got, List.append_nil]; exact ih.held
          senders := hs
          tx := by
            intro n sl hn
            simp only [List.map_append, List.map_cons, List.map_nil, List.mem_append, List.mem_singleton]
            rcases hlast n sl hn with ⟨hn, hlt⟩ | ⟨rfl, rfl⟩
            · rw [ih.tx n sl hn]
              constructor
              · rintro (hh | hh)
                · exact Or.inl hh
                · exact Or.inr (Or.inl hh)
              · rintro (hh | hh | hh)
                · exact Or.inl hh
                · exact Or.inr hh
                · omega
            · simp
          rxs := by
            intro n sl hn
            rw [futDone_snoc]; simp only [MEv.fin, List.append_nil]
            rcases hlast n sl hn with ⟨hn, hlt⟩ | ⟨rfl, rfl⟩
            · exact ih.rxs n sl hn
            · simp only [Bool.true_eq_false, false_iff]
              intro hx; have := ih.doneLt _ hx; omega
          val := by
            intro n sl hn hrx r
            rw [mem_snoc_ne (by simp)]
            rcases hlast n sl hn with ⟨hn, hlt⟩ | ⟨rfl, rfl⟩
            · exact ih.val n sl hn hrx r
            · simp only [reduceCtorEq, false_iff]
              intro hx; have := ih.ans_lt (mem_answers_of_responded hx); omega
          doneLt := by
            rw [futDone_snoc]; simp only [MEv.fin, List.append_nil, List.length_append, List.length_singleton]
            intro n hn; have := ih.doneLt n hn; omega
          qd := by rw [mem_snoc_ne (by simp)]; exact ih.qd }
  | callPanics _ _ _ ih => exact ih.quiet ⟨rfl, rfl, rfl, rfl, by simp, by simp⟩ rfl rfl rfl rfl ih.senders
  | @clone s log m m' w' _ hm hr ih =>
    obtain ⟨hp, rfl, rfl⟩ := Mock.clone_ok hr
    exact ih.quiet ⟨rfl, rfl, rfl, rfl, by simp, by simp⟩ rfl rfl rfl rfl (by simp [ih.senders])
  | @drop s log l m l' w' _ hm hr ih =>
    obtain ⟨hp, rfl⟩ := Mock.drop_ok hr
    exact ih.quiet ⟨rfl, rfl, rfl, rfl, by simp, by simp⟩ rfl rfl rfl rfl (by simp [ih.senders, hm])
  | @recv s log p w' _ hh hr ih =>
    rcases Mock.pollRequest_ok hr with ⟨x, l, hq, rfl, rfl⟩ | ⟨_, _, rfl, rfl⟩ | ⟨_, _, rfl, rfl⟩
    · have hrx : s.w.rx = true := by
        by_contra hx
        rw [Bool.not_eq_true] at hx
        rw [(ih.que' hx).1] at hq; cases hq
      exact {
        nums := by rw [acceptedReqs_snoc]; simp only [MEv.acc, List.append_nil]; exact ih.nums
        que := by
          intro _
          rw [acceptedReqs_snoc, receivedReqs_snoc]
          simp only [MEv.acc, MEv.got, List.append_nil]
          rw [← ih.que hrx, hq]; simp
        que' := by intro hx; change s.w.rx = false at hx; rw [hrx] at hx; cases hx
        held := by
          rw [answers_snoc, receivedReqs_snoc]
          simp only [MEv.ans, MEv.got, List.append_nil, List.map_append, List.map_cons, List.map_nil]
          refine List.Perm.trans ?_ (List.Perm.append_right _ ih.held)
          rw [List.append_assoc, List.append_assoc]
          exact List.Perm.append_left _ List.perm_append_comm
        senders := ih.senders
        tx := by
          intro n sl hn
          rw [ih.tx n sl hn, hq]
          simp only [MEv.got, List.map_cons, List.map_nil, List.mem_append, List.mem_singleton, List.mem_cons]
          tauto
        rxs := by rw [futDone_snoc]; simp only [MEv.fin, List.append_nil]; exact ih.rxs
        val := by intro n sl hn hrx r; rw [mem_snoc_ne (by simp)]; exact ih.val n sl hn hrx r
        doneLt := by rw [futDone_snoc]; simp only [MEv.fin, List.append_nil]; exact ih.doneLt
        qd := by rw [mem_snoc_ne (by simp)]; exact ih.qd }
    · exact ih.quiet ⟨rfl, rfl, rfl, rfl, by simp, by simp⟩ rfl rfl rfl (by simp [MEv.got]) ih.senders
    · exact ih.quiet ⟨rfl, rfl, rfl, rfl, by simp, by simp⟩ rfl rfl rfl (by simp [MEv.got]) ih.senders
  | @allow s log n ks w' _ hh hr ih =>
    obtain ⟨hp, ⟨hn, _, rfl⟩ | ⟨rfl, _, rfl⟩⟩ := Mock.allow_ok hr <;>
    exact ih.quiet ⟨rfl, rfl, rfl, rfl, by simp, by simp⟩ rfl rfl rfl rfl ih.senders
  | @sendError s log e ks w' _ hh hr ih =>
    obtain ⟨hp, _, rfl⟩ := Mock.sendError_ok hr
    exact ih.quiet ⟨rfl, rfl, rfl, rfl, by simp, by simp⟩ rfl rfl rfl rfl ih.senders
  | @dropHandle s log ks w' _ hh hr ih =>
    obtain ⟨hp, _, rfl⟩ := Mock.dropHandle_ok hr
    exact ih.quiet ⟨rfl, rfl, rfl, rfl, by simp, by simp⟩ rfl rfl rfl rfl ih.senders
  | dropHandlePanics _ _ _ ih => exact ih.quiet ⟨rfl, rfl, rfl, rfl, by simp, by simp⟩ rfl rfl rfl rfl ih.senders
  | @dropRx s log w' _ hh hrx hr ih =>
    cases hr
    exact {
      nums := by rw [acceptedReqs_snoc]; simp only [MEv.acc, List.append_nil, length_drops]; exact ih.nums
      que := by intro hx; cases hx
      que' := by
        intro _
        rw [acceptedReqs_snoc, receivedReqs_snoc]
        simp only [MEv.acc, MEv.got, List.append_nil]
        exact ⟨trivial, ih.got_lt⟩
      held := by rw [answers_snoc, receivedReqs_snoc]; simp only [MEv.ans, MEv.got, List.append_nil]; exact ih.held
      senders := ih.senders
      tx := by
        intro n sl hn
        change (s.w.queue.foldl (fun l x => Mock.dropTx x.1 l) s.w.slots)[n]? = some sl at hn
        rw [getElem?_drops] at hn
        cases hl : s.w.slots[n]? with
        | none => rw [hl] at hn; cases hn
        | some sl0 =>
          rw [hl, Option.map_some, Option.some.injEq] at hn
          have h0 := ih.tx n sl0 hl
          simp only [List.map_nil, List.not_mem_nil, or_false]
          by_cases hq : n ∈ s.w.queue.map Prod.fst
          · rw [if_pos hq] at hn; subst hn
            simp only [Bool.false_eq_true, false_iff]
            intro hd
            have hng : n ∈ (receivedReqs log).map Prod.fst := ih.held.subset (List.mem_append_left _ hd)
            have : ((acceptedReqs log).map Prod.fst).Nodup := by rw [ih.nums]; exact List.nodup_range
            rw [← ih.que hrx, List.map_append, List.nodup_append] at this
            exact this.2.2 n hng n hq rfl
          · rw [if_neg hq] at hn; subst hn
            rw [h0]; simp [hq]
      rxs := by
        intro n sl hn
        rw [futDone_snoc]; simp only [MEv.fin, List.append_nil]
        change (s.w.queue.foldl (fun l x => Mock.dropTx x.1 l) s.w.slots)[n]? = some sl at hn
        rw [getElem?_drops] at hn
        cases hl : s.w.slots[n]? with
        | none => rw [hl] at hn; cases hn
        | some sl0 =>
          rw [hl, Option.map_some, Option.some.injEq] at hn
          rw [← ih.rxs n sl0 hl, ← hn]
          split <;> rfl
      val := by
        intro n sl hn hrx r
        rw [mem_snoc_ne (by simp)]
        change (s.w.queue.foldl (fun l x => Mock.dropTx x.1 l) s.w.slots)[n]? = some sl at hn
        rw [getElem?_drops] at hn
        cases hl : s.w.slots[n]? with
        | none => rw [hl] at hn; cases hn
        | some sl0 =>
          rw [hl, Option.map_some, Option.some.injEq] at hn
          have h1 : sl.val = sl0.val := by rw [← hn]; split <;> rfl
          have h2 : sl.rx = sl0.rx := by rw [← hn]; split <;> rfl
          rw [h1]
          exact ih.val n sl0 hl (h2 ▸ hrx) r
      doneLt := by rw [futDone_snoc]; simp only [MEv.fin, List.append_nil, length_drops]; exact ih.doneLt
      qd := ⟨fun _ => by simp, fun _ => rfl⟩ }
  | @respond s log n r w' _ hh hr ih =>
    cases hr
    refine ih.ans_step (fun s => if s.rx = true then { s with val := some r, tx := false } else { s with tx := false }) hh rfl rfl rfl rfl (by simp) ?_ ?_ ?_ ?_ rfl rfl rfl rfl ih.senders
    · intro i r' hx; cases hx; rfl
    · intro sl; split <;> rfl
    · intro sl; split <;> rfl
    · intro sl h1 h2 r'; simp [h1]
  | @dropResponse s log n w' _ hh hr ih =>
    cases hr
    refine ih.ans_step (fun s => { s with tx := false }) hh rfl rfl rfl rfl (by simp) ?_ ?_ ?_ ?_ rfl rfl rfl rfl ih.senders
    · intro i r' hx; cases hx
    · intro sl; rfl
    · intro sl; rfl
    · intro sl h1 h2 r'; simp [h2]
  | @pollFut s log n p w' _ hr ih =>
    obtain ⟨sl, hsl, hrx, hc⟩ := Mock.pollFut_ok hr
    have hlt : n < s.w.slots.length := by
      by_contra hx
      rw [List.getElem?_eq_none (by omega)] at hsl; cases hsl
    rcases hc with ⟨v, _, rfl, rfl⟩ | ⟨_, _, rfl, rfl⟩ | ⟨_, _, rfl, rfl⟩
    · exact ih.fin_step hlt rfl rfl rfl rfl (by simp) (by simp) rfl rfl rfl rfl ih.senders
    · exact ih.quiet ⟨rfl, rfl, rfl, rfl, by simp, by simp⟩ rfl rfl rfl rfl ih.senders
    · exact ih.fin_step hlt rfl rfl rfl rfl (by simp) (by simp) rfl rfl rfl rfl ih.senders
  | @dropFut s log n w' _ hn hr ih =>
    cases hr
    rw [ih.nums, List.mem_range] at hn
    exact ih.fin_step hn rfl rfl rfl rfl (by simp) (by simp) rfl rfl rfl rfl ih.senders

end Tower
