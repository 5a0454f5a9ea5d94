import Verif.Props.C13_Budget

/-! # C16: what concurrent withdrawals are answered, and the sequential operations as runs of one thread -/

namespace Tower
variable {reserve w d : Int}

/-! ## Answers -/

/-- where thread `i` stands, relative to the moment at which it read the writer -/
def ReadAt (reserve w d : Int) (s s' : TpsConc) (i : Nat) : TpsPc → Prop
  | .summing acc j => ∃ s1, TpsSteps reserve w d s false s1 ∧ TpsSteps reserve w d s1 false s' ∧ s1.threads[i]? = some .expired ∧ s1.slots = s'.slots ∧ acc = s1.writer + (s1.slots.take j).sum ∧ j ≤ s1.slots.length
  | .granted => ∃ s1, TpsSteps reserve w d s false s1 ∧ TpsSteps reserve w d s1 false s' ∧ s1.threads[i]? = some .expired ∧ w ≤ s1.balance reserve
  | _ => True

theorem take_succ_sum {l : List Int} {j : Nat} {x : Int} (h : l[j]? = some x) : (l.take (j + 1)).sum = (l.take j).sum + x := by
  rw [List.take_add_one, h]
  simp

theorem ReadAt.later {s s' s'' : TpsConc} {i : Nat} {pc : TpsPc} (h : ReadAt reserve w d s s' i pc) (hs : TpsStep reserve w d s' false s'') (hsl : s''.slots = s'.slots) : ReadAt reserve w d s s'' i pc := by
  cases pc with
  | summing acc j =>
    obtain ⟨s1, h1, h2, h3, h4, h5⟩ := h
    exact ⟨s1, h1, by simpa using h2.step hs, h3, h4.trans hsl.symm, h5⟩
  | granted =>
    obtain ⟨s1, h1, h2, h3⟩ := h
    exact ⟨s1, h1, by simpa using h2.step hs, h3⟩
  | _ => trivial

theorem readAt_inv {s s' : TpsConc} {e : Bool} (h : TpsSteps reserve w d s e s') (he : e = false) (hs : ∀ pc ∈ s.threads, pc = .idle) {i : Nat} {pc : TpsPc} (hi : s'.threads[i]? = some pc) :
    ReadAt reserve w d s s' i pc := by
  induction h generalizing i pc with
  | refl =>
    rw [hs _ (List.mem_of_getElem? hi)]; trivial
  | @step s1 s2 e1 e2 h1 hstep ih =>
    simp only [Bool.or_eq_false_iff] at he
    obtain ⟨rfl, rfl⟩ := he
    have ih := fun {i pc} (hi : s1.threads[i]? = some pc) => ih rfl hi
    have key : ∀ {t : List TpsPc} {k : Nat} {pc' : TpsPc}, t.length = s1.threads.length → t = s1.threads.set k pc' → s2.threads = t → s2.slots = s1.slots →
        (k = i → pc = pc' → ReadAt reserve w d s s2 i pc) → ReadAt reserve w d s s2 i pc := by
      intro t k pc' _ ht h2 hsl hk
      rw [h2, ht, List.getElem?_set] at hi
      split at hi
      · rename_i hki
        split at hi
        · exact hk hki (by cases hi; rfl)
        · cases hi
      · exact (ih hi).later hstep hsl
    cases hstep with
    | enter h3 h4 => exact key (by simp) rfl rfl rfl (by rintro _ rfl; trivial)
    | @loadWriter k h3 =>
      refine key (by simp) rfl rfl rfl ?_
      rintro rfl rfl
      exact ⟨s1, h1, TpsSteps.one (.loadWriter h3), h3, rfl, by simp, Nat.zero_le _⟩
    | @loadSlot k j acc x h3 h4 =>
      refine key (by simp) rfl rfl rfl ?_
      rintro rfl rfl
      obtain ⟨s0, g1, g2, g3, g4, g5, g6⟩ := ih h3
      have hx : s0.slots[j]? = some x := by rw [g4]; exact h4
      refine ⟨s0, g1, by simpa using g2.step (.loadSlot h3 h4), g3, g4, ?_, ?_⟩
      · rw [take_succ_sum hx, g5]; omega
      · have := (List.getElem?_eq_some_iff.1 hx).1; omega
    | @grant k acc h3 h4 =>
      refine key (by simp) rfl rfl rfl ?_
      rintro rfl rfl
      obtain ⟨s0, g1, g2, g3, g4, g5, g6⟩ := ih h3
      refine ⟨s0, g1, by simpa using g2.step (.grant h3 h4), g3, ?_⟩
      unfold TpsConc.balance
      rw [← g4, List.take_length] at g5
      omega
    | deny h3 h4 => exact key (by simp) rfl rfl rfl (by rintro _ rfl; trivial)
    | take h3 => exact key (by simp) rfl rfl rfl (by rintro _ rfl; trivial)
    | deposit => exact (ih hi).later .deposit rfl

/-- **C16.** As long as no slot expires, a withdrawal by one of many threads is answered according to the balance at one moment between its beginning and its answer, when the thread read the writer:
it is granted only if the balance was enough at that moment, and refused only if it was not. -/
theorem C16_answers {s s' s'' : TpsConc} (h : TpsSteps reserve w d s false s') (hs : ∀ pc ∈ s.threads, pc = .idle) (hstep : TpsStep reserve w d s' false s'') {i j : Nat} {acc : Int}
    (hi : s'.threads[i]? = some (.summing acc j)) :
    (s''.threads[i]? = some .granted → ∃ s1, TpsSteps reserve w d s false s1 ∧ TpsSteps reserve w d s1 false s' ∧ s1.threads[i]? = some .expired ∧ w ≤ s1.balance reserve) ∧
    (s''.threads[i]? = some .idle → ∃ s1, TpsSteps reserve w d s false s1 ∧ TpsSteps reserve w d s1 false s' ∧ s1.threads[i]? = some .expired ∧ s1.balance reserve < w) := by
  obtain ⟨s1, h1, h2, h3, h4, h5, h6⟩ := readAt_inv h rfl hs hi
  have key : ∀ {k : Nat} {pc pc' : TpsPc}, (s'.threads.set k pc)[i]? = some pc' → pc' ≠ .summing acc j → k = i ∧ pc = pc' := by
    intro k pc pc' hg hne
    rw [List.getElem?_set] at hg
    split at hg
    · split at hg
      · exact ⟨‹_›, by cases hg; rfl⟩
      · cases hg
    · rw [hi] at hg; cases hg; exact absurd rfl hne
  cases hstep with
  | enter g1 g2 => exact ⟨fun hg => (by cases (key hg (by simp)).2), fun hg => (by cases (key hg (by simp)).2)⟩
  | loadWriter g1 => exact ⟨fun hg => (by cases (key hg (by simp)).2), fun hg => (by cases (key hg (by simp)).2)⟩
  | loadSlot g1 g2 => exact ⟨fun hg => (by cases (key hg (by simp)).2), fun hg => (by cases (key hg (by simp)).2)⟩
  | grant g1 g2 =>
    refine ⟨fun hg => ?_, fun hg => (by cases (key hg (by simp)).2)⟩
    obtain ⟨rfl, _⟩ := key hg (by simp)
    rw [hi] at g1; cases g1
    refine ⟨s1, h1, h2, h3, ?_⟩
    unfold TpsConc.balance
    rw [← h4, List.take_length] at h5
    omega
  | deny g1 g2 =>
    refine ⟨fun hg => (by cases (key hg (by simp)).2), fun hg => ?_⟩
    obtain ⟨rfl, _⟩ := key hg (by simp)
    rw [hi] at g1; cases g1
    refine ⟨s1, h1, h2, h3, ?_⟩
    unfold TpsConc.balance
    rw [← h4, List.take_length] at h5
    omega
  | take g1 =>
    refine ⟨fun hg => (by cases (key hg (by simp)).2), fun hg => ?_⟩
    obtain ⟨rfl, _⟩ := key hg (by simp)
    rw [hi] at g1; cases g1
  | deposit => exact ⟨fun hg => (by rw [hi] at hg; cases hg), fun hg => (by rw [hi] at hg; cases hg)⟩

/-! ## One thread -/

/-- a budget used by one thread, as a concurrent state -/
def Tps.conc (s : Tps) (pc : TpsPc) : TpsConc := ⟨s.index, s.slots, s.writer, false, [pc]⟩

theorem zero_steps (window : Nat) : ∀ (fuel diff idx : Nat) (slots : List Int) (wr : Int) (lk : Bool),
    TpsSteps reserve w d ⟨idx, slots, wr, lk, [.zeroing]⟩ true ⟨(tpsZero window fuel diff idx slots).1, (tpsZero window fuel diff idx slots).2, wr, lk, [.zeroing]⟩ ∨
    TpsSteps reserve w d ⟨idx, slots, wr, lk, [.zeroing]⟩ false ⟨(tpsZero window fuel diff idx slots).1, (tpsZero window fuel diff idx slots).2, wr, lk, [.zeroing]⟩ := by
  intro fuel
  induction fuel with
  | zero => intros; exact Or.inr (.refl _)
  | succ fuel ih =>
    intro diff idx slots wr lk
    unfold tpsZero
    split
    · have h1 : TpsStep reserve w d ⟨idx, slots, wr, lk, [.zeroing]⟩ true ⟨(idx + 1) % slots.length, slots.set idx 0, wr, lk, [.zeroing]⟩ := TpsStep.zero (i := 0) (s := ⟨idx, slots, wr, lk, [.zeroing]⟩) rfl
      left
      rcases ih (diff - window) ((idx + 1) % slots.length) (slots.set idx 0) wr lk with h | h
      · simpa using (TpsSteps.one h1).trans h
      · simpa using (TpsSteps.one h1).trans h
    · exact Or.inr (.refl _)

/-- **C16.** The sequential `expire` is a run of the steps of one thread. -/
theorem C16_expire_alone (s : Tps) (now : Nat) : TpsSteps reserve w d (s.conc .idle) (decide (s.window ≤ now - s.time)) ((s.expire now).conc .expired) := by
  unfold Tps.expire
  dsimp only
  split
  · rename_i h
    rw [decide_eq_false (by omega)]
    exact TpsSteps.one (TpsStep.enter (i := 0) (s := s.conc .idle) rfl rfl)
  · rename_i h
    rw [decide_eq_true (by omega)]
    have h1 : TpsStep reserve w d (s.conc .idle) true ⟨s.index, s.slots, 0, true, [.committing s.writer]⟩ := TpsStep.swap (i := 0) (s := s.conc .idle) rfl rfl
    have h2 : TpsStep reserve w d ⟨s.index, s.slots, 0, true, [.committing s.writer]⟩ true ⟨(s.index + 1) % s.slots.length, s.slots.set s.index s.writer, 0, true, [.zeroing]⟩ :=
      TpsStep.store (i := 0) (s := ⟨s.index, s.slots, 0, true, [.committing s.writer]⟩) rfl
    have hl : (s.slots.set s.index s.writer).length = s.slots.length := by simp
    have h3 := zero_steps (reserve := reserve) (w := w) (d := d) s.window (now - s.time) (now - s.time) ((s.index + 1) % s.slots.length) (s.slots.set s.index s.writer) 0 true
    simp only [hl]
    generalize tpsZero s.window (now - s.time) (now - s.time) ((s.index + 1) % s.slots.length) (s.slots.set s.index s.writer) = r at h3 ⊢
    have h4 : TpsStep reserve w d ⟨r.1, r.2, 0, true, [.zeroing]⟩ true ⟨r.1, r.2, 0, false, [.expired]⟩ := TpsStep.unlock (i := 0) (s := ⟨r.1, r.2, 0, true, [.zeroing]⟩) rfl
    have h12 : TpsSteps reserve w d (s.conc .idle) true ⟨(s.index + 1) % s.slots.length, s.slots.set s.index s.writer, 0, true, [.zeroing]⟩ := by simpa using (TpsSteps.one h1).step h2
    rcases h3 with h3 | h3
    · exact (h12.trans h3).step h4
    · exact (h12.trans h3).step h4

/-- **C16.** The sequential `withdraw` (of C13) is a run of the steps of one thread, with the same answer, if no sum overflows: all partial sums are exact. -/
theorem C16_withdraw_alone (s : Tps) (now : Nat) (hsum : (s.expire now).sum = (s.expire now).writer + (s.expire now).slots.sum + (s.expire now).reserve)
    (hwr : wrapAdd (s.expire now).writer (-(s.expire now).withdrawAmount) = (s.expire now).writer - (s.expire now).withdrawAmount) :
    ∃ acc, TpsSteps s.reserve s.withdrawAmount d (s.conc .idle) (decide (s.window ≤ now - s.time)) ((s.expire now).conc (.summing acc (s.expire now).slots.length)) ∧
      ((s.withdraw now).1 = true → ∃ c, TpsStep s.reserve s.withdrawAmount d ((s.expire now).conc (.summing acc (s.expire now).slots.length)) false c ∧ TpsStep s.reserve s.withdrawAmount d c false ((s.withdraw now).2.conc .idle) ∧
        c.threads = [.granted]) ∧
      ((s.withdraw now).1 = false → TpsStep s.reserve s.withdrawAmount d ((s.expire now).conc (.summing acc (s.expire now).slots.length)) false ((s.withdraw now).2.conc .idle)) := by
  have h1 := C16_expire_alone (reserve := s.reserve) (w := s.withdrawAmount) (d := d) s now
  have hr : (s.expire now).reserve = s.reserve := by unfold Tps.expire; dsimp only; split <;> rfl
  have hw : (s.expire now).withdrawAmount = s.withdrawAmount := by unfold Tps.expire; dsimp only; split <;> rfl
  rw [hr] at hsum
  rw [hw] at hwr
  have hwd : s.withdraw now = if (s.expire now).sum ≥ s.withdrawAmount then (true, { s.expire now with writer := wrapAdd (s.expire now).writer (-s.withdrawAmount) }) else (false, s.expire now) := by
    unfold Tps.withdraw; simp only [hw]
  rw [hwd]
  generalize s.expire now = u at *
  have h2 : TpsStep s.reserve s.withdrawAmount d (u.conc .expired) false (u.conc (.summing u.writer 0)) := TpsStep.loadWriter (i := 0) (s := u.conc .expired) rfl
  have h3 : TpsSteps s.reserve s.withdrawAmount d (u.conc (.summing u.writer 0)) false (u.conc (.summing (u.writer + u.slots.sum) u.slots.length)) :=
    TpsSteps.readAll (i := 0) u.slots [] u.writer [.summing u.writer 0] rfl rfl
  refine ⟨u.writer + u.slots.sum, by simpa using (h1.step h2).trans h3, ?_, ?_⟩
  · intro hg
    split at hg
    · rename_i hge
      rw [if_pos hge]
      refine ⟨u.conc .granted, TpsStep.grant (i := 0) (s := u.conc (.summing (u.writer + u.slots.sum) u.slots.length)) rfl (by omega), ?_, rfl⟩
      simp only [hwr, Tps.conc]
      exact TpsStep.take (i := 0) (s := u.conc .granted) rfl
    · cases hg
  · intro hg
    split at hg
    · cases hg
    · rename_i hge
      rw [if_neg hge]
      exact TpsStep.deny (i := 0) (s := u.conc (.summing (u.writer + u.slots.sum) u.slots.length)) rfl (by omega)

/-! ## Examples -/

/-- the hypotheses of `C16_withdraw_alone`, with an expired slot and a refusal; and with a grant -/
example : ∃ s, Tps.new (10 ^ 9) 0 (.upToOne 1) 0 = some s ∧ (s.expire 500000000).sum = (s.expire 500000000).writer + (s.expire 500000000).slots.sum + (s.expire 500000000).reserve ∧
    wrapAdd (s.expire 500000000).writer (-(s.expire 500000000).withdrawAmount) = (s.expire 500000000).writer - (s.expire 500000000).withdrawAmount ∧ (s.withdraw 500000000).1 = false ∧
    ((s.deposit 1).withdraw 2).1 = true :=
  ⟨_, rfl, by decide +kernel, by decide +kernel, by decide +kernel, by decide +kernel⟩

/-- the hypotheses of `C16_answers`: two threads; the one that read first is granted, the other is refused -/
example : ∃ s' s'' : TpsConc, TpsSteps 1 1 1 ⟨0, [0], 0, false, [.idle, .idle]⟩ false s' ∧ TpsStep 1 1 1 s' false s'' ∧ s'.threads[1]? = some (.summing (-1) 1) ∧ s''.threads[1]? = some .idle := by
  have h1 : TpsSteps 1 1 1 ⟨0, [0], 0, false, [.idle, .idle]⟩ false ⟨0, [0], 0, false, [.expired, .idle]⟩ := .one (.enter (i := 0) rfl rfl)
  have h2 := h1.step (.loadWriter (i := 0) rfl)
  have h3 := h2.step (.loadSlot (i := 0) (j := 0) rfl rfl)
  have h4 := h3.step (.grant (i := 0) rfl (by decide))
  have h5 := h4.step (.take (i := 0) rfl)
  have h6 := h5.step (.enter (i := 1) rfl rfl)
  have h7 := h6.step (.loadWriter (i := 1) rfl)
  have h8 := h7.step (.loadSlot (i := 1) (j := 0) rfl rfl)
  exact ⟨_, _, by simpa using h8, .deny (i := 1) rfl (by decide), rfl, rfl⟩

end Tower
