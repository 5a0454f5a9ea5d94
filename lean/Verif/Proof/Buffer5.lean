import Verif.Proof.Buffer4

/-! # Buffer: events and states, cutting histories -/

set_option linter.unusedSimpArgs false

namespace Tower
variable {W Req Res Err : Type} {S : Service W Req Res Err}

/-! ## Events and states -/

theorem mem_dispatches {tr : List (BEv S)} {m : Msg Req} {f : S.φ} : (m, f) ∈ dispatches tr ↔ BEv.dispatch m.id m.req f ∈ tr := by
  induction tr with
  | nil => simp [dispatches]
  | cons ev tr ih =>
    cases ev
    case dispatch i r f' =>
      simp only [dispatches, List.mem_cons, ih, Prod.mk.injEq, BEv.dispatch.injEq]
      constructor
      · rintro (⟨rfl, rfl⟩ | h)
        · exact .inl ⟨rfl, rfl, rfl⟩
        · exact .inr h
      · rintro (⟨h1, h2, h3⟩ | h)
        · exact .inl ⟨by cases m; simp_all, h3⟩
        · exact .inr h
    all_goals simp [dispatches, ih]

theorem mem_accepted {tr : List (BEv S)} {m : Msg Req} : m ∈ accepted tr ↔ ∃ h, BEv.accept h m.id m.req ∈ tr := by
  induction tr with
  | nil => simp [accepted]
  | cons ev tr ih =>
    cases ev
    case accept h i r =>
      simp only [accepted, List.mem_cons, ih, BEv.accept.injEq]
      constructor
      · rintro (rfl | ⟨h', h2⟩)
        · exact ⟨h, .inl ⟨rfl, rfl, rfl⟩⟩
        · exact ⟨h', .inr h2⟩
      · rintro ⟨h', ⟨h1, h2, h3⟩ | h2⟩
        · exact .inl (by cases m; simp_all)
        · exact .inr ⟨h', h2⟩
    all_goals simp [accepted, ih]

theorem Justified.mono {tr : List (BEv S)} {e : BufErr Err} (h : Justified tr e) (ev : BEv S) : Justified (tr ++ [ev]) e := by
  cases e with
  | service e => simp only [Justified] at h ⊢; simp [h]
  | closed => exact workerDied.mono h ev
  | inner e => exact h

theorem CtlInv.workerError {tr : List (BEv S)} {x : Buf S} (h : CtlInv tr x) (hc : x.closed = true) : Justified tr x.workerError := by
  unfold Buf.workerError
  cases he : x.err with
  | some e => exact h.errTr e he
  | none =>
    rcases h.closed hc with h1 | h1
    · cases hf : x.failed with
      | none => exact absurd hf h1
      | some e => rw [(h.f_err e hf).1] at he; cases he
    · exact (h.dying h1).2

/-- what the events seen so far say -/
structure EvInv (tr : List (BEv S)) (x : Buf S) : Prop where
  drop : ∀ i, x.futs i = .dropped ↔ .dropFut i ∈ tr
  ok : ∀ i a, .poll i (.ready (.ok a)) ∈ tr → ∃ m f0 f f' w w', (m, f0) ∈ dispatches tr ∧ m.id = i ∧ Desc S f0 f ∧
    (S.poll f).run w = .ok (.ready (.ok a), f') w'
  err : ∀ i e, .poll i (.ready (.error (.inner e))) ∈ tr → ∃ m f0 f f' w w', (m, f0) ∈ dispatches tr ∧ m.id = i ∧ Desc S f0 f ∧
    (S.poll f).run w = .ok (.ready (.error e), f') w'
  perr : ∀ i e, .poll i (.ready (.error e)) ∈ tr → (∃ e', e = .inner e') ∨ Justified tr e
  rerr : ∀ h e, .ready h (.ready (.error e)) ∈ tr → Justified tr e
  ferr : ∀ i e, x.futs i = .failed e → Justified tr e

theorem mem_snoc {α : Type} {a b : α} {l : List α} : a ∈ l ++ [b] ↔ a ∈ l ∨ a = b := by simp

theorem EvInv.init (bound : Nat) (svc : S.σ) : EvInv [] (Buf.init S bound svc) := by
  constructor <;> simp [Buf.init]

/-- events that are not about futures or failing handles, with the futures unchanged -/
theorem EvInv.of_same {x y : Buf S} {tr ev} (h : EvInv tr x) (hf : y.futs = x.futs) (h1 : ∀ i p, ev ≠ .poll i p)
    (h2 : ∀ i, ev ≠ .dropFut i) (h3 : ∀ n e, ev = .ready n (.ready (.error e)) → Justified tr e) : EvInv (tr ++ [ev]) y := by
  obtain ⟨a, b, c, d, e, f⟩ := h
  constructor
  · intro i; rw [hf, a, mem_snoc]; constructor
    · exact .inl
    · rintro (h | h)
      · exact h
      · exact absurd h.symm (h2 i)
  · intro i v hm
    rcases mem_snoc.1 hm with hm | hm
    · obtain ⟨m, f0, f', rest⟩ := b i v hm
      rw [dispatches_append]
      obtain ⟨f1, w, w', r1, r2⟩ := rest
      exact ⟨m, f0, f', f1, w, w', by simp [r1], r2⟩
    · exact absurd hm.symm (h1 _ _)
  · intro i v hm
    rcases mem_snoc.1 hm with hm | hm
    · obtain ⟨m, f0, f', rest⟩ := c i v hm
      rw [dispatches_append]
      obtain ⟨f1, w, w', r1, r2⟩ := rest
      exact ⟨m, f0, f', f1, w, w', by simp [r1], r2⟩
    · exact absurd hm.symm (h1 _ _)
  · intro i er hm
    rcases mem_snoc.1 hm with hm | hm
    · rcases d i er hm with h' | h'
      · exact .inl h'
      · exact .inr (h'.mono _)
    · exact absurd hm.symm (h1 _ _)
  · intro n er hm
    rcases mem_snoc.1 hm with hm | hm
    · exact (e n er hm).mono _
    · exact (h3 n er hm.symm).mono _
  · intro i er hm; rw [hf] at hm; exact (f i er hm).mono _

theorem EvInv.handle {x y : Buf S} {tr ev} (h : EvInv tr x) (hI : BufInv tr x) (hs : HStep x ev y) : EvInv (tr ++ [ev]) y := by
  cases hs
  case ready k l r hl =>
    refine h.of_same rfl (by simp) (by simp) ?_
    intro n e he
    simp only [BEv.ready.injEq] at he
    obtain ⟨_, he⟩ := he
    have hk : k ∈ x.hs := by rw [hl]; simp
    have hres : (x.reserve k).1 = .ready (.error e) → Justified tr e := by
      intro h'
      unfold Buf.reserve at h'
      by_cases hc : x.closed = true
      · rw [if_pos hc] at h'
        simp only [Poll.ready.injEq, Except.error.injEq] at h'
        rw [← h']; exact hI.ctl.workerError hc
      · rw [if_neg hc] at h'
        split at h' <;> simp at h'
    unfold Buf.pollReady at he
    split at he
    · rename_i hst
      simp only [Poll.ready.injEq, Except.error.injEq] at he
      rw [← he]; exact hI.ctl.workerError (hI.sem.hclosed k hk hst)
    · simp at he
    · exact hres he
    · exact hres he
  case call k l r q hl hc =>
    have hn := hI.msg.fnone x.calls (Nat.le_refl _)
    have h' : EvInv (tr ++ [.accept k.name x.calls q]) x := h.of_same rfl (by simp) (by simp) (by simp)
    obtain ⟨a, b, c, d, e, f⟩ := h'
    refine ⟨?_, b, c, d, e, ?_⟩
    · intro i
      by_cases hi : i = x.calls
      · subst hi
        rw [← a]; simp [hn]
      · simp only [Function.update_of_ne hi]; exact a i
    · intro i er hf
      by_cases hi : i = x.calls
      · subst hi; simp at hf
      · simp only [Function.update_of_ne hi] at hf; exact f i er hf
  case call_closed k l r q hl hc =>
    have hn := hI.msg.fnone x.calls (Nat.le_refl _)
    have hk : k ∈ x.hs := by rw [hl]; simp
    have h' : EvInv (tr ++ [.refuse k.name x.calls q]) x := h.of_same rfl (by simp) (by simp) (by simp)
    have hcl : x.closed = true := hI.sem.hclosed k hk (by
      unfold Buf.callOutcome at hc
      cases hst : k.st <;> simp [hst] at hc <;> rfl)
    obtain ⟨a, b, c, d, e, f⟩ := h'
    refine ⟨?_, b, c, d, e, ?_⟩
    · intro i
      by_cases hi : i = x.calls
      · subst hi
        rw [← a]; simp [hn]
      · simp only [Function.update_of_ne hi]; exact a i
    · intro i er hf
      by_cases hi : i = x.calls
      · subst hi
        simp only [Function.update_self, BFut.failed.injEq] at hf
        rw [← hf]; exact (hI.ctl.workerError hcl).mono _
      · simp only [Function.update_of_ne hi] at hf; exact f i er hf
  all_goals exact h.of_same rfl (by simp) (by simp) (by simp)

theorem EvInv.future {x y : Buf S} {tr ev} (h : EvInv tr x) (hI : BufInv tr x) (hs : FStep x ev y) : EvInv (tr ++ [ev]) y := by
  -- a poll that finishes the future, or changes it otherwise
  have upd : ∀ (ev : BEv S) (i : Nat) (v : BFut S.φ Err), x.futs i ≠ .dropped → v ≠ .dropped → (∀ e, v ≠ .failed e) → (∀ j, ev ≠ .dropFut j) →
      (∀ n p, ev ≠ .ready n p) → dispatches [ev] = [] →
      (∀ j a, ev = .poll j (.ready (.ok a)) → ∃ m f0 f f' w w', (m, f0) ∈ dispatches tr ∧ m.id = j ∧ Desc S f0 f ∧
        (S.poll f).run w = .ok (.ready (.ok a), f') w') →
      (∀ j e, ev = .poll j (.ready (.error (.inner e))) → ∃ m f0 f f' w w', (m, f0) ∈ dispatches tr ∧ m.id = j ∧ Desc S f0 f ∧
        (S.poll f).run w = .ok (.ready (.error e), f') w') →
      (∀ j e, ev = .poll j (.ready (.error e)) → (∃ e', e = .inner e') ∨ Justified tr e) →
      EvInv (tr ++ [ev]) { x with futs := Function.update x.futs i v } := by
    intro ev i v hnd hv hvf h1 h2 h3 h4 h5 h6
    obtain ⟨a, b, c, d, e, f⟩ := h
    have hdisp : dispatches (tr ++ [ev]) = dispatches tr := by rw [dispatches_append, h3, List.append_nil]
    constructor
    · intro j
      rw [mem_snoc]
      simp only
      by_cases hj : j = i
      · subst hj
        rw [Function.update_self]
        constructor
        · intro h; exact absurd h hv
        · rintro (h | h)
          · exact absurd ((a j).2 h) hnd
          · exact absurd h.symm (h1 j)
      · rw [Function.update_of_ne hj, a]
        constructor
        · exact .inl
        · rintro (h | h)
          · exact h
          · exact absurd h.symm (h1 j)
    · intro j v' hm
      rw [hdisp]
      rcases mem_snoc.1 hm with hm | hm
      · exact b j v' hm
      · exact h4 j v' hm.symm
    · intro j v' hm
      rw [hdisp]
      rcases mem_snoc.1 hm with hm | hm
      · exact c j v' hm
      · exact h5 j v' hm.symm
    · intro j er hm
      rcases mem_snoc.1 hm with hm | hm
      · rcases d j er hm with h' | h'
        · exact .inl h'
        · exact .inr (h'.mono _)
      · rcases h6 j er hm.symm with h' | h'
        · exact .inl h'
        · exact .inr (h'.mono _)
    · intro n er hm
      rcases mem_snoc.1 hm with hm | hm
      · exact (e n er hm).mono _
      · exact absurd hm.symm (h2 _ _)
    · intro j er hm
      by_cases hj : j = i
      · subst hj; simp only [Function.update_self] at hm; exact absurd hm (hvf er)
      · simp only [Function.update_of_ne hj] at hm; exact (f j er hm).mono _
  cases hs
  case failed i e h1 =>
    refine upd _ i _ (by rw [h1]; simp) (by simp) (by simp) (by simp) (by simp) rfl (by simp) ?_ ?_
    · intro j e' he
      simp only [BEv.poll.injEq, Poll.ready.injEq, Except.error.injEq] at he
      have := h.ferr i e h1
      rw [he.2] at this; exact absurd this (by simp [Justified])
    · intro j e' he
      simp only [BEv.poll.injEq, Poll.ready.injEq, Except.error.injEq] at he
      rw [← he.2]; exact .inr (h.ferr i e h1)
  case waiting i h1 h2 =>
    have hu := upd (.poll i .pending) i .rx (by rw [h1]; simp) (by simp) (by simp) (by simp) (by simp) rfl (by simp) (by simp) (by simp)
    have : ({ x with futs := Function.update x.futs i .rx } : Buf S) = x := by
      rw [← h1, Function.update_eq_self]
    rw [this] at hu; exact hu
  case service_failed i e h1 h2 =>
    refine upd _ i _ (by rw [h1]; simp) (by simp) (by simp) (by simp) (by simp) rfl (by simp) (by simp) ?_
    intro j e' he
    simp only [BEv.poll.injEq, Poll.ready.injEq, Except.error.injEq] at he
    rw [← he.2]
    right
    -- where the error came from
    obtain ⟨m, hm, hmi⟩ := hI.msg.rxA i h1
    simp only [Justified]
    by_cases hD : m ∈ (dispatches tr).map (·.1)
    · obtain ⟨⟨m', f'⟩, h3, h4⟩ := List.mem_map.1 hD
      simp only at h4; subst h4
      rcases hI.msg.dS m' f' h3 with h5 | h5 | ⟨h5, _⟩
      · have := (hI.msg.rW m' f' h5).1; rw [hmi, h2] at this; cases this
      · rw [hmi, h2] at h5; cases h5
      · rw [hmi, h2] at h5; cases h5
    · by_cases hP : m ∈ x.pend
      · have := (hI.msg.pW m hP).1; rw [hmi, h2] at this; cases this
      · rcases hI.msg.fate m hm hD hP with h5 | ⟨e2, h6, h5⟩ | ⟨_, h5⟩
        · rw [hmi, h1] at h5; cases h5
        · rw [hmi, h2] at h5; cases h5; exact hI.ctl.errTr _ (hI.ctl.f_err _ h6).1
        · rw [hmi, h2] at h5; cases h5
  case gone i h1 h2 =>
    refine upd _ i _ (by rw [h1]; simp) (by simp) (by simp) (by simp) (by simp) rfl (by simp) (by simp) ?_
    intro j e' he
    simp only [BEv.poll.injEq, Poll.ready.injEq, Except.error.injEq] at he
    rw [← he.2]
    right
    obtain ⟨m, hm, hmi⟩ := hI.msg.rxA i h1
    simp only [Justified]
    by_cases hD : m ∈ (dispatches tr).map (·.1)
    · obtain ⟨⟨m', f'⟩, h3, h4⟩ := List.mem_map.1 hD
      simp only at h4; subst h4
      rcases hI.msg.dS m' f' h3 with h5 | h5 | ⟨_, h5⟩
      · have := (hI.msg.rW m' f' h5).1; rw [hmi, h2] at this; cases this
      · rw [hmi, h2] at h5; cases h5
      · rw [hmi, h1] at h5; cases h5
    · by_cases hP : m ∈ x.pend
      · have := (hI.msg.pW m hP).1; rw [hmi, h2] at this; cases this
      · rcases hI.msg.fate m hm hD hP with h5 | ⟨e2, h6, h5⟩ | ⟨h5, _⟩
        · rw [hmi, h1] at h5; cases h5
        · rw [hmi, h2] at h5; cases h5
        · exact (hI.ctl.dying h5).2
  case arrived i f h1 h2 =>
    exact upd _ i _ (by rw [h1]; simp) (by simp) (by simp) (by simp) (by simp) rfl (by simp) (by simp) (by simp)
  case inner_pending i f f' w w' h1 h2 =>
    exact upd _ i _ (by rw [h1]; simp) (by simp) (by simp) (by simp) (by simp) rfl (by simp) (by simp) (by simp)
  case inner_ok i f f' w w' a h1 h2 =>
    obtain ⟨m, f0, h3, h4, h5⟩ := hI.msg.inn i f h1
    refine upd _ i _ (by rw [h1]; simp) (by simp) (by simp) (by simp) (by simp) rfl ?_ (by simp) (by simp)
    intro j a' he
    simp only [BEv.poll.injEq, Poll.ready.injEq, Except.ok.injEq] at he
    exact ⟨m, f0, f, f', w, w', h3, by rw [h4, he.1], h5, by rw [← he.2]; exact h2⟩
  case inner_err i f f' w w' e h1 h2 =>
    obtain ⟨m, f0, h3, h4, h5⟩ := hI.msg.inn i f h1
    refine upd _ i _ (by rw [h1]; simp) (by simp) (by simp) (by simp) (by simp) rfl (by simp) ?_ ?_
    · intro j a' he
      simp only [BEv.poll.injEq, Poll.ready.injEq, Except.error.injEq, BufErr.inner.injEq] at he
      exact ⟨m, f0, f, f', w, w', h3, by rw [h4, he.1], h5, by rw [← he.2]; exact h2⟩
    · intro j e' he
      simp only [BEv.poll.injEq, Poll.ready.injEq, Except.error.injEq] at he
      exact .inl ⟨e, he.2.symm⟩
  case drop i h1 h2 =>
    obtain ⟨a, b, c, d, e, f⟩ := h
    have hdisp : dispatches (tr ++ [(.dropFut i : BEv S)]) = dispatches tr := by rw [dispatches_append]; simp [dispatches]
    constructor
    · intro j
      rw [mem_snoc]
      simp only
      by_cases hj : j = i
      · subst hj; simp
      · rw [Function.update_of_ne hj, a]; simp [hj]
    · intro j v' hm; rw [hdisp]; exact b j v' (by simpa using hm)
    · intro j v' hm; rw [hdisp]; exact c j v' (by simpa using hm)
    · intro j er hm
      rcases d j er (by simpa using hm) with h' | h'
      · exact .inl h'
      · exact .inr (h'.mono _)
    · intro n er hm; exact (e n er (by simpa using hm)).mono _
    · intro j er hm
      by_cases hj : j = i
      · subst hj; simp at hm
      · simp only [Function.update_of_ne hj] at hm; exact (f j er hm).mono _

theorem EvInv.step {x y : Buf S} {tr ev} (h : EvInv tr x) (hI : BufInv tr x) (hs : BStep x ev y) : EvInv (tr ++ [ev]) y := by
  cases hs with
  | worker hs => cases hs <;> exact h.of_same rfl (by simp) (by simp) (by simp)
  | death hs => cases hs <;> exact h.of_same rfl (by simp) (by simp) (by simp)
  | handle hs => exact h.handle hI hs
  | future hs => exact h.future hI hs

theorem BHist.ev {bound : Nat} {svc : S.σ} {tr : List (BEv S)} {x : Buf S} (h : BHist S bound svc tr x) : EvInv tr x := by
  induction h with
  | nil => exact EvInv.init bound svc
  | snoc h hs ih => exact ih.step (BHist.inv h) hs

/-- histories can be cut anywhere -/
theorem BRun.split {x z : Buf S} {t u : List (BEv S)} (h : BRun x (t ++ u) z) : ∃ y, BRun x t y ∧ BRun y u z := by
  generalize hs : t ++ u = s at h
  induction h generalizing u with
  | nil =>
    have := List.append_eq_nil_iff.1 hs
    exact ⟨x, by rw [this.1]; exact .nil, by rw [this.2]; exact .nil⟩
  | @snoc tr ev y z hr hst ih =>
    rcases List.eq_nil_or_concat u with rfl | ⟨u', b, rfl⟩
    · rw [List.append_nil] at hs; subst hs
      exact ⟨z, .snoc hr hst, .nil⟩
    · rw [List.concat_eq_append, ← List.append_assoc] at hs
      rw [List.concat_eq_append]
      obtain ⟨h1, h2⟩ := List.append_inj' hs rfl
      cases h2
      obtain ⟨y', h3, h4⟩ := ih h1
      exact ⟨y', h3, .snoc h4 hst⟩

theorem BRun.append {x y z : Buf S} {t u : List (BEv S)} (h : BRun x t y) (h' : BRun y u z) : BRun x (t ++ u) z := by
  induction h' with
  | nil => simpa using h
  | snoc _ hs ih => rw [← List.append_assoc]; exact .snoc ih hs

theorem BRun.one {x y : Buf S} {ev} (h : BStep x ev y) : BRun x [ev] y := by
  simpa using BRun.snoc .nil h

theorem BRun.nil_inv {x y : Buf S} (h : BRun x [] y) : y = x := by
  generalize hs : ([] : List (BEv S)) = s at h
  cases h with
  | nil => rfl
  | snoc _ _ => simp at hs

/-- a run that starts with an event -/
theorem BRun.cons_inv {x z : Buf S} {ev} {u : List (BEv S)} (h : BRun x (ev :: u) z) : ∃ y, BStep x ev y ∧ BRun y u z := by
  obtain ⟨y, h1, h2⟩ := BRun.split (t := [ev]) h
  refine ⟨y, ?_, h2⟩
  generalize hs : [ev] = s at h1
  cases h1 with
  | nil => cases hs
  | snoc h3 h4 =>
    rename_i t ev' w
    have : t = [] := by
      cases t with
      | nil => rfl
      | cons a t => simp at hs
    subst this
    simp at hs
    subst hs
    have := BRun.nil_inv h3
    subst this
    exact h4

end Tower
