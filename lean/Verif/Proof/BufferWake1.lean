import Verif.Spec.BufferWakeSpec
import Verif.Props.C19_Buffer

/-! # Buffer: nobody sleeps who should not -/

set_option linter.unusedSimpArgs false

namespace Tower
variable {W Req Res Err : Type} {S : Service W Req Res Err} {bound : Nat} {svc : S.σ}

theorem KHist.hist {tr : List (BEv S)} {x : Buf S} {k : Wakers} (h : KHist S bound svc tr x k) : BHist S bound svc tr x := by
  induction h with
  | init => exact .nil
  | step _ hs _ ih => exact .snoc ih hs
  | wake _ _ _ _ _ _ ih => exact ih

theorem hWaits_snoc (n : Nat) (tr : List (BEv S)) (ev : BEv S) : hWaits n (tr ++ [ev]) = hWaitsAfter n (hWaits n tr) ev := by simp [hWaits]
theorem fWaits_snoc (n : Nat) (tr : List (BEv S)) (ev : BEv S) : fWaits n (tr ++ [ev]) = fWaitsAfter n (fWaits n tr) ev := by simp [fWaits]
theorem svcWaits_snoc (tr : List (BEv S)) (ev : BEv S) : svcWaits (tr ++ [ev]) = svcWaitsAfter (svcWaits tr) ev := by simp [svcWaits]

/-- the worker sleeps for a reason -/
structure ParkInv (tr : List (BEv S)) (x : Buf S) (k : Wakers) : Prop where
  held : x.cur ≠ none → svcWaits tr = true
  park : x.pc = .parked → k.worker = false → x.cur = none → k.rx = true ∧ x.queue = [] ∧ x.hs ≠ []

theorem ParkInv.step {tr : List (BEv S)} {x y : Buf S} {k : Wakers} {ev} (h : ParkInv tr x k) (hC : CtlInv tr x) (hs : BStep x ev y)
    (hw : x.pc = .parked → y.pc = .next → k.worker = true) : ParkInv (tr ++ [ev]) y (x.wakes ev y k) := by
  obtain ⟨h1, h2⟩ := h
  cases hs with
  | worker hs =>
    cases hs
    case svc_pending => exact ⟨fun _ => by simp [svcWaits_snoc, svcWaitsAfter], by simp⟩
    case empty h3 h4 h5 h6 =>
      exact ⟨fun h => by rw [svcWaits_snoc]; exact h1 h, fun _ _ _ => ⟨by simp [Buf.wakes, h3], h4, h5⟩⟩
    all_goals
      refine ⟨fun h => ?_, ?_⟩
      · rw [svcWaits_snoc]
        first
        | exact h1 h
        | exact absurd rfl h
        | (have := hC.cur h; simp_all)
      · simp_all [Buf.dropMsg, Buf.send, Buf.close]
  | death hs =>
    cases hs
    case free => exact ⟨fun h => by have := hC.cur h; simp_all, by simp_all [Buf.dropMsgs]⟩
    all_goals
      refine ⟨fun h => ?_, ?_⟩
      · rw [svcWaits_snoc]
        first
        | exact absurd rfl h
        | (have := hC.cur h; simp_all)
      · simp_all [Buf.dropMsg, Buf.send, Buf.close, Buf.dropMsgs]
  | future hs =>
    cases hs
    all_goals
      refine ⟨fun h => by rw [svcWaits_snoc]; exact h1 h, fun hp hk hc => ?_⟩
      have hp' : x.pc = .parked := hp
      simp only [Buf.wakes, hp', Buf.rxFires, Bool.and_false, Bool.or_false, Bool.not_false, Bool.and_true] at hk ⊢
      exact h2 hp' hk hc
  | handle hs =>
    cases hs
    case call hl hc0 =>
      refine ⟨fun h => by rw [svcWaits_snoc]; exact h1 h, fun hp hk hc => ?_⟩
      have hp' : x.pc = .parked := hp
      simp only [Buf.wakes, hp', Buf.rxFires, Bool.and_true, Bool.or_eq_false_iff] at hk
      have := h2 hp' hk.1 hc
      simp [hk.2] at this
    case drop m l r hl =>
      refine ⟨fun h => by rw [svcWaits_snoc]; exact h1 h, fun hp hk hc => ?_⟩
      have hp' : x.pc = .parked := hp
      simp only [Buf.wakes, hp', Bool.or_eq_false_iff] at hk ⊢
      obtain ⟨h3, h4, h5⟩ := h2 hp' hk.1 hc
      have h6 := hk.2
      rw [h3] at h6 ⊢
      simp only [Bool.true_and] at h6 ⊢
      refine ⟨by simp [h6], h4, ?_⟩
      intro h7
      have h7' : l ++ r = [] := h7
      rw [List.append_eq_nil_iff] at h7'
      simp [Buf.rxFires, h7'.1, h7'.2] at h6
    all_goals
      refine ⟨fun h => by rw [svcWaits_snoc]; exact h1 h, fun hp hk hc => ?_⟩
      have hp' : x.pc = .parked := hp
      simp only [Buf.wakes, hp', Buf.rxFires, Bool.and_false, Bool.or_false, Bool.not_false, Bool.and_true] at hk ⊢
      obtain ⟨h3, h4, h5⟩ := h2 hp' hk hc
      refine ⟨h3, h4, ?_⟩
      simp_all

/-- who waits for a slot is in the list of waiters, unless woken -/
structure HandInv (tr : List (BEv S)) (x : Buf S) (k : Wakers) : Prop where
  acq : ∀ h ∈ x.hs, h.st = .acquiring → k.handles h.name = true ∨ h.name ∈ x.sem.queue
  waits : ∀ n, hWaits n tr = true → ∃ h ∈ x.hs, h.name = n ∧ h.st = .acquiring
  acqw : ∀ h ∈ x.hs, h.st = .acquiring → hWaits h.name tr = true
  fresh : ∀ n, x.nextName ≤ n → hWaits n tr = false

theorem hWaitsAfter_other {n : Nat} {b : Bool} {ev : BEv S} (h1 : ∀ p, ev ≠ .ready n p) (h2 : ev ≠ .dropHandle n) : hWaitsAfter n b ev = b := by
  cases ev with
  | ready n' p =>
    have : n' ≠ n := by rintro rfl; exact h1 p rfl
    cases p <;> simp [hWaitsAfter, this]
  | dropHandle n' =>
    have : n' ≠ n := by rintro rfl; exact h2 rfl
    simp [hWaitsAfter, this]
  | _ => rfl

theorem wakes_handle {x y : Buf S} {k : Wakers} {ev} {n : Nat} (h : k.handles n = true ∨ n ∈ x.sem.queue) (he : ∀ p, ev ≠ .ready n p) :
    (x.wakes ev y k).handles n = true ∨ n ∈ y.sem.queue := by
  simp only [Buf.wakes]
  by_cases h1 : n ∈ y.sem.queue
  · exact .inr h1
  · left
    by_cases h2 : n ∈ x.sem.queue
    · simp [h1, h2]
    · have h3 : Buf.pollsHandle n ev = false := by
        cases ev with
        | ready n' p =>
          have : n' ≠ n := by rintro rfl; exact he p rfl
          simp [Buf.pollsHandle, this]
        | _ => rfl
      rcases h with h | h
      · simp [h2, h3, h]
      · exact absurd h h2

/-- a step that is not one of the handles -/
theorem HandInv.of_same {tr : List (BEv S)} {x y : Buf S} {k : Wakers} {ev} (h : HandInv tr x k) (h1 : y.hs = x.hs) (h2 : y.nextName = x.nextName)
    (he : ∀ n p, ev ≠ .ready n p) (hd : ∀ n, ev ≠ .dropHandle n) : HandInv (tr ++ [ev]) y (x.wakes ev y k) := by
  constructor
  · intro j hj hst; rw [h1] at hj; exact wakes_handle (h.acq j hj hst) (he _)
  · intro n hn; rw [hWaits_snoc, hWaitsAfter_other (he n) (hd n)] at hn; rw [h1]; exact h.waits n hn
  · intro j hj hst; rw [h1] at hj; rw [hWaits_snoc, hWaitsAfter_other (he _) (hd _)]; exact h.acqw j hj hst
  · intro n hn; rw [h2] at hn; rw [hWaits_snoc, hWaitsAfter_other (he _) (hd _)]; exact h.fresh n hn

/-- members other than the one at hand have other names -/
theorem SemInv.others {x : Buf S} (hI : SemInv x) {k : BHandle} {l r : List BHandle} (hl : x.hs = l ++ k :: r) :
    ∀ j ∈ l ++ r, j ∈ x.hs ∧ j.name ≠ k.name := by
  have hnd := hI.names
  rw [hl] at hnd
  simp only [List.map_append, List.map_cons] at hnd
  intro j hj
  rcases List.mem_append.1 hj with hj | hj
  · refine ⟨by rw [hl]; simp [hj], fun he => ?_⟩
    exact (List.nodup_append.1 hnd).2.2 j.name (List.mem_map.2 ⟨j, hj, rfl⟩) k.name (by simp) he
  · refine ⟨by rw [hl]; simp [hj], fun he => ?_⟩
    have := (List.nodup_cons.1 (List.nodup_append.1 hnd).2.1).1
    exact this (he ▸ List.mem_map.2 ⟨j, hj, rfl⟩)

/-- a `Pending` puts the handle into the list of waiters -/
theorem pollReady_pending (x : Buf S) (k : BHandle) : ((x.pollReady k).2.1.st = .acquiring ↔ (x.pollReady k).1 = .pending) ∧
    ((x.pollReady k).1 = .pending → k.name ∈ (x.pollReady k).2.2.queue) := by
  unfold Buf.pollReady
  split
  · rename_i h; simp [h]
  · rename_i h; simp [h]
  all_goals
    unfold Buf.reserve
    split
    · simp
    · split
      · simp
      · rename_i sem he
        refine ⟨by simp, fun _ => ?_⟩
        unfold Sem.pollAcquire at he
        split at he
        · simp at he
        · split at he
          · simp only [Prod.mk.injEq, true_and] at he; subst he; assumption
          · split at he
            · simp at he
            · simp only [Prod.mk.injEq, true_and] at he; subst he; simp

theorem HandInv.step {tr : List (BEv S)} {x y : Buf S} {k : Wakers} {ev} (h : HandInv tr x k) (hI : SemInv x) (hs : BStep x ev y) :
    HandInv (tr ++ [ev]) y (x.wakes ev y k) := by
  cases hs with
  | worker hs => cases hs <;> exact h.of_same rfl rfl (by simp) (by simp)
  | death hs => cases hs <;> exact h.of_same rfl rfl (by simp) (by simp)
  | future hs => cases hs <;> exact h.of_same rfl rfl (by simp) (by simp)
  | handle hs =>
    cases hs
    case call_panics => exact h.of_same rfl rfl (by simp) (by simp)
    case call_closed => exact h.of_same rfl rfl (by simp) (by simp)
    case clone m hm =>
      constructor
      · intro j hj hst
        simp only [List.mem_append, List.mem_singleton] at hj
        rcases hj with hj | rfl
        · exact wakes_handle (h.acq j hj hst) (by simp)
        · cases hst
      · intro n hn
        rw [hWaits_snoc, hWaitsAfter_other (by simp) (by simp)] at hn
        obtain ⟨j, hj, h1⟩ := h.waits n hn
        exact ⟨j, by simp [hj], h1⟩
      · intro j hj hst
        simp only [List.mem_append, List.mem_singleton] at hj
        rw [hWaits_snoc, hWaitsAfter_other (by simp) (by simp)]
        rcases hj with hj | rfl
        · exact h.acqw j hj hst
        · cases hst
      · intro n hn
        rw [hWaits_snoc, hWaitsAfter_other (by simp) (by simp)]
        exact h.fresh n (by simp only at hn; omega)
    case call m l r q hl hc =>
      have hm : m ∈ x.hs := by rw [hl]; simp
      have hst : m.st = .ready := by
        unfold Buf.callOutcome at hc
        cases hk : m.st <;> simp [hk] at hc <;> rfl
      have ho := hI.others hl
      have mem : ∀ j ∈ l ++ { m with st := HSt.idle } :: r, j.st = .acquiring → j ∈ x.hs := by
        intro j hj hst
        simp only [List.mem_append, List.mem_cons] at hj
        rcases hj with hj | rfl | hj
        · exact (ho j (by simp [hj])).1
        · cases hst
        · exact (ho j (by simp [hj])).1
      constructor
      · intro j hj hst; exact wakes_handle (h.acq j (mem j hj hst) hst) (by simp)
      · intro n hn
        rw [hWaits_snoc, hWaitsAfter_other (by simp) (by simp)] at hn
        obtain ⟨j, hj, h1, h2⟩ := h.waits n hn
        refine ⟨j, ?_, h1, h2⟩
        rw [hl] at hj
        simp only [List.mem_append, List.mem_cons] at hj ⊢
        rcases hj with hj | rfl | hj
        · exact .inl hj
        · rw [hst] at h2; cases h2
        · exact .inr (.inr hj)
      · intro j hj hst
        rw [hWaits_snoc, hWaitsAfter_other (by simp) (by simp)]
        exact h.acqw j (mem j hj hst) hst
      · intro n hn
        rw [hWaits_snoc, hWaitsAfter_other (by simp) (by simp)]
        exact h.fresh n hn
    case drop m l r hl =>
      have ho := hI.others hl
      constructor
      · intro j hj hst
        exact wakes_handle (h.acq j (ho j hj).1 hst) (by simp)
      · intro n hn
        rw [hWaits_snoc] at hn
        by_cases he : m.name = n
        · simp [hWaitsAfter, he] at hn
        · rw [hWaitsAfter_other (by simp) (by simp [he])] at hn
          obtain ⟨j, hj, h1, h2⟩ := h.waits n hn
          refine ⟨j, ?_, h1, h2⟩
          rw [hl] at hj
          simp only [List.mem_append, List.mem_cons] at hj ⊢
          rcases hj with hj | rfl | hj
          · exact .inl hj
          · exact absurd h1 he
          · exact .inr hj
      · intro j hj hst
        rw [hWaits_snoc, hWaitsAfter_other (by simp) (by simpa using (ho j hj).2.symm)]
        exact h.acqw j (ho j hj).1 hst
      · intro n hn
        rw [hWaits_snoc]
        by_cases he : m.name = n
        · simp [hWaitsAfter, he]
        · rw [hWaitsAfter_other (by simp) (by simp [he])]
          exact h.fresh n hn
    case ready m l r hl =>
      have hm : m ∈ x.hs := by rw [hl]; simp
      have ho := hI.others hl
      have hnm := pollReady_name x m
      obtain ⟨hp1, hp2⟩ := pollReady_pending x m
      have wm : hWaitsAfter m.name (hWaits m.name tr) (BEv.ready (S := S) m.name (x.pollReady m).1) = true ↔ (x.pollReady m).1 = .pending := by
        cases (x.pollReady m).1 <;> simp [hWaitsAfter]
      constructor
      · intro j hj hst
        simp only [List.mem_append, List.mem_cons] at hj
        have other : j ∈ l ++ r → _ := fun hj => wakes_handle (y := { x with hs := l ++ (x.pollReady m).2.1 :: r, sem := (x.pollReady m).2.2 })
          (ev := .ready m.name (x.pollReady m).1) (h.acq j (ho j hj).1 hst) (by intro p; simp [(ho j hj).2.symm])
        rcases hj with hj | rfl | hj
        · exact other (by simp [hj])
        · right
          rw [hnm]
          exact hp2 (hp1.1 hst)
        · exact other (by simp [hj])
      · intro n hn
        rw [hWaits_snoc] at hn
        by_cases he : m.name = n
        · subst he
          exact ⟨_, by simp, hnm, hp1.2 (wm.1 hn)⟩
        · rw [hWaitsAfter_other (by simp [he]) (by simp)] at hn
          obtain ⟨j, hj, h1, h2⟩ := h.waits n hn
          refine ⟨j, ?_, h1, h2⟩
          rw [hl] at hj
          simp only [List.mem_append, List.mem_cons] at hj ⊢
          rcases hj with hj | rfl | hj
          · exact .inl hj
          · exact absurd h1 he
          · exact .inr (.inr hj)
      · intro j hj hst
        simp only [List.mem_append, List.mem_cons] at hj
        rw [hWaits_snoc]
        have other : j ∈ l ++ r → hWaitsAfter j.name (hWaits j.name tr) (BEv.ready (S := S) m.name (x.pollReady m).1) = true := fun hj => by
          rw [hWaitsAfter_other (by simp [(ho j hj).2.symm]) (by simp)]
          exact h.acqw j (ho j hj).1 hst
        rcases hj with hj | rfl | hj
        · exact other (by simp [hj])
        · rw [hnm]; exact wm.2 (hp1.1 hst)
        · exact other (by simp [hj])
      · intro n hn
        have hlt := hI.fresh m hm
        rw [hWaits_snoc, hWaitsAfter_other (by intro p he; simp only [BEv.ready.injEq] at he; simp only at hn; omega) (by simp)]
        exact h.fresh n hn

/-! ## Response futures -/

/-- who waits for an answer has none, unless woken -/
structure FutInv (tr : List (BEv S)) (x : Buf S) (k : Wakers) : Prop where
  rx : ∀ i, x.futs i = .rx → fWaits i tr = true → k.futs i = true ∨ x.shots i = .waiting
  inn : ∀ i f, x.futs i = .inner f → fWaits i tr = true → k.futs i = true ∨ WaitsForInner tr x i
  waits : ∀ i, fWaits i tr = true → x.futs i = .rx ∨ ∃ f, x.futs i = .inner f

theorem fWaitsAfter_other {i : Nat} {b : Bool} {ev : BEv S} (h1 : ∀ p, ev ≠ .poll i p) (h2 : ev ≠ .dropFut i) : fWaitsAfter i b ev = b := by
  cases ev with
  | poll n' p =>
    have : n' ≠ i := by rintro rfl; exact h1 p rfl
    cases p <;> simp [fWaitsAfter, this]
  | dropFut n' =>
    have : n' ≠ i := by rintro rfl; exact h2 rfl
    simp [fWaitsAfter, this]
  | _ => rfl

theorem pollsFut_other {i : Nat} {ev : BEv S} (h1 : ∀ p, ev ≠ .poll i p) : Buf.pollsFut i ev = false := by
  cases ev with
  | poll n' p =>
    have : n' ≠ i := by rintro rfl; exact h1 p rfl
    simp [Buf.pollsFut, this]
  | _ => rfl

theorem wakes_fut {x y : Buf S} {k : Wakers} {ev} {i : Nat} (h : k.futs i = true) (h1 : ∀ p, ev ≠ .poll i p) : (x.wakes ev y k).futs i = true := by
  simp only [Buf.wakes, pollsFut_other h1]
  split <;> simp [h]

theorem wakes_shot {x y : Buf S} {k : Wakers} {ev} {i : Nat} (h : k.futs i = true ∨ x.shots i = .waiting) (h1 : ∀ p, ev ≠ .poll i p) :
    (x.wakes ev y k).futs i = true ∨ y.shots i = .waiting := by
  rcases h with h | h
  · exact .inl (wakes_fut h h1)
  · cases hy : y.shots i with
    | waiting => exact .inr rfl
    | sent v => left; simp [Buf.wakes, Buf.shotFires, h, hy]
    | gone => left; simp [Buf.wakes, Buf.shotFires, h, hy]

theorem WaitsForInner.mono {tr : List (BEv S)} {x y : Buf S} {i : Nat} (h : WaitsForInner tr x i) (ev) (hf : y.futs i = x.futs i) : WaitsForInner (tr ++ [ev]) y i := by
  obtain ⟨r, f0, f1, f, w, w', a, b, c, d⟩ := h
  exact ⟨r, f0, f1, f, w, w', by simp [a], b, c, by rw [hf]; exact d⟩

/-- what a step that does not concern future `i` does for it -/
structure FutAt (tr : List (BEv S)) (x : Buf S) (k : Wakers) (i : Nat) : Prop where
  rx : x.futs i = .rx → fWaits i tr = true → k.futs i = true ∨ x.shots i = .waiting
  inn : ∀ f, x.futs i = .inner f → fWaits i tr = true → k.futs i = true ∨ WaitsForInner tr x i
  waits : fWaits i tr = true → x.futs i = .rx ∨ ∃ f, x.futs i = .inner f

theorem FutInv.at {tr : List (BEv S)} {x : Buf S} {k : Wakers} (h : FutInv tr x k) (i : Nat) : FutAt tr x k i := ⟨h.rx i, h.inn i, h.waits i⟩

theorem FutAt.of_same {tr : List (BEv S)} {x y : Buf S} {k : Wakers} {ev} {i : Nat} (h : FutAt tr x k i) (hf : y.futs i = x.futs i) (h1 : ∀ p, ev ≠ .poll i p)
    (h2 : ev ≠ .dropFut i) : FutAt (tr ++ [ev]) y (x.wakes ev y k) i := by
  constructor
  · intro h3 h4
    rw [fWaits_snoc, fWaitsAfter_other h1 h2] at h4
    rw [hf] at h3
    exact wakes_shot (h.rx h3 h4) h1
  · intro f h3 h4
    rw [fWaits_snoc, fWaitsAfter_other h1 h2] at h4
    rw [hf] at h3
    rcases h.inn f h3 h4 with h5 | h5
    · exact .inl (wakes_fut h5 h1)
    · exact .inr (h5.mono ev hf)
  · intro h4
    rw [fWaits_snoc, fWaitsAfter_other h1 h2] at h4
    rw [hf]; exact h.waits h4

theorem FutInv.of_at {tr : List (BEv S)} {x : Buf S} {k : Wakers} (h : ∀ i, FutAt tr x k i) : FutInv tr x k :=
  ⟨fun i => (h i).rx, fun i => (h i).inn, fun i => (h i).waits⟩

/-- a future that was decided -/
theorem FutAt.over {tr : List (BEv S)} {x : Buf S} {k : Wakers} {i : Nat} (h : fWaits i tr = false) : FutAt tr x k i :=
  ⟨fun _ h' => by simp [h] at h', fun _ _ h' => by simp [h] at h', fun h' => by simp [h] at h'⟩

theorem FutInv.finish {tr : List (BEv S)} {x : Buf S} {k : Wakers} (h : FutInv tr x k) (i : Nat) (v) :
    FutInv (tr ++ [.poll i (.ready v)]) { x with futs := Function.update x.futs i .finished }
      (x.wakes (.poll i (.ready v)) { x with futs := Function.update x.futs i .finished } k) := by
  refine .of_at fun j => ?_
  by_cases hj : j = i
  · subst hj; exact .over (by simp [fWaits_snoc, fWaitsAfter])
  · exact (h.at j).of_same (Function.update_of_ne hj _ _) (by simp [Ne.symm hj]) (by simp)

theorem FutInv.step {tr : List (BEv S)} {x y : Buf S} {k : Wakers} {ev} (h : FutInv tr x k) (hI : BufInv tr x) (hs : BStep x ev y) :
    FutInv (tr ++ [ev]) y (x.wakes ev y k) := by
  have fresh : ∀ i, x.calls ≤ i → fWaits i tr = false := by
    intro i hi
    cases hb : fWaits i tr with
    | false => rfl
    | true =>
      rcases h.waits i hb with h1 | ⟨f, h1⟩ <;> rw [hI.msg.fnone i hi] at h1 <;> cases h1
  cases hs with
  | worker hs => cases hs <;> exact .of_at fun i => (h.at i).of_same rfl (by simp) (by simp)
  | death hs => cases hs <;> exact .of_at fun i => (h.at i).of_same rfl (by simp) (by simp)
  | handle hs =>
    cases hs
    case call m l r q hl hc =>
      refine .of_at fun i => ?_
      by_cases hi : i = x.calls
      · exact .over (by rw [fWaits_snoc, fWaitsAfter_other (by simp) (by simp)]; exact fresh i (by omega))
      · exact (h.at i).of_same (Function.update_of_ne hi _ _) (by simp) (by simp)
    case call_closed =>
      refine .of_at fun i => ?_
      by_cases hi : i = x.calls
      · exact .over (by rw [fWaits_snoc, fWaitsAfter_other (by simp) (by simp)]; exact fresh i (by omega))
      · exact (h.at i).of_same (Function.update_of_ne hi _ _) (by simp) (by simp)
    all_goals exact .of_at fun i => (h.at i).of_same rfl (by simp) (by simp)
  | future hs =>
    cases hs
    case waiting i h1 h2 =>
      refine .of_at fun j => ?_
      by_cases hj : j = i
      · subst hj
        exact ⟨fun _ _ => .inr h2, fun f hf => (by rw [h1] at hf; cases hf), fun _ => .inl h1⟩
      · exact (h.at j).of_same rfl (by simp [Ne.symm hj]) (by simp)
    case arrived i f h1 h2 =>
      refine .of_at fun j => ?_
      by_cases hj : j = i
      · subst hj
        constructor
        · intro hf; simp at hf
        · intro f' _ h4
          rw [fWaits_snoc, fWaitsAfter_other (by simp) (by simp)] at h4
          rcases h.rx j h1 h4 with h5 | h5
          · exact .inl (wakes_fut h5 (by simp))
          · rw [h2] at h5; cases h5
        · intro _; exact .inr ⟨f, by simp⟩
      · exact (h.at j).of_same (Function.update_of_ne hj _ _) (by simp) (by simp)
    case inner_pending i f f' w w' h1 h2 =>
      refine .of_at fun j => ?_
      by_cases hj : j = i
      · subst hj
        refine ⟨fun hf => by simp at hf, fun f'' hf'' h4 => .inr ?_, fun _ => .inr ⟨f', by simp⟩⟩
        obtain ⟨m, f0, h5, h6, h7⟩ := hI.msg.inn j f h1
        refine ⟨m.req, f0, f, f', w, w', ?_, h7, h2, by simp⟩
        rw [← h6]
        exact List.mem_append_left _ (mem_dispatches.1 h5)
      · exact (h.at j).of_same (Function.update_of_ne hj _ _) (by simp [Ne.symm hj]) (by simp)
    case drop i h1 h2 =>
      refine .of_at fun j => ?_
      by_cases hj : j = i
      · subst hj; exact .over (by simp [fWaits_snoc, fWaitsAfter])
      · exact (h.at j).of_same (Function.update_of_ne hj _ _) (by simp) (by simp [Ne.symm hj])
    case failed => exact h.finish _ _
    case service_failed => exact h.finish _ _
    case gone => exact h.finish _ _
    case inner_ok => exact h.finish _ _
    case inner_err => exact h.finish _ _

/-- everything -/
structure WakeInv (tr : List (BEv S)) (x : Buf S) (k : Wakers) : Prop where
  park : ParkInv tr x k
  hand : HandInv tr x k
  fut : FutInv tr x k

theorem KHist.wakeInv {tr : List (BEv S)} {x : Buf S} {k : Wakers} (h : KHist S bound svc tr x k) : WakeInv tr x k := by
  induction h with
  | init =>
    refine ⟨⟨by simp [Buf.init], by simp [Wakers.init]⟩, ⟨?_, ?_, ?_, ?_⟩, ⟨?_, ?_, ?_⟩⟩ <;> simp [Buf.init, hWaits, fWaits]
  | step hk hs hw ih =>
    have hI := BHist.inv hk.hist
    exact ⟨ih.park.step hI.ctl hs hw, ih.hand.step hI.sem hs, ih.fut.step hI hs⟩
  | wake k' hk h1 h2 h3 h4 ih =>
    obtain ⟨⟨a1, a2⟩, ⟨b1, b2, b3, b4⟩, ⟨c1, c2, c3⟩⟩ := ih
    refine ⟨⟨a1, fun hp hw hc => ?_⟩, ⟨fun j hj hst => ?_, b2, b3, b4⟩, ⟨fun i hi hw => ?_, fun i f hi hw => ?_, c3⟩⟩
    · rw [h2]
      refine a2 hp ?_ hc
      cases hb : Wakers.worker _ with
      | false => rfl
      | true => rw [h1 hb] at hw; cases hw
    · exact (b1 j hj hst).imp_left (h3 _)
    · exact (c1 i hi hw).imp_left (h4 _)
    · exact (c2 i f hi hw).imp_left (h4 _)

end Tower
