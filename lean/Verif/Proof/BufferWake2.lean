import Verif.Proof.BufferWake1
import Mathlib.Algebra.Order.BigOperators.Group.Finset

/-! # Buffer: woken tasks come to rest -/

set_option linter.unusedSimpArgs false

namespace Tower
variable {W Req Res Err : Type} {S : Service W Req Res Err} {bound : Nat} {svc : S.σ}

theorem Goes.bstep {tr : List (BEv S)} {x y : Buf S} {k : Wakers} {ev} (h : Goes tr x k ev y) : BStep x ev y := by
  cases h with
  | worker h => exact .worker h
  | death h => exact .death h
  | handle _ _ h => exact .handle h
  | poll _ _ h => exact .future h
  | arrive _ _ h1 h2 => exact .future (.arrived h1 h2)

theorem Goes.sched {tr : List (BEv S)} {x y : Buf S} {k : Wakers} {ev} (h : Goes tr x k ev y) : x.pc = .parked → y.pc = .next → k.worker = true := by
  cases h with
  | worker _ h => exact fun h1 _ => h h1
  | death _ h => exact fun h1 => absurd h1 h
  | handle _ _ h => cases h; exact fun h1 h2 => by (rw [show _ = x.pc from rfl, h1] at h2; cases h2)
  | poll _ _ h =>
    intro h1 h2
    have : y.pc = x.pc := by cases h <;> rfl
    rw [this, h1] at h2; cases h2
  | arrive => exact fun h1 h2 => by (rw [show _ = x.pc from rfl, h1] at h2; cases h2)

/-- a handle that waits on an open channel is known to the semaphore -/
def KnownInv (x : Buf S) : Prop := ∀ h ∈ x.hs, h.st = .acquiring → x.closed = false → h.name ∈ x.sem.granted ++ x.sem.queue

theorem release_mem (s : Sem) {n : Nat} : n ∈ s.release.granted ++ s.release.queue ↔ n ∈ s.granted ++ s.queue := by
  unfold Sem.release
  cases h : s.queue <;> simp

theorem KnownInv.of_same {x y : Buf S} (h : KnownInv x) (h1 : y.hs = x.hs) (h2 : y.closed = x.closed) (h3 : ∀ n, n ∈ x.sem.granted ++ x.sem.queue → n ∈ y.sem.granted ++ y.sem.queue) : KnownInv y := by
  intro j hj hst hc
  rw [h1] at hj; rw [h2] at hc
  exact h3 _ (h j hj hst hc)

theorem pollReady_acq (x : Buf S) (k : BHandle) (n : Nat) (hn : n ≠ k.name) (hc : x.closed = false) (h : n ∈ x.sem.granted ++ x.sem.queue) :
    n ∈ (x.pollReady k).2.2.granted ++ (x.pollReady k).2.2.queue := by
  unfold Buf.pollReady
  split
  · exact h
  · exact h
  all_goals
    unfold Buf.reserve
    rw [if_neg (by simp [hc])]
    unfold Sem.pollAcquire
    split_ifs <;> simp_all [List.mem_erase_of_ne hn]

theorem KnownInv.step {x y : Buf S} {ev} (h : KnownInv x) (hI : SemInv x) (hs : BStep x ev y) : KnownInv y := by
  cases hs with
  | worker hs =>
    cases hs
    case recv => exact h.of_same rfl rfl (fun n hn => (release_mem _).2 hn)
    case close => intro j hj hst hc; simp [Buf.close] at hc
    all_goals exact h.of_same rfl rfl (fun n hn => hn)
  | death hs =>
    cases hs
    case drain => exact h.of_same rfl rfl (fun n hn => (release_mem _).2 hn)
    case drained => exact h.of_same rfl rfl (fun n hn => hn)
    case free h1 h2 => intro j hj; simp [Buf.dropMsgs, h2] at hj
    case closes => intro j hj hst hc; simp [Buf.close] at hc
    all_goals exact h.of_same rfl rfl (fun n hn => hn)
  | future hs => cases hs <;> exact h.of_same rfl rfl (fun n hn => hn)
  | handle hs =>
    cases hs
    case call_panics => exact h
    case call_closed => exact h.of_same rfl rfl (fun n hn => hn)
    case clone m hm =>
      intro j hj hst hc
      simp only [List.mem_append, List.mem_singleton] at hj
      rcases hj with hj | rfl
      · exact h j hj hst hc
      · cases hst
    case call m l r q hl hc0 =>
      intro j hj hst hc
      simp only [List.mem_append, List.mem_cons] at hj
      rcases hj with hj | rfl | hj
      · exact h j (by rw [hl]; simp [hj]) hst hc
      · cases hst
      · exact h j (by rw [hl]; simp [hj]) hst hc
    case drop m l r hl =>
      intro j hj hst hc
      obtain ⟨h1, h2⟩ := hI.others hl j hj
      have h3 := h j h1 hst hc
      simp only
      split_ifs
      · exact (release_mem _).2 h3
      · unfold Sem.dropAcquire
        split_ifs
        · rw [release_mem]; simp_all [List.mem_erase_of_ne h2]
        · simp_all [List.mem_erase_of_ne h2]
    case ready m l r hl =>
      intro j hj hst hc
      simp only [List.mem_append, List.mem_cons] at hj
      have other : j ∈ l ++ r → j.name ∈ (x.pollReady m).2.2.granted ++ (x.pollReady m).2.2.queue := fun hj =>
        pollReady_acq x m _ (hI.others hl j hj).2 hc (h j (hI.others hl j hj).1 hst hc)
      rcases hj with hj | rfl | hj
      · exact other (by simp [hj])
      · obtain ⟨hp1, hp2⟩ := pollReady_pending x m
        rw [pollReady_name]
        exact List.mem_append_right _ (hp2 (hp1.1 hst))
      · exact other (by simp [hj])

theorem BHist.known {tr : List (BEv S)} {x : Buf S} (h : BHist S bound svc tr x) : KnownInv x := by
  induction h with
  | nil => intro j hj hst; simp [Buf.init] at hj; subst hj; cases hst
  | snoc h hs ih => exact ih.step (BHist.inv h).sem hs

/-! ## The measure -/

/-- what the worker still has to do in the current poll -/
def Buf.todo (x : Buf S) : Nat :=
  match x.pc with
  | .parked | .done => 0
  | .dead => x.queue.length
  | .dropping => x.queue.length + 1
  | .unwinding => x.queue.length + 2
  | _ => x.wm + 1

/-- what the worker has to do -/
def workerM (x : Buf S) (k : Wakers) : Nat := (if k.worker = true then 7 * x.queue.length + 13 else 0) + x.todo

/-- what the waiting handles have to do -/
def handleM (x : Buf S) (k : Wakers) : Nat := 2 * x.sem.queue.length + x.hs.countP (fun h => decide (h.st = .acquiring) && k.handles h.name)

/-- what a waiting response future has to do -/
def futM (x : Buf S) (k : Wakers) (i : Nat) : Nat :=
  match x.futs i with
  | .rx => (match x.shots i with | .waiting => 4 | _ => 2) + (if k.futs i = true then 1 else 0)
  | .inner _ => 1 + (if k.futs i = true then 1 else 0)
  | _ => 0

/-- all of it -/
def restM (x : Buf S) (k : Wakers) : Nat := workerM x k + handleM x k + ∑ i ∈ Finset.range x.calls, futM x k i

theorem todo_le (x : Buf S) : x.todo ≤ 7 * x.queue.length + 10 := by
  have := x.wm_le
  unfold Buf.todo
  split <;> omega

theorem futM_le_of {x y : Buf S} {k : Wakers} {ev} {i : Nat} (hf : y.futs i = x.futs i) (hs : x.shots i = .waiting ∨ y.shots i = x.shots i)
    (hin : ∀ f, x.futs i = .inner f → x.shots i ≠ .waiting) (he : ∀ p, ev ≠ .poll i p) : futM y (x.wakes ev y k) i ≤ futM x k i := by
  unfold futM
  rw [hf]
  simp only [Buf.wakes, pollsFut_other he, Bool.false_eq_true, if_false, Buf.shotFires]
  cases h1 : x.futs i with
  | rx =>
    simp only
    rcases hs with hs | hs
    · rw [hs]
      cases h2 : y.shots i <;> simp only [if_true, Bool.false_eq_true, if_false] <;> split_ifs <;> omega
    · rw [hs]
      cases h2 : x.shots i <;> simp only [if_true, Bool.false_eq_true, if_false] <;> omega
  | inner f =>
    simp only
    rcases hs with hs | hs
    · exact absurd hs (hin f h1)
    · rw [hs]
      cases h2 : x.shots i <;> simp only [if_true, Bool.false_eq_true, if_false] <;> omega
  | _ => simp

theorem MsgInv.inner_shot {tr : List (BEv S)} {x : Buf S} (h : MsgInv tr x) {i : Nat} {f : S.φ} (hf : x.futs i = .inner f) : x.shots i ≠ .waiting := by
  obtain ⟨m, f0, h1, h2, h3⟩ := h.inn i f hf
  intro h4
  rcases h.dS m f0 h1 with h5 | h5 | ⟨h5, _⟩
  · rcases (h.rW m f0 h5).2.1 with h6 | h6 <;> rw [h2, hf] at h6 <;> cases h6
  · rw [h2, h4] at h5; cases h5
  · rw [h2, h4] at h5; cases h5

/-- the number of woken waiters grows by at most one if at most one more is woken -/
theorem countP_le_add_one {l : List BHandle} (hn : (l.map (·.name)).Nodup) (f g : Nat → Bool) (m : Nat) (h : ∀ n, n ≠ m → g n = true → f n = true) :
    l.countP (fun h => decide (h.st = .acquiring) && g h.name) ≤ l.countP (fun h => decide (h.st = .acquiring) && f h.name) + 1 := by
  induction l with
  | nil => simp
  | cons a l ih =>
    simp only [List.map_cons, List.nodup_cons] at hn
    by_cases ha : a.name = m
    · have : l.countP (fun h => decide (h.st = .acquiring) && g h.name) ≤ l.countP (fun h => decide (h.st = .acquiring) && f h.name) := by
        apply List.countP_mono_left
        intro b hb hg
        simp only [Bool.and_eq_true] at hg ⊢
        refine ⟨hg.1, h _ ?_ hg.2⟩
        intro he
        exact hn.1 (by rw [ha, ← he]; exact List.mem_map.2 ⟨b, hb, rfl⟩)
      simp only [List.countP_cons]
      split <;> split <;> omega
    · have := ih hn.2
      simp only [List.countP_cons]
      have hga := h a.name ha
      split
      · rename_i h1
        simp only [Bool.and_eq_true] at h1
        rw [if_pos (by simp [h1.1, hga h1.2])]
        omega
      · omega

theorem countP_mono_flags {l : List BHandle} (f g : Nat → Bool) (h : ∀ n, g n = true → f n = true) :
    l.countP (fun h => decide (h.st = .acquiring) && g h.name) ≤ l.countP (fun h => decide (h.st = .acquiring) && f h.name) := by
  apply List.countP_mono_left
  intro b hb hg
  simp only [Bool.and_eq_true] at hg ⊢
  exact ⟨hg.1, h _ hg.2⟩

theorem countP_le_length (l : List BHandle) (hn : (l.map (·.name)).Nodup) (q : List Nat) (f g : Nat → Bool) (h : ∀ n, n ∉ q → g n = true → f n = true) :
    l.countP (fun h => decide (h.st = .acquiring) && g h.name) ≤ l.countP (fun h => decide (h.st = .acquiring) && f h.name) + q.length := by
  induction q generalizing f with
  | nil => simpa using countP_mono_flags (l := l) f g (fun n hg => h n (by simp) hg)
  | cons a q ih =>
    have h1 := ih (fun n => if n = a then g n else f n) (fun n hn hg => by
      by_cases ha : n = a
      · simp only [ha, if_true]; rw [← ha]; exact hg
      · simp [ha, h n (by simp [ha, hn]) hg])
    have h2 := countP_le_add_one hn f (fun n => if n = a then g n else f n) a (fun n hn hg => by simpa [hn] using hg)
    simp only [List.length_cons]
    omega

/-- a step that is no poll of a handle and in which the list of waiters only gets shorter at the front or empty -/
theorem handleM_le {x y : Buf S} {k : Wakers} {ev} (hI : SemInv x) (hh : y.hs = x.hs) (q : List Nat) (hq : x.sem.queue = q ++ y.sem.queue)
    (he : ∀ n p, ev ≠ .ready n p) : handleM y (x.wakes ev y k) ≤ handleM x k := by
  unfold handleM
  rw [hh, hq, List.length_append]
  have := countP_le_length x.hs hI.names q k.handles (x.wakes ev y k).handles (fun n hn hg => by
    have h3 : Buf.pollsHandle n ev = false := by
      cases ev with
      | ready n' p => exact absurd rfl (he n' p)
      | _ => rfl
    simp only [Buf.wakes, h3, Bool.false_eq_true, if_false] at hg
    split at hg
    · rename_i h4; rw [hq] at h4; simp [hn, h4.2] at h4
    · exact hg)
  omega

theorem sum_futM_le {x y : Buf S} {k k' : Wakers} (hc : y.calls = x.calls) (h : ∀ i, futM y k' i ≤ futM x k i) :
    ∑ i ∈ Finset.range y.calls, futM y k' i ≤ ∑ i ∈ Finset.range x.calls, futM x k i := by
  rw [hc]; exact Finset.sum_le_sum fun i _ => h i

theorem sum_futM_lt {x y : Buf S} {k k' : Wakers} (hc : y.calls = x.calls) (h : ∀ i, futM y k' i ≤ futM x k i) (j : Nat) (hj : j < x.calls)
    (hl : futM y k' j < futM x k j) : ∑ i ∈ Finset.range y.calls, futM y k' i < ∑ i ∈ Finset.range x.calls, futM x k i := by
  rw [hc]; exact Finset.sum_lt_sum (fun i _ => h i) ⟨j, Finset.mem_range.2 hj, hl⟩

/-- no step of the worker or of its destruction makes more work for the others -/
theorem rest_others {tr : List (BEv S)} {x y : Buf S} {k : Wakers} {ev} (hI : BufInv tr x) (hs : WStep x ev y ∨ (DStep x ev y)) :
    handleM y (x.wakes ev y k) + ∑ i ∈ Finset.range y.calls, futM y (x.wakes ev y k) i ≤ handleM x k + ∑ i ∈ Finset.range x.calls, futM x k i := by
  have hrel : ∃ q, x.sem.queue = q ++ x.sem.release.queue := by
    unfold Sem.release
    cases h : x.sem.queue with
    | nil => exact ⟨[], by simp [h]⟩
    | cons a q => exact ⟨[a], by simp⟩
  have hnev : ∀ n p, ev ≠ .ready n p := by
    intro n p he
    rcases hs with hs | hs <;> subst he <;> cases hs
  have hnpoll : ∀ i p, ev ≠ .poll i p := by
    intro n p he
    rcases hs with hs | hs <;> subst he <;> cases hs
  have hfuts : y.futs = x.futs := by
    rcases hs with hs | hs <;> cases hs <;> rfl
  have hcalls : y.calls = x.calls := by
    rcases hs with hs | hs <;> cases hs <;> rfl
  have hhs : y.hs = x.hs := by
    rcases hs with hs | hs <;> cases hs <;> rfl
  have hqueue : ∃ q, x.sem.queue = q ++ y.sem.queue := by
    rcases hs with hs | hs <;> cases hs
    all_goals first
      | exact ⟨[], rfl⟩
      | exact hrel
      | exact ⟨x.sem.queue, (List.append_nil _).symm⟩
  have hshots : ∀ i, x.shots i = .waiting ∨ y.shots i = x.shots i := by
    have hp := hI.msg.pW
    have upd : ∀ (m : Msg Req) v, x.shots m.id = .waiting → ∀ i, x.shots i = .waiting ∨ Function.update x.shots m.id v i = x.shots i := by
      intro m v hm i
      by_cases hi : i = m.id
      · left; rw [hi]; exact hm
      · right; exact Function.update_of_ne hi _ _
    have updl : ∀ (ms : List (Msg Req)) , (∀ m ∈ ms, m ∈ x.pend) → ∀ i, x.shots i = .waiting ∨ (if i ∈ ms.map (·.id) then .gone else x.shots i) = x.shots i := by
      intro ms hms i
      by_cases hi : i ∈ ms.map (·.id)
      · left
        obtain ⟨m, hm, rfl⟩ := List.mem_map.1 hi
        exact (hp m (hms m hm)).1
      · right; rw [if_neg hi]
    rcases hs with hs | hs <;> cases hs
    case inl.unwanted m h1 h2 => exact upd m _ (hp m (by simp [Buf.pend, h1, WPc.pend])).1
    case inl.notify m e h1 h2 => exact upd m _ (hp m (by simp [Buf.pend, h1, WPc.pend])).1
    case inl.notify_first m e h1 h2 => exact upd m _ (hp m (by simp [Buf.pend, h1, WPc.pend])).1
    case inl.reply m f h1 => exact upd m _ (hI.msg.rW m f (by simp [h1, WPc.replying])).1
    case inr.ready_panics m w msg h1 h2 h3 => exact upd m _ (hp m (by simp [Buf.pend, h1, WPc.pend])).1
    case inr.call_panics m w msg h1 h2 => exact upd m _ (hp m (by simp [Buf.pend, h1, WPc.pend])).1
    case inr.drain m q h1 h2 => exact upd m _ (hp m (by simp [Buf.pend, h2])).1
    case inr.dropped h1 => exact updl _ (fun m hm => by simp only [Buf.pend]; simp [hm] )
    case inr.free h1 h2 => exact updl _ (fun m hm => by simp [Buf.pend, hm])
    all_goals exact fun i => .inr rfl
  obtain ⟨q, hq⟩ := hqueue
  have h1 := handleM_le (k := k) (ev := ev) hI.sem hhs q hq hnev
  have h2 := sum_futM_le (k := k) (k' := x.wakes ev y k) hcalls
    (fun i => futM_le_of (by rw [hfuts]) (hshots i) (fun f hf => hI.msg.inner_shot hf) (hnpoll i))
  omega

/-- a step of the worker or of its destruction is work done -/
theorem workerM_lt {tr : List (BEv S)} {x y : Buf S} {k : Wakers} {ev} (hC : CtlInv tr x) (hw : x.pc = .parked → k.worker = true)
    (hs : WStep x ev y) : workerM y (x.wakes ev y k) < workerM x k := by
  have hf : x.rxFires ev y = false := by cases hs <;> rfl
  have hql : y.queue.length ≤ x.queue.length := by
    cases hs
    case recv m q h1 h2 => simp [h2]
    all_goals exact Nat.le_refl _
  have hnd : y.pc ≠ .unwinding ∧ y.pc ≠ .dropping ∧ y.pc ≠ .dead := by
    have := hs.alive
    simpa [Buf.dying] using this
  by_cases hp : x.pc = .parked
  · have hk := hw hp
    cases hs
    case start h1 =>
      simp only [workerM, Buf.wakes, hp, hk, if_true, Bool.false_eq_true, if_false, Buf.todo]
      have := Buf.wm_le { x with pc := WPc.next }
      simp only at this
      omega
    all_goals simp_all
  · have hkw : (x.wakes ev y k).worker = k.worker := by
      simp only [Buf.wakes, hf, Bool.and_false, Bool.or_false]
      split
      · exact absurd ‹_› hp
      · rfl
    have hx : x.todo = x.wm + 1 := by
      cases hs <;> simp_all [Buf.todo]
    have hy : y.todo ≤ x.wm := by
      by_cases hyp : y.pc = .parked
      · simp [Buf.todo, hyp]
      · have := hs.wm hC hyp
        unfold Buf.todo
        split
        · omega
        · omega
        · simp_all
        · simp_all
        · simp_all
        · omega
    unfold workerM
    rw [hkw]
    split <;> omega

theorem workerM_lt_death {tr : List (BEv S)} {x y : Buf S} {k : Wakers} {ev} (hs : DStep x ev y) (h1 : x.pc ≠ .parked) (h2 : x.pc ≠ .done)
    (h3 : x.pc = .dead → x.queue ≠ []) : workerM y (x.wakes ev y k) < workerM x k := by
  have hf : x.rxFires ev y = false := by cases hs <;> rfl
  have hql : y.queue.length ≤ x.queue.length := by
    cases hs
    case drain m q h1 h2 => simp [h2]
    case free => simp
    all_goals exact Nat.le_refl _
  have hkw : (x.wakes ev y k).worker = k.worker := by
    simp only [Buf.wakes, hf, Bool.and_false, Bool.or_false]
    split
    · exact absurd ‹_› h1
    · rfl
  have ht : y.todo < x.todo := by
    cases hs
    case ready_panics m w msg a b c => simp [Buf.todo, a, Buf.close, Buf.dropMsg, Buf.wm, WPc.rank]; omega
    case call_panics m w msg a b => simp [Buf.todo, a, Buf.close, Buf.dropMsg, Buf.wm, WPc.rank]; omega
    case dropped a => exact absurd a h1
    case dropped_done a => exact absurd a h2
    case closes a => simp [Buf.todo, a, Buf.close]
    case drain m q a b => simp [Buf.todo, a, b, Buf.dropMsg]
    case drained a b => simp [Buf.todo, a, b]
    case free a b =>
      have := h3 a
      simp only [Buf.todo, Buf.dropMsgs, a, List.length_nil]
      exact List.length_pos_iff.2 this
  unfold workerM
  rw [hkw]
  split <;> omega

/-- a poll of a response future is work done -/
theorem futM_lt {tr : List (BEv S)} {x y : Buf S} {k : Wakers} {i p} (hI : BufInv tr x) (hk : k.futs i = true) (hs : FStep x (.poll i p) y)
    (hi : x.futs i = .rx ∨ ∃ f, x.futs i = .inner f) : futM y (x.wakes (.poll i p) y k) i < futM x k i := by
  have hsh : y.shots = x.shots := by cases hs <;> rfl
  have hsf : x.shotFires y i = false := by
    simp only [Buf.shotFires, hsh]; cases x.shots i <;> rfl
  have hkf : (x.wakes (.poll i p) y k).futs i = false := by
    simp [Buf.wakes, hsf, Buf.pollsFut]
  unfold futM
  rw [hkf, hk, hsh]
  cases hs
  case waiting h1 h2 => simp [h1, h2]
  case inner_pending f f' w w' h1 h2 => simp [h2]
  all_goals
    simp only [Function.update_self]
    rcases hi with hi | ⟨f, hi⟩ <;> rw [hi] <;> simp

theorem FStep.same {x y : Buf S} {ev} (hs : FStep x ev y) : y.hs = x.hs ∧ y.sem = x.sem ∧ y.queue = x.queue ∧ y.pc = x.pc ∧ y.calls = x.calls ∧ y.shots = x.shots ∧
    y.cur = x.cur ∧ x.rxFires ev y = false := by
  cases hs <;> exact ⟨rfl, rfl, rfl, rfl, rfl, rfl, rfl, rfl⟩

/-- polls of response futures are no work for others -/
theorem workerM_future {x y : Buf S} {k : Wakers} {ev} (hs : FStep x ev y) : workerM y (x.wakes ev y k) = workerM x k := by
  obtain ⟨h1, h2, h3, h4, h5, h6, h7, h8⟩ := hs.same
  have hkw : (x.wakes ev y k).worker = k.worker := by
    simp only [Buf.wakes, h4, h8, Bool.and_false, Bool.or_false]
    cases x.pc <;> rfl
  unfold workerM Buf.todo Buf.wm
  rw [hkw, h3, h4, h7]

theorem FStep.fut_le {x y : Buf S} {k : Wakers} {ev} {i : Nat} (hs : FStep x ev y) (he : ∀ p, ev ≠ .poll i p) (hf : y.futs i = x.futs i) :
    futM y (x.wakes ev y k) i ≤ futM x k i := by
  obtain ⟨h1, h2, h3, h4, h5, h6, h7, h8⟩ := hs.same
  have hsf : x.shotFires y i = false := by
    simp only [Buf.shotFires, h6]; cases x.shots i <;> rfl
  unfold futM
  simp only [Buf.wakes, hsf, pollsFut_other he, hf, h6, Bool.false_eq_true, if_false]
  exact Nat.le_refl _

theorem FStep.others {x y : Buf S} {i j p} (hs : FStep x (.poll i p) y) (hj : j ≠ i) : y.futs j = x.futs j := by
  cases hs
  case waiting => rfl
  all_goals exact Function.update_of_ne hj _ _

theorem handleM_future {tr : List (BEv S)} {x y : Buf S} {k : Wakers} {ev} (hI : BufInv tr x) (hs : FStep x ev y) : handleM y (x.wakes ev y k) ≤ handleM x k :=
  handleM_le hI.sem hs.same.1 [] (by rw [hs.same.2.1]; rfl) (by intro n p he; subst he; cases hs)

/-- a poll of a woken handle is work done -/
theorem rest_handle {tr : List (BEv S)} {x y : Buf S} {k : Wakers} {n p} (hI : BufInv tr x) (hK : KnownInv x) (hH : HandInv tr x k) (hw : hWaits n tr = true)
    (hk : k.handles n = true) (hs : HStep x (.ready n p) y) : restM y (x.wakes (.ready n p) y k) < restM x k := by
  have hsh : y.shots = x.shots := by cases hs; rfl
  have hfu : y.futs = x.futs := by cases hs; rfl
  have hca : y.calls = x.calls := by cases hs; rfl
  have hpc : y.pc = x.pc := by cases hs; rfl
  have hqu : y.queue = x.queue := by cases hs; rfl
  have hcu : y.cur = x.cur := by cases hs; rfl
  have h1 : workerM y (x.wakes (.ready n p) y k) = workerM x k := by
    have hkw : (x.wakes (.ready n p) y k).worker = k.worker := by
      simp only [Buf.wakes, hpc, Buf.rxFires, Bool.and_false, Bool.or_false]
      cases x.pc <;> rfl
    unfold workerM Buf.todo Buf.wm
    rw [hkw, hqu, hpc, hcu]
  have h2 : ∑ i ∈ Finset.range y.calls, futM y (x.wakes (.ready n p) y k) i ≤ ∑ i ∈ Finset.range x.calls, futM x k i := by
    refine sum_futM_le hca fun i => ?_
    exact futM_le_of (by rw [hfu]) (.inr (by rw [hsh])) (fun f hf => hI.msg.inner_shot hf) (by simp)
  have h3 : handleM y (x.wakes (.ready n p) y k) < handleM x k := by
    obtain ⟨m0, hm0, hname, hacq⟩ := hH.waits n hw
    cases hs
    case ready m l r hl =>
      have hm : m ∈ x.hs := by rw [hl]; simp
      have hmm : m0 = m := List.inj_on_of_nodup_map hI.sem.names hm0 hm hname
      subst hmm
      have ho := hI.sem.others hl
      -- the list of waiters does not change
      have hq : (x.pollReady m0).2.2.queue = x.sem.queue ∧ ((x.pollReady m0).1 = .pending → m0.name ∈ x.sem.queue) := by
        unfold Buf.pollReady
        rw [hacq]
        simp only
        unfold Buf.reserve
        split
        · rename_i hc
          refine ⟨?_, by simp⟩
          split
          · have := hI.sem.closedq hc
            simp [Sem.release, this]
          · rfl
        · rename_i hc
          have hkn := hK m0 hm0 hacq (by simpa using hc)
          unfold Sem.pollAcquire
          by_cases hg : m0.name ∈ x.sem.granted
          · simp [hg]
          · rw [List.mem_append] at hkn
            have hqq := hkn.resolve_left hg
            simp [hg, hqq]
      unfold handleM
      simp only [hq.1]
      have hfl : ∀ j ∈ l ++ r, (x.wakes (.ready m0.name (x.pollReady m0).1) { x with hs := l ++ (x.pollReady m0).2.1 :: r, sem := (x.pollReady m0).2.2 } k).handles j.name =
          k.handles j.name := by
        intro j hj
        simp only [Buf.wakes, hq.1, Buf.pollsHandle]
        simp [(ho j hj).2.symm]
      have hself : (x.wakes (.ready m0.name (x.pollReady m0).1) { x with hs := l ++ (x.pollReady m0).2.1 :: r, sem := (x.pollReady m0).2.2 } k).handles m0.name = false := by
        simp only [Buf.wakes, hq.1, Buf.pollsHandle]
        simp
      rw [hl]
      simp only [List.countP_append, List.countP_cons, pollReady_name, hself, Bool.and_false, hacq, hk, Bool.and_true, decide_true, if_true, Bool.false_eq_true, if_false]
      have hcl : l.countP (fun h => decide (h.st = .acquiring) && (x.wakes (.ready m0.name (x.pollReady m0).1) { x with hs := l ++ (x.pollReady m0).2.1 :: r, sem := (x.pollReady m0).2.2 } k).handles h.name) =
          l.countP (fun h => decide (h.st = .acquiring) && k.handles h.name) :=
        List.countP_congr (fun j hj => by rw [hfl j (by simp [hj])])
      have hcr : r.countP (fun h => decide (h.st = .acquiring) && (x.wakes (.ready m0.name (x.pollReady m0).1) { x with hs := l ++ (x.pollReady m0).2.1 :: r, sem := (x.pollReady m0).2.2 } k).handles h.name) =
          r.countP (fun h => decide (h.st = .acquiring) && k.handles h.name) :=
        List.countP_congr (fun j hj => by rw [hfl j (by simp [hj])])
      rw [hcl, hcr]
      omega
  unfold restM
  omega

/-- every step of a woken task is work done -/
theorem Goes.rest {tr : List (BEv S)} {x y : Buf S} {k : Wakers} {ev} (hx : KHist S bound svc tr x k) (hs : Goes tr x k ev y) :
    restM y (x.wakes ev y k) < restM x k := by
  have hI := BHist.inv hx.hist
  have hW := hx.wakeInv
  cases hs with
  | worker hs hp =>
    have := workerM_lt hI.ctl hp hs
    have := rest_others (k := k) hI (.inl hs)
    unfold restM; omega
  | death hs h1 h2 h3 =>
    have := workerM_lt_death (tr := tr) (k := k) hs h1 h2 h3
    have := rest_others (k := k) hI (.inr hs)
    unfold restM; omega
  | handle hw hk hs => exact rest_handle hI (BHist.known hx.hist) hW.hand hw hk hs
  | @poll i p y hw hk hs =>
    have h1 := workerM_future (k := k) hs
    have h2 := handleM_future (k := k) hI hs
    have hfi := hW.fut.waits i hw
    have hlt := futM_lt hI hk hs hfi
    have hic : i < x.calls := by
      by_contra hcon
      have := hI.msg.fnone i (by omega)
      rcases hfi with hfi | ⟨f, hfi⟩ <;> rw [this] at hfi <;> cases hfi
    have h3 := sum_futM_lt (k := k) (k' := x.wakes (.poll i p) y k) hs.same.2.2.2.2.1 (fun j => by
      by_cases hj : j = i
      · subst hj; exact Nat.le_of_lt hlt
      · exact hs.fut_le (by simp [Ne.symm hj]) (hs.others hj)) i hic hlt
    unfold restM; omega
  | @arrive i f hw hk h1 h2 =>
    have hs : FStep x .tau { x with futs := Function.update x.futs i (.inner f) } := .arrived h1 h2
    have h3 := workerM_future (k := k) hs
    have h4 := handleM_future (k := k) hI hs
    have hlt : futM { x with futs := Function.update x.futs i (.inner f) } (x.wakes .tau { x with futs := Function.update x.futs i (.inner f) } k) i < futM x k i := by
      have hsf : x.shotFires { x with futs := Function.update x.futs i (.inner f) } i = false := by simp [Buf.shotFires, h2]
      unfold futM
      simp only [Function.update_self, h1, h2, Buf.wakes, hsf, Buf.pollsFut, hk, Bool.false_eq_true, if_false, if_true]
      omega
    have hic : i < x.calls := by
      by_contra hcon
      have := hI.msg.fnone i (by omega)
      rw [this] at h1; cases h1
    have h5 := sum_futM_lt (k := k) (k' := x.wakes .tau { x with futs := Function.update x.futs i (.inner f) } k) hs.same.2.2.2.2.1 (fun j => by
      by_cases hj : j = i
      · subst hj; exact Nat.le_of_lt hlt
      · exact hs.fut_le (by simp) (Function.update_of_ne hj _ _)) i hic hlt
    unfold restM; omega

theorem Goes.hist {tr : List (BEv S)} {x y : Buf S} {k : Wakers} {ev} (hx : KHist S bound svc tr x k) (hs : Goes tr x k ev y) :
    KHist S bound svc (tr ++ [ev]) y (x.wakes ev y k) := .step hx hs.bstep hs.sched

theorem GoesOn.rest {tr tr' : List (BEv S)} {x y : Buf S} {k k' : Wakers} {n} (hx : KHist S bound svc tr x k) (hr : GoesOn tr x k n tr' y k') :
    KHist S bound svc tr' y k' ∧ restM y k' + n ≤ restM x k := by
  induction hr with
  | nil => exact ⟨hx, by omega⟩
  | snoc _ hs ih =>
    have := Goes.rest ih.1 hs
    exact ⟨hs.hist ih.1, by omega⟩

end Tower
