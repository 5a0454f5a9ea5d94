import Verif.Proof.BufferWake2

/-!
# C62: nobody waits for a buffer in vain

Histories in which a sleeping task runs again only when its waker was used. Woken tasks come to rest after a bounded number of steps (`C62_settles`, `C62_goes`), and at rest everybody who
waits does so because the inner service, or a future of the inner service, returned `Pending`, or because all slots are reserved by handles that were not called yet, or, the one exception
(the finding of C25), because the request was sent into the channel of a worker that had died before.
-/

set_option linter.unusedSimpArgs false

namespace Tower
variable {W Req Res Err : Type} {S : Service W Req Res Err} {bound : Nat} {svc : S.σ} {tr : List (BEv S)} {x : Buf S} {k : Wakers}

theorem held_waits (h : KHist S bound svc tr x k) (hp : x.pc = .parked) (hc : x.cur ≠ none) : WaitsForService tr x := by
  have hI := BHist.inv h.hist
  obtain ⟨m, hm⟩ := Option.ne_none_iff_exists'.1 hc
  have hmem : m ∈ x.pend := by simp [Buf.pend, hm]
  refine ⟨hp, h.wakeInv.park.held hc, m, hm, hI.msg.memP hmem, fun hd => ?_⟩
  have := hI.msg.dp hd hmem
  omega

/-- the slots reserved are the handles that were last seen ready -/
theorem C62_reserved (h : BHist S bound svc tr x) : x.reserved = x.hs.countP (fun h => readyNow h.name tr) := by
  unfold Buf.reserved
  refine List.countP_congr fun j hj => ?_
  simpa using (BHist.rdy h).iff j hj

/-- C62: when nothing is scheduled, a handle waits for a slot only if the worker waits for the inner service, or all slots are reserved by other handles, which have seen `Ready` and have
neither been called nor dropped. -/
theorem C62_handle (h : KHist S bound svc tr x k) (hq : AtRest tr x k) {n : Nat} (hn : hWaits n tr = true) :
    WaitsForService tr x ∨ x.hs.countP (fun h => readyNow h.name tr) = bound := by
  have hI := BHist.inv h.hist
  have hW := h.wakeInv
  obtain ⟨j, hj, hjn, hst⟩ := hW.hand.waits n hn
  have hnq : n ∈ x.sem.queue := by
    rcases hW.hand.acq j hj hst with h1 | h1
    · rw [hjn, hq.handles n hn] at h1; cases h1
    · rw [← hjn]; exact h1
  have hne : x.sem.queue ≠ [] := by intro h0; rw [h0] at hnq; cases hnq
  have hopen : x.closed = false := by
    cases hc : x.closed with
    | false => rfl
    | true => exact absurd (hI.sem.closedq hc) hne
  have hg : x.sem.granted = [] := by
    cases hg : x.sem.granted with
    | nil => rfl
    | cons a g =>
      exfalso
      have ha : a ∈ x.sem.granted := by rw [hg]; simp
      obtain ⟨ja, hja, hjan, hjas⟩ := hI.sem.waiting a (List.mem_append_left _ ha)
      have hwa := hW.hand.acqw ja hja hjas
      rcases hW.hand.acq ja hja hjas with h1 | h1
      · rw [hq.handles _ hwa] at h1; cases h1
      · rw [hjan] at h1
        exact (List.nodup_append.1 hI.sem.nodup).2.2 a ha a h1 rfl
  have hcons := hI.sem.conserved
  rw [hI.sem.busy hne, hg] at hcons
  rw [← C62_reserved h.hist]
  have hb := BHist.bound_eq h.hist
  have fin : x.queue = [] → x.reserved = bound := by
    intro h0; rw [h0] at hcons; simp at hcons; omega
  rcases hq.worker with ⟨h1, h2⟩ | h1 | ⟨h1, _⟩
  · by_cases hc : x.cur = none
    · exact .inr (fin (hW.park.park h1 h2 hc).2.1)
    · exact .inl (held_waits h h1 hc)
  · obtain ⟨h2, h3 | ⟨h3, _⟩⟩ := hI.done h1
    · rw [h3] at hj; cases hj
    · rw [hopen] at h3; cases h3
  · have := (hI.ctl.dying (.inr (.inr h1))).1.resolve_right (by simp [h1])
    rw [hopen] at this; cases this

/-- requests in the channel of a dead worker were sent after it had begun to die -/
theorem dead_late (h : BHist S bound svc tr x) : x.pc = .dead → ∀ m ∈ x.queue, ∃ t u n, tr = t ++ .accept n m.id m.req :: u ∧ workerDied t := by
  induction h with
  | nil => simp [Buf.init]
  | @snoc tr ev y z h hs ih =>
    have ext : (∃ m' : Msg Req, True) → ∀ m : Msg Req, (∃ t u n, tr = t ++ .accept n m.id m.req :: u ∧ workerDied t) →
        ∃ t u n, tr ++ [ev] = t ++ .accept n m.id m.req :: u ∧ workerDied t := by
      rintro - m ⟨t, u, n, h1, h2⟩
      exact ⟨t, u ++ [ev], n, by rw [h1]; simp, h2⟩
    intro hd m hm
    have same : y.pc = .dead → m ∈ y.queue → ∃ t u n, tr ++ [ev] = t ++ .accept n m.id m.req :: u ∧ workerDied t := fun h1 h2 => ext ⟨m, trivial⟩ m (ih h1 m h2)
    cases hs with
    | worker hs => cases hs <;> simp_all
    | death hs =>
      cases hs
      case drained h1 h2 => rw [show _ = y.queue from rfl, h2] at hm; cases hm
      case free => cases hm
      all_goals simp_all [Buf.close, Buf.dropMsg, Buf.dropMsgs]
    | future hs => cases hs <;> exact same hd hm
    | handle hs =>
      cases hs
      case call k l r q hl hc =>
        simp only [List.mem_append, List.mem_singleton] at hm
        rcases hm with hm | rfl
        · exact same hd hm
        · exact ⟨tr, [], k.name, rfl, ((BHist.inv h).ctl.dying (.inr (.inr hd))).2⟩
      all_goals exact same hd hm

/-- C62: when nothing is scheduled, a response future waits only if the worker waits for the inner service, or the request was dispatched and the inner service's own future returned
`Pending`; the exception is a request that was sent after the worker had died, while handles exist (C25). -/
theorem C62_future (h : KHist S bound svc tr x k) (hq : AtRest tr x k) {i : Nat} (hi : fWaits i tr = true) :
    WaitsForService tr x ∨ WaitsForInner tr x i ∨ (x.hs ≠ [] ∧ ∃ t u n r, tr = t ++ .accept n i r :: u ∧ workerDied t) := by
  have hI := BHist.inv h.hist
  have hW := h.wakeInv
  have hkf := hq.futs i hi
  rcases hW.fut.waits i hi with hf | ⟨f, hf⟩
  · have hw : x.shots i = .waiting := by
      rcases hW.fut.rx i hf hi with h1 | h1
      · rw [hkf] at h1; cases h1
      · exact h1
    obtain ⟨m, hm, rfl⟩ := hI.msg.rxA i hf
    -- the request is with the worker or in the channel
    have hP : m ∈ x.pend := by
      by_contra hP
      by_cases hd : m ∈ (dispatches tr).map (·.1)
      · obtain ⟨⟨m', f⟩, hd', rfl⟩ := List.mem_map.1 hd
        rcases hI.msg.dS m' f hd' with h1 | h1 | ⟨h1, _⟩
        · rcases hq.worker with ⟨h2, _⟩ | h2 | ⟨h2, _⟩ <;> rw [h2] at h1 <;> cases h1
        · rw [hw] at h1; cases h1
        · rw [hw] at h1; cases h1
      · rcases hI.msg.fate m hm hd hP with h1 | ⟨e, _, h1⟩ | ⟨_, h1⟩
        · rw [hf] at h1; cases h1
        · rw [hw] at h1; cases h1
        · rw [hw] at h1; cases h1
    rcases hq.worker with ⟨h1, h2⟩ | h1 | ⟨h1, h3⟩
    · by_cases hc : x.cur = none
      · have := (hW.park.park h1 h2 hc).2.1
        simp [Buf.pend, h1, hc, this, WPc.pend] at hP
      · exact .inl (held_waits h h1 hc)
    · rw [pend_done h.hist h1] at hP; cases hP
    · have hc := hI.ctl.curnone (by simp [h1]) (by simp [h1])
      simp [Buf.pend, h1, hc, WPc.pend] at hP
      refine .inr (.inr ⟨fun h0 => (by rw [h3 h0] at hP; cases hP), ?_⟩)
      obtain ⟨t, u, n, h4, h5⟩ := dead_late h.hist h1 m hP
      exact ⟨t, u, n, m.req, h4, h5⟩
  · rcases hW.fut.inn i f hf hi with h1 | h1
    · rw [hkf] at h1; cases h1
    · exact .inr (.inl h1)

/-- C62: when nothing is scheduled and all handles were dropped, the worker has ended, or waits for the inner service with a request. -/
theorem C62_worker (h : KHist S bound svc tr x k) (hq : AtRest tr x k) (hh : x.hs = []) : x.pc = .done ∨ x.pc = .dead ∨ WaitsForService tr x := by
  rcases hq.worker with ⟨h1, h2⟩ | h1 | ⟨h1, _⟩
  · by_cases hc : x.cur = none
    · exact absurd hh (h.wakeInv.park.park h1 h2 hc).2.2
    · exact .inr (.inr (held_waits h h1 hc))
  · exact .inl h1
  · exact .inr (.inl h1)

/-- C62: with an inner service that is not waiting, a worker that did not die, and a slot that nobody sits on, nobody waits, except for the inner service's own futures. -/
theorem C62_idle (h : KHist S bound svc tr x k) (hq : AtRest tr x k) (hs : svcWaits tr = false) (hd : ¬ workerDied tr)
    (hr : x.hs.countP (fun h => readyNow h.name tr) < bound) :
    (∀ n, hWaits n tr = false) ∧ ∀ i, fWaits i tr = true → WaitsForInner tr x i := by
  constructor
  · intro n
    cases hn : hWaits n tr with
    | false => rfl
    | true =>
      rcases C62_handle h hq hn with ⟨_, h1, _⟩ | h1
      · rw [hs] at h1; cases h1
      · omega
  · intro i hi
    rcases C62_future h hq hi with ⟨_, h1, _⟩ | h1 | ⟨_, t, u, n, r, h1, h2⟩
    · rw [hs] at h1; cases h1
    · exact h1
    · refine absurd ?_ hd
      rw [h1]
      rcases h2 with h2 | h2
      · exact .inl (List.mem_append_left _ h2)
      · exact .inr (List.mem_append_left _ h2)

/-- C62: from every state the woken tasks come to rest: there is a bound on the number of steps they take, in whatever order they run and whatever the inner service answers, unless a
waker is used from outside or somebody uses a handle or drops something. -/
theorem C62_settles (h : KHist S bound svc tr x k) : ∃ N, ∀ n tr' y k', GoesOn tr x k n tr' y k' → n ≤ N :=
  ⟨restM x k, fun n tr' y k' hr => by have := (hr.rest h).2; omega⟩

/-- C62: as long as not everything is at rest, some woken task can take a step, and what it does is a step of the system. -/
theorem C62_goes (h : KHist S bound svc tr x k) (hR : Returns S) (hq : ¬ AtRest tr x k) : ∃ ev y, Goes tr x k ev y ∧ KHist S bound svc (tr ++ [ev]) y (x.wakes ev y k) := by
  have hI := BHist.inv h.hist
  have hW := h.wakeInv
  suffices hs : ∃ ev y, Goes tr x k ev y by
    obtain ⟨ev, y, h1⟩ := hs
    exact ⟨ev, y, h1, h1.hist h⟩
  by_contra hcon
  have hno : ∀ ev y, ¬ Goes tr x k ev y := fun ev y hg => hcon ⟨ev, y, hg⟩
  apply hq
  refine ⟨?_, ?_, ?_⟩
  · cases hpc : x.pc with
    | parked =>
      cases hk : k.worker with
      | false => exact .inl ⟨rfl, rfl⟩
      | true => exact absurd (.worker (.start hpc) (fun _ => hk)) (hno _ _)
    | done => exact .inr (.inl rfl)
    | dead =>
      refine .inr (.inr ⟨rfl, fun hh => ?_⟩)
      by_contra hqn
      exact hno _ _ (.death (.free hpc hh) (by simp [hpc]) (by simp [hpc]) (fun _ => hqn))
    | unwinding => exact absurd (.death (.closes hpc) (by simp [hpc]) (by simp [hpc]) (by simp [hpc])) (hno _ _)
    | dropping =>
      exfalso
      cases hqe : x.queue with
      | nil => exact hno _ _ (.death (.drained hpc hqe) (by simp [hpc]) (by simp [hpc]) (by simp [hpc]))
      | cons m q => exact hno _ _ (.death (.drain hpc hqe) (by simp [hpc]) (by simp [hpc]) (by simp [hpc]))
    | next =>
      exfalso
      cases hc : x.cur with
      | none => exact hno _ _ (.worker (.fresh hpc hc) (by simp [hpc]))
      | some m => exact hno _ _ (.worker (.resume hpc hc) (by simp [hpc]))
    | check m =>
      exfalso
      cases hc : x.cancelled m.id with
      | false => exact hno _ _ (.worker (.wanted hpc hc) (by simp [hpc]))
      | true => exact hno _ _ (.worker (.unwanted hpc hc) (by simp [hpc]))
    | recv =>
      exfalso
      cases hqe : x.queue with
      | cons m q => exact hno _ _ (.worker (.recv hpc hqe) (by simp [hpc]))
      | nil =>
        by_cases hf : x.hs = [] ∨ (x.closed = true ∧ x.semIdle = true)
        · exact hno _ _ (.worker (.finish hpc hqe hf) (by simp [hpc]))
        · rw [not_or] at hf
          exact hno _ _ (.worker (.empty hpc hqe hf.1 (fun hc => by
            cases hi : x.semIdle with
            | false => rfl
            | true => exact absurd ⟨hc, hi⟩ hf.2)) (by simp [hpc]))
    | got m =>
      exfalso
      cases hf : x.failed with
      | some e => exact hno _ _ (.worker (.notify hpc hf) (by simp [hpc]))
      | none =>
        obtain ⟨w, hw⟩ := hR.ready x.svc
        cases hr : (S.pollReady x.svc).run w with
        | spin => exact hw hr
        | panic msg => exact hno _ _ (.death (.ready_panics hpc hf hr) (by simp [hpc]) (by simp [hpc]) (by simp [hpc]))
        | ok a w' =>
          obtain ⟨p, s'⟩ := a
          rcases p with _ | (e | u)
          · exact hno _ _ (.worker (.svc_pending hpc hf hr) (by simp [hpc]))
          · exact hno _ _ (.worker (.svc_failed hpc hf hr) (by simp [hpc]))
          · exact hno _ _ (.worker (.svc_ready hpc hf hr) (by simp [hpc]))
    | call m =>
      exfalso
      obtain ⟨w, hw⟩ := hR.call x.svc m.req
      cases hr : (S.call x.svc m.req).run w with
      | spin => exact hw hr
      | panic msg => exact hno _ _ (.death (.call_panics hpc hr) (by simp [hpc]) (by simp [hpc]) (by simp [hpc]))
      | ok a w' =>
        obtain ⟨f, s'⟩ := a
        exact hno _ _ (.worker (.svc_call hpc hr) (by simp [hpc]))
    | reply m f => exact absurd (.worker (.reply hpc) (by simp [hpc])) (hno _ _)
    | fail1 m e =>
      exfalso
      cases he : x.err with
      | none => exact hno _ _ (.worker (.expose hpc he) (by simp [hpc]))
      | some e' => exact hno _ _ (.worker (.exposed_before hpc he) (by simp [hpc]))
    | fail2 m e => exact absurd (.worker (.close hpc) (by simp [hpc])) (hno _ _)
    | fail3 m =>
      exfalso
      cases hf : x.failed with
      | none => exact C22_expect h.hist ⟨m, hpc, hf⟩
      | some e => exact hno _ _ (.worker (.notify_first hpc hf) (by simp [hpc]))
  · intro n hn
    cases hk : k.handles n with
    | false => rfl
    | true =>
      exfalso
      obtain ⟨j, hj, rfl, _⟩ := hW.hand.waits n hn
      obtain ⟨l, r, hl⟩ := List.append_of_mem hj
      exact hno _ _ (.handle hn hk (.ready hl))
  · intro i hi
    cases hk : k.futs i with
    | false => rfl
    | true =>
      exfalso
      rcases hW.fut.waits i hi with hf | ⟨f, hf⟩
      · cases hs : x.shots i with
        | waiting => exact hno _ _ (.poll hi hk (.waiting hf hs))
        | gone => exact hno _ _ (.poll hi hk (.gone hf hs))
        | sent v =>
          cases v with
          | error e => exact hno _ _ (.poll hi hk (.service_failed hf hs))
          | ok f => exact hno _ _ (.arrive hi hk hf hs)
      · obtain ⟨p, f', w, w', hr⟩ := hR.poll f
        rcases p with _ | (e | a)
        · exact hno _ _ (.poll hi hk (.inner_pending hf hr))
        · exact hno _ _ (.poll hi hk (.inner_err hf hr))
        · exact hno _ _ (.poll hi hk (.inner_ok hf hr))

/-- C62: so from every state, rest is reached, by the woken tasks alone. -/
theorem C62_rest (h : KHist S bound svc tr x k) (hR : Returns S) : ∃ n tr' y k', GoesOn tr x k n tr' y k' ∧ AtRest tr' y k' := by
  have key : ∀ (N : Nat) tr x k, KHist S bound svc tr x k → restM x k ≤ N → ∃ n tr' y k', GoesOn tr x k n tr' y k' ∧ AtRest tr' y k' := by
    intro N
    induction N with
    | zero =>
      intro tr x k h hN
      by_cases hq : AtRest tr x k
      · exact ⟨0, _, _, _, .nil, hq⟩
      · obtain ⟨ev, y, h1, h2⟩ := C62_goes h hR hq
        have := h1.rest h
        omega
    | succ N ih =>
      intro tr x k h hN
      by_cases hq : AtRest tr x k
      · exact ⟨0, _, _, _, .nil, hq⟩
      · obtain ⟨ev, y, h1, h2⟩ := C62_goes h hR hq
        have := h1.rest h
        obtain ⟨n, tr', z, k', h3, h4⟩ := ih _ _ _ h2 (by omega)
        have cons : ∀ {n t z k'}, GoesOn (tr ++ [ev]) y (x.wakes ev y k) n t z k' → GoesOn tr x k (n + 1) t z k' := by
          intro n t z k' hg
          induction hg with
          | nil => exact .snoc .nil h1
          | snoc _ hs ih => exact .snoc ih hs
        exact ⟨_, _, _, _, cons h3, h4⟩
  exact key _ tr x k h (Nat.le_refl _)

/-! ## Concrete histories that meet the hypotheses -/

namespace Demo62
open DemoBuf

/-- one step of a history of `dsvc` -/
theorem go {b : Nat} {tr : List (BEv dsvc)} {x : Buf dsvc} {k : Wakers} {ev : BEv dsvc} {y : Buf dsvc} (h : KHist dsvc b () tr x k) (hs : BStep x ev y)
    (hw : x.pc = .parked → y.pc = .next → k.worker = true) : KHist dsvc b () (tr ++ [ev]) y (x.wakes ev y k) := .step h hs hw

/-- the only slot is reserved by handle 0; handle 1 waits for it, the worker sleeps, nothing is scheduled -/
theorem reserved : ∃ (tr : List (BEv dsvc)) (x : Buf dsvc) (k : Wakers), KHist dsvc 1 () tr x k ∧ AtRest tr x k ∧ hWaits 1 tr = true ∧ svcWaits tr = false := by
  have r := go (b := 1) .init (.handle (.ready (l := []) rfl)) (fun _ h => by cases h)
  have r := go r (.handle (.clone (List.mem_cons_self ..))) (fun _ h => by cases h)
  have r := go r (.handle (.ready (l := [⟨0, .ready⟩]) rfl)) (fun _ h => by cases h)
  have r := go r (.worker (.start rfl)) (fun _ _ => rfl)
  have r := go r (.worker (.fresh rfl rfl)) (fun h _ => by cases h)
  have r := go r (.worker (.empty rfl rfl (List.cons_ne_nil _ _) (fun h => by cases h))) (fun h _ => by cases h)
  refine ⟨_, _, _, r, ⟨.inl ⟨rfl, rfl⟩, ?_, ?_⟩, rfl, rfl⟩
  · intro n _
    simp [Buf.wakes, Buf.init, Sem.new, Buf.pollReady, Buf.reserve, Sem.pollAcquire, Wakers.init, Buf.pollsHandle]
  · intro i _
    simp [Buf.wakes, Buf.init, Buf.shotFires, Wakers.init, Buf.pollsFut]

/-- a request waits with the worker for the inner service, nothing is scheduled; then the inner service wakes the worker, and it is not at rest -/
theorem pending : ∃ (tr : List (BEv dsvc)) (x : Buf dsvc) (k k' : Wakers), KHist dsvc 1 () tr x k ∧ AtRest tr x k ∧ fWaits 0 tr = true ∧ WaitsForService tr x ∧
    KHist dsvc 1 () tr x k' ∧ ¬ AtRest tr x k' := by
  have r := go (b := 1) .init (.handle (.ready (l := []) rfl)) (fun _ h => by cases h)
  have r := go r (.handle (.call (l := []) (q := 7) rfl rfl)) (fun _ h => by cases h)
  have r := go r (.future (.waiting (i := 0) rfl rfl)) (fun _ h => by cases h)
  have r := go r (.worker (.start rfl)) (fun _ _ => rfl)
  have r := go r (.worker (.fresh rfl rfl)) (fun h _ => by cases h)
  have r := go r (.worker (.recv rfl rfl)) (fun h _ => by cases h)
  have r := go r (.worker (.wanted rfl rfl)) (fun h _ => by cases h)
  have r := go r (.worker (.svc_pending (w := 0) rfl rfl rfl)) (fun h _ => by cases h)
  refine ⟨_, _, _, _, r, ⟨.inl ⟨rfl, rfl⟩, ?_, ?_⟩, rfl, held_waits r rfl (by simp),
    .wake { worker := true, rx := _, handles := _, futs := _ } r (fun _ => rfl) rfl (fun _ h => h) (fun _ h => h), ?_⟩
  · intro n _
    simp [Buf.wakes, Buf.init, Sem.new, Buf.pollReady, Buf.reserve, Sem.pollAcquire, Sem.release, Wakers.init, Buf.pollsHandle]
  · intro i _
    by_cases hi : i = 0
    · subst hi; rfl
    · simp [Buf.wakes, Buf.init, Buf.shotFires, Wakers.init, Buf.pollsFut, Function.update, hi]
  · intro hq
    rcases hq.worker with ⟨_, h⟩ | h | ⟨h, _⟩ <;> cases h

theorem returns : Returns dsvc where
  ready _ := ⟨0, by simp⟩
  call _ _ := ⟨0, by simp⟩
  poll f := ⟨_, _, 0, 0, rfl⟩

/-- with a waiting request and no slot reserved, `C62_rest` leads to a state in which `C62_idle` applies or the service waits -/
example : ∃ (tr : List (BEv dsvc)) (x : Buf dsvc) (k : Wakers) (n : Nat) (tr' : List (BEv dsvc)) (y : Buf dsvc) (k' : Wakers),
    KHist dsvc 1 () tr x k ∧ ¬ AtRest tr x k ∧ GoesOn tr x k n tr' y k' ∧ AtRest tr' y k' := by
  obtain ⟨tr, x, k, k', h1, h2, h3, h4, h5, h6⟩ := pending
  obtain ⟨n, tr', y, k'', h7, h8⟩ := C62_rest h5 returns
  exact ⟨tr, x, k', n, tr', y, k'', h5, h6, h7, h8⟩

/-- all requests were answered, nobody waits: the hypotheses of `C62_idle` are met after work was done -/
theorem idle : ∃ (tr : List (BEv dsvc)) (x : Buf dsvc) (k : Wakers), KHist dsvc 1 () tr x k ∧ AtRest tr x k ∧ svcWaits tr = false ∧ ¬ workerDied tr ∧
    x.hs.countP (fun h => readyNow h.name tr) < 1 ∧ .poll 0 (.ready (.ok 14)) ∈ tr := by
  have r := go (b := 1) .init (.handle (.ready (l := []) rfl)) (fun _ h => by cases h)
  have r := go r (.handle (.call (l := []) (q := 7) rfl rfl)) (fun _ h => by cases h)
  have r := go r (.worker (.start rfl)) (fun _ _ => rfl)
  have r := go r (.worker (.fresh rfl rfl)) (fun h _ => by cases h)
  have r := go r (.worker (.recv rfl rfl)) (fun h _ => by cases h)
  have r := go r (.worker (.wanted rfl rfl)) (fun h _ => by cases h)
  have r := go r (.worker (.svc_ready (w := 1) rfl rfl rfl)) (fun h _ => by cases h)
  have r := go r (.worker (.svc_call (w := 1) rfl rfl)) (fun h _ => by cases h)
  have r := go r (.worker (.reply rfl)) (fun h _ => by cases h)
  have r := go r (.worker (.fresh rfl rfl)) (fun h _ => by cases h)
  have r := go r (.worker (.empty rfl rfl (List.cons_ne_nil _ _) (fun h => by cases h))) (fun h _ => by cases h)
  have r := go r (.future (.arrived (i := 0) rfl rfl)) (fun _ h => by cases h)
  have r := go r (.future (.inner_ok (i := 0) (w := 1) rfl rfl)) (fun _ h => by cases h)
  refine ⟨_, _, _, r, ⟨.inl ⟨rfl, rfl⟩, ?_, ?_⟩, rfl, ?_, ?_, ?_⟩
  · intro n h
    simp [hWaits, hWaitsAfter, Buf.pollReady, Buf.init, Buf.reserve, Sem.new, Sem.pollAcquire] at h
  · intro i h
    simp [fWaits, fWaitsAfter] at h
  · simp [workerDied]
  · exact Nat.zero_lt_one
  · simp

end Demo62

end Tower
