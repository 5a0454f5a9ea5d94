import Verif.Proof.CallAll1

/-! # C48, C49: `CallAll`, `CallAllUnordered` -/

namespace Tower
set_option linter.unusedSectionVars false
variable {W Req Res Err : Type} {S : Service W Req Res Err} {R : ReqStream W Req}

/-- The queue of `CallAll`, and of `CallAllUnordered`, over recorded futures. -/
abbrev ordQ (V : Sched W) (S : Service W Req Res Err) := orderedQ (V.snd (A := List (CAEv Req Res Err))) (recS S).poll
abbrev unordQ (V : Sched W) (S : Service W Req Res Err) := unorderedQ (V.snd (A := List (CAEv Req Res Err))) (recS S).poll

variable {V : Sched W} {s0 : S.σ} {r0 : R.τ} {log : List (CAEv Req Res Err)} {items : List (Except Err Res)} {b : Bool}

/-! ## Requests -/

/-- what a legal log means, for the requests -/
theorem legal_requests (h : CALegal log) :
    calledReqs log <+: pulledReqs log ∧ (pulledReqs log).length ≤ (calledReqs log).length + 1 ∧ ((responses log).map Prod.fst).Nodup ∧
      (∀ n ∈ (responses log).map Prod.fst, n < (calledReqs log).length) := by
  cases hr : caRun log with
  | none => exact absurd hr h
  | some st =>
    have f := caFacts log st hr
    refine ⟨⟨_, f.held.symm⟩, ?_, ?_, ?_⟩
    · rw [f.held, List.length_append]
      have : st.held.toList.length ≤ 1 := by cases st.held <;> simp
      omega
    · have := f.nodup; rw [f.fin] at this; exact List.nodup_reverse.1 this
    · intro n hn
      have := f.lt n (by rw [f.fin, List.mem_reverse]; exact hn)
      rw [f.calls] at this; exact this

/-- **C48.** Everything a `CallAll` asks of its stream, service and futures is allowed (see `CASt.step`): requests are taken one at a time, the service is called once with each of them, in order, right after it said it was ready;
the stream is not polled after its end, the service not used after a failure, no future polled after its response. -/
theorem C48_legal {c : CallAll (recS S) (recR Res Err R) (ordQ V S)} (h : CARun (ordQ V S) s0 r0 c log items b) : CALegal log := by
  obtain ⟨st, y, hi, _⟩ := h.inv (orderedLaw V S)
  rw [CALegal, hi.run]; simp

/-- **C48.** The requests are made in the order of the stream, at most one of them is waiting; every call is answered at most once. -/
theorem C48_requests {c : CallAll (recS S) (recR Res Err R) (ordQ V S)} (h : CARun (ordQ V S) s0 r0 c log items b) :
    calledReqs log <+: pulledReqs log ∧ (pulledReqs log).length ≤ (calledReqs log).length + 1 ∧ ((responses log).map Prod.fst).Nodup :=
  ⟨(legal_requests (C48_legal h)).1, (legal_requests (C48_legal h)).2.1, (legal_requests (C48_legal h)).2.2.1⟩

/-! ## Responses -/

/-- **C48.** As long as the service has not failed, the k-th item is the response to the k-th request. If it has failed, its error is one more item. -/
theorem C48_ordered {c : CallAll (recS S) (recR Res Err R) (ordQ V S)} (h : CARun (ordQ V S) s0 r0 c log items b) :
    ∃ rs, WithFailure log rs items ∧ rs.length ≤ (calledReqs log).length ∧ ∀ k v, rs[k]? = some v → (k, v) ∈ responses log := by
  obtain ⟨st, y, hi, _⟩ := h.inv (orderedLaw V S)
  have f := caFacts log st hi.run
  refine ⟨y, hi.items, ?_, hi.queue.out⟩
  rw [← f.calls]; exact (orderedLaw V S).le hi.queue

theorem C48_ordered_no_failure {c : CallAll (recS S) (recR Res Err R) (ordQ V S)} (h : CARun (ordQ V S) s0 r0 c log items b) (hf : ∀ e, ¬ ServiceFailed log e) :
    ∀ k v, items[k]? = some v → (k, v) ∈ responses log := by
  obtain ⟨rs, hw, _, hr⟩ := C48_ordered h
  rcases hw with ⟨_, rfl⟩ | ⟨e, _, _, he, _⟩
  · exact hr
  · exact absurd he (hf e)

theorem end_aux {D : DriveQ (List (CAEv Req Res Err) × W) (Nat × S.φ) (Except Err Res)} (L : QLaw D) {c : CallAll (recS S) (recR Res Err R) D} (h : CARun D s0 r0 c log items true) :
    (StreamEnded log ∧ (∀ e, ¬ ServiceFailed log e) ∧ calledReqs log = pulledReqs log ∧ items.length = (pulledReqs log).length) ∨
    (∃ e, ServiceFailed log e ∧ .error e ∈ items ∧ items.length = (calledReqs log).length + 1) := by
  obtain ⟨st, y, hi, hb⟩ := h.inv L
  have f := caFacts log st hi.run
  obtain ⟨he, hl⟩ := hb rfl
  rw [← hi.eof, f.eof] at he
  rw [f.calls] at hl
  rcases hi.items with ⟨h1, rfl⟩ | ⟨e, a, b, h1, rfl, rfl⟩
  · left
    have h2 : StreamEnded log := by
      rcases he with he | ⟨e, he⟩
      · exact he
      · exact absurd he (h1 e)
    have h3 := f.held
    rw [f.ended h2] at h3
    simp only [Option.toList, List.append_nil] at h3
    exact ⟨h2, h1, h3.symm, by rw [h3]; exact hl⟩
  · right
    refine ⟨e, h1, by simp, ?_⟩
    simp only [List.length_append, List.length_cons] at hl ⊢
    omega

/-- **C48.** When it has ended (and whatever is polled after that): the stream has ended, every request was made and its response yielded. Or the service has failed, and then its error and the responses to all requests made were yielded. -/
theorem C48_end {c : CallAll (recS S) (recR Res Err R) (ordQ V S)} (h : CARun (ordQ V S) s0 r0 c log items true) :
    (StreamEnded log ∧ (∀ e, ¬ ServiceFailed log e) ∧ calledReqs log = pulledReqs log ∧ items.length = (pulledReqs log).length) ∨
    (∃ e, ServiceFailed log e ∧ .error e ∈ items ∧ items.length = (calledReqs log).length + 1) :=
  end_aux (orderedLaw V S) h

theorem pending_aux {D : DriveQ (List (CAEv Req Res Err) × W) (Nat × S.φ) (Except Err Res)} (L : QLaw D) {c c' : CallAll (recS S) (recR Res Err R) D} (h : CARun D s0 r0 c log items b)
    {n w log' w'} (hp : (CallAll.pollNext n c).run (log, w) = .ok (.pending, c') (log', w')) :
    ∃ st y, CAInv L c' log' st y items ∧ L.Idle c'.queue ∧ (WaitsOn log' ∨ ((StreamEnded log' ∨ ∃ e, ServiceFailed log' e) ∧ y.length < (calledReqs log').length)) := by
  obtain ⟨st, y, hi, _⟩ := h.inv L
  obtain ⟨st', y', hi', hid, ha⟩ := pollNext_ok L n hi hp
  have f := caFacts log' st' hi'.run
  simp only [itemOf, List.append_nil] at hi'
  refine ⟨st', y', hi', hid, ?_⟩
  rcases ha with ha | ⟨h1, h2⟩
  · exact Or.inl ha
  · exact Or.inr ⟨f.eof.1 (by rw [hi'.eof]; exact h1), by rw [← f.calls]; exact h2⟩

/-- **C48.** It is `Pending` only while the stream or the service is (that was the last thing asked), or while there will be no more requests and a response is outstanding. And in any case the response next in turn is not there: nothing is held back. -/
theorem C48_pending {c c' : CallAll (recS S) (recR Res Err R) (ordQ V S)} (h : CARun (ordQ V S) s0 r0 c log items b) {n w log' w'}
    (hp : (CallAll.pollNext n c).run (log, w) = .ok (.pending, c') (log', w')) :
    ∃ rs, WithFailure log' rs items ∧ (∀ v, (rs.length, v) ∉ responses log') ∧ (WaitsOn log' ∨ ((StreamEnded log' ∨ ∃ e, ServiceFailed log' e) ∧ rs.length < (calledReqs log').length)) := by
  obtain ⟨st, y, hi, hid, hh⟩ := pending_aux (orderedLaw V S) h hp
  refine ⟨y, hi.items, ?_, hh⟩
  intro v hv
  have hq : OrdInv c'.queue (responses log') st.calls y := hi.queue
  rw [hq.nextOut] at hv
  exact hid _ ((hq.done _ v).2 ⟨hv, Nat.le_refl _⟩) rfl

/-! ## C49 -/

/-- **C49.** The same for `CallAllUnordered`. -/
theorem C49_legal {c : CallAll (recS S) (recR Res Err R) (unordQ V S)} (h : CARun (unordQ V S) s0 r0 c log items b) : CALegal log := by
  obtain ⟨st, y, hi, _⟩ := h.inv (unorderedLaw V S)
  rw [CALegal, hi.run]; simp

theorem C49_requests {c : CallAll (recS S) (recR Res Err R) (unordQ V S)} (h : CARun (unordQ V S) s0 r0 c log items b) :
    calledReqs log <+: pulledReqs log ∧ (pulledReqs log).length ≤ (calledReqs log).length + 1 ∧ ((responses log).map Prod.fst).Nodup :=
  ⟨(legal_requests (C49_legal h)).1, (legal_requests (C49_legal h)).2.1, (legal_requests (C49_legal h)).2.2.1⟩

/-- **C49.** The items are the responses, each once, in the order in which they came (and the error of the service, if it failed): no response is held back. -/
theorem C49_unordered {c : CallAll (recS S) (recR Res Err R) (unordQ V S)} (h : CARun (unordQ V S) s0 r0 c log items b) :
    WithFailure log ((responses log).map Prod.snd) items := by
  obtain ⟨st, y, hi, _⟩ := h.inv (unorderedLaw V S)
  have := hi.items
  rw [hi.queue.2] at this
  exact this

/-- **C49.** When it has ended, all calls are answered: the numbers of the responses are a permutation of all calls; and, if the service has not failed, all requests of the stream were made. -/
theorem C49_end {c : CallAll (recS S) (recR Res Err R) (unordQ V S)} (h : CARun (unordQ V S) s0 r0 c log items true) :
    ((responses log).map Prod.fst).Perm (List.range (calledReqs log).length) ∧
    ((StreamEnded log ∧ (∀ e, ¬ ServiceFailed log e) ∧ calledReqs log = pulledReqs log ∧ items.length = (pulledReqs log).length) ∨
    (∃ e, ServiceFailed log e ∧ .error e ∈ items ∧ items.length = (calledReqs log).length + 1)) := by
  refine ⟨?_, end_aux (unorderedLaw V S) h⟩
  obtain ⟨st, y, hi, hb⟩ := h.inv (unorderedLaw V S)
  have f := caFacts log st hi.run
  obtain ⟨_, hl⟩ := hb rfl
  have hq := hi.queue.1
  have : c.queue = [] := by simpa using ((unorderedLaw V S).empty hi.queue).2 hl
  rw [this] at hq
  rw [← f.calls]
  exact hq

/-- **C49.** It is `Pending` only while the stream or the service is, or while there will be no more requests and a response is outstanding. -/
theorem C49_pending {c c' : CallAll (recS S) (recR Res Err R) (unordQ V S)} (h : CARun (unordQ V S) s0 r0 c log items b) {n w log' w'}
    (hp : (CallAll.pollNext n c).run (log, w) = .ok (.pending, c') (log', w')) :
    WaitsOn log' ∨ ((StreamEnded log' ∨ ∃ e, ServiceFailed log' e) ∧ (responses log').length < (calledReqs log').length) := by
  obtain ⟨st, y, hi, _, hh⟩ := pending_aux (unorderedLaw V S) h hp
  rw [hi.queue.2, List.length_map] at hh
  exact hh

/-! ## Polls return -/

theorem pollSome_no_spin {φ α : Type} {poll : φ → Act W (Poll α × φ)} (hp : ∀ f w, (poll f).run w ≠ .spin) : ∀ (o : List Nat) (q : List φ) (w : W), (pollSome poll o q).run w ≠ .spin := by
  intro o
  induction o with
  | nil => intro q w; cases q <;> simp [pollSome]
  | cons i o ih =>
    intro q w
    cases q with
    | nil => simp [pollSome]
    | cons x q =>
      rw [pollSome.eq_3 _ _ _ _ (by simp)]
      split
      · exact ih _ w
      · rename_i f _
        rw [Act.run_bind]
        cases hf : (poll f).run w with
        | panic m => simp
        | spin => exact absurd hf (hp f w)
        | ok a w' =>
          obtain ⟨r, f'⟩ := a
          cases r with
          | pending => exact ih _ w'
          | ready v => simp

theorem pollSome_shrinks {φ α : Type} {poll : φ → Act W (Poll α × φ)} : ∀ (o : List Nat) (q : List φ) (w : W) {v q' w'},
    (pollSome poll o q).run w = .ok (.ready (some v), q') w' → q'.length + 1 = q.length := by
  intro o
  induction o with
  | nil => intro q w v q' w' h; cases q <;> cases h
  | cons i o ih =>
    intro q w v q' w' h
    cases q with
    | nil => cases h
    | cons x q =>
      rw [pollSome.eq_3 _ _ _ _ (by simp)] at h
      split at h
      · exact ih _ w h
      · rename_i f hf
        obtain ⟨⟨r, f'⟩, w1, h1, h2⟩ := Act.run_bind_eq_ok.1 h
        have hi : i < (x :: q).length := by
          by_contra hlt
          rw [List.getElem?_eq_none (by omega)] at hf; cases hf
        cases r with
        | pending =>
          have := ih _ w1 h2
          rw [List.length_set] at this
          exact this
        | ready v' =>
          cases h2
          rw [List.length_eraseIdx_of_lt hi]
          omega

theorem ordered_no_spin {φ α : Type} (V : Sched W) {poll : φ → Act W (Poll α × φ)} (hp : ∀ f w, (poll f).run w ≠ .spin) (q : OrdQ φ α) (w : W) : ((orderedQ V poll).poll q).run w ≠ .spin := by
  have hp' : ∀ x w, (pollIdx poll x).run w ≠ .spin := by
    intro x w h
    unfold pollIdx at h
    rw [Act.run_bind] at h
    cases hf : (poll x.2).run w with
    | panic m => rw [hf] at h; cases h
    | spin => exact hp _ _ hf
    | ok a w' => rw [hf] at h; cases h
  have hl : ∀ (n : Nat) (q : OrdQ φ α) (w : W), q.run.length < n → (OrdQ.loop V poll n q).run w ≠ .spin := by
    intro n
    induction n with
    | zero => intro q w h; omega
    | succ n ih =>
      intro q w hlt h
      unfold OrdQ.loop at h
      rw [Act.run_bind] at h
      simp only [Act.run_lift] at h
      rw [Act.run_bind] at h
      split at h
      · rename_i a w' ha
        obtain ⟨r, r'⟩ := a
        rcases r with _ | (_ | ⟨i, v⟩)
        · cases h
        · cases h
        · have := pollSome_shrinks _ _ _ ha
          simp only at h
          split at h
          · cases h
          · exact ih _ _ (by simp only; omega) h
      · cases h
      · rename_i ha
        exact pollSome_no_spin hp' _ _ _ ha
  intro h
  simp only at h
  split at h
  · cases h
  · exact hl _ q w (Nat.lt_succ_self _) h

theorem unordered_no_spin {φ α : Type} (V : Sched W) {poll : φ → Act W (Poll α × φ)} (hp : ∀ f w, (poll f).run w ≠ .spin) (q : List φ) (w : W) : ((unorderedQ V poll).poll q).run w ≠ .spin := by
  intro h
  simp only at h
  rw [Act.run_bind] at h
  exact pollSome_no_spin hp _ _ _ h

/-- **C48, C49 (polls return).** A poll returns if those of the stream, the service and the futures do and the stream does not give requests for ever: `μ` bounds how many more it can give. (Otherwise the loop of `poll_next` need not end: there is no limit on the requests
taken in one poll.) -/
theorem C48_returns {S : Service W Req Res Err} {R : ReqStream W Req} {D : DriveQ W S.φ (Except Err Res)} (hD : ∀ q w, (D.poll q).run w ≠ .spin) (hr : ∀ s w, (S.pollReady s).run w ≠ .spin)
    (hc : ∀ s q w, (S.call s q).run w ≠ .spin) (hR : ∀ r w, (R.poll r).run w ≠ .spin) (μ : R.τ → Nat)
    (hμ : ∀ r w q r' w', (R.poll r).run w = .ok (.ready (some q), r') w' → μ r' < μ r) :
    ∀ (n : Nat) (c : CallAll S R D) (w : W), (if c.eof = true then 0 else μ c.stream + 1 + c.curr.toList.length) < n → (CallAll.pollNext n c).run w ≠ .spin := by
  intro n
  induction n with
  | zero => intro c w h; omega
  | succ n ih =>
    intro c w hlt h
    have hiss : ∀ (c : CallAll S R D) (w : W), c.eof = false → c.curr ≠ none → μ c.stream + 1 < n → (CallAll.issue (CallAll.pollNext n) c).run w ≠ .spin := by
      intro c w he hcu hm h
      unfold CallAll.issue at h
      split at h
      · cases h
      · rename_i s hs
        rw [Act.run_bind] at h
        split at h
        · rename_i a w' ha
          obtain ⟨p, s'⟩ := a
          rcases p with _ | (e | ⟨⟩)
          · cases h
          · cases h
          · simp only at h
            split at h
            · cases h
            · rename_i q hq
              rw [Act.run_bind] at h
              split at h
              · rename_i a w' ha
                refine ih _ _ ?_ h
                simp only [he, Option.toList, List.length_nil, Bool.false_eq_true, if_false]
                omega
              · cases h
              · rename_i ha; exact hc _ _ _ ha
        · cases h
        · rename_i ha; exact hr _ _ ha
    have hfet : ∀ (c : CallAll S R D) (w : W), (if c.eof = true then 0 else μ c.stream + 1 + c.curr.toList.length) < n + 1 → (CallAll.fetch (CallAll.pollNext n) c).run w ≠ .spin := by
      intro c w hm h
      unfold CallAll.fetch at h
      split at h
      · split at h <;> cases h
      · rename_i he
        rw [if_neg he] at hm
        have he : c.eof = false := by simpa using he
        split at h
        · rename_i q hq
          refine hiss c w he (by rw [hq]; simp) ?_ h
          rw [hq] at hm
          simp only [Option.toList, List.length_singleton] at hm
          omega
        · rename_i hq
          rw [hq] at hm
          simp only [Option.toList, List.length_nil] at hm
          rw [Act.run_bind] at h
          split at h
          · rename_i a w' ha
            obtain ⟨p, r'⟩ := a
            rcases p with _ | (_ | q)
            · cases h
            · refine ih _ _ ?_ h
              simp only [if_true]; omega
            · have := hμ _ _ _ _ _ ha
              refine hiss { c with stream := r', curr := some q } w' he (by simp) ?_ h
              simp only; omega
          · cases h
          · rename_i ha; exact hR _ _ ha
    unfold CallAll.pollNext at h
    rw [Act.run_bind] at h
    split at h
    · rename_i a w' ha
      obtain ⟨p, q⟩ := a
      rcases p with _ | (_ | (e | v))
      · exact hfet { c with queue := q } _ hlt h
      · exact hfet { c with queue := q } _ hlt h
      · cases h
      · cases h
    · cases h
    · rename_i ha; exact hD _ _ ha

/-! ## Taking the service out -/

/-- what was asked of the service -/
def askedOfService : List (CAEv Req Res Err) → List (CAEv Req Res Err)
  | [] => []
  | .ready p :: l => .ready p :: askedOfService l
  | .called q :: l => .called q :: askedOfService l
  | _ :: l => askedOfService l

/-- polled later, any number of times, in any world -/
inductive CALater {D : DriveQ (List (CAEv Req Res Err) × W) (Nat × S.φ) (Except Err Res)} (c : CallAll (recS S) (recR Res Err R) D) (log : List (CAEv Req Res Err)) :
    CallAll (recS S) (recR Res Err R) D → List (CAEv Req Res Err) → Prop
  | here : CALater c log c log
  | poll {c' log' n w p c'' log'' w'} : CALater c log c' log' → (CallAll.pollNext n c').run (log', w) = .ok (p, c'') (log'', w') → CALater c log c'' log''

theorem asked_append (a b : List (CAEv Req Res Err)) : askedOfService (a ++ b) = askedOfService a ++ askedOfService b := by
  induction a with
  | nil => rfl
  | cons e a ih => cases e <;> simp [askedOfService, ih]

theorem asked_polled {evs : List (CAEv Req Res Err)} (h : ∀ e ∈ evs, IsPolled e) : askedOfService evs = [] := by
  induction evs with
  | nil => rfl
  | cons e a ih =>
    obtain ⟨n, p, rfl⟩ := h _ List.mem_cons_self
    exact ih fun e he => h e (List.mem_cons_of_mem _ he)

theorem taken_poll {D : DriveQ (List (CAEv Req Res Err) × W) (Nat × S.φ) (Except Err Res)} (L : QLaw D) : ∀ (n : Nat) {c c' : CallAll (recS S) (recR Res Err R) D} {log st y items w p log' w'}, c.service = none →
    CAInv L c log st y items → (CallAll.pollNext n c).run (log, w) = .ok (p, c') (log', w') → c'.service = none ∧ askedOfService log' = askedOfService log := by
  intro n
  induction n with
  | zero => intro c c' log st y items w p log' w' _ _ h; cases h
  | succ n ih =>
    intro c c' log st y items w p log' w' hs hi h
    obtain ⟨⟨p1, q⟩, ⟨l1, w1⟩, h1, h2⟩ := Act.run_bind_eq_ok.1 h
    obtain ⟨evs, fin, rfl, hev, hr, hq⟩ := L.poll hi.run hi.queue h1
    have ha : askedOfService (log ++ evs) = askedOfService log := by rw [asked_append, asked_polled hev, List.append_nil]
    have key : itemOf p1 = [] → (CallAll.fetch (CallAll.pollNext n) { c with queue := q }).run (log ++ evs, w1) = .ok (p, c') (log', w') → c'.service = none ∧ askedOfService log' = askedOfService log := by
      intro hit hf
      rw [hit, List.append_nil] at hq
      unfold CallAll.fetch at hf
      split at hf
      · split at hf <;> (cases hf; exact ⟨hs, ha⟩)
      · rename_i he
        split at hf
        · unfold CallAll.issue at hf
          rw [show ({ c with queue := q } : CallAll (recS S) (recR Res Err R) D).service = none from hs] at hf
          cases hf
        · rename_i hc
          obtain ⟨⟨p2, r'⟩, ⟨l2, w2⟩, h3, h4⟩ := Act.run_bind_eq_ok.1 hf
          obtain ⟨rfl, _⟩ := recPull h3
          have hb : askedOfService (log ++ evs ++ [.pulled p2]) = askedOfService log := by rw [asked_append, ha]; simp [askedOfService]
          rcases p2 with _ | (_ | rq)
          · cases h4; exact ⟨hs, hb⟩
          · have hse : st.eof = false := by rw [hi.eof]; simpa using he
            have hsh : st.held = none := by rw [hi.held]; exact hc
            obtain ⟨g1, g2⟩ := ih (c := { c with queue := q, stream := r', eof := true }) (st := { st with fin := fin, eof := true }) (y := y) hs ⟨by rw [caRun_append, hr]; simp [CASt.step, hse, hsh], rfl, hi.held,
              by rw [responses_append]; simpa [responses] using hq, withFailure_events (withFailure_events hi.items (polled_no_failure hev)) (single_no_failure (by intro e h; cases h))⟩ h4
            exact ⟨g1, g2.trans hb⟩
          · simp only at h4
            unfold CallAll.issue at h4
            rw [show ({ c with queue := q, stream := r', curr := some rq } : CallAll (recS S) (recR Res Err R) D).service = none from hs] at h4
            cases h4
    rcases p1 with _ | (_ | (e | v))
    · exact key rfl h2
    · exact key rfl h2
    · cases h2; exact ⟨hs, ha⟩
    · cases h2; exact ⟨hs, ha⟩

theorem taken_aux {D : DriveQ (List (CAEv Req Res Err) × W) (Nat × S.φ) (Except Err Res)} (L : QLaw D) {c c1 c' : CallAll (recS S) (recR Res Err R) D} {s : S.σ} {w : W} {log' : List (CAEv Req Res Err)} (h : CARun D s0 r0 c log items b)
    (ht : c.takeService.run (log, w) = .ok (s, c1) (log, w)) (hl : CALater c1 log c' log') :
    askedOfService log' = askedOfService log ∧ (∀ x, c'.takeService.run x = .panic "Service already taken") ∧ ∃ items' b', CARun D s0 r0 c' log' items' b' := by
  have h1 : c1.service = none := by
    unfold CallAll.takeService at ht
    split at ht
    · cases ht
    · cases ht; rfl
  have : c'.service = none ∧ askedOfService log' = askedOfService log ∧ ∃ items' b', CARun D s0 r0 c' log' items' b' := by
    induction hl with
    | here => exact ⟨h1, rfl, _, _, h.take ht⟩
    | poll _ hp ih =>
      obtain ⟨a1, a2, _, _, a3⟩ := ih
      obtain ⟨st, y, hi, _⟩ := a3.inv L
      obtain ⟨b1, b2⟩ := taken_poll L _ a1 hi hp
      exact ⟨b1, b2.trans a2, _, _, a3.poll hp⟩
  refine ⟨this.2.1, fun x => ?_, this.2.2⟩
  unfold CallAll.takeService
  rw [this.1]; rfl

/-- **C48.** The service can be taken out once, at any moment. After that nothing is asked of it, however often the `CallAll` is polled (the responses outstanding are still yielded as before, `C48_ordered`), and it cannot be taken again. -/
theorem C48_taken {c c1 c' : CallAll (recS S) (recR Res Err R) (ordQ V S)} {s : S.σ} {w : W} {log' : List (CAEv Req Res Err)} (h : CARun (ordQ V S) s0 r0 c log items b)
    (ht : c.takeService.run (log, w) = .ok (s, c1) (log, w)) (hl : CALater c1 log c' log') :
    askedOfService log' = askedOfService log ∧ (∀ x, c'.takeService.run x = .panic "Service already taken") ∧ ∃ items' b', CARun (ordQ V S) s0 r0 c' log' items' b' :=
  taken_aux (orderedLaw V S) h ht hl

/-- **C49.** The same for `CallAllUnordered`. -/
theorem C49_taken {c c1 c' : CallAll (recS S) (recR Res Err R) (unordQ V S)} {s : S.σ} {w : W} {log' : List (CAEv Req Res Err)} (h : CARun (unordQ V S) s0 r0 c log items b)
    (ht : c.takeService.run (log, w) = .ok (s, c1) (log, w)) (hl : CALater c1 log c' log') :
    askedOfService log' = askedOfService log ∧ (∀ x, c'.takeService.run x = .panic "Service already taken") ∧ ∃ items' b', CARun (unordQ V S) s0 r0 c' log' items' b' :=
  taken_aux (unorderedLaw V S) h ht hl

/-! ## Concrete runs -/

namespace CallAllDemo

/-- the readiness follows a script, and is `Ok` after it; the response to request `q` comes at time `100 / q` (the world is the time) -/
@[reducible] def svc : Service Nat Nat Nat String where
  σ := List (Poll (Except String Unit))
  φ := Nat
  pollReady s := match s with
    | [] => pure (.ready (.ok ()), [])
    | p :: s => pure (p, s)
  call s q := pure (q, s)
  poll f := do
    let t ← Act.get
    if 100 / f ≤ t then pure (.ready (.ok (f + 1000)), f) else pure (.pending, f)
  clone s := s

@[reducible] def reqs : ReqStream Nat Nat where
  τ := List Nat
  poll r := match r with
    | [] => pure (.ready none, [])
    | q :: r => pure (.ready (some q), r)

def inTurn : Sched Nat := ⟨fun n w => (List.range n, w)⟩

/-- polled in this order of times; the log, the items and whether it has ended -/
def runs {D : DriveQ (List (CAEv Nat Nat String) × Nat) (Nat × svc.φ) (Except String Nat)} : List Nat → CallAll (recS svc) (recR Nat String reqs) D → List (CAEv Nat Nat String) → List (Except String Nat) → Bool →
    Option (CallAll (recS svc) (recR Nat String reqs) D × List (CAEv Nat Nat String) × List (Except String Nat) × Bool)
  | [], c, l, it, b => some (c, l, it, b)
  | t :: ts, c, l, it, b =>
    match (CallAll.pollNext 10 c).run (l, t) with
    | .ok (p, c') (l', _) => runs ts c' l' (it ++ itemOf p) (b || isEnd p)
    | _ => none

theorem runs_sound {D : DriveQ (List (CAEv Nat Nat String) × Nat) (Nat × svc.φ) (Except String Nat)} {s0 : svc.σ} {r0 : reqs.τ} : ∀ (ts : List Nat) {c : CallAll (recS svc) (recR Nat String reqs) D} {l it b c' l' it' b'},
    CARun (S := svc) (R := reqs) D s0 r0 c l it b → runs ts c l it b = some (c', l', it', b') → CARun (S := svc) (R := reqs) D s0 r0 c' l' it' b' := by
  intro ts
  induction ts with
  | nil => intro c l it b c' l' it' b' h hr; cases hr; exact h
  | cons t ts ih =>
    intro c l it b c' l' it' b' h hr
    unfold runs at hr
    split at hr
    · rename_i hp
      exact ih (CARun.poll h hp) hr
    · cases hr

/-- what is seen of a run -/
def seen {D : DriveQ (List (CAEv Nat Nat String) × Nat) (Nat × svc.φ) (Except String Nat)} (ts : List Nat) (s : svc.σ) (r : reqs.τ) : Option (List Nat × List (Nat × Except String Nat) × List (Except String Nat) × Bool) :=
  (runs (D := D) ts (CallAll.new s r) [] [] false).map (fun x => (calledReqs x.2.1, responses x.2.1, x.2.2.1, x.2.2.2))

theorem seen_sound {D : DriveQ (List (CAEv Nat Nat String) × Nat) (Nat × svc.φ) (Except String Nat)} {ts : List Nat} {s : svc.σ} {r : reqs.τ} {x y z b} (h : seen (D := D) ts s r = some (x, y, z, b)) :
    ∃ c log, CARun (S := svc) (R := reqs) D s r c log z b ∧ calledReqs log = x ∧ responses log = y := by
  unfold seen at h
  rw [Option.map_eq_some_iff] at h
  obtain ⟨⟨c, l, it, b'⟩, h1, h2⟩ := h
  cases h2
  exact ⟨c, l, runs_sound ts CARun.new h1, rfl, rfl⟩

/-- The responses come in the order 25, 10, 5 and are yielded in the order of the requests. -/
example : ∃ c log, CARun (S := svc) (R := reqs) (ordQ inTurn svc) [] [5, 10, 25] c log [.ok 1005, .ok 1010, .ok 1025] true ∧ calledReqs log = [5, 10, 25] ∧
    responses log = [(2, .ok 1025), (1, .ok 1010), (0, .ok 1005)] :=
  seen_sound (ts := [0, 4, 10, 20, 20, 20, 20]) (by rfl)

/-- The same responses from `CallAllUnordered`: in the order in which they come. -/
example : ∃ c log, CARun (S := svc) (R := reqs) (unordQ inTurn svc) [] [5, 10, 25] c log [.ok 1025, .ok 1010, .ok 1005] true ∧ calledReqs log = [5, 10, 25] ∧
    responses log = [(2, .ok 1025), (1, .ok 1010), (0, .ok 1005)] :=
  seen_sound (ts := [0, 4, 10, 20, 20]) (by rfl)

/-- the hypotheses of `C48_taken`: two requests were made, the service is taken out, and the response to one of them is yielded later -/
example : ∃ (c c1 c' : CallAll (recS svc) (recR Nat String reqs) (ordQ inTurn svc)) (log log' : List (CAEv Nat Nat String)) (s : svc.σ), CARun (S := svc) (R := reqs) (ordQ inTurn svc) [] [5, 10] c log [] false ∧ calledReqs log = [5, 10] ∧
    c.takeService.run (log, 0) = .ok (s, c1) (log, 0) ∧ CALater c1 log c' log' ∧ responses log' = [(0, .ok 1005)] :=
  ⟨_, _, _, _, _, _, runs_sound [0] CARun.new rfl, rfl, rfl, (CALater.here).poll (n := 10) (w := 20) rfl, rfl⟩

/-- **C48 (limit).** Even in order, the error of a service that fails is yielded before the responses to the requests made before: the item of request 10 (never made) comes before that of request 5. -/
theorem C48_failure_overtakes : ∃ c log, CARun (S := svc) (R := reqs) (ordQ inTurn svc) [.ready (.ok ()), .ready (.error "down")] [5, 10, 25] c log [.error "down", .ok 1005] true ∧ calledReqs log = [5] ∧
    responses log = [(0, .ok 1005)] :=
  seen_sound (ts := [0, 20, 20]) (by rfl)

/-- **C49 (limit).** `unordered` is documented to panic after a poll. But its check looks only at the queue and the end of the stream: after a poll in which a request was taken and the service was not ready it does not panic, and that request is lost. Here the stream gave 5 and 10, and 5 is never made. -/
theorem C49_unordered_loses : ∃ (c : CallAll (recS svc) (recR Nat String reqs) (ordQ inTurn svc)) (log : List (CAEv Nat Nat String)) (d : CallAll (recS svc) (recR Nat String reqs) (unordQ inTurn svc)),
    CARun (S := svc) (R := reqs) (ordQ inTurn svc) [.pending] [5, 10] c log [] false ∧ pulledReqs log = [5] ∧ calledReqs log = [] ∧
    (c.unordered (unordQ inTurn svc)).run (log, 0) = .ok d (log, 0) ∧
    ∃ d' log' , runs [20, 20] d log [] false = some (d', log', [.ok 1010], true) ∧ calledReqs log' = [10] :=
  ⟨_, _, _, runs_sound [0] CARun.new (by rfl), rfl, rfl, rfl, _, _, rfl, rfl⟩

end CallAllDemo

/-- **C48.** A `CallAll` nothing was asked of yet becomes a `CallAllUnordered` with the same service and stream. -/
theorem C48_unordered_new {W Req Res Err : Type} {S : Service W Req Res Err} {R : ReqStream W Req} (V : Sched W) (s : S.σ) (r : R.τ) (w : W) :
    ((CallAll.new s r : CallAllOrdered V S R).unordered (unorderedQ V S.poll)).run w = .ok (CallAll.new s r) w := rfl

/-- **C48.** `unordered` panics while a response is outstanding or not yielded, and after the end. -/
theorem C48_unordered_panics {W Req Res Err : Type} {S : Service W Req Res Err} {R : ReqStream W Req} {V : Sched W} (D' : DriveQ W S.φ (Except Err Res)) (c : CallAllOrdered V S R) (w : W)
    (h : c.queue.run ≠ [] ∨ c.queue.done ≠ [] ∨ c.eof = true) : (c.unordered D').run w = .panic "assertion failed: self.queue.is_empty() && !self.eof" := by
  unfold CallAll.unordered
  rw [if_neg]
  · rfl
  · rcases h with h | h | h <;> simp [h]

end Tower
