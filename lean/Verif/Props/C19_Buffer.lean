import Verif.Proof.Buffer7
import Mathlib.Data.List.Perm.Subperm

/-!
# C19 to C25: Buffer

All theorems are about `BHist S bound svc tr x`: any history `tr` of a buffer around any service `S`, with any number of clones, calls, response
futures, cancellations, any reaction of the inner service, a worker that is interrupted anywhere and may die, and any interleaving of all that.
-/

set_option linter.unusedSimpArgs false
set_option linter.unusedVariables false

namespace Tower
variable {W Req Res Err : Type} {S : Service W Req Res Err} {bound : Nat} {svc : S.σ} {tr : List (BEv S)} {x : Buf S}

theorem BHist.bound_eq (h : BHist S bound svc tr x) : x.bound = bound := bound_run h

/-! ## C19: the bound -/

/-- C19: the requests in the channel and the slots reserved by handles are at most `bound`. -/
theorem C19_bound (h : BHist S bound svc tr x) : x.queue.length + x.reserved ≤ bound := by
  have := (BHist.inv h).sem.conserved
  rw [BHist.bound_eq h] at this; omega

/-- C19: every slot is free, assigned to a waiting handle, reserved by a handle, or holds a request: none is lost, none is invented. -/
theorem C19_conserved (h : BHist S bound svc tr x) :
    x.sem.permits + x.sem.granted.length + x.reserved + x.queue.length = bound := by
  rw [← BHist.bound_eq h]; exact (BHist.inv h).sem.conserved

theorem pend_length (h : BHist S bound svc tr x) : x.pend.length ≤ x.queue.length + 1 := by
  have hC := (BHist.inv h).ctl
  unfold Buf.pend
  by_cases h0 : x.cur = none
  · rw [h0]; cases x.pc <;> simp [WPc.pend] <;> omega
  · have h1 : x.pc.pend = [] := by rcases hC.cur h0 with h1 | h1 <;> rw [h1] <;> rfl
    rw [h1]; cases x.cur <;> simp <;> omega

/-- C19, as seen by callers: at most `bound + 1` requests are accepted, not cancelled, not dispatched and unanswered (one of them is in the hands
of the worker). -/
theorem C19_backlog (h : BHist S bound svc tr x) (l : List (Msg Req)) (hn : l.Nodup)
    (hl : ∀ m ∈ l, m ∈ accepted tr ∧ m ∉ dispatched tr ∧ .dropFut m.id ∉ tr ∧ x.Resolves m.id .pending) : l.length ≤ bound + 1 := by
  have hI := BHist.inv h
  have hsub : l ⊆ x.pend := by
    intro m hm
    obtain ⟨h1, h2, h3, ⟨z, h4⟩, _⟩ := hl m hm
    by_cases hp : m ∈ x.pend
    · exact hp
    · exfalso
      have hrx : x.futs m.id = .rx ∧ x.shots m.id = .waiting ∨ ∃ f, x.futs m.id = .inner f := by
        cases h4 with
        | worker hs => cases hs
        | death hs => cases hs
        | handle hs => cases hs
        | future hs =>
          cases hs
          case waiting h5 h6 => exact .inl ⟨h5, h6⟩
          case inner_pending f f' w w' h6 h5 => exact .inr ⟨_, h5⟩
      rcases hrx with ⟨h5, h6⟩ | ⟨f, h5⟩
      · rcases hI.msg.fate m h1 h2 hp with h7 | ⟨e, _, h7⟩ | ⟨_, h7⟩
        · rw [h5] at h7; cases h7
        · rw [h6] at h7; cases h7
        · rw [h6] at h7; cases h7
      · obtain ⟨m', f0, h7, h8, _⟩ := hI.msg.inn _ f h5
        have h9 : m' ∈ (dispatches tr).map (·.1) := List.mem_map.2 ⟨_, h7, rfl⟩
        have := hI.msg.inj (hI.msg.memD h9) h1 h8
        subst this; exact h2 h9
  have h1 := (List.subperm_of_subset hn hsub).length_le
  have h2 := pend_length h
  have h3 := C19_bound h
  omega

/-- C19, the other direction: while slots are free and nobody waits, an open buffer gives one to any handle that asks. -/
theorem C19_available (h : BHist S bound svc tr x) {k : BHandle} (hk : k ∈ x.hs) (ho : x.closed = false)
    (hq : x.queue.length + x.reserved + x.sem.granted.length < bound) : (x.pollReady k).1 = .ready (.ok ()) := by
  have hI := (BHist.inv h).sem
  have hc := C19_conserved h
  have hp : x.sem.permits > 0 := by omega
  have hqn : x.sem.queue = [] := by
    cases hq' : x.sem.queue with
    | nil => rfl
    | cons a q => have := hI.busy (by rw [hq']; simp); omega
  have hst : k.st ≠ .closed := by
    intro hst
    have := hI.hclosed k hk hst
    rw [ho] at this; cases this
  have hres : (x.reserve k).1 = .ready (.ok ()) := by
    unfold Buf.reserve
    rw [if_neg (by simp [ho])]
    unfold Sem.pollAcquire
    by_cases hg : k.name ∈ x.sem.granted
    · simp [hg]
    · simp [hg, hqn, hp]
  unfold Buf.pollReady
  cases hs : k.st <;> simp_all

/-! ## C20: order, at most once -/

/-- C20: the service receives a subsequence of what was accepted. -/
theorem C20_order (h : BHist S bound svc tr x) : (dispatched tr).Sublist (accepted tr) :=
  (List.sublist_append_left _ _).trans (BHist.inv h).msg.sub

/-- C20: every call is accepted once (calls are numbered in the order in which they are made), so no request is duplicated. -/
theorem C20_once (h : BHist S bound svc tr x) :
    ((accepted tr).map (·.id)).Pairwise (· < ·) ∧ ((dispatched tr).map (·.id)).Pairwise (· < ·) :=
  ⟨(BHist.inv h).msg.inc, (BHist.inv h).msg.inc.sublist ((C20_order h).map _)⟩

/-- C20: a request is overtaken by a later one only if its response future was dropped. -/
theorem C20_skip (h : BHist S bound svc tr x) {m m' : Msg Req} (hm : m ∈ accepted tr) (hm' : m' ∈ dispatched tr) (hlt : m.id < m'.id)
    (hd : m ∉ dispatched tr) : .dropFut m.id ∈ tr :=
  ((BHist.ev h).drop _).1 ((BHist.inv h).msg.skip m hm hd ⟨m', hm', hlt⟩)

/-! ## C21: responses -/

/-- C21: a response is what a poll of the future gave that the service returned for this very request. -/
theorem C21_ok (h : BHist S bound svc tr x) {i : Nat} {a : Res} (hp : .poll i (.ready (.ok a)) ∈ tr) :
    ∃ k r f0 f f' w w', .accept k i r ∈ tr ∧ .dispatch i r f0 ∈ tr ∧ Desc S f0 f ∧ (S.poll f).run w = .ok (.ready (.ok a), f') w' := by
  obtain ⟨m, f0, f, f', w, w', h1, rfl, h3, h4⟩ := (BHist.ev h).ok i a hp
  obtain ⟨k, h5⟩ := mem_accepted.1 ((C20_order h).subset (List.mem_map.2 ⟨_, h1, rfl⟩))
  exact ⟨k, m.req, f0, f, f', w, w', h5, mem_dispatches.1 h1, h3, h4⟩

/-- C21: so is an error of the inner future. -/
theorem C21_err (h : BHist S bound svc tr x) {i : Nat} {e : Err} (hp : .poll i (.ready (.error (.inner e))) ∈ tr) :
    ∃ k r f0 f f' w w', .accept k i r ∈ tr ∧ .dispatch i r f0 ∈ tr ∧ Desc S f0 f ∧ (S.poll f).run w = .ok (.ready (.error e), f') w' := by
  obtain ⟨m, f0, f, f', w, w', h1, rfl, h3, h4⟩ := (BHist.ev h).err i e hp
  obtain ⟨k, h5⟩ := mem_accepted.1 ((C20_order h).subset (List.mem_map.2 ⟨_, h1, rfl⟩))
  exact ⟨k, m.req, f0, f, f', w, w', h5, mem_dispatches.1 h1, h3, h4⟩

/-- C21: there is only one such future per request. -/
theorem C21_unique (h : BHist S bound svc tr x) {i : Nat} {r r' : Req} {f f' : S.φ} (h1 : .dispatch i r f ∈ tr) (h2 : .dispatch i r' f' ∈ tr) :
    r = r' ∧ f = f' := by
  have hp := (C20_once h).2
  unfold dispatched at hp
  rw [List.map_map] at hp
  have a1 : ((⟨i, r⟩ : Msg Req), f) ∈ dispatches tr := mem_dispatches.2 h1
  have a2 : ((⟨i, r'⟩ : Msg Req), f') ∈ dispatches tr := mem_dispatches.2 h2
  rw [List.pairwise_map] at hp
  have key : ∀ l : List (Msg Req × S.φ), l.Pairwise (fun a b => ((·.id) ∘ (·.1)) a < ((·.id) ∘ (·.1)) b) →
      ∀ a ∈ l, ∀ b ∈ l, a.1.id = b.1.id → a = b := by
    intro l hl
    induction hl with
    | nil => simp
    | @cons a l h1 h2 ih =>
      intro b hb c hc he
      rcases List.mem_cons.1 hb with hb | hb <;> rcases List.mem_cons.1 hc with hc | hc
      · rw [hb, hc]
      · have := h1 c hc; rw [hb] at he; simp only [Function.comp] at this; omega
      · have := h1 b hb; rw [hc] at he; simp only [Function.comp] at this; omega
      · exact ih b hb c hc he
  have := key _ hp _ a1 _ a2 rfl
  simp only [Prod.mk.injEq, Msg.mk.injEq, true_and] at this
  exact this

/-- C21: a response future resolves once: after `Ready` it is not polled again. -/
theorem C21_once {t u : List (BEv S)} {i : Nat} {v : Except (BufErr Err) Res} (h : BHist S bound svc (t ++ .poll i (.ready v) :: u) x) (p) :
    .poll i p ∉ u := by
  have h' : BHist S bound svc ((t ++ [.poll i (.ready v)]) ++ u) x := by simpa using h
  obtain ⟨y, h1, h2⟩ := BRun.split h'
  exact (Settled.run (BHist.inv h1) ((BHist.fin h1).pol i v (by simp)) h2).2 p

/-! ## C22: the failure of the service is broadcast -/

/-- the event is a use of the inner service -/
def BEv.usesService : BEv S → Prop
  | .dispatch .. | .svcFailed _ | .svcPending | .svcPanics => True
  | _ => False

theorem after_failure {y z : Buf S} {ev e} (hC : CtlInv tr y) (hf : .svcFailed e ∈ tr) (hs : BStep y ev z) : ¬ ev.usesService ∧ z.svc = y.svc := by
  have hcase : (∃ e, y.failed = some e) ∨ (∃ m, y.pc = .fail2 m e) ∨ ∃ m, y.pc = .fail1 m e := by
    rcases hC.trErr e hf with h1 | h1
    · rcases hC.err_f e h1 with h2 | h2
      · exact .inl ⟨e, h2⟩
      · exact .inr (.inl h2)
    · exact .inr (.inr h1)
  have hgot : ∀ m, y.pc = .got m → y.failed = none → False := by
    intro m h1 h2
    rcases hcase with ⟨e', h3⟩ | ⟨m', h3⟩ | ⟨m', h3⟩
    · rw [h2] at h3; cases h3
    · rw [h1] at h3; cases h3
    · rw [h1] at h3; cases h3
  have hcall : ∀ m, y.pc = .call m → False := by
    intro m h1
    have h2 := hC.call m h1
    rcases hcase with ⟨e', h3⟩ | ⟨m', h3⟩ | ⟨m', h3⟩
    · rw [h2] at h3; cases h3
    · rw [h1] at h3; cases h3
    · rw [h1] at h3; cases h3
  cases hs with
  | worker hs =>
    cases hs
    case svc_ready h1 h2 _ => exact (hgot _ h1 h2).elim
    case svc_pending h1 h2 _ => exact (hgot _ h1 h2).elim
    case svc_failed h1 h2 _ => exact (hgot _ h1 h2).elim
    case svc_call h1 _ => exact (hcall _ h1).elim
    all_goals exact ⟨by simp [BEv.usesService], rfl⟩
  | death hs =>
    cases hs
    case ready_panics h1 h2 _ => exact (hgot _ h1 h2).elim
    case call_panics h1 _ => exact (hcall _ h1).elim
    all_goals exact ⟨by simp [BEv.usesService], rfl⟩
  | handle hs => cases hs <;> exact ⟨by simp [BEv.usesService], rfl⟩
  | future hs => cases hs <;> exact ⟨by simp [BEv.usesService], rfl⟩

/-- C22: after `poll_ready` of the service failed, it is not used any more in any way: not polled, not called, and it does not change. -/
theorem C22_no_more {e : Err} (h : BHist S bound svc tr x) (hf : .svcFailed e ∈ tr) {tr' : List (BEv S)} {y : Buf S} (hr : BRun x tr' y) :
    (∀ ev ∈ tr', ¬ ev.usesService) ∧ y.svc = x.svc := by
  induction hr with
  | nil => simp
  | @snoc t ev y z hr hs ih =>
    obtain ⟨h1, h2⟩ := ih
    obtain ⟨h3, h4⟩ := after_failure (e := e) ((BHist.inv h).run hr).ctl (by simp [hf]) hs
    refine ⟨fun ev' hm => ?_, by rw [h4, h2]⟩
    rcases mem_snoc.1 hm with hm | hm
    · exact h1 ev' hm
    · subst hm; exact h3

/-- C22: there is only one such error. -/
theorem C22_unique (h : BHist S bound svc tr x) {e e' : Err} (h1 : .svcFailed e ∈ tr) (h2 : .svcFailed e' ∈ tr) : e = e' := by
  have hC := (BHist.inv h).ctl
  rcases hC.trErr e h1 with a | ⟨m, a⟩ <;> rcases hC.trErr e' h2 with b | ⟨m', b⟩
  · rw [a] at b; cases b; rfl
  · rcases hC.err_f e a with c | ⟨m'', c⟩
    · rw [(hC.fail1 _ _ b).1] at c; cases c
    · rw [b] at c; cases c
  · rcases hC.err_f e' b with c | ⟨m'', c⟩
    · rw [(hC.fail1 _ _ a).1] at c; cases c
    · rw [a] at c; cases c
  · rw [a] at b; cases b; rfl

theorem resolves_of_rx {i : Nat} {p : Poll (Except (BufErr Err) Res)} (hf : x.futs i = .rx)
    (hs : (p = .ready (.error .closed) ∧ x.shots i = .gone) ∨ (∃ e, p = .ready (.error (.service e)) ∧ x.shots i = .sent (.error e)) ∨
      (p = .pending ∧ x.shots i = .waiting)) : x.Resolves i p := by
  constructor
  · rcases hs with ⟨rfl, h⟩ | ⟨e, rfl, h⟩ | ⟨rfl, h⟩
    · exact ⟨_, .future (.gone hf h)⟩
    · exact ⟨_, .future (.service_failed hf h)⟩
    · exact ⟨_, .future (.waiting hf h)⟩
  · intro q z hst
    cases hst with
    | worker hs => cases hs
    | death hs => cases hs
    | handle hs => cases hs
    | future hst =>
      cases hst
      case failed e h1 => rw [hf] at h1; cases h1
      case waiting h1 h2 => rcases hs with ⟨rfl, h⟩ | ⟨e, rfl, h⟩ | ⟨rfl, h⟩ <;> rw [h2] at h <;> first | cases h | rfl
      case service_failed e h1 h2 => rcases hs with ⟨rfl, h⟩ | ⟨e, rfl, h⟩ | ⟨rfl, h⟩ <;> rw [h2] at h <;> cases h <;> rfl
      case gone h1 h2 => rcases hs with ⟨rfl, h⟩ | ⟨e, rfl, h⟩ | ⟨rfl, h⟩ <;> rw [h2] at h <;> first | cases h | rfl
      case inner_pending f f' w w' _ h1 => rw [hf] at h1; cases h1
      case inner_ok f f' w w' a _ h1 => rw [hf] at h1; cases h1
      case inner_err f f' w w' e _ h1 => rw [hf] at h1; cases h1

/-- the worker has nothing left -/
theorem resolved_of_empty {e : Err} (h : BHist S bound svc tr x) (hp : x.pend = []) (hf : x.failed = some e) (hd : ¬ x.dying) {m : Msg Req}
    (hm : m ∈ accepted tr) (hn : m ∉ dispatched tr) (hc : .dropFut m.id ∉ tr) (hq : ∀ p, .poll m.id (.ready p) ∉ tr) :
    x.Resolves m.id (.ready (.error (.service e))) := by
  have hrx := BHist.waited h hm hn hc hq
  rcases (BHist.inv h).msg.fate m hm hn (by rw [hp]; simp) with h1 | ⟨e', h2, h1⟩ | ⟨h1, _⟩
  · rw [hrx] at h1; cases h1
  · rw [hf] at h2; cases h2; exact resolves_of_rx hrx (.inr (.inl ⟨_, rfl, h1⟩))
  · exact absurd h1 hd

theorem pend_done (h : BHist S bound svc tr x) (hd : x.pc = .done) : x.pend = [] := by
  have h1 := (BHist.inv h).done hd
  have h2 := (BHist.inv h).ctl.curnone (by simp [hd]) (by simp [hd])
  simp [Buf.pend, hd, h2, h1.1, WPc.pend]

/-- C22: when the worker has finished after a failure, every request that was accepted, not dispatched and not cancelled resolves with that error.
(That the worker finishes, or has dealt with all there is, is `C22_drains`.) -/
theorem C22_resolved {e : Err} (h : BHist S bound svc tr x) (hf : .svcFailed e ∈ tr) (hd : x.pc = .done) {m : Msg Req}
    (hm : m ∈ accepted tr) (hn : m ∉ dispatched tr) (hc : .dropFut m.id ∉ tr) (hq : ∀ p, .poll m.id (.ready p) ∉ tr) :
    x.Resolves m.id (.ready (.error (.service e))) := by
  have hC := (BHist.inv h).ctl
  refine resolved_of_empty h (pend_done h hd) ?_ (by simp [Buf.dying, hd]) hm hn hc hq
  rcases hC.trErr e hf with h1 | ⟨m, h1⟩
  · rcases hC.err_f e h1 with h2 | ⟨m, h2⟩
    · exact h2
    · rw [hd] at h2; cases h2
  · rw [hd] at h1; cases h1

/-- a failed worker left alone deals with all it has; it does not need the service for that -/
theorem failed_drains {e : Err} (h : BufInv tr x) (hf : x.failed = some e) (hd : ¬ x.dying) :
    ∃ tr' y, WRun x tr' y ∧ y.pend = [] ∧ y.failed = some e ∧ ¬ y.dying := by
  have step1 {ev y} (hs : WStep x ev y) (hp : y.pc ≠ .parked) (hk : y.failed = some e) : ∃ ev y, WStep x ev y ∧ y.wm < x.wm ∧ y.failed = some e :=
    ⟨ev, y, hs, hs.wm h.ctl hp, hk⟩
  induction hn : x.wm using Nat.strongRecOn generalizing x tr with
  | ind n ih =>
    have hI := h.ctl
    have prog : (∃ ev y, WStep x ev y ∧ y.wm < x.wm ∧ y.failed = some e) ∨ x.pend = [] := by
      have step1 {ev y} (hs : WStep x ev y) (hp : y.pc ≠ .parked) (hk : y.failed = some e) :
          ∃ ev y, WStep x ev y ∧ y.wm < x.wm ∧ y.failed = some e := ⟨ev, y, hs, hs.wm h.ctl hp, hk⟩
      cases hp : x.pc with
      | parked => exact .inl (step1 (.start hp) (by simp) hf)
      | next =>
        cases hc : x.cur with
        | none => exact .inl (step1 (.fresh hp hc) (by simp) hf)
        | some m => exact .inl (step1 (.resume hp hc) (by simp) hf)
      | check m =>
        cases hc : x.cancelled m.id with
        | true => exact .inl (step1 (.unwanted hp hc) (by simp) hf)
        | false => exact .inl (step1 (.wanted hp hc) (by simp) hf)
      | recv =>
        cases hq : x.queue with
        | cons m q => exact .inl (step1 (.recv hp hq) (by simp) hf)
        | nil =>
          have := hI.curnone (by simp [hp]) (by simp [hp])
          exact .inr (by simp [Buf.pend, hp, this, hq, WPc.pend])
      | got m => exact .inl (step1 (.notify hp hf) (by simp) hf)
      | call m => rw [hI.call m hp] at hf; cases hf
      | reply m f => rw [hI.reply m f hp] at hf; cases hf
      | fail1 m e' => rw [(hI.fail1 m e' hp).1] at hf; cases hf
      | fail2 m e' => rw [(hI.fail2 m e' hp).1] at hf; cases hf
      | fail3 m => exact .inl (step1 (.notify_first hp hf) (by simp) hf)
      | done =>
        have h1 := h.done hp
        have h2 := hI.curnone (by simp [hp]) (by simp [hp])
        exact .inr (by simp [Buf.pend, hp, h2, h1.1, WPc.pend])
      | unwinding => exact absurd (.inl hp) hd
      | dropping => exact absurd (.inr (.inl hp)) hd
      | dead => exact absurd (.inr (.inr hp)) hd
    rcases prog with ⟨ev, y, h1, h2, h3⟩ | h1
    · obtain ⟨tr2, z, h4, h5⟩ := ih y.wm (hn ▸ h2) (h.step (.worker h1)) h3 h1.alive
        (fun hs hp hk => ⟨_, _, hs, hs.wm (h.step (.worker h1)).ctl hp, hk⟩) rfl
      exact ⟨_, z, (WRun.one h1).trans h4, h5⟩
    · exact ⟨[], x, .nil, h1, hf, hd⟩

theorem accepted_wrun {y : Buf S} {tr'} (hr : WRun x tr' y) : accepted tr' = [] := by
  cases ha : accepted tr' with
  | nil => rfl
  | cons m l =>
    obtain ⟨k, h1⟩ := mem_accepted.1 (show m ∈ accepted tr' by rw [ha]; simp)
    exact absurd h1 (hr.kept.2.2.2.2.1 _ _ _)

/-- C22: after a failure the worker needs no cooperation (neither of the service nor of any handle) to bring every accepted, undispatched,
uncancelled request to its end with that error, whatever the queue was at the moment of failure. -/
theorem C22_drains {e : Err} (h : BHist S bound svc tr x) (hf : .svcFailed e ∈ tr) (hd : ¬ x.dying) :
    ∃ tr' y, WRun x tr' y ∧ ∀ m ∈ accepted tr, m ∉ dispatched tr → .dropFut m.id ∉ tr → (∀ p, .poll m.id (.ready p) ∉ tr) →
      y.Resolves m.id (.ready (.error (.service e))) := by
  have hI := BHist.inv h
  -- first the error is exposed and the channel closed
  have start : ∃ tr' y, WRun x tr' y ∧ y.failed = some e := by
    rcases hI.ctl.trErr e hf with h1 | ⟨m, h1⟩
    · rcases hI.ctl.err_f e h1 with h2 | ⟨m, h2⟩
      · exact ⟨[], x, .nil, h2⟩
      · exact ⟨_, _, .one (.close h2), rfl⟩
    · cases he : x.err with
      | none =>
        have s1 : WStep x .tau { x with err := some e, pc := .fail2 m e } := .expose h1 he
        have s2 : WStep ({ x with err := some e, pc := .fail2 m e } : Buf S) .tau
            { ({ x with err := some e, pc := .fail2 m e } : Buf S).close with failed := some e, pc := .fail3 m } := .close rfl
        exact ⟨_, _, (WRun.one s1).snoc s2, rfl⟩
      | some e' =>
        rcases hI.ctl.err_f e' he with h2 | ⟨m', h2⟩
        · rw [(hI.ctl.fail1 _ _ h1).1] at h2; cases h2
        · rw [h1] at h2; cases h2
  obtain ⟨t1, y1, r1, f1⟩ := start
  obtain ⟨t2, y, r2, p2, f2, d2⟩ := failed_drains (hI.run r1.run) f1 (r1.kept.2.2.2.1 hd)
  have r := r1.trans r2
  refine ⟨_, y, r, fun m hm hn hc hq => ?_⟩
  have hk := r.kept
  have hh : BHist S bound svc (tr ++ (t1 ++ t2)) y := BRun.append h r.run
  refine resolved_of_empty hh p2 f2 d2 ?_ ?_ ?_ ?_
  · rw [accepted_append]; simp [hm]
  · have : dispatches (t1 ++ t2) = [] := by
      cases hd' : dispatches (t1 ++ t2) with
      | nil => rfl
      | cons a l =>
        have := mem_dispatches.1 (show (a.1, a.2) ∈ dispatches (t1 ++ t2) by rw [hd']; simp)
        exact absurd trivial ((C22_no_more h hf r.run).1 _ this)
    unfold dispatched at *
    rw [dispatches_append, this, List.append_nil]; exact hn
  · rw [List.mem_append]
    rintro (h1 | h1)
    · exact hc h1
    · exact hk.2.2.2.2.2.1 _ h1
  · intro p
    rw [List.mem_append]
    rintro (h1 | h1)
    · exact hq p h1
    · exact hk.2.2.2.2.2.2 _ _ h1

theorem ready_event {n : Nat} {p : Poll (Except (BufErr Err) Unit)} {y : Buf S} (hs : BStep x (.ready n p) y) :
    ∃ k ∈ x.hs, k.name = n ∧ p = (x.pollReady k).1 := by
  cases hs with
  | worker hs => cases hs
  | death hs => cases hs
  | future hs => cases hs
  | handle hs =>
    cases hs
    case ready k l r hl => exact ⟨k, by rw [hl]; simp, rfl, rfl⟩

theorem pollReady_closed (hc : x.closed = true) {k : BHandle} (hk : k.st ≠ .ready) : (x.pollReady k).1 = .ready (.error x.workerError) := by
  unfold Buf.pollReady
  split
  · rfl
  · rename_i h; exact absurd h hk
  · simp [Buf.reserve, hc]
  · simp [Buf.reserve, hc]

/-- C22: once the worker has dealt with the failure, every handle that has not reserved a slot before observes the error from `poll_ready`. -/
theorem C22_handles {e : Err} (h : BHist S bound svc tr x) (hf : .svcFailed e ∈ tr) (hpc : ∀ m e, x.pc ≠ .fail1 m e ∧ x.pc ≠ .fail2 m e)
    {n : Nat} (hn : readyNow n tr = false) {p} {y : Buf S} (hs : BStep x (.ready n p) y) : p = .ready (.error (.service e)) := by
  have hC := (BHist.inv h).ctl
  obtain ⟨k, hk, rfl, rfl⟩ := ready_event hs
  have he : x.err = some e := by
    rcases hC.trErr e hf with h1 | ⟨m, h1⟩
    · exact h1
    · exact absurd h1 (hpc _ _).1
  have hfl : x.failed = some e := by
    rcases hC.err_f e he with h1 | ⟨m, h1⟩
    · exact h1
    · exact absurd h1 (hpc _ _).2
  rw [pollReady_closed (hC.f_err e hfl).2 ?_]
  · simp [Buf.workerError, he]
  · intro hst
    have := ((BHist.rdy h).iff k hk).1 hst
    rw [hn] at this; cases this

/-- C22: no error is made up: what a handle or a future reports is the failure of the service, the death of the worker, or the error of the
request's own inner future. -/
theorem C22_justified (h : BHist S bound svc tr x) {e : BufErr Err} :
    (∀ n, .ready n (.ready (.error e)) ∈ tr → Justified tr e) ∧
    (∀ i, .poll i (.ready (.error e)) ∈ tr → (∃ e', e = .inner e') ∨ Justified tr e) :=
  ⟨fun n hn => (BHist.ev h).rerr n e hn, fun i hi => (BHist.ev h).perr i e hi⟩

/-- C22: the worker's `expect` never fails. -/
theorem C22_expect (h : BHist S bound svc tr x) : ¬ x.expectFails := by
  rintro ⟨m, h1, h2⟩
  exact (BHist.inv h).ctl.fail3 m h1 h2

/-! ## C23: cancellation -/

/-- what the worker has taken for dispatch -/
def Buf.taken (x : Buf S) (m : Msg Req) : Prop := x.pc = .got m ∨ x.pc = .call m

theorem taken_step {y : Buf S} {ev} {m : Msg Req} (hs : BStep x ev y) (hd : x.futs m.id = .dropped) (ht : ¬ x.taken m) : ¬ y.taken m := by
  have hcan : x.cancelled m.id = true := by simp [Buf.cancelled, hd]
  cases hs with
  | worker hs =>
    cases hs
    case wanted m' h1 h2 =>
      rintro (h3 | h3)
      · simp only [WPc.got.injEq] at h3; subst h3; rw [hcan] at h2; cases h2
      · simp at h3
    case svc_ready m' w w' s' h1 h2 h3 =>
      rintro (h4 | h4)
      · simp at h4
      · simp only [WPc.call.injEq] at h4; subst h4; exact ht (.inl h1)
    all_goals simp [Buf.taken, Buf.dropMsg, Buf.send, Buf.close]
  | death hs =>
    cases hs
    case drain h1 h2 => exact ht
    case free h1 h2 => exact ht
    all_goals simp [Buf.taken, Buf.dropMsg, Buf.dropMsgs, Buf.close]
  | handle hs => cases hs <;> exact ht
  | future hs => cases hs <;> exact ht

theorem dispatch_step {y : Buf S} {ev i r f} (hs : BStep x ev y) (he : ev = .dispatch i r f) : ∃ m, x.pc = .call m ∧ m.id = i ∧ m.req = r := by
  cases hs with
  | worker hs =>
    cases hs
    case svc_call m w w' f' s' h1 h2 =>
      simp only [BEv.dispatch.injEq] at he
      exact ⟨m, h1, he.1, he.2.1⟩
    all_goals cases he
  | death hs => cases hs <;> cases he
  | handle hs => cases hs <;> cases he
  | future hs => cases hs <;> cases he

/-- C23: if the response future of a call is dropped before the worker takes the request for dispatch (that is: checked that the future is
there, and went on to the service in the same `poll`), the request never reaches the service, whatever happens later. -/
theorem C23_cancel (h : BHist S bound svc tr x) {m : Msg Req} (hc : .dropFut m.id ∈ tr) (hn : m ∉ dispatched tr) (ht : ¬ x.taken m)
    {tr' : List (BEv S)} {y : Buf S} (hr : BRun x tr' y) : m ∉ dispatched (tr ++ tr') ∧ ¬ y.taken m := by
  induction hr with
  | nil => simpa using ⟨hn, ht⟩
  | @snoc t ev y z hr hs ih =>
    obtain ⟨h1, h2⟩ := ih
    have hd : y.futs m.id = .dropped := ((BHist.ev (BRun.append h hr)).drop _).2 (by simp [hc])
    refine ⟨?_, taken_step hs hd h2⟩
    unfold dispatched at *
    rw [← List.append_assoc, dispatches_append, List.map_append, List.mem_append]
    rintro (h3 | h3)
    · exact h1 h3
    · obtain ⟨⟨m', f⟩, h4, h5⟩ := List.mem_map.1 h3
      simp only at h5; subst h5
      have hev := mem_dispatches.1 h4
      simp only [List.mem_singleton] at hev
      subst hev
      obtain ⟨m'', h6, h7, h8⟩ := dispatch_step hs rfl
      have : m'' = m' := by cases m''; cases m'; simp_all
      subst this
      exact h2 (.inr h6)

/-- C23: in particular a request whose future is dropped while the worker is not in its `poll` (it waits for messages, or for the service with
this very request in its hands) never reaches the service. -/
theorem C23_parked (h : BHist S bound svc tr x) {m : Msg Req} (hc : .dropFut m.id ∈ tr) (hn : m ∉ dispatched tr) (hp : x.pc = .parked)
    {tr' : List (BEv S)} {y : Buf S} (hr : BRun x tr' y) : m ∉ dispatched (tr ++ tr') :=
  (C23_cancel h hc hn (by simp [Buf.taken, hp]) hr).1

/-- C23: what a cancelled request held is given back: when the worker has emptied the channel, all slots but those which handles hold or were
assigned are free, however many requests were cancelled. -/
theorem C23_slots (h : BHist S bound svc tr x) (hq : x.queue = []) : x.sem.permits + x.sem.granted.length + x.reserved = bound := by
  have := C19_conserved h
  rw [hq] at this; simpa using this

/-! ## C24: graceful end -/

theorem dying_step {y : Buf S} {ev} (hs : BStep x ev y) (h : x.dying) : y.dying := by
  cases hs with
  | worker hs => exfalso; cases hs <;> rcases h with h | h | h <;> simp_all
  | death hs =>
    cases hs
    case drained => exact .inr (.inr rfl)
    case closes => exact .inr (.inl rfl)
    case drain h1 h2 => exact .inr (.inl h1)
    case free h1 h2 => exact .inr (.inr h1)
    all_goals exact .inl rfl
  | handle hs => cases hs <;> exact h
  | future hs => cases hs <;> exact h

theorem died_dying (h : BHist S bound svc tr x) (hd : workerDied tr) : x.dying := by
  induction h with
  | nil => rcases hd with hd | hd <;> cases hd
  | @snoc t ev y z hr hs ih =>
    by_cases h1 : workerDied t
    · exact dying_step hs (ih h1)
    · have hev : ev = .svcPanics ∨ ev = .workerDropped := by
        rcases hd with hd | hd <;> rcases mem_snoc.1 hd with hd | hd
        · exact absurd (.inl hd) h1
        · exact .inl hd.symm
        · exact absurd (.inr hd) h1
        · exact .inr hd.symm
      cases hs with
      | worker hs => exfalso; cases hs <;> simp at hev
      | death hs => cases hs <;> first | exact .inl rfl | (exfalso; simp at hev)
      | handle hs => exfalso; cases hs <;> simp at hev
      | future hs => exfalso; cases hs <;> simp at hev

/-- C24: when the worker has finished, every accepted request was dispatched, cancelled, or answered with (or still can be asked for) the failure
of the service. -/
theorem C24_done (h : BHist S bound svc tr x) (hd : x.pc = .done) {m : Msg Req} (hm : m ∈ accepted tr) :
    m ∈ dispatched tr ∨ .dropFut m.id ∈ tr ∨
      ∃ e, .svcFailed e ∈ tr ∧ (.poll m.id (.ready (.error (.service e))) ∈ tr ∨ x.Resolves m.id (.ready (.error (.service e)))) := by
  by_cases h1 : m ∈ dispatched tr
  · exact .inl h1
  by_cases h2 : .dropFut m.id ∈ tr
  · exact .inr (.inl h2)
  right; right
  have hI := BHist.inv h
  have hnd : ¬ x.dying := by simp [Buf.dying, hd]
  rcases hI.msg.fate m hm h1 (by rw [pend_done h hd]; simp) with h3 | ⟨e, h4, h3⟩ | ⟨h3, _⟩
  · exact absurd (((BHist.ev h).drop _).1 h3) h2
  · have hf := hI.ctl.errTr e (hI.ctl.f_err e h4).1
    refine ⟨e, hf, ?_⟩
    by_cases hq : ∃ p, .poll m.id (.ready p) ∈ tr
    · left
      obtain ⟨p, hq⟩ := hq
      have hnopen : ∀ k r f0, .accept k m.id r ∈ tr → .dispatch m.id r f0 ∈ tr → False := by
        intro k r f0 ha hdi
        have : (⟨m.id, r⟩ : Msg Req) ∈ dispatched tr := List.mem_map.2 ⟨(⟨m.id, r⟩, f0), mem_dispatches.2 hdi, rfl⟩
        have he := hI.msg.inj (hI.msg.memD this) hm rfl
        rw [he] at this; exact h1 this
      cases p with
      | ok a =>
        obtain ⟨k, r, f0, _, _, _, _, ha, hdi, _⟩ := C21_ok h hq
        exact (hnopen k r f0 ha hdi).elim
      | error er =>
        rcases (C22_justified h).2 m.id hq with ⟨e', rfl⟩ | hj
        · obtain ⟨k, r, f0, _, _, _, _, ha, hdi, _⟩ := C21_err h hq
          exact (hnopen k r f0 ha hdi).elim
        · cases er with
          | inner e' => exact hj.elim
          | service e' => rw [C22_unique h hf hj]; exact hq
          | closed =>
            -- the worker did not die
            exfalso
            exact hnd (died_dying h hj)
    · right
      exact resolved_of_empty h (pend_done h hd) h4 hnd hm h1 h2 (fun p hp => hq ⟨p, hp⟩)
  · exact absurd h3 hnd

/-- C24: the worker finishes only if all handles are dropped or the service failed. -/
theorem C24_only (h : BHist S bound svc tr x) (hd : x.pc = .done) : x.hs = [] ∨ ∃ e, .svcFailed e ∈ tr := by
  have hI := BHist.inv h
  rcases (hI.done hd).2 with h1 | ⟨h1, _⟩
  · exact .inl h1
  · right
    rcases hI.ctl.closed h1 with h2 | h2
    · cases hf : x.failed with
      | none => exact absurd hf h2
      | some e => exact ⟨e, hI.ctl.errTr e (hI.ctl.f_err e hf).1⟩
    · rcases h2 with h2 | h2 | h2 <;> rw [hd] at h2 <;> cases h2

/-- C24: when all handles are gone and the channel is empty all slots are free: the assertion in tokio's receiver holds. -/
theorem C24_idle (h : BHist S bound svc tr x) (hh : x.hs = []) (hq : x.queue = []) : x.sem.permits = bound := by
  have hI := (BHist.inv h).sem
  have h1 := C19_conserved h
  have h2 : x.sem.granted = [] := by
    cases hg : x.sem.granted with
    | nil => rfl
    | cons a l =>
      obtain ⟨k, hk, _⟩ := hI.waiting a (by rw [hg]; simp)
      rw [hh] at hk; cases hk
  simpa [h2, hq, Buf.reserved, hh] using h1

/-- steps of the worker within one `poll` -/
inductive WPoll (x : Buf S) : Nat → Buf S → Prop
  | nil : WPoll x 0 x
  | snoc {n ev y z} : WPoll x n y → WStep y ev z → y.pc ≠ .parked → WPoll x (n + 1) z

/-- C24: each `poll` of the worker terminates: undisturbed it makes at most `7 * queue + 10` steps. -/
theorem C24_poll_terminates (h : BHist S bound svc tr x) {n : Nat} {y : Buf S} (hr : WPoll x n y) : n ≤ 7 * x.queue.length + 10 := by
  have hI := BHist.inv h
  have key : (∃ t, BufInv t y) ∧ (y.pc ≠ .parked → n + y.wm ≤ x.wm) ∧ n ≤ x.wm + 1 := by
    induction hr with
    | nil => exact ⟨⟨tr, hI⟩, fun _ => by omega, by omega⟩
    | @snoc n ev y z _ hs hp ih =>
      obtain ⟨⟨t, h1⟩, h2, h3⟩ := ih
      refine ⟨⟨_, h1.step (.worker hs)⟩, fun hz => ?_, ?_⟩
      · have := hs.wm h1.ctl hz
        have := h2 hp
        omega
      · have := h2 hp; omega
  have := x.wm_le
  omega

/-- C24: when all handles are dropped, the worker runs to its end by itself, if the service answers polls in the end and does not panic; by then
every accepted request was dispatched or cancelled, or the service has failed and the request is answered with the error. -/
theorem C24_drains (h : BHist S bound svc tr x) (hco : Cooperative S) (hh : x.hs = []) (hd : ¬ x.dying) :
    ∃ tr' y, WRun x tr' y ∧ y.pc = .done ∧ ∀ m ∈ accepted tr, m ∈ dispatched (tr ++ tr') ∨ .dropFut m.id ∈ tr ∨
      ∃ e, .svcFailed e ∈ tr ++ tr' ∧ (.poll m.id (.ready (.error (.service e))) ∈ tr ∨ y.Resolves m.id (.ready (.error (.service e)))) := by
  obtain ⟨tr', y, h1, h2⟩ := worker_drains (BHist.inv h) hco (.inl hh) hd
  have hk := h1.kept
  have hdone : y.pc = .done := by
    rcases h2 with h2 | ⟨_, _, h2⟩
    · exact h2
    · exact absurd (hk.1.trans hh) h2
  refine ⟨tr', y, h1, hdone, fun m hm => ?_⟩
  have hb : BHist S bound svc (tr ++ tr') y := BRun.append h h1.run
  rcases C24_done hb hdone (m := m) (by rw [accepted_append]; simp [hm]) with h3 | h3 | ⟨e, h3, h4⟩
  · exact .inl h3
  · rw [List.mem_append] at h3
    rcases h3 with h3 | h3
    · exact .inr (.inl h3)
    · exact absurd h3 (hk.2.2.2.2.2.1 _)
  · refine .inr (.inr ⟨e, h3, ?_⟩)
    rcases h4 with h4 | h4
    · rw [List.mem_append] at h4
      rcases h4 with h4 | h4
      · exact .inl h4
      · exact absurd h4 (hk.2.2.2.2.2.2 _ _)
    · exact .inr h4

/-- C24: without failures everything that is not cancelled is dispatched. -/
theorem C24_all_dispatched (h : BHist S bound svc tr x) (hd : x.pc = .done) (hf : ∀ e, .svcFailed e ∉ tr) {m : Msg Req} (hm : m ∈ accepted tr)
    (hc : .dropFut m.id ∉ tr) : m ∈ dispatched tr := by
  rcases C24_done h hd hm with h1 | h1 | ⟨e, h1, _⟩
  · exact h1
  · exact absurd h1 hc
  · exact absurd h1 (hf e)

/-! ## C25: a dead worker -/

/-- requests in the channel of a dead worker are newer than its death -/
theorem dead_queue {n : Nat} {t : List (BEv S)} {y : Buf S} (hx : x.pc ≠ .dead) (hn : x.calls = n) (hr : BRun x t y) :
    n ≤ y.calls ∧ (y.pc = .dead → ∀ m ∈ y.queue, n ≤ m.id) := by
  induction hr with
  | nil => exact ⟨by omega, fun h => absurd h hx⟩
  | snoc _ hs ih =>
    obtain ⟨h1, h2⟩ := ih
    cases hs with
    | worker hs => cases hs <;> exact ⟨h1, by simp_all⟩
    | death hs =>
      cases hs
      case drain m q h3 h4 => exact ⟨h1, by intro h5; simp [Buf.dropMsg, h3] at h5⟩
      case drained h3 h4 => exact ⟨h1, by intro _ m hm; rw [h4] at hm; cases hm⟩
      case free => exact ⟨h1, by simp⟩
      all_goals exact ⟨h1, by simp [Buf.close, Buf.dropMsg, Buf.dropMsgs]⟩
    | handle hs =>
      cases hs
      case call k l r q hl hc =>
        refine ⟨by simp only; omega, ?_⟩
        intro hd m hm
        simp only [List.mem_append, List.mem_singleton] at hm
        rcases hm with hm | rfl
        · exact h2 hd m hm
        · exact h1
      case call_closed => exact ⟨by simp only; omega, h2⟩
      all_goals exact ⟨h1, h2⟩
    | future hs => cases hs <;> exact ⟨h1, h2⟩

/-- C25: if the worker disappears (dropped by its executor, or the service panicked in it), every request that was accepted before it was gone
and was not dispatched, cancelled or answered, resolves: with `Closed`, or with the failure of the service if there was one. -/
theorem C25_resolved {tr' : List (BEv S)} {y : Buf S} (h : BHist S bound svc tr x) (hx : x.pc ≠ .dead) (hr : BRun x tr' y) (hy : y.pc = .dead)
    {m : Msg Req} (hm : m ∈ accepted tr) (hn : m ∉ dispatched (tr ++ tr')) (hc : .dropFut m.id ∉ tr ++ tr')
    (hq : ∀ p, .poll m.id (.ready p) ∉ tr ++ tr') :
    y.Resolves m.id (.ready (.error .closed)) ∨ ∃ e, .svcFailed e ∈ tr ++ tr' ∧ y.Resolves m.id (.ready (.error (.service e))) := by
  have hb : BHist S bound svc (tr ++ tr') y := BRun.append h hr
  have hI := BHist.inv hb
  have hA : m ∈ accepted (tr ++ tr') := by rw [accepted_append]; simp [hm]
  have hrx := BHist.waited hb hA hn hc hq
  have hlt := (BHist.inv h).msg.lt m hm
  have hdq := (dead_queue hx rfl hr).2 hy
  have hcur := hI.ctl.curnone (by simp [hy]) (by simp [hy])
  have hP : m ∉ y.pend := by
    simp only [Buf.pend, hy, hcur, WPc.pend, Option.toList_none, List.nil_append]
    intro h1
    have := hdq m h1
    omega
  rcases hI.msg.fate m hA hn hP with h1 | ⟨e, h2, h1⟩ | ⟨_, h1⟩
  · rw [hrx] at h1; cases h1
  · exact .inr ⟨e, hI.ctl.errTr e (hI.ctl.f_err e h2).1, resolves_of_rx hrx (.inr (.inl ⟨_, rfl, h1⟩))⟩
  · exact .inl (resolves_of_rx hrx (.inl ⟨rfl, h1⟩))

/-- C25: from the moment the worker's end of the channel is gone, `poll_ready` fails for every handle that has not reserved a slot before. -/
theorem C25_handles (h : BHist S bound svc tr x) (hx : x.dying) (hu : x.pc ≠ .unwinding) {n : Nat} (hn : readyNow n tr = false) {p} {y : Buf S}
    (hs : BStep x (.ready n p) y) : p = .ready (.error .closed) ∨ ∃ e, .svcFailed e ∈ tr ∧ p = .ready (.error (.service e)) := by
  have hC := (BHist.inv h).ctl
  obtain ⟨k, hk, rfl, rfl⟩ := ready_event hs
  rw [pollReady_closed ((hC.dying hx).1.resolve_right hu) ?_]
  · unfold Buf.workerError
    cases he : x.err with
    | none => exact .inl rfl
    | some e => exact .inr ⟨e, hC.errTr e he, rfl⟩
  · intro hst
    have := ((BHist.rdy h).iff k hk).1 hst
    rw [hn] at this; cases this

/-- C25: a worker that is being dropped finishes that by itself. -/
theorem C25_dies (h : BHist S bound svc tr x) (hx : x.dying) : ∃ tr' y, BRun x tr' y ∧ y.pc = .dead ∧ ∀ ev ∈ tr', ev = .tau := by
  have key : ∀ (n : Nat) (x : Buf S), x.queue.length = n → x.pc = .dropping → ∃ tr' y, BRun x tr' y ∧ y.pc = .dead ∧ ∀ ev ∈ tr', ev = .tau := by
    intro n
    induction n with
    | zero =>
      intro x hn hp
      exact ⟨_, _, BRun.one (.death (.drained hp (List.eq_nil_of_length_eq_zero hn))), rfl, by simp⟩
    | succ n ih =>
      intro x hn hp
      cases hq : x.queue with
      | nil => rw [hq] at hn; cases hn
      | cons m q =>
        have s : BStep x .tau { x.dropMsg m.id with queue := q, sem := x.sem.release } := .death (.drain hp hq)
        obtain ⟨t, y, h1, h2, h3⟩ := ih { x.dropMsg m.id with queue := q, sem := x.sem.release } (by rw [hq] at hn; simpa using hn) hp
        exact ⟨_, y, (BRun.one s).append h1, h2, by simpa using h3⟩
  rcases hx with hx | hx | hx
  · obtain ⟨t, y, h1, h2, h3⟩ := key _ { x.close with pc := .dropping } rfl rfl
    exact ⟨_, y, (BRun.one (.death (.closes hx))).append h1, h2, by simpa using h3⟩
  · exact key _ x rfl hx
  · exact ⟨[], x, .nil, hx, by simp⟩

/-- C25 does not hold for requests sent later, through a slot that was reserved before the worker died: as long as any handle exists, every poll
of such a request's future gives `Pending`, whatever happens. -/
theorem C25_hang_violates (h : BHist S bound svc tr x) (hx : x.pc = .dead) {m : Msg Req} (hm : m ∈ x.queue)
    {tr' : List (BEv S)} {y : Buf S} (hr : BRun x tr' y) (hy : y.hs ≠ []) :
    (∀ p, .poll m.id p ∈ tr' → p = .pending) ∧ (.dropFut m.id ∉ tr ++ tr' → y.Resolves m.id .pending) := by
  have main : y.pc = .dead ∧ m ∈ y.queue ∧ ∀ p, .poll m.id p ∈ tr' → p = .pending := by
    induction hr with
    | nil => exact ⟨hx, hm, by simp⟩
    | @snoc t ev y z hr hs ih =>
      have hyne : y.hs ≠ [] := by
        intro h0
        have : z.hs = [] := by
          cases hs with
          | worker hs => rw [hs.kept.1, h0]
          | death hs => cases hs <;> exact h0
          | future hs => cases hs <;> exact h0
          | handle hs =>
            cases hs
            case ready hl => rw [h0] at hl; simp at hl
            case call hl _ => rw [h0] at hl; simp at hl
            case call_closed hl _ => rw [h0] at hl; simp at hl
            case call_panics hk _ => rw [h0] at hk; cases hk
            case clone hk => rw [h0] at hk; cases hk
            case drop hl => rw [h0] at hl; simp at hl
        exact hy this
      obtain ⟨h1, h2, h3⟩ := ih hyne
      have hb := (BHist.inv h).run hr
      have hw := hb.msg.pW m (by simp [Buf.pend, h2])
      refine ⟨?_, ?_, ?_⟩
      · cases hs with
        | worker hs => cases hs <;> simp_all
        | death hs => cases hs <;> simp_all [Buf.dropMsg]
        | future hs => cases hs <;> exact h1
        | handle hs => cases hs <;> exact h1
      · cases hs with
        | worker hs => cases hs <;> simp_all
        | death hs => cases hs <;> simp_all
        | future hs => cases hs <;> exact h2
        | handle hs =>
          cases hs
          case call => simp [h2]
          all_goals exact h2
      · intro p hp
        rcases mem_snoc.1 hp with hp | hp
        · exact h3 p hp
        · subst hp
          cases hs with
          | worker hs => cases hs
          | death hs => cases hs
          | handle hs => cases hs
          | future hs =>
            cases hs
            case waiting => rfl
            case inner_pending => rfl
            all_goals simp_all
  obtain ⟨h1, h2, h3⟩ := main
  refine ⟨h3, fun hc => ?_⟩
  have hb := BRun.append h hr
  have hw := (BHist.inv hb).msg.pW m (by simp [Buf.pend, h2])
  refine resolves_of_rx ?_ (.inr (.inr ⟨rfl, hw.1⟩))
  rcases hw.2 with h4 | h4
  · exact h4
  · exact absurd (((BHist.ev hb).drop _).1 h4) hc

/-! ## C01, C02 for buffers -/

/-- C01: a handle whose latest `poll_ready` returned `Ready(Ok(()))`, and which was not called since, does not panic in `call` and does not
refuse the request, whatever the other handles, the worker and the service did in between. -/
theorem C01_buffer (h : BHist S bound svc tr x) {n : Nat} (hn : readyNow n tr = true) {y : Buf S} :
    ¬ BStep x (.callPanics n) y ∧ ∀ i q, ¬ BStep x (.refuse n i q) y := by
  have hR := BHist.rdy h
  constructor
  · intro hs
    cases hs with
    | worker hs => cases hs
    | death hs => cases hs
    | future hs => cases hs
    | handle hs =>
      cases hs
      case call_panics k hk hc =>
        have := (hR.iff k hk).2 hn
        simp [Buf.callOutcome, this] at hc
  · intro i q hs
    cases hs with
    | worker hs => cases hs
    | death hs => cases hs
    | future hs => cases hs
    | handle hs =>
      cases hs
      case call_closed k l r hl hc =>
        have := (hR.iff k (by rw [hl]; simp)).2 hn
        simp [Buf.callOutcome, this] at hc

/-- C01, the other side: a buffer is strict, `call` without a preceding `Ready(Ok(()))` panics or (after the channel closed) is refused. -/
theorem C01_buffer_strict (h : BHist S bound svc tr x) {n i : Nat} {q : Req} {y : Buf S} (hs : BStep x (.accept n i q) y) : readyNow n tr = true := by
  have hR := BHist.rdy h
  cases hs with
  | worker hs => cases hs
  | death hs => cases hs
  | future hs => cases hs
  | handle hs =>
    cases hs
    case call k l r hl hc =>
      refine (hR.iff k (by rw [hl]; simp)).1 ?_
      unfold Buf.callOutcome at hc
      cases hst : k.st <;> simp [hst] at hc
      rfl

/-- C02: readiness of a handle lasts until it is called: a further `poll_ready` gives `Ready(Ok(()))` again. -/
theorem C02_buffer (h : BHist S bound svc tr x) {n : Nat} (hn : readyNow n tr = true) {p} {y : Buf S} (hs : BStep x (.ready n p) y) :
    p = .ready (.ok ()) := by
  obtain ⟨k, hk, rfl, rfl⟩ := ready_event hs
  have := ((BHist.rdy h).iff k hk).2 hn
  simp [Buf.pollReady, this]

/-! ## Concrete histories that meet the hypotheses -/

namespace DemoBuf

/-- the world decides what `poll_ready` returns: 0 `Pending`, 1 ready, 2 fails, else panics; requests are answered with their double -/
@[reducible] def dsvc : Service Nat Nat Nat String where
  σ := Unit
  φ := Nat
  pollReady _ := ⟨fun w => match w with
    | 0 => .ok (.pending, ()) 0
    | 1 => .ok (.ready (.ok ()), ()) 1
    | 2 => .ok (.ready (.error "boom"), ()) 2
    | _ => .panic "no"⟩
  call _ r := ⟨fun w => .ok (r, ()) w⟩
  poll f := ⟨fun w => .ok (.ready (.ok (2 * f)), f) w⟩
  clone s := s

/-- two handles of a buffer with one slot: the first call is answered, then the service fails with the second in the queue, and the worker ends -/
theorem failure : ∃ (tr : List (BEv dsvc)) (x : Buf dsvc) (m : Msg Nat), BHist dsvc 1 () tr x ∧ .svcFailed "boom" ∈ tr ∧ x.pc = .done ∧
    m ∈ accepted tr ∧ m ∉ dispatched tr ∧ .dropFut m.id ∉ tr ∧ (∀ p, .poll m.id (.ready p) ∉ tr) ∧ .poll 0 (.ready (.ok 14)) ∈ tr ∧
    readyNow 0 tr = false ∧ x.hs.length = 2 := by
  have r := BRun.one (x := Buf.init dsvc 1 ()) (.handle (.ready (l := []) rfl))
  have r := r.snoc (.handle (.call (l := []) (q := 7) rfl rfl))
  have r := r.snoc (.handle (.clone (List.mem_cons_self ..)))
  have r := r.snoc (.handle (.ready (l := [⟨0, .idle⟩]) rfl))     -- `Pending`: the slot is taken
  have r := r.snoc (.worker (.start rfl))
  have r := r.snoc (.worker (.fresh rfl rfl))
  have r := r.snoc (.worker (.recv rfl rfl))
  have r := r.snoc (.worker (.wanted rfl rfl))
  have r := r.snoc (.worker (.svc_ready (w := 1) rfl rfl rfl))
  have r := r.snoc (.worker (.svc_call (w := 1) rfl rfl))
  have r := r.snoc (.worker (.reply rfl))
  have r := r.snoc (.future (.arrived (i := 0) rfl rfl))
  have r := r.snoc (.future (.inner_ok (i := 0) (w := 1) rfl rfl))
  have r := r.snoc (.handle (.ready (l := [⟨0, .idle⟩]) rfl))
  have r := r.snoc (.handle (.call (l := [⟨0, .idle⟩]) (q := 8) rfl rfl))
  have r := r.snoc (.worker (.fresh rfl rfl))
  have r := r.snoc (.worker (.recv rfl rfl))
  have r := r.snoc (.worker (.wanted rfl rfl))
  have r := r.snoc (.worker (.svc_failed (w := 2) rfl rfl rfl))
  have r := r.snoc (.worker (.expose rfl rfl))
  have r := r.snoc (.worker (.close rfl))
  have r := r.snoc (.worker (.notify_first rfl rfl))
  have r := r.snoc (.worker (.fresh rfl rfl))
  have r := r.snoc (.worker (.finish rfl rfl (.inr ⟨rfl, rfl⟩)))
  refine ⟨_, _, ⟨1, 8⟩, r, ?_, rfl, ?_, ?_, ?_, ?_, ?_, ?_, rfl⟩
  · simp
  · simp only [accepted, List.nil_append, List.cons_append, List.mem_cons]; exact .inr (.inl rfl)
  · simp [dispatched, dispatches]
  · simp
  · simp
  · simp
  · rfl

/-- a request is cancelled while the worker waits for the service with it; the next one overtakes it -/
theorem cancellation : ∃ (tr tr' : List (BEv dsvc)) (x y : Buf dsvc) (m m' : Msg Nat), BHist dsvc 2 () tr x ∧ BRun x tr' y ∧ x.pc = .parked ∧
    .dropFut m.id ∈ tr ∧ m ∈ accepted tr ∧ m ∉ dispatched tr ∧ m.id < m'.id ∧ m' ∈ dispatched (tr ++ tr') := by
  have r := BRun.one (x := Buf.init dsvc 2 ()) (.handle (.ready (l := []) rfl))
  have r := r.snoc (.handle (.call (l := []) (q := 7) rfl rfl))
  have r := r.snoc (.handle (.ready (l := []) rfl))
  have r := r.snoc (.handle (.call (l := []) (q := 8) rfl rfl))
  have r := r.snoc (.worker (.start rfl))
  have r := r.snoc (.worker (.fresh rfl rfl))
  have r := r.snoc (.worker (.recv rfl rfl))
  have r := r.snoc (.worker (.wanted rfl rfl))
  have r := r.snoc (.worker (.svc_pending (w := 0) rfl rfl rfl))
  have r := r.snoc (.future (.drop (i := 0) (fun h => absurd (show (BFut.rx : BFut Nat String) = .none from h) (by simp))
    (fun h => absurd (show (BFut.rx : BFut Nat String) = .dropped from h) (by simp))))
  refine ⟨_, _, _, _, ⟨0, 7⟩, ⟨1, 8⟩, r, ((((((((BRun.nil.snoc (.worker (.start rfl))).snoc (.worker (.resume rfl rfl))).snoc
    (.worker (.unwanted rfl rfl))).snoc (.worker (.recv rfl rfl))).snoc (.worker (.wanted rfl rfl))).snoc
    (.worker (.svc_ready (w := 1) rfl rfl rfl))).snoc (.worker (.svc_call (w := 1) rfl rfl)))), rfl, ?_, ?_, ?_, ?_, ?_⟩
  · simp
  · simp [accepted, Buf.init]
  · simp [dispatched, dispatches]
  · simp
  · simp [dispatched, dispatches, Buf.init]

/-- C25, the finding: a slot is reserved, the executor drops the worker, the request is sent: it hangs -/
theorem hang : ∃ (tr : List (BEv dsvc)) (x : Buf dsvc) (m : Msg Nat), BHist dsvc 1 () tr x ∧ x.pc = .dead ∧ m ∈ x.queue ∧ .dropFut m.id ∉ tr ∧ x.hs ≠ [] := by
  have r := BRun.one (x := Buf.init dsvc 1 ()) (.handle (.ready (l := []) rfl))
  have r := r.snoc (.death (.dropped rfl))
  have r := r.snoc (.death (.closes rfl))
  have r := r.snoc (.death (.drained rfl rfl))
  have r := r.snoc (.handle (.call (l := []) (q := 7) rfl rfl))
  refine ⟨_, _, ⟨0, 7⟩, r, rfl, ?_, ?_, ?_⟩
  · exact List.mem_singleton.2 rfl
  · simp
  · simp [Buf.init]

/-- the service panics with a request in the queue; then both requests see `Closed` -/
theorem death : ∃ (tr tr' : List (BEv dsvc)) (x y : Buf dsvc) (m : Msg Nat), BHist dsvc 2 () tr x ∧ x.pc ≠ .dead ∧ BRun x tr' y ∧ y.pc = .dead ∧
    m ∈ accepted tr ∧ m ∉ dispatched (tr ++ tr') ∧ .dropFut m.id ∉ tr ++ tr' ∧ ∀ p, .poll m.id (.ready p) ∉ tr ++ tr' := by
  have r := BRun.one (x := Buf.init dsvc 2 ()) (.handle (.ready (l := []) rfl))
  have r := r.snoc (.handle (.call (l := []) (q := 7) rfl rfl))
  have r := r.snoc (.handle (.ready (l := []) rfl))
  have r := r.snoc (.handle (.call (l := []) (q := 8) rfl rfl))
  have r := r.snoc (.worker (.start rfl))
  have r := r.snoc (.worker (.fresh rfl rfl))
  have r := r.snoc (.worker (.recv rfl rfl))
  have r := r.snoc (.worker (.wanted rfl rfl))
  refine ⟨_, _, _, _, ⟨1, 8⟩, r, ?_, ((((BRun.nil.snoc (.death (.ready_panics (w := 3) rfl rfl rfl))).snoc (.death (.closes rfl))).snoc
    (.death (.drain rfl rfl))).snoc (.death (.drained rfl rfl))), rfl, ?_, ?_, ?_, ?_⟩
  · simp
  · simp [accepted, Buf.init]
  · simp [dispatched, dispatches]
  · simp
  · simp

/-- a request is queued and the last handle dropped: `C24_drains` applies -/
theorem graceful : ∃ (tr : List (BEv dsvc)) (x : Buf dsvc) (m : Msg Nat), BHist dsvc 2 () tr x ∧ x.hs = [] ∧ ¬ x.dying ∧ m ∈ accepted tr ∧
    m ∉ dispatched tr := by
  have r := BRun.one (x := Buf.init dsvc 2 ()) (.handle (.ready (l := []) rfl))
  have r := r.snoc (.handle (.call (l := []) (q := 7) rfl rfl))
  have r := r.snoc (.handle (.drop (l := []) rfl))
  refine ⟨_, _, ⟨0, 7⟩, r, rfl, ?_, ?_, ?_⟩
  · simp [Buf.dying, Buf.init]
  · simp [accepted, Buf.init]
  · simp [dispatched, dispatches]

theorem cooperative : Cooperative dsvc where
  ready _ := .later (w := 0) rfl (.now (w := 1) rfl)
  call _ r := ⟨r, (), 1, 1, rfl⟩

end DemoBuf

/-- C25, the finding: a reachable history in which a request is accepted and its response future can never resolve while a handle exists. -/
theorem C25_hang_reachable : ∃ (tr : List (BEv DemoBuf.dsvc)) (x : Buf DemoBuf.dsvc) (m : Msg Nat), BHist DemoBuf.dsvc 1 () tr x ∧
    m ∈ accepted tr ∧ ∀ tr' y, BRun x tr' y → y.hs ≠ [] → ∀ p, .poll m.id p ∈ tr' → p = .pending := by
  obtain ⟨tr, x, m, h1, h2, h3, h4, h5⟩ := DemoBuf.hang
  exact ⟨tr, x, m, h1, (BHist.inv h1).msg.memP (by simp [Buf.pend, h3]), fun tr' y hr hy => (C25_hang_violates h1 h2 h3 hr hy).1⟩

end Tower
