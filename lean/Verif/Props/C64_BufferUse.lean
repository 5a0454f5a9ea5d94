import Verif.Spec.UseSpec
import Verif.Props.C07_RateLimit
import Verif.Props.C19_Buffer
import Verif.Proof.Safety2

/-! # C64: a buffer is one lawful user of the service it wraps -/

set_option linter.unusedSimpArgs false

namespace Tower
open Act
variable {W Req Res Err : Type} {S : Service W Req Res Err} {bound : Nat} {svc : S.σ} {tr : List (BEv S)} {x : Buf S}

/-! ## Proofs -/

theorem dispatched_snoc (tr : List (BEv S)) (ev : BEv S) :
    (dispatched (tr ++ [ev])).map (·.req) = (dispatched tr).map (·.req) ++ (match ev with | .dispatch _ r _ => [r] | _ => []) := by
  have key : ∀ t : List (BEv S), dispatches (t ++ [ev]) = dispatches t ++ dispatches [ev] := by
    intro t
    induction t with
    | nil => rfl
    | cons e t ih => cases e <;> simp [dispatches, ih]
  unfold dispatched
  rw [key]
  cases ev <;> simp [dispatches]

/-- the worker's relation to the service -/
structure UseInv (svc : S.σ) (tr : List (BEv S)) (x : Buf S) (m : Mode) : Prop where
  uses : Uses S svc x.svc m ((dispatched tr).map (·.req))
  call : ∀ msg, x.pc = .call msg → m = .ready
  failed : m = .failed → ∃ e, .svcFailed e ∈ tr

/-- after a failure of the service, the worker does not get to use it -/
theorem CtlInv.not_failed (h : CtlInv tr x) (hpc : (∃ m, x.pc = .got m) ∧ x.failed = none ∨ ∃ m, x.pc = .call m) (e : Err) : .svcFailed e ∉ tr := by
  intro he
  have hpc' : ∀ m e, x.pc ≠ .fail1 m e ∧ x.pc ≠ .fail2 m e := by
    intro m e
    rcases hpc with ⟨⟨m', h1⟩, -⟩ | ⟨m', h1⟩ <;> rw [h1] <;> simp
  have hf : x.failed = none := by
    rcases hpc with ⟨-, h1⟩ | ⟨m', h1⟩
    · exact h1
    · exact h.call _ h1
  rcases h.trErr e he with h1 | ⟨m, h1⟩
  · rcases h.err_f e h1 with h2 | ⟨m, h2⟩
    · rw [hf] at h2; cases h2
    · exact (hpc' m e).2 h2
  · exact (hpc' m e).1 h1

theorem UseInv.same {y : Buf S} {ev : BEv S} {m : Mode} (h : UseInv svc tr x m) (h1 : y.svc = x.svc) (h2 : ∀ msg, y.pc = .call msg → x.pc = .call msg)
    (h3 : ∀ i r f, ev ≠ .dispatch i r f) : UseInv svc (tr ++ [ev]) y m := by
  refine ⟨?_, fun msg hm => h.call msg (h2 msg hm), fun hm => ?_⟩
  · rw [dispatched_snoc, h1]
    cases ev
    case dispatch i r f => exact absurd rfl (h3 i r f)
    all_goals simpa using h.uses
  · obtain ⟨e, he⟩ := h.failed hm
    exact ⟨e, by simp [he]⟩

theorem UseInv.step {y : Buf S} {ev : BEv S} {m : Mode} (hC : CtlInv tr x) (h : UseInv svc tr x m) (hs : BStep x ev y) :
    ∃ m', UseInv svc (tr ++ [ev]) y m' := by
  cases hs with
  | handle hs => cases hs <;> exact ⟨m, h.same rfl (fun _ h => h) (by simp)⟩
  | future hs => cases hs <;> exact ⟨m, h.same rfl (fun _ h => h) (by simp)⟩
  | death hs => cases hs <;> exact ⟨m, h.same rfl (fun msg h => by simp_all [Buf.close, Buf.dropMsgs, Buf.dropMsg]) (by simp)⟩
  | worker hs =>
    cases hs
    case svc_ready msg w w' s' h1 h2 h3 =>
      have hnf : m ≠ .failed := fun hm => by
        obtain ⟨e, he⟩ := h.failed hm
        exact hC.not_failed (.inl ⟨⟨_, h1⟩, h2⟩) e he
      refine ⟨.ready, ?_, fun _ _ => rfl, fun h => by cases h⟩
      rw [dispatched_snoc]
      simpa [modeAfter] using Uses.ready h.uses hnf h3
    case svc_pending msg w w' s' h1 h2 h3 =>
      have hnf : m ≠ .failed := fun hm => by
        obtain ⟨e, he⟩ := h.failed hm
        exact hC.not_failed (.inl ⟨⟨_, h1⟩, h2⟩) e he
      refine ⟨.idle, ?_, (by simp), fun h => by cases h⟩
      rw [dispatched_snoc]
      simpa [modeAfter] using Uses.ready h.uses hnf h3
    case svc_failed msg e w w' s' h1 h2 h3 =>
      have hnf : m ≠ .failed := fun hm => by
        obtain ⟨e, he⟩ := h.failed hm
        exact hC.not_failed (.inl ⟨⟨_, h1⟩, h2⟩) e he
      refine ⟨.failed, ?_, (by simp), fun _ => ⟨e, by simp⟩⟩
      rw [dispatched_snoc]
      simpa [modeAfter] using Uses.ready h.uses hnf h3
    case svc_call msg w w' f s' h1 h2 =>
      have hm := h.call _ h1
      subst hm
      refine ⟨.idle, ?_, (by simp), fun h => by cases h⟩
      rw [dispatched_snoc]
      exact Uses.call h.uses h2
    all_goals exact ⟨m, h.same rfl (by simp) (by simp)⟩

theorem BHist.useInv (h : BHist S bound svc tr x) : ∃ m, UseInv svc tr x m := by
  unfold BHist at h
  induction h with
  | nil => exact ⟨.idle, .new, (by simp [Buf.init]), fun h => by cases h⟩
  | @snoc t ev y z hr hs ih =>
    obtain ⟨m, hm⟩ := ih
    exact hm.step (BHist.inv hr).ctl hs

/-! ## Theorems -/

/-- **C64.** Whatever any number of clones, response futures and the executor do, the wrapped service is used by one lawful user: it is polled
ready before each call and left alone after a failure; and the requests that user passes to it are those dispatched. -/
theorem C64_single_user (h : BHist S bound svc tr x) : ∃ m, Uses S svc x.svc m ((dispatched tr).map (·.req)) := by
  obtain ⟨m, hm⟩ := h.useInv
  exact ⟨m, hm.uses⟩

/-- a lawful use keeps the invariant of a service that keeps its contract -/
theorem Uses.inv {cfg : Cfg} {good : Res → Prop} (I : SafeInv cfg good S) (h0 : I.H svc .idle) {s : S.σ} {m : Mode} {reqs : List Req}
    (h : Uses S svc s m reqs) : m ≠ .failed → I.H s m := by
  induction h with
  | new => exact fun _ => h0
  | @ready s m reqs w w' p s' _ hm hr ih =>
    intro hm'
    have h1 := Act.wp_ok (I.ready_ok s m w (ih hm) hm) hr
    match p, h1 with
    | .pending, h1 => exact h1.1
    | .ready (.ok ()), h1 => exact h1
    | .ready (.error e), _ => exact absurd rfl hm'
  | @call s reqs r w w' f s' _ hr ih =>
    intro _
    exact (Act.wp_ok (I.call_ok s r w (ih (by simp))) hr).2

/-- all futures of the wrapped service keep the invariant -/
structure UseFutInv {cfg : Cfg} {good : Res → Prop} (I : SafeInv cfg good S) (x : Buf S) : Prop where
  shot : ∀ i f, x.shots i = .sent (.ok f) → I.F f
  fut : ∀ i f, x.futs i = .inner f → I.F f
  reply : ∀ m f, x.pc = .reply m f → I.F f

theorem UseFutInv.step {cfg : Cfg} {good : Res → Prop} {I : SafeInv cfg good S} (h0 : I.H svc .idle) {y : Buf S} {ev : BEv S} {m : Mode}
    (hU : UseInv svc tr x m) (h : UseFutInv I x) (hs : BStep x ev y) : UseFutInv I y := by
  have hupd : ∀ {z : Nat → Shot S.φ Err} {j : Nat} {v : Shot S.φ Err}, (∀ i f, z i = .sent (.ok f) → I.F f) → (∀ f, v = .sent (.ok f) → I.F f) →
      ∀ i f, Function.update z j v i = .sent (.ok f) → I.F f := by
    intro z j v h1 h2 i f hi
    by_cases hij : i = j
    · subst hij; rw [Function.update_self] at hi; exact h2 f hi
    · rw [Function.update_of_ne hij] at hi; exact h1 i f hi
  have hupf : ∀ {z : Nat → BFut S.φ Err} {j : Nat} {v : BFut S.φ Err}, (∀ i f, z i = .inner f → I.F f) → (∀ f, v = .inner f → I.F f) →
      ∀ i f, Function.update z j v i = .inner f → I.F f := by
    intro z j v h1 h2 i f hi
    by_cases hij : i = j
    · subst hij; rw [Function.update_self] at hi; exact h2 f hi
    · rw [Function.update_of_ne hij] at hi; exact h1 i f hi
  have hsend : ∀ {i : Nat} {v : Except Err S.φ}, (∀ f, v = .ok f → I.F f) →
      ∀ j f, (x.send i v).shots j = .sent (.ok f) → I.F f := by
    intro i v hv
    refine hupd h.shot ?_
    intro f hf
    split at hf
    · cases hf
    · cases hf; exact hv f rfl
  cases hs with
  | handle hs =>
    cases hs
    case call h1 h2 => exact ⟨hupd h.shot (by simp), hupf h.fut (by simp), h.reply⟩
    case call_closed h1 h2 => exact ⟨h.shot, hupf h.fut (by simp), h.reply⟩
    all_goals exact ⟨h.shot, h.fut, h.reply⟩
  | future hs =>
    cases hs
    case waiting => exact h
    case arrived i f h1 h2 => exact ⟨h.shot, hupf h.fut (by intro f' hf; cases hf; exact h.shot _ _ h2), h.reply⟩
    case inner_pending i f f' w w' h1 h2 =>
      refine ⟨h.shot, hupf h.fut ?_, h.reply⟩
      intro g hg
      cases hg
      have h3 := Act.wp_ok (I.poll_ok f w (h.fut _ _ h1)) h2
      exact h3
    all_goals exact ⟨h.shot, hupf h.fut (by simp), h.reply⟩
  | death hs =>
    have hdrop : ∀ (ms : List (Msg Req)) i f, (x.dropMsgs ms).shots i = .sent (.ok f) → I.F f := by
      intro ms i f hi
      simp only [Buf.dropMsgs] at hi
      split at hi
      · cases hi
      · exact h.shot _ _ hi
    have hdrop1 : ∀ j i f, (x.dropMsg j).shots i = .sent (.ok f) → I.F f := fun j => hupd h.shot (by simp)
    cases hs
    case ready_panics => exact ⟨hdrop1 _, h.fut, by simp⟩
    case call_panics => exact ⟨hdrop1 _, h.fut, by simp⟩
    case dropped => exact ⟨hdrop _, h.fut, by simp⟩
    case dropped_done => exact ⟨h.shot, h.fut, by simp⟩
    case drain => exact ⟨hdrop1 _, h.fut, h.reply⟩
    case closes => exact ⟨h.shot, h.fut, by simp⟩
    case drained => exact ⟨h.shot, h.fut, by simp⟩
    case free => exact ⟨hdrop _, h.fut, h.reply⟩
  | worker hs =>
    cases hs
    case svc_call msg w w' f s' h1 h2 =>
      have hm := hU.call _ h1
      subst hm
      have hf := (Act.wp_ok (I.call_ok _ _ w (hU.uses.inv I h0 (by simp))) h2).1
      exact ⟨h.shot, h.fut, by intro m g hg; cases hg; exact hf⟩
    case reply msg f h1 => exact ⟨hsend (by intro g hg; cases hg; exact h.reply _ _ h1), h.fut, by simp⟩
    case notify => exact ⟨hsend (by simp), h.fut, by simp⟩
    case notify_first => exact ⟨hsend (by simp), h.fut, by simp⟩
    case unwanted => exact ⟨hupd h.shot (by simp), h.fut, by simp⟩
    all_goals exact ⟨h.shot, h.fut, by simp⟩

theorem BHist.futInv {cfg : Cfg} {good : Res → Prop} {I : SafeInv cfg good S} (h0 : I.H svc .idle) (h : BHist S bound svc tr x) : UseFutInv I x := by
  unfold BHist at h
  induction h with
  | nil => exact ⟨by simp [Buf.init], by simp [Buf.init], by simp [Buf.init]⟩
  | @snoc t ev y z hr hs ih =>
    obtain ⟨m, hm⟩ := BHist.useInv hr
    exact ih.step h0 hm hs

/-- **C64, the contract.** If the wrapped service keeps the service contract then, under the buffer, it does not panic, and neither does any of its
futures that a response future holds, however and whenever it is polled. -/
theorem C64_contract (hS : Safe ⟨false, false⟩ S svc) (h : BHist S bound svc tr x) :
    .svcPanics ∉ tr ∧ ∀ i f, x.futs i = .inner f → ∀ w msg, (S.poll f).run w ≠ .panic msg := by
  obtain ⟨I, h0⟩ := SafeG.inv hS
  refine ⟨?_, fun i f hf w msg hp => ?_⟩
  · unfold BHist at h
    induction h with
    | nil => simp
    | @snoc t ev y z hr hs ih =>
      simp only [List.mem_append, List.mem_singleton, not_or]
      refine ⟨ih, fun he => ?_⟩
      subst he
      obtain ⟨m, hm⟩ := BHist.useInv hr
      cases hs with
      | death hs =>
        cases hs
        case ready_panics msg w mm h1 h2 h3 =>
          have hnf : m ≠ .failed := fun hmf => by
            obtain ⟨e, he⟩ := hm.failed hmf
            exact (BHist.inv hr).ctl.not_failed (.inl ⟨⟨_, h1⟩, h2⟩) e he
          have := I.ready_ok _ m w (hm.uses.inv I h0 hnf) hnf
          simp [Act.wp, h3] at this
        case call_panics msg w mm h1 h2 =>
          have hmr := hm.call _ h1
          subst hmr
          have := I.call_ok _ msg.req w (hm.uses.inv I h0 (by simp))
          simp [Act.wp, h2] at this
      | handle hs => cases hs
      | future hs => cases hs
      | worker hs => cases hs
  · have := I.poll_ok f w ((h.futInv h0).fut i f hf)
    simp [Act.wp, hp] at this

/-! ### A buffer over a rate limit -/

/-- what a lawful user of a rate limit over a logged service does is a history of the rate limit, whose calls are those in the log -/
theorem Uses.rate {C : Clock W} {R : Rate} {s0 : S.σ} {t0 : Nat} {s : (RateLimit C R (Logged C S)).σ} {m : Mode} {reqs : List Req}
    (h : Uses (RateLimit C R (Logged C S)) (RateLimit.new R t0 (⟨s0, t0, []⟩ : Log S.σ)) s m reqs) :
    RateHist C R (Logged C S) s (s : RateState (Log S.σ)).inner.last (s : RateState (Log S.σ)).inner.calls ∧ (s : RateState (Log S.σ)).inner.calls.length = reqs.length := by
  induction h with
  | new => exact ⟨.new _ _, rfl⟩
  | @ready s m reqs w w' p s' _ hm hr ih =>
    obtain ⟨ih, hl⟩ := ih
    change RateState (Log S.σ) at s s'
    -- either the inner service was polled, at this time, or nothing changed
    have key : s' = s ∨ (s.inner.last ≤ C.now w ∧ s'.inner.last = C.now w ∧ s'.inner.calls = s.inner.calls) := by
      have hin : ∀ {g : Log S.σ → RateState (Log S.σ)}, (∀ i, (g i).inner = i) →
          ((Logged C S).pollReady s.inner >>= fun a => pure (a.1, g a.2) : Act W _).run w = .ok (p, s') w' →
          (s.inner.last ≤ C.now w ∧ s'.inner.last = C.now w ∧ s'.inner.calls = s.inner.calls) := by
        intro g hg h1
        by_cases hlt : C.now w < s.inner.last
        · simp only [run_bind, run_get, hlt, if_true, run_spin] at h1
          cases h1
        · simp only [run_bind, run_get, hlt, if_false] at h1
          cases hp : (S.pollReady s.inner.svc).run w with
          | panic m => simp [hp] at h1
          | spin => simp [hp] at h1
          | ok a w1 =>
            simp only [hp, run_pure, Out.ok.injEq, Prod.mk.injEq] at h1
            obtain ⟨⟨-, h2⟩, -⟩ := h1
            rw [← h2, hg]
            exact ⟨by omega, rfl, rfl⟩
      cases hst : s.st with
      | ready u n =>
        simp only [RateLimit, hst] at hr
        exact .inr (hin (g := fun i => ⟨i, .ready u n, s.sleep⟩) (fun _ => rfl) hr)
      | limited =>
        by_cases hf : C.fired s.sleep w = true
        · simp only [RateLimit, hst] at hr
          rw [run_bind] at hr
          simp only [run_get, if_pos hf] at hr
          exact .inr (hin (g := fun i => ⟨i, .ready (C.now w + R.per) R.num, s.sleep⟩) (fun _ => rfl) hr)
        · simp only [RateLimit, hst, run_bind, run_get, if_neg hf, run_modify, run_pure, Out.ok.injEq, Prod.mk.injEq] at hr
          exact .inl hr.1.2.symm
    rcases key with rfl | ⟨h1, h2, h3⟩
    · exact ⟨ih, hl⟩
    · rw [h2, h3]
      exact ⟨.ready ih h1 hr, hl⟩
  | @call s reqs r w w' f s' _ hr ih =>
    obtain ⟨ih, hl⟩ := ih
    change RateState (Log S.σ) at s s'
    have key : s.inner.last ≤ C.now w ∧ s'.inner.last = C.now w ∧ s'.inner.calls = s.inner.calls ++ [C.now w] := by
      simp only [RateLimit, run_bind, run_get] at hr
      cases ht : rateTake R (C.now w) s.st s.sleep with
      | none => simp [ht] at hr
      | some a =>
        simp only [ht] at hr
        by_cases hlt : C.now w < s.inner.last
        · simp only [run_bind, run_get, hlt, if_true, run_spin] at hr
          cases hr
        · simp only [run_bind, run_get, hlt, if_false] at hr
          cases hp : (S.call s.inner.svc r).run w with
          | panic m => simp [hp] at hr
          | spin => simp [hp] at hr
          | ok b w1 =>
            simp only [hp, run_pure, Out.ok.injEq, Prod.mk.injEq] at hr
            have h2 := (Prod.mk.injEq .. ▸ hr.1 : _ = _ ∧ _ = s')
            rw [← h2.2]
            exact ⟨by omega, rfl, rfl⟩
    obtain ⟨h1, h2, h3⟩ := key
    rw [h2, h3]
    exact ⟨.call ih h1 hr, by simp [hl]⟩

/-- **C64, a rate limit under a buffer.** Put a buffer around a rate limit of `num` per `per`: then all clones of the buffer together, however they
are used, cannot get more than `(k + 1) · num` requests through to the service in any window of length `k · per`. The log of the service has one entry for each request dispatched. -/
theorem C64_rate {C : Clock W} {R : Rate} (hnum : 0 < R.num) (hper : 0 < R.per) {s0 : S.σ} {t0 : Nat} {tr : List (BEv (RateLimit C R (Logged C S)))}
    {x : Buf (RateLimit C R (Logged C S))} (h : BHist (RateLimit C R (Logged C S)) bound (RateLimit.new R t0 (⟨s0, t0, []⟩ : Log S.σ)) tr x)
    (a k : Nat) : let log := (x.svc : RateState (Log S.σ)).inner.calls
    callsIn a (a + k * R.per) log ≤ (k + 1) * R.num ∧ log.length = (dispatched tr).length := by
  obtain ⟨m, hm⟩ := C64_single_user h
  obtain ⟨h1, h2⟩ := hm.rate
  exact ⟨C07_window hnum hper h1 a k, by simpa using h2⟩

/-! ## A concrete history that meets the hypotheses -/

namespace DemoBufRate

/-- one call per ten ticks -/
def rate : Rate := ⟨1, 10⟩

/-- the rate limit over the demo service of C07, with its log -/
abbrev Lim : Service Nat Unit Unit Unit := RateLimit Demo07.clk rate (Logged Demo07.clk Demo07.Free)

/-- two clones of a buffer send a request each; the first goes through at time 3, the second has to wait and goes through at time 13 -/
theorem two : ∃ (tr : List (BEv Lim)) (x : Buf Lim), BHist Lim 2 (RateLimit.new rate 0 (⟨(), 0, []⟩ : Log Unit)) tr x ∧
    (x.svc : RateState (Log Unit)).inner.calls = [3, 13] ∧ (dispatched tr).length = 2 ∧ .svcPending ∈ tr ∧ x.hs.length = 2 := by
  have r := BRun.one (x := Buf.init Lim 2 (RateLimit.new rate 0 (⟨(), 0, []⟩ : Log Unit))) (.handle (.ready (l := []) rfl))
  have r := r.snoc (.handle (.call (l := []) (q := ()) rfl rfl))
  have r := r.snoc (.handle (.clone (List.mem_cons_self ..)))
  have r := r.snoc (.handle (.ready (l := [⟨0, .idle⟩]) rfl))
  have r := r.snoc (.handle (.call (l := [⟨0, .idle⟩]) (q := ()) rfl rfl))
  have r := r.snoc (.worker (.start rfl))
  have r := r.snoc (.worker (.fresh rfl rfl))
  have r := r.snoc (.worker (.recv rfl rfl))
  have r := r.snoc (.worker (.wanted rfl rfl))
  have r := r.snoc (.worker (.svc_ready (w := 3) (w' := 3) (s' := (⟨⟨(), 3, []⟩, .ready 0 1, 0⟩ : RateState (Log Unit))) rfl rfl rfl))
  have r := r.snoc (.worker (.svc_call (w := 3) (w' := 3) (f := ()) (s' := (⟨⟨(), 3, [3]⟩, .limited, 13⟩ : RateState (Log Unit))) rfl rfl))
  have r := r.snoc (.worker (.reply rfl))
  have r := r.snoc (.worker (.fresh rfl rfl))
  have r := r.snoc (.worker (.recv rfl rfl))
  have r := r.snoc (.worker (.wanted rfl rfl))
  have r := r.snoc (.worker (.svc_pending (w := 9) (w' := 9) (s' := (⟨⟨(), 3, [3]⟩, .limited, 13⟩ : RateState (Log Unit))) rfl rfl rfl))
  have r := r.snoc (.worker (.start rfl))
  have r := r.snoc (.worker (.resume rfl rfl))
  have r := r.snoc (.worker (.wanted rfl rfl))
  have r := r.snoc (.worker (.svc_ready (w := 13) (w' := 13) (s' := (⟨⟨(), 13, [3]⟩, .ready 23 1, 13⟩ : RateState (Log Unit))) rfl rfl rfl))
  have r := r.snoc (.worker (.svc_call (w := 13) (w' := 13) (f := ()) (s' := (⟨⟨(), 13, [3, 13]⟩, .limited, 23⟩ : RateState (Log Unit))) rfl rfl))
  refine ⟨_, _, r, rfl, rfl, ?_, rfl⟩
  simp

/-- the rate limit keeps the contract, so `C64_contract` applies to it -/
theorem safe : Safe ⟨false, false⟩ Lim (RateLimit.new rate 0 (⟨(), 0, []⟩ : Log Unit)) := by
  refine RateLimit.safe (c := false) (c' := false) _ _ rfl 0 ?_
  refine SafeInv.safe (S := Logged Demo07.clk Demo07.Free) (cfg := ⟨false, false⟩)
    { H := fun _ m => m ≠ .failed, F := fun _ => True, ready_ok := ?_, call_ok := ?_, poll_ok := ?_, clone_ok := ?_ } (by simp)
  · intro s m w _ _
    simp only [Act.wp_bind, Act.wp_get]
    split
    · trivial
    · simp [ReadyPost]
  · intro s r w _
    simp only [Act.wp_bind, Act.wp_get]
    split
    · trivial
    · simp
  · intro f w _; simp [PollPost]
  · intro h; cases h

end DemoBufRate

end Tower
