import Verif.Proof.Wake1

/-!
# C59: no `Pending` without a wake-up

`Wakeful reg S` and `FutWakeful reg F` (`Spec/WakeSpec.lean`): whenever `poll_ready`, a response future or another future returns `Pending`, the waker of the task was registered
with something during that very call. `reg` counts registrations; what counts as one is up to the leaves of the stack (services of the user, timers, semaphores, task handles).
-/

set_option linter.unusedSimpArgs false

namespace Tower
open Act
variable {W : Type}

/-- Stacks of tower middleware, over services and with timers, semaphores, policies, predicates, … of the user that register the waker when they are pending. -/
inductive WStack (reg : W → Nat) : {Req Res Err : Type} → Service W Req Res Err → Prop
  | base {Req Res Err : Type} {S : Service W Req Res Err} : Wakeful reg S → WStack reg S
  | mapRequest {R1 Req Res Err : Type} {f : R1 → W → Req × W} {S : Service W Req Res Err} : CalmFn reg f → WStack reg S → WStack reg (MapRequest f S)
  | mapResponse {Req Res R2 Err : Type} {f : Res → W → R2 × W} {S : Service W Req Res Err} : CalmFn reg f → WStack reg S → WStack reg (MapResponse f S)
  | mapErr {Req Res Err E2 : Type} {f : Err → W → E2 × W} {S : Service W Req Res Err} : CalmFn reg f → WStack reg S → WStack reg (MapErr f S)
  | mapResult {Req Res R2 Err E2 : Type} {into : Err → E2} {f : Except Err Res → W → Except E2 R2 × W} {S : Service W Req Res Err} : CalmFn reg f → WStack reg S →
      WStack reg (MapResult into f S)
  | mapFuture {Req Res R2 Err E2 : Type} {into : Err → E2} {S : Service W Req Res Err} {G : Fut W (Except E2 R2)} {f : S.φ → W → G.φ × W} : CalmFn reg f → FutWakeful reg G →
      WStack reg S → WStack reg (MapFuture into S G f)
  | thenF {Req Res R2 Err E2 : Type} {into : Err → E2} {S : Service W Req Res Err} {G : Fut W (Except E2 R2)} {f : Except Err Res → W → G.φ × W} : CalmFn reg f → FutWakeful reg G →
      WStack reg S → WStack reg (Then into S G f)
  | andThen {Req Res R2 Err E2 : Type} {into : Err → E2} {S : Service W Req Res Err} {G : Fut W (Except E2 R2)} {f : Res → W → G.φ × W} : CalmFn reg f → FutWakeful reg G →
      WStack reg S → WStack reg (AndThen into S G f)
  | either {Req Res Err : Type} {A B : Service W Req Res Err} : WStack reg A → WStack reg B → WStack reg (Either A B)
  | optional {Req Res Err : Type} {S : Service W Req Res Err} : WStack reg S → WStack reg (Optional S)
  | serviceFn {Req Res Err : Type} {F : Fut W (Except Err Res)} {f : Req → W → F.φ × W} : CalmFn reg f → FutWakeful reg F → WStack reg (ServiceFn F f)
  | futureService {Req Res Err : Type} {S : Service W Req Res Err} {F : Fut W (Except Err S.σ)} {fc : F.φ → F.φ} : FutWakeful reg F → WStack reg S → WStack reg (FutureService S F fc)
  | boxed {Req Res Err : Type} {S : Service W Req Res Err} : WStack reg S → WStack reg (BoxService S)
  | timeout {Req Res Err : Type} {C : Clock W} {d : Nat} {S : Service W Req Res Err} : ClockWakes reg C → WStack reg S → WStack reg (Timeout C d S)
  | loadShed {Req Res Err : Type} {S : Service W Req Res Err} : WStack reg S → WStack reg (LoadShed S)
  | rateLimit {Req Res Err : Type} {C : Clock W} {R : Rate} {S : Service W Req Res Err} : ClockWakes reg C → WStack reg S → WStack reg (RateLimit C R S)
  | concurrencyLimit {Req Res Err : Type} {d : Bool} {V : SemView W} {S : Service W Req Res Err} : SemWakes reg V → WStack reg S → WStack reg (ConcurrencyLimit d V S)
  | filter {R1 Req Res Err BErr : Type} {into : Err → BErr} {check : R1 → W → Except BErr Req × W} {S : Service W Req Res Err} : CalmFn reg check → WStack reg S →
      WStack reg (Filter into check S)
  | asyncFilter {R1 Req Res Err BErr : Type} {into : Err → BErr} {P : Fut W (Except BErr Req)} {check : R1 → W → P.φ × W} {S : Service W Req Res Err} : CalmFn reg check →
      FutWakeful reg P → WStack reg S → WStack reg (AsyncFilter into P check S)
  | retry {Req Res Err : Type} {n : Nat} {P : RetryPolicy W Req Res Err} {S : Service W Req Res Err} : PolicyWakes reg P → WStack reg S → WStack reg (Retry n P S)
  | steer {Req Res Err : Type} {S : Service W Req Res Err} {pick : Req → List S.σ → W → Nat × W} : (∀ r ss w, reg w ≤ reg (pick r ss w).2) → WStack reg S → WStack reg (Steer S pick)
  | reconnect {Tgt E1 Req Res Err : Type} {n : Nat} {S : Service W Req Res Err} {M : Service W Tgt S.σ E1} {t : Tgt} : WStack reg M → WStack reg S → WStack reg (Reconnect n S M t)
  | spawnReady {Req Res Err : Type} {n : Nat} {R : Runtime W} {S : Service W Req Res Err} : (∀ w, reg w < reg (R.arm w)) → WStack reg S → WStack reg (SpawnReady n R S)
  | hedge {Req Res Err BErr : Type} {into : Err → BErr} {H : HedgeCfg W Req} {S : Service W Req Res Err} : HedgeWakes reg H → WStack reg S → WStack reg (Hedge into H S)
  | constant {M Req Res Err : Type} {S : Service W Req Res Err} : WStack reg S → WStack reg (Constant M S)
  | intoService {Req Res Err : Type} {S : Service W Req Res Err} : WStack reg S → WStack reg (IntoService S)
  | shared {Tgt V E : Type} {c : V → V} : WStack reg (Shared (W := W) (Tgt := Tgt) V c E)
  | balance {Req Res Err K DErr BErr : Type} [DecidableEq K] {B : BalCfg W Req Res Err K DErr BErr} {n : Nat} : BalWakes reg B →
      (∀ d w d' w', (B.D.poll d).run w ≠ .ok (.ready none, d') w') → WStack reg B.S → WStack reg (balance B n)
  | makeBalance {Tgt MErr Req Res Err K DErr BErr : Type} [DecidableEq K] {B : BalCfg W Req Res Err K DErr BErr} {seed : Act W B.G.ρ} {M : Service W Tgt B.D.δ MErr} : Calm reg seed →
      WStack reg M → WStack reg (makeBalance B seed M)

/-- **C59.** Whatever the stack, in whatever state: no `Pending` without a registration, neither of `poll_ready` nor of a response future. -/
theorem C59_stack {reg : W → Nat} {Req Res Err : Type} {S : Service W Req Res Err} (h : WStack reg S) : Wakeful reg S := by
  induction h with
  | base h => exact h
  | mapRequest hf _ ih => exact MapRequest.wakeful hf ih
  | mapResponse hf _ ih => exact MapResponse.wakeful hf ih
  | mapErr hf _ ih => exact MapErr.wakeful hf ih
  | mapResult hf _ ih => exact MapResult.wakeful hf ih
  | mapFuture hf hG _ ih => exact MapFuture.wakeful hf hG ih
  | thenF hf hG _ ih => exact Then.wakeful hf hG ih
  | andThen hf hG _ ih => exact AndThen.wakeful hf hG ih
  | either _ _ ih1 ih2 => exact Either.wakeful ih1 ih2
  | optional _ ih => exact Optional.wakeful ih
  | serviceFn hf hF => exact ServiceFn.wakeful hf hF
  | futureService hF _ ih => exact FutureService.wakeful hF ih
  | boxed _ ih => exact BoxService.wakeful ih
  | timeout hC _ ih => exact Timeout.wakeful hC ih
  | loadShed _ ih => exact LoadShed.wakeful ih
  | rateLimit hC _ ih => exact RateLimit.wakeful hC ih
  | concurrencyLimit hV _ ih => exact ConcurrencyLimit.wakeful hV ih
  | filter hc _ ih => exact Filter.wakeful hc ih
  | asyncFilter hc hP _ ih => exact AsyncFilter.wakeful hc hP ih
  | retry hP _ ih => exact Retry.wakeful hP ih
  | steer hp _ ih => exact Steer.wakeful hp ih
  | reconnect _ _ ih1 ih2 => exact Reconnect.wakeful ih1 ih2
  | spawnReady hR _ ih => exact SpawnReady.wakeful hR ih
  | hedge hH _ ih => exact Hedge.wakeful hH ih
  | constant _ ih => exact Constant.wakeful ih
  | intoService _ ih => exact IntoService.wakeful ih
  | shared => exact Shared.wakeful
  | balance hB hE _ ih => exact Tower.balance.wakeful hB hE ih
  | makeBalance hs _ ih => exact makeBalance.wakeful hs ih

/-- **C59**, the futures: `Oneshot` and `ReadyOneshot` (`ServiceExt::oneshot`, `ready`, `ready_oneshot`) over any stack. -/
theorem C59_oneshot {reg : W → Nat} {Req Res Err : Type} {S : Service W Req Res Err} (h : WStack reg S) : FutWakeful reg (Oneshot S) ∧ FutWakeful reg (ReadyOneshot S) :=
  ⟨Oneshot.wakeful (C59_stack h), ReadyOneshot.wakeful (C59_stack h)⟩

/-- **C59**, load instruments: `PendingRequests` and `PeakEwma` over any stack. -/
theorem C59_load {reg : W → Nat} {Req Res Res' Err : Type} {S : Service W Req Res Err} (h : WStack reg S) (T : Tracker) (C : Completion Res Res') :
    Wakeful (fun w : T.R × W => reg w.2) (tracked T C S) :=
  tracked.wakeful (C59_stack h)

/-- **C59**, `Balance` with a discovery that may end (such as `ServiceList`): `Pending` is returned only after a registration, or when discovery has just said that it ended
and there is no endpoint at all, neither ready nor pending. -/
theorem C59_balance {reg : W → Nat} {Req Res Err K DErr BErr : Type} [DecidableEq K] {B : BalCfg W Req Res Err K DErr BErr} (hB : BalWakes reg B) (h : WStack reg B.S) {n : Nat}
    {b b' : Balance B} {w w' : W} (hr : (b.pollReady n).run w = .ok (.pending, b') w') :
    reg w < reg w' ∨ b'.len = 0 ∧ ∃ d w1 d' w2, (B.D.poll d).run w1 = .ok (.ready none, d') w2 :=
  (Tower.balance.wakes hB (C59_stack h) hr).2 rfl

/-- **Finding (C59).** That case is real: a balancer without endpoints the discovery of which has ended says `Pending` and has registered the waker with nothing (and with a
discovery that goes on to say that it has ended it will do so for ever), rather than failing. -/
theorem C59_balance_stuck {Req Res Err K DErr BErr : Type} [DecidableEq K] {B : BalCfg W Req Res Err K DErr BErr} {b : Balance B} {w : W} (h0 : b.svcs = Cache.empty K B.S) (hi : b.idx = none)
    (hd : (B.D.poll b.disc).run w = .ok (.ready none, b.disc) w) (hV : (B.V.order 0 w).2 = w) {n : Nat} (hn : 0 < n) : (b.pollReady n).run w = .ok (.pending, b) w := by
  obtain ⟨d, c, i, r⟩ := b
  subst h0 hi
  obtain ⟨n, rfl⟩ : ∃ m, n = m + 1 := ⟨n - 1, by omega⟩
  have hp : (pollNext (K := K) B.S [] (B.V.order 0 w).1 []).run w = .ok (.ready none, []) w := by cases (B.V.order 0 w).1 <;> rfl
  simp only at hd
  simp only [Balance.pollReady, Balance.update, run_bind, hd, run_pure, Balance.rest, Balance.promote, Cache.empty, Cache.pollPending, Cache.pollPendingLoop, List.length_nil, run_lift, hV,
    hp, if_true, Balance.select, Balance.recheck, Balance.choose, Balance.p2c]
  simp [run_bind, run_pure]

/-- what a user of `CallAll` can have: it is made and polled -/
inductive CAPolled {Req Res Err : Type} {S : Service W Req Res Err} {R : ReqStream W Req} {D : DriveQ W S.φ (Except Err Res)} : CallAll S R D → Prop
  | new (s : S.σ) (t : R.τ) : CAPolled (CallAll.new s t)
  | poll {c c' : CallAll S R D} {n w p w'} : CAPolled c → (CallAll.pollNext n c).run w = .ok (p, c') w' → CAPolled c'

theorem CAPolled.ok {reg : W → Nat} {Req Res Err : Type} {S : Service W Req Res Err} {R : ReqStream W Req} {D : DriveQ W S.φ (Except Err Res)} {ok : D.Q → Prop} (hD : QueueWakes reg D ok)
    (hR : ∀ t, Wakes reg (R.poll t)) (h : Wakeful reg S) {c : CallAll S R D} (hc : CAPolled c) : ok c.queue := by
  induction hc with
  | new => exact hD.empty
  | poll _ hr ih => exact (CallAll.wakes hD hR h _ _ _ _ _ _ ih hr).2.2

/-- **C59**, `call_all`: both kinds, over any stack and any stream that registers the waker when it is pending. (`FuturesUnordered` is assumed to register it whenever it is polled
and not empty.) -/
theorem C59_call_all {reg : W → Nat} {Req Res Err : Type} {S : Service W Req Res Err} {R : ReqStream W Req} {V : Sched W} (hV : ∀ n w, reg w ≤ reg (V.order n w).2)
    (hV' : ∀ n w, 0 < n → reg w < reg (V.order n w).2) (hR : ∀ t, Wakes reg (R.poll t)) (h : WStack reg S) :
    (∀ {c c' : CallAllOrdered V S R} {n w w'}, CAPolled c → (CallAll.pollNext n c).run w = .ok (.pending, c') w' → reg w < reg w') ∧
    (∀ {c c' : CallAllUnordered V S R} {n w w'}, CAPolled c → (CallAll.pollNext n c).run w = .ok (.pending, c') w' → reg w < reg w') := by
  have hS := C59_stack h
  have ho := orderedQ.wakes hV hV' (fun f => (hS.poll f).calm)
  have hu := unorderedQ.wakes hV hV' (fun f => (hS.poll f).calm)
  exact ⟨fun hc hr => (CallAll.wakes ho hR hS _ _ _ _ _ _ (hc.ok ho hR hS) hr).2.1 rfl, fun hc hr => (CallAll.wakes hu hR hS _ _ _ _ _ _ (hc.ok hu hR hS) hr).2.1 rfl⟩

/-! ## Concrete cases -/

namespace WakeDemo

/-- the time, and the number of registrations -/
abbrev N := Nat × Nat

/-- ready from time 2 on, the response from time 5 on; it registers the waker when it is pending -/
def slow : Service N Nat Nat Nat where
  σ := Unit
  φ := Nat
  pollReady _ := ⟨fun w => if 2 ≤ w.1 then .ok (.ready (.ok ()), ()) w else .ok (.pending, ()) (w.1, w.2 + 1)⟩
  call _ r := pure (r, ())
  poll r := ⟨fun w => if 5 ≤ w.1 then .ok (.ready (.ok r), r) w else .ok (.pending, r) (w.1, w.2 + 1)⟩
  clone := id

theorem slow_wakeful : Wakeful (fun w : N => w.2) slow where
  ready s := by
    intro w p b w' h
    simp only [slow] at h
    split at h <;> cases h
    · exact ⟨Nat.le_refl _, fun h => by cases h⟩
    · exact ⟨Nat.le_succ _, fun _ => Nat.lt_succ_self _⟩
  call s r := Calm.pure _
  poll f := by
    intro w p b w' h
    simp only [slow] at h
    split at h <;> cases h
    · exact ⟨Nat.le_refl _, fun h => by cases h⟩
    · exact ⟨Nat.le_succ _, fun _ => Nat.lt_succ_self _⟩

def clk : Clock N := { now := fun w => w.1, fired := fun d w => decide (d ≤ w.1), sound := fun d w h => by simpa using h, arm := fun _ w => (w.1, w.2 + 1) }

def sem : SemView N := ⟨Unit, fun _ w => if 1 ≤ w.1 then ((.ready true, ()), w) else ((.pending, ()), (w.1, w.2 + 1)), id⟩

theorem clk_wakes : ClockWakes (fun w : N => w.2) clk := fun _ _ => Nat.lt_succ_self _

theorem sem_wakes : SemWakes (fun w : N => w.2) sem := by
  intro a w
  simp only [sem]
  split
  · exact ⟨Nat.le_refl _, fun h => by cases h⟩
  · exact ⟨Nat.le_succ _, fun _ => Nat.lt_succ_self _⟩

/-- `LoadShed(RateLimit(Timeout(ConcurrencyLimit(slow))))` -/
theorem stack : WStack (fun w : N => w.2) (LoadShed (RateLimit clk ⟨1, 10⟩ (Timeout clk 3 (ConcurrencyLimit true sem slow)))) :=
  .loadShed (.rateLimit clk_wakes (.timeout clk_wakes (.concurrencyLimit sem_wakes (.base slow_wakeful))))

/-- a pending response under a timeout that has not fired has registered the waker twice: with the service and with the timer -/
example : ((Timeout clk 3 slow).poll ((7 : Nat), 4)).run (3, 0) = .ok (.pending, ((7 : Nat), 4)) (3, 2) := rfl

/-- the theorem says something of a `Pending` that happens -/
example : ((ConcurrencyLimit true sem slow).pollReady ⟨(), (), false⟩).run (0, 0) = .ok (.pending, ⟨(), (), false⟩) (0, 1) := rfl

end WakeDemo
end Tower
