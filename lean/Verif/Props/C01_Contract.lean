import Verif.Proof.Safety3
import Verif.Proof.Loud

/-!
# C01, C02, C03: the service contract through arbitrary stacks of middleware

`SafeG cfg good S s` (`Verif/Contract.lean`) is the contract itself: whatever a contract-abiding caller
and the environment do, the service does not panic (and, with `cfg.sticky`, a ready service stays ready;
with `cfg.clone`, handles may be cloned at any point and each clone must be polled ready on its own).

A wrapped service that *panics as soon as the contract is broken towards it* (`Monitor`) turns "the
middleware never breaks the contract towards the service it wraps" into "the stack never panics".
-/

set_option linter.unusedSimpArgs false

namespace Tower

open Act

section
variable {W : Type}

/-! ## Specification: an inner service that detects every breach of contract -/

/-- The code never panics (the fuel of its model may run out). -/
def NoPanic {α : Type} (x : Act W α) : Prop := ∀ w m, x.run w ≠ .panic m

/-- A service none of whose methods ever panics, in any state. -/
structure Total {Req Res Err : Type} (S : Service W Req Res Err) : Prop where
  ready : ∀ s, NoPanic (S.pollReady s)
  call : ∀ s r, NoPanic (S.call s r)
  poll : ∀ f, NoPanic (S.poll f)

/-- `S` behind a checker: it panics on `call` unless *this handle's* latest `poll_ready` since the last
`call` returned `Ready(Ok)`, on any use after `poll_ready` failed, and when a finished response future is
polled again. -/
def Monitor {Req Res Err : Type} (S : Service W Req Res Err) : Service W Req Res Err where
  σ := S.σ × Mode
  φ := Option S.φ
  pollReady s :=
    if s.2 = .failed then Act.panic "poll_ready after an error"
    else do
      let (p, s') ← S.pollReady s.1
      match p with
      | .pending => pure (.pending, (s', .idle))
      | .ready (.ok ()) => pure (.ready (.ok ()), (s', .ready))
      | .ready (.error e) => pure (.ready (.error e), (s', .failed))
  call s r :=
    if s.2 = .ready then do
      let (f, s') ← S.call s.1 r
      pure (some f, (s', .idle))
    else Act.panic "call without readiness"
  poll
    | none => Act.panic "polled after completion"
    | some f => do
      let (p, f') ← S.poll f
      match p with
      | .pending => pure (.pending, some f')
      | .ready r => pure (.ready r, none)
  clone s := (S.clone s.1, .idle)

theorem wp_of_noPanic {α : Type} {x : Act W α} (h : NoPanic x) {Q : α → W → Prop} (w : W)
    (hQ : ∀ a w', Q a w') : wp x Q w := by
  unfold wp
  cases hx : x.run w with
  | ok a w' => exact hQ a w'
  | panic m => exact h w m hx
  | spin => trivial

/-- The checker itself keeps the contract around any total service: it panics only when misused. -/
theorem Monitor.safe {Req Res Err : Type} {S : Service W Req Res Err} (hS : Total S) (s : S.σ) (c : Bool) :
    Safe ⟨c, false⟩ (Monitor S) (s, .idle) := by
  exact SafeInv.safe (cfg := ⟨c, false⟩) (S := Monitor S)
    { H := fun s m => s.2 = m
      F := fun x => x ≠ none
      ready_ok := by
        rintro ⟨s, m'⟩ m w h hm
        simp only at h
        subst h
        simp only [Monitor, hm, if_false, wp_bind]
        refine wp_of_noPanic (hS.ready s) w ?_
        rintro ⟨p, s'⟩ w'
        match p with
        | .pending => exact ⟨rfl, by simp⟩
        | .ready (.ok ()) => rfl
        | .ready (.error e) => trivial
      call_ok := by
        rintro ⟨s, m'⟩ r w h
        simp only at h
        subst h
        simp only [Monitor, if_true, wp_bind]
        refine wp_of_noPanic (hS.call s r) w ?_
        rintro ⟨f, s'⟩ w'
        exact ⟨by simp, rfl⟩
      poll_ok := by
        rintro (_ | f) w h
        · exact absurd rfl h
        · simp only [Monitor, wp_bind]
          refine wp_of_noPanic (hS.poll f) w ?_
          rintro ⟨p, f'⟩ w'
          match p with
          | .pending => exact Option.some_ne_none f'
          | .ready (.ok r) => trivial
          | .ready (.error e) => trivial
      clone_ok := by intro _ s m _ _; rfl }
    rfl

end

/-! ## All stacks -/

/-- `Built cfg good S s`: service `S` in (initial) state `s` is a finite stack of tower middlewares over
services that keep the contract. Each constructor is one middleware of `/repo`; premises are what its
documentation or types demand (e.g. a picker that stays in range for `Steer`, a semaphore that nobody
closes for `ConcurrencyLimit`, `Clone` inner services for `Retry`, `AsyncFilter`, `Hedge`). -/
inductive Built : {W Req Res Err : Type} → Cfg → (Res → Prop) → (S : Service W Req Res Err) → S.σ → Prop
  /-- any service that keeps the contract -/
  | base {Req Res Err : Type} {cfg : Cfg} {good : Res → Prop} {S : Service W Req Res Err} {s : S.σ} :
    SafeG cfg good S s → Built cfg good S s
  /-- ask for less -/
  | weaken {Req Res Err : Type} {c c' st st' : Bool} {good good' : Res → Prop} {S : Service W Req Res Err}
      {s : S.σ} : (c' = true → c = true) → (st' = true → st = true) → (∀ r, good r → good' r) →
      Built ⟨c, st⟩ good S s → Built ⟨c', st'⟩ good' S s
  | mapRequest {R1 Req Res Err : Type} {cfg : Cfg} {good : Res → Prop} {S : Service W Req Res Err} {s : S.σ}
      (f : R1 → W → Req × W) : Built cfg good S s → Built cfg good (MapRequest f S) s
  | mapResponse {Req Res R2 Err : Type} {cfg : Cfg} {good : Res → Prop} {good' : R2 → Prop}
      {S : Service W Req Res Err} {s : S.σ} (f : Res → W → R2 × W)
      (hf : ∀ r w, good r → good' (f r w).1) : Built cfg good S s → Built cfg good' (MapResponse f S) s
  | mapErr {Req Res Err E2 : Type} {cfg : Cfg} {good : Res → Prop} {S : Service W Req Res Err} {s : S.σ}
      (f : Err → W → E2 × W) : Built cfg good S s → Built cfg good (MapErr f S) s
  | mapResult {Req Res R2 Err E2 : Type} {cfg : Cfg} {good : Res → Prop} {good' : R2 → Prop}
      {S : Service W Req Res Err} {s : S.σ} (into : Err → E2) (f : Except Err Res → W → Except E2 R2 × W)
      (hf : ∀ res w, (∀ r, res = .ok r → good r) → ∀ r', (f res w).1 = .ok r' → good' r') :
      Built cfg good S s → Built cfg good' (MapResult into f S) s
  | mapFuture {Req Res R2 Err E2 : Type} {cfg : Cfg} {good : Res → Prop} {good' : R2 → Prop}
      {S : Service W Req Res Err} {s : S.σ} (into : Err → E2)
      (G : Fut W (Except E2 R2)) (f : S.φ → W → G.φ × W)
      (hf : ∀ x w, FutSafe S.fut (OkGood good) x → FutSafe G (OkGood good') (f x w).1) :
      Built cfg good S s → Built cfg good' (MapFuture into S G f) s
  | thenF {Req Res R2 Err E2 : Type} {cfg : Cfg} {good : Res → Prop} {good' : R2 → Prop}
      {S : Service W Req Res Err} {s : S.σ} (into : Err → E2)
      (G : Fut W (Except E2 R2)) (f : Except Err Res → W → G.φ × W)
      (hf : ∀ res w, OkGood good res → FutSafe G (OkGood good') (f res w).1) :
      Built cfg good S s → Built cfg good' (Then into S G f) s
  | andThen {Req Res R2 Err E2 : Type} {cfg : Cfg} {good : Res → Prop} {good' : R2 → Prop}
      {S : Service W Req Res Err} {s : S.σ} (into : Err → E2)
      (G : Fut W (Except E2 R2)) (f : Res → W → G.φ × W)
      (hf : ∀ r w, good r → FutSafe G (OkGood good') (f r w).1) :
      Built cfg good S s → Built cfg good' (AndThen into S G f) s
  | eitherLeft {Req Res Err : Type} {cfg : Cfg} {good : Res → Prop} {A B : Service W Req Res Err} {a : A.σ} :
      Built cfg good A a → Built cfg good (Either A B) (.inl a)
  | eitherRight {Req Res Err : Type} {cfg : Cfg} {good : Res → Prop} {A B : Service W Req Res Err} {b : B.σ} :
      Built cfg good B b → Built cfg good (Either A B) (.inr b)
  | optionalSome {Req Res Err : Type} {cfg : Cfg} {good : Res → Prop} {S : Service W Req Res Err} {s : S.σ} :
      Built cfg good S s → Built cfg good (Optional S) (some s)
  | optionalNone {Req Res Err : Type} {cfg : Cfg} {good : Res → Prop} {S : Service W Req Res Err} :
      Built cfg good (Optional S) none
  | serviceFn {Req Res Err : Type} {cfg : Cfg} {good : Res → Prop} (F : Fut W (Except Err Res))
      (f : Req → W → F.φ × W) (hf : ∀ r w, FutSafe F (OkGood good) (f r w).1) :
      Built cfg good (ServiceFn F f) ()
  | futureService {Req Res Err : Type} {cfg : Cfg} {good : Res → Prop} {S : Service W Req Res Err}
      (F : Fut W (Except Err S.σ)) (fclone : F.φ → F.φ)
      (hcl : ∀ f, FutSafe F (OkGood (SafeG cfg good S)) f → FutSafe F (OkGood (SafeG cfg good S)) (fclone f))
      {f : F.φ} (hf : FutSafe F (OkGood (SafeG cfg good S)) f) :
      Built cfg good (FutureService S F fclone) (.future f)
  | boxed {Req Res Err : Type} {cfg : Cfg} {good : Res → Prop} {S : Service W Req Res Err} {s : S.σ} :
      Built cfg good S s → Built cfg good (BoxService S) ⟨s⟩
  | timeout {Req Res Err : Type} {cfg : Cfg} {good : Res → Prop} {S : Service W Req Res Err} {s : S.σ}
      (C : Clock W) (d : Nat) : Built cfg good S s → Built cfg good (Timeout C d S) s
  | loadShed {Req Res Err : Type} {c st : Bool} (st' : Bool) {good : Res → Prop} {S : Service W Req Res Err}
      {s : S.σ} : Built ⟨c, st⟩ good S s → Built ⟨c, st'⟩ good (LoadShed S) ⟨s, false⟩
  | rateLimit {Req Res Err : Type} {c st : Bool} {good : Res → Prop} {S : Service W Req Res Err} {s : S.σ}
      (C : Clock W) (R : Rate) (now : Nat) : Built ⟨c, st⟩ good S s →
      Built ⟨false, st⟩ good (RateLimit C R S) (RateLimit.new R now s)
  | concurrencyLimit {Req Res Err : Type} {cfg : Cfg} {good : Res → Prop} {S : Service W Req Res Err}
      {s : S.σ} (debug : Bool) (V : SemView W) (hV : V.NeverClosed) (a : V.α) :
      Built cfg good S s → Built cfg good (ConcurrencyLimit debug V S) ⟨s, a, false⟩
  | filter {R1 Req Res Err BErr : Type} {c st : Bool} {good : Res → Prop} {S : Service W Req Res Err}
      {s : S.σ} (into : Err → BErr) (check : R1 → W → Except BErr Req × W) :
      Built ⟨c, st⟩ good S s → Built ⟨c, st⟩ good (Filter into check S) s
  | asyncFilter {R1 Req Res Err BErr : Type} {c st : Bool} {good : Res → Prop} {S : Service W Req Res Err}
      {s : S.σ} (into : Err → BErr) (P : Fut W (Except BErr Req)) (check : R1 → W → P.φ × W)
      (hP : ∀ r w, FutSafe P (fun _ => True) (check r w).1) :
      Built ⟨true, st⟩ good S s → Built ⟨c, st⟩ good (AsyncFilter into P check S) s
  | retry {Req Res Err : Type} {c st : Bool} {good : Res → Prop} {S : Service W Req Res Err} {s : S.σ}
      (fuel : Nat) (P : RetryPolicy W Req Res Err)
      (hP : ∀ π req res w, (P.retry π req res w).1.1 = none →
        OkGood good res → OkGood good (P.retry π req res w).1.2.2.2) (π : P.π) :
      Built ⟨true, st⟩ good S s → Built ⟨c, st⟩ good (Retry fuel P S) ⟨π, s⟩
  | steer {Req Res Err : Type} {c st : Bool} {good : Res → Prop} {S : Service W Req Res Err} {ss : List S.σ}
      (pick : Req → List S.σ → W → Nat × W)
      (hpick : ∀ r ss w, ss ≠ [] → (pick r ss w).1 < ss.length) (hne : ss ≠ []) :
      (∀ s ∈ ss, Built ⟨c, st⟩ good S s) → Built ⟨false, true⟩ good (Steer S pick) (Steer.new ss)
  | reconnect {Tgt Req Res E1 Err : Type} {c st c' st' : Bool} {good : Res → Prop} (fuel : Nat)
      {S : Service W Req Res Err} {M : Service W Tgt S.σ E1} (t : Tgt) {mk : M.σ} :
      Built ⟨c', st'⟩ (fun s => SafeG ⟨c, st⟩ good S s) M mk →
      Built ⟨false, false⟩ good (Reconnect fuel S M t) (Reconnect.new mk)
  | reconnectWith {Tgt Req Res E1 Err : Type} {c st c' st' : Bool} {good : Res → Prop} (fuel : Nat)
      {S : Service W Req Res Err} {M : Service W Tgt S.σ E1} (t : Tgt) {mk : M.σ} {conn : S.σ} :
      Built ⟨c', st'⟩ (fun s => SafeG ⟨c, st⟩ good S s) M mk → Built ⟨c, st⟩ good S conn →
      Built ⟨false, false⟩ good (Reconnect fuel S M t) (Reconnect.withConnection conn mk)
  | spawnReady {Req Res Err : Type} {c st : Bool} {good : Res → Prop} {S : Service W Req Res Err} {s : S.σ}
      (fuel : Nat) (R : Runtime W) : Built ⟨c, st⟩ good S s →
      Built ⟨false, st⟩ good (SpawnReady fuel R S) (.service (some s))
  /-- `SpawnReady` with a runtime that does not catch panics of the background task but passes them on (`Verif/Spec/WatchSpec.lean`) -/
  | spawnReadyLoud {Req Res Err : Type} {c st : Bool} {good : Res → Prop} {S : Service W Req Res Err} {s : S.σ}
      (fuel : Nat) (R : Runtime W) : Built ⟨c, st⟩ good S s →
      Built ⟨false, st⟩ good (SpawnReadyLoud fuel R S) (.service (some s))
  | hedge {Req Res Err BErr : Type} {st : Bool} {good : Res → Prop} {S : Service W Req Res Err} {s : S.σ}
      (into : Err → BErr) (H : HedgeCfg W Req) : Built ⟨true, st⟩ good S s →
      Built ⟨false, st⟩ good (Hedge into H S) (Hedge.new S s)
  | constant {Req Res Err M : Type} {cfg : Cfg} {good : Res → Prop} {S : Service W Req Res Err} {s : S.σ} (m : M) :
      Built cfg good S s → Built cfg good (Constant M S) (s, m)
  /-- `PendingRequests`: any counting that does not panic -/
  | tracked {Req Res Res' Err : Type} {cfg : Cfg} {T : Tracker} {good : Res → Prop} {good' : Res' × Option T.H → Prop}
      {S : Service W Req Res Err} {s : S.σ} (hh : ∀ r m, T.handle.run r ≠ .panic m)
      (hd : ∀ h r m, (T.dropH h).run r ≠ .panic m) (C : Completion Res Res')
      (hg : ∀ v h, good v → good' (C.out v, h)) :
      Built cfg good S s → Built cfg good' (tracked T C S) s
  | shared {Tgt V E : Type} {cfg : Cfg} {good : V → Prop} (cloneV : V → V) (hcl : ∀ v, good v → good (cloneV v))
      {v : V} (hv : good v) : Built cfg good (Shared (W := W) (Tgt := Tgt) V cloneV E) v
  | intoService {Tgt Res Err : Type} {cfg : Cfg} {good : Res → Prop} {M : Service W Tgt Res Err} {s : M.σ} :
      Built cfg good M s → Built cfg good (IntoService M) s
  /-- A balancer over any discovery that, in all states it can get into (`J`), does not panic and inserts
  only services that are themselves built so; and over any load metric that does not panic. -/
  | balance {Req Res Err K DErr BErr : Type} [DecidableEq K] {c st : Bool} {good : Res → Prop}
      {B : BalCfg W Req Res Err K DErr BErr} (fuel : Nat) (J : B.D.δ → Prop)
      (keeps : ∀ d w p d' w', J d → (B.D.poll d).run w = .ok (p, d') w' →
        (∀ e, p ≠ .ready (some (.error e))) → J d')
      (calm : ∀ d w m, J d → (B.D.poll d).run w ≠ .panic m)
      (load : ∀ s w m, (B.L.load s).run w ≠ .panic m) {d : B.D.δ} (hd : J d) (r : B.G.ρ) :
      (∀ d w k s d' w', J d → (B.D.poll d).run w = .ok (.ready (some (.ok (.insert k s))), d') w' →
        Built ⟨c, st⟩ good B.S s) →
      Built ⟨false, false⟩ good (balance B fuel) (Balance.fromRng B d r)
  | makeBalance {Tgt MErr Req Res Err K DErr BErr : Type} [DecidableEq K] {cfg : Cfg}
      {B : BalCfg W Req Res Err K DErr BErr} {seed : Act W B.G.ρ} (hs : ∀ w m, seed.run w ≠ .panic m)
      {M : Service W Tgt B.D.δ MErr} {good : B.D.δ → Prop} {good' : Balance B → Prop}
      (hg : ∀ d r, good d → good' (Balance.fromRng B d r)) {s : M.σ} :
      Built cfg good M s → Built cfg good' (makeBalance B seed M) s

section
variable {W : Type}

/-- **C01, C02, C03.** Every stack keeps the contract in the configuration it was built for: no panic ever
(C01), sticky if `cfg.sticky` (C02), clones independent if `cfg.clone` (C03). -/
theorem Built.contract {Req Res Err : Type} {cfg : Cfg} {good : Res → Prop} {S : Service W Req Res Err}
    {s : S.σ} (h : Built cfg good S s) : SafeG cfg good S s := by
  induction h with
  | base h => exact h
  | weaken hc hst hg _ ih => exact ih.mono hc hst hg
  | mapRequest f _ ih => exact MapRequest.safe f ih
  | mapResponse f hf _ ih => exact MapResponse.safe f hf ih
  | mapErr f _ ih => exact MapErr.safe f ih
  | mapResult into f hf _ ih => exact MapResult.safe into f hf ih
  | mapFuture into G f hf _ ih => exact MapFuture.safe into G f hf ih
  | thenF into G f hf _ ih => exact Then.safe into G f hf ih
  | andThen into G f hf _ ih => exact AndThen.safe into G f hf ih
  | eitherLeft _ ih => exact Either.safe_left ih
  | eitherRight _ ih => exact Either.safe_right ih
  | optionalSome _ ih => exact Optional.safe_some ih
  | optionalNone => exact Optional.safe_none
  | serviceFn F f hf => exact ServiceFn.safe F f hf
  | futureService F fclone hcl hf => exact FutureService.safe F fclone hcl hf
  | boxed _ ih => exact BoxService.safe ih
  | timeout C d _ ih => exact Timeout.safe C d ih
  | loadShed st' _ ih => exact LoadShed.safe ih
  | rateLimit C R now _ ih => exact RateLimit.safe C R rfl now ih
  | concurrencyLimit debug V hV a _ ih => exact ConcurrencyLimit.safe debug V hV a ih
  | filter into check _ ih => exact Filter.safe into check ih
  | asyncFilter into P check hP _ ih => exact AsyncFilter.safe into P check hP ih
  | retry fuel P hP π _ ih => exact Retry.safe fuel P hP π ih
  | steer pick hpick hne _ ih => exact Steer.safe pick hpick hne ih
  | reconnect fuel t _ ih => exact Reconnect.safe fuel t ih
  | reconnectWith fuel t _ _ ih1 ih2 => exact Reconnect.safe_withConnection fuel t ih1 ih2
  | spawnReady fuel R _ ih => exact SpawnReady.safe fuel R ih
  | spawnReadyLoud fuel R _ ih => exact SpawnReadyLoud.safe fuel R ih
  | hedge into H _ ih => exact Hedge.safe into H ih
  | constant m _ ih => exact Constant.safe m ih
  | tracked hh hd C hg _ ih => exact tracked.safe hh hd C hg ih
  | shared cloneV hcl hv => exact Shared.safe hcl hv
  | intoService _ ih => exact IntoService.safe ih
  | balance fuel J keeps calm load hd r _ ih => exact Balance.safe fuel ⟨keeps, calm, ih⟩ load hd r
  | makeBalance hs hg _ ih => exact makeBalance.safe _ hs hg ih

/-- **C01.** A stack over a monitored service never misuses it: put the checker `Monitor S` around any
service `S` that does not panic by itself; if the stack is built over it, the whole stack never panics,
hence never calls `S` unready, never uses it after a readiness failure and never polls a finished response
future of it. (tokio would hide a panic of the background task of `SpawnReady`; with `SpawnReadyLoud` in its place in the stack it is not hidden, and
`C01_background` says that this makes no other difference.) -/
theorem C01_never_misuses_inner {Req Res Err Req' Res' Err' : Type} {S : Service W Req Res Err} (hS : Total S)
    (s : S.σ) {cfg : Cfg} {good : Res' → Prop} {T : Service W Req' Res' Err'} {t : T.σ}
    (stack : Built ⟨true, false⟩ (fun _ => True) (Monitor S) (s, .idle) → Built cfg good T t) :
    SafeG cfg good T t :=
  (stack (.base (Monitor.safe hS s true))).contract

/-- **C01, in the background.** Over any service that keeps the contract, and used lawfully, `SpawnReady` with a runtime that hides panics of its background
task and with one that passes them on are the same: no poll in the background panics. For every history of uses, every schedule and every moment `w`. -/
theorem C01_background {Req Res Err : Type} {c st : Bool} {good : Res → Prop} {S : Service W Req Res Err} {s : S.σ} (h : SafeG ⟨c, st⟩ good S s)
    {fuel : Nat} {R : Runtime W} {x : (SpawnReady fuel R S).σ} {m : Mode} {reqs : List Req} (hu : Uses (SpawnReady fuel R S) (.service (some s)) x m reqs)
    (hm : m ≠ .failed) (w : W) : ((SpawnReadyLoud fuel R S).pollReady x).run w = ((SpawnReady fuel R S).pollReady x).run w ∧
    ∀ t, x = .future t → taskPanics S (R.sched w) t = false := by
  obtain ⟨I, hI⟩ := h.inv
  have key : m ≠ .failed → SpawnInv I m x := by
    clear hm
    induction hu with
    | new => exact fun _ => ⟨.idle, by simp, hI, by simp⟩
    | @ready y m0 _ v v' p y' _ hm0 hr ih =>
      intro hp
      have h1 := spawnPoll_wp I R fuel m0 y (ih hm0) v
      unfold wp at h1
      simp only [SpawnReady] at hr
      simp only [hr] at h1
      match p, h1, hp with
      | .ready (.ok ()), h1, _ => exact h1
      | .ready (.error e), _, hp => exact absurd rfl hp
      | .pending, h1, _ => exact h1.1
    | @call y _ r v v' f y' _ hr ih =>
      intro _
      have h1 := ih (by simp)
      match y, h1 with
      | .service (some s1), ⟨m', _, hs, hr'⟩ =>
        have := hr' rfl
        subst this
        have h2 := I.call_ok s1 r v hs
        unfold wp at h2
        simp only [SpawnReady, run_bind] at hr
        cases hc : (S.call s1 r).run v with
        | panic _ => simp [hc] at hr
        | spin => simp [hc] at hr
        | ok a v1 =>
          simp only [hc, run_pure] at hr h2
          have := congrArg Prod.snd (Out.ok.inj hr).1
          simp only at this
          subst this
          exact ⟨.idle, by simp, h2.2, by simp⟩
      | .service none, h1 => exact h1.elim
      | .future (.running s), h1 => exact absurd h1.1 (by simp)
      | .future (.done (.ok s)), h1 => exact absurd h1.1 (by simp)
      | .future (.done (.error s)), h1 => cases h1
      | .future .failed, h1 => cases h1
      | .future .taken, h1 => exact h1.elim
  have hx := key hm
  refine ⟨loudPoll_eq I R fuel m x hx w, ?_⟩
  rintro t rfl
  have hmi : m = .idle := by
    cases t with
    | running s => exact hx.1
    | failed => exact hx
    | taken => exact hx.elim
    | done r => cases r with
      | ok s => exact hx.1
      | error e => exact hx
  subst hmi
  exact taskPanics_false I _ t hx

/-- **C02.** Any stack built for stickiness never goes from ready back to pending. (That it is possible to
build it for stickiness is the content of the constructors of `Built`: all but `Reconnect` and
`Balance` keep `cfg.sticky`; `LoadShed` and `Steer` even add it.) -/
theorem C02_sticky {Req Res Err : Type} {c : Bool} {good : Res → Prop} {S : Service W Req Res Err} {s : S.σ}
    (h : Built ⟨c, true⟩ good S s) (ops : List (Op W Req)) : Sess.Safe ⟨c, true⟩ good S ⟨[(s, .idle)], []⟩ ops :=
  h.contract ops

/-- **C03.** In any stack built for cloning, every handle obtained by any sequence of clones obeys the
contract separately. -/
theorem C03_clones {Req Res Err : Type} {st : Bool} {good : Res → Prop} {S : Service W Req Res Err} {s : S.σ}
    (h : Built ⟨true, st⟩ good S s) (ops : List (Op W Req)) : Sess.Safe ⟨true, st⟩ good S ⟨[(s, .idle)], []⟩ ops :=
  h.contract ops

end

/-! ## Concrete cases, and where the contract fails -/

namespace Demo

/-- World: a number the environment chooses at each step. -/
abbrev N := Nat

/-- Echo: ready in worlds ≥ 1; the response future is ready in worlds ≥ 2. -/
def echo : Service N Nat Nat Nat where
  σ := Unit
  φ := Nat
  pollReady _ := ⟨fun w => .ok (if w ≥ 1 then .ready (.ok ()) else .pending, ()) w⟩
  call _ r := pure (r, ())
  poll r := ⟨fun w => .ok (if w ≥ 2 then .ready (.ok r) else .pending, r) w⟩
  clone := id

theorem echo_total : Total echo :=
  ⟨fun _ _ _ h => (by simp [echo] at h), fun _ _ _ _ h => (by simp [echo] at h),
   fun _ _ _ h => (by simp [echo] at h)⟩

/-- A semaphore whose permits are granted in worlds ≥ 1. -/
def sem : SemView N := ⟨Unit, fun _ w => ((if w ≥ 1 then .ready true else .pending, ()), w), id⟩

def clk : Clock N := { now := id, fired := fun d w => decide (d ≤ w), sound := fun d w h => by simpa using h }

/-- A policy that retries twice. -/
def twice : RetryPolicy N Nat Nat (TimeoutErr Nat) where
  π := Nat
  ρ := Unit
  retry π r res w := ((if π > 0 then some () else none, π - 1, r, res), w)
  cloneRequest π r w := ((some r, π), w)
  wait _ w := ((.ready (), ()), w)
  clone := id

/-- `LoadShed(Retry(Timeout(ConcurrencyLimit(Monitor(echo)))))`, clonable and sticky. -/
example : SafeG ⟨true, true⟩ (fun _ => True)
    (LoadShed (Retry 10 twice (Timeout clk 5 (ConcurrencyLimit true sem (Monitor echo)))))
    ⟨⟨(2 : Nat), ⟨((), .idle), (), false⟩⟩, false⟩ :=
  C01_never_misuses_inner echo_total () (fun h =>
    .loadShed true (.retry 10 twice (fun _ _ _ _ _ h => h) (2 : Nat)
      (.timeout clk 5 (.concurrencyLimit true sem (by
        intro a w; simp only [sem]; split <;> simp) () h))))

/-- and such a caller really gets through to the response (the contract is not kept by never running). -/
example : Sess.step ⟨true, false⟩ (fun _ => True) (Monitor echo)
    ⟨[(((), .ready), .ready)], []⟩ (.call 0 7 1) = .next ⟨[(((), .idle), .idle)], [some (some (7 : Nat))]⟩ := rfl

/-- The checker does detect misuse: calling it without readiness panics. -/
example : ((Monitor echo).call ((), .idle) 7).run 1 = .panic "call without readiness" := rfl

/-! ### The background task of `SpawnReady` -/

/-- the runtime polls the background task in world 0, and from world 3 on also in world 1 -/
def bgRt : Runtime N := ⟨fun w => if w ≥ 3 then [0, 1] else [0], fun _ => false, id⟩

/-- The hypotheses of `C01_background` are met with a task in the background: the monitored echo was not ready, the task polls it on; at world 3 it is found ready. -/
example : Uses (SpawnReady 5 bgRt (Monitor echo)) (.service (some ((), .idle))) (.future (.running ((), .idle))) .idle [] ∧
    ((SpawnReadyLoud 5 bgRt (Monitor echo)).pollReady (.future (.running ((), .idle)))).run 3 = .ok (.ready (.ok ()), .service (some ((), .ready))) 3 :=
  ⟨.ready (w := 0) (w' := 0) (p := .pending) .new (by simp) rfl, rfl⟩

/-- a service that must not be polled in world 1 -/
def touchy : Service N Nat Nat Nat := { echo with pollReady := fun _ => ⟨fun w => if w = 1 then .panic "touchy" else .ok (.pending, ()) w⟩ }

/-- Over a service that does panic, the two runtimes differ: one reports an error of the task, the other panics. -/
example : ((SpawnReady 5 bgRt touchy).pollReady (.future (.running ()))).run 3 = .ok (.ready (.error .join), .future .taken) 3 ∧
    ((SpawnReadyLoud 5 bgRt touchy).pollReady (.future (.running ()))).run 3 = .panic "the background task panicked" := ⟨rfl, rfl⟩

/-! ### C03 fails for `Steer` -/

/-- **Finding (C03).** `Steer::clone` (`tower/src/steer/mod.rs:171-184`) copies `not_ready`. Clone a Steer
that is ready: the clone reports ready without polling its own fresh inner services, and `call` then calls
an unready inner service. -/
theorem C03_steer_clone_violates :
    ¬ SafeG ⟨true, false⟩ (fun _ => True) (Steer (Monitor echo) (fun _ _ w => (0, w)))
      (Steer.new [((), .idle)]) := by
  intro h
  exact h [.ready 0 1, .clone 0, .ready 1 0, .call 1 7 0]

/-- although the monitored inner services keep the contract with clones -/
example : SafeG ⟨true, false⟩ (fun _ => True) (Monitor echo) ((), .idle) := Monitor.safe echo_total () true

/-! ### C02 fails for `Reconnect` -/

/-- Maker of echo connections: connecting fails in world 0, is pending in world 1, succeeds later. -/
def maker : Service N Unit Unit Nat where
  σ := Unit
  φ := Unit
  pollReady _ := pure (.ready (.ok ()), ())
  call _ _ := pure ((), ())
  poll _ := ⟨fun w => .ok (if w = 0 then .ready (.error 42) else if w = 1 then .pending else .ready (.ok ()), ()) w⟩
  clone := id

/-- Sticky connection: always ready. -/
def conn : Service N Nat Nat Nat := { echo with pollReady := fun _ => pure (.ready (.ok ()), ()) }

/-- **Finding (C02).** `Reconnect` is not sticky: a failed connection attempt is reported as `Ready(Ok)`;
polling again before `call` starts a new attempt and may return `Pending`
(`tower/src/reconnect/mod.rs:84-140`). -/
theorem C02_reconnect_violates :
    ¬ SafeG ⟨false, true⟩ (fun _ => True) (Reconnect 3 conn maker ()) (Reconnect.new ()) := by
  intro h
  exact h [.ready 0 0, .ready 0 1]

theorem maker_sticky : SafeG ⟨true, true⟩ (fun s => Safe ⟨true, true⟩ conn s) maker () := by
  have hconn : Safe ⟨true, true⟩ conn () := SafeInv.safe (S := conn)
    { H := fun _ _ => True, F := fun _ => True
      ready_ok := by intros; trivial
      call_ok := by intros; exact ⟨trivial, trivial⟩
      poll_ok := by
        intro f w _
        simp only [conn, echo, Act.wp, PollPost]
        split <;> simp_all <;> (split at * <;> simp_all)
      clone_ok := by intros; trivial } trivial
  exact SafeInv.safe (S := maker)
    { H := fun _ _ => True, F := fun _ => True
      ready_ok := by intros; trivial
      call_ok := by intros; exact ⟨trivial, trivial⟩
      poll_ok := by
        intro f w _
        simp only [maker, Act.wp]
        split
        · trivial
        · split
          · trivial
          · exact hconn
      clone_ok := by intros; trivial } trivial

/-! ### Balance -/

/-- discovery of monitored endpoints from a script; `none` is `Pending` -/
@[reducible] def disc : Discover N Nat (Unit × Mode) Nat where
  δ := List (Option (Except Nat (Change Nat (Unit × Mode))))
  poll l := match l with
    | [] => pure (.pending, [])
    | none :: l => pure (.pending, l)
    | some x :: l => pure (.ready (some x), l)

/-- A balancer over monitored endpoints, all of the same load. -/
@[reducible] def bal : BalCfg N Nat Nat Nat Nat Nat Nat where
  S := Monitor echo
  D := disc
  L := ⟨Nat, fun _ => pure 0, fun a b => decide (a ≤ b)⟩
  G := ⟨Nat, fun c => (c % 7, c + 1), fun c => by omega⟩
  V := ⟨fun n w => (List.range n, w)⟩
  fromErr := id
  fromDisc := id

/-- all the services in the script are fresh -/
def Fresh (l : disc.δ) : Prop := ∀ k s, some (.ok (.insert k s)) ∈ l → s = ((), .idle)

/-- **C01 for a balancer**, whatever discovery says: `LoadShed(Balance(Monitor(echo)))` never breaks the contract towards an
endpoint. -/
example (script : disc.δ) (h : Fresh script) : SafeG ⟨false, true⟩ (fun _ => True) (LoadShed (balance bal 9)) ⟨Balance.fromRng bal script 0, false⟩ :=
  C01_never_misuses_inner echo_total () (fun _ =>
    .loadShed true (.balance (B := bal) (c := true) (st := false) 9 Fresh
      (by
        rintro (_ | ⟨_ | x, l⟩) w p d' w' hj hr _
        · cases hr; exact hj
        · cases hr; exact fun k s hm => hj k s (List.mem_cons_of_mem _ hm)
        · cases hr; exact fun k s hm => hj k s (List.mem_cons_of_mem _ hm))
      (by rintro (_ | ⟨_ | x, l⟩) w m hj hr <;> cases hr)
      (by intro s w m hr; cases hr) h (0 : Nat)
      (by
        rintro (_ | ⟨_ | x, l⟩) w k s d' w' hj hr
        · cases hr
        · cases hr
        · cases hr
          rw [hj k s List.mem_cons_self]
          exact .base (Monitor.safe echo_total () true))))

/-- One endpoint, removed after it was reported ready. -/
def removed : disc.δ := [some (.ok (.insert 0 ((), .idle))), none, some (.ok (.remove 0)), none]

/-- The balancer gets through to the endpoint (the script is not one for which nothing happens). -/
example : ∃ b f b', ((balance bal 9).pollReady (Balance.fromRng bal removed 0)).run 1 = .ok (.ready (.ok ()), b) 1 ∧
    ((balance bal 9).call b 7).run 1 = .ok (f, b') 1 ∧ f = some (some (7 : Nat)) := ⟨_, _, _, rfl, rfl, rfl⟩

/-- **Finding (C02).** `Balance` is not sticky: if discovery removes the endpoint that was reported ready, `poll_ready` returns
`Pending` after `Ready(Ok)` (`tower/src/balance/p2c/service.rs:209-250`), even if every endpoint is sticky. -/
theorem C02_balance_violates :
    ¬ SafeG ⟨false, true⟩ (fun _ => True) (balance { bal with S := Monitor conn, L := ⟨Nat, fun _ => pure 0, fun a b => decide (a ≤ b)⟩ } 9)
      (Balance.fromRng _ removed (0 : Nat)) := by
  intro h
  exact h [.ready 0 1, .ready 0 1]

/-! ### C01: the hypothesis on the semaphore is needed -/

/-- A semaphore the user has closed (`ConcurrencyLimit::with_semaphore` takes a shared one). -/
def closedSem : SemView N := ⟨Unit, fun _ w => ((.ready false, ()), w), id⟩

/-- **Finding (C01).** With a closed semaphore (release build) `ConcurrencyLimit` reports ready without a
permit and `call` then panics. -/
theorem C01_closed_semaphore_violates :
    ¬ SafeG ⟨false, false⟩ (fun _ => True) (ConcurrencyLimit false closedSem echo) ⟨(), (), false⟩ := by
  intro h
  exact h [.ready 0 1, .call 0 7 1]

end Demo

end Tower
