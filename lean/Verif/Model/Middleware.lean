import Verif.Core

/-!
# Middlewares with one inner service

`timeout`, `load_shed`, `limit::rate`, `limit::concurrency` (as seen by one handle), `filter`, `retry`,
`steer`, `reconnect`, `spawn_ready`, `hedge`.
-/

namespace Tower

variable {W : Type}

/-! ## timeout -/

/-- `tower/src/timeout/error.rs` `Elapsed`, or the (boxed) inner error. `tower/src/timeout/error.rs:6-13`. -/
inductive TimeoutErr (E : Type) where
  | inner (e : E)
  | elapsed
  deriving DecidableEq, Repr

/-- `Timeout`, `tower/src/timeout/mod.rs:48-70`, `tower/src/timeout/future.rs:31-53`. The future carries
the inner future and the deadline of its `Sleep`, `call time + timeout` (`tokio::time::sleep`, mod.rs:66;
tokio caps the deadline at about 30 years, which is not modelled). -/
def Timeout {Req Res Err : Type} (C : Clock W) (d : Nat) (S : Service W Req Res Err) :
    Service W Req Res (TimeoutErr Err) where
  σ := S.σ
  φ := S.φ × Nat
  pollReady s := do                                  -- mod.rs:57-62
    let (p, s') ← S.pollReady s
    pure (p.map (mapErr .inner), s')
  call s r := do                                     -- mod.rs:64-69
    let (x, s') ← S.call s r
    let w ← Act.get
    pure ((x, C.now w + d), s')
  poll x := do                                       -- future.rs:38-52
    let (p, y) ← S.poll x.1
    match p with
    | .ready v => pure (.ready (mapErr .inner v), (y, x.2))
    | .pending => do
      let w ← Act.get
      if C.fired x.2 w = true then pure (.ready (.error .elapsed), (y, x.2))
      else do
        Act.modify (C.arm x.2)
        pure (.pending, (y, x.2))
  clone := S.clone

/-! ## load_shed -/

/-- `tower/src/load_shed/error.rs` `Overloaded`, or the (boxed) inner error. `tower/src/load_shed/error.rs:10-20`. -/
inductive ShedErr (E : Type) where
  | inner (e : E)
  | overloaded
  deriving DecidableEq, Repr

/-- `LoadShed`, `tower/src/load_shed/mod.rs:17-32`. -/
structure ShedState (α : Type) where
  inner : α
  isReady : Bool

/-- `LoadShed`, `tower/src/load_shed/mod.rs:34-76`, `tower/src/load_shed/future.rs:48-63`
(`none` is `ResponseState::Overloaded`). -/
def LoadShed {Req Res Err : Type} (S : Service W Req Res Err) : Service W Req Res (ShedErr Err) where
  σ := ShedState S.σ
  φ := Option S.φ
  pollReady s := do                                  -- mod.rs:43-54
    let (p, i) ← S.pollReady s.inner
    match p with
    | .ready (.error e) => pure (.ready (.error (.inner e)), ⟨i, s.isReady⟩)   -- early return, :47
    | .ready (.ok ()) => pure (.ready (.ok ()), ⟨i, true⟩)
    | .pending => pure (.ready (.ok ()), ⟨i, false⟩)
  call s r :=                                        -- mod.rs:56-64
    if s.isReady then do
      let (x, i) ← S.call s.inner r
      pure (some x, ⟨i, false⟩)
    else pure (none, s)
  poll                                               -- future.rs:55-62
    | some x => do
      let (p, x') ← S.poll x
      pure (p.map (mapErr .inner), some x')
    | none => pure (.ready (.error .overloaded), none)
  clone s := ⟨S.clone s.inner, false⟩                -- mod.rs:67-76

/-! ## limit::rate -/

/-- `State`, `tower/src/limit/rate/service.rs:22-26`. -/
inductive RateSt where
  | limited
  | ready (until' : Nat) (rem : Nat)
  deriving DecidableEq, Repr

/-- `RateLimit`, `tower/src/limit/rate/service.rs:14-19`; `sleep` is the deadline of the `Sleep`. -/
structure RateState (α : Type) where
  inner : α
  st : RateSt
  sleep : Nat

/-- `Rate`, `tower/src/limit/rate/rate.rs:6-30`; `Rate::new` asserts `num > 0` and `per > 0`. -/
structure Rate where
  num : Nat
  per : Nat

/-- The pure part of `RateLimit::call`, `tower/src/limit/rate/service.rs:92-116`: new state and sleep
deadline, or `none` for the panic. -/
def rateTake (R : Rate) (now : Nat) (st : RateSt) (sleep : Nat) : Option (RateSt × Nat) :=
  match st with
  | .limited => none                                                         -- :116
  | .ready u m =>
    let (u, m) := if now ≥ u then (now + R.per, R.num) else (u, m)           -- :97-100
    if m > 1 then some (.ready u (m - 1), sleep)                             -- :102-104
    else some (.limited, u)                                                  -- :105-111

/-- `RateLimit`, `tower/src/limit/rate/service.rs:64-119`. Not `Clone`. `Instant + Duration` overflow is
not modelled. -/
def RateLimit {Req Res Err : Type} (C : Clock W) (R : Rate) (S : Service W Req Res Err) :
    Service W Req Res Err where
  σ := RateState S.σ
  φ := S.φ
  pollReady s :=                                     -- :72-89
    match s.st with
    | .ready _ _ => do
      let (p, i) ← S.pollReady s.inner
      pure (p, { s with inner := i })
    | .limited => do
      let w ← Act.get
      if C.fired s.sleep w = true then do
        let w ← Act.get
        let st := RateSt.ready (C.now w + R.per) R.num
        let (p, i) ← S.pollReady s.inner
        pure (p, ⟨i, st, s.sleep⟩)
      else do
        Act.modify (C.arm s.sleep)
        pure (.pending, s)
  call s r := do                                     -- :91-118
    let w ← Act.get
    match rateTake R (C.now w) s.st s.sleep with
    | none => Act.panic "service not ready; poll_ready must be called first"
    | some (st, sleep) => do
      let (x, i) ← S.call s.inner r
      pure (x, ⟨i, st, sleep⟩)
  poll := S.poll
  clone := id

/-- `RateLimit::new`, `tower/src/limit/rate/service.rs:30-46`. -/
def RateLimit.new {α : Type} (R : Rate) (now : Nat) (inner : α) : RateState α :=
  ⟨inner, .ready now R.num, now⟩

/-! ## limit::concurrency, one handle -/

/-- A handle's view of the shared `PollSemaphore` (tokio-util): its private state `α` (the pending
acquire future, if any), `poll_acquire` (`ready true`: got a permit, `ready false`: semaphore closed) and
what `clone` gives. The semaphore itself lives in the world; the full protocol is in
`Verif/Model/Semaphore.lean`. Used at `tower/src/limit/concurrency/service.rs:17, 69`. -/
structure SemView (W : Type) where
  α : Type
  pollAcquire : α → W → (Poll Bool × α) × W
  fresh : α → α

/-- nobody closes the semaphore. See `tower/src/limit/concurrency/service.rs:70-75`. -/
def SemView.NeverClosed (V : SemView W) : Prop := ∀ a w, (V.pollAcquire a w).1.1 ≠ .ready false

/-- `ConcurrencyLimit`, `tower/src/limit/concurrency/service.rs:15-24`. -/
structure ConcState (α β : Type) where
  inner : α
  sem : β
  permit : Bool

/-- `ConcurrencyLimit`, `tower/src/limit/concurrency/service.rs:57-107`,
`tower/src/limit/concurrency/future.rs:32-41`. `debug` is `cfg!(debug_assertions)`. The future's permit
is returned when it is dropped, which is not an operation at this level. -/
def ConcurrencyLimit {Req Res Err : Type} (debug : Bool) (V : SemView W) (S : Service W Req Res Err) :
    Service W Req Res Err where
  σ := ConcState S.σ V.α
  φ := S.φ
  pollReady s :=                                     -- service.rs:65-80
    if s.permit then do
      let (p, i) ← S.pollReady s.inner
      pure (p, { s with inner := i })
    else do
      let (p, a) ← Act.lift (V.pollAcquire s.sem)
      match p with
      | .pending => pure (.pending, { s with sem := a })
      | .ready got =>
        if debug && !got then Act.panic "ConcurrencyLimit semaphore is never closed"
        else do
          let (p, i) ← S.pollReady s.inner
          pure (p, ⟨i, a, got⟩)
  call s r :=                                        -- service.rs:82-93
    if s.permit then do
      let (x, i) ← S.call s.inner r
      pure (x, ⟨i, s.sem, false⟩)
    else Act.panic "max requests in-flight; poll_ready must be called first"
  poll := S.poll                                     -- future.rs:38-40
  clone s := ⟨S.clone s.inner, V.fresh s.sem, false⟩ -- service.rs:96-107

/-! ## filter -/

/-- `Filter`, `tower/src/filter/mod.rs:100-120`: error is `BoxError`, here the sum of the predicate's and
the inner error through `into`. The future is `Either<Ready<Err>, ErrInto<inner>>`: `inl e` is the ready
error future, `inr x` the inner one (`none` once it is complete: polling again panics). -/
def Filter {R1 R2 Res Err BErr : Type} (into : Err → BErr) (check : R1 → W → Except BErr R2 × W)
    (S : Service W R2 Res Err) : Service W R1 Res BErr where
  σ := S.σ
  φ := Option BErr ⊕ Option S.φ
  pollReady s := do                                  -- :110-112
    let (p, s') ← S.pollReady s
    pure (p.map (mapErr into), s')
  call s r := do                                     -- :114-119
    let c ← Act.lift (check r)
    match c with
    | .ok r' => do
      let (x, s') ← S.call s r'
      pure (.inr (some x), s')
    | .error e => pure (.inl (some e), s)
  poll
    | .inl (some e) => pure (.ready (.error e), .inl none)
    | .inl none => Act.panic "Ready polled after completion"
    | .inr x => do
      let (p, x') ← mapFut S.poll (fun res => pure (mapErr into res)) x
      pure (p, .inr x')
  clone := S.clone

/-- `State`, `tower/src/filter/future.rs:46-57`, with the `service` field of `AsyncResponseFuture`. -/
inductive AsyncFilterFut (F S G : Type) where
  | check (f : F) (svc : S)
  | waitResponse (g : G)

/-- `AsyncFilter`, `tower/src/filter/mod.rs:162-191`, `tower/src/filter/future.rs:74-98`. `P` is the
predicate's future, whose output is already converted to `BErr` (`predicate.rs:46`). `call` moves the
inner service that was polled ready into the future and keeps its clone. The `loop` is unrolled. -/
def AsyncFilter {R1 R2 Res Err BErr : Type} (into : Err → BErr) (P : Fut W (Except BErr R2))
    (check : R1 → W → P.φ × W) (S : Service W R2 Res Err) : Service W R1 Res BErr where
  σ := S.σ
  φ := AsyncFilterFut P.φ S.σ S.φ
  pollReady s := do                                  -- mod.rs:172-174
    let (p, s') ← S.pollReady s
    pure (p.map (mapErr into), s')
  call s r := do                                     -- mod.rs:176-190
    let fresh := S.clone s
    let c ← Act.lift (check r)
    pure (.check c s, fresh)
  poll                                               -- future.rs:82-97
    | .check c s => do
      let (p, c') ← P.poll c
      match p with
      | .pending => pure (.pending, .check c' s)
      | .ready (.error e) => pure (.ready (.error e), .check c' s)
      | .ready (.ok r) => do
        let (x, _) ← S.call s r
        let (q, x') ← S.poll x
        pure (q.map (mapErr into), .waitResponse x')
    | .waitResponse x => do
      let (q, x') ← S.poll x
      pure (q.map (mapErr into), .waitResponse x')
  clone := S.clone

/-! ## retry -/

/-- `Policy`, `tower/src/retry/policy.rs:46-90`: `retry(&mut self, &mut req, &mut result)` and
`clone_request(&mut self, &req)`, user code; `ρ` is the policy's future type. -/
structure RetryPolicy (W Req Res Err : Type) where
  π : Type
  ρ : Type
  retry : π → Req → Except Err Res → W → (Option ρ × π × Req × Except Err Res) × W
  cloneRequest : π → Req → W → (Option Req × π) × W
  wait : ρ → W → (Poll Unit × ρ) × W
  clone : π → π

/-- `Retry`, `tower/src/retry/mod.rs:42-45`. -/
structure RetryState (α β : Type) where
  policy : α
  service : β

/-- `State`, `tower/src/retry/future.rs:28-43`. -/
inductive RetrySt (F R : Type) where
  | called (f : F)
  | waiting (r : R)
  | retrying

/-- `ResponseFuture`, `tower/src/retry/future.rs:13-25`. -/
structure RetryFut (Req P S F R : Type) where
  request : Option Req
  retry : RetryState P S
  st : RetrySt F R

/-- Body of the `loop` in `ResponseFuture::poll`, `tower/src/retry/future.rs:75-118`: `inl` is `return`,
`inr` is the next iteration. -/
def retryStep {Req Res Err : Type} (P : RetryPolicy W Req Res Err) (S : Service W Req Res Err)
    (x : RetryFut Req P.π S.σ S.φ P.ρ) :
    Act W ((Poll (Except Err Res) × RetryFut Req P.π S.σ S.φ P.ρ) ⊕ RetryFut Req P.π S.σ S.φ P.ρ) :=
  match x.st with
  | .called f => do                                              -- :76-91
    let (p, f') ← S.poll f
    match p with
    | .pending => pure (.inl (.pending, { x with st := .called f' }))
    | .ready result =>
      match x.request with
      | some req => do
        let (o, π', req', result') ← Act.lift (P.retry x.retry.policy req result)
        match o with
        | some ρ => pure (.inr ⟨some req', ⟨π', x.retry.service⟩, .waiting ρ⟩)
        | none => pure (.inl (.ready result', ⟨some req', ⟨π', x.retry.service⟩, .called f'⟩))
      | none => pure (.inl (.ready result, { x with st := .called f' }))
  | .waiting r => do                                             -- :92-96
    let (p, r') ← Act.lift (P.wait r)
    match p with
    | .pending => pure (.inl (.pending, { x with st := .waiting r' }))
    | .ready () => pure (.inr { x with st := .retrying })
  | .retrying => do                                              -- :97-116
    let (p, s') ← S.pollReady x.retry.service
    match p with
    | .pending => pure (.inl (.pending, { x with retry := ⟨x.retry.policy, s'⟩ }))
    | .ready (.error e) => pure (.inl (.ready (.error e), { x with retry := ⟨x.retry.policy, s'⟩ }))
    | .ready (.ok ()) =>
      match x.request with
      | none => Act.panic "retrying requires cloned request"
      | some req => do
        let (o, π') ← Act.lift (P.cloneRequest x.retry.policy req)
        let (f, s'') ← S.call s' req
        pure (.inr ⟨o, ⟨π', s''⟩, .called f⟩)

/-- `ResponseFuture::poll`, `tower/src/retry/future.rs:72-119`. The loop has no bound in the code (each
attempt may complete at once); the model takes fuel. -/
def retryPoll {Req Res Err : Type} (P : RetryPolicy W Req Res Err) (S : Service W Req Res Err) :
    Nat → RetryFut Req P.π S.σ S.φ P.ρ →
      Act W (Poll (Except Err Res) × RetryFut Req P.π S.σ S.φ P.ρ)
  | 0, _ => Act.spin
  | n + 1, x => do
    let r ← retryStep P S x
    match r with
    | .inl out => pure out
    | .inr x' => retryPoll P S n x'

/-- `Retry`, `tower/src/retry/mod.rs:71-94`. `self.clone()` clones policy and service. -/
def Retry {Req Res Err : Type} (fuel : Nat) (P : RetryPolicy W Req Res Err)
    (S : Service W Req Res Err) : Service W Req Res Err where
  σ := RetryState P.π S.σ
  φ := RetryFut Req P.π S.σ S.φ P.ρ
  pollReady s := do                                  -- :80-85
    let (p, i) ← S.pollReady s.service
    pure (p, { s with service := i })
  call s r := do                                     -- :87-92
    let (cloned, π') ← Act.lift (P.cloneRequest s.policy r)
    let (f, i) ← S.call s.service r
    pure (⟨cloned, ⟨P.clone π', S.clone i⟩, .called f⟩, ⟨π', i⟩)
  poll := retryPoll P S fuel
  clone s := ⟨P.clone s.policy, S.clone s.service⟩

/-! ## steer -/

/-- `Steer`, `tower/src/steer/mod.rs:107-112` (the picker's state lives in the world). -/
structure SteerState (α : Type) where
  services : List α
  notReady : List Nat

/-- The `loop` of `Steer::poll_ready`, `tower/src/steer/mod.rs:139-156`, by recursion on `not_ready`
(each iteration pops one index). Indexing out of range panics. -/
def steerPoll {Req Res Err : Type} (S : Service W Req Res Err) (services : List S.σ) :
    List Nat → Act W (Poll (Except Err Unit) × SteerState S.σ)
  | [] => pure (.ready (.ok ()), ⟨services, []⟩)
  | i :: rest =>
    match services[i]? with
    | none => Act.panic "index out of bounds"
    | some s => do
      let (p, s') ← S.pollReady s
      match p with
      | .ready (.error e) => pure (.ready (.error e), ⟨services.set i s', i :: rest⟩)
      | .pending => pure (.pending, ⟨services.set i s', i :: rest⟩)
      | .ready (.ok ()) => steerPoll S (services.set i s') rest

/-- `Steer`, `tower/src/steer/mod.rs:130-184`. The picker sees the request and the services. -/
def Steer {Req Res Err : Type} (S : Service W Req Res Err) (pick : Req → List S.σ → W → Nat × W) :
    Service W Req Res Err where
  σ := SteerState S.σ
  φ := S.φ
  pollReady s := steerPoll S s.services s.notReady
  call s r :=                                        -- :158-168
    if s.notReady.isEmpty then do
      let i ← Act.lift (pick r s.services)
      match s.services[i]? with
      | none => Act.panic "index out of bounds"
      | some c => do
        let (x, c') ← S.call c r
        pure (x, ⟨s.services.set i c', s.notReady ++ [i]⟩)
    else Act.panic "Steer must wait for all services to be ready"
  poll := S.poll
  clone s := ⟨s.services.map S.clone, s.notReady⟩    -- :171-184: `not_ready` is copied

/-- `Steer::new`, `tower/src/steer/mod.rs:118-127`. -/
def Steer.new {α : Type} (services : List α) : SteerState α := ⟨services, List.range services.length⟩

/-! ## reconnect -/

/-- `State`, `tower/src/reconnect/mod.rs:41-45`. -/
inductive ReconSt (F S : Type) where
  | idle
  | connecting (f : F)
  | connected (s : S)

/-- `Reconnect`, `tower/src/reconnect/mod.rs:30-38` (`target` is a constant parameter). -/
structure ReconState (M F S E : Type) where
  maker : M
  st : ReconSt F S
  error : Option E

/-- `BoxError` of Reconnect: from the maker or from the connection. `tower/src/reconnect/mod.rs:72-83`. -/
inductive ReconErr (E1 E2 : Type) where
  | make (e : E1)
  | conn (e : E2)
  deriving DecidableEq, Repr

/-- The `loop` of `Reconnect::poll_ready`, `tower/src/reconnect/mod.rs:84-140`, with fuel: the code can
go round forever (connected service failing at once, maker succeeding at once). -/
def reconPoll {Tgt Req Res E1 E2 : Type} (S : Service W Req Res E2) (M : Service W Tgt S.σ E1) (t : Tgt) :
    Nat → ReconState M.σ M.φ S.σ E1 →
      Act W (Poll (Except (ReconErr E1 E2) Unit) × ReconState M.σ M.φ S.σ E1)
  | 0, _ => Act.spin
  | n + 1, x =>
    match x.st with
    | .idle => do                                    -- :87-100
      let (p, m) ← M.pollReady x.maker
      match p with
      | .ready (.error e) => pure (.ready (.error (.make e)), { x with maker := m })
      | .pending => pure (.pending, { x with maker := m })
      | .ready (.ok ()) => do
        let (f, m') ← M.call m t
        reconPoll S M t n { x with maker := m', st := .connecting f }
    | .connecting f => do                            -- :101-118
      let (p, f') ← M.poll f
      match p with
      | .ready (.ok s) => reconPoll S M t n { x with st := .connected s }
      | .pending => pure (.pending, { x with st := .connecting f' })
      | .ready (.error e) => pure (.ready (.ok ()), { x with st := .idle, error := some e })
    | .connected s => do                             -- :119-135
      let (p, s') ← S.pollReady s
      match p with
      | .ready (.ok ()) => pure (.ready (.ok ()), { x with st := .connected s' })
      | .pending => pure (.pending, { x with st := .connected s' })
      | .ready (.error _) => reconPoll S M t n { x with st := .idle }

/-- `Reconnect`, `tower/src/reconnect/mod.rs:72-155`, future `tower/src/reconnect/future.rs:55-73`
(`inr` is `Inner::Error`). Not `Clone`. -/
def Reconnect {Tgt Req Res E1 E2 : Type} (fuel : Nat) (S : Service W Req Res E2)
    (M : Service W Tgt S.σ E1) (t : Tgt) : Service W Req Res (ReconErr E1 E2) where
  σ := ReconState M.σ M.φ S.σ E1
  φ := S.φ ⊕ Option E1
  pollReady := reconPoll S M t fuel
  call x r :=                                        -- mod.rs:142-154
    match x.error with
    | some e => pure (.inr (some e), { x with error := none })
    | none =>
      match x.st with
      | .connected s => do
        let (f, s') ← S.call s r
        pure (.inl f, { x with st := .connected s' })
      | _ => Act.panic "service not ready; poll_ready must be called first"
  poll                                               -- future.rs:63-72
    | .inl f => do
      let (p, f') ← S.poll f
      pure (p.map (mapErr .conn), .inl f')
    | .inr (some e) => pure (.ready (.error (.make e)), .inr none)
    | .inr none => Act.panic "Polled after ready."
  clone := id

/-- `Reconnect::new`, `tower/src/reconnect/mod.rs:52-59`. -/
def Reconnect.new {M F S E : Type} (mk : M) : ReconState M F S E := ⟨mk, .idle, none⟩

/-- `Reconnect::with_connection`, `tower/src/reconnect/mod.rs:62-69`. -/
def Reconnect.withConnection {M F S E : Type} (conn : S) (mk : M) : ReconState M F S E :=
  ⟨mk, .connected conn, none⟩

/-! ## spawn_ready -/

/-- What the spawned task (`ready_oneshot`, `tower/src/util/ready.rs:37-52`) is at a given moment. -/
inductive TaskSt (S E : Type) where
  | running (s : S)
  | done (r : Except E S)
  /-- panicked, or cancelled by the runtime: a `JoinError` -/
  | failed
  /-- its `JoinHandle` has yielded the output or the `JoinError`: polled again, it panics (tokio) -/
  | taken

/-- `Inner`, `tower/src/spawn_ready/service.rs:22-25`. -/
inductive SpawnState (S E : Type) where
  | service (s : Option S)
  | future (t : TaskSt S E)

/-- `BoxError` of SpawnReady: the inner error or a `JoinError`. `tower/src/spawn_ready/service.rs:50-82`. -/
inductive SpawnErr (E : Type) where
  | inner (e : E)
  | join
  deriving DecidableEq, Repr

/-- What the runtime did with the spawned task: `sched w` lists the worlds in which the background task
was polled up to the moment `w` at which somebody looks at its `JoinHandle`; `killed w` says the runtime
cancelled the task (shutdown), if it had not finished before. `arm` is the effect of polling the `JoinHandle` of a task that runs: the waker is registered. For `tokio::spawn`, `tower/src/spawn_ready/service.rs:68-70`. -/
structure Runtime (W : Type) where
  sched : W → List W
  killed : W → Bool
  arm : W → W := id

/-- Run the background task: poll `ready_oneshot(svc)` in the given worlds until it finishes. `tower/src/spawn_ready/service.rs:68-70`, `tower/src/util/ready.rs:43-51`. -/
def runTask {Req Res Err : Type} (S : Service W Req Res Err) :
    List W → TaskSt S.σ Err → TaskSt S.σ Err
  | [], t => t
  | w :: ws, .running s =>
    match (S.pollReady s).run w with
    | .panic _ => .failed
    | .spin => .running s
    | .ok (.pending, s') _ => runTask S ws (.running s')
    | .ok (.ready (.ok ()), s') _ => .done (.ok s')
    | .ok (.ready (.error e), _) _ => .done (.error e)
  | _ :: _, t => t

/-- The task when its `JoinHandle` is polled. `tower/src/spawn_ready/service.rs:73`. -/
def taskAt {Req Res Err : Type} (R : Runtime W) (S : Service W Req Res Err) (w : W) (t : TaskSt S.σ Err) : TaskSt S.σ Err :=
  match runTask S (R.sched w) t with
  | .running s => if R.killed w = true then .failed else .running s
  | t' => t'

/-- The `loop` of `SpawnReady::poll_ready`, `tower/src/spawn_ready/service.rs:59-78`, with fuel (the
freshly spawned task may finish before its handle is polled). -/
def spawnPoll {Req Res Err : Type} (R : Runtime W) (S : Service W Req Res Err) :
    Nat → SpawnState S.σ Err → Act W (Poll (Except (SpawnErr Err) Unit) × SpawnState S.σ Err)
  | 0, _ => Act.spin
  | n + 1, x =>
    match x with
    | .service none => Act.panic "illegal state"     -- :63
    | .service (some s) => do                        -- :62-71
      let (p, s') ← S.pollReady s
      match p with
      | .ready r => pure (.ready (mapErr .inner r), .service (some s'))
      | .pending => spawnPoll R S n (.future (.running s'))
    | .future t => do                                -- :72-75
      let w ← Act.get
      match taskAt R S w t with
      | .running s => do
        Act.modify R.arm
        pure (.pending, .future (.running s))
      | .failed => pure (.ready (.error .join), .future .taken)
      | .taken => Act.panic "JoinHandle polled after completion"
      | .done (.error e) => pure (.ready (.error (.inner e)), .future .taken)
      | .done (.ok s) => spawnPoll R S n (.service (some s))

/-- `SpawnReady`, `tower/src/spawn_ready/service.rs:49-88`. Not `Clone`. -/
def SpawnReady {Req Res Err : Type} (fuel : Nat) (R : Runtime W) (S : Service W Req Res Err) :
    Service W Req Res (SpawnErr Err) where
  σ := SpawnState S.σ Err
  φ := Option S.φ
  pollReady := spawnPoll R S fuel
  call x r :=                                        -- :80-87
    match x with
    | .service (some s) => do
      let (f, s') ← S.call s r
      pure (some f, .service (some s'))
    | _ => Act.panic "poll_ready must be called"
  poll := mapFut S.poll (fun res => pure (mapErr .inner res))  -- spawn_ready/future.rs:5-8
  clone := id

end Tower
