import Verif.Core

/-!
# `tower/src/util`: the combinators

Closures are user code. `FnMut`/`FnOnce` closures are modelled as total functions that may read and
change the world (`A → W → B × W`): they may have effects and state (kept in the world) but do not panic.
`Into`/`From` error conversions are pure functions.
-/

namespace Tower

variable {W : Type}

/-- `MapRequest`, `tower/src/util/map_request.rs:10-61`. -/
def MapRequest {R1 R2 Res Err : Type} (f : R1 → W → R2 × W) (S : Service W R2 Res Err) :
    Service W R1 Res Err where
  σ := S.σ
  φ := S.φ
  pollReady s := S.pollReady s                       -- :53-55
  call s r := do                                     -- :58-60
    let r' ← Act.lift (f r)
    S.call s r'
  poll := S.poll                                     -- :50 `type Future = S::Future`
  clone := S.clone                                   -- derive(Clone) :9

/-- `MapResponse`, `tower/src/util/map_response.rs:11-77`; the future is futures-util's `MapOk`. -/
def MapResponse {Req R1 R2 Err : Type} (f : R1 → W → R2 × W) (S : Service W Req R1 Err) :
    Service W Req R2 Err where
  σ := S.σ
  φ := Option S.φ
  pollReady s := S.pollReady s                       -- :69-71
  call s r := do                                     -- :74-76
    let (x, s') ← S.call s r
    pure (some x, s')
  poll := mapFut S.poll (fun res => match res with   -- MapOk
    | .ok r => do
      let r' ← Act.lift (f r)
      pure (.ok r')
    | .error e => pure (.error e))
  clone := S.clone

/-- `MapErr`, `tower/src/util/map_err.rs:11-77`: the closure is also applied to readiness errors. The future is futures-util's `MapErr`. -/
def MapErr {Req Res E1 E2 : Type} (f : E1 → W → E2 × W) (S : Service W Req Res E1) :
    Service W Req Res E2 where
  σ := S.σ
  φ := Option S.φ
  pollReady s := do                                  -- :69-71
    let (p, s') ← S.pollReady s
    match p with
    | .pending => pure (.pending, s')
    | .ready (.ok ()) => pure (.ready (.ok ()), s')
    | .ready (.error e) => do
      let e' ← Act.lift (f e)
      pure (.ready (.error e'), s')
  call s r := do                                     -- :74-76
    let (x, s') ← S.call s r
    pure (some x, s')
  poll := mapFut S.poll (fun res => match res with
    | .ok r => pure (.ok r)
    | .error e => do
      let e' ← Act.lift (f e)
      pure (.error e'))
  clone := S.clone

/-- `MapResult`, `tower/src/util/map_result.rs:11-78`: the closure sees the whole result; a readiness
error is converted by `Into`. The future is futures-util's `Map`. -/
def MapResult {Req R1 R2 E1 E2 : Type} (into : E1 → E2) (f : Except E1 R1 → W → Except E2 R2 × W)
    (S : Service W Req R1 E1) : Service W Req R2 E2 where
  σ := S.σ
  φ := Option S.φ
  pollReady s := do                                  -- :70-72
    let (p, s') ← S.pollReady s
    pure (p.map (mapErr into), s')
  call s r := do                                     -- :75-77
    let (x, s') ← S.call s r
    pure (some x, s')
  poll := mapFut S.poll (fun res => Act.lift (f res))
  clone := S.clone

/-- `MapFuture`, `tower/src/util/map_future.rs:13-67`: the closure wraps the response future in another
future `G`. -/
def MapFuture {Req R1 R2 E1 E2 : Type} (into : E1 → E2) (S : Service W Req R1 E1)
    (G : Fut W (Except E2 R2)) (f : S.φ → W → G.φ × W) : Service W Req R2 E2 where
  σ := S.σ
  φ := G.φ
  pollReady s := do                                  -- :60-62
    let (p, s') ← S.pollReady s
    pure (p.map (mapErr into), s')
  call s r := do                                     -- :64-66
    let (x, s') ← S.call s r
    let g ← Act.lift (f x)
    pure (g, s')
  poll := G.poll
  clone := S.clone

/-- Future of `Then`/`AndThen`: futures-util's `Flatten<Map<..>>` state machine `First`/`Second`/`Empty`.
`done` is the state after completion; polling it panics. `tower/src/util/then.rs:42-82`, `tower/src/util/and_then.rs:45-109`. -/
inductive TwoStage (A B : Type) where
  | first (a : A)
  | second (b : B)
  | done

/-- Poll the second future; `done` afterwards (`Flatten::Second`). `tower/src/util/then.rs:42-82`, `tower/src/util/and_then.rs:45-109`. -/
def pollSecond {A Out : Type} (G : Fut W Out) (g : G.φ) : Act W (Poll Out × TwoStage A G.φ) := do
  let (q, g') ← G.poll g
  match q with
  | .pending => pure (.pending, .second g')
  | .ready out => pure (.ready out, .done)

/-- `Then`, `tower/src/util/then.rs:14-82` with `futures_util::future::Then`: when the first future
completes, the closure makes the second future which is polled in the same `poll`. -/
def Then {Req R1 R2 E1 E2 : Type} (into : E1 → E2) (S : Service W Req R1 E1)
    (G : Fut W (Except E2 R2)) (f : Except E1 R1 → W → G.φ × W) : Service W Req R2 E2 where
  σ := S.σ
  φ := TwoStage S.φ G.φ
  pollReady s := do                                  -- :74-76
    let (p, s') ← S.pollReady s
    pure (p.map (mapErr into), s')
  call s r := do                                     -- :79-81
    let (x, s') ← S.call s r
    pure (.first x, s')
  poll
    | .first x => do
      let (p, x') ← S.poll x
      match p with
      | .pending => pure (.pending, .first x')
      | .ready res => do
        let g ← Act.lift (f res)
        pollSecond G g
    | .second g => pollSecond G g
    | .done => Act.panic "Map must not be polled after it returned `Poll::Ready`"
  clone := S.clone

/-- `AndThen`, `tower/src/util/and_then.rs:14-109` with `futures_util::future::AndThen` over `ErrInto`:
the closure runs only on success. -/
def AndThen {Req R1 R2 E1 E2 : Type} (into : E1 → E2) (S : Service W Req R1 E1)
    (G : Fut W (Except E2 R2)) (f : R1 → W → G.φ × W) : Service W Req R2 E2 where
  σ := S.σ
  φ := TwoStage S.φ G.φ
  pollReady s := do                                  -- :102-104
    let (p, s') ← S.pollReady s
    pure (p.map (mapErr into), s')
  call s r := do                                     -- :106-108
    let (x, s') ← S.call s r
    pure (.first x, s')
  poll
    | .first x => do
      let (p, x') ← S.poll x
      match p with
      | .pending => pure (.pending, .first x')
      | .ready (.error e) => pure (.ready (.error (into e)), .done)
      | .ready (.ok r) => do
        let g ← Act.lift (f r)
        pollSecond G g
    | .second g => pollSecond G g
    | .done => Act.panic "TryFlatten polled after completion"
  clone := S.clone

/-- `Either` as a service, `tower/src/util/either.rs:20-88`. -/
def Either {Req Res Err : Type} (A B : Service W Req Res Err) : Service W Req Res Err where
  σ := A.σ ⊕ B.σ
  φ := A.φ ⊕ B.φ
  pollReady                                          -- :36-41
    | .inl a => do let (p, a') ← A.pollReady a; pure (p, .inl a')
    | .inr b => do let (p, b') ← B.pollReady b; pure (p, .inr b')
  call s r := match s with                           -- :43-56
    | .inl a => do let (x, a') ← A.call a r; pure (.inl x, .inl a')
    | .inr b => do let (x, b') ← B.call b r; pure (.inr x, .inr b')
  poll                                               -- :82-87
    | .inl x => do let (p, x') ← A.poll x; pure (p, .inl x')
    | .inr x => do let (p, x') ← B.poll x; pure (p, .inr x')
  clone                                              -- derive(Clone) :19
    | .inl a => .inl (A.clone a)
    | .inr b => .inr (B.clone b)

/-- Error type of `Optional`: `tower/src/util/optional/error.rs`, or the (boxed) inner error. `tower/src/util/optional/error.rs:1-21`. -/
inductive OptErr (E : Type) where
  | inner (e : E)
  | none
  deriving DecidableEq, Repr

/-- `Optional`, `tower/src/util/optional/mod.rs:20-59`, `tower/src/util/optional/future.rs:27-40`. -/
def Optional {Req Res Err : Type} (S : Service W Req Res Err) : Service W Req Res (OptErr Err) where
  σ := Option S.σ
  φ := Option S.φ
  pollReady                                          -- mod.rs:44-53
    | some s => do
      let (p, s') ← S.pollReady s
      pure (p.map (mapErr .inner), some s')
    | none => pure (.ready (.ok ()), none)
  call s r := match s with                           -- mod.rs:55-58
    | some s => do
      let (x, s') ← S.call s r
      pure (some x, some s')
    | none => pure (none, none)
  poll                                               -- future.rs:34-39
    | some x => do
      let (p, x') ← S.poll x
      pure (p.map (mapErr .inner), some x')
    | none => pure (.ready (.error .none), none)
  clone := Option.map S.clone

/-- `ServiceFn`, `tower/src/util/service_fn.rs:54-82`. -/
def ServiceFn {Req Res Err : Type} (F : Fut W (Except Err Res)) (f : Req → W → F.φ × W) :
    Service W Req Res Err where
  σ := Unit
  φ := F.φ
  pollReady _ := pure (.ready (.ok ()), ())          -- :75-77
  call _ r := do let x ← Act.lift (f r); pure (x, ()) -- :79-81
  poll := F.poll
  clone := id

/-- State of `FutureService`, `tower/src/util/future_service.rs:122-126`. -/
inductive FsState (F S : Type) where
  | future (f : F)
  | service (s : S)

/-- `FutureService`, `tower/src/util/future_service.rs:143-172`. The `loop` runs at most twice: `Future`
then `Service`, so it is unrolled. On a future error (`?` :157) the state stays `Future` with the finished
future. Clone is derived (`State: Clone`, future must be `Clone`): `fclone`. -/
def FutureService {Req Res Err : Type} (S : Service W Req Res Err) (F : Fut W (Except Err S.σ))
    (fclone : F.φ → F.φ) : Service W Req Res Err where
  σ := FsState F.φ S.σ
  φ := S.φ
  pollReady                                          -- :152-163
    | .future f => do
      let (p, f') ← F.poll f
      match p with
      | .pending => pure (.pending, .future f')
      | .ready (.error e) => pure (.ready (.error e), .future f')
      | .ready (.ok s) => do
        let (q, s') ← S.pollReady s
        pure (q, .service s')
    | .service s => do
      let (q, s') ← S.pollReady s
      pure (q, .service s')
  call s r := match s with                           -- :165-171
    | .service s => do
      let (x, s') ← S.call s r
      pure (x, .service s')
    | .future _ => Act.panic "FutureService::call was called before FutureService::poll_ready"
  poll := S.poll
  clone
    | .future f => .future (fclone f)
    | .service s => .service (S.clone s)

/-- `Box<S>`, `&mut S` (`tower-service/src/lib.rs:358-390`), `BoxService`, `BoxCloneService`,
`UnsyncBoxService`, `BoxCloneSyncService` (`tower/src/util/boxed/sync.rs:30-85`,
`tower/src/util/boxed/unsync.rs`, `tower/src/util/boxed_clone.rs:50-136`,
`tower/src/util/boxed_clone_sync.rs`): the service is put behind a pointer and the response future is
boxed (`map_future(|f| Box::pin(f) as _)`). A pointer to a value is modelled by the one-field structure
`Boxed`. -/
structure Boxed (α : Type) where
  val : α

/-- see `Boxed`. `tower/src/util/boxed/sync.rs:48-98`. -/
def BoxService {Req Res Err : Type} (S : Service W Req Res Err) : Service W Req Res Err where
  σ := Boxed S.σ
  φ := Boxed S.φ
  pollReady b := do let (p, s') ← S.pollReady b.val; pure (p, ⟨s'⟩)
  call b r := do let (x, s') ← S.call b.val r; pure (⟨x⟩, ⟨s'⟩)
  poll x := do let (p, x') ← S.poll x.val; pure (p, ⟨x'⟩)
  clone b := ⟨S.clone b.val⟩                          -- `clone_box`, boxed_clone.rs:118-121

/-- State of `Oneshot`, `tower/src/util/oneshot.rs:24-36`. `req` is an `Option` in the code but is `Some`
whenever the state is `NotReady`; kept. -/
inductive OneshotState (S Req F : Type) where
  | notReady (s : S) (req : Option Req)
  | called (f : F)
  | done

/-- `Oneshot::poll`, `tower/src/util/oneshot.rs:85-105`. The `loop` only moves `NotReady` → `Called`, so
it is unrolled. On an error the state is not changed (`?`). -/
def Oneshot {Req Res Err : Type} (S : Service W Req Res Err) : Fut W (Except Err Res) where
  φ := OneshotState S.σ Req S.φ
  poll
    | .notReady s req => do
      let (p, s') ← S.pollReady s
      match p with
      | .pending => pure (.pending, .notReady s' req)
      | .ready (.error e) => pure (.ready (.error e), .notReady s' req)
      | .ready (.ok ()) =>
        match req with
        | none => Act.panic "already called"
        | some r => do
          let (x, _) ← S.call s' r
          let (q, x') ← S.poll x
          match q with
          | .pending => pure (.pending, .called x')
          | .ready (.error e) => pure (.ready (.error e), .called x')
          | .ready (.ok a) => pure (.ready (.ok a), .done)
    | .called x => do
      let (q, x') ← S.poll x
      match q with
      | .pending => pure (.pending, .called x')
      | .ready (.error e) => pure (.ready (.error e), .called x')
      | .ready (.ok a) => pure (.ready (.ok a), .done)
    | .done => Act.panic "polled after complete"

/-- `ReadyOneshot::poll` (and `Ready`), `tower/src/util/ready.rs:37-52`: gives the service back when it
is ready. -/
def ReadyOneshot {Req Res Err : Type} (S : Service W Req Res Err) : Fut W (Except Err S.σ) where
  φ := Option S.σ
  poll
    | none => Act.panic "poll after Poll::Ready"
    | some s => do
      let (p, s') ← S.pollReady s
      match p with
      | .pending => pure (.pending, some s')
      | .ready (.error e) => pure (.ready (.error e), some s')
      | .ready (.ok ()) => pure (.ready (.ok s'), none)

end Tower
