import Verif.Model.RetryLimit

/-!
# `ServiceBuilder::new().spawn_ready().concurrency_limit(max)`: background tasks as tasks of their own

`SpawnReady` (`tower/src/spawn_ready/service.rs`) over `ConcurrencyLimit` (`tower/src/limit/concurrency/service.rs`). The background tasks are part of the state and run at any time; the semaphore is shared by
everything. Drops, `abort` and the shutdown of the runtime are included, so are panics of the inner `poll_ready` in a task (the runtime catches them).
-/

namespace Tower
variable {W Req Res Err : Type}

/-- A task spawned for `ready_oneshot`, `tower/src/spawn_ready/service.rs:68-69`, `tower/src/util/ready.rs:37-52`. -/
inductive STask (σ Err : Type) where
  /-- the future exists and is polled by the runtime -/
  | running (s : σ)
  /-- `abort` was called (and the `JoinHandle` dropped), the runtime has not dropped the future yet; tokio does not poll it any more (a poll that is under way on another thread counts as made before the abort) -/
  | aborted (s : σ)
  /-- finished, the output waits for the `JoinHandle` -/
  | output (r : Except Err σ)
  /-- panicked or cancelled by the runtime; the `JoinHandle` will yield a `JoinError` -/
  | failed
  /-- nothing left of it -/
  | gone

/-- `Inner`, `tower/src/spawn_ready/service.rs:22-26`; the `JoinHandle` names its task. -/
inductive SRInner (σ : Type) where
  | service (s : Option σ)
  | future (task : Nat)

/-- `SpawnReady`, `tower/src/spawn_ready/service.rs:17-20`. `polling`: `poll_ready` is running, between two iterations of its loop (it has the handle for itself). -/
structure SRHandle (σ : Type) where
  inner : SRInner σ
  polling : Bool

/-- What exists at a moment. `next` names the next `PollSemaphore`. `fs` are the limit's response futures that exist: `spawn_ready`'s response future is one in a `MapErr`, which drops it as soon as it is ready
(a `drop_future` right after that poll), or when it is dropped itself. `tower/src/spawn_ready/service.rs:17-26`, `tower/src/spawn_ready/future.rs:5-8`, `tower/src/limit/concurrency/service.rs:15-24`. -/
structure SRStack (S : Service W Req Res Err) where
  sem : Sem
  hs : List (SRHandle (ConcState S.σ Nat))
  ts : List (STask (ConcState S.σ Nat) Err)
  fs : List S.φ
  next : Nat

/-- What the `JoinHandle` shows when it is polled, `tower/src/spawn_ready/service.rs:72-75`: not finished; finished, the output or the `JoinError` is taken. (Polled once more it panics: `none`.) -/
inductive JoinPoll (σ Err : Type) where
  | pending
  | output (r : Except Err σ)
  | error

/-- Polling a `JoinHandle`: what it shows and what is left of the task. The dependency tokio, as used in `tower/src/spawn_ready/service.rs:73`. -/
def STask.join {σ Err : Type} : STask σ Err → Option (JoinPoll σ Err × STask σ Err)
  | .running s => some (.pending, .running s)
  | .aborted s => some (.pending, .aborted s)
  | .output r => some (.output r, .gone)
  | .failed => some (.error, .gone)
  | .gone => none

/-- The iteration of the loop of `poll_ready` in state `Inner::Future`, after the `JoinHandle` was polled: the handle afterwards (`polling = false`: `poll_ready` has returned). `tower/src/spawn_ready/service.rs:72-75` -/
def joinNext {σ Err : Type} (t : Nat) : JoinPoll σ Err → SRHandle σ
  | .pending => ⟨.future t, false⟩
  | .error => ⟨.future t, false⟩
  | .output (.error _) => ⟨.future t, false⟩
  | .output (.ok s) => ⟨.service (some s), true⟩

/-- `task.abort()` and then the drop of the `JoinHandle`, with the output if there is one: what is left of the task, and the semaphore. `tower/src/spawn_ready/service.rs:41-47`, and tokio. -/
def STask.abort {σ Err : Type} (sem : Sem) : STask (ConcState σ Nat) Err → STask (ConcState σ Nat) Err × Sem
  | .running s => (.aborted s, sem)
  | .aborted s => (.aborted s, sem)
  | .output (.ok s) => (.gone, dropLimit s sem)
  | .output (.error _) => (.gone, sem)
  | .failed => (.gone, sem)
  | .gone => (.gone, sem)

/-- One poll of the future of a task by the runtime: `ready_oneshot`, `tower/src/util/ready.rs:43-51`. If the service fails, the future (with the service) is dropped. -/
def taskDone {σ : Type} (p : Poll (Except Err Unit)) (s : ConcState σ Nat) (sem : Sem) : STask (ConcState σ Nat) Err × Sem :=
  match p with
  | .pending => (.running s, sem)
  | .ready (.ok ()) => (.output (.ok s), sem)
  | .ready (.error e) => (.output (.error e), dropLimit s sem)

/-- One step of the stack, its users and the runtime. Every operation is that of the code of the two middlewares, in every world; what the inner service does is arbitrary. `poll_ready` is one step for each iteration of its loop.
`tower/src/spawn_ready/service.rs:41-87`, `tower/src/limit/concurrency/service.rs:65-107`. -/
inductive SRStep (debug : Bool) (S : Service W Req Res Err) : SRStack S → SRStack S → Prop
  /-- another `SpawnReady`, over another service behind the same semaphore (a clone of the limit, or made by a `GlobalConcurrencyLimitLayer`): spawn_ready/service.rs:29-33 -/
  | layer {x : SRStack S} (i : S.σ) : SRStep debug S x { x with hs := ⟨.service (some ⟨i, x.next, false⟩), false⟩ :: x.hs, next := x.next + 1 }
  /-- `poll_ready` begins -/
  | enter {x : SRStack S} {l r : List (SRHandle (ConcState S.σ Nat))} {i : SRInner (ConcState S.σ Nat)} : x.hs = l ++ ⟨i, false⟩ :: r → SRStep debug S x { x with hs := l ++ ⟨i, true⟩ :: r }
  /-- an iteration with `Inner::Service`: the service is ready, or fails, and `poll_ready` returns: spawn_ready/service.rs:62-65 -/
  | returns {x : SRStack S} {l r : List (SRHandle (ConcState S.σ Nat))} {s s' : ConcState S.σ Nat} {res sem' w w'} : x.hs = l ++ ⟨.service (some s), true⟩ :: r →
      ((LimSvc debug S).pollReady s).run (x.sem, w) = .ok (.ready res, s') (sem', w') → SRStep debug S x { x with sem := sem', hs := l ++ ⟨.service (some s'), false⟩ :: r }
  /-- an iteration with `Inner::Service`: the service is not ready; a task is spawned for it: spawn_ready/service.rs:67-70 -/
  | spawns {x : SRStack S} {l r : List (SRHandle (ConcState S.σ Nat))} {s s' : ConcState S.σ Nat} {sem' w w'} : x.hs = l ++ ⟨.service (some s), true⟩ :: r →
      ((LimSvc debug S).pollReady s).run (x.sem, w) = .ok (.pending, s') (sem', w') →
      SRStep debug S x { x with sem := sem', hs := l ++ ⟨.future x.ts.length, true⟩ :: r, ts := x.ts ++ [.running s'] }
  /-- an iteration with `Inner::Future`: spawn_ready/service.rs:72-75 -/
  | joins {x : SRStack S} {l r : List (SRHandle (ConcState S.σ Nat))} {tl tr : List (STask (ConcState S.σ Nat) Err)} {t t' : STask (ConcState S.σ Nat) Err} {p : JoinPoll (ConcState S.σ Nat) Err} :
      x.hs = l ++ ⟨.future tl.length, true⟩ :: r → x.ts = tl ++ t :: tr → t.join = some (p, t') → SRStep debug S x { x with hs := l ++ joinNext tl.length p :: r, ts := tl ++ t' :: tr }
  /-- `call`, spawn_ready/service.rs:80-87 -/
  | call {x : SRStack S} {l r : List (SRHandle (ConcState S.σ Nat))} {s s' : ConcState S.σ Nat} {f : S.φ} {q sem' w w'} : x.hs = l ++ ⟨.service (some s), false⟩ :: r →
      ((LimSvc debug S).call s q).run (x.sem, w) = .ok (f, s') (sem', w') → SRStep debug S x { x with sem := sem', hs := l ++ ⟨.service (some s'), false⟩ :: r, fs := f :: x.fs }
  /-- a response future is polled, spawn_ready/future.rs:3-8, limit/concurrency/future.rs:38-40 -/
  | poll_future {x : SRStack S} {l r : List S.φ} {f f' : S.φ} {p sem' w w'} : x.fs = l ++ f :: r → ((LimSvc debug S).poll f).run (x.sem, w) = .ok (p, f') (sem', w') →
      SRStep debug S x { x with sem := sem', fs := l ++ f' :: r }
  /-- a response future is dropped, with its permit -/
  | drop_future {x : SRStack S} {l r : List S.φ} {f : S.φ} : x.fs = l ++ f :: r → SRStep debug S x { x with sem := x.sem.release, fs := l ++ r }
  /-- the runtime polls a task -/
  | run {x : SRStack S} {tl tr : List (STask (ConcState S.σ Nat) Err)} {s s' : ConcState S.σ Nat} {p sem' w w'} : x.ts = tl ++ .running s :: tr →
      ((LimSvc debug S).pollReady s).run (x.sem, w) = .ok (p, s') (sem', w') → SRStep debug S x { x with sem := (taskDone p s' sem').2, ts := tl ++ (taskDone p s' sem').1 :: tr }
  /-- the runtime polls a task and the inner `poll_ready` panics, with the permit held before or acquired just now; the service is dropped -/
  | run_panics {x : SRStack S} {tl tr : List (STask (ConcState S.σ Nat) Err)} {s : ConcState S.σ Nat} {i : S.σ} {sem'} : x.ts = tl ++ .running s :: tr →
      (s.permit = true ∧ sem' = x.sem ∨ s.permit = false ∧ x.sem.pollAcquire s.sem = (true, sem')) → SRStep debug S x { x with sem := dropLimit (⟨i, s.sem, true⟩ : ConcState S.σ Nat) sem', ts := tl ++ .failed :: tr }
  /-- the runtime shuts down: the future, with the service, is dropped -/
  | shutdown {x : SRStack S} {tl tr : List (STask (ConcState S.σ Nat) Err)} {s : ConcState S.σ Nat} : x.ts = tl ++ .running s :: tr →
      SRStep debug S x { x with sem := dropLimit s x.sem, ts := tl ++ .failed :: tr }
  /-- the runtime drops the future of an aborted task, with the service -/
  | reap {x : SRStack S} {tl tr : List (STask (ConcState S.σ Nat) Err)} {s : ConcState S.σ Nat} : x.ts = tl ++ .aborted s :: tr →
      SRStep debug S x { x with sem := dropLimit s x.sem, ts := tl ++ .gone :: tr }
  /-- a handle that has its service is dropped -/
  | drop_service {x : SRStack S} {l r : List (SRHandle (ConcState S.σ Nat))} {s : ConcState S.σ Nat} : x.hs = l ++ ⟨.service (some s), false⟩ :: r →
      SRStep debug S x { x with sem := dropLimit s x.sem, hs := l ++ r }
  /-- a handle without its service is dropped: spawn_ready/service.rs:41-47 -/
  | drop_handle {x : SRStack S} {l r : List (SRHandle (ConcState S.σ Nat))} {tl tr : List (STask (ConcState S.σ Nat) Err)} {t : STask (ConcState S.σ Nat) Err} : x.hs = l ++ ⟨.future tl.length, false⟩ :: r →
      x.ts = tl ++ t :: tr → SRStep debug S x { x with sem := (t.abort x.sem).2, hs := l ++ r, ts := tl ++ (t.abort x.sem).1 :: tr }

/-- All histories, from one new service (`SpawnReady::new`, `ConcurrencyLimit::new`): `tower/src/spawn_ready/service.rs:29-33`, `tower/src/limit/concurrency/service.rs:28-40`. -/
inductive SRHist (debug : Bool) (max : Nat) (S : Service W Req Res Err) : SRStack S → Prop
  | new (i : S.σ) : SRHist debug max S ⟨Sem.new max, [⟨.service (some ⟨i, 0, false⟩), false⟩], [], [], 1⟩
  | step {x x'} : SRHist debug max S x → SRStep debug S x x' → SRHist debug max S x'

end Tower
