import Verif.Model.Semaphore

/-!
# `ServiceBuilder::new().retry(policy).concurrency_limit(max)`

The stack that `tower/src/builder/mod.rs` builds from `RetryLayer` (`tower/src/retry/layer.rs:14-22`) and `ConcurrencyLimitLayer` (`tower/src/limit/concurrency/layer.rs:22-28`), with all its clones, and with the drops of the futures inside.
-/

namespace Tower
variable {W Req Res Err : Type}

/-- A policy that does not use the semaphore, `tower/src/retry/policy.rs:44-91` (it is user code and the semaphore is private). -/
@[reducible] def RetryPolicy.snd (A : Type) (P : RetryPolicy W Req Res Err) : RetryPolicy (A × W) Req Res Err where
  π := P.π
  ρ := P.ρ
  retry p q r w := ((P.retry p q r w.2).1, (w.1, (P.retry p q r w.2).2))
  cloneRequest p q w := ((P.cloneRequest p q w.2).1, (w.1, (P.cloneRequest p q w.2).2))
  wait r w := ((P.wait r w.2).1, (w.1, (P.wait r w.2).2))
  clone := P.clone

/-- `Retry<P, ConcurrencyLimit<S>>`: `tower/src/retry/mod.rs:71-94` over `tower/src/limit/concurrency/service.rs:57-107`. -/
abbrev RetryLim (debug : Bool) (fuel : Nat) (P : RetryPolicy W Req Res Err) (S : Service W Req Res Err) : Service (Sem × W) Req Res Err := Retry fuel (P.snd Sem) (LimSvc debug S)

/-- A response future of the stack, `tower/src/retry/future.rs:13-25`: it owns a clone of the stack and, in `Called`, a response future of the limit (with its permit, `tower/src/limit/concurrency/future.rs:14-20`). -/
abbrev RLFut (P : RetryPolicy W Req Res Err) (S : Service W Req Res Err) := RetryFut Req P.π (ConcState S.σ Nat) S.φ P.ρ

/-- What exists at a moment: the semaphore, the handles (`tower/src/retry/mod.rs:42-45`), the response futures not dropped yet. `next` names the next `PollSemaphore`. -/
structure RStack (P : RetryPolicy W Req Res Err) (S : Service W Req Res Err) where
  sem : Sem
  hs : List (RetryState P.π (ConcState S.σ Nat))
  fs : List (RLFut P S)
  next : Nat

/-- `this.state.set(State::Waiting { .. })`, `tower/src/retry/future.rs:83`, drops the future of the attempt, with its permit. -/
def dropAttempt {F R : Type} (old new : RetrySt F R) (sem : Sem) : Sem :=
  match old, new with
  | .called _, .waiting _ => sem.release
  | _, _ => sem

/-- Drop of a `ConcurrencyLimit`: its `PollSemaphore`, then its permit if it has one. `tower/src/limit/concurrency/service.rs:15-19`. -/
def dropLimit {σ : Type} (s : ConcState σ Nat) (sem : Sem) : Sem := if s.permit = true then (sem.dropAcquire s.sem).release else sem.dropAcquire s.sem

/-- Drop of the state of a response future: an attempt in flight gives its permit back. `tower/src/retry/future.rs:22-23`, `tower/src/limit/concurrency/future.rs:14-20`. -/
def dropRetrySt {F R : Type} (st : RetrySt F R) (sem : Sem) : Sem :=
  match st with
  | .called _ => sem.release
  | _ => sem

/-- One step of the stack and its users. Every operation is that of the code of the two middlewares, in every world; what the inner service and the policy do is arbitrary. Polling a response future is one step for each iteration of its loop (so other threads can act in between). When something panics the history ends.
`tower/src/retry/mod.rs:80-93`, `tower/src/retry/future.rs:72-119`, `tower/src/limit/concurrency/service.rs:65-107`. -/
inductive RStep (debug : Bool) (fuel : Nat) (P : RetryPolicy W Req Res Err) (S : Service W Req Res Err) : RStack P S → RStack P S → Prop
  /-- another service behind a `GlobalConcurrencyLimitLayer`, limit/concurrency/layer.rs:54-60 -/
  | layer {x : RStack P S} (p : P.π) (i : S.σ) : RStep debug fuel P S x { x with hs := ⟨p, ⟨i, x.next, false⟩⟩ :: x.hs, next := x.next + 1 }
  /-- `poll_ready`, retry/mod.rs:80-85 -/
  | ready {x : RStack P S} {l r : List (RetryState P.π (ConcState S.σ Nat))} {s s' : RetryState P.π (ConcState S.σ Nat)} {p sem' w w'} : x.hs = l ++ s :: r →
      ((RetryLim debug fuel P S).pollReady s).run (x.sem, w) = .ok (p, s') (sem', w') → RStep debug fuel P S x { x with sem := sem', hs := l ++ s' :: r }
  /-- `call`, retry/mod.rs:87-92: the clone of the limit in the future is a new handle of the semaphore -/
  | call {x : RStack P S} {l r : List (RetryState P.π (ConcState S.σ Nat))} {s s' : RetryState P.π (ConcState S.σ Nat)} {f : RLFut P S} {q sem' w w'} : x.hs = l ++ s :: r →
      ((RetryLim debug fuel P S).call s q).run (x.sem, w) = .ok (f, s') (sem', w') →
      RStep debug fuel P S x
        { sem := sem'
          hs := l ++ s' :: r
          fs := { f with retry := ⟨f.retry.policy, { f.retry.service with sem := x.next }⟩ } :: x.fs
          next := x.next + 1 }
  /-- an iteration of the loop in `poll` that returns, retry/future.rs:72-119 -/
  | returns {x : RStack P S} {l r : List (RLFut P S)} {f f' : RLFut P S} {p sem' w w'} : x.fs = l ++ f :: r →
      (retryStep (P.snd Sem) (LimSvc debug S) f).run (x.sem, w) = .ok (.inl (p, f')) (sem', w') → RStep debug fuel P S x { x with sem := sem', fs := l ++ f' :: r }
  /-- an iteration after which the loop goes on -/
  | goes_on {x : RStack P S} {l r : List (RLFut P S)} {f f' : RLFut P S} {sem' w w'} : x.fs = l ++ f :: r →
      (retryStep (P.snd Sem) (LimSvc debug S) f).run (x.sem, w) = .ok (.inr f') (sem', w') → RStep debug fuel P S x { x with sem := dropAttempt f.st f'.st sem', fs := l ++ f' :: r }
  /-- a response future is dropped -/
  | drop_future {x : RStack P S} {l r : List (RLFut P S)} {f : RLFut P S} : x.fs = l ++ f :: r →
      RStep debug fuel P S x { x with sem := dropRetrySt f.st (dropLimit f.retry.service x.sem), fs := l ++ r }
  /-- `clone`, retry/mod.rs:41 -/
  | clone {x : RStack P S} {s c : RetryState P.π (ConcState S.σ Nat)} : s ∈ x.hs → c = (RetryLim debug fuel P S).clone s →
      RStep debug fuel P S x { x with hs := ⟨c.policy, { c.service with sem := x.next }⟩ :: x.hs, next := x.next + 1 }
  /-- a handle is dropped -/
  | drop_handle {x : RStack P S} {l r : List (RetryState P.π (ConcState S.σ Nat))} {s : RetryState P.π (ConcState S.σ Nat)} : x.hs = l ++ s :: r →
      RStep debug fuel P S x { x with sem := dropLimit s.service x.sem, hs := l ++ r }

/-- All histories, from one new service (`Retry::new`, `ConcurrencyLimit::new`): `tower/src/retry/mod.rs:51-53`, `tower/src/limit/concurrency/service.rs:28-40`. -/
inductive RHist (debug : Bool) (fuel max : Nat) (P : RetryPolicy W Req Res Err) (S : Service W Req Res Err) : RStack P S → Prop
  | new (p : P.π) (i : S.σ) : RHist debug fuel max P S ⟨Sem.new max, [⟨p, ⟨i, 0, false⟩⟩], [], 1⟩
  | step {x x'} : RHist debug fuel max P S x → RStep debug fuel P S x x' → RHist debug fuel max P S x'

end Tower
