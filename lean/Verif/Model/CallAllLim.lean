import Verif.Model.CallAll
import Verif.Model.BalLoad
import Verif.Model.LimWake

/-!
# `call_all` over `ConcurrencyLimit`

`ServiceExt::call_all` (`tower/src/util/mod.rs:104-111`) over a service built with `concurrency_limit` (`tower/src/limit/concurrency`): the response futures of the limit,
each with its permit, are in the queue of the `CallAll`. Assumed of `futures_util`: `FuturesUnordered` and `FuturesOrdered` drop a future in the poll in which it is ready.
Several `CallAll`s and other users may share one semaphore.
-/

namespace Tower
variable {W Req Res Err : Type}

/-- A response future of the limit (`tower/src/limit/concurrency/future.rs:14-40`) polled by a queue of `tower/src/util/call_all`: when it is ready it is dropped, and with it its permit. -/
def pollDrop (debug : Bool) (S : Service W Req Res Err) (f : S.φ) : Act (Sem × W) (Poll (Except Err Res) × S.φ) := do
  let (p, f') ← (LimSvc debug S).poll f
  match p with
  | .pending => pure (.pending, f')
  | .ready v => do
    Act.modify (fun w => (w.1.release, w.2))
    pure (.ready v, f')

/-- The limit as a `CallAll` uses it: `tower/src/limit/concurrency/service.rs:57-94`, its futures polled by a queue. -/
@[reducible] def LimOnce (debug : Bool) (S : Service W Req Res Err) : Service (Sem × W) Req Res Err where
  σ := ConcState S.σ Nat
  φ := S.φ
  pollReady := (LimSvc debug S).pollReady
  call := (LimSvc debug S).call
  poll := pollDrop debug S
  clone := (LimSvc debug S).clone

/-- A stream of requests that does not use the semaphore, `tower/src/util/call_all/common.rs:83-89`. -/
@[reducible] def ReqStream.snd (A : Type) (R : ReqStream W Req) : ReqStream (A × W) Req where
  τ := R.τ
  poll r := (R.poll r).snd

/-- What is to be known of a kind of queue (`tower/src/util/call_all/common.rs:40-46`): the futures in it that are not ready yet. -/
structure QueueKind (debug : Bool) (S : Service W Req Res Err) where
  D : DriveQ (Sem × W) S.φ (Except Err Res)
  futs : D.Q → List S.φ

/-- the queue of `CallAllUnordered`, `tower/src/util/call_all/unordered.rs:86-98` -/
@[reducible] def unorderedKind (debug : Bool) (S : Service W Req Res Err) (V : Sched W) : QueueKind debug S where
  D := unorderedQ (V.outer Sem) (pollDrop debug S)
  futs q := q

/-- the queue of `CallAll`, `tower/src/util/call_all/ordered.rs:165-177`: responses that came out of turn are kept, without their futures -/
@[reducible] def orderedKind (debug : Bool) (S : Service W Req Res Err) (V : Sched W) : QueueKind debug S where
  D := orderedQ (V.outer Sem) (pollDrop debug S)
  futs q := q.run.map Prod.snd

/-- A `CallAll` over the limit, `tower/src/util/call_all/common.rs:13-23`. -/
abbrev CallAllLim (debug : Bool) (S : Service W Req Res Err) (R : ReqStream W Req) (K : QueueKind debug S) := CallAll (LimOnce debug S) (R.snd Sem) K.D

/-- What exists at a moment: the semaphore, the `CallAll`s, and the handles and response futures of other users. `tower/src/util/call_all/common.rs:13-23`, `tower/src/limit/concurrency/service.rs:15-24`. -/
structure CAStack {debug : Bool} {S : Service W Req Res Err} (R : ReqStream W Req) (K : QueueKind debug S) where
  sem : Sem
  alls : List (CallAllLim debug S R K)
  hs : List (ConcState S.σ Nat)
  fs : List S.φ
  next : Nat

/-- Drop of a handle: its `PollSemaphore`, then its permit if it has one. `tower/src/limit/concurrency/service.rs:15-19`. -/
def dropHandle {σ : Type} (s : ConcState σ Nat) (sem : Sem) : Sem := if s.permit = true then (sem.dropAcquire s.sem).release else sem.dropAcquire s.sem

/-- Drop of a `CallAll`: its service, if it was not taken, then the futures in the queue. `tower/src/util/call_all/common.rs:13-23`, also `into_inner`, `:65-67`, with the service taken. -/
def dropCallAll {debug : Bool} {S : Service W Req Res Err} {R : ReqStream W Req} {K : QueueKind debug S} (c : CallAllLim debug S R K) (sem : Sem) : Sem :=
  (K.futs c.queue).foldl (fun sem _ => sem.release) (match c.service with | none => sem | some s => dropHandle s sem)

/-- One step: of a `CallAll`, `tower/src/util/call_all/common.rs:48-140`, or of another user of the limit, `tower/src/limit/concurrency/service.rs:57-107`. -/
inductive CAStep {debug : Bool} {S : Service W Req Res Err} {R : ReqStream W Req} {K : QueueKind debug S} : CAStack R K → CAStack R K → Prop
  /-- `call_all` on a handle, util/mod.rs:104-111 -/
  | call_all {x : CAStack R K} {l r : List (ConcState S.σ Nat)} {s : ConcState S.σ Nat} (rs : R.τ) : x.hs = l ++ s :: r →
      CAStep x { x with alls := x.alls ++ [(CallAll.new s rs : CallAllLim debug S R K)], hs := l ++ r }
  /-- `poll_next`, call_all/common.rs:92-140 -/
  | poll {x : CAStack R K} {l r : List (CallAllLim debug S R K)} {c c' : CallAllLim debug S R K} {n p sem' w w'} : x.alls = l ++ c :: r →
      (CallAll.pollNext n c).run (x.sem, w) = .ok (p, c') (sem', w') → CAStep x { x with sem := sem', alls := l ++ c' :: r }
  /-- `take_service`, call_all/common.rs:70-75 -/
  | take {x : CAStack R K} {l r : List (CallAllLim debug S R K)} {c c' : CallAllLim debug S R K} {s sem' w w'} : x.alls = l ++ c :: r →
      (CallAll.takeService c).run (x.sem, w) = .ok (s, c') (sem', w') → CAStep x { x with sem := sem', alls := l ++ c' :: r, hs := x.hs ++ [s] }
  /-- a `CallAll` is dropped -/
  | drop {x : CAStack R K} {l r : List (CallAllLim debug S R K)} {c : CallAllLim debug S R K} : x.alls = l ++ c :: r →
      CAStep x { x with sem := dropCallAll c x.sem, alls := l ++ r }
  /-- any step of another user, with its own handles and futures, as in C73 -/
  | other {x : CAStack R K} {sem' hs' fs' next' arr arr' e} : LimStep debug S ⟨x.sem, x.hs, x.fs, x.next⟩ arr e ⟨sem', hs', fs', next'⟩ arr' →
      CAStep x { x with sem := sem', hs := hs', fs := fs', next := next' }

/-- All histories, from one new limit: `tower/src/limit/concurrency/service.rs:28-40`. -/
inductive CAHist {debug : Bool} (max : Nat) {S : Service W Req Res Err} {R : ReqStream W Req} {K : QueueKind debug S} : CAStack R K → Prop
  | new (i : S.σ) : CAHist max ⟨Sem.new max, [], [⟨i, 0, false⟩], [], 1⟩
  | step {x x'} : CAHist max x → CAStep x x' → CAHist max x'

end Tower
