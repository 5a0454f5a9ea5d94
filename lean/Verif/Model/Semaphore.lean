import Verif.Model.Middleware

/-!
# The semaphore behind `limit::concurrency`

`tokio::sync::Semaphore` is outside the repository; this file states what is assumed of it (its documented
fairness: "permits are given out in the order they were requested", a released permit goes to the first waiter;
dropping a pending acquire gives its place, or the permit already assigned to it, back), and of
`tokio_util::sync::PollSemaphore`, which keeps one acquire future per handle. Operations are atomic.
A `Pending` caused by tokio's cooperative budget changes nothing and is therefore not represented.
-/

namespace Tower

/-- A semaphore from which single permits are acquired. Waiters are named by the handle that waits. The dependencies tokio and tokio-util, as used in `tower/src/limit/concurrency/service.rs:17`. -/
structure Sem where
  permits : Nat
  /-- acquire futures that wait, oldest first -/
  queue : List Nat
  /-- acquire futures to which a permit was assigned but which were not polled since, oldest first -/
  granted : List Nat
  deriving DecidableEq, Repr

/-- `Semaphore::new`. The dependencies tokio and tokio-util, as used in `tower/src/limit/concurrency/service.rs:29`. -/
def Sem.new (max : Nat) : Sem := ⟨max, [], []⟩

/-- Drop of an `OwnedSemaphorePermit`: the first waiter gets it, else it is available. The dependencies tokio and tokio-util, as used in `tower/src/limit/concurrency/future.rs:14-20`. -/
def Sem.release (s : Sem) : Sem :=
  match s.queue with
  | [] => { s with permits := s.permits + 1 }
  | h :: q => { s with queue := q, granted := s.granted ++ [h] }

/-- `PollSemaphore::poll_acquire` of handle `h`: `true` is `Ready(Some(permit))`, `false` is `Pending`. The dependencies tokio and tokio-util, as used in `tower/src/limit/concurrency/service.rs:69`. -/
def Sem.pollAcquire (s : Sem) (h : Nat) : Bool × Sem :=
  if h ∈ s.granted then (true, { s with granted := s.granted.erase h })
  else if h ∈ s.queue then (false, s)
  else if s.permits > 0 then (true, { s with permits := s.permits - 1 })
  else (false, { s with queue := s.queue ++ [h] })

/-- Drop of the `PollSemaphore` of handle `h` (with its acquire future, if there is one). The dependencies tokio and tokio-util, as used in `tower/src/limit/concurrency/service.rs:17`. -/
def Sem.dropAcquire (s : Sem) (h : Nat) : Sem :=
  if h ∈ s.granted then Sem.release { s with granted := s.granted.erase h }
  else { s with queue := s.queue.erase h }

variable {W : Type}

/-- Code that does not use the first component of the world. A modelling device, for `tower/src/limit/concurrency/service.rs:65-93`: see `semView`. -/
def Act.snd {A α : Type} (x : Act W α) : Act (A × W) α :=
  ⟨fun w => match x.run w.2 with
    | .ok a w' => .ok a (w.1, w')
    | .panic m => .panic m
    | .spin => .spin⟩

/-- A service that does not use the first component of the world (the semaphore is private). The bound on the inner service in `tower/src/limit/concurrency/service.rs:57-61`. -/
@[reducible] def Service.snd (A : Type) {Req Res Err : Type} (S : Service W Req Res Err) : Service (A × W) Req Res Err where
  σ := S.σ
  φ := S.φ
  pollReady s := (S.pollReady s).snd
  call s r := (S.call s r).snd
  poll f := (S.poll f).snd
  clone := S.clone

/-- The semaphore as seen by `ConcurrencyLimit`: the handle's `PollSemaphore` is named by a number. The number
of a clone is assigned by `LimHist.clone`. The dependencies tokio and tokio-util, as used in `tower/src/limit/concurrency/service.rs:17, 69, 103`. -/
@[reducible] def semView (W : Type) : SemView (Sem × W) where
  α := Nat
  pollAcquire h w :=
    let (r, s) := w.1.pollAcquire h
    ((if r then .ready true else .pending, h), (s, w.2))
  fresh := id

/-- All clones of one `ConcurrencyLimit` over inner service `S` (`tower/src/limit/concurrency/service.rs`), or several
limits that share a semaphore (`GlobalConcurrencyLimitLayer`, `tower/src/limit/concurrency/layer.rs:38-60`). -/
abbrev LimSvc {Req Res Err : Type} (debug : Bool) (S : Service W Req Res Err) : Service (Sem × W) Req Res Err :=
  ConcurrencyLimit debug (semView W) (S.snd Sem)

/-- What exists at a moment: the semaphore, the handles (clones) and the response futures not dropped yet. `tower/src/limit/concurrency/service.rs:15-24`, `tower/src/limit/concurrency/future.rs:14-20`. -/
structure Lim {Req Res Err : Type} (S : Service W Req Res Err) where
  sem : Sem
  hs : List (ConcState S.σ Nat)
  fs : List S.φ
  /-- the name for the next clone -/
  next : Nat

/-- Every history of the clones of a `ConcurrencyLimit` with limit `max`: any number of handles and futures,
used in any interleaving, with every reaction of the inner service, dropped at any moment. The last argument
(ghost) lists the handles that wait for a permit, in the order in which they started to wait. `tower/src/limit/concurrency/service.rs:57-107`. -/
inductive LimHist {Req Res Err : Type} (debug : Bool) (max : Nat) (S : Service W Req Res Err) : Lim S → List Nat → Prop
  /-- `ConcurrencyLimit::new`, service.rs:28-40 -/
  | new (i : S.σ) : LimHist debug max S ⟨Sem.new max, [⟨i, 0, false⟩], [], 1⟩ []
  /-- a second limit sharing the semaphore, `with_semaphore`, service.rs:33-40 -/
  | with_semaphore {x arr} (i : S.σ) : LimHist debug max S x arr →
      LimHist debug max S { x with hs := x.hs ++ [⟨i, x.next, false⟩], next := x.next + 1 } arr
  /-- `poll_ready`, service.rs:65-80 -/
  | ready {x arr w p sem' w'} {l r : List (ConcState S.σ Nat)} {s s' : ConcState S.σ Nat} : LimHist debug max S x arr → x.hs = l ++ s :: r →
      ((LimSvc debug S).pollReady s).run (x.sem, w) = .ok (p, s') (sem', w') →
      LimHist debug max S { x with sem := sem', hs := l ++ s' :: r }
        (if s'.permit = true then arr.erase s.sem else if s.sem ∈ arr then arr else arr ++ [s.sem])
  /-- the inner `poll_ready` panics and somebody catches it: a permit that was there, or was acquired just before, stays in `self`; service.rs:68-79 -/
  | ready_panics {x arr sem' i} {l r : List (ConcState S.σ Nat)} {s : ConcState S.σ Nat} : LimHist debug max S x arr → x.hs = l ++ s :: r →
      (s.permit = true ∧ sem' = x.sem ∨ s.permit = false ∧ x.sem.pollAcquire s.sem = (true, sem')) →
      LimHist debug max S { x with sem := sem', hs := l ++ ⟨i, s.sem, true⟩ :: r } (arr.erase s.sem)
  /-- `call`, service.rs:82-93 -/
  | call {x arr q w sem' w'} {l r : List (ConcState S.σ Nat)} {s s' : ConcState S.σ Nat} {f : S.φ} : LimHist debug max S x arr → x.hs = l ++ s :: r →
      ((LimSvc debug S).call s q).run (x.sem, w) = .ok (f, s') (sem', w') →
      LimHist debug max S { x with sem := sem', hs := l ++ s' :: r, fs := x.fs ++ [f] } arr
  /-- the inner `call` panics and somebody catches it: the permit was taken out of `self` and is dropped -/
  | call_panics {x arr i} {l r : List (ConcState S.σ Nat)} {s : ConcState S.σ Nat} : LimHist debug max S x arr → x.hs = l ++ s :: r → s.permit = true →
      LimHist debug max S { x with sem := x.sem.release, hs := l ++ ⟨i, s.sem, false⟩ :: r } arr
  /-- a response future is polled, future.rs:38-40 -/
  | poll {x arr w p sem' w'} {l r : List S.φ} {f f' : S.φ} : LimHist debug max S x arr → x.fs = l ++ f :: r →
      ((LimSvc debug S).poll f).run (x.sem, w) = .ok (p, f') (sem', w') →
      LimHist debug max S { x with sem := sem', fs := l ++ f' :: r } arr
  /-- the inner future panics when it is polled and somebody catches it: the future, with its permit, still exists -/
  | poll_panics {x arr} {l r : List S.φ} {f f' : S.φ} : LimHist debug max S x arr → x.fs = l ++ f :: r →
      LimHist debug max S { x with fs := l ++ f' :: r } arr
  /-- a response future is dropped (finished or not) with its permit, future.rs:22 -/
  | drop_future {x arr l f r} : LimHist debug max S x arr → x.fs = l ++ f :: r →
      LimHist debug max S { x with sem := x.sem.release, fs := l ++ r } arr
  /-- `clone`, service.rs:96-107 -/
  | clone {x arr} {s : ConcState S.σ Nat} : LimHist debug max S x arr → s ∈ x.hs →
      LimHist debug max S { x with hs := x.hs ++ [{ ((LimSvc debug S).clone s : ConcState S.σ Nat) with sem := x.next }], next := x.next + 1 } arr
  /-- a handle is dropped: its `PollSemaphore`, then its permit if it has one -/
  | drop_handle {x arr l s r} : LimHist debug max S x arr → x.hs = l ++ s :: r →
      LimHist debug max S { x with
        sem := if s.permit = true then (x.sem.dropAcquire s.sem).release else x.sem.dropAcquire s.sem
        hs := l ++ r } (arr.erase s.sem)

end Tower
