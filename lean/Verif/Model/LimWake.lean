import Verif.Model.Semaphore

/-!
# Wake-ups of the handles that wait for a concurrency limit

`Model/Semaphore.lean` says which acquire future a released permit is assigned to. Here is added when the task that polled it is woken.
Assumed of tokio: an acquire future that returns `Pending` stores the waker of the task; the semaphore wakes it when it assigns a permit to the future, and only then.
-/

namespace Tower
variable {W : Type}

/-- whom the release of a permit wakes: the first in the queue. The dependency tokio, as used in `tower/src/limit/concurrency/future.rs:14-20`. -/
def Sem.releaseWakes (s : Sem) : List Nat := s.queue.take 1

/-- whom the drop of the `PollSemaphore` of handle `h` wakes: if a permit was assigned to it, that goes to the first in the queue. The dependencies tokio and tokio-util, as used in `tower/src/limit/concurrency/service.rs:17`. -/
def Sem.dropWakes (s : Sem) (h : Nat) : List Nat :=
  if h ∈ s.granted then Sem.releaseWakes { s with granted := s.granted.erase h } else []

/-- What a step of a handle or future means for the tasks: the handle whose `poll_ready` it is, the number of permits given up, and the handles woken. A modelling device, for `tower/src/limit/concurrency/service.rs:57-107`. -/
structure LimEv where
  polled : Option Nat
  freed : Nat
  woke : List Nat
  deriving DecidableEq

/-- One step, as in `LimHist` (`LimWake.hist`, `LimWake.of_hist`), with its event. `tower/src/limit/concurrency/service.rs:57-107`, `tower/src/limit/concurrency/future.rs:14-40`. -/
inductive LimStep {Req Res Err : Type} (debug : Bool) (S : Service W Req Res Err) : Lim S → List Nat → LimEv → Lim S → List Nat → Prop
  /-- a second limit sharing the semaphore, service.rs:33-40 -/
  | with_semaphore {x arr} (i : S.σ) : LimStep debug S x arr ⟨none, 0, []⟩ { x with hs := x.hs ++ [⟨i, x.next, false⟩], next := x.next + 1 } arr
  /-- `poll_ready`, service.rs:65-80 -/
  | ready {x arr w p sem' w'} {l r : List (ConcState S.σ Nat)} {s s' : ConcState S.σ Nat} : x.hs = l ++ s :: r →
      ((LimSvc debug S).pollReady s).run (x.sem, w) = .ok (p, s') (sem', w') →
      LimStep debug S x arr ⟨some s.sem, 0, []⟩ { x with sem := sem', hs := l ++ s' :: r }
        (if s'.permit = true then arr.erase s.sem else if s.sem ∈ arr then arr else arr ++ [s.sem])
  /-- the inner `poll_ready` panics, service.rs:68-79 -/
  | ready_panics {x arr sem' i} {l r : List (ConcState S.σ Nat)} {s : ConcState S.σ Nat} : x.hs = l ++ s :: r →
      (s.permit = true ∧ sem' = x.sem ∨ s.permit = false ∧ x.sem.pollAcquire s.sem = (true, sem')) →
      LimStep debug S x arr ⟨some s.sem, 0, []⟩ { x with sem := sem', hs := l ++ ⟨i, s.sem, true⟩ :: r } (arr.erase s.sem)
  /-- `call`, service.rs:82-93: the permit moves to the response future -/
  | call {x arr q w sem' w'} {l r : List (ConcState S.σ Nat)} {s s' : ConcState S.σ Nat} {f : S.φ} : x.hs = l ++ s :: r →
      ((LimSvc debug S).call s q).run (x.sem, w) = .ok (f, s') (sem', w') →
      LimStep debug S x arr ⟨none, 0, []⟩ { x with sem := sem', hs := l ++ s' :: r, fs := x.fs ++ [f] } arr
  /-- the inner `call` panics: the permit is dropped, service.rs:85-93 -/
  | call_panics {x arr i} {l r : List (ConcState S.σ Nat)} {s : ConcState S.σ Nat} : x.hs = l ++ s :: r → s.permit = true →
      LimStep debug S x arr ⟨none, 1, x.sem.releaseWakes⟩ { x with sem := x.sem.release, hs := l ++ ⟨i, s.sem, false⟩ :: r } arr
  /-- a response future is polled, future.rs:38-40 -/
  | poll {x arr w p sem' w'} {l r : List S.φ} {f f' : S.φ} : x.fs = l ++ f :: r →
      ((LimSvc debug S).poll f).run (x.sem, w) = .ok (p, f') (sem', w') →
      LimStep debug S x arr ⟨none, 0, []⟩ { x with sem := sem', fs := l ++ f' :: r } arr
  /-- the inner future panics, future.rs:38-40 -/
  | poll_panics {x arr} {l r : List S.φ} {f f' : S.φ} : x.fs = l ++ f :: r → LimStep debug S x arr ⟨none, 0, []⟩ { x with fs := l ++ f' :: r } arr
  /-- a response future is dropped, future.rs:22 -/
  | drop_future {x arr l f r} : x.fs = l ++ f :: r → LimStep debug S x arr ⟨none, 1, x.sem.releaseWakes⟩ { x with sem := x.sem.release, fs := l ++ r } arr
  /-- `clone`, service.rs:96-107 -/
  | clone {x arr} {s : ConcState S.σ Nat} : s ∈ x.hs →
      LimStep debug S x arr ⟨none, 0, []⟩ { x with hs := x.hs ++ [{ ((LimSvc debug S).clone s : ConcState S.σ Nat) with sem := x.next }], next := x.next + 1 } arr
  /-- a handle is dropped that has a permit: its `PollSemaphore`, then the permit; service.rs:15-24 -/
  | drop_ready {x arr l s r} : x.hs = l ++ s :: r → s.permit = true →
      LimStep debug S x arr ⟨none, 1, x.sem.dropWakes s.sem ++ (x.sem.dropAcquire s.sem).releaseWakes⟩ { x with sem := (x.sem.dropAcquire s.sem).release, hs := l ++ r } (arr.erase s.sem)
  /-- a handle is dropped that has none (it may have been assigned one); service.rs:15-24 -/
  | drop_handle {x arr l s r} : x.hs = l ++ s :: r → s.permit = false →
      LimStep debug S x arr ⟨none, if s.sem ∈ x.sem.granted then 1 else 0, x.sem.dropWakes s.sem⟩ { x with sem := x.sem.dropAcquire s.sem, hs := l ++ r } (arr.erase s.sem)

/-- the handles that were woken and not polled since. A modelling device, for `tower/src/limit/concurrency/service.rs:57-107`. -/
def LimEv.after (e : LimEv) (woken : List Nat) : List Nat := woken.filter (fun n => some n ≠ e.polled) ++ e.woke

/-- Every history of the clones of a `ConcurrencyLimit`, with the handles that wait (in the order in which they started to) and those that were woken since their last `poll_ready`. `tower/src/limit/concurrency/service.rs:57-107`. -/
inductive LimWake {Req Res Err : Type} (debug : Bool) (max : Nat) (S : Service W Req Res Err) : Lim S → List Nat → List Nat → Prop
  /-- `ConcurrencyLimit::new`, service.rs:28-40 -/
  | new (i : S.σ) : LimWake debug max S ⟨Sem.new max, [⟨i, 0, false⟩], [], 1⟩ [] []
  /-- one step more -/
  | step {x arr woken e x' arr'} : LimWake debug max S x arr woken → LimStep debug S x arr e x' arr' → LimWake debug max S x' arr' (e.after woken)

end Tower
