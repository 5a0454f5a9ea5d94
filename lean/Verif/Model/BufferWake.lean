import Verif.Spec.BufferSpec

/-!
# Who wakes whom in a buffer

`Model/Buffer.lean` lets every task be polled at any moment. Here a task that returned `Pending` is polled again only after its waker was used (or spuriously). Who keeps which waker:

* a handle whose `poll_ready` returned `Pending` is a waiter of the channel's semaphore, which wakes it when it takes it out of its list of waiters, that is, when a permit is assigned to it
  or the semaphore is closed;
* a response future that waits for its oneshot channel is woken when the sender sends or is dropped; once it has the inner future, `Pending` is the inner future's business;
* the worker that found the channel empty is woken by a message, by the drop of the last handle, and by the drop of a permit that makes a closed channel idle. (The drop of a reserve future
  to which a permit was assigned does not wake it.) A worker whose service returned `Pending` is woken by that service.

All of this is behaviour of tokio, outside the repository; what `tower` contributes is where it returns `Pending`, and what it polled before.
-/

namespace Tower
variable {W Req Res Err : Type} {S : Service W Req Res Err}

/-- Which tasks were woken and not polled since, and whether the channel keeps the worker's waker. For `tower/src/buffer/worker.rs:148-206`, `tower/src/buffer/service.rs:97-108`, `tower/src/buffer/future.rs:62-78`. -/
structure Wakers where
  worker : Bool          -- the worker's task is scheduled
  rx : Bool              -- the channel keeps the worker's waker
  handles : Nat → Bool   -- the task that polled the handle was woken
  futs : Nat → Bool      -- the task that polled the response future was woken

/-- A worker was just spawned, `tower/src/buffer/service.rs:46-55`: its task is scheduled. -/
def Wakers.init : Wakers := ⟨true, false, fun _ => false, fun _ => false⟩

namespace Buf

/-- Does this step use the waker the channel keeps for its receiver? For `tower/src/buffer/worker.rs:95`. -/
def rxFires (x : Buf S) (ev : BEv S) (y : Buf S) : Bool :=
  match ev with
  | .accept _ _ _ => true
  | .dropHandle _ => y.hs.isEmpty || (decide (y.reserved < x.reserved) && x.closed && y.semIdle)
  | _ => false

/-- The oneshot channel of call `i` is decided by this step. For `tower/src/buffer/worker.rs:159, 178, 192`. -/
def shotFires (x y : Buf S) (i : Nat) : Bool :=
  match x.shots i, y.shots i with
  | .waiting, .waiting => false
  | .waiting, _ => true
  | _, _ => false

/-- The step is the poll of handle `n`. For `tower/src/buffer/service.rs:97-108`. -/
def pollsHandle (n : Nat) : BEv S → Bool
  | .ready n' _ => n' == n
  | _ => false

/-- The step is the (end of a) poll of response future `i`. For `tower/src/buffer/future.rs:62-78`. -/
def pollsFut (i : Nat) : BEv S → Bool
  | .poll i' _ => i' == i
  | _ => false

/-- The wakers after the step from `x` to `y`. For `tower/src/buffer/worker.rs:148-206`, `tower/src/buffer/service.rs:97-108`, `tower/src/buffer/future.rs:62-78`. -/
def wakes (x : Buf S) (ev : BEv S) (y : Buf S) (k : Wakers) : Wakers where
  worker :=
    match x.pc, y.pc with
    | .parked, .next => false                                -- it is being polled
    | _, _ => k.worker || (k.rx && x.rxFires ev y)
  rx :=
    match x.pc, y.pc with
    | .recv, .parked => true                                 -- `poll_recv` returned `Pending`
    | _, _ => k.rx && !x.rxFires ev y
  handles n := if n ∈ x.sem.queue ∧ n ∉ y.sem.queue then true else if pollsHandle n ev then false else k.handles n
  futs i := if x.shotFires y i then true else if pollsFut i ev then false else k.futs i

end Buf

/-- A history in which the worker is polled only when it was woken. Handles and response futures may be polled at any time. Of the code of `tower/src/buffer/service.rs:87-144` and
`tower/src/buffer/worker.rs:142-205`. -/
inductive KHist (S : Service W Req Res Err) (bound : Nat) (svc : S.σ) : List (BEv S) → Buf S → Wakers → Prop
  | init : KHist S bound svc [] (Buf.init S bound svc) Wakers.init
  | step {tr x k ev y} : KHist S bound svc tr x k → BStep x ev y → (x.pc = .parked → y.pc = .next → k.worker = true) →
      KHist S bound svc (tr ++ [ev]) y (x.wakes ev y k)
  /-- somebody else wakes tasks: the inner service, the inner futures, or for no reason -/
  | wake {tr x k} (k' : Wakers) : KHist S bound svc tr x k → (k.worker = true → k'.worker = true) → k'.rx = k.rx →
      (∀ n, k.handles n = true → k'.handles n = true) → (∀ i, k.futs i = true → k'.futs i = true) → KHist S bound svc tr x k'

end Tower
