import Verif.Model.Semaphore
import Mathlib.Logic.Function.Basic

/-!
# `tower/src/buffer`: handles, channel, worker, response futures

The buffer is concurrent: handles (clones of `Buffer`) and response futures are used by any number of tasks while the worker runs in its own. The
model is a transition system whose steps are the atomic operations on what they share: the bounded `mpsc` channel, the `oneshot` channel of each
request, and the mutex with the error. The worker's `poll` is split at each of those, so that anything may happen between any two of them.

What is assumed of tokio (outside the repository):

* `mpsc` (bounded): a FIFO queue and a fair semaphore of `bound` permits (`Sem`). A permit is taken by `poll_reserve`, consumed by `send`
  and given back when the message is received, or when the permit (or the reserve future to which it was assigned) is dropped. `close()` closes the
  semaphore: waiting and later reservations fail, permits already taken can still be used. `poll_recv` gives the first message; on an
  empty queue it gives `None` if all senders are dropped (then it asserts that all permits are back), or if it is closed and all permits are
  back, else `Pending`. Dropping the receiver closes and drops the queued messages one by one. What is sent later, through a permit taken
  before, stays in the channel until all senders are gone.
* `oneshot`: `is_closed` says whether the receiver was dropped; `send` to a dropped receiver drops the value; dropping the sender without sending
  makes the receiver fail.
* `PollSender`: `Idle`, `Acquiring`, `ReadyToSend`, `Closed`; `is_closed` looks at its own state only.
* wakers and tokio's cooperative budget are not modelled: the worker may be polled at any moment.

Tracing spans are not modelled. Errors: the conversion to `BoxError` is the identity here.
-/

namespace Tower
variable {W Req Res Err : Type}

/-- State of a `tokio_util::sync::PollSender`. Used in `tower/src/buffer/service.rs:20`. -/
inductive HSt where
  | idle
  | acquiring
  | ready     -- `ReadyToSend(permit)`
  | closed
  deriving DecidableEq, Repr

/-- A `Buffer` handle, `tower/src/buffer/service.rs:18-21`; `name` identifies its reserve future in the semaphore. -/
structure BHandle where
  name : Nat
  st : HSt
  deriving DecidableEq, Repr

/-- `Message`, `tower/src/buffer/message.rs:6-10`: the number of the call (which identifies its oneshot channel) and the request. -/
structure Msg (Req : Type) where
  id : Nat
  req : Req
  deriving DecidableEq, Repr

/-- What the sending half of a request's oneshot channel did: nothing yet, sent `Result<Fut, ServiceError>`, or was dropped (or its value was,
because the receiver was dropped). `tower/src/buffer/message.rs:13`. -/
inductive Shot (φ E : Type) where
  | waiting
  | sent (v : Except E φ)
  | gone

/-- The errors a user of a buffer sees: `ServiceError` and `Closed`, `tower/src/buffer/error.rs`, and errors of the inner future. `tower/src/buffer/error.rs:11-18`. -/
inductive BufErr (E : Type) where
  | service (e : E)
  | closed
  | inner (e : E)
  deriving DecidableEq, Repr

/-- `ResponseFuture`, `tower/src/buffer/future.rs:13-39`, and what became of it: `none` does not exist yet, `finished` has returned `Ready`. -/
inductive BFut (φ E : Type) where
  | none
  | rx
  | inner (f : φ)
  | failed (e : BufErr E)
  | finished
  | dropped
  deriving DecidableEq, Repr

/-- Where the worker is in its code (`tower/src/buffer/worker.rs:148-206`). -/
inductive WPc (φ Req E : Type) where
  | parked                                -- not being polled (`Poll::Pending` was returned, or not polled yet)
  | next                                  -- :154, at `poll_next_msg`
  | check (m : Msg Req)                   -- :86, :96: holds a message, about to ask `tx.is_closed()`
  | recv                                  -- :95, at `poll_recv`
  | got (m : Msg Req)                     -- :157, the message is to be processed
  | call (m : Msg Req)                    -- :171, the service is ready
  | reply (m : Msg Req) (f : φ)           -- :178, the service was called
  | fail1 (m : Msg Req) (e : E)           -- :124, in `failed`: the service returned an error
  | fail2 (m : Msg Req) (e : E)           -- :132, in `failed`: the error is exposed, the channel not closed
  | fail3 (m : Msg Req)                   -- :192
  | done                                  -- `Poll::Ready(())` was returned
  | unwinding                             -- the worker is being dropped: the message it held is gone, the channel is not yet closed
  | dropping                              -- the worker is being dropped: the channel is closed, the queued messages are being dropped
  | dead                                  -- the worker was dropped
  deriving DecidableEq, Repr

/-- Everything there is: channel, handles, oneshots, response futures, worker. `tower/src/buffer/service.rs:18-22`, `tower/src/buffer/worker.rs:16-41`. -/
structure Buf (S : Service W Req Res Err) where
  bound : Nat
  sem : Sem
  closed : Bool
  queue : List (Msg Req)
  hs : List BHandle
  nextName : Nat
  shots : Nat → Shot S.φ Err
  futs : Nat → BFut S.φ Err
  calls : Nat
  svc : S.σ
  pc : WPc S.φ Req Err
  cur : Option (Msg Req)       -- `current_message`
  failed : Option Err          -- `Worker::failed`
  err : Option Err             -- `Handle::inner`

namespace Buf
variable {S : Service W Req Res Err}

/-- `Buffer::pair`, `tower/src/buffer/service.rs:66-80`, `Worker::new`, `tower/src/buffer/worker.rs:48-66`. A bound of zero panics in tokio (`bound > 0` is required by
`mpsc::channel`). -/
def init (S : Service W Req Res Err) (bound : Nat) (svc : S.σ) : Buf S :=
  { bound, sem := Sem.new bound, closed := false, queue := [], hs := [⟨0, .idle⟩], nextName := 1, shots := fun _ => .gone,
    futs := fun _ => .none, calls := 0, svc, pc := .parked, cur := none, failed := none, err := none }

/-- `get_worker_error`, `tower/src/buffer/service.rs:82-84`, `Handle::get_error_on_closed`, `tower/src/buffer/worker.rs:210-219`. -/
def workerError (x : Buf S) : BufErr Err :=
  match x.err with
  | some e => .service e
  | none => .closed

/-- `PollSender::poll_reserve` of a handle that has no permit (tokio-util), with the error mapped as in `tower/src/buffer/service.rs:105-107`: result,
new state of the handle, new semaphore. -/
def reserve (x : Buf S) (h : BHandle) : Poll (Except (BufErr Err) Unit) × BHandle × Sem :=
  if x.closed = true then
    (.ready (.error x.workerError), { h with st := .closed },
      if h.name ∈ x.sem.granted then Sem.release { x.sem with granted := x.sem.granted.erase h.name } else x.sem)
  else
    match x.sem.pollAcquire h.name with
    | (true, sem) => (.ready (.ok ()), { h with st := .ready }, sem)
    | (false, sem) => (.pending, { h with st := .acquiring }, sem)

/-- `Buffer::poll_ready` of the handle `h`, `tower/src/buffer/service.rs:97-108`. -/
def pollReady (x : Buf S) (h : BHandle) : Poll (Except (BufErr Err) Unit) × BHandle × Sem :=
  match h.st with
  | .closed => (.ready (.error x.workerError), h, x.sem)                                    -- :99-102
  | .ready => (.ready (.ok ()), h, x.sem)
  | .idle => x.reserve h
  | .acquiring => x.reserve h

/-- What `Buffer::call` does, `tower/src/buffer/service.rs:110-130`: `none` panics in `send_item`; `some true` sends, `some false` fails. -/
def callOutcome (h : BHandle) : Option Bool :=
  match h.st with
  | .ready => some true
  | .closed => some false
  | .idle | .acquiring => none

/-- `Tx::is_closed`: the response future no longer waits. `tower/src/buffer/worker.rs:86, 96`. -/
def cancelled (x : Buf S) (i : Nat) : Bool :=
  match x.futs i with
  | .rx => false
  | _ => true

/-- `msg.tx.send(v)`. `tower/src/buffer/worker.rs:159, 178, 192`. -/
def send (x : Buf S) (i : Nat) (v : Except Err S.φ) : Buf S :=
  { x with shots := Function.update x.shots i (if x.cancelled i = true then .gone else .sent v) }

/-- a message is dropped with its oneshot sender. `tower/src/buffer/message.rs:6-13`. -/
def dropMsg (x : Buf S) (i : Nat) : Buf S := { x with shots := Function.update x.shots i .gone }

/-- drop of the messages of a list. `tower/src/buffer/message.rs:6-13`. -/
def dropMsgs (x : Buf S) (ms : List (Msg Req)) : Buf S :=
  { x with shots := fun i => if i ∈ ms.map (·.id) then .gone else x.shots i }

/-- `Semaphore::close`: the queue of waiters is emptied. tokio, for `tower/src/buffer/worker.rs:132`. -/
def close (x : Buf S) : Buf S := { x with closed := true, sem := { x.sem with queue := [] } }

/-- the semaphore has all its permits: `semaphore.is_idle()`. tokio, for `tower/src/buffer/worker.rs:94`. -/
def semIdle (x : Buf S) : Bool := x.sem.permits = x.bound

end Buf

/-- What can be seen from outside: results of the handles and futures, and what reaches the inner service. Results of `tower/src/buffer/service.rs:97-130` and `tower/src/buffer/worker.rs:142-205`. -/
inductive BEv (S : Service W Req Res Err) where
  | ready (h : Nat) (p : Poll (Except (BufErr Err) Unit))     -- `poll_ready` of handle `h` returned `p`
  | accept (h i : Nat) (r : Req)                              -- `call` number `i` put its request into the channel
  | refuse (h i : Nat) (r : Req)                              -- `call` number `i` found the channel closed
  | callPanics (h : Nat)                                      -- `call` panicked
  | clone (h h' : Nat)
  | dropHandle (h : Nat)
  | poll (i : Nat) (p : Poll (Except (BufErr Err) Res))       -- response future `i` was polled
  | dropFut (i : Nat)                                         -- response future `i` was dropped
  | dispatch (i : Nat) (r : Req) (f : S.φ)                    -- the inner service was called with the request of call `i`, it returned `f`
  | svcFailed (e : Err)                                       -- the inner service's `poll_ready` failed
  | svcPending                                                -- the inner service's `poll_ready` returned `Pending`
  | svcPanics                                                 -- the inner service panicked in `poll_ready` or `call`
  | workerDropped                                             -- the worker was dropped by its executor
  | workerDone                                                -- the worker returned `Ready(())`
  | tau

/-- Steps of the worker: `poll`, `tower/src/buffer/worker.rs:148-206`, `poll_next_msg`, `:72-105`, `failed`, `:107-138`. -/
inductive WStep {S : Service W Req Res Err} : Buf S → BEv S → Buf S → Prop
  /-- the executor polls the worker (it may do so at any time), :149-154 -/
  | start {x} : x.pc = .parked → WStep x .tau { x with pc := .next }
  /-- :82: there is a message that waited for the service -/
  | resume {x m} : x.pc = .next → x.cur = some m → WStep x .tau { x with cur := none, pc := .check m }
  | fresh {x} : x.pc = .next → x.cur = none → WStep x .tau { x with pc := .recv }
  /-- :85-89, :96-99: the message is wanted -/
  | wanted {x m} : x.pc = .check m → x.cancelled m.id = false → WStep x .tau { x with pc := .got m }
  /-- :91, :100-101: the message is dropped, and the next one received -/
  | unwanted {x m} : x.pc = .check m → x.cancelled m.id = true → WStep x .tau { x.dropMsg m.id with pc := .recv }
  /-- :95: a message is received, its permit given back -/
  | recv {x m q} : x.pc = .recv → x.queue = m :: q → WStep x .tau { x with queue := q, sem := x.sem.release, pc := .check m }
  /-- :95: nothing there -/
  | empty {x} : x.pc = .recv → x.queue = [] → x.hs ≠ [] → (x.closed = true → x.semIdle = false) → WStep x .tau { x with pc := .parked }
  /-- :104, :200-204: nothing there, and nothing will ever come -/
  | finish {x} : x.pc = .recv → x.queue = [] → (x.hs = [] ∨ (x.closed = true ∧ x.semIdle = true)) → WStep x .workerDone { x with pc := .done }
  /-- :157-161: the service has failed before -/
  | notify {x m e} : x.pc = .got m → x.failed = some e → WStep x .tau { x.send m.id (.error e) with pc := .next }
  /-- :168-169 -/
  | svc_ready {x m w w' s'} : x.pc = .got m → x.failed = none → (S.pollReady x.svc).run w = .ok (.ready (.ok ()), s') w' →
      WStep x .tau { x with svc := s', pc := .call m }
  /-- :171 -/
  | svc_call {x m w w' f s'} : x.pc = .call m → (S.call x.svc m.req).run w = .ok (f, s') w' →
      WStep x (.dispatch m.id m.req f) { x with svc := s', pc := .reply m f }
  /-- :178 -/
  | reply {x m f} : x.pc = .reply m f → WStep x .tau { x.send m.id (.ok f) with pc := .next }
  /-- :180-186 -/
  | svc_pending {x m w w' s'} : x.pc = .got m → x.failed = none → (S.pollReady x.svc).run w = .ok (.pending, s') w' →
      WStep x .svcPending { x with svc := s', cur := some m, pc := .parked }
  /-- :187-190 -/
  | svc_failed {x m e w w' s'} : x.pc = .got m → x.failed = none → (S.pollReady x.svc).run w = .ok (.ready (.error e), s') w' →
      WStep x (.svcFailed e) { x with svc := s', pc := .fail1 m e }
  /-- :124-130: the error is exposed -/
  | expose {x m e} : x.pc = .fail1 m e → x.err = none → WStep x .tau { x with err := some e, pc := .fail2 m e }
  /-- :124-127: `failed` returns early -/
  | exposed_before {x m e e'} : x.pc = .fail1 m e → x.err = some e' → WStep x .tau { x with pc := .fail3 m }
  /-- :132, :137 -/
  | close {x m e} : x.pc = .fail2 m e → WStep x .tau { x.close with failed := some e, pc := .fail3 m }
  /-- :192-197 -/
  | notify_first {x m e} : x.pc = .fail3 m → x.failed = some e → WStep x .tau { x.send m.id (.error e) with pc := .next }

/-- `expect("Worker::failed did not set self.failed?")` fails, `tower/src/buffer/worker.rs:195`. -/
def Buf.expectFails {S : Service W Req Res Err} (x : Buf S) : Prop := ∃ m, x.pc = .fail3 m ∧ x.failed = none

/-- The end of a worker that does not finish: a panic of the inner service unwinds through `poll` and the task drops the worker; or the executor
drops it between two polls. Dropping it drops `current_message`, then the receiver: it closes the channel and drops the messages one by one. For `tower/src/buffer/worker.rs:142-205`. -/
inductive DStep {S : Service W Req Res Err} : Buf S → BEv S → Buf S → Prop
  | ready_panics {x m w msg} : x.pc = .got m → x.failed = none → (S.pollReady x.svc).run w = .panic msg →
      DStep x .svcPanics { x.dropMsg m.id with pc := .unwinding }
  | call_panics {x m w msg} : x.pc = .call m → (S.call x.svc m.req).run w = .panic msg →
      DStep x .svcPanics { x.dropMsg m.id with pc := .unwinding }
  | dropped {x} : x.pc = .parked → DStep x .workerDropped { x.dropMsgs x.cur.toList with cur := none, pc := .unwinding }
  | dropped_done {x} : x.pc = .done → DStep x .workerDropped { x with pc := .unwinding }
  /-- the receiver is dropped: it closes the channel ... -/
  | closes {x} : x.pc = .unwinding → DStep x .tau { x.close with pc := .dropping }
  /-- ... and drops the messages in it -/
  | drain {x m q} : x.pc = .dropping → x.queue = m :: q → DStep x .tau { x.dropMsg m.id with queue := q, sem := x.sem.release }
  | drained {x} : x.pc = .dropping → x.queue = [] → DStep x .tau { x with pc := .dead }
  /-- all senders and the receiver are gone: the channel is freed with what is still in it -/
  | free {x} : x.pc = .dead → x.hs = [] → DStep x .tau { x.dropMsgs x.queue with queue := [], sem := Sem.new x.bound }

/-- Steps of the users of the handles. -/
inductive HStep {S : Service W Req Res Err} : Buf S → BEv S → Buf S → Prop
  /-- `poll_ready`, `tower/src/buffer/service.rs:97-108` -/
  | ready {x h l r} : x.hs = l ++ h :: r →
      HStep x (.ready h.name (x.pollReady h).1) { x with hs := l ++ (x.pollReady h).2.1 :: r, sem := (x.pollReady h).2.2 }
  /-- `call`, `tower/src/buffer/service.rs:122-123`: sent; the permit now belongs to the message -/
  | call {x h l r q} : x.hs = l ++ h :: r → Buf.callOutcome h = some true →
      HStep x (.accept h.name x.calls q) { x with
        hs := l ++ { h with st := .idle } :: r
        queue := x.queue ++ [⟨x.calls, q⟩]
        shots := Function.update x.shots x.calls .waiting
        futs := Function.update x.futs x.calls .rx
        calls := x.calls + 1 }
  /-- `call`, `tower/src/buffer/service.rs:125-128`: the channel is closed -/
  | call_closed {x h l r q} : x.hs = l ++ h :: r → Buf.callOutcome h = some false →
      HStep x (.refuse h.name x.calls q) { x with futs := Function.update x.futs x.calls (.failed x.workerError), calls := x.calls + 1 }
  /-- `call` of a handle that was not ready panics in `send_item` -/
  | call_panics {x h} : h ∈ x.hs → Buf.callOutcome h = none → HStep x (.callPanics h.name) x
  /-- `clone`, `tower/src/buffer/service.rs:138-143`; the clone of a `PollSender` has reserved nothing -/
  | clone {x h} : h ∈ x.hs → HStep x (.clone h.name x.nextName) { x with hs := x.hs ++ [⟨x.nextName, .idle⟩], nextName := x.nextName + 1 }
  /-- a handle is dropped with its permit or reserve future -/
  | drop {x h l r} : x.hs = l ++ h :: r →
      HStep x (.dropHandle h.name) { x with
        hs := l ++ r
        sem := if h.st = .ready then x.sem.release else x.sem.dropAcquire h.name }

/-- Steps of the users of the response futures: `ResponseFuture::poll`, `tower/src/buffer/future.rs:62-78`. -/
inductive FStep {S : Service W Req Res Err} : Buf S → BEv S → Buf S → Prop
  | failed {x i e} : x.futs i = .failed e → FStep x (.poll i (.ready (.error e))) { x with futs := Function.update x.futs i .finished }
  | waiting {x i} : x.futs i = .rx → x.shots i = .waiting → FStep x (.poll i .pending) x
  | service_failed {x i e} : x.futs i = .rx → x.shots i = .sent (.error e) →
      FStep x (.poll i (.ready (.error (.service e)))) { x with futs := Function.update x.futs i .finished }
  | gone {x i} : x.futs i = .rx → x.shots i = .gone →
      FStep x (.poll i (.ready (.error .closed))) { x with futs := Function.update x.futs i .finished }
  /-- the future arrived: `state.set(Poll { fut })`, then the loop polls it -/
  | arrived {x i f} : x.futs i = .rx → x.shots i = .sent (.ok f) → FStep x .tau { x with futs := Function.update x.futs i (.inner f) }
  | inner_pending {x i f f' w w'} : x.futs i = .inner f → (S.poll f).run w = .ok (.pending, f') w' →
      FStep x (.poll i .pending) { x with futs := Function.update x.futs i (.inner f') }
  | inner_ok {x i f f' w w' a} : x.futs i = .inner f → (S.poll f).run w = .ok (.ready (.ok a), f') w' →
      FStep x (.poll i (.ready (.ok a))) { x with futs := Function.update x.futs i .finished }
  | inner_err {x i f f' w w' e} : x.futs i = .inner f → (S.poll f).run w = .ok (.ready (.error e), f') w' →
      FStep x (.poll i (.ready (.error (.inner e)))) { x with futs := Function.update x.futs i .finished }
  | drop {x i} : x.futs i ≠ .none → x.futs i ≠ .dropped → FStep x (.dropFut i) { x with futs := Function.update x.futs i .dropped }

/-- One step of anybody. Users: `tower/src/buffer/service.rs:87-144`; worker: `tower/src/buffer/worker.rs:142-205`. -/
inductive BStep {S : Service W Req Res Err} : Buf S → BEv S → Buf S → Prop
  | worker {x ev y} : WStep x ev y → BStep x ev y
  | death {x ev y} : DStep x ev y → BStep x ev y
  | handle {x ev y} : HStep x ev y → BStep x ev y
  | future {x ev y} : FStep x ev y → BStep x ev y

/-- Any interleaving of steps, with what could be observed of it. Of the code of `tower/src/buffer/service.rs:87-144` and `tower/src/buffer/worker.rs:142-205`. -/
inductive BRun {S : Service W Req Res Err} (x : Buf S) : List (BEv S) → Buf S → Prop
  | nil : BRun x [] x
  | snoc {tr ev y z} : BRun x tr y → BStep y ev z → BRun x (tr ++ [ev]) z

end Tower
