import Verif.Core

/-!
# `tower-test/src/mock`

`Mock`, `Handle`, `SendResponse`, `ResponseFuture`. What they share is the world `MockW`: the `State` in its mutex, the channel, the oneshot channels.
The mutex is held for the whole of `poll_ready`, `call`, `clone`, `allow`, `send_error` and both `drop`s, so each of them is one step. A panic while it is held poisons it.

Assumed of tokio: the unbounded channel is a queue, `send` fails exactly if the receiver is dropped, `recv` gives `None` exactly if the queue is empty and all senders are dropped;
a oneshot receiver gives the value sent, or fails if the sender was dropped without sending, and panics if it is polled after that.
-/

namespace Tower

/-- `mock::error`: `Closed`, or an error given by the test. `tower-test/src/mock/error.rs:5-23`. -/
inductive MErr (E : Type) where
  | closed
  | user (e : E)
  deriving DecidableEq, Repr

/-- a oneshot channel: the value sent, whether the `SendResponse` exists, whether the future exists and has not completed. `tower-test/src/mock/mod.rs:66-76`, `tower-test/src/mock/future.rs:11-19`. -/
structure Slot (U E : Type) where
  val : Option (Except E U)
  tx : Bool
  rx : Bool

/-- `State`, `tower-test/src/mock/mod.rs:78-94`, whether its mutex is poisoned; the channel: whether its receiver exists, the queue, the number of senders; the oneshot channels. A waker is a number. -/
structure MockW (Req U E : Type) where
  rem : Nat
  tasks : List (Nat × Nat)
  closed : Bool
  nextId : Nat
  err : Option E
  poisoned : Bool
  rx : Bool
  queue : List (Nat × Req)
  senders : Nat
  slots : List (Slot U E)

/-- `Mock`, `tower-test/src/mock/mod.rs:56-61` -/
structure Mock where
  id : Nat
  canSend : Bool
  deriving DecidableEq, Repr

namespace Mock
variable {Req U E α : Type}

/-- `State::new`, `tower-test/src/mock/mod.rs:304-314`, and the world after `pair`, `tower-test/src/mock/mod.rs:100-116` -/
def world0 : MockW Req U E := ⟨2 ^ 64 - 1, [], false, 1, none, false, true, [], 1, []⟩

/-- the `Mock` of `pair`. `tower-test/src/mock/mod.rs:100-116`. -/
def pair : Mock := ⟨0, false⟩

/-- `self.state.lock().unwrap()`. `tower-test/src/mock/mod.rs:124, 158, 193, 214, 244, 256, 267`. -/
def locked (f : Act (MockW Req U E) α) : Act (MockW Req U E) α := do
  let w ← Act.get
  if w.poisoned = true then Act.panic "called `Result::unwrap()` on an `Err` value: PoisonError" else f

/-- `poll_ready`, `tower-test/src/mock/mod.rs:123-154`; `waker` is that of the context -/
def pollReady (waker : Nat) (m : Mock) : Act (MockW Req U E) (Poll (Except (MErr E) Unit) × Mock) := locked do
  let w ← Act.get
  if w.closed = true then pure (.ready (.error .closed), m)
  else match w.err with
    | some e => do
      Act.modify (fun w => { w with err := none })
      pure (.ready (.error (.user e)), m)
    | none =>
      if m.canSend = true then pure (.ready (.ok ()), m)
      else if w.rem > 0 then
        if w.tasks.any (fun t => t.1 == m.id) = true then Act.panic "assertion failed: !state.tasks.contains_key(&self.id)"
        else pure (.ready (.ok ()), { m with canSend := true })
      else do
        Act.modify (fun w => { w with tasks := w.tasks.filter (fun t => t.1 != m.id) ++ [(m.id, waker)] })
        pure (.pending, m)

/-- `call`, `tower-test/src/mock/mod.rs:156-187`. The future is `none` for `ResponseFuture::closed()`, else the number of its oneshot channel. -/
def call (m : Mock) (q : Req) : Act (MockW Req U E) (Option Nat × Mock) := locked do
  let w ← Act.get
  if w.closed = true then pure (none, m)
  else if m.canSend = false then Act.panic "service not ready; poll_ready must be called first"
  else do
    Act.modify (fun w => { w with rem := if w.rem > 0 then w.rem - 1 else w.rem })
    if w.rx = true then do
      Act.modify (fun w => { w with slots := w.slots ++ [⟨none, true, true⟩], queue := w.queue ++ [(w.slots.length, q)] })
      pure (some w.slots.length, { m with canSend := false })
    else pure (none, { m with canSend := false })

/-- `clone`, `tower-test/src/mock/mod.rs:191-209` -/
def clone (_m : Mock) : Act (MockW Req U E) Mock := locked do
  let w ← Act.get
  Act.modify (fun w => { w with nextId := w.nextId + 1, senders := w.senders + 1 })
  pure ⟨w.nextId, false⟩

/-- `drop`, `tower-test/src/mock/mod.rs:213-226`, and the drop of the sender -/
def drop (m : Mock) : Act (MockW Req U E) Unit := locked do
  Act.modify (fun w => { w with tasks := w.tasks.filter (fun t => t.1 != m.id), senders := w.senders - 1 })

/-- `Handle::poll_request`, `tower-test/src/mock/mod.rs:233-235` (`next_request`, `tower-test/src/mock/mod.rs:238-240`, polls the same future) -/
def pollRequest : Act (MockW Req U E) (Poll (Option (Nat × Req))) := do
  let w ← Act.get
  match w.queue with
  | x :: l => do
    Act.modify (fun w => { w with queue := l })
    pure (.ready (some x))
  | [] => if w.senders = 0 then pure (.ready none) else pure .pending

/-- `Handle::allow`, `tower-test/src/mock/mod.rs:243-252`; the result is the list of wakers woken -/
def allow (n : Nat) : Act (MockW Req U E) (List Nat) := locked do
  let w ← Act.get
  Act.modify (fun w => { w with rem := n })
  if n > 0 then do
    Act.modify (fun w => { w with tasks := [] })
    pure (w.tasks.map Prod.snd)
  else pure []

/-- `Handle::send_error`, `tower-test/src/mock/mod.rs:255-262` -/
def sendError (e : E) : Act (MockW Req U E) (List Nat) := locked do
  let w ← Act.get
  Act.modify (fun w => { w with err := some e, tasks := [] })
  pure (w.tasks.map Prod.snd)

/-- `Handle::drop`, `tower-test/src/mock/mod.rs:266-283`, the body -/
def dropHandle : Act (MockW Req U E) (List Nat) := locked do
  let w ← Act.get
  Act.modify (fun w => { w with closed := true, tasks := [] })
  pure (w.tasks.map Prod.snd)

/-- the sender of a oneshot channel is dropped. `tower-test/src/mock/mod.rs:66-76`. -/
def dropTx (i : Nat) (l : List (Slot U E)) : List (Slot U E) := l.modify i (fun s => { s with tx := false })

/-- after the body of `Handle::drop` its receiver is dropped, with what is in the queue. `tower-test/src/mock/mod.rs:64-76, 266-283`. -/
def dropRx : Act (MockW Req U E) Unit :=
  Act.modify (fun w => { w with rx := false, queue := [], slots := w.queue.foldl (fun l x => dropTx x.1 l) w.slots })

/-- `SendResponse::send_response`, `tower-test/src/mock/mod.rs:290-293`, `send_error`, `tower-test/src/mock/mod.rs:296-299`. They consume the `SendResponse`. -/
def respond (i : Nat) (r : Except E U) : Act (MockW Req U E) Unit :=
  Act.modify (fun w => { w with slots := w.slots.modify i (fun s => if s.rx = true then { s with val := some r, tx := false } else { s with tx := false }) })

/-- a `SendResponse` is dropped. `tower-test/src/mock/mod.rs:66-76`. -/
def dropResponse (i : Nat) : Act (MockW Req U E) Unit := Act.modify (fun w => { w with slots := dropTx i w.slots })

/-- `Err(e.into())` and `Ok(r)` of `SendResponse`, as the output of the future. `tower-test/src/mock/mod.rs:290-299`. -/
def output : Except E U → Except (MErr E) U
  | .ok u => .ok u
  | .error e => .error (.user e)

/-- `ResponseFuture::poll`, `tower-test/src/mock/future.rs:38-46` -/
def pollFut : Option Nat → Act (MockW Req U E) (Poll (Except (MErr E) U))
  | none => pure (.ready (.error .closed))
  | some i => do
    let w ← Act.get
    match w.slots[i]? with
    | none => Act.panic "no such future"
    | some s =>
      if s.rx = false then Act.panic "called after complete"
      else match s.val with
        | some v => do
          Act.modify (fun w => { w with slots := w.slots.modify i (fun s => { s with rx := false }) })
          pure (.ready (output v))
        | none =>
          if s.tx = true then pure .pending
          else do
            Act.modify (fun w => { w with slots := w.slots.modify i (fun s => { s with rx := false }) })
            pure (.ready (.error .closed))

/-- the future is dropped. `tower-test/src/mock/future.rs:11-19`. -/
def dropFut (i : Nat) : Act (MockW Req U E) Unit := Act.modify (fun w => { w with slots := w.slots.modify i (fun s => { s with rx := false }) })

end Mock
end Tower
