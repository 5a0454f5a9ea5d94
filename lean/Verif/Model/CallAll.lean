import Verif.Model.Semaphore
import Verif.Model.ReadyCache

/-!
# `tower/src/util/call_all`

Assumed of `futures_util` (not part of the repository):

* `FuturesUnordered`: as in `Model/ReadyCache.lean`.
* `FuturesOrdered`: futures are numbered by `push_back`; they are driven by a `FuturesUnordered`; outputs that are not next in turn are kept
  until they are; `poll_next` returns the output that is next in turn, `Pending` if the `FuturesUnordered` is pending, `Ready(None)` if it has none.
-/

namespace Tower
variable {W Req Res Err : Type}

/-- `futures_core::Stream`. The bound `S: Stream` of `tower/src/util/call_all/common.rs:83-89`. -/
structure ReqStream (W α : Type) where
  τ : Type
  poll : τ → Act W (Poll (Option α) × τ)

/-- `trait Drive`, `tower/src/util/call_all/common.rs:40-46`: a queue of futures of type `φ` with output `α`. -/
structure DriveQ (W φ α : Type) where
  Q : Type
  empty : Q
  isEmpty : Q → Bool
  push : Q → φ → Q
  poll : Q → Act W (Poll (Option α) × Q)

/-- `FuturesUnordered::poll_next`, with the futures polled in a given order. futures-util, for `tower/src/util/call_all/unordered.rs:95-97`. -/
def pollSome {φ α : Type} (poll : φ → Act W (Poll α × φ)) : List Nat → List φ → Act W (Poll (Option α) × List φ)
  | _, [] => pure (.ready none, [])
  | [], p => pure (.pending, p)
  | i :: is, p =>
    match p[i]? with
    | none => pollSome poll is p
    | some f => do
      let (r, f') ← poll f
      match r with
      | .pending => pollSome poll is (p.set i f')
      | .ready v => pure (.ready (some v), p.eraseIdx i)

/-- `impl Drive for FuturesUnordered`, `tower/src/util/call_all/unordered.rs:86-98`. -/
@[reducible] def unorderedQ {φ α : Type} (V : Sched W) (poll : φ → Act W (Poll α × φ)) : DriveQ W φ α where
  Q := List φ
  empty := []
  isEmpty q := q.isEmpty
  push q f := q ++ [f]
  poll q := do
    let o ← Act.lift (V.order q.length)
    pollSome poll o q

/-- `FuturesOrdered`: the futures that run and the outputs that wait, with their index. futures-util, for `tower/src/util/call_all/ordered.rs:165-177`. -/
structure OrdQ (φ α : Type) where
  run : List (Nat × φ)
  done : List (Nat × α)
  nextIn : Nat
  nextOut : Nat

/-- an indexed future (`OrderWrapper`) is polled. futures-util, for `tower/src/util/call_all/ordered.rs:165-177`. -/
def pollIdx {φ α : Type} (poll : φ → Act W (Poll α × φ)) (x : Nat × φ) : Act W (Poll (Nat × α) × (Nat × φ)) := do
  let (p, f') ← poll x.2
  pure (p.map (fun v => (x.1, v)), (x.1, f'))

/-- the loop of `FuturesOrdered::poll_next`; every round removes a running future; the first argument is fuel, `run.length + 1` is enough (`ordered_no_spin`). futures-util, for `tower/src/util/call_all/ordered.rs:165-177`. -/
def OrdQ.loop {φ α : Type} (V : Sched W) (poll : φ → Act W (Poll α × φ)) : Nat → OrdQ φ α → Act W (Poll (Option α) × OrdQ φ α)
  | 0, _ => Act.spin
  | n + 1, q => do
    let o ← Act.lift (V.order q.run.length)
    let (p, r) ← pollSome (pollIdx poll) o q.run
    match p with
    | .pending => pure (.pending, { q with run := r })
    | .ready none => pure (.ready none, { q with run := r })
    | .ready (some (i, v)) =>
      if i = q.nextOut then pure (.ready (some v), { q with run := r, nextOut := q.nextOut + 1 })
      else OrdQ.loop V poll n { q with run := r, done := q.done ++ [(i, v)] }

/-- `impl Drive for FuturesOrdered`, `tower/src/util/call_all/ordered.rs:165-177`. -/
@[reducible] def orderedQ {φ α : Type} (V : Sched W) (poll : φ → Act W (Poll α × φ)) : DriveQ W φ α where
  Q := OrdQ φ α
  empty := ⟨[], [], 0, 0⟩
  isEmpty q := q.run.isEmpty && q.done.isEmpty
  push q f := { q with run := q.run ++ [(q.nextIn, f)], nextIn := q.nextIn + 1 }
  poll q :=
    match q.done.find? (fun e => e.1 == q.nextOut) with
    | some e => pure (.ready (some e.2), { q with done := q.done.eraseP (fun e => e.1 == q.nextOut), nextOut := q.nextOut + 1 })
    | none => OrdQ.loop V poll (q.run.length + 1) q

/-- `CallAll`, `tower/src/util/call_all/common.rs:13-23`. -/
structure CallAll (S : Service W Req Res Err) (R : ReqStream W Req) (D : DriveQ W S.φ (Except Err Res)) where
  service : Option S.σ
  stream : R.τ
  queue : D.Q
  eof : Bool
  curr : Option Req

namespace CallAll
variable {S : Service W Req Res Err} {R : ReqStream W Req} {D : DriveQ W S.φ (Except Err Res)}

/-- `new`, `tower/src/util/call_all/common.rs:54-62` -/
def new (s : S.σ) (r : R.τ) : CallAll S R D := ⟨some s, r, D.empty, false, none⟩

/-- the part of the loop after a request is at hand, `tower/src/util/call_all/common.rs:126-139`; `again` is the next round -/
def issue (again : CallAll S R D → Act W (Poll (Option (Except Err Res)) × CallAll S R D)) (c : CallAll S R D) : Act W (Poll (Option (Except Err Res)) × CallAll S R D) :=
  match c.service with
  | none => Act.panic "Using CallAll after extracting inner Service"
  | some s => do
    let (p, s') ← S.pollReady s
    match p with
    | .pending => pure (.pending, { c with service := some s' })
    | .ready (.error e) => pure (.ready (some (.error e)), { c with service := some s', eof := true })
    | .ready (.ok ()) =>
      match c.curr with
      | none => Act.panic "called `Option::unwrap()` on a `None` value"
      | some q => do
        let (f, s'') ← S.call s' q
        again { c with service := some s'', queue := D.push c.queue f, curr := none }

/-- the part of the loop after the queue had nothing to yield, `tower/src/util/call_all/common.rs:104-139` -/
def fetch (again : CallAll S R D → Act W (Poll (Option (Except Err Res)) × CallAll S R D)) (c : CallAll S R D) : Act W (Poll (Option (Except Err Res)) × CallAll S R D) :=
  if c.eof = true then
    if D.isEmpty c.queue = true then pure (.ready none, c) else pure (.pending, c)
  else
    match c.curr with
    | some _ => issue again c
    | none => do
      let (p, r') ← R.poll c.stream
      match p with
      | .pending => pure (.pending, { c with stream := r' })
      | .ready none => again { c with stream := r', eof := true }
      | .ready (some q) => issue again { c with stream := r', curr := some q }

/-- `poll_next`, `tower/src/util/call_all/common.rs:92-140`. The first argument is fuel: with a stream and a service that are always ready the code stays in the loop. -/
def pollNext : Nat → CallAll S R D → Act W (Poll (Option (Except Err Res)) × CallAll S R D)
  | 0, _ => Act.spin
  | n + 1, c => do
    let (p, q) ← D.poll c.queue
    match p with
    | .ready (some (.error e)) => pure (.ready (some (.error e)), { c with queue := q })
    | .ready (some (.ok v)) => pure (.ready (some (.ok v)), { c with queue := q })
    | .ready none => fetch (pollNext n) { c with queue := q }
    | .pending => fetch (pollNext n) { c with queue := q }

/-- `take_service`, `tower/src/util/call_all/common.rs:70-75`; `into_inner`, `:65-67`, drops the rest. -/
def takeService (c : CallAll S R D) : Act W (S.σ × CallAll S R D) :=
  match c.service with
  | none => Act.panic "Service already taken"
  | some s => pure (s, { c with service := none })

/-- `unordered`, `tower/src/util/call_all/common.rs:77-81`, `tower/src/util/call_all/ordered.rs:144-146`: to a queue `D'` -/
def unordered (D' : DriveQ W S.φ (Except Err Res)) (c : CallAll S R D) : Act W (CallAll S R D') :=
  if (D.isEmpty c.queue && !c.eof) = true then
    match c.service with
    | none => Act.panic "called `Option::unwrap()` on a `None` value"
    | some s => pure (CallAll.new s c.stream)
  else Act.panic "assertion failed: self.queue.is_empty() && !self.eof"

end CallAll

/-- `CallAll` of `tower/src/util/call_all/ordered.rs:62-71`. -/
abbrev CallAllOrdered (V : Sched W) (S : Service W Req Res Err) (R : ReqStream W Req) := CallAll S R (orderedQ V S.poll)

/-- `CallAllUnordered`, `tower/src/util/call_all/unordered.rs:25-32`. -/
abbrev CallAllUnordered (V : Sched W) (S : Service W Req Res Err) (R : ReqStream W Req) := CallAll S R (unorderedQ V S.poll)

end Tower
