import Verif.Model.BufferWake

/-! # Who waits in a buffer, read off the history -/

namespace Tower
variable {W Req Res Err : Type} {S : Service W Req Res Err}

/-- how an event changes whether the user of handle `n` waits -/
def hWaitsAfter (n : Nat) (b : Bool) : BEv S → Bool
  | .ready n' .pending => if n' = n then true else b
  | .ready n' (.ready _) => if n' = n then false else b
  | .dropHandle n' => if n' = n then false else b
  | _ => b

/-- the latest `poll_ready` of handle `n` returned `Pending`, and the handle was not dropped -/
def hWaits (n : Nat) (tr : List (BEv S)) : Bool := tr.foldl (hWaitsAfter n) false

/-- how an event changes whether the user of response future `i` waits -/
def fWaitsAfter (i : Nat) (b : Bool) : BEv S → Bool
  | .poll i' .pending => if i' = i then true else b
  | .poll i' (.ready _) => if i' = i then false else b
  | .dropFut i' => if i' = i then false else b
  | _ => b

/-- the latest poll of response future `i` returned `Pending`, and the future was not dropped -/
def fWaits (i : Nat) (tr : List (BEv S)) : Bool := tr.foldl (fWaitsAfter i) false

/-- how an event changes whether the inner service owes an answer -/
def svcWaitsAfter (b : Bool) : BEv S → Bool
  | .svcPending => true
  | .dispatch _ _ _ => false
  | .svcFailed _ => false
  | .svcPanics => false
  | .workerDropped => false
  | _ => b

/-- the inner service returned `Pending` when it was last heard of -/
def svcWaits (tr : List (BEv S)) : Bool := tr.foldl svcWaitsAfter false

/-- no task is scheduled that could do anything: the worker sleeps or has ended (with the channel freed, if no handle is left), and nobody who waits was woken -/
structure AtRest (tr : List (BEv S)) (x : Buf S) (k : Wakers) : Prop where
  worker : (x.pc = .parked ∧ k.worker = false) ∨ x.pc = .done ∨ (x.pc = .dead ∧ (x.hs = [] → x.queue = []))
  handles : ∀ n, hWaits n tr = true → k.handles n = false
  futs : ∀ i, fWaits i tr = true → k.futs i = false

/-- the worker holds request `m`, for which the inner service is not ready: it returned `Pending` -/
def WaitsForService (tr : List (BEv S)) (x : Buf S) : Prop :=
  x.pc = .parked ∧ svcWaits tr = true ∧ ∃ m, x.cur = some m ∧ m ∈ accepted tr ∧ m ∉ dispatched tr

/-- call `i` was dispatched to the inner service, and the future it returned was polled and answered `Pending` at the latest poll -/
def WaitsForInner (tr : List (BEv S)) (x : Buf S) (i : Nat) : Prop :=
  ∃ r f0 f1 f w w', .dispatch i r f0 ∈ tr ∧ Desc S f0 f1 ∧ (S.poll f1).run w = .ok (.pending, f) w' ∧ x.futs i = .inner f

/-- a step of a task that was woken: the worker (polled once it is scheduled, then until it returns `Pending` or ends, or dies of a panic), a task that waits for a slot, a task that waits for
an answer. Nobody calls, drops or clones anything, and no waker is used from outside. -/
inductive Goes (tr : List (BEv S)) (x : Buf S) (k : Wakers) : BEv S → Buf S → Prop
  | worker {ev y} : WStep x ev y → (x.pc = .parked → k.worker = true) → Goes tr x k ev y
  | death {ev y} : DStep x ev y → x.pc ≠ .parked → x.pc ≠ .done → (x.pc = .dead → x.queue ≠ []) → Goes tr x k ev y
  | handle {n p y} : hWaits n tr = true → k.handles n = true → HStep x (.ready n p) y → Goes tr x k (.ready n p) y
  | poll {i p y} : fWaits i tr = true → k.futs i = true → FStep x (.poll i p) y → Goes tr x k (.poll i p) y
  | arrive {i f} : fWaits i tr = true → k.futs i = true → x.futs i = .rx → x.shots i = .sent (.ok f) →
      Goes tr x k .tau { x with futs := Function.update x.futs i (.inner f) }

/-- `n` such steps one after the other -/
inductive GoesOn (tr : List (BEv S)) (x : Buf S) (k : Wakers) : Nat → List (BEv S) → Buf S → Wakers → Prop
  | nil : GoesOn tr x k 0 tr x k
  | snoc {n t y k1 ev z} : GoesOn tr x k n t y k1 → Goes t y k1 ev z → GoesOn tr x k (n + 1) (t ++ [ev]) z (y.wakes ev z k1)

/-- the inner service's methods return or panic, and its futures return, in some environment -/
structure Returns (S : Service W Req Res Err) : Prop where
  ready : ∀ s, ∃ w, (S.pollReady s).run w ≠ .spin
  call : ∀ s r, ∃ w, (S.call s r).run w ≠ .spin
  poll : ∀ f, ∃ p f' w w', (S.poll f).run w = .ok (p, f') w'

end Tower
