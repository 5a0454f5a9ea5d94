import Verif.Model.Mock
import Mathlib.Data.List.Basic

/-!
# Histories of a `Mock`, its clones, its `Handle` and the `SendResponse`s

What happens is recorded as it is seen from outside (`MEv`). The functions below say what matters of a record; none of them looks at the state of a `Mock`.
-/

namespace Tower
variable {Req U E : Type}

/-- `poll i k p`: `poll_ready` of mock `i` (mocks are numbered in the order they were made), with waker `k`, returned `p`. `called i q f`: `call` returned the future number `f`, or a closed one.
`allow n ks`, `sendError e ks`, `handleDropped ks`: `ks` are the wakers woken. `panicked`: an operation panicked. `received p`: `poll_request` returned `p`. `queueDropped`: the drop of the `Handle` is complete.
`responded n r`, `respDropped n`: the `SendResponse` of call `n` was used, or dropped. `futPolled n p`, `futDropped n`: its future was polled, or dropped. -/
inductive MEv (Req U E : Type) where
  | poll (i k : Nat) (p : Poll (Except (MErr E) Unit))
  | called (i : Nat) (q : Req) (f : Option Nat)
  | panicked
  | cloned (i j : Nat)
  | dropped (i : Nat)
  | received (p : Poll (Option (Nat × Req)))
  | allow (n : Nat) (ks : List Nat)
  | sendError (e : E) (ks : List Nat)
  | handleDropped (ks : List Nat)
  | queueDropped
  | responded (n : Nat) (r : Except E U)
  | respDropped (n : Nat)
  | futPolled (n : Nat) (p : Poll (Except (MErr E) U))
  | futDropped (n : Nat)

/-- the calls that were accepted, in order, with the number of the future -/
def MEv.acc : MEv Req U E → List (Nat × Req)
  | .called _ q (some n) => [(n, q)]
  | _ => []
def acceptedReqs (log : List (MEv Req U E)) : List (Nat × Req) := log.flatMap MEv.acc

/-- the requests the `Handle` has given, in order -/
def MEv.got : MEv Req U E → List (Nat × Req)
  | .received (.ready (some x)) => [x]
  | _ => []
def receivedReqs (log : List (MEv Req U E)) : List (Nat × Req) := log.flatMap MEv.got

/-- the last number allowed, and the number of calls accepted since -/
def MEv.allowance (a : Nat × Nat) : MEv Req U E → Nat × Nat
  | .allow n _ => (n, 0)
  | .called _ _ (some _) => (a.1, a.2 + 1)
  | _ => a
def allowance (log : List (MEv Req U E)) : Nat × Nat := log.foldl MEv.allowance (2 ^ 64 - 1, 0)

/-- the error given by the test that no `poll_ready` has returned yet -/
def MEv.errNow (a : Option E) : MEv Req U E → Option E
  | .sendError e _ => some e
  | .poll _ _ (.ready (.error (.user _))) => none
  | _ => a
def errNow (log : List (MEv Req U E)) : Option E := log.foldl MEv.errNow none

/-- `poll_ready` of `i` has returned `Ok`, and no call on `i` was accepted since -/
def MEv.mockReady (i : Nat) (a : Bool) : MEv Req U E → Bool
  | .poll j _ (.ready (.ok _)) => if j = i then true else a
  | .called j _ (some _) => if j = i then false else a
  | _ => a
def mockReady (log : List (MEv Req U E)) (i : Nat) : Bool := log.foldl (MEv.mockReady i) false

/-- the waker of the last `poll_ready` of `i`, if it returned `Pending` and no waker was woken since, and `i` was not dropped -/
def MEv.waiting (i : Nat) (a : Option Nat) : MEv Req U E → Option Nat
  | .poll j k p => if j = i then (match p with | .pending => some k | _ => none) else a
  | .dropped j => if j = i then none else a
  | .allow n _ => if n > 0 then none else a
  | .sendError _ _ => none
  | .handleDropped _ => none
  | _ => a
def waiting (log : List (MEv Req U E)) (i : Nat) : Option Nat := log.foldl (MEv.waiting i) none

/-- the number of mocks made -/
def MEv.isClone : MEv Req U E → Bool
  | .cloned _ _ => true
  | _ => false
def mocksMade (log : List (MEv Req U E)) : Nat := log.countP MEv.isClone + 1

def HandleDropped (log : List (MEv Req U E)) : Prop := ∃ ks, .handleDropped ks ∈ log

/-- an operation has panicked -/
def Panicked (log : List (MEv Req U E)) : Prop := .panicked ∈ log

/-- The state of a program that uses a mock: the world, the mocks, whether it has the `Handle`, the `SendResponse`s it has. -/
structure MSt (Req U E : Type) where
  w : MockW Req U E
  mocks : List Mock
  handle : Bool
  held : List Nat

/-- a panic while the mutex is held, or when it is poisoned -/
def MSt.poison (s : MSt Req U E) : MSt Req U E := { s with w := { s.w with poisoned := true } }

/-- All programs that use a mock, in any interleaving. A `Mock` or `Handle` is used only while it exists, a `SendResponse` is used or dropped once (Rust's ownership); nothing else is assumed: calls without readiness are among the histories. -/
inductive MRun : MSt Req U E → List (MEv Req U E) → Prop
  | pair : MRun ⟨Mock.world0, [Mock.pair], true, []⟩ []
  | poll {s log l m l' k p m' w'} : MRun s log → s.mocks = l ++ m :: l' → (m.pollReady k).run s.w = .ok (p, m') w' →
      MRun { s with w := w', mocks := l ++ m' :: l' } (log ++ [.poll m.id k p])
  | pollPanics {s log l m l' k t} : MRun s log → s.mocks = l ++ m :: l' → (m.pollReady k).run s.w = .panic t → MRun s.poison (log ++ [.panicked])
  | call {s log l m l' q f m' w'} : MRun s log → s.mocks = l ++ m :: l' → (m.call q).run s.w = .ok (f, m') w' →
      MRun { s with w := w', mocks := l ++ m' :: l' } (log ++ [.called m.id q f])
  | callPanics {s log l m l' q t} : MRun s log → s.mocks = l ++ m :: l' → (m.call q).run s.w = .panic t → MRun s.poison (log ++ [.panicked])
  | clone {s log m m' w'} : MRun s log → m ∈ s.mocks → m.clone.run s.w = .ok m' w' → MRun { s with w := w', mocks := s.mocks ++ [m'] } (log ++ [.cloned m.id m'.id])
  | drop {s log l m l' w'} : MRun s log → s.mocks = l ++ m :: l' → m.drop.run s.w = .ok () w' → MRun { s with w := w', mocks := l ++ l' } (log ++ [.dropped m.id])
  | recv {s log p w'} : MRun s log → s.handle = true → Mock.pollRequest.run s.w = .ok p w' →
      MRun { s with w := w', held := s.held ++ (MEv.got (.received p : MEv Req U E)).map Prod.fst } (log ++ [.received p])
  | allow {s log n ks w'} : MRun s log → s.handle = true → (Mock.allow n).run s.w = .ok ks w' → MRun { s with w := w' } (log ++ [.allow n ks])
  | sendError {s log e ks w'} : MRun s log → s.handle = true → (Mock.sendError e).run s.w = .ok ks w' → MRun { s with w := w' } (log ++ [.sendError e ks])
  | dropHandle {s log ks w'} : MRun s log → s.handle = true → Mock.dropHandle.run s.w = .ok ks w' → MRun { s with w := w', handle := false } (log ++ [.handleDropped ks])
  | dropHandlePanics {s log t} : MRun s log → s.handle = true → Mock.dropHandle.run s.w = .panic t → MRun { s.poison with handle := false } (log ++ [.panicked])
  | dropRx {s log w'} : MRun s log → s.handle = false → s.w.rx = true → Mock.dropRx.run s.w = .ok () w' → MRun { s with w := w' } (log ++ [.queueDropped])
  | respond {s log n r w'} : MRun s log → n ∈ s.held → (Mock.respond n r).run s.w = .ok () w' → MRun { s with w := w', held := s.held.erase n } (log ++ [.responded n r])
  | dropResponse {s log n w'} : MRun s log → n ∈ s.held → (Mock.dropResponse n).run s.w = .ok () w' → MRun { s with w := w', held := s.held.erase n } (log ++ [.respDropped n])
  | pollFut {s log n p w'} : MRun s log → (Mock.pollFut (some n)).run s.w = .ok p w' → MRun { s with w := w' } (log ++ [.futPolled n p])
  | dropFut {s log n w'} : MRun s log → n ∈ (acceptedReqs log).map Prod.fst → (Mock.dropFut n).run s.w = .ok () w' → MRun { s with w := w' } (log ++ [.futDropped n])

end Tower

namespace Tower
variable {Req U E : Type}

/-- the calls whose `SendResponse` was used or dropped -/
def MEv.ans : MEv Req U E → List Nat
  | .responded n _ => [n]
  | .respDropped n => [n]
  | _ => []
def answers (log : List (MEv Req U E)) : List Nat := log.flatMap MEv.ans

/-- the calls whose future has completed or was dropped -/
def MEv.fin : MEv Req U E → List Nat
  | .futPolled n (.ready _) => [n]
  | .futDropped n => [n]
  | _ => []
def futDone (log : List (MEv Req U E)) : List Nat := log.flatMap MEv.fin

end Tower

namespace Tower
variable {Req U E : Type}

/-- the last number allowed, `u64::MAX` before the first `allow` -/
def allowed (log : List (MEv Req U E)) : Nat := (allowance log).1
/-- the calls accepted since the last `allow` -/
def callsSince (log : List (MEv Req U E)) : Nat := (allowance log).2

/-- **The specification**: which event can happen after a record, and with which result. -/
def MAllowed (log : List (MEv Req U E)) : MEv Req U E → Prop
  -- readiness: an error if the handle is dropped; else the error given by the test, once; else Ok if it was ready already or if fewer calls were accepted than allowed; else Pending
  | .poll i _ p =>
    (HandleDropped log → p = .ready (.error .closed)) ∧
    (¬ HandleDropped log → ∀ e, errNow log = some e → p = .ready (.error (.user e))) ∧
    (¬ HandleDropped log → errNow log = none → (mockReady log i = true ∨ callsSince log < allowed log) → p = .ready (.ok ())) ∧
    (¬ HandleDropped log → errNow log = none → mockReady log i = false → allowed log ≤ callsSince log → p = .pending)
  -- a call is accepted if the mock is ready; the future is closed only if the handle is dropped
  | .called i _ f => (HandleDropped log ∧ f = none) ∨ (¬ HandleDropped log ∧ mockReady log i = true ∧ f = some (acceptedReqs log).length)
  -- a panic: by a call on a mock that is not ready, or after another panic
  | .panicked => Panicked log ∨ (¬ HandleDropped log ∧ ∃ i, i < mocksMade log ∧ mockReady log i = false)
  | .cloned i j => i < mocksMade log ∧ j = mocksMade log
  | .dropped i => i < mocksMade log
  -- the handle gives the calls in the order they were accepted, each once
  | .received p =>
    (∀ x, p = .ready (some x) → (acceptedReqs log)[(receivedReqs log).length]? = some x) ∧
    ((∀ x, p ≠ .ready (some x)) → receivedReqs log = acceptedReqs log)
  -- the tasks that wait are woken
  | .allow n ks => ∀ k, k ∈ ks ↔ 0 < n ∧ ∃ i, waiting log i = some k
  | .sendError _ ks => ∀ k, k ∈ ks ↔ ∃ i, waiting log i = some k
  | .handleDropped ks => (∀ k, k ∈ ks ↔ ∃ i, waiting log i = some k) ∧ ¬ HandleDropped log
  | .queueDropped => HandleDropped log ∨ Panicked log
  -- a response can be given once to each call received
  | .responded n _ => n ∈ (receivedReqs log).map Prod.fst ∧ n ∉ answers log
  | .respDropped n => n ∈ (receivedReqs log).map Prod.fst ∧ n ∉ answers log
  -- a future gives the response to its own call; `Closed` if the response can no longer be given
  | .futPolled n p => n < (acceptedReqs log).length ∧ n ∉ futDone log ∧
    ((∃ v, .responded n (.ok v) ∈ log ∧ p = .ready (.ok v)) ∨ (∃ e, .responded n (.error e) ∈ log ∧ p = .ready (.error (.user e))) ∨
     ((∀ r, .responded n r ∉ log) ∧ (.respDropped n ∈ log ∨ (.queueDropped ∈ log ∧ n ∉ (receivedReqs log).map Prod.fst)) ∧ p = .ready (.error .closed)) ∨
     ((∀ r, .responded n r ∉ log) ∧ .respDropped n ∉ log ∧ (n ∈ (receivedReqs log).map Prod.fst ∨ .queueDropped ∉ log) ∧ p = .pending))
  | .futDropped n => n < (acceptedReqs log).length

end Tower
