import Verif.Spec.MockSpec
import Verif.Model.Semaphore

/-!
# `tower-test/src/mock/spawn.rs`

A `Spawn` is a service and a task of its own. Assumed of tokio-test: a task has a flag, which is not set at first; `enter` clears it and runs the closure with a context whose waker sets it; `is_woken` is the flag. Tasks have
numbers, which are their wakers; the world gets the flags. (`waker_ref_count`, `tower-test/src/mock/spawn.rs:29-31`, is one more than the number of stored wakers of the task.)
-/

namespace Tower

/-- `Spawn`, `tower-test/src/mock/spawn.rs:9-12` -/
structure Spawn (σ : Type) where
  inner : σ
  task : Nat
  deriving DecidableEq, Repr

namespace Spawn
variable {W σ α φ Req : Type}

/-- `Spawn::new`, `tower-test/src/mock/spawn.rs:16-21`: a new task -/
def new (s : σ) : Act (List Bool × W) (Spawn σ) := do
  let w ← Act.get
  Act.modify (fun w => (w.1 ++ [false], w.2))
  pure ⟨s, w.1.length⟩

/-- `is_woken`, `tower-test/src/mock/spawn.rs:24-26` -/
def isWoken (x : Spawn σ) (tasks : List Bool) : Bool := tasks[x.task]?.getD false

/-- `poll_ready`, `tower-test/src/mock/spawn.rs:34-42`; the service's `poll_ready` gets the waker of the context -/
def pollReady (poll : Nat → σ → Act W (α × σ)) (x : Spawn σ) : Act (List Bool × W) (α × Spawn σ) := do
  Act.modify (fun w => (w.1.set x.task false, w.2))
  let r ← (poll x.task x.inner).snd
  pure (r.1, { x with inner := r.2 })

/-- `call`, `tower-test/src/mock/spawn.rs:45-50` -/
def call (f : σ → Req → Act W (φ × σ)) (x : Spawn σ) (q : Req) : Act (List Bool × W) (φ × Spawn σ) := do
  let r ← (f x.inner q).snd
  pure (r.1, { x with inner := r.2 })

/-- `clone`, `tower-test/src/mock/spawn.rs:68-72` -/
def clone (cl : σ → Act W σ) (x : Spawn σ) : Act (List Bool × W) (Spawn σ) := do
  let i ← (cl x.inner).snd
  new i

/-- Wakers are woken: the flags of their tasks are set. For `tower-test/src/mock/mod.rs:243-283`. -/
def wake (ks : List Nat) (tasks : List Bool) : List Bool := ks.foldl (fun t k => t.set k true) tasks

end Spawn

variable {Req U E : Type}

/-- The state of a program that uses a mock on a mock task: as `MSt`, with the flags of the tasks; each mock is in a `Spawn`. For `tower-test/src/mock/mod.rs:36-40`. -/
structure SpSt (Req U E : Type) where
  w : MockW Req U E
  tasks : List Bool
  spawns : List (Spawn Mock)
  handle : Bool
  held : List Nat

/-- a panic while the mutex is held, or when it is poisoned. `tower-test/src/mock/mod.rs:124, 158`. -/
def SpSt.poison (s : SpSt Req U E) : SpSt Req U E := { s with w := { s.w with poisoned := true } }

/-- All programs that use spawned mocks, from `mock::spawn`, `tower-test/src/mock/mod.rs:36-40`, in any interleaving; calls without readiness are among them. What happens is recorded as in `MRun`. (`get_ref`, `get_mut` and `into_inner`,
`tower-test/src/mock/spawn.rs:53-65`, are left out: the mock is used through its `Spawn`.) -/
inductive SpRun : SpSt Req U E → List (MEv Req U E) → Prop
  | spawn : SpRun ⟨Mock.world0, [false], [⟨Mock.pair, 0⟩], true, []⟩ []
  | poll {s log l x l' p x' t' w'} : SpRun s log → s.spawns = l ++ x :: l' → (x.pollReady Mock.pollReady).run (s.tasks, s.w) = .ok (p, x') (t', w') →
      SpRun { s with w := w', tasks := t', spawns := l ++ x' :: l' } (log ++ [.poll x.inner.id x.task p])
  | pollPanics {s log l x l' t t'} : SpRun s log → s.spawns = l ++ x :: l' → (x.pollReady (Mock.pollReady (Req := Req) (U := U) (E := E))).run (s.tasks, s.w) = .panic t → SpRun { s.poison with tasks := t' } (log ++ [.panicked])
  | call {s log l x l' q f x' t' w'} : SpRun s log → s.spawns = l ++ x :: l' → (x.call Mock.call q).run (s.tasks, s.w) = .ok (f, x') (t', w') →
      SpRun { s with w := w', tasks := t', spawns := l ++ x' :: l' } (log ++ [.called x.inner.id q f])
  | callPanics {s log l x l' q t} : SpRun s log → s.spawns = l ++ x :: l' → (x.call Mock.call q).run (s.tasks, s.w) = .panic t → SpRun s.poison (log ++ [.panicked])
  | clone {s log x x' t' w'} : SpRun s log → x ∈ s.spawns → (x.clone Mock.clone).run (s.tasks, s.w) = .ok x' (t', w') →
      SpRun { s with w := w', tasks := t', spawns := s.spawns ++ [x'] } (log ++ [.cloned x.inner.id x'.inner.id])
  | drop {s log l x l' w'} : SpRun s log → s.spawns = l ++ x :: l' → x.inner.drop.run s.w = .ok () w' → SpRun { s with w := w', spawns := l ++ l' } (log ++ [.dropped x.inner.id])
  | recv {s log p w'} : SpRun s log → s.handle = true → Mock.pollRequest.run s.w = .ok p w' →
      SpRun { s with w := w', held := s.held ++ (MEv.got (.received p : MEv Req U E)).map Prod.fst } (log ++ [.received p])
  | allow {s log n ks w'} : SpRun s log → s.handle = true → (Mock.allow n).run s.w = .ok ks w' → SpRun { s with w := w', tasks := Spawn.wake ks s.tasks } (log ++ [.allow n ks])
  | sendError {s log e ks w'} : SpRun s log → s.handle = true → (Mock.sendError e).run s.w = .ok ks w' → SpRun { s with w := w', tasks := Spawn.wake ks s.tasks } (log ++ [.sendError e ks])
  | dropHandle {s log ks w'} : SpRun s log → s.handle = true → Mock.dropHandle.run s.w = .ok ks w' → SpRun { s with w := w', tasks := Spawn.wake ks s.tasks, handle := false } (log ++ [.handleDropped ks])
  | dropHandlePanics {s log t} : SpRun s log → s.handle = true → Mock.dropHandle.run s.w = .panic t → SpRun { s.poison with handle := false } (log ++ [.panicked])
  | dropRx {s log w'} : SpRun s log → s.handle = false → s.w.rx = true → Mock.dropRx.run s.w = .ok () w' → SpRun { s with w := w' } (log ++ [.queueDropped])
  | respond {s log n r w'} : SpRun s log → n ∈ s.held → (Mock.respond n r).run s.w = .ok () w' → SpRun { s with w := w', held := s.held.erase n } (log ++ [.responded n r])
  | dropResponse {s log n w'} : SpRun s log → n ∈ s.held → (Mock.dropResponse n).run s.w = .ok () w' → SpRun { s with w := w', held := s.held.erase n } (log ++ [.respDropped n])
  | pollFut {s log n p w'} : SpRun s log → (Mock.pollFut (some n)).run s.w = .ok p w' → SpRun { s with w := w' } (log ++ [.futPolled n p])
  | dropFut {s log n w'} : SpRun s log → n ∈ (acceptedReqs log).map Prod.fst → (Mock.dropFut n).run s.w = .ok () w' → SpRun { s with w := w' } (log ++ [.futDropped n])

end Tower
