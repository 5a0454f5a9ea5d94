import Verif.Spec.UseSpec
import Verif.Model.Middleware

/-!
# Watching a service, and listening to a background task

`Watched S P` is `S` with an alarm: after each use it panics unless `P` holds of its state and of the requests it has been given. A stack of
middleware over `Watched S P` that never panics therefore never brings `S` into a state in which `P` fails.

tokio catches the panic of a spawned task; so that no panic is missed, `SpawnReadyLoud` is `SpawnReady` with a runtime that passes the panic of the
background task on to whoever looks at its `JoinHandle`.
-/

namespace Tower
open Act
variable {W Req Res Err : Type}

/-- The users of a service all of whom obey the contract: the first has it from state `s0` on; when `c` is set, a user may clone its service, and the clone has
one user of its own. `reqs` lists the requests that this user has passed to it. -/
inductive UsesC (c : Bool) (S : Service W Req Res Err) (s0 : S.σ) : S.σ → Mode → List Req → Prop
  | new : UsesC c S s0 s0 .idle []
  | clone {s m reqs} : c = true → UsesC c S s0 s m reqs → m ≠ .failed → UsesC c S s0 (S.clone s) .idle []
  | ready {s m reqs w w' p s'} : UsesC c S s0 s m reqs → m ≠ .failed → (S.pollReady s).run w = .ok (p, s') w' → UsesC c S s0 s' (modeAfter p) reqs
  | call {s reqs r w w' f s'} : UsesC c S s0 s .ready reqs → (S.call s r).run w = .ok (f, s') w' → UsesC c S s0 s' .idle (reqs ++ [r])

open Classical in
/-- the alarm -/
noncomputable def alarm {α : Type} (p : Prop) (a : α) : Act W α := if p then pure a else Act.panic "alarm"

/-- `S` with an alarm that goes off when `P` fails of its state and of the requests it was given. -/
@[reducible] noncomputable def Watched (S : Service W Req Res Err) (P : S.σ → List Req → Prop) : Service W Req Res Err where
  σ := S.σ × List Req
  φ := S.φ
  pollReady s := do
    let a ← S.pollReady s.1
    alarm (P a.2 s.2) (a.1, (a.2, s.2))
  call s r := do
    let a ← S.call s.1 r
    alarm (P a.2 (s.2 ++ [r])) (a.1, (a.2, s.2 ++ [r]))
  poll := S.poll
  clone s := (S.clone s.1, [])

/-- Does the background task of `SpawnReady` panic when it is polled in these worlds? -/
def taskPanics (S : Service W Req Res Err) : List W → TaskSt S.σ Err → Bool
  | w :: ws, .running s =>
    match (S.pollReady s).run w with
    | .panic _ => true
    | .ok (.pending, s') _ => taskPanics S ws (.running s')
    | _ => false
  | _, _ => false

/-- `spawnPoll` with a runtime that passes panics of the background task on. Compare `tower/src/spawn_ready/service.rs:59-78`. -/
def loudPoll (R : Runtime W) (S : Service W Req Res Err) :
    Nat → SpawnState S.σ Err → Act W (Poll (Except (SpawnErr Err) Unit) × SpawnState S.σ Err)
  | 0, _ => Act.spin
  | n + 1, x =>
    match x with
    | .service none => Act.panic "illegal state"
    | .service (some s) => do
      let (p, s') ← S.pollReady s
      match p with
      | .ready r => pure (.ready (mapErr .inner r), .service (some s'))
      | .pending => loudPoll R S n (.future (.running s'))
    | .future t => do
      let w ← Act.get
      if taskPanics S (R.sched w) t = true then Act.panic "the background task panicked"
      else match taskAt R S w t with
      | .running s => do
        Act.modify R.arm
        pure (.pending, .future (.running s))
      | .failed => pure (.ready (.error .join), .future .taken)
      | .taken => Act.panic "JoinHandle polled after completion"
      | .done (.error e) => pure (.ready (.error (.inner e)), .future .taken)
      | .done (.ok s) => loudPoll R S n (.service (some s))

/-- `SpawnReady` whose runtime passes panics of the background task on. -/
def SpawnReadyLoud (fuel : Nat) (R : Runtime W) (S : Service W Req Res Err) : Service W Req Res (SpawnErr Err) :=
  { SpawnReady fuel R S with pollReady := loudPoll R S fuel }

end Tower
