import Verif.Contract
import Verif.Spec.BufferSpec

/-! # One lawful user of a service; a service that writes a log -/

namespace Tower
open Act
variable {W Req Res Err : Type}

/-- what a user knows of a service after its `poll_ready` answered `p` -/
def modeAfter : Poll (Except Err Unit) → Mode
  | .ready (.ok ()) => .ready
  | .ready (.error _) => .failed
  | .pending => .idle

/-- One user has a service, from its state `s0` on, to itself and obeys the contract of `tower-service/src/lib.rs:322-352`: it calls only after
the latest `poll_ready` since the last `call` returned `Ready(Ok)`, and it leaves a failed service alone. `s` and `m` say what the service
is now and what the user knows of it, `reqs` lists the requests passed to it. -/
inductive Uses (S : Service W Req Res Err) (s0 : S.σ) : S.σ → Mode → List Req → Prop
  | new : Uses S s0 s0 .idle []
  | ready {s m reqs w w' p s'} : Uses S s0 s m reqs → m ≠ .failed → (S.pollReady s).run w = .ok (p, s') w' → Uses S s0 s' (modeAfter p) reqs
  | call {s reqs r w w' f s'} : Uses S s0 s .ready reqs → (S.call s r).run w = .ok (f, s') w' → Uses S s0 s' .idle (reqs ++ [r])

/-- A service with a log: when it was last used, and when it was called. -/
structure Log (σ : Type) where
  svc : σ
  last : Nat
  calls : List Nat

/-- `S`, noting the time of each use. A use at a time before the last one does not happen: with it only histories in which the clock does
not run backwards are considered. -/
@[reducible] def Logged (C : Clock W) (S : Service W Req Res Err) : Service W Req Res Err where
  σ := Log S.σ
  φ := S.φ
  pollReady s := do
    let w ← Act.get
    if C.now w < s.last then Act.spin
    else do
      let a ← S.pollReady s.svc
      pure (a.1, ⟨a.2, C.now w, s.calls⟩)
  call s r := do
    let w ← Act.get
    if C.now w < s.last then Act.spin
    else do
      let a ← S.call s.svc r
      pure (a.1, ⟨a.2, C.now w, s.calls ++ [C.now w]⟩)
  poll := S.poll
  clone s := ⟨S.clone s.svc, s.last, []⟩

end Tower
