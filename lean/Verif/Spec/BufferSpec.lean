import Verif.Model.Buffer

/-! # What can be said about a history of a buffer by looking at it from outside -/

namespace Tower
variable {W Req Res Err : Type} {S : Service W Req Res Err}

/-- the requests put into the channel, in order -/
def accepted : List (BEv S) → List (Msg Req)
  | [] => []
  | .accept _ i r :: tr => ⟨i, r⟩ :: accepted tr
  | _ :: tr => accepted tr

/-- the requests the inner service was called with, in order, each with the future it returned -/
def dispatches : List (BEv S) → List (Msg Req × S.φ)
  | [] => []
  | .dispatch i r f :: tr => (⟨i, r⟩, f) :: dispatches tr
  | _ :: tr => dispatches tr

/-- the requests the inner service was called with, in order -/
def dispatched (tr : List (BEv S)) : List (Msg Req) := (dispatches tr).map (·.1)

/-- `f` is what becomes of the future `f0` by polling it -/
inductive Desc (S : Service W Req Res Err) (f0 : S.φ) : S.φ → Prop
  | refl : Desc S f0 f0
  | step {f f' w w'} : Desc S f0 f → (S.poll f).run w = .ok (.pending, f') w' → Desc S f0 f'

/-- the worker was dropped, or the inner service panicked in it -/
def workerDied (tr : List (BEv S)) : Prop := .svcPanics ∈ tr ∨ .workerDropped ∈ tr

/-- the number of slots of the channel that handles have reserved -/
def Buf.reserved (x : Buf S) : Nat := x.hs.countP (·.st = .ready)

/-- an error is justified by what happened: `ServiceError(e)` if the inner service failed with `e`, `Closed` if the worker died -/
def Justified (tr : List (BEv S)) : BufErr Err → Prop
  | .service e => .svcFailed e ∈ tr
  | .closed => workerDied tr
  | .inner _ => False

/-- polling response future `i` now gives `p` (and nothing else) -/
def Buf.Resolves (x : Buf S) (i : Nat) (p : Poll (Except (BufErr Err) Res)) : Prop :=
  (∃ z, BStep x (.poll i p) z) ∧ ∀ q z, BStep x (.poll i q) z → q = p

/-- how an event changes whether handle `h` was last seen ready: its `poll_ready` or `call` decide, all else leaves it as it is -/
def readyAfter (h : Nat) (b : Bool) : BEv S → Bool
  | .ready h' (.ready (.ok ())) => if h' = h then true else b
  | .ready h' _ => if h' = h then false else b
  | .accept h' _ _ => if h' = h then false else b
  | .refuse h' _ _ => if h' = h then false else b
  | .callPanics h' => if h' = h then false else b
  | _ => b

/-- the latest operation on handle `h` was a `poll_ready` that returned `Ready(Ok(()))` -/
def readyNow (h : Nat) (tr : List (BEv S)) : Bool := tr.foldl (readyAfter h) false

/-- every history of a fresh buffer: `tr` is what was observed, `x` the state reached -/
abbrev BHist (S : Service W Req Res Err) (bound : Nat) (svc : S.σ) (tr : List (BEv S)) (x : Buf S) : Prop := BRun (Buf.init S bound svc) tr x

/-- only the worker runs -/
inductive WRun (x : Buf S) : List (BEv S) → Buf S → Prop
  | nil : WRun x [] x
  | snoc {tr ev y z} : WRun x tr y → WStep y ev z → WRun x (tr ++ [ev]) z

/-- polling the service repeatedly gives a definite answer at some point -/
inductive Answers (S : Service W Req Res Err) : S.σ → Prop
  | now {s v s' w w'} : (S.pollReady s).run w = .ok (.ready v, s') w' → Answers S s
  | later {s s' w w'} : (S.pollReady s).run w = .ok (.pending, s') w' → Answers S s' → Answers S s

/-- a service that always answers in the end and accepts calls without panicking -/
structure Cooperative (S : Service W Req Res Err) : Prop where
  ready : ∀ s, Answers S s
  call : ∀ s r, ∃ f s' w w', (S.call s r).run w = .ok (f, s') w'

end Tower
