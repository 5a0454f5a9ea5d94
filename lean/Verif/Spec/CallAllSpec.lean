import Verif.Model.CallAll

/-!
# What a `CallAll` may do with its stream, its service and the response futures

The stream and the service it is given are arbitrary, with a recorder around each: the world has a log of all that was asked of them and what they answered.
`CASt.step` is the specification, one event at a time; a log is legal if every event is allowed.
-/

namespace Tower
variable {W Req Res Err : Type}

/-- The stream was polled; the readiness of the service was polled; the service was called (calls are numbered 0, 1, ...); the future of a call was polled. -/
inductive CAEv (Req Res Err : Type) where
  | pulled (p : Poll (Option Req))
  | ready (p : Poll (Except Err Unit))
  | called (q : Req)
  | polled (n : Nat) (p : Poll (Except Err Res))

/-- the requests the stream gave, in order -/
def pulledReqs : List (CAEv Req Res Err) → List Req
  | [] => []
  | .pulled (.ready (some q)) :: l => q :: pulledReqs l
  | _ :: l => pulledReqs l

/-- the requests the service was called with, in order -/
def calledReqs : List (CAEv Req Res Err) → List Req
  | [] => []
  | .called q :: l => q :: calledReqs l
  | _ :: l => calledReqs l

/-- the responses given by the futures, with the number of their call, in the order they came -/
def responses : List (CAEv Req Res Err) → List (Nat × Except Err Res)
  | [] => []
  | .polled n (.ready o) :: l => (n, o) :: responses l
  | _ :: l => responses l

/-- the stream has ended -/
def StreamEnded (log : List (CAEv Req Res Err)) : Prop := CAEv.pulled (.ready none) ∈ log

/-- the service has failed with `e` -/
def ServiceFailed (log : List (CAEv Req Res Err)) (e : Err) : Prop := CAEv.ready (.ready (.error e)) ∈ log

/-- what matters of the past: no more requests may be taken or made; the request taken and not made yet; the service is ready; the number of calls; the calls that are answered -/
structure CASt (Req : Type) where
  eof : Bool
  held : Option Req
  rdy : Bool
  calls : Nat
  fin : List Nat

def CASt.init : CASt Req := ⟨false, none, false, 0, []⟩

open Classical in
/-- Is the event allowed, and what is known after it?
* The stream is polled only while it has not ended, the service has not failed, and no request waits.
* The readiness is polled only while a request waits.
* The service is called only with the request that waits, and only if it has just said that it is ready.
* A future is polled only if it has not answered. -/
noncomputable def CASt.step (s : CASt Req) : CAEv Req Res Err → Option (CASt Req)
  | .pulled .pending => if s.eof = false ∧ s.held = none then some s else none
  | .pulled (.ready none) => if s.eof = false ∧ s.held = none then some { s with eof := true } else none
  | .pulled (.ready (some q)) => if s.eof = false ∧ s.held = none then some { s with held := some q } else none
  | .ready .pending => if s.eof = false ∧ s.held ≠ none then some { s with rdy := false } else none
  | .ready (.ready (.ok ())) => if s.eof = false ∧ s.held ≠ none then some { s with rdy := true } else none
  | .ready (.ready (.error _)) => if s.eof = false ∧ s.held ≠ none then some { s with eof := true } else none
  | .called q => if s.eof = false ∧ s.held = some q ∧ s.rdy = true then some { s with held := none, rdy := false, calls := s.calls + 1 } else none
  | .polled n .pending => if n < s.calls ∧ n ∉ s.fin then some s else none
  | .polled n (.ready _) => if n < s.calls ∧ n ∉ s.fin then some { s with fin := n :: s.fin } else none

/-- the state after a log, if all of it is allowed -/
noncomputable def caRun (log : List (CAEv Req Res Err)) : Option (CASt Req) := log.foldl (fun s e => s.bind (CASt.step · e)) (some CASt.init)

/-- every event was allowed -/
def CALegal (log : List (CAEv Req Res Err)) : Prop := caRun log ≠ none

/-! ## The recorder -/

def note (e : CAEv Req Res Err) : Act (List (CAEv Req Res Err) × W) Unit := Act.modify (fun x => (x.1 ++ [e], x.2))

/-- a service with a recorder -/
@[reducible] def recS (S : Service W Req Res Err) : Service (List (CAEv Req Res Err) × W) Req Res Err where
  σ := S.σ
  φ := Nat × S.φ
  pollReady s := do
    let (p, s') ← (S.pollReady s).snd
    note (.ready p)
    pure (p, s')
  call s q := do
    let x ← Act.get
    let (f, s') ← (S.call s q).snd
    note (.called q)
    pure (((calledReqs x.1).length, f), s')
  poll x := do
    let (p, f') ← (S.poll x.2).snd
    note (.polled x.1 p)
    pure (p, (x.1, f'))
  clone := S.clone

/-- a stream with a recorder -/
@[reducible] def recR (Res Err : Type) (R : ReqStream W Req) : ReqStream (List (CAEv Req Res Err) × W) Req where
  τ := R.τ
  poll r := do
    let (p, r') ← (R.poll r).snd
    note (.pulled p)
    pure (p, r')

/-- the order of polls is up to the world, and does not touch the log -/
def Sched.snd {A : Type} (V : Sched W) : Sched (A × W) := ⟨fun n w => ((V.order n w.2).1, (w.1, (V.order n w.2).2))⟩

/-- what a poll of the stream of responses yielded -/
def itemOf {α : Type} : Poll (Option α) → List α
  | .ready (some a) => [a]
  | _ => []

/-- has the stream of responses ended with this answer? -/
def isEnd {α : Type} : Poll (Option α) → Bool
  | .ready none => true
  | _ => false

/-- Every use of a `CallAll` (with the queue `D`): it is polled, any number of times, in any world; the service may be taken out. With the log, the items yielded and whether it has ended. -/
inductive CARun {S : Service W Req Res Err} {R : ReqStream W Req} (D : DriveQ (List (CAEv Req Res Err) × W) (Nat × S.φ) (Except Err Res)) (s0 : S.σ) (r0 : R.τ) :
    CallAll (recS S) (recR Res Err R) D → List (CAEv Req Res Err) → List (Except Err Res) → Bool → Prop
  | new : CARun D s0 r0 (CallAll.new s0 r0) [] [] false
  | poll {c log items b n w p c' log' w'} : CARun D s0 r0 c log items b → (CallAll.pollNext n c).run (log, w) = .ok (p, c') (log', w') →
      CARun D s0 r0 c' log' (items ++ itemOf p) (b || isEnd p)
  | take {c log items b w s c'} : CARun D s0 r0 c log items b → c.takeService.run (log, w) = .ok (s, c') (log, w) → CARun D s0 r0 c' log items b

/-- `items` are `rs`, with the error with which the service failed put in somewhere, if it failed -/
def WithFailure (log : List (CAEv Req Res Err)) (rs items : List (Except Err Res)) : Prop :=
  ((∀ e, ¬ ServiceFailed log e) ∧ items = rs) ∨ ∃ e a b, ServiceFailed log e ∧ rs = a ++ b ∧ items = a ++ .error e :: b

end Tower
