import Verif.Model.Balance
import Verif.Model.Hedge
import Verif.Model.Load

/-!
# How much is sent to the services at the bottom of a stack

`μ w` measures what has been sent so far: it is a function of the state of the world, in which the services at the bottom keep a record of what they are called with.
-/

namespace Tower

variable {W Req Res Err : Type}

/-- This code sends nothing: when it returns, `μ` is not higher than before. -/
def Silent {α : Type} (μ : W → Nat) (x : Act W α) : Prop := ∀ w a w', x.run w = .ok a w' → μ w' ≤ μ w

/-- The same for a closure. -/
def SilentFn {α : Type} (μ : W → Nat) (f : W → α × W) : Prop := ∀ w, μ (f w).2 ≤ μ w

/-- No operation of the service sends anything. -/
structure SilentSvc (μ : W → Nat) (S : Service W Req Res Err) : Prop where
  ready : ∀ s, Silent μ (S.pollReady s)
  call : ∀ s q, Silent μ (S.call s q)
  poll : ∀ f, Silent μ (S.poll f)

/-- The service sends for a request `q` at most `v q`, in `call` and in all polls of the response future together: `pot f` is what the future may still send. `poll_ready` sends nothing. -/
structure SendsW (μ : W → Nat) (v : Req → Nat) (S : Service W Req Res Err) (pot : S.φ → Nat) : Prop where
  ready : ∀ s w p s' w', (S.pollReady s).run w = .ok (p, s') w' → μ w' ≤ μ w
  call : ∀ s q w f s' w', (S.call s q).run w = .ok (f, s') w' → μ w' + pot f ≤ μ w + v q
  poll : ∀ f w p f' w', (S.poll f).run w = .ok (p, f') w' → μ w' + pot f' ≤ μ w + pot f

/-- The same, with some `pot`. -/
def Sends (μ : W → Nat) (v : Req → Nat) (S : Service W Req Res Err) : Prop := ∃ pot, SendsW μ v S pot

/-- Users of a service: their handles, the response futures that exist, the requests they have passed to `call`, and the world. -/
structure Party (S : Service W Req Res Err) where
  handles : List S.σ
  futs : List S.φ
  sent : List Req
  world : W

/-- What users do, in any order, and with no regard for the contract: `poll_ready`, `call`, `clone`, drop of handles; polls (also after completion) and drops of response futures. `still w w'`: whatever else happens
in the world. -/
inductive PartyStep (S : Service W Req Res Err) (still : W → W → Prop) : Party S → Party S → Prop
  | ready {x : Party S} {i : Nat} {s s' : S.σ} {p : Poll (Except Err Unit)} {w' : W} : x.handles[i]? = some s → (S.pollReady s).run x.world = .ok (p, s') w' →
      PartyStep S still x { x with handles := x.handles.set i s', world := w' }
  | call {x : Party S} {i : Nat} {s s' : S.σ} {q : Req} {f : S.φ} {w' : W} : x.handles[i]? = some s → (S.call s q).run x.world = .ok (f, s') w' →
      PartyStep S still x { x with handles := x.handles.set i s', futs := x.futs ++ [f], sent := x.sent ++ [q], world := w' }
  | clone {x : Party S} {i : Nat} {s : S.σ} : x.handles[i]? = some s → PartyStep S still x { x with handles := x.handles ++ [S.clone s] }
  | drop {x : Party S} {i : Nat} : PartyStep S still x { x with handles := x.handles.eraseIdx i }
  | poll {x : Party S} {i : Nat} {f f' : S.φ} {p : Poll (Except Err Res)} {w' : W} : x.futs[i]? = some f → (S.poll f).run x.world = .ok (p, f') w' →
      PartyStep S still x { x with futs := x.futs.set i f', world := w' }
  | dropFuture {x : Party S} {i : Nat} : PartyStep S still x { x with futs := x.futs.eraseIdx i }
  | env {x : Party S} {w' : W} : still x.world w' → PartyStep S still x { x with world := w' }

/-- Any number of steps, from handles `hs` and world `w` on. -/
inductive PartyRun (S : Service W Req Res Err) (still : W → W → Prop) (hs : List S.σ) (w : W) : Party S → Prop
  | start : PartyRun S still hs w ⟨hs, [], [], w⟩
  | step {x y : Party S} : PartyRun S still hs w x → PartyStep S still x y → PartyRun S still hs w y

/-- A service at the bottom that keeps a record of what it is called with, and of nothing else. -/
structure Records {Q : Type} (log : W → List Q) (S : Service W Q Res Err) : Prop where
  ready : ∀ s w p s' w', (S.pollReady s).run w = .ok (p, s') w' → log w' = log w
  call : ∀ s q w f s' w', (S.call s q).run w = .ok (f, s') w' → log w' = log w ++ [q]
  poll : ∀ f w p f' w', (S.poll f).run w = .ok (p, f') w' → log w' = log w

/-- Code that is not a service at the bottom does not write to the record. -/
def Leaves {α Q : Type} (log : W → List Q) (x : Act W α) : Prop := ∀ w a w', x.run w = .ok a w' → log w' = log w

/-- The same for a closure. -/
def LeavesFn {α Q : Type} (log : W → List Q) (f : W → α × W) : Prop := ∀ w, log (f w).2 = log w

/-- A retry policy that retries a request at most `n` times: there is a counter in its state that is at most `n`, that each retry lowers by one, and that is never raised. It sends what it was given, and does not
call the service by itself. -/
structure Limited {Q : Type} (log : W → List Q) (P : RetryPolicy W Q Res Err) (n : Nat) (left : P.π → Nat) : Prop where
  bound : ∀ p, left p ≤ n
  retry : ∀ p q r w, left (P.retry p q r w).1.2.1 + (if (P.retry p q r w).1.1.isSome then 1 else 0) ≤ left p
  same : ∀ p q r w, (P.retry p q r w).1.2.2.1 = q
  copy : ∀ p q w c, (P.cloneRequest p q w).1.1 = some c → c = q
  keep : ∀ p q w, left (P.cloneRequest p q w).1.2 ≤ left p
  clone : ∀ p, left (P.clone p) ≤ left p
  leaves : ∀ p q r, LeavesFn log (P.retry p q r)
  leaves' : ∀ p q, LeavesFn log (P.cloneRequest p q)
  leaves'' : ∀ r, LeavesFn log (P.wait r)

/-- The same in terms of what is sent: a retry sends at most what the request does. -/
structure Credit (μ : W → Nat) (v : Req → Nat) (P : RetryPolicy W Req Res Err) (n : Nat) (left : P.π → Nat) : Prop where
  bound : ∀ p, left p ≤ n
  retry : ∀ p q r w, left (P.retry p q r w).1.2.1 + (if (P.retry p q r w).1.1.isSome then 1 else 0) ≤ left p
  less : ∀ p q r w, v (P.retry p q r w).1.2.2.1 ≤ v q
  copy : ∀ p q w c, (P.cloneRequest p q w).1.1 = some c → v c ≤ v q
  keep : ∀ p q w, left (P.cloneRequest p q w).1.2 ≤ left p
  clone : ∀ p, left (P.clone p) ≤ left p
  quiet : ∀ p q r, SilentFn μ (P.retry p q r)
  quiet' : ∀ p q, SilentFn μ (P.cloneRequest p q)
  quiet'' : ∀ r, SilentFn μ (P.wait r)

end Tower
