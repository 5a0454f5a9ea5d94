import Verif.Model.Middleware
import Verif.Model.BufferSvc

/-!
# Not hanging

What it means that something which is polled again and again comes to an end, in an environment that is fair; and that a service answers whoever keeps the contract.
-/

namespace Tower
variable {W : Type}

/-- `w`, then `ws` -/
def wcons (w : W) (ws : Nat → W) : Nat → W
  | 0 => w
  | n + 1 => ws n

/-- Which sequences of worlds are fair: those in which what is waited for outside (time, permits, peers) comes about. It is for the user to say; it must be possible, and may not depend on the beginning of the sequence. -/
structure Fairness (W : Type) where
  fair : (Nat → W) → Prop
  some : ∃ ws, fair ws
  cons : ∀ w ws, fair ws → fair (wcons w ws)
  tail : ∀ ws, fair ws → fair (fun n => ws (n + 1))

/-- Poll it in the worlds `ws 0`, `ws 1`, ...: one of the polls is `Ready` (or panics), after finitely many that are `Pending`. No poll loops forever. -/
inductive Ends {A V : Type} (poll : A → Act W (Poll V × A)) : A → (Nat → W) → Prop
  | ready {a : A} {ws : Nat → W} {v : V} {a' : A} {w' : W} : (poll a).run (ws 0) = .ok (.ready v, a') w' → Ends poll a ws
  | panics {a : A} {ws : Nat → W} {m : String} : (poll a).run (ws 0) = .panic m → Ends poll a ws
  | pending {a : A} {ws : Nat → W} {a' : A} {w' : W} : (poll a).run (ws 0) = .ok (.pending, a') w' → Ends poll a' (fun n => ws (n + 1)) → Ends poll a ws

/-- in every fair sequence of worlds -/
def Finishes {A V : Type} (F : Fairness W) (poll : A → Act W (Poll V × A)) (a : A) : Prop := ∀ ws, F.fair ws → Ends poll a ws

/-- The handles that users who keep the contract can have, starting with `s₀`, and whether they may `call` (the last `poll_ready` was `Ready(Ok)`, and no `call` since). A handle whose `poll_ready` returned an
error is not used any more. -/
inductive Reach {Req Res Err : Type} (S : Service W Req Res Err) (s₀ : S.σ) : Bool → S.σ → Prop
  | new : Reach S s₀ false s₀
  | ready {b : Bool} {s s' : S.σ} {w w' : W} : Reach S s₀ b s → (S.pollReady s).run w = .ok (.ready (.ok ()), s') w' → Reach S s₀ true s'
  | pending {b : Bool} {s s' : S.σ} {w w' : W} : Reach S s₀ b s → (S.pollReady s).run w = .ok (.pending, s') w' → Reach S s₀ false s'
  | call {s s' : S.σ} {r : Req} {f : S.φ} {w w' : W} : Reach S s₀ true s → (S.call s r).run w = .ok (f, s') w' → Reach S s₀ false s'
  | clone {b : Bool} {s : S.σ} : Reach S s₀ b s → Reach S s₀ false (S.clone s)

/-- **The service does not hang**, whatever has been done with it and its clones before: a handle that is polled with `poll_ready` again and again will be ready (or return an error) after finitely many polls, `call` returns, and
every response future that is polled again and again is finished after finitely many polls. -/
structure NeverHangs {Req Res Err : Type} (F : Fairness W) (S : Service W Req Res Err) (s₀ : S.σ) : Prop where
  ready : ∀ b s, Reach S s₀ b s → Finishes F S.pollReady s
  call : ∀ s r w, Reach S s₀ true s → (S.call s r).run w ≠ .spin
  poll : ∀ s r w f s' w', Reach S s₀ true s → (S.call s r).run w = .ok (f, s') w' → Finishes F S.poll f

/-! ## What is asked of the environment of a layer -/

/-- permits are granted after finitely many polls -/
def SemView.Grants (F : Fairness W) (V : SemView W) : Prop := ∀ a, Finishes F (fun a => Act.lift (V.pollAcquire a)) a

/-- the policy's futures finish -/
def RetryPolicy.WaitsEnd {Q R E : Type} (F : Fairness W) (P : RetryPolicy W Q R E) : Prop :=
  ∀ p q r w ρ p' q' r' w', P.retry p q r w = ((some ρ, p', q', r'), w') → Finishes F (fun ρ => Act.lift (P.wait ρ)) ρ

/-- the receivers that the sender of a request can hold: it was returned by `send`, and polled some times since -/
inductive ChanView.Rx {Q φ E : Type} (V : ChanView W Q φ E) : V.ρ → Prop
  | sent (q : Q) (w : W) : V.Rx (V.send q w).1
  | pending {r : V.ρ} {w : W} : V.Rx r → (V.pollRx r w).1.1 = .pending → V.Rx (V.pollRx r w).1.2

/-- The channel makes room, and the worker sends a response (or an error, or is gone) for each request; the response futures that it sends finish. -/
structure ChanView.Serves {Q R E : Type} (F : Fairness W) (S : Service W Q R E) (V : ChanView W Q S.φ E) : Prop where
  reserve : ∀ a, Finishes F (fun a => Act.lift (V.pollReserve a)) a
  rx : ∀ q w, Finishes F (fun r => Act.lift (V.pollRx r)) (V.send q w).1
  sent : ∀ r w f, V.Rx r → (V.pollRx r w).1.1 = .ready (some (.ok f)) → Finishes F S.poll f

/-- The runtime goes on to poll the task: in a fair sequence of moments at which somebody looks, the worlds in which the task was polled in the meantime are a fair sequence, too. -/
def Runtime.Runs (F : Fairness W) (rt : Runtime W) : Prop :=
  ∀ ws, F.fair ws → ∃ vs, F.fair vs ∧ ∀ n, ∃ m, (List.range n).map vs <+: (List.range m).flatMap (fun i => rt.sched (ws i))

/-- time passes: a timer, whatever its deadline, has fired at some moment -/
def Clock.Passes (F : Fairness W) (C : Clock W) : Prop := ∀ d ws, F.fair ws → ∃ n, C.fired d (ws n) = true

/-! ## Connections (for `Reconnect`) -/

/-- the future `g` is `f` after some polls that were `Pending` -/
inductive PolledTo {A V : Type} (poll : A → Act W (Poll V × A)) (f : A) : A → Prop
  | new : PolledTo poll f f
  | pending {g g' : A} {w w' : W} : PolledTo poll f g → (poll g).run w = .ok (.pending, g') w' → PolledTo poll f g'

/-- the connection `s` was made by (a handle of) the maker `m₀` for the target `t` -/
def Made {Tgt σ E : Type} (M : Service W Tgt σ E) (m₀ : M.σ) (t : Tgt) (s : σ) : Prop :=
  ∃ m w f m' w' g v g' v', Reach M m₀ true m ∧ (M.call m t).run w = .ok (f, m') w' ∧ PolledTo M.poll f g ∧ (M.poll g).run v = .ok (.ready (.ok s), g') v'

/-- New connections do not fail before they were ready. -/
def FailsNotAtOnce {Tgt Q R E E' : Type} (S : Service W Q R E) (M : Service W Tgt S.σ E') (m₀ : M.σ) (t : Tgt) : Prop :=
  ∀ s s' w e s'' w', Made M m₀ t s → PolledTo S.pollReady s s' → (S.pollReady s').run w ≠ .ok (.ready (.error e), s'') w'

end Tower
