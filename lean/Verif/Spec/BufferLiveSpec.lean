import Verif.Spec.BufferWakeSpec
import Verif.Spec.LiveSpec
import Mathlib.Order.Monotone.Basic

/-! # The whole life of a buffer, with a fair executor -/

namespace Tower
variable {W Req Res Err : Type}

/-- in the step from `x` to `y` the worker polls the inner service, whether it is ready -/
def PollsSvc {S : Service W Req Res Err} (x y : Buf S) : Prop := ∃ m, x.pc = .got m ∧ x.failed = none ∧ y.pc ≠ .got m

/-- The life of a buffer from its creation on, without end. At time `n` the state is `xs n`, the wakers `ks n`, the world `ws n`; what happens next is `evs n`: a step of some task, or (`none`) nothing but wake-ups from outside.
A worker that sleeps is polled only if it was woken. -/
structure BufLife (S : Service W Req Res Err) (bound : Nat) (svc : S.σ) (ws : Nat → W) (xs : Nat → Buf S) (ks : Nat → Wakers) (evs : Nat → Option (BEv S)) : Prop where
  start : xs 0 = Buf.init S bound svc
  startWakers : ks 0 = Wakers.init
  step : ∀ n ev, evs n = some ev → BStep (xs n) ev (xs (n + 1)) ∧ ((xs n).pc = .parked → (xs (n + 1)).pc = .next → (ks n).worker = true) ∧ ks (n + 1) = (xs n).wakes ev (xs (n + 1)) (ks n)
  wake : ∀ n, evs n = none → xs (n + 1) = xs n ∧ ((ks n).worker = true → (ks (n + 1)).worker = true) ∧ (ks (n + 1)).rx = (ks n).rx ∧
    (∀ h, (ks n).handles h = true → (ks (n + 1)).handles h = true) ∧ ∀ i, (ks n).futs i = true → (ks (n + 1)).futs i = true
  /-- the inner service is polled in the world of the moment -/
  svcWorld : ∀ n, PollsSvc (xs n) (xs (n + 1)) → (∃ w', (S.pollReady (xs n).svc).run (ws n) = .ok (.pending, (xs (n + 1)).svc) w' ∧ evs n = some .svcPending) ∨
    (∃ v w', (S.pollReady (xs n).svc).run (ws n) = .ok (.ready v, (xs (n + 1)).svc) w' ∧ evs n ≠ some .svcPending) ∨ ∃ msg, (S.pollReady (xs n).svc).run (ws n) = .panic msg ∧ evs n = some .svcPanics
  /-- and so are the futures it returned -/
  futWorld : ∀ n i f, (xs n).futs i = .inner f → (evs n = some (.poll i .pending) → ∃ f' w', (S.poll f).run (ws n) = .ok (.pending, f') w' ∧ (xs (n + 1)).futs i = .inner f') ∧
    ∀ v, evs n = some (.poll i (.ready v)) → ∃ v' f' w', (S.poll f).run (ws n) = .ok (.ready v', f') w'

/-- What is asked of the executor, and of the environment of the inner service. -/
structure BufFair (F : Fairness W) {S : Service W Req Res Err} (ws : Nat → W) (xs : Nat → Buf S) (ks : Nat → Wakers) (evs : Nat → Option (BEv S)) : Prop where
  /-- a worker that was woken is polled, and one that is being polled (or dropped) goes on -/
  runs : ∀ n, ((xs n).pc = .parked → (ks n).worker = true) → (xs n).pc ≠ .done → (xs n).pc ≠ .dead → ∃ m ev, n ≤ m ∧ evs m = some ev ∧ (WStep (xs m) ev (xs (m + 1)) ∨ DStep (xs m) ev (xs (m + 1)))
  /-- an inner service that returned `Pending` wakes the worker -/
  svcWakes : ∀ n, (xs n).pc = .parked → (xs n).cur ≠ none → ∃ m, n ≤ m ∧ ((ks m).worker = true ∨ (xs m).pc ≠ .parked)
  /-- if the inner service is polled again and again, it is at fair times -/
  svcFair : ∀ g : Nat → Nat, StrictMono g → (∀ n, (∃ k, g k = n) ↔ PollsSvc (xs n) (xs (n + 1))) → F.fair (fun k => ws (g k))
  /-- if a future of the inner service is polled again and again, it is at fair times -/
  futFair : ∀ i (g : Nat → Nat), StrictMono g → (∀ n, (∃ k, g k = n) ↔ (∃ f, (xs n).futs i = .inner f) ∧ ∃ p, evs n = some (.poll i p)) → F.fair (fun k => ws (g k))

end Tower
