import Verif.Spec.LiveSpec
import Verif.Model.CallAll
import Mathlib.Order.Monotone.Basic

/-!
# Coming to an end, for `call_all`

What it means that a stream of responses comes to an end; what is asked of the stream of requests and of the executor.
-/

namespace Tower
variable {W Req Res Err : Type}

/-- Poll a stream in the worlds `ws 0`, `ws 1`, ..., as `collect` or a `while let` loop does: after finitely many polls it returns `None` (or panics). No poll loops forever. -/
inductive Drains {A V : Type} (next : A → Act W (Poll (Option V) × A)) : A → (Nat → W) → Prop
  | done {a : A} {ws : Nat → W} {a' : A} {w' : W} : (next a).run (ws 0) = .ok (.ready none, a') w' → Drains next a ws
  | panics {a : A} {ws : Nat → W} {m : String} : (next a).run (ws 0) = .panic m → Drains next a ws
  | item {a : A} {ws : Nat → W} {v : V} {a' : A} {w' : W} : (next a).run (ws 0) = .ok (.ready (some v), a') w' → Drains next a' (fun n => ws (n + 1)) → Drains next a ws
  | pending {a : A} {ws : Nat → W} {a' : A} {w' : W} : (next a).run (ws 0) = .ok (.pending, a') w' → Drains next a' (fun n => ws (n + 1)) → Drains next a ws

/-- the stream `r₀` is now `r`; it has given `k` requests, and has not ended -/
inductive ReqStream.After (R : ReqStream W Req) (r₀ : R.τ) : Nat → R.τ → Prop
  | new : R.After r₀ 0 r₀
  | item {k : Nat} {r r' : R.τ} {q : Req} {w w' : W} : R.After r₀ k r → (R.poll r).run w = .ok (.ready (some q), r') w' → R.After r₀ (k + 1) r'
  | pending {k : Nat} {r r' : R.τ} {w w' : W} : R.After r₀ k r → (R.poll r).run w = .ok (.pending, r') w' → R.After r₀ k r'

/-- A stream of not more than `N` requests, that gives the next one, or ends, after finitely many polls. -/
structure ReqStream.Finite (F : Fairness W) (R : ReqStream W Req) (r₀ : R.τ) (N : Nat) : Prop where
  atMost : ∀ k r, R.After r₀ k r → k ≤ N
  next : ∀ k r, R.After r₀ k r → Finishes F R.poll r

/-- From `w` to the other world by things that a task does which holds the service, the stream and the queue of futures. -/
inductive ByTask (S : Service W Req Res Err) (R : ReqStream W Req) (V : Sched W) (w : W) : W → Prop
  | refl : ByTask S R V w w
  | ready {s : S.σ} {v : W} {x} {v' : W} : ByTask S R V w v → (S.pollReady s).run v = .ok x v' → ByTask S R V w v'
  | call {s : S.σ} {q : Req} {v : W} {x} {v' : W} : ByTask S R V w v → (S.call s q).run v = .ok x v' → ByTask S R V w v'
  | poll {f : S.φ} {v : W} {x} {v' : W} : ByTask S R V w v → (S.poll f).run v = .ok x v' → ByTask S R V w v'
  | stream {r : R.τ} {v : W} {x} {v' : W} : ByTask S R V w v → (R.poll r).run v = .ok x v' → ByTask S R V w v'
  | order {l : Nat} {v : W} : ByTask S R V w v → ByTask S R V w (V.order l v).2

/-- What the task itself does between two looks at the world does not make a fair sequence of worlds an unfair one; nor does it if it looks several times in the same poll. -/
def Fairness.Undisturbed (F : Fairness W) (own : W → W → Prop) : Prop :=
  ∀ (ws vs : Nat → W) (g : Nat → Nat), F.fair ws → Monotone g → (∀ n, ∃ k, g k = n) → (∀ k, own (ws (g k)) (vs k)) → F.fair vs

/-- The futures that are held in a queue are woken when they can go on: where the queue is polled at fair times, the future that is in it for the longest time is polled again and again, and at fair times. -/
def Sched.Wakes (F : Fairness W) (own : W → W → Prop) (V : Sched W) : Prop :=
  ∀ (ws : Nat → W) (l : Nat), F.fair ws → 0 < l →
    (∀ n, ∃ m, n ≤ m ∧ 0 ∈ (V.order l (ws m)).1) ∧
    ∀ (vs : Nat → W) (g : Nat → Nat), Monotone g → (∀ n, (∃ k, g k = n) ↔ 0 ∈ (V.order l (ws n)).1) → (∀ k, own (ws (g k)) (vs k)) → F.fair vs

end Tower
