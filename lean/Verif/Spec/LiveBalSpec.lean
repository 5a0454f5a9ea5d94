import Verif.Spec.LiveAllSpec
import Verif.Spec.BalanceSpec

/-! # What a balancer does to the world itself -/

namespace Tower
variable {W Req Res Err K DErr BErr : Type} [DecidableEq K]

/-- From `w` to the other world by things that a balancer does in a poll: it polls discovery and endpoints. -/
inductive ByBalancer (B : BalCfg W Req Res Err K DErr BErr) (w : W) : W → Prop
  | refl : ByBalancer B w w
  | disc {d : B.D.δ} {v : W} {x} {v' : W} : ByBalancer B w v → (B.D.poll d).run v = .ok x v' → ByBalancer B w v'
  | ready {s : B.S.σ} {v : W} {x} {v' : W} : ByBalancer B w v → (B.S.pollReady s).run v = .ok x v' → ByBalancer B w v'
  | order {l : Nat} {v : W} : ByBalancer B w v → ByBalancer B w (B.V.order l v).2

/-- `s` is the last service that discovery inserted for `k`, the `t`-th of all, and `k` was not removed since. -/
def Newest {V : Type} (log : List (Change K V)) (k : K) (t : Nat) (s : V) : Prop :=
  ∃ pre post, log = pre ++ .insert k s :: post ∧ (inserts pre).length = t ∧ .remove k ∉ post ∧ ∀ s', .insert k s' ∉ post

/-- `poll_ready` never returns an error, as long as the service is used as the contract asks. -/
def NeverFails (S : Service W Req Res Err) (s : S.σ) : Prop :=
  ∀ b s' w e s'' w', Reach S s b s' → (S.pollReady s').run w ≠ .ok (.ready (.error e), s'') w'

/-- The discovery `d₀` has been polled some times, and has yielded these changes. -/
inductive Discover.After {V : Type} (D : Discover W K V DErr) (d₀ : D.δ) : List (Change K V) → D.δ → Prop
  | new : D.After d₀ [] d₀
  | change {chs : List (Change K V)} {d d' : D.δ} {ch : Change K V} {w w' : W} : D.After d₀ chs d → (D.poll d).run w = .ok (.ready (some (.ok ch)), d') w' → D.After d₀ (chs ++ [ch]) d'
  | pending {chs : List (Change K V)} {d d' : D.δ} {w w' : W} : D.After d₀ chs d → (D.poll d).run w = .ok (.pending, d') w' → D.After d₀ chs d'
  | ended {chs : List (Change K V)} {d d' : D.δ} {w w' : W} : D.After d₀ chs d → (D.poll d).run w = .ok (.ready none, d') w' → D.After d₀ chs d'
  | failed {chs : List (Change K V)} {d d' : D.δ} {e : DErr} {w w' : W} : D.After d₀ chs d → (D.poll d).run w = .ok (.ready (some (.error e)), d') w' → D.After d₀ chs d'

/-- Discovery is polled until it has nothing more for now; it yields these changes. -/
inductive DiscRound {V : Type} (D : Discover W K V DErr) : D.δ → W → List (Change K V) → D.δ → Prop
  | change {d w ch d1 w1 chs d'} : (D.poll d).run w = .ok (.ready (some (.ok ch)), d1) w1 → DiscRound D d1 w1 chs d' → DiscRound D d w (ch :: chs) d'
  | pending {d w d' w'} : (D.poll d).run w = .ok (.pending, d') w' → DiscRound D d w [] d'
  | ended {d w d' w'} : (D.poll d).run w = .ok (.ready none, d') w' → DiscRound D d w [] d'

/-- Discovery comes up with a good endpoint: asked for changes again and again, at fair times (`logs n` is what it has yielded before the `n`-th time), it will have given some key an endpoint that does not fail (and not
have taken it away). -/
def Discover.Provides (F : Fairness W) (S : Service W Req Res Err) (D : Discover W K S.σ DErr) (d₀ : D.δ) : Prop :=
  ∀ (ws : Nat → W) (ds : Nat → D.δ) (logs : Nat → List (Change K S.σ)), F.fair ws → D.After d₀ (logs 0) (ds 0) →
    (∀ n, ∃ chs, DiscRound D (ds n) (ws n) chs (ds (n + 1)) ∧ logs (n + 1) = logs n ++ chs) → ∃ m, ∀ n, m ≤ n → ∃ k t s, Newest (logs n) k t s ∧ NeverFails S s

end Tower
