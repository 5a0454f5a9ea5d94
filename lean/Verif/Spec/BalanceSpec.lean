import Verif.Model.Balance
import Verif.Spec.CacheSpec

/-! # Histories of a balancer -/

namespace Tower
variable {W Req Res Err K DErr BErr : Type} [DecidableEq K]

/-- Discovery is polled and yields these changes, one after the other. -/
inductive DiscSteps {V : Type} (D : Discover W K V DErr) : D.δ → W → List (Change K V) → D.δ → W → Prop
  | nil {d w} : DiscSteps D d w [] d w
  | snoc {d w chs d1 w1 ch d2 w2} : DiscSteps D d w chs d1 w1 → (D.poll d1).run w1 = .ok (.ready (some (.ok ch)), d2) w2 →
      DiscSteps D d w (chs ++ [ch]) d2 w2

/-- Discovery yields these changes and then nothing more for now. -/
def Discovered {V : Type} (D : Discover W K V DErr) (d : D.δ) (w : W) (chs : List (Change K V)) : Prop :=
  ∃ d1 w1, DiscSteps D d w chs d1 w1 ∧ ∀ ch d2 w2, (D.poll d1).run w1 ≠ .ok (.ready (some (.ok ch)), d2) w2

/-- What a user does with a balancer, and the changes it reads from discovery meanwhile. -/
inductive BalRun (B : BalCfg W Req Res Err K DErr BErr) (fuel : Nat) (b0 : Balance B) : List (Change K B.S.σ) → Balance B → Prop
  | refl : BalRun B fuel b0 [] b0
  | ready {log b w p b' w' chs} : BalRun B fuel b0 log b → ((balance B fuel).pollReady b).run w = .ok (p, b') w' → Discovered B.D b.disc w chs →
      BalRun B fuel b0 (log ++ chs) b'
  | call {log b r w f b' w'} : BalRun B fuel b0 log b → ((balance B fuel).call b r).run w = .ok (f, b') w' → BalRun B fuel b0 log b'

/-- The states of a balancer, with the changes it has read from discovery. -/
def BalReach (B : BalCfg W Req Res Err K DErr BErr) (fuel : Nat) (log : List (Change K B.S.σ)) (b : Balance B) : Prop :=
  ∃ d r, BalRun B fuel (Balance.fromRng B d r) log b

/-- The services inserted, in order. -/
def inserts {V : Type} : List (Change K V) → List (K × V)
  | [] => []
  | .insert k v :: l => (k, v) :: inserts l
  | .remove _ :: l => inserts l

/-- The `t`-th service discovery inserted was inserted for `k`, and `k` was not removed since. -/
def Current {V : Type} (log : List (Change K V)) (k : K) (t : Nat) : Prop :=
  ∃ pre s post, log = pre ++ .insert k s :: post ∧ (inserts pre).length = t ∧ .remove k ∉ post

end Tower
