import Verif.Model.Rng

/-!
# `retry::backoff`

`tower/src/retry/backoff.rs`. A `Duration` is its number of nanoseconds; the largest one is `u64::MAX` seconds and 999 999 999 ns.
-/

namespace Tower

/-- one second. the unit of the durations of `tower/src/retry/backoff.rs:43-70`. -/
def nsPerSec : Nat := 10 ^ 9

/-- `Duration::MAX`. std, for `tower/src/retry/backoff.rs:135-167`. -/
def durMax : Nat := (2 ^ 64 - 1) * nsPerSec + (nsPerSec - 1)

/-- `f64` as far as comparisons go. For the checks of `tower/src/retry/backoff.rs:86-121`. -/
inductive F64 where
  | nan
  | posInf
  | negInf
  | fin (q : Rat)

/-- `x < 0.0` etc. are false for NaN. `tower/src/retry/backoff.rs:98-103`. -/
def F64.ltRat : F64 → Rat → Bool
  | .nan, _ => false
  | .posInf, _ => false
  | .negInf, _ => true
  | .fin q, r => decide (q < r)

/-- `x > r`. `tower/src/retry/backoff.rs:101-103`. -/
def F64.gtRat : F64 → Rat → Bool
  | .nan, _ => false
  | .posInf, _ => true
  | .negInf, _ => false
  | .fin q, r => decide (r < q)

/-- `f64::is_finite`. `tower/src/retry/backoff.rs:104`. -/
def F64.isFinite : F64 → Bool
  | .fin _ => true
  | _ => false

/-- The messages of `InvalidBackoff`. `tower/src/retry/backoff.rs:92-108`. -/
inductive InvalidBackoff where
  | maxLessThanMin | maxZero | jitterNegative | jitterTooBig | jitterNotFinite
  deriving DecidableEq, Repr

/-- `ExponentialBackoffMaker`, `tower/src/retry/backoff.rs:43-53` (without the generator). -/
structure BackoffMaker where
  min : Nat
  max : Nat
  jitter : F64

/-- `ExponentialBackoffMaker::new`, `tower/src/retry/backoff.rs:86-113`. -/
def BackoffMaker.new (min max : Nat) (jitter : F64) : Except InvalidBackoff BackoffMaker :=
  if min > max then .error .maxLessThanMin
  else if max = 0 then .error .maxZero
  else if jitter.ltRat 0 then .error .jitterNegative
  else if jitter.gtRat 100 then .error .jitterTooBig
  else if !jitter.isFinite then .error .jitterNotFinite
  else .ok ⟨min, max, jitter⟩

/-- `2_u32.saturating_pow(i)`. `tower/src/retry/backoff.rs:145`. -/
def satPow2 (i : Nat) : Nat := Nat.min (2 ^ i) (2 ^ 32 - 1)

/-- `Duration::checked_mul`. std, for `tower/src/retry/backoff.rs:144-147`. -/
def durCheckedMul (d f : Nat) : Option Nat := if d * f ≤ durMax then some (d * f) else none

/-- `ExponentialBackoff::base`, `tower/src/retry/backoff.rs:135-148`. -/
def backoffBase (min max iterations : Nat) : Nat :=
  Nat.min ((durCheckedMul min (satPow2 iterations)).getD max) max

/-- `Duration::new(secs, nanos)`: carries whole seconds out of `nanos`; `none` is the panic on overflow. `tower/src/retry/backoff.rs:165`. -/
def durNew (secs nanos : Nat) : Option Nat :=
  if secs + nanos / nsPerSec < 2 ^ 64 then some (secs * nsPerSec + nanos) else none

/-- `ExponentialBackoff::jitter`, `tower/src/retry/backoff.rs:152-167`, in the case `jitter != 0.0`; `secs` and `nanos` are the values
`secs as u64` and `nanos as u32` of :161-164. -/
def backoffJitter (max base secs nanos : Nat) : Option Nat :=
  (durNew secs nanos).map (fun d => Nat.min d (max - base))

/-- What one call of the generator contributes: nothing if `jitter == 0.0`, else the two casts. `tower/src/retry/backoff.rs:152-167`. -/
abbrev JitterDraw := Option (Nat × Nat)

/-- `next_backoff`, `tower/src/retry/backoff.rs:176-183`: the duration slept and the new iteration count (`+= 1` on `u32`; wraps in
release builds, panics in debug builds). -/
def nextBackoff (min max iterations : Nat) (draw : JitterDraw) : Option (Nat × Nat) := do
  let base := backoffBase min max iterations
  let j ← match draw with
    | none => some 0
    | some (s, n) => backoffJitter max base s n
  pure (base + j, (iterations + 1) % 2 ^ 32)

/-- The casts of :161-164 for `rand_jitter = a / b` in exact arithmetic: `(base.as_secs() * r) as u64` and
`(base.subsec_nanos() * r) as u32`; `as` truncates and saturates. `tower/src/retry/backoff.rs:161-164`. -/
def jitterCasts (base a b : Nat) : Nat × Nat :=
  (Nat.min (base / nsPerSec * a / b) (2 ^ 64 - 1), Nat.min (base % nsPerSec * a / b) (2 ^ 32 - 1))

/-- `ExponentialBackoffMaker` with its generator, `tower/src/retry/backoff.rs:43-53`. -/
structure ExpMaker (G : Rng) where
  cfg : BackoffMaker
  rng : G.ρ

/-- `ExponentialBackoffMaker::new`, `tower/src/retry/backoff.rs:86-113`, with the generator. -/
def ExpMaker.new (G : Rng) (min max : Nat) (jitter : F64) (rng : G.ρ) : Except InvalidBackoff (ExpMaker G) :=
  match BackoffMaker.new min max jitter with
  | .error e => .error e
  | .ok c => .ok ⟨c, rng⟩

/-- `ExponentialBackoff`, `tower/src/retry/backoff.rs:63-70`. `Clone` is derived: it copies all fields, see `ExpBackoff.clone`. -/
structure ExpBackoff (G : Rng) where
  min : Nat
  max : Nat
  jitter : F64
  rng : G.ρ
  iterations : Nat

/-- The derived `Clone`, `tower/src/retry/backoff.rs:63`. -/
def ExpBackoff.clone {G : Rng} (b : ExpBackoff G) : ExpBackoff G := ⟨b.min, b.max, b.jitter, b.rng, b.iterations⟩

/-- `make_backoff`, `tower/src/retry/backoff.rs:122-131`: the session, and the maker after it (`&mut self`). -/
def ExpMaker.makeBackoff {G : Rng} (m : ExpMaker G) : ExpBackoff G × ExpMaker G :=
  (⟨m.cfg.min, m.cfg.max, m.cfg.jitter, m.rng, 0⟩, m)

/-- `self.jitter == 0.0`, `tower/src/retry/backoff.rs:153`. -/
def F64.isZero : F64 → Bool
  | .fin q => decide (q = 0)
  | _ => false

/-- `ExponentialBackoff::next_backoff`, `tower/src/retry/backoff.rs:176-185`: how long the `Sleep` returned lasts; `none` is a panic (`Duration::new`, or the `debug_assert!` of :157 when the random number is zero). `casts base jitter v` are `secs as u64` and `nanos as u32` of :160-164 when `next_f64` returned
`v · 2⁻⁵³`: any function, so any rounding (`exactCasts` is the exact one). -/
def ExpBackoff.next {G : Rng} (casts : Nat → F64 → Nat → Nat × Nat) (b : ExpBackoff G) : Option (Nat × ExpBackoff G) :=
  if b.jitter.isZero = true then do
    let (t, it) ← nextBackoff b.min b.max b.iterations none
    pure (t, { b with iterations := it })
  else
    let (v, r) := G.nextF64 b.rng
    if v = 0 then none
    else do
      let (t, it) ← nextBackoff b.min b.max b.iterations (some (casts (backoffBase b.min b.max b.iterations) b.jitter v))
      pure (t, { b with iterations := it, rng := r })

/-- The casts in exact arithmetic: `rand_jitter = v · 2⁻⁵³ · jitter`. `tower/src/retry/backoff.rs:155-164`. -/
def exactCasts (base : Nat) (jitter : F64) (v : Nat) : Nat × Nat :=
  match jitter with
  | .fin q => jitterCasts base (v * q.num.toNat) (2 ^ 53 * q.den)
  | _ => (0, 0)

/-- `Default for ExponentialBackoffMaker`, `tower/src/retry/backoff.rs:187-196`; `none` is the panic of `expect`. -/
def ExpMaker.default (G : Rng) (rng : G.ρ) : Option (ExpMaker G) :=
  match ExpMaker.new G (50 * 10 ^ 6) ((2 ^ 64 - 1) * 10 ^ 6) (.fin (99 / 100)) rng with
  | .ok m => some m
  | .error _ => none

end Tower
