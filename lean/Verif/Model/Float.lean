import Verif.Model.Budget
import Verif.Model.Backoff
import Mathlib.Data.Int.Log
import Mathlib.Analysis.SpecialFunctions.Exp

/-!
# Floating point

The rounding of `f64` and `f32`, and the places outside of `load` where tower uses them: the percentage of `TpsBudget::new` and the jitter of `ExponentialBackoff`.
-/

namespace Tower

/-- What is assumed of a rounding to numbers of `p` bits, the smallest of them 2⁻ᵐ: it is monotone, leaves these numbers and integers up to 2ᵖ as they are, and is as precise as IEEE 754 demands of rounding to the nearest.
For the arithmetic of `tower/src/load/peak_ewma.rs:237-282`, `tower/src/retry/budget/tps_budget.rs:77-89`, `tower/src/retry/backoff.rs:152-167`. -/
structure IsRounding (p m : Nat) (rnd : ℝ → ℝ) : Prop where
  mono : ∀ {x y}, x ≤ y → rnd x ≤ rnd y
  idem : ∀ x, rnd (rnd x) = rnd x
  int : ∀ n : Nat, n ≤ 2 ^ p → rnd n = n
  above : ∀ x, 0 ≤ x → rnd x ≤ x * (1 + 1 / 2 ^ p) + 1 / 2 ^ (m + 1)
  below : ∀ x, 0 ≤ x → x * (1 - 1 / 2 ^ p) - 1 / 2 ^ (m + 1) ≤ rnd x

/-- The operations on `f64` that are not exact: the rounding of the exact result of `+ - * /` and of conversions, and `f64::exp`. std, for `tower/src/load/peak_ewma.rs:143, 266-268, 303-308`. -/
structure FloatOps where
  rnd : ℝ → ℝ
  exp : ℝ → ℝ

/-- What is assumed of `f64` (in any rounding mode to the nearest); `exp` of a number that is not positive is an `f64` from 0 to 1. For the arithmetic of `tower/src/load/peak_ewma.rs:237-282`. -/
structure IsF64 (A : FloatOps) : Prop where
  rounds : IsRounding 53 1074 A.rnd
  exp_mem : ∀ x, x ≤ 0 → 0 ≤ A.exp x ∧ A.exp x ≤ 1
  exp_f64 : ∀ x, A.rnd (A.exp x) = A.exp x

/-! ## IEEE 754 -/

/-- a rounding to the nearest integer, with any rule for ties. For IEEE 754 as used by `tower/src/load/peak_ewma.rs:237-282`. -/
structure IsNearest (ρ : ℝ → ℤ) : Prop where
  mono : ∀ {x y}, x ≤ y → ρ x ≤ ρ y
  int : ∀ n : ℤ, ρ n = n
  near : ∀ x, |(ρ x : ℝ) - x| ≤ 1 / 2

/-- the exponent of the last bit of the numbers of `p` bits around `x > 0`: `p - 1` below that of the first bit, but not below `-m`. IEEE 754, for `tower/src/load/peak_ewma.rs:237-282`. -/
noncomputable def fltExp (p m : Nat) (x : ℝ) : ℤ := max (Int.log 2 x - (p - 1 : ℤ)) (-m)

/-- Rounding of a number that is not negative (with no bound on the exponent above). IEEE 754, for `tower/src/load/peak_ewma.rs:237-282`. -/
noncomputable def fltPos (p m : Nat) (ρ : ℝ → ℤ) (x : ℝ) : ℝ := (ρ (x / 2 ^ fltExp p m x) : ℝ) * 2 ^ fltExp p m x

/-- Rounding to a number of `p` bits, not below 2⁻ᵐ. IEEE 754, for `tower/src/load/peak_ewma.rs:237-282`. -/
noncomputable def flt (p m : Nat) (ρ : ℝ → ℤ) (x : ℝ) : ℝ := if x < 0 then -fltPos p m ρ (-x) else fltPos p m ρ x

/-- `f64`: 53 bits, the smallest number is 2⁻¹⁰⁷⁴; `exp` correctly rounded. IEEE 754, for `tower/src/load/peak_ewma.rs:237-282`. -/
noncomputable def ieee (ρ : ℝ → ℤ) : FloatOps where
  rnd := flt 53 1074 ρ
  exp x := fltPos 53 1074 ρ (Real.exp x)

/-- `f32`: 24 bits, the smallest number is 2⁻¹⁴⁹. IEEE 754, for `tower/src/retry/budget/tps_budget.rs:77-89`. -/
noncomputable def ieee32 (ρ : ℝ → ℤ) : ℝ → ℝ := flt 24 149 ρ

/-! ## `retry` -/

/-- The case distinction of `TpsBudget::new` for `retry_percent = r` (not NaN), with the rounding of the quotient and the saturating cast `as isize`. `tower/src/retry/budget/tps_budget.rs:72-89`. An overflow of the quotient to infinity saturates in the same way. -/
noncomputable def Percent.ofF32 (rnd : ℝ → ℝ) (r : ℝ) : Percent :=
  if r < 0 ∨ 1000 < r then .outside
  else if r = 0 then .zero
  else if r ≤ 1 then .upToOne (min ⌊rnd (1 / r)⌋₊ (2 ^ 63 - 1))
  else .aboveOne (min ⌊rnd (1000 / r)⌋₊ (2 ^ 63 - 1))

/-- `Default for TpsBudget`, `tower/src/retry/budget/tps_budget.rs:183-187`; the constant `0.2` is rounded to an `f32`. -/
noncomputable def Tps.default (rnd : ℝ → ℝ) (now : Nat) : Option Tps := Tps.new (10 * 10 ^ 9) 10 (Percent.ofF32 rnd (rnd (1 / 5))) now

/-- The casts of `ExponentialBackoff::jitter`, `tower/src/retry/backoff.rs:155-164`, with the rounding of `f64`: `jitter_factor = v · 2⁻⁵³` is exact, `subsec_nanos() as f64` too; `as` truncates and saturates. -/
noncomputable def floatCasts (rnd : ℝ → ℝ) (base : Nat) (jitter : F64) (v : Nat) : Nat × Nat :=
  match jitter with
  | .fin q =>
    let randJitter := rnd ((v : ℝ) / 2 ^ 53 * q)
    let secs := rnd (rnd ((base / nsPerSec : Nat) : ℝ) * randJitter)
    let nanos := rnd (((base % nsPerSec : Nat) : ℝ) * randJitter)
    (min ⌊secs⌋₊ (2 ^ 64 - 1), min ⌊nanos⌋₊ (2 ^ 32 - 1))
  | _ => (0, 0)

end Tower
