import Verif.Core

/-!
# `util::rng`

`tower/src/util/rng.rs`. A `u64` is a natural number below `2 ^ 64`.
-/

namespace Tower

/-- `Rng`, `tower/src/util/rng.rs:21-23`: a state and `next_u64`. -/
structure Rng where
  ρ : Type
  next : ρ → Nat × ρ
  lt : ∀ r, (next r).1 < 2 ^ 64

/-- `Rng::next_f64`, `tower/src/util/rng.rs:26-37`: the result is `scale * value` with `scale = 2⁻⁵³`; here the numerator `value`, an
integer that `f64` represents exactly if it is below `2⁵³`. -/
def Rng.nextF64 (G : Rng) (r : G.ρ) : Nat × G.ρ :=
  let floatSize := 64
  let precision := 52 + 1
  let (value, r') := G.next r
  (value >>> (floatSize - precision), r')

/-- `Rng::next_range(start..end)`, `tower/src/util/rng.rs:44-58`; `none` is the panic (remainder by zero; an inverted range panics on
subtraction overflow in debug builds). -/
def Rng.nextRange (G : Rng) (start stop : Nat) (r : G.ρ) : Option (Nat × G.ρ) :=
  if start < stop then
    let range := stop - start
    let (n, r') := G.next r
    some (n % range + start, r')
  else none

/-- `HasherRng`, `tower/src/util/rng.rs:76-80, 102-115`: `hash` is what the hasher makes of the counter. -/
def HasherRng (hash : Nat → Nat) (h : ∀ c, hash c < 2 ^ 64) : Rng where
  ρ := Nat
  next c := (hash c, (c + 1) % 2 ^ 64)
  lt c := h c

/-- `sample_floyd2`, `tower/src/util/rng.rs:120-126`. -/
def sampleFloyd2 (G : Rng) (r : G.ρ) (length : Nat) : Option ((Nat × Nat) × G.ρ) := do
  let (aidx, r1) ← G.nextRange 0 (length - 1) r
  let (bidx, r2) ← G.nextRange 0 length r1
  let aidx := if aidx = bidx then length - 1 else aidx
  pure ((aidx, bidx), r2)

end Tower
