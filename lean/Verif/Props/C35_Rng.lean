import Verif.Model.Rng
import Mathlib.Data.Finset.Card
import Mathlib.Data.Finset.Prod
import Mathlib.Data.Nat.Count
import Mathlib.Order.Interval.Finset.Nat
import Mathlib.Tactic.Ring

/-! # C35, C36: random numbers -/

set_option linter.unusedSimpArgs false

namespace Tower

/-- **C36, ranges.** `next_range(start..end)` panics exactly on an empty range; otherwise the result is in the range (and so never
overflows `u64`) and one number is drawn. -/
theorem C36_range (G : Rng) (a b : Nat) (r : G.ρ) :
    (a < b → ∃ n, G.nextRange a b r = some (n, (G.next r).2) ∧ a ≤ n ∧ n < b) ∧ (b ≤ a → G.nextRange a b r = none) := by
  unfold Rng.nextRange
  constructor
  · intro h
    rw [if_pos h]
    have := Nat.mod_lt (G.next r).1 (show 0 < b - a by omega)
    refine ⟨(G.next r).1 % (b - a) + a, rfl, by omega, by omega⟩
  · intro h; rw [if_neg (by omega)]

theorem mod_count (n v : Nat) (hn : 0 < n) (hv : v < n) :
    let c := ((Finset.range (2 ^ 64)).filter (fun x => x % n = v)).card
    c = 2 ^ 64 / n ∨ c = 2 ^ 64 / n + 1 := by
  intro c
  have key : ∀ N, ((Finset.range N).filter (fun x => x % n = v)).card = N / n ∨
      ((Finset.range N).filter (fun x => x % n = v)).card = N / n + 1 := by
    intro N
    have h2 : ∀ N, ((Finset.range N).filter (fun x => x % n = v)).card = N / n + (if v < N % n then 1 else 0) := by
      intro N
      induction N with
      | zero => simp
      | succ N ih =>
        rw [Finset.range_add_one, Finset.filter_insert]
        have hm := Nat.div_add_mod N n
        have hl := Nat.mod_lt N hn
        by_cases hw : N % n + 1 = n
        · have e1 : (N + 1) / n = N / n + 1 := by
            have : N + 1 = n * (N / n + 1) := by rw [Nat.mul_add]; omega
            rw [this, Nat.mul_div_cancel_left _ hn]
          have e2 : (N + 1) % n = 0 := by
            have : N + 1 = n * (N / n + 1) := by rw [Nat.mul_add]; omega
            rw [this]; exact Nat.mul_mod_right _ _
          rw [e1, e2]
          by_cases hx : N % n = v
          · rw [if_pos hx, Finset.card_insert_of_notMem (by simp), ih]
            have : ¬ (v < N % n) := by omega
            simp [this]
          · rw [if_neg hx, ih]
            have : v < N % n := by omega
            simp [this]
        · have e1 : (N + 1) / n = N / n := by
            rw [Nat.div_eq_iff hn]
            constructor
            · have := Nat.div_mul_le_self N n; omega
            · have : N / n * n = n * (N / n) := Nat.mul_comm _ _
              omega
          have e2 : (N + 1) % n = N % n + 1 := by
            have := Nat.div_add_mod (N + 1) n
            rw [e1] at this; omega
          rw [e1, e2]
          by_cases hx : N % n = v
          · rw [if_pos hx, Finset.card_insert_of_notMem (by simp), ih]
            have h1 : ¬ (v < N % n) := by omega
            have h2 : v < N % n + 1 := by omega
            simp [h1, h2]
          · rw [if_neg hx, ih]
            by_cases h1 : v < N % n
            · have h2 : v < N % n + 1 := by omega
              simp [h1, h2]
            · have h2 : ¬ (v < N % n + 1) := by omega
              simp [h1, h2]
    rw [h2 N]; split <;> omega
  exact key _

/-- **C36, bias.** Each value of a range of length `b - a` is the result for `⌊2⁶⁴/(b-a)⌋` or `⌊2⁶⁴/(b-a)⌋ + 1` of the `2⁶⁴` outputs `x` of the
generator. -/
theorem C36_bias (a b v : Nat) (ha : a ≤ v) (hb : v < b) :
    ∃ outs : Finset Nat, (∀ x, x ∈ outs ↔ x < 2 ^ 64) ∧
    ∃ hits : Finset Nat, (∀ x, x ∈ hits ↔ x ∈ outs ∧ ∀ (G : Rng) (r : G.ρ), (G.next r).1 = x → ∃ r', G.nextRange a b r = some (v, r')) ∧
    outs.card = 2 ^ 64 ∧ (hits.card = 2 ^ 64 / (b - a) ∨ hits.card = 2 ^ 64 / (b - a) + 1) := by
  refine ⟨Finset.range (2 ^ 64), by simp, (Finset.range (2 ^ 64)).filter (fun x => x % (b - a) = v - a), ?_, by simp,
    mod_count (b - a) (v - a) (by omega) (by omega)⟩
  intro x
  rw [Finset.mem_filter]
  have hab : a < b := by omega
  constructor
  · rintro ⟨h1, h2⟩
    refine ⟨h1, fun G r hG => ⟨(G.next r).2, ?_⟩⟩
    simp only [Rng.nextRange, if_pos hab, hG, h2]
    congr 2
    omega
  · rintro ⟨h1, h2⟩
    refine ⟨h1, ?_⟩
    rw [Finset.mem_range] at h1
    obtain ⟨r', h3⟩ := h2 ⟨Nat, fun _ => (x, 0), fun _ => h1⟩ (0 : Nat) rfl
    simp only [Rng.nextRange, if_pos hab, Option.some.injEq, Prod.mk.injEq] at h3
    omega

/-- **C36, floats.** The numerator of `next_f64` is below `2⁵³`, so that the result `k · 2⁻⁵³` is exact and lies in `[0, 1)`; and it is
uniform: each of the `2⁵³` values is the image of exactly `2¹¹` outputs of the generator. It uses up one output of the generator. -/
theorem C36_f64 (G : Rng) (r : G.ρ) :
    (G.nextF64 r).1 < 2 ^ 53 ∧
    (∀ k, ((G.nextF64 r).1 = k ↔ k * 2 ^ 11 ≤ (G.next r).1 ∧ (G.next r).1 < k * 2 ^ 11 + 2 ^ 11)) ∧
    (G.nextF64 r).2 = (G.next r).2 := by
  refine ⟨?_, ?_, rfl⟩
  · have h := G.lt r
    simp only [Rng.nextF64]
    show (G.next r).1 >>> 11 < 2 ^ 53
    rw [Nat.shiftRight_eq_div_pow]
    omega
  · intro k
    simp only [Rng.nextF64]
    show (G.next r).1 >>> 11 = k ↔ _
    rw [Nat.shiftRight_eq_div_pow]
    omega

/-- **C36, zero.** `next_f64` does return `0.0`, for the outputs below `2¹¹`; `ExponentialBackoff::jitter` has a debug assertion that it
does not (`tower/src/retry/backoff.rs:156`). -/
theorem C36_f64_zero (G : Rng) (r : G.ρ) : (G.nextF64 r).1 = 0 ↔ (G.next r).1 < 2 ^ 11 := by
  simp only [Rng.nextF64]
  show (G.next r).1 >>> 11 = 0 ↔ _
  rw [Nat.shiftRight_eq_div_pow]
  omega

/-- the state after `n` draws -/
def Rng.after (G : Rng) : Nat → G.ρ → G.ρ
  | 0, r => r
  | n + 1, r => G.after n (G.next r).2

/-- the counter after `n` draws -/
def counterAfter (hash : Nat → Nat) (h : ∀ c, hash c < 2 ^ 64) (n c : Nat) : Nat := (HasherRng hash h).after n c

theorem counterAfter_succ (hash : Nat → Nat) (h : ∀ c, hash c < 2 ^ 64) (n c : Nat) :
    counterAfter hash h (n + 1) c = counterAfter hash h n ((c + 1) % 2 ^ 64) := rfl

theorem counterAfter_eq (hash : Nat → Nat) (h : ∀ c, hash c < 2 ^ 64) : ∀ n c, c < 2 ^ 64 →
    counterAfter hash h n c = (c + n) % 2 ^ 64 := by
  intro n
  induction n with
  | zero => intro c hc; exact (Nat.mod_eq_of_lt hc).symm
  | succ n ih =>
    intro c hc
    rw [counterAfter_succ, ih _ (Nat.mod_lt _ (by decide))]
    omega

/-- **C36, counter.** `HasherRng` never hashes the same counter twice in `2⁶⁴` draws. -/
theorem C36_counter (hash : Nat → Nat) (h : ∀ c, hash c < 2 ^ 64) (c i j : Nat) (hc : c < 2 ^ 64) (hi : i < 2 ^ 64) (hj : j < 2 ^ 64)
    (hij : i ≠ j) : counterAfter hash h i c ≠ counterAfter hash h j c := by
  rw [counterAfter_eq _ _ _ _ hc, counterAfter_eq _ _ _ _ hc]
  omega

/-! ## sample_floyd2 -/

/-- what `sample_floyd2` makes of its two draws -/
def floydPair (n : Nat) (d : Nat × Nat) : Nat × Nat := (if d.1 = d.2 then n - 1 else d.1, d.2)

/-- **C35, result.** With at least two endpoints `sample_floyd2` returns two distinct indices in range; with fewer it panics. -/
theorem C35_distinct (G : Rng) (r : G.ρ) (n : Nat) :
    (2 ≤ n → ∃ a b r', sampleFloyd2 G r n = some ((a, b), r') ∧ a < n ∧ b < n ∧ a ≠ b) ∧ (n < 2 → sampleFloyd2 G r n = none) := by
  constructor
  · intro h
    obtain ⟨x, hx, _, hx2⟩ := (C36_range G 0 (n - 1) r).1 (by omega)
    obtain ⟨y, hy, _, hy2⟩ := (C36_range G 0 n (G.next r).2).1 (by omega)
    refine ⟨if x = y then n - 1 else x, y, (G.next (G.next r).2).2, ?_, ?_, hy2, ?_⟩
    · simp [sampleFloyd2, hx, hy]
    · split <;> omega
    · split <;> omega
  · intro h
    have := (C36_range G 0 (n - 1) r).2 (by omega)
    simp [sampleFloyd2, this]

/-- **C35, draws.** It is a function of two draws, one from `0 .. n-1`, one from `0 .. n`. -/
theorem C35_draws (G : Rng) (r : G.ρ) (n : Nat) (h : 2 ≤ n) :
    sampleFloyd2 G r n = some (floydPair n ((G.next r).1 % (n - 1), (G.next (G.next r).2).1 % n), (G.next (G.next r).2).2) := by
  have h1 : 0 < n - 1 := by omega
  have h2 : 0 < n := by omega
  simp [sampleFloyd2, Rng.nextRange, h1, h2, floydPair]

/-- **C35, fairness.** The map from pairs of draws to ordered pairs of distinct indices is a bijection: if the draws are uniform and
independent, so is the ordered pair. -/
theorem C35_bijection (n : Nat) (h : 2 ≤ n) :
    Set.BijOn (floydPair n) {d | d.1 < n - 1 ∧ d.2 < n} {p | p.1 < n ∧ p.2 < n ∧ p.1 ≠ p.2} := by
  refine ⟨?_, ?_, ?_⟩
  · rintro ⟨a, b⟩ ⟨ha, hb⟩
    simp only at ha hb
    show (if a = b then n - 1 else a) < n ∧ b < n ∧ (if a = b then n - 1 else a) ≠ b
    refine ⟨?_, hb, ?_⟩ <;> split <;> omega
  · rintro ⟨a, b⟩ ⟨ha, hb⟩ ⟨a', b'⟩ ⟨ha', hb'⟩ heq
    simp only at ha hb ha' hb'
    simp only [floydPair, Prod.mk.injEq] at heq
    obtain ⟨h1, rfl⟩ := heq
    congr 1
    split at h1 <;> split at h1 <;> omega
  · rintro ⟨x, y⟩ ⟨hx, hy, hxy⟩
    simp only at hx hy hxy
    by_cases hl : x = n - 1
    · refine ⟨(y, y), ⟨by simp only; omega, hy⟩, ?_⟩
      simp [floydPair, hl]
    · refine ⟨(x, y), ⟨by simp only; omega, hy⟩, ?_⟩
      simp [floydPair, hxy]

/-- hypotheses are met -/
example : sampleFloyd2 (HasherRng (fun c => (c * 7 + 3) % 2 ^ 64) (fun _ => Nat.mod_lt _ (by decide))) (0 : Nat) 5 = some ((3, 0), (2 : Nat)) := rfl

end Tower
