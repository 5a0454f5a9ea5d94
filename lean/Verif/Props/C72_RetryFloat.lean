import Verif.Model.Float
import Verif.Props.C15_Grants
import Verif.Props.C68_BackoffSession
import Verif.Props.C71_Ieee

/-! # C72: retry budgets and backoff with the rounding of floating point arithmetic -/

namespace Tower
variable {rnd : ℝ → ℝ} {p m : Nat}

/-! ## Roundings and truncation -/

theorem IsRounding.nonneg (h : IsRounding p m rnd) {x : ℝ} (hx : 0 ≤ x) : 0 ≤ rnd x := by
  have h0 : rnd 0 = 0 := by simpa using h.int 0 (Nat.zero_le _)
  simpa [h0] using h.mono hx

theorem two_pow_inv_le {a b : Nat} (h : a ≤ b) : (1 : ℝ) / 2 ^ b ≤ 1 / 2 ^ a :=
  one_div_le_one_div_of_le (by positivity) (pow_le_pow_right₀ (by norm_num) h)

/-- the integer part of a rounded number is not far above the number -/
theorem IsRounding.floor_le (h : IsRounding p m rnd) (hp : 2 ≤ p) (hm : p ≤ m) {x : ℝ} (hx : 0 ≤ x) : (⌊rnd x⌋₊ : ℝ) ≤ x * (1 + 2 / 2 ^ p) := by
  have hu : (0 : ℝ) < 1 / 2 ^ p := by positivity
  have hu1 : (1 : ℝ) / 2 ^ p ≤ 1 / 2 ^ 2 := two_pow_inv_le hp
  have hη : (1 : ℝ) / 2 ^ (m + 1) ≤ 1 / 2 ^ p / 2 := by
    have := two_pow_inv_le (show p + 1 ≤ m + 1 by omega)
    rw [pow_succ (2 : ℝ) p] at this
    refine this.trans (le_of_eq ?_)
    field_simp
  have h1 := h.above x hx
  have e : (2 : ℝ) / 2 ^ p = 2 * (1 / 2 ^ p) := by ring
  rw [e]
  generalize (1 : ℝ) / 2 ^ p = u at *
  generalize (1 : ℝ) / 2 ^ (m + 1) = η at *
  rcases lt_or_ge (rnd x) 1 with h2 | h2
  · rw [Nat.floor_eq_zero.2 h2]
    norm_num
    exact mul_nonneg hx (by linarith)
  · refine (Nat.floor_le (h.nonneg hx)).trans ?_
    norm_num at hu1
    have h3 : 1 / 2 ≤ x := by
      by_contra hc
      have : x * (1 + u) ≤ 1 / 2 * (1 + 1 / 4) := mul_le_mul (by linarith) (by linarith) (by linarith) (by norm_num)
      linarith
    nlinarith

/-- ... and not far below -/
theorem IsRounding.half_le_floor (h : IsRounding p m rnd) (hp : 3 ≤ p) (hm : p ≤ m) {x : ℝ} (hx : 1 ≤ x) : x ≤ 2 * (⌊rnd x⌋₊ : ℝ) := by
  have hn : (1 : ℝ) ≤ (⌊x⌋₊ : ℝ) := by exact_mod_cast (Nat.le_floor (by simpa using hx))
  have hf := Nat.lt_floor_add_one x
  rcases le_or_gt ⌊x⌋₊ (2 ^ p) with h1 | h1
  · have h2 : (⌊x⌋₊ : ℝ) ≤ rnd x := by
      rw [← h.int _ h1]
      exact h.mono (Nat.floor_le (by linarith))
    have h3 : (⌊x⌋₊ : ℝ) ≤ (⌊rnd x⌋₊ : ℝ) := by exact_mod_cast Nat.le_floor h2
    linarith
  · have h2 : (8 : ℝ) ≤ x := by
      have h3 : 2 ^ 3 ≤ 2 ^ p := Nat.pow_le_pow_right (by norm_num) hp
      have h4 : (8 : ℝ) ≤ (⌊x⌋₊ : ℝ) := by exact_mod_cast (by omega : 8 ≤ ⌊x⌋₊)
      exact h4.trans (Nat.floor_le (by linarith))
    have hu1 : (1 : ℝ) / 2 ^ p ≤ 1 / 2 ^ 3 := two_pow_inv_le hp
    have hη : (1 : ℝ) / 2 ^ (m + 1) ≤ 1 / 2 ^ 3 := two_pow_inv_le (by omega)
    have h3 := h.below x (by linarith)
    have h4 := Nat.lt_floor_add_one (rnd x)
    norm_num at hu1 hη
    have h5 : x * ((2 : ℝ) ^ p)⁻¹ ≤ x * (1 / 8) := mul_le_mul_of_nonneg_left hu1 (by linarith)
    rw [one_div, one_div, mul_sub, mul_one] at h3
    linarith

/-! ## The percentage of a budget -/

theorem ofF32_cases {r : ℝ} (h0 : 0 ≤ r) (h1 : r ≤ 1000) :
    (r = 0 ∧ Percent.ofF32 rnd r = .zero) ∨ (0 < r ∧ r ≤ 1 ∧ Percent.ofF32 rnd r = .upToOne (min ⌊rnd (1 / r)⌋₊ (2 ^ 63 - 1))) ∨
    (1 < r ∧ Percent.ofF32 rnd r = .aboveOne (min ⌊rnd (1000 / r)⌋₊ (2 ^ 63 - 1))) := by
  have hn : ¬ (r < 0 ∨ 1000 < r) := by push Not; exact ⟨h0, h1⟩
  unfold Percent.ofF32
  rw [if_neg hn]
  split
  · rename_i h; exact Or.inl ⟨h, rfl⟩
  · rename_i h
    have hpos : 0 < r := lt_of_le_of_ne h0 (Ne.symm h)
    split
    · rename_i h2; exact Or.inr (Or.inl ⟨hpos, h2, rfl⟩)
    · rename_i h2; exact Or.inr (Or.inr ⟨not_le.1 h2, rfl⟩)

/-- **C72.** `TpsBudget::new` accepts exactly a `ttl` of 1 to 60 seconds, a `min_per_sec` below `i32::MAX` and a percentage from 0 to 1000. -/
theorem C72_accepts (rnd : ℝ → ℝ) {ttl mps : Nat} {r : ℝ} (t0 : Nat) :
    (Tps.new ttl mps (Percent.ofF32 rnd r) t0).isSome ↔ 1000000000 ≤ ttl ∧ ttl ≤ 60000000000 ∧ mps < 2147483647 ∧ 0 ≤ r ∧ r ≤ 1000 := by
  by_cases hr : 0 ≤ r ∧ r ≤ 1000
  · rcases ofF32_cases (rnd := rnd) hr.1 hr.2 with ⟨_, h⟩ | ⟨_, _, h⟩ | ⟨_, h⟩ <;>
    · rw [h]
      unfold Tps.new
      simp [tpsAmounts, hr]
  · have : Percent.ofF32 rnd r = .outside := by
      unfold Percent.ofF32
      rw [if_pos]
      by_contra hc
      push Not at hc
      exact hr hc
    rw [this]
    unfold Tps.new
    simp only [tpsAmounts]
    constructor
    · intro h; split at h <;> cases h
    · rintro ⟨_, _, _, h1, h2⟩; exact absurd ⟨h1, h2⟩ hr

/-- the amounts, and how far the cost of a retry is from what the percentage says -/
theorem ofF32_amounts (h : IsRounding 24 149 rnd) {r : ℝ} {d w : Nat} (ha : tpsAmounts (Percent.ofF32 rnd r) = some (d, w)) :
    0 ≤ r ∧ r ≤ 1000 ∧ 0 < w ∧ ((d : ℝ) ≤ 2 * r * w ∨ w = 2 ^ 63 - 1) ∧ r * (1 - 1 / 2 ^ 23) * w ≤ d := by
  by_cases hr : 0 ≤ r ∧ r ≤ 1000
  · refine ⟨hr.1, hr.2, ?_⟩
    have key : ∀ k : Nat, 1 ≤ k → 0 < r → r ≤ k → k = d → min ⌊rnd (k / r)⌋₊ (2 ^ 63 - 1) = w →
        0 < w ∧ ((d : ℝ) ≤ 2 * r * w ∨ w = 2 ^ 63 - 1) ∧ r * (1 - 1 / 2 ^ 23) * w ≤ d := by
      rintro k hk hr0 hrk rfl rfl
      have hx : 1 ≤ (k : ℝ) / r := by rwa [le_div_iff₀ hr0, one_mul]
      have h1 := h.half_le_floor (by norm_num) (by norm_num) hx
      have h2 := h.floor_le (by norm_num) (by norm_num) (x := (k : ℝ) / r) (by linarith)
      have h3 : 0 < ⌊rnd (k / r)⌋₊ := by
        rcases Nat.eq_zero_or_pos ⌊rnd (k / r)⌋₊ with h4 | h4
        · rw [h4] at h1; norm_num at h1; linarith
        · exact h4
      refine ⟨by omega, ?_, ?_⟩
      · rcases Nat.le_total ⌊rnd (k / r)⌋₊ (2 ^ 63 - 1) with h4 | h4
        · left
          rw [Nat.min_eq_left h4]
          rw [div_le_iff₀ hr0] at h1
          linarith
        · right; exact Nat.min_eq_right h4
      · have h4 : ((min ⌊rnd (k / r)⌋₊ (2 ^ 63 - 1) : Nat) : ℝ) ≤ k / r * (1 + 2 / 2 ^ 24) := by
          refine le_trans ?_ h2
          exact_mod_cast Nat.min_le_left _ _
        have h5 : 0 ≤ r * (1 - 1 / 2 ^ 23) := mul_nonneg hr0.le (by norm_num)
        refine (mul_le_mul_of_nonneg_left h4 h5).trans ?_
        have e : r * (1 - 1 / 2 ^ 23) * ((k : ℝ) / r * (1 + 2 / 2 ^ 24)) = (k : ℝ) * ((1 - 1 / 2 ^ 23) * (1 + 2 / 2 ^ 24)) := by
          field_simp
        rw [e]
        exact mul_le_of_le_one_right (by positivity) (by norm_num)
    rcases ofF32_cases (rnd := rnd) hr.1 hr.2 with ⟨h0, he⟩ | ⟨h0, h1, he⟩ | ⟨h0, he⟩
    · rw [he] at ha
      cases ha
      subst h0
      norm_num
    · rw [he] at ha
      simp only [tpsAmounts, Option.some.injEq, Prod.mk.injEq] at ha
      refine key 1 le_rfl h0 (by simpa using h1) ha.1 ?_
      rw [Nat.cast_one]
      exact ha.2
    · rw [he] at ha
      simp only [tpsAmounts, Option.some.injEq, Prod.mk.injEq] at ha
      refine key 1000 (by norm_num) (by linarith) (by simpa using hr.2) ha.1 ?_
      rw [show ((1000 : Nat) : ℝ) = 1000 from by norm_num]
      exact ha.2
  · have : Percent.ofF32 rnd r = .outside := by
      unfold Percent.ofF32
      rw [if_pos]
      by_contra hc
      push Not at hc
      exact hr hc
    rw [this] at ha
    cases ha

/-- **C72, no more retries than that.** With `f32` arithmetic and `retry_percent = r`: whenever a retry is granted at time `t`, then this one and those granted during the last half of `ttl` are no more than `min_per_sec` per
second of `ttl`, plus twice `r` times the requests of the last 1.1 `ttl`. Side condition: no overflow of `isize`. -/
theorem C72_retries (hr : IsRounding 24 149 rnd) {ttl mps : Nat} {r : ℝ} {t0 : Nat} {s : Tps} (h : Tps.new ttl mps (Percent.ofF32 rnd r) t0 = some s) (os : List BudgetOp) (t : Nat)
    (hmono : (t0 :: os.map BudgetOp.now ++ [t]).Pairwise (· ≤ ·))
    (hfit : (os.length + 1) * max s.depositAmount s.withdrawAmount + s.reserve ≤ isizeMax)
    (hgrant : ((Tps.run os s).2.withdraw t).1 = true) :
    (((os.zip (Tps.run os s).1).countP (isGrant fun τ => decide (t < τ + 5 * (ttl / 10))) + 1 : Nat) : ℝ) ≤
      (mps * (ttl / 1000000000) : Nat) + 2 * r * (os.zip (Tps.run os s).1).countP (isDeposit fun τ => decide (t < τ + 11 * (ttl / 10))) := by
  have hs := C15_storm h os t hmono hfit hgrant
  obtain ⟨h1, h2, d, w, h3, h4, h5⟩ := Tps.new_fields h
  obtain ⟨_, _, g3, _, _⟩ := Tps.new_rel h
  obtain ⟨r0, _, hw, hd, _⟩ := ofF32_amounts hr h3
  rw [h1] at hs
  have hD : (os.zip (Tps.run os s).1).countP (isDeposit fun τ => decide (t < τ + 11 * (ttl / 10))) ≤ os.length :=
    List.countP_le_length.trans (by simp)
  generalize (os.zip (Tps.run os s).1).countP (isGrant fun τ => decide (t < τ + 5 * (ttl / 10))) + 1 = R at hs ⊢
  generalize (os.zip (Tps.run os s).1).countP (isDeposit fun τ => decide (t < τ + 11 * (ttl / 10))) = D at hs hD ⊢
  rw [h5] at h2 hs hfit
  rw [h4] at hs hfit
  have hs : w * R ≤ mps * (ttl / 1000000000) * w + d * D := by
    have : (w : Int) * R ≤ mps * (ttl / 1000000000 : Nat) * w + d * D := by omega
    exact_mod_cast this
  generalize mps * (ttl / 1000000000) = M at hs ⊢
  have hs' : (w : ℝ) * R ≤ M * w + d * D := by exact_mod_cast hs
  have hw' : (0 : ℝ) < w := by exact_mod_cast hw
  rcases hd with hd | hd
  · have h6 : (d : ℝ) * D ≤ 2 * r * w * D := mul_le_mul_of_nonneg_right hd (by positivity)
    refine le_of_mul_le_mul_left ?_ hw'
    calc (w : ℝ) * R ≤ M * w + 2 * r * w * D := by linarith
      _ = w * (M + 2 * r * D) := by ring
  · -- the cost saturated: no room for a second operation
    have h7 : os.length = 0 := by
      by_contra hc
      have h8 : (2 : Int) * w ≤ (os.length + 1) * max (d : Int) w :=
        Int.mul_le_mul (by omega) (by omega) (by omega) (by omega)
      unfold isizeMax at hfit
      subst hd
      push_cast at h8 hfit
      omega
    have h8 : D = 0 := by omega
    subst h8
    have h9 : (w : ℝ) * R ≤ w * M := by
      have : (w : ℝ) * R ≤ M * w := by simpa using hs'
      linarith
    have := le_of_mul_le_mul_left h9 hw'
    simpa using this

/-- **C72, what must be granted.** With `f32` arithmetic and `retry_percent = r`: a retry at time `t` is granted whenever it and those granted during the last 1.1 `ttl` are no more than `min_per_sec` per second of `ttl` plus
`r (1 - 2⁻²³)` times the requests of the last half of `ttl`. Side condition: no overflow of `isize`. -/
theorem C72_grants (hr : IsRounding 24 149 rnd) {ttl mps : Nat} {r : ℝ} {t0 : Nat} {s : Tps} (h : Tps.new ttl mps (Percent.ofF32 rnd r) t0 = some s) (os : List BudgetOp) (t : Nat)
    (hmono : (t0 :: os.map BudgetOp.now ++ [t]).Pairwise (· ≤ ·))
    (hfit : (os.length + 1) * max s.depositAmount s.withdrawAmount + mps * (ttl / 1000000000 : Nat) * s.withdrawAmount ≤ isizeMax)
    (henough : (((os.zip (Tps.run os s).1).countP (isGrant fun τ => decide (t < τ + 11 * (ttl / 10))) + 1 : Nat) : ℝ) ≤
      (mps * (ttl / 1000000000) : Nat) + r * (1 - 1 / 2 ^ 23) * (os.zip (Tps.run os s).1).countP (isDeposit fun τ => decide (t < τ + 5 * (ttl / 10)))) :
    ((Tps.run os s).2.withdraw t).1 = true := by
  obtain ⟨h1, _, d, w, h3, h4, h5⟩ := Tps.new_fields h
  obtain ⟨r0, _, hw, _, hd⟩ := ofF32_amounts hr h3
  have hM : 0 ≤ ((os.length : Int) + 1) * max s.depositAmount s.withdrawAmount := Int.mul_nonneg (by omega) (by omega)
  have hrs := Tps.new_reserve h (by omega)
  refine grants_amounts h os t hmono (by omega) ?_
  rw [h1, hrs]
  generalize (os.zip (Tps.run os s).1).countP (isGrant fun τ => decide (t < τ + 11 * (ttl / 10))) + 1 = R at henough ⊢
  generalize (os.zip (Tps.run os s).1).countP (isDeposit fun τ => decide (t < τ + 5 * (ttl / 10))) = D at henough ⊢
  rw [h4, h5]
  have key : (w : ℝ) * R ≤ ((mps * (ttl / 1000000000) : Nat) : ℝ) * w + d * D := by
    have e1 := mul_le_mul_of_nonneg_left henough (show (0 : ℝ) ≤ w by positivity)
    have e2 : r * (1 - 1 / 2 ^ 23) * w * D ≤ d * D := mul_le_mul_of_nonneg_right hd (by positivity)
    have e3 : (w : ℝ) * (((mps * (ttl / 1000000000) : Nat) : ℝ) + r * (1 - 1 / 2 ^ 23) * D) = ((mps * (ttl / 1000000000) : Nat) : ℝ) * w + r * (1 - 1 / 2 ^ 23) * w * D := by ring
    linarith
  exact_mod_cast key

/-- **C72, the cost of a retry.** For a percentage from 2⁻²⁴ to 1, one retry costs `1 / retry_percent` deposits, rounded down or up to an integer. -/
theorem C72_cost (hr : IsRounding 24 149 rnd) {ttl mps : Nat} {r : ℝ} (h0 : 1 / 2 ^ 24 ≤ r) (h1 : r ≤ 1) {t0 : Nat} {s : Tps} (h : Tps.new ttl mps (Percent.ofF32 rnd r) t0 = some s) :
    s.depositAmount = 1 ∧ (s.withdrawAmount = ⌊1 / r⌋₊ ∨ s.withdrawAmount = ⌈1 / r⌉₊) := by
  have hpos : 0 < r := lt_of_lt_of_le (by positivity) h0
  have hx : 1 / r ≤ 2 ^ 24 := by rw [div_le_iff₀ hpos]; rw [div_le_iff₀ (by positivity)] at h0; linarith
  have hx0 : 0 ≤ 1 / r := by positivity
  have hc : ⌈1 / r⌉₊ ≤ 2 ^ 24 := Nat.ceil_le.2 (by exact_mod_cast hx)
  have hf : ⌊1 / r⌋₊ ≤ 2 ^ 24 := (Nat.floor_le_ceil _).trans hc
  have e1 : (⌊1 / r⌋₊ : ℝ) ≤ rnd (1 / r) := by rw [← hr.int _ hf]; exact hr.mono (Nat.floor_le hx0)
  have e2 : rnd (1 / r) ≤ (⌈1 / r⌉₊ : ℝ) := by rw [← hr.int _ hc]; exact hr.mono (Nat.le_ceil _)
  have e3 : ⌊1 / r⌋₊ ≤ ⌊rnd (1 / r)⌋₊ := Nat.le_floor e1
  have e4 : ⌊rnd (1 / r)⌋₊ ≤ ⌈1 / r⌉₊ := by
    have := Nat.floor_mono e2
    rwa [Nat.floor_natCast] at this
  have e5 := Nat.ceil_le_floor_add_one (1 / r)
  obtain ⟨_, _, d, w, h3, h4, h5⟩ := Tps.new_fields h
  rcases ofF32_cases (rnd := rnd) hpos.le (by linarith) with ⟨hz, _⟩ | ⟨_, _, he⟩ | ⟨hz, _⟩
  · exact absurd hz hpos.ne'
  · rw [he] at h3
    simp only [tpsAmounts, Option.some.injEq, Prod.mk.injEq] at h3
    obtain ⟨rfl, rfl⟩ := h3
    rw [h4, h5, Nat.min_eq_left (by omega)]
    refine ⟨rfl, ?_⟩
    rcases Nat.lt_or_ge ⌊1 / r⌋₊ ⌊rnd (1 / r)⌋₊ with h6 | h6
    · right; congr 1; omega
    · left; congr 1; omega
  · linarith

/-! ## The jitter of a backoff -/

section backoff
variable {G : Rng}

/-- **C72, the casts.** The jitter in seconds fits a `u64` and the one in nanoseconds a `u32`: a number that fits is truncated, one that does not becomes the greatest that does. -/
theorem C72_casts (rnd : ℝ → ℝ) (base : Nat) (q : Rat) (v : Nat) :
    let j := rnd ((v : ℝ) / 2 ^ 53 * q)
    let secs := rnd (rnd ((base / nsPerSec : Nat) : ℝ) * j)
    let nanos := rnd (((base % nsPerSec : Nat) : ℝ) * j)
    let c := floatCasts rnd base (.fin q) v
    (0 ≤ secs → secs < 2 ^ 64 → (c.1 : ℝ) ≤ secs ∧ secs < c.1 + 1) ∧ (2 ^ 64 ≤ secs → c.1 = 18446744073709551615) ∧
    (0 ≤ nanos → nanos < 2 ^ 32 → (c.2 : ℝ) ≤ nanos ∧ nanos < c.2 + 1) ∧ (2 ^ 32 ≤ nanos → c.2 = 4294967295) := by
  have key : ∀ (x : ℝ) (k : Nat), (0 ≤ x → x < 2 ^ k → ((min ⌊x⌋₊ (2 ^ k - 1) : Nat) : ℝ) ≤ x ∧ x < (min ⌊x⌋₊ (2 ^ k - 1) : Nat) + 1) ∧ (2 ^ k ≤ x → min ⌊x⌋₊ (2 ^ k - 1) = 2 ^ k - 1) := by
    intro x k
    have h2 : 1 ≤ 2 ^ k := Nat.one_le_two_pow
    constructor
    · intro h0 h1
      have h3 : ⌊x⌋₊ < 2 ^ k := by
        rw [Nat.floor_lt h0]; push_cast; exact h1
      rw [Nat.min_eq_left (by omega)]
      exact ⟨Nat.floor_le h0, Nat.lt_floor_add_one x⟩
    · intro h1
      have h3 : 2 ^ k ≤ ⌊x⌋₊ := Nat.le_floor (by push_cast; exact h1)
      exact Nat.min_eq_right (by omega)
  exact ⟨(key _ 64).1, (key _ 64).2, (key _ 32).1, (key _ 32).2⟩

/-- the casts are bounded -/
theorem floatCasts_le (h : IsRounding 53 1074 rnd) {q : Rat} (hq0 : 0 ≤ q) (hq : rnd (q : ℝ) = q) (base : Nat) {v : Nat} (hv : v ≤ 2 ^ 53) :
    ((floatCasts rnd base (.fin q) v).1 : ℝ) ≤ (base / nsPerSec : Nat) * q * (1 + 1 / 2 ^ 50) ∧ ((floatCasts rnd base (.fin q) v).2 : ℝ) ≤ (base % nsPerSec : Nat) * q * (1 + 1 / 2 ^ 50) := by
  have hq' : (0 : ℝ) ≤ q := by exact_mod_cast hq0
  have hf0 : (0 : ℝ) ≤ (v : ℝ) / 2 ^ 53 := by positivity
  have hf1 : (v : ℝ) / 2 ^ 53 ≤ 1 := by
    rw [div_le_one (by positivity)]; exact_mod_cast hv
  have hr0 : 0 ≤ rnd ((v : ℝ) / 2 ^ 53 * q) := h.nonneg (mul_nonneg hf0 hq')
  have hr1 : rnd ((v : ℝ) / 2 ^ 53 * q) ≤ q := by
    rw [← hq]
    refine h.mono ?_
    rw [hq]
    exact mul_le_of_le_one_left hq' hf1
  have hone : ∀ n : Nat, rnd (n : ℝ) ≤ n * (1 + 2 / 2 ^ 53) := by
    intro n
    rcases Nat.eq_zero_or_pos n with rfl | hn
    · have := h.int 0 (by norm_num)
      simp only [Nat.cast_zero] at this ⊢
      rw [this]; norm_num
    · have h1 := h.above n (by positivity)
      have h2 : (1 : ℝ) ≤ n := by exact_mod_cast hn
      have h3 : (1 : ℝ) / 2 ^ (1074 + 1) ≤ 1 / 2 ^ 53 := two_pow_inv_le (by norm_num)
      have h4 : (1 : ℝ) / 2 ^ 53 ≤ n * (1 / 2 ^ 53) := le_mul_of_one_le_left (by positivity) h2
      refine h1.trans ?_
      have : (n : ℝ) * (1 + 2 / 2 ^ 53) = n * (1 + 1 / 2 ^ 53) + n * (1 / 2 ^ 53) := by ring
      linarith
  have hprod : ∀ (n : Nat) (y : ℝ), 0 ≤ y → y ≤ n * (1 + 2 / 2 ^ 53) → (⌊rnd (y * rnd ((v : ℝ) / 2 ^ 53 * q))⌋₊ : ℝ) ≤ n * q * (1 + 1 / 2 ^ 50) := by
    intro n y hy0 hy
    refine (h.floor_le (by norm_num) (by norm_num) (mul_nonneg hy0 hr0)).trans ?_
    have h1 : y * rnd ((v : ℝ) / 2 ^ 53 * q) ≤ n * (1 + 2 / 2 ^ 53) * q := mul_le_mul hy hr1 hr0 (mul_nonneg (by positivity) (by positivity))
    refine (mul_le_mul_of_nonneg_right h1 (by positivity)).trans ?_
    have e : (n : ℝ) * (1 + 2 / 2 ^ 53) * q * (1 + 2 / 2 ^ 53) = n * q * ((1 + 2 / 2 ^ 53) * (1 + 2 / 2 ^ 53)) := by ring
    rw [e]
    exact mul_le_mul_of_nonneg_left (by norm_num) (mul_nonneg (by positivity) hq')
  constructor
  · refine le_trans ?_ (hprod (base / nsPerSec) _ (h.nonneg (by positivity)) (hone _))
    exact Nat.cast_le.2 (Nat.min_le_left _ _)
  · refine le_trans ?_ (hprod (base % nsPerSec) ((base % nsPerSec : Nat) : ℝ) (by positivity) (le_mul_of_one_le_right (by positivity) (by norm_num)))
    exact Nat.cast_le.2 (Nat.min_le_left _ _)

/-- **C72.** With `f64` arithmetic: in every session of an `ExponentialBackoffMaker` that was accepted, the `k`-th delay exceeds the plain one (`min · 2ᵏ`, capped) by at most `jitter · (1 + 2⁻⁵⁰)` times that. (And it is between `min` and `max`, and not below the plain one, by C68.) -/
theorem C72_jitter (hr : IsRounding 53 1074 rnd) {mn mx : Nat} {q : Rat} (hq : rnd (q : ℝ) = q) {r : G.ρ} {m : ExpMaker G} (hmx : mx ≤ durMax) (hm : ExpMaker.new G mn mx (.fin q) r = .ok m) (i n : Nat)
    {ts : List Nat} (h : (m.session i).delays (floatCasts rnd) n = some ts) (hn : n ≤ 2 ^ 32) (k t : Nat) (hk : ts[k]? = some t) :
    (t : ℝ) ≤ plainDelay mn mx k + plainDelay mn mx k * q * (1 + 1 / 2 ^ 50) := by
  obtain ⟨rfl, h1, h2, q', hq', hq0, hq1⟩ := ExpMaker.new_ok hm
  cases hq'
  rw [ExpMaker.session_eq] at h
  obtain ⟨a, b, c⟩ := ExpBackoff.delays_spec n _ ts hmx h1 h
  have := c (by simp only; omega) k t hk
  simp only [Nat.zero_add] at this
  obtain ⟨c1, c2, c3⟩ := this
  have hqr : (0 : ℝ) ≤ q := by exact_mod_cast hq0
  have hnn : (0 : ℝ) ≤ plainDelay mn mx k * q * (1 + 1 / 2 ^ 50) := mul_nonneg (mul_nonneg (by positivity) hqr) (by positivity)
  cases hz : (F64.fin q).isZero with
  | true => rw [c2 hz]; linarith
  | false =>
    obtain ⟨v, hv, _, it, hnb⟩ := c3 hz
    unfold nextBackoff at hnb
    simp only [Option.bind_eq_bind, Option.bind_eq_some_iff] at hnb
    obtain ⟨jj, hj, hp⟩ := hnb
    rw [plainDelay_eq hmx] at hj hp
    cases hp
    obtain ⟨l1, l2⟩ := floatCasts_le hr hq0 hq (plainDelay mn mx k) hv.le
    generalize floatCasts rnd (plainDelay mn mx k) (.fin q) v = sn at hj l1 l2
    unfold backoffJitter durNew at hj
    split at hj
    · simp only [Option.map_some, Option.some.injEq] at hj
      have h3 : (jj : ℝ) ≤ sn.1 * nsPerSec + sn.2 := by
        rw [← hj]
        exact_mod_cast Nat.min_le_left _ _
      have h4 : (plainDelay mn mx k : ℝ) = (plainDelay mn mx k / nsPerSec : Nat) * nsPerSec + (plainDelay mn mx k % nsPerSec : Nat) := by
        rw [← Nat.cast_mul, ← Nat.cast_add]
        congr 1
        rw [Nat.mul_comm]
        exact (Nat.div_add_mod _ _).symm
      have h5 := mul_le_mul_of_nonneg_right l1 (show (0 : ℝ) ≤ nsPerSec by positivity)
      push_cast
      have h6 : (plainDelay mn mx k : ℝ) * q * (1 + 1 / 2 ^ 50) =
          (plainDelay mn mx k / nsPerSec : Nat) * q * (1 + 1 / 2 ^ 50) * nsPerSec + (plainDelay mn mx k % nsPerSec : Nat) * q * (1 + 1 / 2 ^ 50) := by
        conv_lhs => rw [h4]
        ring
      linarith
    · cases hj

/-- **C72.** With `f64` arithmetic and `max` below 2⁵⁷ seconds, `next_backoff` of a session panics only when there is jitter and the random number drawn is exactly 0.0 (`debug_assert!`). -/
theorem C72_panics_iff (hr : IsRounding 53 1074 rnd) {mn mx : Nat} {q : Rat} (hq : rnd (q : ℝ) = q) {r : G.ρ} {m : ExpMaker G} (hmx : mx < 2 ^ 57 * nsPerSec) (hm : ExpMaker.new G mn mx (.fin q) r = .ok m) (i k : Nat)
    {b : ExpBackoff G} (h : (m.session i).after (floatCasts rnd) k = some b) :
    b.next (floatCasts rnd) = none ↔ q ≠ 0 ∧ (G.nextF64 b.rng).1 = 0 := by
  obtain ⟨rfl, h1, h2, q', hq', hq0, hq1⟩ := ExpMaker.new_ok hm
  cases hq'
  rw [ExpMaker.session_eq] at h
  have hdm : mx ≤ durMax := by unfold durMax nsPerSec at *; omega
  have hb : ∀ k (b0 b : ExpBackoff G), b0.min = mn → b0.max = mx → b0.jitter = .fin q → b0.after (floatCasts rnd) k = some b → b.min = mn ∧ b.max = mx ∧ b.jitter = .fin q := by
    intro k
    induction k with
    | zero => intro b0 b e1 e2 e3 h; cases h; exact ⟨e1, e2, e3⟩
    | succ k ih =>
      intro b0 b e1 e2 e3 h
      simp only [ExpBackoff.after, Option.bind_eq_bind, Option.bind_eq_some_iff] at h
      obtain ⟨⟨t, b1⟩, h3, h4⟩ := h
      obtain ⟨f1, f2, f3, _⟩ := ExpBackoff.next_spec h3 (by rw [e2]; exact hdm) (by rw [e1, e2]; exact h1)
      exact ih b1 b (f1.trans e1) (f2.trans e2) (f3.trans e3) h4
  obtain ⟨e1, e2, e3⟩ := hb k _ b rfl rfl rfl h
  unfold ExpBackoff.next
  have hz : (b.jitter.isZero = true) ↔ q = 0 := by rw [e3]; simp [F64.isZero]
  split
  · rename_i hzz
    have hq := hz.1 hzz
    have hsome : ∃ t it, nextBackoff b.min b.max b.iterations none = some (t, it) := ⟨_, _, rfl⟩
    obtain ⟨t, it, hs⟩ := hsome
    rw [hs]
    simp [hq]
  · rename_i hzz
    have hqz : q ≠ 0 := fun hc => hzz (hz.2 hc)
    simp only
    split
    · rename_i hv
      simp [hv, hqz]
    · rename_i hv
      simp only [hv, and_false, iff_false]
      rw [e1, e2, e3]
      have hbb := backoffBase_bounds mn mx b.iterations hdm h1
      generalize hB : backoffBase mn mx b.iterations = B at hbb ⊢
      have hvl := (C36_f64 G b.rng).1
      generalize (G.nextF64 b.rng).1 = v at hvl hv ⊢
      obtain ⟨l1, l2⟩ := floatCasts_le hr hq0 hq B hvl.le
      have hq100 : (q : ℝ) ≤ 100 := by exact_mod_cast hq1
      have hqr : (0 : ℝ) ≤ q := by exact_mod_cast hq0
      have hBs : B / nsPerSec < 2 ^ 57 := by
        rw [Nat.div_lt_iff_lt_mul (by decide)]
        omega
      have l3 : (floatCasts rnd B (.fin q) v).1 < 2 ^ 64 - 10 := by
        have h3 : ((B / nsPerSec : Nat) : ℝ) ≤ 2 ^ 57 := by exact_mod_cast hBs.le
        have h4 : ((floatCasts rnd B (.fin q) v).1 : ℝ) ≤ 2 ^ 57 * 100 * (1 + 1 / 2 ^ 50) :=
          l1.trans (mul_le_mul_of_nonneg_right (mul_le_mul h3 hq100 hqr (by positivity)) (by positivity))
        have h5 : ((floatCasts rnd B (.fin q) v).1 : ℝ) < ((2 ^ 64 - 10 : Nat) : ℝ) := lt_of_le_of_lt h4 (by norm_num)
        exact_mod_cast h5
      have l4 : (floatCasts rnd B (.fin q) v).2 / nsPerSec ≤ 4 := by
        have h3 : (floatCasts rnd B (.fin q) v).2 ≤ 2 ^ 32 - 1 := Nat.min_le_right _ _
        rw [Nat.div_le_iff_le_mul_add_pred (by decide)]
        unfold nsPerSec
        omega
      have hfit : (floatCasts rnd B (.fin q) v).1 + (floatCasts rnd B (.fin q) v).2 / nsPerSec < 2 ^ 64 := by omega
      have := C17_no_panic mn mx [some (floatCasts rnd B (.fin q) v)] b.iterations (by
        intro s n hsn
        simp only [List.mem_singleton, Option.some.injEq] at hsn
        rw [← hsn] at hfit
        exact hfit)
      simp only [backoffRun] at this
      cases hnb : nextBackoff mn mx b.iterations (some (floatCasts rnd B (.fin q) v)) with
      | none => rw [hnb] at this; cases this
      | some x => simp

end backoff

/-! ## Concrete cases -/

/-! ## The default budget -/

theorem fltExp_eq {p m : Nat} {x : ℝ} {e : ℤ} (hx : 0 < x) (h1 : (2 : ℝ) ^ e ≤ x) (h2 : x < 2 ^ (e + 1)) : fltExp p m x = max (e - (p - 1 : ℤ)) (-m) := by
  have : Int.log 2 x = e := by
    refine le_antisymm ?_ ?_
    · have := (Int.lt_zpow_iff_log_lt (b := 2) (by norm_num) hx (x := e + 1)).1 (by exact_mod_cast h2)
      omega
    · exact (Int.zpow_le_iff_le_log (b := 2) (by norm_num) hx).1 (by exact_mod_cast h1)
  unfold fltExp; rw [this]

theorem IsNearest.eq {ρ : ℝ → ℤ} (h : IsNearest ρ) {x : ℝ} {n : ℤ} (h1 : (n : ℝ) - 1 / 2 < x) (h2 : x < n + 1 / 2) : ρ x = n := by
  have := abs_le.1 (h.near x)
  have h3 : (ρ x : ℝ) < n + 1 := by linarith [this.2]
  have h4 : (n : ℝ) - 1 < ρ x := by linarith [this.1]
  have h3' : ρ x < n + 1 := by exact_mod_cast h3
  have h4' : n - 1 < ρ x := by exact_mod_cast h4
  omega

theorem f32_fifth {ρ : ℝ → ℤ} (h : IsNearest ρ) : flt 24 149 ρ (1 / 5) = 13421773 / 2 ^ 26 := by
  unfold flt
  rw [if_neg (by norm_num)]
  unfold fltPos
  rw [fltExp_eq (e := -3) (by norm_num) (by norm_num) (by norm_num), show max ((-3 : ℤ) - ((24 : Nat) - 1 : ℤ)) (-(149 : Nat)) = -26 by norm_num]
  rw [h.eq (n := 13421773) (by norm_num) (by norm_num)]
  norm_num

theorem f32_five {ρ : ℝ → ℤ} (h : IsNearest ρ) : flt 24 149 ρ (1 / (13421773 / 2 ^ 26)) = 5 := by
  unfold flt
  rw [if_neg (by norm_num)]
  unfold fltPos
  rw [fltExp_eq (e := 2) (by norm_num) (by norm_num) (by norm_num), show max ((2 : ℤ) - ((24 : Nat) - 1 : ℤ)) (-(149 : Nat)) = -21 by norm_num]
  rw [h.eq (n := 10485760) (by norm_num) (by norm_num)]
  norm_num

theorem f32_default {ρ : ℝ → ℤ} (hρ : IsNearest ρ) : Percent.ofF32 (flt 24 149 ρ) (flt 24 149 ρ (1 / 5)) = .upToOne 5 := by
  rw [f32_fifth hρ]
  unfold Percent.ofF32
  rw [if_neg (by norm_num), if_neg (by norm_num), if_pos (by norm_num), f32_five hρ]
  have : ⌊(5 : ℝ)⌋₊ = 5 := by exact_mod_cast Nat.floor_natCast 5
  rw [this]; rfl

/-- **C72, default.** `TpsBudget::default()`, rounded as `f32` does: a retry costs what five requests pay in, and 100 retries are in reserve for every ten seconds. A retry granted at `t` is at most the
(100 + D/5)th of the last five seconds, for D requests in the last eleven; and it is granted if it is at most the (100 + D/5)th of the last eleven seconds, for D requests in the last five. -/
theorem C72_default {ρ : ℝ → ℤ} (hρ : IsNearest ρ) (t0 : Nat) : ∃ s, Tps.default (ieee32 ρ) t0 = some s ∧
    s.depositAmount = 1 ∧ s.withdrawAmount = 5 ∧ s.reserve = 500 ∧
    ∀ (os : List BudgetOp) (t : Nat), (t0 :: os.map BudgetOp.now ++ [t]).Pairwise (· ≤ ·) → (os.length + 1) * 5 + 500 ≤ isizeMax →
      (((Tps.run os s).2.withdraw t).1 = true → 5 * ((os.zip (Tps.run os s).1).countP (isGrant fun τ => decide (t < τ + 5000000000)) + 1) ≤
        500 + (os.zip (Tps.run os s).1).countP (isDeposit fun τ => decide (t < τ + 11000000000))) ∧
      (5 * ((os.zip (Tps.run os s).1).countP (isGrant fun τ => decide (t < τ + 11000000000)) + 1) ≤
        500 + (os.zip (Tps.run os s).1).countP (isDeposit fun τ => decide (t < τ + 5000000000)) → ((Tps.run os s).2.withdraw t).1 = true) := by
  have hp := f32_default hρ
  have hs : Tps.new (10 * 10 ^ 9) 10 (.upToOne 5) t0 = some ⟨0, t0, 500, List.replicate 10 0, 1000000000, 0, 1, 5⟩ := by
    rfl
  refine ⟨_, by unfold Tps.default ieee32; rw [hp]; exact hs, rfl, rfl, rfl, fun os t hmono hfit => ⟨fun hg => ?_, fun he => ?_⟩⟩
  · have := C15_storm hs os t hmono (by simpa using hfit) hg
    simp only [] at this
    norm_num at this
    omega
  · refine C15_grants hs (a := 1) (b := 5) ⟨by omega, by omega, rfl⟩ os t hmono (by norm_num; norm_num at hfit; omega) ?_
    norm_num
    norm_num at he
    omega

namespace Demo72

noncomputable abbrev f32 : ℝ → ℝ := ieee32 roundEven
theorem f32_ok : IsRounding 24 149 f32 := C71_rounding C71_ties_even
noncomputable abbrev f64 : ℝ → ℝ := flt 53 1074 roundEven
theorem f64_ok : IsRounding 53 1074 f64 := C71_rounding C71_ties_even

/-- a percentage of 1/8 is the budget with deposits of 1 and withdrawals of 8 -/
theorem eighth : Percent.ofF32 f32 (1 / 8) = .upToOne 8 := by
  unfold Percent.ofF32
  rw [if_neg (by norm_num), if_neg (by norm_num), if_pos (by norm_num)]
  have h1 : f32 (1 / (1 / 8)) = (8 : Nat) := by
    rw [show (1 : ℝ) / (1 / 8) = (8 : Nat) by norm_num]
    exact f32_ok.int 8 (by norm_num)
  rw [h1, Nat.floor_natCast]
  norm_num

def s8 : Tps := { index := 0, time := 0, reserve := 0, slots := List.replicate 10 0, window := 10 ^ 8, writer := 0, depositAmount := 1, withdrawAmount := 8 }
theorem new8 : Tps.new (10 ^ 9) 0 (Percent.ofF32 f32 (1 / 8)) 0 = some s8 := by rw [eighth]; rfl

/-- nine requests pay for a retry -/
example : ((Tps.run (List.replicate 9 (.deposit 5)) s8).2.withdraw 6).1 = true := by
  refine C72_grants f32_ok new8 (List.replicate 9 (.deposit 5)) 6 (by decide) (by decide) ?_
  have e1 : ((List.replicate 9 (BudgetOp.deposit 5)).zip (Tps.run (List.replicate 9 (.deposit 5)) s8).1).countP (isGrant fun τ => decide (6 < τ + 11 * (10 ^ 9 / 10))) = 0 := by decide +kernel
  have e2 : ((List.replicate 9 (BudgetOp.deposit 5)).zip (Tps.run (List.replicate 9 (.deposit 5)) s8).1).countP (isDeposit fun τ => decide (6 < τ + 5 * (10 ^ 9 / 10))) = 9 := by decide +kernel
  rw [e1, e2]
  norm_num

/-- and the bound holds of it -/
example : ((((List.replicate 9 (BudgetOp.deposit 5)).zip (Tps.run (List.replicate 9 (.deposit 5)) s8).1).countP (isGrant fun τ => decide (6 < τ + 5 * (10 ^ 9 / 10))) + 1 : Nat) : ℝ) ≤
    (0 * (10 ^ 9 / 1000000000) : Nat) + 2 * (1 / 8) * ((List.replicate 9 (BudgetOp.deposit 5)).zip (Tps.run (List.replicate 9 (.deposit 5)) s8).1).countP (isDeposit fun τ => decide (6 < τ + 11 * (10 ^ 9 / 10))) :=
  C72_retries f32_ok new8 (List.replicate 9 (.deposit 5)) 6 (by decide) (by decide) (by decide +kernel)

/-- a jitter of 1/2 is an `f64` -/
theorem half : f64 (((1 / 2 : Rat)) : ℝ) = ((1 / 2 : Rat) : ℝ) := by
  have h := fltPos_exact (q := 52) (m := 1074) C71_ties_even (n := 1) (e := -1) (by norm_num) (by norm_num) (by norm_num)
  have e : ((1 / 2 : Rat) : ℝ) = ((1 : ℤ) : ℝ) * 2 ^ (-1 : ℤ) := by norm_num
  rw [e]
  show flt 53 1074 roundEven _ = _
  unfold flt
  rw [if_neg (by norm_num)]
  exact h

/-- a generator that never gives 0 -/
@[reducible] def rng : Rng := ⟨Nat, fun c => (2 ^ 63, c + 1), fun c => by norm_num⟩

/-- 50 ms to 10 s with jitter 1/2: there is a session, and its first delay is at most 75 ms, but for rounding -/
example : ∃ (m : ExpMaker rng) (t : Nat) (b : ExpBackoff rng), ExpMaker.new rng 50000000 10000000000 (.fin (1 / 2)) (0 : Nat) = .ok m ∧ (m.session 0).next (floatCasts f64) = some (t, b) ∧
    (t : ℝ) ≤ 50000000 + 50000000 * (1 / 2) * (1 + 1 / 2 ^ 50) := by
  obtain ⟨c, hc⟩ := (C18_accepts_iff 50000000 10000000000 (.fin (1 / 2))).2 ⟨by norm_num, by norm_num, _, rfl, by norm_num, by norm_num⟩
  have hnew : ExpMaker.new rng 50000000 10000000000 (.fin (1 / 2)) (0 : Nat) = .ok ⟨c, (0 : Nat)⟩ := by unfold ExpMaker.new; rw [hc]
  have hsome := (C72_panics_iff f64_ok half (by unfold nsPerSec; norm_num) hnew 0 0 (b := (ExpMaker.session ⟨c, (0 : Nat)⟩ 0)) rfl).not.2 (by
    rintro ⟨_, h⟩
    rw [ExpMaker.session_eq] at h
    change (rng.nextF64 (0 : Nat)).1 = 0 at h
    exact absurd h (by decide +kernel))
  obtain ⟨⟨t, b⟩, hb⟩ := Option.ne_none_iff_exists'.1 hsome
  refine ⟨_, t, b, hnew, hb, ?_⟩
  have := C72_jitter f64_ok half (by unfold durMax nsPerSec; norm_num) hnew 0 1 (ts := [t]) (by simp [ExpBackoff.delays, hb]) (by norm_num) 0 t rfl
  have e : plainDelay 50000000 10000000000 0 = 50000000 := by decide
  rw [e] at this
  push_cast at this
  exact this

/-- the default budget grants a hundred retries at once, and then one for every five requests -/
example : ∃ s, Tps.default (ieee32 roundEven) 0 = some s ∧
    (Tps.run (List.replicate 101 (.withdraw 5) ++ List.replicate 4 (.deposit 6) ++ [.withdraw 7, .deposit 8, .withdraw 9, .withdraw 9]) s).1 =
      List.replicate 100 true ++ [false] ++ List.replicate 4 true ++ [false, true, true, false] := by
  obtain ⟨s, h, -⟩ := C72_default C71_ties_even 0
  refine ⟨s, h, ?_⟩
  have hs : Tps.default (ieee32 roundEven) 0 = some ⟨0, 0, 500, List.replicate 10 0, 1000000000, 0, 1, 5⟩ := by unfold Tps.default ieee32; rw [f32_default C71_ties_even]; rfl
  rw [hs] at h
  cases h
  decide +kernel

end Demo72

end Tower
