import Verif.Model.Float
import Mathlib.Algebra.Order.Round

/-! # C71: the assumptions about floating point hold of IEEE 754 -/

namespace Tower
variable {ρ : ℝ → ℤ} {q m : Nat}

theorem IsNearest.nonneg (h : IsNearest ρ) {x : ℝ} (hx : 0 ≤ x) : 0 ≤ ρ x := by
  have := h.mono hx
  have h0 : ρ 0 = 0 := by simpa using h.int 0
  rwa [h0] at this

theorem IsNearest.le_pow (h : IsNearest ρ) {x : ℝ} {n : Nat} (hx : x ≤ 2 ^ n) : ρ x ≤ 2 ^ n := by
  have h1 := h.int (2 ^ n)
  push_cast at h1
  rw [← h1]
  exact h.mono hx

theorem IsNearest.pow_le (h : IsNearest ρ) {x : ℝ} {n : Nat} (hx : 2 ^ n ≤ x) : 2 ^ n ≤ ρ x := by
  have h1 := h.int (2 ^ n)
  push_cast at h1
  rw [← h1]
  exact h.mono hx

theorem two_zpow_pos (e : ℤ) : (0 : ℝ) < 2 ^ e := zpow_pos (by norm_num) e

theorem two_zpow_mono {a b : ℤ} (h : a ≤ b) : (2 : ℝ) ^ a ≤ 2 ^ b := zpow_le_zpow_right₀ (by norm_num) h

theorem two_zpow_add (e : ℤ) (n : Nat) : (2 : ℝ) ^ (e + n) = 2 ^ n * 2 ^ e := by rw [zpow_add₀ (by norm_num), zpow_natCast, mul_comm]

theorem fltPos_nonneg (h : IsNearest ρ) {x : ℝ} (hx : 0 ≤ x) : 0 ≤ fltPos (q + 1) m ρ x := by
  unfold fltPos
  have h1 := h.nonneg (div_nonneg hx (two_zpow_pos (fltExp (q + 1) m x)).le)
  exact mul_nonneg (by exact_mod_cast h1) (two_zpow_pos _).le

theorem fltPos_zero (h : IsNearest ρ) : fltPos (q + 1) m ρ 0 = 0 := by
  have h0 : ρ 0 = 0 := by simpa using h.int 0
  simp [fltPos, h0]

theorem fltExp_spec {x : ℝ} (hx : 0 < x) : x < 2 ^ (fltExp (q + 1) m x + (q + 1 : Nat)) ∧ -(m : ℤ) ≤ fltExp (q + 1) m x ∧ (fltExp (q + 1) m x = -m ∨ 2 ^ (fltExp (q + 1) m x + q) ≤ x) := by
  have h1 : x < 2 ^ (Int.log 2 x + 1) := by exact_mod_cast Int.lt_zpow_succ_log_self (b := 2) (by norm_num) x
  have h2 : (2 : ℝ) ^ Int.log 2 x ≤ x := by exact_mod_cast Int.zpow_log_le_self (b := 2) (by norm_num) hx
  have e : Int.log 2 x - (((q + 1 : Nat) : ℤ) - 1) = Int.log 2 x - q := by push_cast; ring
  unfold fltExp
  rw [e]
  refine ⟨h1.trans_le (two_zpow_mono ?_), le_max_right _ _, ?_⟩
  · have := le_max_left (Int.log 2 x - q) (-(m : ℤ))
    push_cast
    omega
  · rcases max_choice (Int.log 2 x - q) (-(m : ℤ)) with h3 | h3
    · exact Or.inr (by rw [h3, sub_add_cancel]; exact h2)
    · exact Or.inl h3

theorem fltPos_le (h : IsNearest ρ) {x : ℝ} (hx : 0 < x) : 0 ≤ ρ (x / 2 ^ fltExp (q + 1) m x) ∧ ρ (x / 2 ^ fltExp (q + 1) m x) ≤ 2 ^ (q + 1) := by
  refine ⟨h.nonneg (div_nonneg hx.le (two_zpow_pos _).le), h.le_pow ?_⟩
  rw [div_le_iff₀ (two_zpow_pos _), ← two_zpow_add]
  exact (fltExp_spec hx).1.le

theorem fltPos_mono (h : IsNearest ρ) {x y : ℝ} (hx : 0 ≤ x) (hxy : x ≤ y) : fltPos (q + 1) m ρ x ≤ fltPos (q + 1) m ρ y := by
  rcases eq_or_lt_of_le hx with rfl | hx
  · rw [fltPos_zero h]; exact fltPos_nonneg h hxy
  have hle : fltExp (q + 1) m x ≤ fltExp (q + 1) m y := max_le_max (by have := Int.log_mono_right (b := 2) hx hxy; omega) le_rfl
  rcases eq_or_lt_of_le hle with he | hlt
  · unfold fltPos
    rw [← he]
    have h1 := h.mono (div_le_div_of_nonneg_right hxy (two_zpow_pos (fltExp (q + 1) m x)).le)
    exact mul_le_mul_of_nonneg_right (by exact_mod_cast h1) (two_zpow_pos _).le
  · have hy := fltExp_spec (q := q) (m := m) (hx.trans_le hxy)
    have h1 := (fltPos_le (q := q) (m := m) h hx).2
    have h2 : (2 : ℝ) ^ (fltExp (q + 1) m y + q) ≤ y := by
      rcases hy.2.2 with h3 | h3
      · have := (fltExp_spec (q := q) (m := m) hx).2.1; omega
      · exact h3
    have h3 : 2 ^ q ≤ ρ (y / 2 ^ fltExp (q + 1) m y) := by
      refine h.pow_le ?_
      rw [le_div_iff₀ (two_zpow_pos _), ← two_zpow_add]
      exact h2
    calc fltPos (q + 1) m ρ x ≤ 2 ^ (q + 1) * 2 ^ fltExp (q + 1) m x := mul_le_mul_of_nonneg_right (by exact_mod_cast h1) (two_zpow_pos _).le
      _ = 2 ^ q * 2 ^ (fltExp (q + 1) m x + 1) := by rw [zpow_add₀ (by norm_num), pow_succ]; norm_num; ring
      _ ≤ 2 ^ q * 2 ^ fltExp (q + 1) m y := mul_le_mul_of_nonneg_left (two_zpow_mono (by omega)) (by positivity)
      _ ≤ fltPos (q + 1) m ρ y := mul_le_mul_of_nonneg_right (by exact_mod_cast h3) (two_zpow_pos _).le

/-- `n · 2ᵉ` with `n` of `q + 1` bits is a floating point number -/
theorem fltPos_exact' (h : IsNearest ρ) {n : ℤ} {e : ℤ} (h0 : 0 ≤ n) (h1 : n < 2 ^ (q + 1)) (he : -(m : ℤ) ≤ e) : fltPos (q + 1) m ρ ((n : ℝ) * 2 ^ e) = n * 2 ^ e := by
  rcases eq_or_lt_of_le h0 with rfl | h0
  · simpa using fltPos_zero h
  have hn : (0 : ℝ) < n := by exact_mod_cast h0
  have hx : (0 : ℝ) < n * 2 ^ e := mul_pos hn (two_zpow_pos e)
  have hfe : fltExp (q + 1) m ((n : ℝ) * 2 ^ e) ≤ e := by
    refine max_le ?_ he
    have h2 : (n : ℝ) * 2 ^ e < 2 ^ (e + (q + 1 : Nat)) := by
      rw [two_zpow_add]
      refine mul_lt_mul_of_pos_right ?_ (two_zpow_pos e)
      exact_mod_cast h1
    have h3 : (2 : ℝ) ^ Int.log 2 ((n : ℝ) * 2 ^ e) ≤ (n : ℝ) * 2 ^ e := by exact_mod_cast Int.zpow_log_le_self (b := 2) (by norm_num) hx
    have h4 := (zpow_lt_zpow_iff_right₀ (by norm_num : (1 : ℝ) < 2)).1 (h3.trans_lt h2)
    push_cast at h4 ⊢
    omega
  obtain ⟨k, hk⟩ := Int.le.dest hfe
  have h5 : (n : ℝ) * 2 ^ e / 2 ^ fltExp (q + 1) m ((n : ℝ) * 2 ^ e) = ((n * 2 ^ k : ℤ) : ℝ) := by
    rw [div_eq_iff (two_zpow_pos _).ne']
    conv_lhs => rw [← hk]
    rw [two_zpow_add]
    push_cast
    ring
  unfold fltPos
  rw [h5, h.int, ← h5, div_mul_cancel₀ _ (two_zpow_pos _).ne']

theorem fltPos_exact (h : IsNearest ρ) {n : ℤ} {e : ℤ} (h0 : 0 ≤ n) (h1 : n ≤ 2 ^ (q + 1)) (he : -(m : ℤ) ≤ e) : fltPos (q + 1) m ρ ((n : ℝ) * 2 ^ e) = n * 2 ^ e := by
  rcases eq_or_lt_of_le h1 with rfl | h1
  · have h2 : ((2 ^ (q + 1) : ℤ) : ℝ) * 2 ^ e = ((2 ^ q : ℤ) : ℝ) * 2 ^ (e + 1) := by
      rw [zpow_add₀ (by norm_num)]; push_cast; rw [pow_succ]; ring
    rw [h2]
    exact fltPos_exact' h (by positivity) (by exact_mod_cast Nat.pow_lt_pow_right (by norm_num) (Nat.lt_succ_self q)) (by omega)
  · exact fltPos_exact' h h0 h1 he

theorem fltPos_idem (h : IsNearest ρ) {x : ℝ} (hx : 0 ≤ x) : fltPos (q + 1) m ρ (fltPos (q + 1) m ρ x) = fltPos (q + 1) m ρ x := by
  rcases eq_or_lt_of_le hx with rfl | hx
  · rw [fltPos_zero h, fltPos_zero h]
  exact fltPos_exact h (fltPos_le h hx).1 (fltPos_le h hx).2 (fltExp_spec hx).2.1

theorem fltPos_nat (h : IsNearest ρ) (n : Nat) (hn : n ≤ 2 ^ (q + 1)) : fltPos (q + 1) m ρ n = n := by
  have := fltPos_exact (q := q) (m := m) h (n := n) (e := 0) (by omega) (by exact_mod_cast hn) (by omega)
  simpa using this

theorem fltPos_near (h : IsNearest ρ) {x : ℝ} (hx : 0 ≤ x) : |fltPos (q + 1) m ρ x - x| ≤ x * (1 / 2 ^ (q + 1)) + 1 / 2 ^ (m + 1) := by
  rcases eq_or_lt_of_le hx with rfl | hx
  · rw [fltPos_zero h]; simp
  have h1 := h.near (x / 2 ^ fltExp (q + 1) m x)
  have hp := two_zpow_pos (fltExp (q + 1) m x)
  have h2 : |fltPos (q + 1) m ρ x - x| ≤ 2 ^ fltExp (q + 1) m x / 2 := by
    have h3 : fltPos (q + 1) m ρ x - x = ((ρ (x / 2 ^ fltExp (q + 1) m x) : ℝ) - x / 2 ^ fltExp (q + 1) m x) * 2 ^ fltExp (q + 1) m x := by
      unfold fltPos
      rw [sub_mul, div_mul_cancel₀ _ hp.ne']
    rw [h3, abs_mul, abs_of_pos hp]
    calc _ ≤ 1 / 2 * 2 ^ fltExp (q + 1) m x := mul_le_mul_of_nonneg_right h1 hp.le
      _ = _ := by ring
  have hu : 0 ≤ x * (1 / 2 ^ (q + 1)) := by positivity
  have hη : (0 : ℝ) < 1 / 2 ^ (m + 1) := by positivity
  rcases (fltExp_spec (q := q) (m := m) hx).2.2 with h3 | h3
  · rw [h3] at h2
    have h4 : (2 : ℝ) ^ (-(m : ℤ)) / 2 = 1 / 2 ^ (m + 1) := by
      rw [zpow_neg, zpow_natCast, pow_succ, one_div, mul_inv, div_eq_mul_inv]
    rw [h4] at h2
    linarith
  · have h4 : (2 : ℝ) ^ fltExp (q + 1) m x / 2 ≤ x * (1 / 2 ^ (q + 1)) := by
      rw [two_zpow_add] at h3
      rw [mul_one_div, le_div_iff₀ (by positivity), pow_succ]
      refine le_trans (le_of_eq ?_) h3
      ring
    linarith

/-- **C71.** The assumptions on rounding hold of IEEE 754 with any rounding to the nearest (any rule for ties). -/
theorem C71_rounding (h : IsNearest ρ) : IsRounding (q + 1) m (flt (q + 1) m ρ) := by
  have hneg : ∀ x < 0, flt (q + 1) m ρ x = -fltPos (q + 1) m ρ (-x) := fun x hx => if_pos hx
  have hpos : ∀ x, 0 ≤ x → flt (q + 1) m ρ x = fltPos (q + 1) m ρ x := fun x hx => if_neg (not_lt.2 hx)
  refine ⟨?_, ?_, ?_, ?_, ?_⟩
  · intro x y hxy
    rcases lt_or_ge x 0 with hx | hx <;> rcases lt_or_ge y 0 with hy | hy
    · rw [hneg x hx, hneg y hy, neg_le_neg_iff]; exact fltPos_mono h (by linarith) (by linarith)
    · rw [hneg x hx, hpos y hy]
      have h1 := fltPos_nonneg (q := q) (m := m) h (x := -x) (by linarith)
      have h2 := fltPos_nonneg (q := q) (m := m) h hy
      linarith
    · linarith
    · rw [hpos x hx, hpos y hy]; exact fltPos_mono h hx hxy
  · intro x
    rcases lt_or_ge x 0 with hx | hx
    · rw [hneg x hx]
      rcases eq_or_lt_of_le (fltPos_nonneg (q := q) (m := m) h (x := -x) (by linarith)) with h1 | h1
      · rw [← h1, neg_zero, hpos 0 le_rfl, fltPos_zero h]
      · rw [hneg _ (by linarith), neg_neg, fltPos_idem h (by linarith)]
    · rw [hpos x hx, hpos _ (fltPos_nonneg h hx), fltPos_idem h hx]
  · intro n hn
    rw [hpos _ (by positivity)]; exact fltPos_nat h n hn
  · intro x hx
    have := (abs_le.1 (fltPos_near (q := q) (m := m) h hx)).2
    rw [hpos x hx]; linarith
  · intro x hx
    have := (abs_le.1 (fltPos_near (q := q) (m := m) h hx)).1
    rw [hpos x hx]; linarith

/-- **C71.** In particular those on `f64`, with `exp` correctly rounded. -/
theorem C71_ieee (h : IsNearest ρ) : IsF64 (ieee ρ) := by
  refine ⟨C71_rounding h, ?_, ?_⟩
  · intro x hx
    refine ⟨fltPos_nonneg h (Real.exp_pos _).le, ?_⟩
    refine (fltPos_mono h (Real.exp_pos _).le (Real.exp_le_one_iff.2 hx)).trans (le_of_eq ?_)
    simpa using fltPos_nat (q := 52) (m := 1074) h 1 (by norm_num)
  · intro x
    show flt 53 1074 ρ (fltPos 53 1074 ρ (Real.exp x)) = _
    rw [flt, if_neg (not_lt.2 (fltPos_nonneg h (Real.exp_pos _).le)), fltPos_idem h (Real.exp_pos _).le]
    rfl

/-- rounding to the nearest integer, ties to even: the default mode of IEEE 754 -/
noncomputable def roundEven (x : ℝ) : ℤ := if Int.fract x < 1 / 2 ∨ (Int.fract x = 1 / 2 ∧ Even ⌊x⌋) then ⌊x⌋ else ⌊x⌋ + 1

/-- **C71.** Rounding to the nearest, ties to even, is one of them: the hypotheses can be met. -/
theorem C71_ties_even : IsNearest roundEven := by
  have hb : ∀ x, ⌊x⌋ ≤ roundEven x ∧ roundEven x ≤ ⌊x⌋ + 1 := by
    intro x
    unfold roundEven
    split <;> omega
  refine ⟨?_, ?_, ?_⟩
  · intro x y hxy
    rcases eq_or_lt_of_le (Int.floor_mono hxy) with he | hlt
    · have hf : Int.fract x ≤ Int.fract y := by unfold Int.fract; rw [he]; linarith
      unfold roundEven
      rw [he]
      split
      · split <;> omega
      · rename_i h1
        rw [if_neg]
        rintro (h2 | ⟨h2, h3⟩)
        · exact h1 (Or.inl (by linarith))
        · rcases eq_or_lt_of_le hf with h4 | h4
          · exact h1 (Or.inr ⟨by linarith, h3⟩)
          · exact h1 (Or.inl (by linarith))
    · have h1 := (hb x).2
      have h2 := (hb y).1
      omega
  · intro n
    simp [roundEven]
  · intro x
    have h1 := Int.floor_add_fract x
    have h2 := Int.fract_lt_one x
    have h3 := Int.fract_nonneg x
    unfold roundEven
    rw [abs_le]
    split
    · rename_i h4
      have h5 : Int.fract x ≤ 1 / 2 := by rcases h4 with h4 | h4; exacts [h4.le, h4.1.le]
      constructor <;> linarith
    · rename_i h4
      have h5 : 1 / 2 ≤ Int.fract x := by
        by_contra h6
        exact h4 (Or.inl (not_le.1 h6))
      push_cast
      constructor <;> linarith

end Tower
