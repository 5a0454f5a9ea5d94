import Verif.Model.LoadFloat
import Verif.Props.C67_BalanceLoad
import Verif.Props.C71_Ieee

/-! # C71: `PeakEwma` with the rounding of floating point arithmetic -/

namespace Tower
set_option linter.unusedSectionVars false
open Act
variable {W Req Res Err Res' : Type} {S : Service W Req Res Err} {C : Completion Res Res'} {A : FloatOps}

/-! ## One update -/

theorem f64U_pos : 0 < f64U := by unfold f64U; positivity
theorem f64U_le : f64U ≤ 1 / 8 := by unfold f64U; norm_num
theorem f64Eta_pos : 0 < f64Eta := by unfold f64Eta; positivity
theorem f64Eta_le : 8 * f64Eta ≤ f64U := by
  unfold f64Eta f64U
  rw [show (2 : ℝ) ^ 1075 = 2 ^ 53 * 2 ^ 1022 from by rw [← pow_add], one_div, one_div, mul_inv]
  have h1 : (0 : ℝ) < (2 ^ 53)⁻¹ := by positivity
  have h2 : (8 : ℝ) * (2 ^ 1022)⁻¹ ≤ 1 := by
    rw [← div_eq_mul_inv, div_le_one (by positivity)]
    calc (8 : ℝ) = 2 ^ 3 := by norm_num
      _ ≤ 2 ^ 1022 := pow_le_pow_right₀ (by norm_num) (by norm_num)
  nlinarith

theorem IsF64.mono (hA : IsF64 A) {x y : ℝ} (h : x ≤ y) : A.rnd x ≤ A.rnd y := hA.rounds.mono h
theorem IsF64.idem (hA : IsF64 A) (x : ℝ) : A.rnd (A.rnd x) = A.rnd x := hA.rounds.idem x
theorem IsF64.int (hA : IsF64 A) (n : Nat) (h : n ≤ 2 ^ 53) : A.rnd n = n := hA.rounds.int n h
theorem IsF64.above (hA : IsF64 A) (x : ℝ) (h : 0 ≤ x) : A.rnd x ≤ x * (1 + f64U) + f64Eta := hA.rounds.above x h
theorem IsF64.below (hA : IsF64 A) (x : ℝ) (h : 0 ≤ x) : x * (1 - f64U) - f64Eta ≤ A.rnd x := hA.rounds.below x h
theorem IsF64.zero (hA : IsF64 A) : A.rnd 0 = 0 := by simpa using hA.int 0 (by norm_num)
theorem IsF64.one (hA : IsF64 A) : A.rnd 1 = 1 := by simpa using hA.int 1 (by norm_num)
theorem IsF64.nonneg (hA : IsF64 A) {x : ℝ} (h : 0 ≤ x) : 0 ≤ A.rnd x := by simpa [hA.zero] using hA.mono h
theorem IsF64.nanos_nonneg (hA : IsF64 A) (d : Nat) : 0 ≤ A.nanos d := hA.nonneg (add_nonneg (by positivity) (hA.nonneg (by positivity)))
theorem IsF64.nanos_f64 (hA : IsF64 A) (d : Nat) : A.rnd (A.nanos d) = A.nanos d := hA.idem _
theorem IsF64.nanos_zero (hA : IsF64 A) : A.nanos 0 = 0 := by simp [FloatOps.nanos, hA.zero]

/-- **C71.** Durations below 2⁵³ ns (104 days) are converted exactly. -/
theorem C71_exact (hA : IsF64 A) {d : Nat} (h : d ≤ 2 ^ 53) : A.nanos d = d := by
  unfold FloatOps.nanos
  have h1 : d / 1000000000 * 1000000000 ≤ d := Nat.div_mul_le_self _ _
  rw [Nat.min_eq_left (by omega), hA.int _ (by omega), ← Nat.cast_add, hA.int _ ?_]
  · congr 1
    have := Nat.div_add_mod d 1000000000
    rw [Nat.mul_comm] at this
    omega
  · have := Nat.div_add_mod d 1000000000
    rw [Nat.mul_comm] at this
    omega

theorem IsF64.nanos_pos (hA : IsF64 A) {d : Nat} (h : 1 ≤ d) : 1 ≤ A.nanos d := by
  unfold FloatOps.nanos
  refine le_of_eq_of_le hA.one.symm (hA.mono ?_)
  by_cases h1 : d % 1000000000 = 0
  · have h2 : 1 ≤ min (d / 1000000000 * 1000000000) (2 ^ 64 - 1) := by
      have := Nat.div_add_mod d 1000000000
      have h3 : 1 ≤ d / 1000000000 := by omega
      omega
    have h3 : (1 : ℝ) ≤ ((min (d / 1000000000 * 1000000000) (2 ^ 64 - 1) : Nat) : ℝ) := by exact_mod_cast h2
    have h4 := hA.mono h3
    rw [hA.one] at h4
    have h5 : (0 : ℝ) ≤ ((d % 1000000000 : Nat) : ℝ) := by positivity
    linarith
  · have h2 : (1 : ℝ) ≤ ((d % 1000000000 : Nat) : ℝ) := by exact_mod_cast Nat.one_le_iff_ne_zero.2 h1
    have h3 := hA.nonneg (x := ((min (d / 1000000000 * 1000000000) (2 ^ 64 - 1) : Nat) : ℝ)) (by positivity)
    linarith

/-- the next estimate -/
noncomputable def nextEstF (A : FloatOps) (D old rtt elapsed : ℝ) : ℝ :=
  if old < rtt then rtt
  else A.rnd (A.rnd (old * A.exp (A.rnd (-elapsed / D))) + A.rnd (rtt * A.rnd (1 - A.exp (A.rnd (-elapsed / D)))))

theorem IsF64.decay_mem (hA : IsF64 A) {D el : ℝ} (hD : 0 < D) (he : 0 ≤ el) : 0 ≤ A.exp (A.rnd (-el / D)) ∧ A.exp (A.rnd (-el / D)) ≤ 1 := by
  refine hA.exp_mem _ ?_
  have h := hA.mono (div_nonpos_of_nonpos_of_nonneg (by linarith : -el ≤ 0) hD.le)
  rwa [hA.zero] at h

theorem nextEstF_zero (hA : IsF64 A) {D old el : ℝ} (h : 0 ≤ old) : nextEstF A D old 0 el = A.rnd (old * A.exp (A.rnd (-el / D))) := by
  rw [nextEstF, if_neg (by linarith), zero_mul, hA.zero, add_zero, hA.idem]

theorem nextEstF_nonneg (hA : IsF64 A) {D old rtt el : ℝ} (hD : 0 < D) (he : 0 ≤ el) (ho : 0 ≤ old) (hr : 0 ≤ rtt) : 0 ≤ nextEstF A D old rtt el := by
  obtain ⟨h1, h2⟩ := hA.decay_mem hD he
  unfold nextEstF
  split
  · exact hr
  · exact hA.nonneg (add_nonneg (hA.nonneg (mul_nonneg ho h1)) (hA.nonneg (mul_nonneg hr (hA.nonneg (by linarith)))))

/-- the estimate is an `f64` -/
theorem nextEstF_f64 (hA : IsF64 A) {D old rtt el : ℝ} (hr : A.rnd rtt = rtt) : A.rnd (nextEstF A D old rtt el) = nextEstF A D old rtt el := by
  unfold nextEstF
  split
  · exact hr
  · exact hA.idem _

theorem round_above {u η B d o r a b c n : ℝ} (u0 : 0 < u) (u1 : u ≤ 1 / 8) (n0 : 0 < η) (n1 : 8 * η ≤ u) (d0 : 0 ≤ d) (d1 : d ≤ 1) (hB : 1 ≤ B) (ho : o ≤ B) (hr : 0 ≤ r) (hro : r ≤ o)
    (ha : a ≤ o * d * (1 + u) + η) (hc : c ≤ (1 - d) * (1 + u) + η) (hc0 : 0 ≤ c) (hb : b ≤ r * c * (1 + u) + η) (hn : n ≤ (a + b) * (1 + u) + η) : n ≤ B * (1 + u) ^ 4 := by
  have e1 : o * d * (1 + u) ≤ B * d * (1 + u) := mul_le_mul_of_nonneg_right (mul_le_mul_of_nonneg_right ho d0) (by linarith)
  have e2 : r * c * (1 + u) ≤ B * ((1 - d) * (1 + u) + η) * (1 + u) :=
    mul_le_mul_of_nonneg_right (mul_le_mul (hro.trans ho) hc hc0 (by linarith)) (by linarith)
  have e3 : d + ((1 - d) * (1 + u) + η) ≤ 1 + u + η := by nlinarith
  have e4 : a + b ≤ B * (1 + u) * (1 + u + η) + 2 * η * B := by
    have h1 : B * (1 + u) * (d + ((1 - d) * (1 + u) + η)) ≤ B * (1 + u) * (1 + u + η) := mul_le_mul_of_nonneg_left e3 (mul_nonneg (by linarith) (by linarith))
    have h2 : 2 * η ≤ 2 * η * B := by nlinarith
    have h3 : B * (1 + u) * (d + ((1 - d) * (1 + u) + η)) = B * d * (1 + u) + B * ((1 - d) * (1 + u) + η) * (1 + u) := by ring
    linarith
  have e5 : (a + b) * (1 + u) ≤ (B * (1 + u) * (1 + u + η) + 2 * η * B) * (1 + u) := mul_le_mul_of_nonneg_right e4 (by linarith)
  have e6 : η ≤ η * B := by nlinarith
  have e7 : n ≤ B * ((1 + u) ^ 3 + η * ((1 + u) ^ 2 + 2 * (1 + u) + 1)) := by
    have : B * ((1 + u) ^ 3 + η * ((1 + u) ^ 2 + 2 * (1 + u) + 1)) = (B * (1 + u) * (1 + u + η) + 2 * η * B) * (1 + u) + η * B := by ring
    linarith
  refine e7.trans (mul_le_mul_of_nonneg_left ?_ (by linarith))
  have e8 : (1 + u) ^ 2 + 2 * (1 + u) + 1 ≤ 8 := by nlinarith
  have e9 : η * ((1 + u) ^ 2 + 2 * (1 + u) + 1) ≤ η * 8 := mul_le_mul_of_nonneg_left e8 n0.le
  have e10 : 1 ≤ (1 + u) ^ 3 := one_le_pow₀ (by linarith)
  have e11 : (1 + u) ^ 4 = (1 + u) ^ 3 + u * (1 + u) ^ 3 := by ring
  nlinarith

theorem round_below {u η d o r a b c n : ℝ} (u0 : 0 < u) (u1 : u ≤ 1 / 8) (n0 : 0 < η) (n1 : 8 * η ≤ u) (d0 : 0 ≤ d) (d1 : d ≤ 1) (hr : 1 ≤ r) (hro : r ≤ o)
    (ha : o * d * (1 - u) - η ≤ a) (hc : (1 - d) * (1 - u) - η ≤ c) (hb : r * c * (1 - u) - η ≤ b) (hn : (a + b) * (1 - u) - η ≤ n) : r * (1 - u) ^ 4 ≤ n := by
  have e1 : r * d * (1 - u) ≤ o * d * (1 - u) := mul_le_mul_of_nonneg_right (mul_le_mul_of_nonneg_right hro d0) (by linarith)
  have e2 : r * ((1 - d) * (1 - u) - η) * (1 - u) ≤ r * c * (1 - u) :=
    mul_le_mul_of_nonneg_right (mul_le_mul_of_nonneg_left hc (by linarith)) (by linarith)
  have e3 : 1 - u - η ≤ d + ((1 - d) * (1 - u) - η) := by nlinarith
  have e4 : r * (1 - u) * (1 - u - η) - 2 * η * r ≤ a + b := by
    have h1 : r * (1 - u) * (1 - u - η) ≤ r * (1 - u) * (d + ((1 - d) * (1 - u) - η)) := mul_le_mul_of_nonneg_left e3 (mul_nonneg (by linarith) (by linarith))
    have h2 : 2 * η ≤ 2 * η * r := by nlinarith
    have h3 : r * (1 - u) * (d + ((1 - d) * (1 - u) - η)) = r * d * (1 - u) + r * ((1 - d) * (1 - u) - η) * (1 - u) := by ring
    linarith
  have e5 : (r * (1 - u) * (1 - u - η) - 2 * η * r) * (1 - u) ≤ (a + b) * (1 - u) := mul_le_mul_of_nonneg_right e4 (by linarith)
  have e6 : η ≤ η * r := by nlinarith
  have e7 : r * ((1 - u) ^ 3 - η * ((1 - u) ^ 2 + 2 * (1 - u) + 1)) ≤ n := by
    have : r * ((1 - u) ^ 3 - η * ((1 - u) ^ 2 + 2 * (1 - u) + 1)) = (r * (1 - u) * (1 - u - η) - 2 * η * r) * (1 - u) - η * r := by ring
    linarith
  refine le_trans (mul_le_mul_of_nonneg_left ?_ (by linarith)) e7
  have e8 : (1 - u) ^ 2 + 2 * (1 - u) + 1 ≤ 4 := by nlinarith
  have e9 : η * ((1 - u) ^ 2 + 2 * (1 - u) + 1) ≤ η * 4 := mul_le_mul_of_nonneg_left e8 n0.le
  have e10 : 1 / 2 ≤ (1 - u) ^ 3 := by
    have : (7 / 8 : ℝ) ^ 3 ≤ (1 - u) ^ 3 := pow_le_pow_left₀ (by norm_num) (by linarith) 3
    norm_num at this ⊢; linarith
  have e11 : (1 - u) ^ 4 = (1 - u) ^ 3 - u * (1 - u) ^ 3 := by ring
  nlinarith

/-- A lower observation: the new estimate is not above the old one, but for the error of four roundings. -/
theorem nextEstF_above (hA : IsF64 A) {D old rtt el B : ℝ} (hD : 0 < D) (he : 0 ≤ el) (hr : 0 ≤ rtt) (hle : rtt ≤ old) (hB : old ≤ B) (h1 : 1 ≤ B) :
    nextEstF A D old rtt el ≤ B * (1 + f64U) ^ 4 := by
  obtain ⟨d0, d1⟩ := hA.decay_mem hD he
  rw [nextEstF, if_neg (by linarith)]
  generalize A.exp (A.rnd (-el / D)) = d at d0 d1
  have hc0 : 0 ≤ A.rnd (1 - d) := hA.nonneg (by linarith)
  have ha0 : 0 ≤ old * d := mul_nonneg (by linarith) d0
  have hb0 : 0 ≤ rtt * A.rnd (1 - d) := mul_nonneg hr hc0
  exact round_above f64U_pos f64U_le f64Eta_pos f64Eta_le d0 d1 h1 hB hr hle (hA.above _ ha0) (hA.above _ (by linarith)) hc0 (hA.above _ hb0) (hA.above _ (add_nonneg (hA.nonneg ha0) (hA.nonneg hb0)))

/-- ... and not below what was observed, but for the error of four roundings. -/
theorem nextEstF_below (hA : IsF64 A) {D old rtt el : ℝ} (hD : 0 < D) (he : 0 ≤ el) (hr : 1 ≤ rtt) (hle : rtt ≤ old) :
    rtt * (1 - f64U) ^ 4 ≤ nextEstF A D old rtt el := by
  obtain ⟨d0, d1⟩ := hA.decay_mem hD he
  rw [nextEstF, if_neg (by linarith)]
  generalize A.exp (A.rnd (-el / D)) = d at d0 d1
  have hc0 : 0 ≤ A.rnd (1 - d) := hA.nonneg (by linarith)
  have ha0 : 0 ≤ old * d := mul_nonneg (by linarith) d0
  have hb0 : 0 ≤ rtt * A.rnd (1 - d) := mul_nonneg (by linarith) hc0
  exact round_below f64U_pos f64U_le f64Eta_pos f64Eta_le d0 d1 hr hle (hA.below _ ha0) (hA.below _ (by linarith)) (hA.below _ hb0) (hA.below _ (add_nonneg (hA.nonneg ha0) (hA.nonneg hb0)))

/-! ## The operations -/

theorem updateF_run {D : ℝ} {s r : Nat} {e : Ewma} (hsr : s ≤ r) (hu : e.updateAt ≤ e.now) :
    (Ewma.updateF A D s r).run e = .ok (nextEstF A D e.rtt (A.nanos (r - s)) (A.nanos (e.now + e.lag 0 - e.updateAt)))
      { e with rtt := nextEstF A D e.rtt (A.nanos (r - s)) (A.nanos (e.now + e.lag 0 - e.updateAt)), updateAt := e.now + e.lag 0, now := e.now + e.lag 0, lag := fun n => e.lag (n + 1) } := by
  unfold Ewma.updateF
  rw [if_neg (not_not.2 hsr)]
  rw [Act.run_bind_ok (a := e.now + e.lag 0) (w' := { e with now := e.now + e.lag 0, lag := fun n => e.lag (n + 1) }) rfl]
  rw [Act.run_bind_ok (Act.run_get _)]
  rw [if_neg (by simp only [not_not]; omega)]
  rfl

theorem dropHF_run {D : ℝ} {s : Nat} {e : Ewma} (hs : s ≤ e.now) (hu : e.updateAt ≤ e.now) :
    ((ewmaTrackerF A D).dropH s).run e = .ok ()
      { updateAt := e.now + e.lag 0 + e.lag 1
        rtt := nextEstF A D e.rtt (A.nanos (e.now + e.lag 0 - s)) (A.nanos (e.now + e.lag 0 + e.lag 1 - e.updateAt))
        count := e.count - 1
        now := e.now + e.lag 0 + e.lag 1
        lag := fun n => e.lag (n + 2) } := by
  show (Ewma.tick >>= _).run e = _
  rw [Act.run_bind_ok (a := e.now + e.lag 0) (w' := { e with now := e.now + e.lag 0, lag := fun n => e.lag (n + 1) }) rfl]
  rw [Act.run_bind_ok (updateF_run (by omega) (by simp only; omega))]
  rfl

theorem handleF_run {D : ℝ} {e : Ewma} : (ewmaTrackerF A D).handle.run e = .ok (e.now + e.lag 0) { e with count := e.count + 1, now := e.now + e.lag 0, lag := fun n => e.lag (n + 1) } := rfl

/-- the estimate after a reading that takes place at `t` -/
noncomputable def decayedF (A : FloatOps) (D : ℝ) (e : Ewma) (t : Nat) : ℝ := A.rnd (e.rtt * A.exp (A.rnd (-A.nanos (t - e.updateAt) / D)))

theorem decayedF_mem (hA : IsF64 A) {D : ℝ} (hD : 0 < D) {e : Ewma} (h0 : 0 ≤ e.rtt) (hf : A.rnd e.rtt = e.rtt) (t : Nat) : 0 ≤ decayedF A D e t ∧ decayedF A D e t ≤ e.rtt := by
  obtain ⟨h1, h2⟩ := hA.decay_mem hD (hA.nanos_nonneg (t - e.updateAt))
  refine ⟨hA.nonneg (mul_nonneg h0 h1), ?_⟩
  have := hA.mono (mul_le_of_le_one_right h0 h2)
  rwa [hf] at this

/-- the state after a reading -/
noncomputable def Ewma.afterRead (A : FloatOps) (D : ℝ) (e : Ewma) : Ewma :=
  { e with
    rtt := decayedF A D e (e.now + e.lag 0 + e.lag 1)
    updateAt := e.now + e.lag 0 + e.lag 1
    now := e.now + e.lag 0 + e.lag 1
    lag := fun n => e.lag (n + 2) }

theorem decayF_run (hA : IsF64 A) {D : ℝ} {e : Ewma} (hu : e.updateAt ≤ e.now) (h0 : 0 ≤ e.rtt) :
    (Ewma.decayF A D).run e = .ok (decayedF A D e (e.now + e.lag 0 + e.lag 1)) (e.afterRead A D) := by
  unfold Ewma.decayF
  rw [Act.run_bind_ok (a := e.now + e.lag 0) (w' := { e with now := e.now + e.lag 0, lag := fun n => e.lag (n + 1) }) rfl]
  rw [updateF_run (Nat.le_refl _) (by simp only; omega), Nat.sub_self, hA.nanos_zero]
  simp only [nextEstF_zero hA h0]
  rfl

theorem loadF_run (hA : IsF64 A) {D : ℝ} {e : Ewma} (hu : e.updateAt ≤ e.now) (h0 : 0 ≤ e.rtt) (hc : 0 < e.count) (hc2 : e.count < 2 ^ 32) :
    (Ewma.loadF A D).run e = .ok (A.rnd ((e.afterRead A D).rtt * (e.count : ℝ))) (e.afterRead A D) := by
  unfold Ewma.loadF
  rw [Act.run_bind_ok (Act.run_get _)]
  rw [Nat.mod_eq_of_lt hc2]
  simp only
  rw [if_neg (by omega)]
  rw [Act.run_bind_ok (decayF_run hA hu h0)]
  rw [if_neg (by omega), Nat.sub_add_cancel hc]
  rfl

theorem loadF_ok (hA : IsF64 A) {D : ℝ} {e e' : Ewma} {c : ℝ} (hu : e.updateAt ≤ e.now) (h0 : 0 ≤ e.rtt) (h : (Ewma.loadF A D).run e = .ok c e') : e' = e.afterRead A D := by
  unfold Ewma.loadF at h
  rw [Act.run_bind_ok (Act.run_get _)] at h
  simp only at h
  split at h
  · cases h
  · rw [Act.run_bind_ok (decayF_run hA hu h0)] at h
    split at h
    · cases h
    · cases h; rfl

/-! ## The invariant -/

/-- the number of calls that have ended -/
def endings (log : List LoadEv) : Nat := (finishedIds log).length

/-- the estimate is in line with what was observed, but for the errors of rounding (four for each call that ended) -/
def FairF (A : FloatOps) (d0 : Nat) (log : List LoadEv) (est : ℝ) : Prop :=
  0 ≤ est ∧ (est ≤ A.nanos d0 * (1 + f64U) ^ (4 * endings log) ∨
    ∃ n t0 t1, LoadEv.called n t0 ∈ log ∧ LoadEv.finished n t1 ∈ log ∧ t0 ≤ t1 ∧ est ≤ A.nanos (t1 - t0) * (1 + f64U) ^ (4 * endings log))

/-- the invariant of `PeakEwma` -/
structure EwmaOkF (A : FloatOps) (d0 : Nat) (e : Ewma) (l : List (Nat × Nat)) (log : List LoadEv) : Prop where
  f64 : A.rnd e.rtt = e.rtt
  upd : e.updateAt ≤ e.now
  sent : ∀ x ∈ l, x.2 ≤ e.now ∧ LoadEv.called x.1 x.2 ∈ log
  count : e.count = 1 + l.length
  fair : FairF A d0 log e.rtt

theorem one_le_factor (n : Nat) : 1 ≤ (1 + f64U) ^ n := one_le_pow₀ (by linarith [f64U_pos])

theorem FairF.mono {d0 : Nat} {log log' : List LoadEv} {a b : ℝ} (h : FairF A d0 log a) (hl : ∀ x ∈ log, x ∈ log') (he : endings log ≤ endings log') (hA : IsF64 A) (hb : 0 ≤ b)
    (hba : b ≤ a * (1 + f64U) ^ (4 * (endings log' - endings log))) : FairF A d0 log' b := by
  have key : ∀ m : ℝ, a ≤ m * (1 + f64U) ^ (4 * endings log) → b ≤ m * (1 + f64U) ^ (4 * endings log') := by
    intro m hm
    refine hba.trans ((mul_le_mul_of_nonneg_right hm (zero_le_one.trans (one_le_factor _))).trans (le_of_eq ?_))
    rw [mul_assoc, ← pow_add]
    congr 2
    omega
  refine ⟨hb, ?_⟩
  rcases h.2 with h1 | ⟨n, t0, t1, h1, h2, h3, h4⟩
  · exact Or.inl (key _ h1)
  · exact Or.inr ⟨n, t0, t1, hl _ h1, hl _ h2, h3, key _ h4⟩

theorem endings_called (log : List LoadEv) (n t : Nat) : endings (log ++ [.called n t]) = endings log := by
  simp [endings, finishedIds_append, finishedIds]

theorem endings_finished (log : List LoadEv) (n t : Nat) : endings (log ++ [.finished n t]) = endings log + 1 := by
  simp [endings, finishedIds_append, finishedIds]

/-- what `FairF` bounds by is never below 1 ns when the estimate could be rounded up: the bound of the default -/
theorem FairF.next (hA : IsF64 A) {d0 : Nat} (hd : 1 ≤ d0) {log : List LoadEv} {D old rtt el : ℝ} (h : FairF A d0 log old) (hD : 0 < D) (he : 0 ≤ el) (hr : 0 ≤ rtt) (hle : rtt ≤ old)
    (n t : Nat) : FairF A d0 (log ++ [.finished n t]) (nextEstF A D old rtt el) := by
  refine ⟨nextEstF_nonneg hA hD he (hr.trans hle) hr, ?_⟩
  rw [endings_finished, show 4 * (endings log + 1) = 4 * endings log + 4 from rfl, pow_add]
  have hone : ∀ m : ℝ, 1 ≤ m → old ≤ m * (1 + f64U) ^ (4 * endings log) → nextEstF A D old rtt el ≤ m * ((1 + f64U) ^ (4 * endings log) * (1 + f64U) ^ 4) := by
    intro m hm ho
    rw [← mul_assoc]
    exact nextEstF_above hA hD he hr hle ho (one_le_mul_of_one_le_of_one_le hm (one_le_factor _))
  rcases h.2 with h1 | ⟨k, t0, t1, h1, h2, h3, h4⟩
  · exact Or.inl (hone _ (hA.nanos_pos hd) h1)
  · rcases Nat.eq_or_lt_of_le h3 with h5 | h5
    · subst h5
      rw [Nat.sub_self, hA.nanos_zero, zero_mul] at h4
      refine Or.inl (hone _ (hA.nanos_pos hd) (h4.trans ?_))
      exact mul_nonneg (hA.nanos_nonneg _) (zero_le_one.trans (one_le_factor _))
    · exact Or.inr ⟨k, t0, t1, List.mem_append_left _ h1, List.mem_append_left _ h2, h3, hone _ (hA.nanos_pos (by omega)) h4⟩

theorem ewmaOkF_closed (hA : IsF64 A) {D : ℝ} (hD : 0 < D) {d0 : Nat} (hd : 1 ≤ d0) : LoadClosed (ewmaTrackerF A D) (fun (e : Ewma) l log _ => EwmaOkF A d0 e l log) where
  perm h p := ⟨h.f64, h.upd, fun x hx => h.sent x (p.mem_iff.2 hx), by rw [← p.length_eq]; exact h.count, h.fair⟩
  call {e l log c hd' e1} h h1 := by
    rw [handleF_run] at h1
    cases h1
    refine ⟨h.f64, ?_, ?_, ?_, ?_⟩
    · exact h.upd.trans (Nat.le_add_right _ _)
    · intro x hx
      rcases List.mem_cons.1 hx with rfl | hx
      · exact ⟨Nat.le_refl _, by simp⟩
      · exact ⟨(h.sent x hx).1.trans (Nat.le_add_right _ _), List.mem_append_left _ (h.sent x hx).2⟩
    · have := h.count
      simp only [List.length_cons]; omega
    · refine h.fair.mono (fun x hx => List.mem_append_left _ hx) (by rw [endings_called]) hA h.fair.1 ?_
      exact le_mul_of_one_le_right h.fair.1 (one_le_factor _)
  fin {e n s l log c e1} h h1 := by
    have hs := h.sent (n, s) List.mem_cons_self
    rw [dropHF_run hs.1 h.upd] at h1
    cases h1
    have hel := hA.nanos_nonneg (e.now + e.lag 0 + e.lag 1 - e.updateAt)
    have hrt := hA.nanos_nonneg (e.now + e.lag 0 - s)
    refine ⟨nextEstF_f64 hA (hA.nanos_f64 _), Nat.le_refl _, ?_, ?_, ?_⟩
    · intro x hx
      have := h.sent x (List.mem_cons_of_mem _ hx)
      exact ⟨by simp only; omega, List.mem_append_left _ this.2⟩
    · have := h.count
      simp only [List.length_cons] at this ⊢; omega
    · rcases lt_or_ge e.rtt (A.nanos (e.now + e.lag 0 - s)) with hlt | hge
      · simp only [nextEstF, if_pos hlt]
        refine ⟨hrt, Or.inr ⟨n, s, e.now + e.lag 0, List.mem_append_left _ hs.2, ?_, ?_, ?_⟩⟩
        · exact List.mem_append_right _ List.mem_cons_self
        · have := hs.1; simp only at this; omega
        · exact le_mul_of_one_le_right hrt (one_le_factor _)
      · exact h.fair.next hA hd hD hel hrt hge _ _
  other {e l log c e1} h h1 := by
    rcases h1 with ⟨d, lag, rfl⟩ | ⟨c, h1⟩
    · exact ⟨h.f64, h.upd.trans (Nat.le_add_right _ _), fun x hx => ⟨(h.sent x hx).1.trans (Nat.le_add_right _ _), (h.sent x hx).2⟩, h.count, h.fair⟩
    · obtain rfl := loadF_ok hA h.upd h.fair.1 h1
      obtain ⟨h2, h3⟩ := decayedF_mem hA hD h.fair.1 h.f64 (e.now + e.lag 0 + e.lag 1)
      refine ⟨hA.idem _, Nat.le_refl _, ?_, h.count, ?_⟩
      · intro x hx
        have := h.sent x hx
        exact ⟨by simp only [Ewma.afterRead]; omega, this.2⟩
      · refine h.fair.mono (fun x hx => hx) (Nat.le_refl _) hA h2 ?_
        rw [Nat.sub_self, Nat.mul_zero, pow_zero, mul_one]
        exact h3

theorem ewmaOkF_new (hA : IsF64 A) (d0 t : Nat) (lag : Nat → Nat) : EwmaOkF A d0 (Ewma.newF A d0 t lag) [] [] :=
  ⟨hA.nanos_f64 _, Nat.le_refl _, (fun x hx => by cases hx), rfl, hA.nanos_nonneg _, Or.inl (by simp [endings, finishedIds, Ewma.newF])⟩

theorem LoadHist.ewmaOkF (hA : IsF64 A) {D : ℝ} (hD : 0 < D) {d0 t : Nat} (hd : 1 ≤ d0) {lag : Nat → Nat} {x : LState (ewmaTrackerF A D) S} {log : List LoadEv}
    (h : LoadHist (ewmaTrackerF A D) C S (Ewma.newF A d0 t lag) x log) : EwmaOkF A d0 x.r x.live log :=
  (LoadHist.induct (ewmaOkF_closed hA hD hd) (ewmaOkF_new hA d0 t lag) h).1

/-! ## C71 -/

/-- **C71.** The estimate is never negative, and never above both the default and every round trip time observed (from a call to its end), but for the error of four roundings for each call that ended: a factor `1 + 2⁻⁵³` each. -/
theorem C71_bounds (hA : IsF64 A) {D : ℝ} (hD : 0 < D) {d0 t : Nat} (hd : 1 ≤ d0) {lag : Nat → Nat} {x : LState (ewmaTrackerF A D) S} {log : List LoadEv}
    (h : LoadHist (ewmaTrackerF A D) C S (Ewma.newF A d0 t lag) x log) :
    0 ≤ x.r.rtt ∧ (x.r.rtt ≤ A.nanos d0 * (1 + 1 / 2 ^ 53) ^ (4 * (finishedIds log).length) ∨
      ∃ n t0 t1, LoadEv.called n t0 ∈ log ∧ LoadEv.finished n t1 ∈ log ∧ t0 ≤ t1 ∧ x.r.rtt ≤ A.nanos (t1 - t0) * (1 + 1 / 2 ^ 53) ^ (4 * (finishedIds log).length)) :=
  (h.ewmaOkF hA hD hd).fair

/-- **C71.** The load read is an estimate, at most the one before the reading, times one more than the number of calls in flight, rounded. Hence it is at least that estimate, and never negative.
Reading never panics (below 2³² − 1 calls in flight). -/
theorem C71_load (hA : IsF64 A) {D : ℝ} (hD : 0 < D) {d0 t : Nat} (hd : 1 ≤ d0) {lag : Nat → Nat} {x : LState (ewmaTrackerF A D) S} {log : List LoadEv}
    (h : LoadHist (ewmaTrackerF A D) C S (Ewma.newF A d0 t lag) x log) (hf : (inFlight log).length + 1 < 2 ^ 32) :
    ∃ e' : Ewma, (Ewma.loadF A D).run x.r = .ok (A.rnd (e'.rtt * ((inFlight log).length + 1 : ℝ))) e' ∧
      0 ≤ e'.rtt ∧ e'.rtt ≤ x.r.rtt ∧ e'.rtt = A.rnd (x.r.rtt * A.exp (A.rnd (-A.nanos (e'.now - x.r.updateAt) / D))) ∧ e'.rtt ≤ A.rnd (e'.rtt * ((inFlight log).length + 1 : ℝ)) ∧
      e'.updateAt = e'.now ∧ x.r.now ≤ e'.now ∧ e'.count = x.r.count := by
  have h1 := h.ewmaOkF hA hD hd
  have h2 := h.liveOk.length
  have h3 := h1.count
  have hrun := loadF_run hA (D := D) h1.upd h1.fair.1 (by omega) (by omega)
  have hc : (x.r.count : ℝ) = (inFlight log).length + 1 := by
    rw [h3, h2]; push_cast; ring
  rw [hc] at hrun
  obtain ⟨h4, h5⟩ := decayedF_mem hA hD h1.fair.1 h1.f64 (x.r.now + x.r.lag 0 + x.r.lag 1)
  refine ⟨_, hrun, h4, h5, rfl, ?_, rfl, ?_, rfl⟩
  · have h6 : (x.r.afterRead A D).rtt ≤ (x.r.afterRead A D).rtt * ((inFlight log).length + 1 : ℝ) :=
      le_mul_of_one_le_right h4 (by linarith [Nat.cast_nonneg (α := ℝ) (inFlight log).length])
    have h7 : A.rnd (x.r.afterRead A D).rtt = (x.r.afterRead A D).rtt := hA.idem _
    rw [← h7]
    exact (hA.mono h6).trans (by rw [h7])
  · show x.r.now ≤ x.r.now + x.r.lag 0 + x.r.lag 1
    omega

/-- **C71.** When a call ends with a round trip time above the estimate, that becomes the estimate at once, with no error; otherwise the new estimate is between the two, but for the error of four roundings.
The end of a call never panics. -/
theorem C71_end (hA : IsF64 A) {D : ℝ} (hD : 0 < D) {d0 t : Nat} (hd : 1 ≤ d0) {lag : Nat → Nat} {x : LState (ewmaTrackerF A D) S} {log : List LoadEv}
    (h : LoadHist (ewmaTrackerF A D) C S (Ewma.newF A d0 t lag) x log) {n s : Nat} (hl : (n, s) ∈ x.live) :
    LoadEv.called n s ∈ log ∧ ∃ e' : Ewma, ((ewmaTrackerF A D).dropH s).run x.r = .ok () e' ∧ ∃ recv, x.r.now ≤ recv ∧ s ≤ recv ∧ recv ≤ e'.now ∧ e'.updateAt = e'.now ∧
      (x.r.rtt < A.nanos (recv - s) → e'.rtt = A.nanos (recv - s)) ∧
      (A.nanos (recv - s) ≤ x.r.rtt → A.nanos (recv - s) * (1 - 1 / 2 ^ 53) ^ 4 ≤ e'.rtt ∧ e'.rtt ≤ max 1 x.r.rtt * (1 + 1 / 2 ^ 53) ^ 4) := by
  have h1 := h.ewmaOkF hA hD hd
  obtain ⟨h2, h3⟩ := h1.sent _ hl
  simp only at h2
  refine ⟨h3, _, dropHF_run h2 h1.upd, x.r.now + x.r.lag 0, by omega, by omega, by simp only; omega, rfl, ?_, ?_⟩
  · intro hlt
    simp only [nextEstF, if_pos hlt]
  · intro hle
    have he := hA.nanos_nonneg (x.r.now + x.r.lag 0 + x.r.lag 1 - x.r.updateAt)
    refine ⟨?_, nextEstF_above hA hD he (hA.nanos_nonneg _) hle (le_max_right _ _) (le_max_left _ _)⟩
    rcases Nat.eq_zero_or_pos (x.r.now + x.r.lag 0 - s) with h0 | h0
    · rw [h0, hA.nanos_zero, zero_mul]
      exact nextEstF_nonneg hA hD he h1.fair.1 le_rfl
    · exact nextEstF_below hA hD he (hA.nanos_pos h0) hle

/-- Time passes, and the load is read, any number of times. -/
inductive ReadsF (A : FloatOps) (D : ℝ) : Ewma → Ewma → Prop
  | refl (e) : ReadsF A D e e
  | step {a b c} : ReadsF A D a b → (ewmaTrackerF A D).other b c → ReadsF A D a c

/-- **C71.** Between the ends of calls the estimate never rises and never gets below 0, however often it is read. With no error. -/
theorem C71_reads (hA : IsF64 A) {D : ℝ} (hD : 0 < D) {d0 t : Nat} (hd : 1 ≤ d0) {lag : Nat → Nat} {x : LState (ewmaTrackerF A D) S} {log : List LoadEv}
    (h : LoadHist (ewmaTrackerF A D) C S (Ewma.newF A d0 t lag) x log) {b : Ewma} (hb : ReadsF A D x.r b) : 0 ≤ b.rtt ∧ b.rtt ≤ x.r.rtt ∧ b.count = x.r.count := by
  have h1 := h.ewmaOkF hA hD hd
  have key : EwmaOkF A d0 b x.live log ∧ b.rtt ≤ x.r.rtt ∧ b.count = x.r.count := by
    induction hb with
    | refl => exact ⟨h1, le_rfl, rfl⟩
    | step _ hs ih =>
      obtain ⟨i1, i2, i3⟩ := ih
      refine ⟨(ewmaOkF_closed hA hD hd).other (c := 0) i1 hs, ?_⟩
      rcases hs with ⟨d, lag, rfl⟩ | ⟨c, hx⟩
      · exact ⟨i2, i3⟩
      · obtain rfl := loadF_ok hA i1.upd i1.fair.1 hx
        exact ⟨(decayedF_mem hA hD i1.fair.1 i1.f64 _).2.trans i2, i3⟩
  exact ⟨key.1.fair.1, key.2⟩

/-! ## Under a balancer -/

/-- as `FairEstimate`, with four roundings for each request that ended at the endpoint -/
def FairEstimateF (A : FloatOps) (defaultRtt : Nat) (t : Nat) (log : List (Nat × LoadEv)) (est : ℝ) : Prop :=
  0 ≤ est ∧ (est ≤ A.nanos defaultRtt * (1 + 1 / 2 ^ 53) ^ (4 * (finishedIds (atEndpoint t log)).length) ∨
    ∃ n t0 t1, (t, LoadEv.called n t0) ∈ log ∧ (t, LoadEv.finished n t1) ∈ log ∧ t0 ≤ t1 ∧ est ≤ A.nanos (t1 - t0) * (1 + 1 / 2 ^ 53) ^ (4 * (finishedIds (atEndpoint t log)).length))

section ewma
variable {K DErr BErr : Type} [DecidableEq K] {fuel : Nat}
variable {decayNs : ℝ} {d0 : Nat} {clock : Act W (Nat × (Nat → Nat))} {D : Discover W K S.σ DErr} {G : Rng} {V : Sched W} {fromErr : Err → BErr} {fromDisc : DErr → BErr}

theorem ewmaBalF_reads : (ewmaBalF A decayNs d0 clock C S D G V fromErr fromDisc : TBal W Req Res Err Res' K DErr BErr).Reads := by
  intro a c b h
  exact Or.inr ⟨_, h⟩

theorem ewmaF_closed (hA : IsF64 A) (hD : 0 < decayNs) (hd : 1 ≤ d0) : LoadClosed (ewmaTrackerF A decayNs) (fun (e : Ewma) l log c => LiveOk l log c ∧ EwmaOkF A d0 e l log) :=
  LoadClosed.and (liveOk_closed _) (ewmaOkF_closed hA hD hd)

theorem ewmaF_fresh (hA : IsF64 A) (e : Ewma) (h : (ewmaBalF A decayNs d0 clock C S D G V fromErr fromDisc : TBal W Req Res Err Res' K DErr BErr).Fresh e) :
    LiveOk ([] : List (Nat × Nat)) [] 0 ∧ EwmaOkF A d0 e [] [] := by
  obtain ⟨w, w', h⟩ := h
  obtain ⟨c, w1, h1, h2⟩ := run_bind_eq_ok.1 h
  cases h2
  exact ⟨liveOk_new, ewmaOkF_new hA _ _ _⟩

theorem ewmaF_read (hA : IsF64 A) (hD : 0 < decayNs) (hd : 1 ≤ d0) {x : TState (ewmaBalF A decayNs d0 clock C S D G V fromErr fromDisc : TBal W Req Res Err Res' K DErr BErr)} {log : List (Nat × LoadEv)}
    (h : TRun _ fuel x log) {cells' : List Ewma}
    (hx : CellsExt (ewmaBalF A decayNs d0 clock C S D G V fromErr fromDisc : TBal W Req Res Err Res' K DErr BErr) x.cells cells') {t : Nat} {e : Ewma} (hr : cells'[t]? = some e) (hf : inFlightAt t log + 1 < 2 ^ 32) :
    ∃ e' : Ewma, (Ewma.loadF A decayNs).run e = .ok (A.rnd (e'.rtt * (inFlightAt t log + 1 : ℝ))) e' ∧ FairEstimateF A d0 t log e'.rtt := by
  have hi := TRun.induct (ewmaF_closed hA hD hd) (ewmaF_fresh hA) ewmaBalF_reads h
  obtain ⟨h1, h2⟩ := hi.ext (ewmaF_closed hA hD hd) (ewmaF_fresh hA) hx t e hr
  have h3 : inFlightAt t log = (x.live t).length := h1.length.symm
  have h4 := h2.count
  change e.count = 1 + (x.live t).length at h4
  have hrun := loadF_run hA (D := decayNs) h2.upd h2.fair.1 (by omega) (by omega)
  have hc : (e.count : ℝ) = (inFlightAt t log : ℝ) + 1 := by rw [h4, h3]; push_cast; ring
  rw [hc] at hrun
  have h5 := (ewmaOkF_closed hA hD hd).other (c := callsAt t log) h2 (Or.inr ⟨_, hrun⟩)
  refine ⟨_, hrun, h5.fair.1, ?_⟩
  rcases h5.fair.2 with hb | ⟨n, t0, t1, b1, b2, b3, b4⟩
  · exact Or.inl hb
  · exact Or.inr ⟨n, t0, t1, mem_atEndpoint.1 b1, mem_atEndpoint.1 b2, b3, b4⟩

/-- **C71.** In every history of a balancer over `PeakEwma`, the load it reads for an endpoint it holds is an estimate of the round trip time of that endpoint, in line with what was observed there, times one more than the number of requests in flight there, rounded.
Nothing panics, and the estimates of the other endpoints do not change. -/
theorem C71_balancer_load (hA : IsF64 A) (hD : 0 < decayNs) (hd : 1 ≤ d0) {x : TState (ewmaBalF A decayNs d0 clock C S D G V fromErr fromDisc : TBal W Req Res Err Res' K DErr BErr)} {log : List (Nat × LoadEv)}
    (h : TRun _ fuel x log) {k : K} {t : Nat}
    {s : (ewmaBalF A decayNs d0 clock C S D G V fromErr fromDisc : TBal W Req Res Err Res' K DErr BErr).cfg.S.σ} (hv : x.bal.svcs.view.pend k = some (t, s) ∨ x.bal.svcs.view.rdy k = some (t, s)) (w : W)
    (hf : inFlightAt t log + 1 < 2 ^ 32) :
    ∃ est cells', ((ewmaBalF A decayNs d0 clock C S D G V fromErr fromDisc : TBal W Req Res Err Res' K DErr BErr).cfg.L.load s).run (x.cells, w) = .ok (A.rnd (est * (inFlightAt t log + 1 : ℝ))) (cells', w) ∧
      FairEstimateF A d0 t log est ∧ cells'.length = x.cells.length ∧ ∀ u, u ≠ t → cells'[u]? = x.cells[u]? := by
  obtain ⟨h1, h2⟩ := (C67_endpoints ewmaBalF_reads h).2 k t s hv
  subst h1
  have hr := List.getElem?_eq_getElem h2
  obtain ⟨e', h3, h4⟩ := ewmaF_read hA hD hd h (CellsSame.refl _ _).ext hr hf
  refine ⟨e'.rtt, x.cells.set s.2 e', atCell_eq_ok.2 ⟨_, _, hr, fst_eq_ok.2 ⟨h3, rfl⟩, rfl⟩, h4, by simp, fun u hu => ?_⟩
  rw [List.getElem?_set_ne (fun h => hu h.symm)]

/-- **C71.** With rounding, too: when `poll_ready` of a balancer over `PeakEwma` returns `Ready(Ok)`, the endpoint that the next `call` goes to was chosen before, or it is the only one ready, or two of those ready were drawn at random and it is the one of these for which the product of
estimate and (requests in flight + 1), rounded, is smaller, the first one drawn if these are equal. -/
theorem C71_balancer_choice (hA : IsF64 A) (hD : 0 < decayNs) (hd : 1 ≤ d0) {x : TState (ewmaBalF A decayNs d0 clock C S D G V fromErr fromDisc : TBal W Req Res Err Res' K DErr BErr)} {log : List (Nat × LoadEv)}
    (h : TRun _ fuel x log)
    (hf : ∀ t, inFlightAt t log + 1 < 2 ^ 32) {w w' : W} {b' : Balance (ewmaBalF A decayNs d0 clock C S D G V fromErr fromDisc : TBal W Req Res Err Res' K DErr BErr).cfg} {cells' : List Ewma}
    (hr : ((balance _ fuel).pollReady x.bal).run (x.cells, w) = .ok (.ready (.ok ()), b') (cells', w')) :
    ∃ i, b'.idx = some i ∧ (x.bal.idx = some i ∨ b'.svcs.ready.length = 1 ∨
      ∃ g g' a b ta tb ea eb, sampleFloyd2 G g b'.svcs.ready.length = some ((a, b), g') ∧ a ≠ b ∧ readyNo b' a = some ta ∧ readyNo b' b = some tb ∧ FairEstimateF A d0 ta log ea ∧ FairEstimateF A d0 tb log eb ∧
        (A.rnd (ea * (inFlightAt ta log + 1)) ≤ A.rnd (eb * (inFlightAt tb log + 1)) → i = a) ∧ (A.rnd (eb * (inFlightAt tb log + 1)) < A.rnd (ea * (inFlightAt ta log + 1)) → i = b)) := by
  obtain ⟨i, h1, h2⟩ := choice_aux ewmaBalF_reads h hr
  refine ⟨i, h1, ?_⟩
  rcases h2 with h2 | h2 | ⟨g, g', a, b, ta, tb, la, lb, c1, c2, ra, ra', rb, rb', y1, y2, y3, y4, y5, y6, y7, y8, y9, y10, y11⟩
  · exact Or.inl h2
  · exact Or.inr (Or.inl h2)
  · obtain ⟨ea, e1, f1⟩ := ewmaF_read hA hD hd h y5 y7 (hf ta)
    obtain ⟨eb, e2, f2⟩ := ewmaF_read hA hD hd h y6 y9 (hf tb)
    rw [show (Ewma.loadF A decayNs).run ra = _ from y8] at e1
    rw [show (Ewma.loadF A decayNs).run rb = _ from y10] at e2
    simp only [Out.ok.injEq] at e1 e2
    refine Or.inr (Or.inr ⟨g, g', a, b, ta, tb, ea.rtt, eb.rtt, y1, y2, y3, y4, f1, f2, ?_, ?_⟩)
    · intro hle
      rw [← e1.1, ← e2.1] at hle
      rw [y11, if_pos]
      exact decide_eq_true hle
    · intro hlt
      rw [← e1.1, ← e2.1] at hlt
      rw [y11, if_neg]
      intro hc
      exact absurd (of_decide_eq_true hc) (not_le.2 hlt)

end ewma

/-! ## The idealisation of C38 -/

/-- **C71.** With exact arithmetic this is the model of C38 and C67: the same code. -/
theorem C71_ideal (D : ℝ) : ewmaTrackerF exactOps D = ewmaTracker D ∧ Ewma.loadF exactOps D = Ewma.load D ∧ Ewma.newF exactOps = Ewma.new :=
  ⟨rfl, rfl, rfl⟩

/-- exact arithmetic meets the assumptions -/
theorem isF64_exact : IsF64 exactOps where
  rounds := {
    mono := fun h => h
    idem := fun _ => rfl
    int := fun _ _ => rfl
    above := fun x h => by
      show x ≤ x * (1 + f64U) + f64Eta
      nlinarith [f64U_pos, f64Eta_pos]
    below := fun x h => by
      show x * (1 - f64U) - f64Eta ≤ x
      nlinarith [f64U_pos, f64Eta_pos] }
  exp_mem x h := ⟨(Real.exp_pos x).le, Real.exp_le_one_iff.2 h⟩
  exp_f64 _ := rfl

/-! ## Concrete cases -/

namespace FloatDemo
open LoadDemo

/-- IEEE 754 double precision -/
noncomputable abbrev dbl : FloatOps := ieee roundEven
theorem dbl_ok : IsF64 dbl := C71_ieee C71_ties_even

/-- default 50 ns, decay 100 ns: a call at time 10 that ends at time 110. The estimate jumps to 100. -/
theorem hist : ∃ x : LState (ewmaTrackerF dbl 100) svc, LoadHist (ewmaTrackerF dbl 100) comp svc (Ewma.newF dbl 50 0 (fun _ => 10)) x [.called 0 10, .finished 0 110] ∧ x.r.rtt = 100 := by
  have h0 := LoadHist.new (T := ewmaTrackerF dbl 100) (C := comp) (S := svc) (r0 := Ewma.newF dbl 50 0 (fun _ => 10)) ()
  have h1 := LoadHist.call (q := (3 : Nat)) (w := ()) (f := ((3 : Nat), some (10 : Nat))) (s' := ()) (r' := { Ewma.newF dbl 50 0 (fun _ => 10) with count := 2, now := 10 }) (w' := ()) h0 rfl
  have h2 := LoadHist.other (r' := { Ewma.newF dbl 50 0 (fun _ => 10) with count := 2, now := 100 }) h1 (Or.inl ⟨90, fun _ => 10, rfl⟩)
  have h3 := LoadHist.drop_future (l := []) h2 rfl (dropHF_run (s := 10) (by decide) (by decide))
  refine ⟨_, h3, ?_⟩
  have e1 : dbl.nanos (100 + 10 - 10) = 100 := by rw [C71_exact dbl_ok (by norm_num)]; norm_num
  have e2 : (Ewma.newF dbl 50 0 (fun _ => 10)).rtt < 100 := by show dbl.nanos 50 < 100; rw [C71_exact dbl_ok (by norm_num)]; norm_num
  show nextEstF dbl 100 _ (dbl.nanos (100 + 10 - 10)) _ = 100
  rw [e1]
  simp [nextEstF, e2]

/-- the load can be read in that state, and is between 0 and 100 -/
example : ∃ (x : LState (ewmaTrackerF dbl 100) svc) (e' : Ewma) (l : ℝ), (Ewma.loadF dbl 100).run x.r = .ok l e' ∧ e'.rtt ≤ 100 ∧ e'.rtt ≤ l := by
  obtain ⟨x, h, hr⟩ := hist
  obtain ⟨e', h1, h2, h3, _, h5, _⟩ := C71_load dbl_ok (by norm_num) (by norm_num) h (by decide)
  exact ⟨x, e', _, h1, hr ▸ h3, h5⟩

end FloatDemo

end Tower
