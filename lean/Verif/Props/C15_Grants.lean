import Verif.Props.C16_Conc

/-! # C15: retries the budget must grant; C16: deposits in concurrent use; what saturation does -/

set_option linter.unusedSimpArgs false

namespace Tower

/-! ## A lower bound -/

/-- lower bound of what counts: deposits younger than five windows minus withdrawals younger than eleven -/
def lowBound (w t : Nat) (x : Nat × Int) : Int :=
  (if t < x.1 + 5 * w then max x.2 0 else 0) - (if t < x.1 + 11 * w then max (-x.2) 0 else 0)

theorem lowBound_val (w t : Nat) (e : LedgerEntry) : lowBound w t e.val =
    (if t < e.time + 5 * w then max e.amount 0 else 0) - (if t < e.time + 11 * w then max (-e.amount) 0 else 0) := rfl

theorem counted_ge (w t : Nat) (c : LedgerEntry → Bool) : ∀ (es : List LedgerEntry),
    (∀ e ∈ es, t < e.time + 5 * w → c e = true) → (∀ e ∈ es, e.time + 11 * w ≤ t → c e = false) →
    ((es.map LedgerEntry.val).map (lowBound w t)).sum ≤ ((es.filter c).map LedgerEntry.amount).sum := by
  intro es
  induction es with
  | nil => intros; simp
  | cons e es ih =>
    intro h1 h2
    have h3 := ih (fun e' h' => h1 e' (by simp [h'])) (fun e' h' => h2 e' (by simp [h']))
    have h4 := h1 e (by simp)
    have h5 := h2 e (by simp)
    simp only [List.map_cons, List.sum_cons]
    by_cases hc : c e = true
    · rw [List.filter_cons_of_pos hc, List.map_cons, List.sum_cons]
      have h6 : t < e.time + 11 * w := by
        by_contra hn
        rw [h5 (by omega)] at hc; cases hc
      have : lowBound w t e.val ≤ e.amount := by
        rw [lowBound_val, if_pos h6]
        split <;> omega
      omega
    · rw [List.filter_cons_of_neg hc]
      have h6 : ¬ (t < e.time + 5 * w) := fun h => hc (h4 h)
      have : lowBound w t e.val ≤ 0 := by
        rw [lowBound_val, if_neg h6]
        split <;> omega
      omega

theorem lowBound_hist (w t : Nat) {dep wd : Int} (hd : 0 ≤ dep) (hw : 0 ≤ wd) : ∀ (hist : List (BudgetOp × Bool)),
    ((hist.flatMap (entryOf dep wd)).map (lowBound w t)).sum =
      dep * (hist.countP (isDeposit fun τ => decide (t < τ + 5 * w)) : Nat) -
      wd * (hist.countP (isGrant fun τ => decide (t < τ + 11 * w)) : Nat) := by
  intro hist
  induction hist with
  | nil => simp
  | cons x hist ih =>
    simp only [List.flatMap_cons, List.map_append, List.sum_append, ih, List.countP_cons]
    rcases x with ⟨τ | τ, b⟩
    · have h0 : max dep 0 = dep := by omega
      have h1 : max (-dep) 0 = 0 := by omega
      by_cases h : t < τ + 5 * w <;> simp [entryOf, lowBound, isDeposit, isGrant, h, h0, h1]
      ring
    · have h0 : max wd 0 = wd := by omega
      have h1 : max (-wd) 0 = 0 := by omega
      cases b
      · simp [entryOf, isDeposit, isGrant]
      · by_cases h : t < τ + 11 * w <;> simp [entryOf, lowBound, isDeposit, isGrant, h, h0, h1]
        ring

theorem Tps.run_snoc (t : Nat) : ∀ (os : List BudgetOp) (s : Tps), (Tps.run (os ++ [.withdraw t]) s).1 = (Tps.run os s).1 ++ [((Tps.run os s).2.withdraw t).1] := by
  intro os
  induction os with
  | nil => intro s; simp [Tps.run, Tps.op]
  | cons o os ih => intro s; simp [Tps.run, ih]

theorem Ledger.run_snoc (w : Nat) (r d a : Int) (t : Nat) : ∀ (os : List BudgetOp) (L : Ledger),
    (Ledger.run w r d a (os ++ [.withdraw t]) L).1 = (Ledger.run w r d a os L).1 ++ [((Ledger.run w r d a os L).2.op w r d a (.withdraw t)).1] := by
  intro os
  induction os with
  | nil => intro s; simp [Ledger.run]
  | cons o os ih => intro s; simp [Ledger.run, ih]

/-- a withdrawal is granted when the reserve and the deposits of the last five windows pay for it and for those granted in the last eleven -/
theorem grants_amounts {ttl mps : Nat} {pc : Percent} {t0 : Nat} {s : Tps} (h : Tps.new ttl mps pc t0 = some s) (os : List BudgetOp) (t : Nat)
    (hmono : (t0 :: os.map BudgetOp.now ++ [t]).Pairwise (· ≤ ·))
    (hfit : (os.length + 1) * max s.depositAmount s.withdrawAmount + s.reserve ≤ isizeMax)
    (henough : s.withdrawAmount * ((os.zip (Tps.run os s).1).countP (isGrant fun τ => decide (t < τ + 11 * s.window)) + 1 : Nat) ≤
      s.reserve + s.depositAmount * ((os.zip (Tps.run os s).1).countP (isDeposit fun τ => decide (t < τ + 5 * s.window)) : Nat)) :
    ((Tps.run os s).2.withdraw t).1 = true := by
  obtain ⟨h1, h2, h3, h4, h5⟩ := Tps.new_rel h
  have hM : 0 ≤ max s.depositAmount s.withdrawAmount := by omega
  have eM : ((os.length : Int) + 1) * max s.depositAmount s.withdrawAmount =
    os.length * max s.depositAmount s.withdrawAmount + max s.depositAmount s.withdrawAmount := by ring
  rw [eM] at hfit
  obtain ⟨i1, -⟩ := C13_ledger h os (by omega)
  obtain ⟨j1, -⟩ := C13_ledger h (os ++ [.withdraw t]) (by
    simp only [List.length_append, List.length_singleton]; push_cast; rw [eM]; omega)
  rw [Tps.run_snoc, Ledger.run_snoc, i1] at j1
  have j2 := List.append_inj_right' j1 rfl
  simp only [List.cons.injEq, and_true] at j2
  rw [j2]
  have hw := h1.wpos
  rw [i1] at henough
  generalize hL : (Ledger.run s.window s.reserve s.depositAmount s.withdrawAmount os (Ledger.new t0)) = RL at henough ⊢
  have hok : LedgerOk s.window (RL.2.advance s.window t) t := by
    rw [← hL]; exact (LedgerOk.run hw os (Ledger.new_ok s.window t0) hmono).advance hw (Nat.le_refl _)
  have hc := counted_ge s.window t (fun e => (RL.2.advance s.window t).counts e.pos) (RL.2.advance s.window t).entries
    (fun e he => hok.young hw he) (fun e he => hok.old hw (Ledger.advance_recent _ hw _ _) he)
  rw [Ledger.advance_entries, ← hL, Ledger.run_entries, hL] at hc
  simp only [Ledger.new, List.map_nil, List.nil_append] at hc
  rw [lowBound_hist _ _ h4 h5] at hc
  have hbal : (RL.2.advance s.window t).balance s.reserve ≥ s.withdrawAmount := by
    unfold Ledger.balance
    rw [Ledger.advance_entries]
    push_cast at henough
    rw [Int.mul_add] at henough
    omega
  simp only [Ledger.op, if_pos hbal]

theorem satMul_exact {x y : Int} (hx : 0 ≤ x) (hy : 0 ≤ y) (h : x * y ≤ isizeMax) : satMul x y = x * y := by
  have := Int.mul_nonneg hx hy
  unfold satMul isizeMin isizeMax at *; omega

/-- the reserve, if it does not saturate -/
theorem Tps.new_reserve {ttl mps : Nat} {pc : Percent} {t0 : Nat} {s : Tps} (h : Tps.new ttl mps pc t0 = some s)
    (hfit : mps * (ttl / 1000000000 : Nat) * s.withdrawAmount ≤ isizeMax) : s.reserve = mps * (ttl / 1000000000 : Nat) * s.withdrawAmount := by
  unfold Tps.new at h
  split at h
  · rename_i hc
    split at h
    · cases h
    · rename_i d w heq
      cases h
      dsimp only at hfit ⊢
      have e1 : (mps : Int) * (ttl / 1000000000 : Nat) ≤ isizeMax := by
        have h1 : ttl / 1000000000 ≤ 60 := by omega
        have h2 : mps * (ttl / 1000000000) ≤ 2147483647 * 60 := Nat.mul_le_mul (by omega) h1
        have : (mps : Int) * (ttl / 1000000000 : Nat) ≤ 2147483647 * 60 := by exact_mod_cast h2
        unfold isizeMax; omega
      have e2 : satMul (mps : Int) (ttl / 1000000000 : Nat) = mps * (ttl / 1000000000 : Nat) := satMul_exact (by omega) (by omega) e1
      have e3 : (10 : Nat) ^ 9 = 1000000000 := rfl
      rw [e3, e2]
      exact satMul_exact (Int.mul_nonneg (by omega) (by omega)) (by omega) hfit
  · cases h

/-- **C15, what must be granted.** With `retry_percent = a/b`: a retry at time `t` is granted whenever it and those granted during the last 1.1 `ttl` are no more than `min_per_sec` per second of `ttl` plus
`a/b` times the requests of the last half of `ttl`. In particular the first `min_per_sec · ttl` retries are always granted. Side condition: no overflow of `isize`. -/
theorem C15_grants {ttl mps : Nat} {pc : Percent} {t0 : Nat} {s : Tps} (h : Tps.new ttl mps pc t0 = some s) {a b : Nat} (hp : pc.Is a b) (os : List BudgetOp) (t : Nat)
    (hmono : (t0 :: os.map BudgetOp.now ++ [t]).Pairwise (· ≤ ·))
    (hfit : (os.length + 1) * max s.depositAmount s.withdrawAmount + mps * (ttl / 1000000000 : Nat) * s.withdrawAmount ≤ isizeMax)
    (henough : b * ((os.zip (Tps.run os s).1).countP (isGrant fun τ => decide (t < τ + 11 * (ttl / 10))) + 1) ≤
      b * (mps * (ttl / 1000000000)) + a * (os.zip (Tps.run os s).1).countP (isDeposit fun τ => decide (t < τ + 5 * (ttl / 10)))) :
    ((Tps.run os s).2.withdraw t).1 = true := by
  obtain ⟨h1, _, d, w, h3, h4, h5⟩ := Tps.new_fields h
  have hM : 0 ≤ ((os.length : Int) + 1) * max s.depositAmount s.withdrawAmount := Int.mul_nonneg (by omega) (by omega)
  have hr := Tps.new_reserve h (by omega)
  refine grants_amounts h os t hmono (by omega) ?_
  rw [h1, hr]
  generalize (os.zip (Tps.run os s).1).countP (isGrant fun τ => decide (t < τ + 11 * (ttl / 10))) + 1 = R at henough ⊢
  generalize (os.zip (Tps.run os s).1).countP (isDeposit fun τ => decide (t < τ + 5 * (ttl / 10))) = D at henough ⊢
  rw [h4, h5]
  have fin : 0 < b → a * w ≤ b * d → w * R ≤ mps * (ttl / 1000000000) * w + d * D := by
    intro hb hk
    have e1 : b * (w * R) ≤ b * (mps * (ttl / 1000000000) * w + d * D) := by
      calc b * (w * R) = w * (b * R) := by ring
        _ ≤ w * (b * (mps * (ttl / 1000000000)) + a * D) := Nat.mul_le_mul_left _ henough
        _ = b * (mps * (ttl / 1000000000) * w) + a * w * D := by ring
        _ ≤ b * (mps * (ttl / 1000000000) * w) + b * d * D := Nat.add_le_add_left (Nat.mul_le_mul_right _ hk) _
        _ = b * (mps * (ttl / 1000000000) * w + d * D) := by ring
    exact Nat.le_of_mul_le_mul_left e1 hb
  have key : w * R ≤ mps * (ttl / 1000000000) * w + d * D := by
    cases pc with
    | zero => cases h3; obtain ⟨rfl, hb⟩ := hp; exact fin hb (by simp)
    | upToOne q =>
      cases h3
      obtain ⟨h6, h7, rfl⟩ := hp
      exact fin (by omega) (by have := Nat.mul_div_le b a; omega)
    | aboveOne q =>
      cases h3
      obtain ⟨h6, h7, rfl⟩ := hp
      exact fin (by omega) (by have := Nat.mul_div_le (1000 * b) a; omega)
    | outside => cases h3
  exact_mod_cast key

/-- **C15, saturation.** With a percentage so small that the cost of a retry saturates (`1 / retry_percent ≥ isize::MAX`), the reserve saturates too and is worth one retry, whatever `min_per_sec ≥ 1` and `ttl` are:
of two withdrawals at the same moment, the first is granted and the second is not. -/
theorem C15_tiny_percent {ttl mps t0 : Nat} (hm : 1 ≤ mps) {s : Tps} (h : Tps.new ttl mps (.upToOne (2 ^ 63 - 1)) t0 = some s) {t : Nat} (ht : t < t0 + ttl / 10) :
    (Tps.run [.withdraw t, .withdraw t] s).1 = [true, false] := by
  unfold Tps.new at h
  split at h
  · rename_i hc
    cases h
    have e1 : satMul (satMul (mps : Int) (ttl / 10 ^ 9 : Nat)) (2 ^ 63 - 1 : Nat) = 2 ^ 63 - 1 := by
      have h1 : 1 ≤ ttl / 10 ^ 9 := by omega
      have h2 : 1 * 1 ≤ mps * (ttl / 10 ^ 9) := Nat.mul_le_mul hm h1
      have h3 : (1 : Int) ≤ mps * (ttl / 10 ^ 9 : Nat) := by exact_mod_cast h2
      have h4 : (1 : Int) ≤ satMul (mps : Int) (ttl / 10 ^ 9 : Nat) := by unfold satMul isizeMin isizeMax; omega
      have h5 : (2 ^ 63 - 1 : Int) ≤ satMul (mps : Int) (ttl / 10 ^ 9 : Nat) * (2 ^ 63 - 1 : Nat) := by
        have := Int.mul_le_mul_of_nonneg_right h4 (show (0 : Int) ≤ (2 ^ 63 - 1 : Nat) by omega)
        have e : ((2 ^ 63 - 1 : Nat) : Int) = 2 ^ 63 - 1 := rfl
        omega
      generalize satMul (mps : Int) (ttl / 10 ^ 9 : Nat) * (2 ^ 63 - 1 : Nat) = z at h5
      unfold satMul isizeMin isizeMax
      generalize hz : (max (-2 ^ 63) (min (2 ^ 63 - 1) ((mps : Int) * (ttl / 10 ^ 9 : Nat)))) * ((2 ^ 63 - 1 : Nat) : Int) = z'
      have : (2 ^ 63 - 1 : Int) ≤ z' := by
        rw [← hz]
        have := Int.mul_le_mul_of_nonneg_right h4 (show (0 : Int) ≤ (2 ^ 63 - 1 : Nat) by omega)
        unfold satMul isizeMin isizeMax at this
        have e : ((2 ^ 63 - 1 : Nat) : Int) = 2 ^ 63 - 1 := rfl
        omega
      omega
    have hd : t - t0 < ttl / 10 := by omega
    have hs0 : (List.replicate 10 (0 : Int)).foldl satAdd 0 = 0 := by decide
    have ew : wrapAdd 0 (-((2 ^ 63 - 1 : Nat) : Int)) = -(2 ^ 63 - 1) := by decide
    have key : ∀ wr : Int, (⟨0, t0, 2 ^ 63 - 1, List.replicate 10 0, ttl / 10, wr, (1 : Nat), (2 ^ 63 - 1 : Nat)⟩ : Tps).withdraw t =
        if satAdd (satAdd wr 0) (2 ^ 63 - 1) ≥ ((2 ^ 63 - 1 : Nat) : Int) then
          (true, ⟨0, t0, 2 ^ 63 - 1, List.replicate 10 0, ttl / 10, wrapAdd wr (-((2 ^ 63 - 1 : Nat) : Int)), (1 : Nat), (2 ^ 63 - 1 : Nat)⟩)
        else (false, ⟨0, t0, 2 ^ 63 - 1, List.replicate 10 0, ttl / 10, wr, (1 : Nat), (2 ^ 63 - 1 : Nat)⟩) := by
      intro wr
      unfold Tps.withdraw Tps.expire
      dsimp only
      rw [if_pos hd]
      unfold Tps.sum
      dsimp only
      rw [hs0]
    have e2 : satAdd (satAdd 0 0) (2 ^ 63 - 1) ≥ ((2 ^ 63 - 1 : Nat) : Int) := by decide
    have e4 : ¬ satAdd (satAdd (-(2 ^ 63 - 1)) 0) (2 ^ 63 - 1) ≥ ((2 ^ 63 - 1 : Nat) : Int) := by decide
    rw [e1]
    simp only [Tps.run, Tps.op]
    rw [key, if_pos e2]
    dsimp only
    rw [key, ew, if_neg e4]
  · cases h

/-- deposits at one moment of the first window -/
theorem deposits_at_once {s : Tps} {t : Nat} (hd : t - s.time < s.window) : ∀ (n : Nat) (wr : Int), wr = wr.bmod (2 ^ 64) →
    (Tps.run (List.replicate n (.deposit t)) { s with writer := wr }).2 = { s with writer := (wr + n * s.depositAmount).bmod (2 ^ 64) } := by
  intro n
  induction n with
  | zero => intro wr h; simp only [List.replicate_zero, Tps.run, Int.natCast_zero, Int.zero_mul, Int.add_zero]; rw [← h]
  | succ n ih =>
    intro wr h
    have e1 : ({ s with writer := wr } : Tps).deposit t = { s with writer := (wr + s.depositAmount).bmod (2 ^ 64) } := by
      unfold Tps.deposit Tps.expire
      dsimp only
      rw [if_pos hd]
      rfl
    simp only [List.replicate_succ, Tps.run, Tps.op, e1]
    rw [ih _ (by simp)]
    congr 1
    rw [Int.bmod_add_bmod]
    congr 1
    push_cast
    ring

/-- **C13, the side condition is needed.** `fetch_add` wraps around: with `retry_percent` above 1, so many deposits in one window that they exceed an `isize` (about 9.2 · 10¹⁵) make the balance negative, and a withdrawal is refused. -/
theorem C13_wraps : ∃ s, Tps.new (10 ^ 9) 0 (.aboveOne 500) 0 = some s ∧ ∃ n : Nat, n = 9223372036854776 ∧
    ((Tps.run (List.replicate n (.deposit 0)) s).2.withdraw 0).1 = false ∧ ((Tps.run (List.replicate (n - 1) (.deposit 0)) s).2.withdraw 0).1 = true := by
  refine ⟨⟨0, 0, 0, List.replicate 10 0, 10 ^ 8, 0, 1000, 500⟩, rfl, 9223372036854776, rfl, ?_, ?_⟩
  · rw [deposits_at_once (s := ⟨0, 0, 0, List.replicate 10 0, 10 ^ 8, 0, 1000, 500⟩) (by decide) _ 0 (by decide)]
    decide +kernel
  · rw [deposits_at_once (s := ⟨0, 0, 0, List.replicate 10 0, 10 ^ 8, 0, 1000, 500⟩) (by decide) _ 0 (by decide)]
    decide +kernel

/-! ## Deposits in concurrent use -/

variable {reserve w d : Int}

/-- **C16.** The sequential `deposit` is a run of one thread: its `expire`, and then one atomic addition. -/
theorem C16_deposit_alone (s : Tps) (now : Nat) (hwr : wrapAdd (s.expire now).writer s.depositAmount = (s.expire now).writer + s.depositAmount) :
    TpsSteps reserve w s.depositAmount (s.conc .idle) (decide (s.window ≤ now - s.time)) ((s.deposit now).conc .expired) := by
  have h1 := C16_expire_alone (reserve := reserve) (w := w) (d := s.depositAmount) s now
  have hd : (s.expire now).depositAmount = s.depositAmount := by unfold Tps.expire; dsimp only; split <;> rfl
  have e : (s.deposit now).conc .expired = { (s.expire now).conc .expired with writer := (s.expire now).writer + s.depositAmount } := by
    unfold Tps.deposit Tps.conc; dsimp only; rw [hd, hwr]
  rw [e]
  have h2 := h1.step .deposit
  rw [Bool.or_false] at h2
  exact h2

/-- one step of the budget; how many deposits and granted withdrawals it completes -/
inductive TpsCount (reserve w d : Int) : TpsConc → Nat → Nat → TpsConc → Prop
  | refl (s : TpsConc) : TpsCount reserve w d s 0 0 s
  | deposit {s s' : TpsConc} {n m : Nat} : TpsCount reserve w d s n m s' → TpsCount reserve w d s (n + 1) m { s' with writer := s'.writer + d }
  | take {s s' : TpsConc} {n m i : Nat} : TpsCount reserve w d s n m s' → s'.threads[i]? = some .granted →
      TpsCount reserve w d s n (m + 1) { s' with writer := s'.writer - w, threads := s'.threads.set i .idle }
  | other {s s' s'' : TpsConc} {n m : Nat} : TpsCount reserve w d s n m s' → TpsStep reserve w d s' false s'' → s''.writer = s'.writer → TpsCount reserve w d s n m s''

/-- **C16, no update is lost.** As long as no slot expires, after any interleaving of deposits and withdrawals of many threads the balance is what it was plus the deposits made minus the withdrawals granted. -/
theorem C16_conserved {s s' : TpsConc} {n m : Nat} (h : TpsCount reserve w d s n m s') : s'.balance reserve = s.balance reserve + n * d - m * w := by
  induction h with
  | refl => simp
  | deposit _ ih =>
    simp only [TpsConc.balance] at ih ⊢; push_cast; rw [Int.add_mul]; omega
  | take _ _ ih =>
    simp only [TpsConc.balance] at ih ⊢; push_cast; rw [Int.add_mul]; omega
  | other _ hs hw ih =>
    rw [← ih]
    cases hs <;> simp only [TpsConc.balance] at hw ⊢ <;> omega

/-- every interleaving without expiry is counted -/
theorem TpsSteps.count {s s' : TpsConc} {e : Bool} (h : TpsSteps reserve w d s e s') (he : e = false) : ∃ n m, TpsCount reserve w d s n m s' := by
  induction h with
  | refl => exact ⟨0, 0, .refl _⟩
  | step _ hs ih =>
    simp only [Bool.or_eq_false_iff] at he
    obtain ⟨he1, he2⟩ := he
    obtain ⟨n, m, h⟩ := ih he1
    subst he2
    cases hs with
    | take g => exact ⟨n, m + 1, h.take g⟩
    | deposit => exact ⟨n + 1, m, h.deposit⟩
    | enter g1 g2 => exact ⟨n, m, h.other (.enter g1 g2) rfl⟩
    | loadWriter g => exact ⟨n, m, h.other (.loadWriter g) rfl⟩
    | loadSlot g1 g2 => exact ⟨n, m, h.other (.loadSlot g1 g2) rfl⟩
    | grant g1 g2 => exact ⟨n, m, h.other (.grant g1 g2) rfl⟩
    | deny g1 g2 => exact ⟨n, m, h.other (.deny g1 g2) rfl⟩

/-! ## Examples -/

/-- the hypotheses of `C15_grants`: 2 retries per second, ten percent; after ten deposits and two grants the third is granted, and the fourth is not -/
example : ∃ s, Tps.new (10 ^ 9) 2 (.upToOne 10) 0 = some s ∧ (Percent.upToOne 10).Is 1 10 ∧
    (Tps.run (List.replicate 10 (.deposit 1) ++ [.withdraw 2, .withdraw 2, .withdraw 3, .withdraw 3]) s).1 = List.replicate 13 true ++ [false] ∧
    ((12 : Int) + 1) * max s.depositAmount s.withdrawAmount + 2 * (10 ^ 9 / 1000000000 : Nat) * s.withdrawAmount ≤ isizeMax ∧
    10 * (((List.replicate 10 (.deposit 1) ++ [.withdraw 2, .withdraw 2] : List BudgetOp).zip (Tps.run (List.replicate 10 (.deposit 1) ++ [.withdraw 2, .withdraw 2]) s).1).countP (isGrant fun τ => decide (3 < τ + 11 * (10 ^ 9 / 10))) + 1) ≤
      10 * (2 * (10 ^ 9 / 1000000000)) + 1 * ((List.replicate 10 (.deposit 1) ++ [.withdraw 2, .withdraw 2] : List BudgetOp).zip (Tps.run (List.replicate 10 (.deposit 1) ++ [.withdraw 2, .withdraw 2]) s).1).countP (isDeposit fun τ => decide (3 < τ + 5 * (10 ^ 9 / 10))) :=
  ⟨_, rfl, by simp [Percent.Is], by decide +kernel, by decide +kernel, by decide +kernel⟩

/-- the hypothesis of `C15_tiny_percent`: ten retries per second asked for -/
example : ∃ s, Tps.new (10 ^ 10) 10 (.upToOne (2 ^ 63 - 1)) 0 = some s ∧ 5 < 0 + 10 ^ 10 / 10 := ⟨_, rfl, by decide⟩

/-- the hypothesis of `C16_deposit_alone` -/
example : ∃ s, Tps.new (10 ^ 9) 0 (.upToOne 1) 0 = some s ∧ wrapAdd (s.expire 500000000).writer s.depositAmount = (s.expire 500000000).writer + s.depositAmount := ⟨_, rfl, by decide +kernel⟩

/-- an interleaving for `C16_conserved`: a deposit between the check and the subtraction of a withdrawal -/
example : ∃ s', TpsCount 1 1 1 ⟨0, [0], 0, false, [.idle, .idle]⟩ 1 1 s' ∧ s'.balance 1 = 1 := by
  have h1 : TpsCount 1 1 1 ⟨0, [0], 0, false, [.idle, .idle]⟩ 0 0 ⟨0, [0], 0, false, [.expired, .idle]⟩ := (TpsCount.refl _).other (.enter (i := 0) rfl rfl) rfl
  have h2 := h1.other (.loadWriter (i := 0) rfl) rfl
  have h3 := h2.other (.loadSlot (i := 0) (j := 0) rfl rfl) rfl
  have h4 := h3.other (.grant (i := 0) rfl (by decide)) rfl
  have h5 := h4.deposit.take (i := 0) rfl
  exact ⟨_, h5, rfl⟩

end Tower
