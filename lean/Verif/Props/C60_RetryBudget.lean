import Verif.Model.RetryBudget
import Verif.Props.C13_Budget
import Verif.Proof.Load1

/-!
# C60: retries under a budget

The documented budget policy (`Model/RetryBudget.lean`) in a `Retry` of which there may be any number of clones with any number of requests in flight, all sharing one `TpsBudget`.
-/

set_option linter.unusedSimpArgs false

namespace Tower
open Act
variable {W Req Res Err : Type}

/-! ## Specification -/

section
variable (fuel : Nat) (now : W → Nat) (S : Service W Req Res Err)

/-- Histories: `BudHist n hs fs w` - `n` requests have been made, `hs` are the handles, `fs` the response futures that are neither finished nor dropped, `w` is the world. Between
any two operations the rest of the world may change arbitrarily; only `Retry` uses the budget. -/
inductive BudHist (tps0 : Tps) : Nat → List (budgetedRetry fuel now S).σ → List (budgetedRetry fuel now S).φ → BudW × W → Prop
  | start (s : S.σ) (w : W) : BudHist tps0 0 [⟨(), s⟩] [] (⟨tps0, [], []⟩, w)
  | env {n hs fs b w} (w' : W) : BudHist tps0 n hs fs (b, w) → BudHist tps0 n hs fs (b, w')
  | clone {n hs fs w h} : BudHist tps0 n hs fs w → h ∈ hs → BudHist tps0 n (hs ++ [(budgetedRetry fuel now S).clone h]) fs w
  | ready {n hs fs w w' i h p h'} : BudHist tps0 n hs fs w → hs[i]? = some h → ((budgetedRetry fuel now S).pollReady h).run w = .ok (p, h') w' →
      BudHist tps0 n (hs.set i h') fs w'
  | call {n hs fs w w' i h r f h'} : BudHist tps0 n hs fs w → hs[i]? = some h → ((budgetedRetry fuel now S).call h r).run w = .ok (f, h') w' →
      BudHist tps0 (n + 1) (hs.set i h') (fs ++ [f]) w'
  | pending {n hs fs w w' j f f'} : BudHist tps0 n hs fs w → fs[j]? = some f → ((budgetedRetry fuel now S).poll f).run w = .ok (.pending, f') w' →
      BudHist tps0 n hs (fs.set j f') w'
  | done {n hs fs w w' j f f' res} : BudHist tps0 n hs fs w → fs[j]? = some f → ((budgetedRetry fuel now S).poll f).run w = .ok (.ready res, f') w' →
      BudHist tps0 n hs (fs.eraseIdx j) w'
  | drop {n hs fs w} (j : Nat) : BudHist tps0 n hs fs w → BudHist tps0 n hs (fs.eraseIdx j) w
end

def InnerEv.isCall : InnerEv → Bool
  | .called _ => true
  | _ => false

/-- when a success took place -/
def InnerEv.okTime : InnerEv → Option Nat
  | .ok t => some t
  | _ => none

/-- when a failure took place -/
def InnerEv.errTime : InnerEv → Option Nat
  | .err t => some t
  | _ => none

/-- a retry that was allowed -/
def isRetry : BudgetOp × Bool → Bool
  | (.withdraw _, b) => b
  | _ => false

def depositTime : BudgetOp × Bool → Option Nat
  | (.deposit t, _) => some t
  | _ => none

def withdrawTime : BudgetOp × Bool → Option Nat
  | (.withdraw t, _) => some t
  | _ => none

/-! ## Invariant -/

/-- a future that has been allowed a retry that it has not made yet -/
def RetryFut.holds {Req P S F R : Type} (x : RetryFut Req P S F R) : Nat :=
  match x.st with
  | .called _ => 0
  | _ => 1

structure BudInv (tps0 : Tps) (N k : Nat) (b : BudW) : Prop where
  run : Tps.run (b.log.map Prod.fst) tps0 = (b.log.map Prod.snd, b.tps)
  ok : b.log.filterMap depositTime = b.inner.filterMap InnerEv.okTime
  err : b.log.filterMap withdrawTime = b.inner.filterMap InnerEv.errTime
  calls : b.inner.countP InnerEv.isCall + k ≤ N + b.log.countP isRetry

theorem Tps.run_append (os : List BudgetOp) (o : BudgetOp) : ∀ s : Tps, Tps.run (os ++ [o]) s = ((Tps.run os s).1 ++ [((Tps.run os s).2.op o).1], ((Tps.run os s).2.op o).2) := by
  induction os with
  | nil => intro s; rfl
  | cons a os ih => intro s; simp only [List.cons_append, Tps.run, ih]

section
variable {fuel : Nat} {now : W → Nat} {S : Service W Req Res Err} {tps0 : Tps} {N k : Nat} {b b' : BudW} {w w' : W}

theorem BudInv.weaken {k' : Nat} (h : BudInv tps0 N k b) (hk : k' ≤ k) : BudInv tps0 N k' b := ⟨h.run, h.ok, h.err, by have := h.calls; omega⟩

theorem BudInv.called (h : BudInv tps0 N (k + 1) b) (t : Nat) : BudInv tps0 N k { b with inner := b.inner ++ [.called t] } := by
  refine ⟨h.run, ?_, ?_, ?_⟩
  · simp only [List.filterMap_append, h.ok]; exact (List.append_nil _).symm
  · simp only [List.filterMap_append, h.err]; exact (List.append_nil _).symm
  · have := h.calls; simp [InnerEv.isCall]; omega

theorem BudInv.success (h : BudInv tps0 N k b) (t : Nat) :
    BudInv tps0 N k { tps := b.tps.deposit t, log := b.log ++ [(.deposit t, true)], inner := b.inner ++ [.ok t] } := by
  refine ⟨?_, ?_, ?_, ?_⟩
  · simp only [List.map_append, List.map_cons, List.map_nil, Tps.run_append, h.run]; rfl
  · simp only [List.filterMap_append, h.ok]; rfl
  · simp only [List.filterMap_append, h.err]; rfl
  · have := h.calls; simp [InnerEv.isCall, isRetry]; omega

theorem BudInv.failure (h : BudInv tps0 N k b) (t : Nat) :
    BudInv tps0 N (k + if (b.tps.withdraw t).1 = true then 1 else 0)
      { tps := (b.tps.withdraw t).2, log := b.log ++ [(.withdraw t, (b.tps.withdraw t).1)], inner := b.inner ++ [.err t] } := by
  refine ⟨?_, ?_, ?_, ?_⟩
  · simp only [List.map_append, List.map_cons, List.map_nil, Tps.run_append, h.run]; rfl
  · simp only [List.filterMap_append, h.ok]; rfl
  · simp only [List.filterMap_append, h.err]; rfl
  · have := h.calls
    cases hb : (b.tps.withdraw t).1 <;> simp [List.countP_append, List.countP_cons, InnerEv.isCall, isRetry] <;> omega

theorem metered_ready {s s' : S.σ} {p} (h : ((metered now S).pollReady s).run (b, w) = .ok (p, s') (b', w')) : b' = b := (snd_eq_ok.1 h).2

theorem metered_call {s s' : S.σ} {r f} (h : ((metered now S).call s r).run (b, w) = .ok (f, s') (b', w')) : ∃ t, b' = { b with inner := b.inner ++ [.called t] } := by
  obtain ⟨x, ⟨b1, w1⟩, h1, h2⟩ := run_bind_eq_ok.1 h
  obtain ⟨-, h3⟩ := snd_eq_ok.1 h1
  simp only at h3
  subst h3
  obtain ⟨u, ⟨b2, w2⟩, h4, h5⟩ := run_bind_eq_ok.1 h2
  cases h4
  cases h5
  exact ⟨_, rfl⟩

theorem metered_poll {f f' : S.φ} {p} (h : ((metered now S).poll f).run (b, w) = .ok (p, f') (b', w')) :
    (p = .pending ∧ b' = b) ∨ (∃ v, p = .ready (.ok v) ∧ b' = { b with inner := b.inner ++ [.ok (now w')] }) ∨ (∃ e, p = .ready (.error e) ∧ b' = { b with inner := b.inner ++ [.err (now w')] }) := by
  obtain ⟨⟨q, x⟩, ⟨b1, w1⟩, h1, h2⟩ := run_bind_eq_ok.1 h
  obtain ⟨-, h3⟩ := snd_eq_ok.1 h1
  simp only at h3
  subst h3
  match q, h2 with
  | .pending, h2 => cases h2; exact .inl ⟨rfl, rfl⟩
  | .ready (.ok v), h2 => cases h2; exact .inr (.inl ⟨_, rfl, rfl⟩)
  | .ready (.error e), h2 => cases h2; exact .inr (.inr ⟨_, rfl, rfl⟩)

/-- one round of the loop of the response future -/
theorem budStep {x : (budgetedRetry fuel now S).φ} {r} (hx : x.request ≠ none) (hi : BudInv tps0 N (k + x.holds) b)
    (h : (retryStep (budgetPolicy now) (metered now S) x).run (b, w) = .ok r (b', w')) :
    match r with
    | .inl (_, x') => BudInv tps0 N (k + x'.holds) b' ∧ x'.request ≠ none
    | .inr x' => BudInv tps0 N (k + x'.holds) b' ∧ x'.request ≠ none := by
  obtain ⟨req, rt, st⟩ := x
  cases req with
  | none => exact absurd rfl hx
  | some req =>
    cases st with
    | called f =>
      obtain ⟨⟨p, f'⟩, ⟨b1, w1⟩, h1, h2⟩ := run_bind_eq_ok.1 h
      rcases metered_poll h1 with ⟨rfl, rfl⟩ | ⟨v, rfl, rfl⟩ | ⟨e, rfl, rfl⟩
      · cases h2; exact ⟨hi, by simp⟩
      · cases h2
        exact ⟨hi.success _, by simp⟩
      · obtain ⟨⟨o, π', req', res'⟩, ⟨b2, w2⟩, h3, h4⟩ := run_bind_eq_ok.1 h2
        simp only [run_lift, Out.ok.injEq, budgetRetry, Prod.mk.injEq] at h3
        obtain ⟨⟨h5, -, rfl, rfl⟩, h6, rfl⟩ := h3
        have hf := BudInv.failure (k := k) hi (now w1)
        cases hb : (b.tps.withdraw (now w1)).1 with
        | true =>
          rw [hb, if_pos rfl] at h5
          subst h5
          cases h4
          rw [hb] at hf h6
          subst h6
          exact ⟨hf, by simp⟩
        | false =>
          rw [hb] at h5
          simp only [Bool.false_eq_true, if_false] at h5
          subst h5
          cases h4
          rw [hb] at hf h6
          subst h6
          exact ⟨hf, by simp⟩
    | waiting r0 =>
      obtain ⟨⟨p, f'⟩, ⟨b1, w1⟩, h1, h2⟩ := run_bind_eq_ok.1 h
      cases h1
      cases h2
      exact ⟨hi, by simp⟩
    | retrying =>
      obtain ⟨⟨p, s'⟩, ⟨b1, w1⟩, h1, h2⟩ := run_bind_eq_ok.1 h
      have := metered_ready h1
      subst this
      match p, h2 with
      | .pending, h2 => cases h2; exact ⟨hi, by simp⟩
      | .ready (.error e), h2 => cases h2; exact ⟨hi, by simp⟩
      | .ready (.ok ()), h2 =>
        obtain ⟨⟨o, π'⟩, ⟨b2, w2⟩, h3, h4⟩ := run_bind_eq_ok.1 h2
        cases h3
        obtain ⟨⟨f, s''⟩, ⟨b3, w3⟩, h5, h6⟩ := run_bind_eq_ok.1 h4
        cases h6
        obtain ⟨t, rfl⟩ := metered_call h5
        exact ⟨hi.called t, by simp⟩

theorem budPoll (m : Nat) : ∀ {x x' : (budgetedRetry fuel now S).φ} {p} {b : BudW} {w : W}, x.request ≠ none → BudInv tps0 N (k + x.holds) b →
    (retryPoll (budgetPolicy now) (metered now S) m x).run (b, w) = .ok (p, x') (b', w') → BudInv tps0 N (k + x'.holds) b' ∧ x'.request ≠ none := by
  induction m with
  | zero => intro x x' p b w _ _ h; cases h
  | succ m ih =>
    intro x x' p b w hx hi h
    obtain ⟨r, ⟨b1, w1⟩, h1, h2⟩ := run_bind_eq_ok.1 h
    have := budStep hx hi h1
    cases r with
    | inl out => cases h2; exact this
    | inr y => exact ih this.2 this.1 h2

end

/-- how many retries are still to be made -/
def heldBy {Req P S F R : Type} (fs : List (RetryFut Req P S F R)) : Nat := (fs.map RetryFut.holds).sum

theorem heldBy_set {Req P S F R : Type} (fs : List (RetryFut Req P S F R)) (j : Nat) (f f' : RetryFut Req P S F R) (h : fs[j]? = some f) :
    heldBy fs = heldBy (fs.eraseIdx j) + f.holds ∧ heldBy (fs.set j f') = heldBy (fs.eraseIdx j) + f'.holds := by
  induction fs generalizing j with
  | nil => cases h
  | cons a fs ih =>
    cases j with
    | zero => simp only [List.getElem?_cons_zero, Option.some.injEq] at h; subst h; simp [heldBy]; omega
    | succ j =>
      have := ih j (by simpa using h)
      simp only [heldBy, List.eraseIdx_cons_succ, List.set_cons_succ, List.map_cons, List.sum_cons] at this ⊢
      omega

theorem heldBy_append {Req P S F R : Type} (fs : List (RetryFut Req P S F R)) (f : RetryFut Req P S F R) : heldBy (fs ++ [f]) = heldBy fs + f.holds := by
  simp [heldBy]

theorem heldBy_eraseIdx {Req P S F R : Type} (fs : List (RetryFut Req P S F R)) (j : Nat) : heldBy (fs.eraseIdx j) ≤ heldBy fs := by
  cases h : fs[j]? with
  | none => rw [List.eraseIdx_of_length_le (List.getElem?_eq_none_iff.1 h)]
  | some f => have := (heldBy_set fs j f f h).1; omega

section
variable {fuel : Nat} {now : W → Nat} {S : Service W Req Res Err} {tps0 : Tps} {n : Nat} {hs : List (budgetedRetry fuel now S).σ} {fs : List (budgetedRetry fuel now S).φ} {b : BudW} {w : W}

theorem BudHist.inv {bw : BudW × W} (h : BudHist fuel now S tps0 n hs fs bw) : BudInv tps0 n (heldBy fs) bw.1 ∧ ∀ f ∈ fs, f.request ≠ none := by
  induction h with
  | start s w => exact ⟨⟨rfl, rfl, rfl, Nat.le_refl _⟩, fun f hf => by cases hf⟩
  | env w' _ ih => exact ih
  | clone _ _ ih => exact ih
  | @ready n hs fs w w' i h p h' _ _ hr ih =>
    obtain ⟨b, w⟩ := w; obtain ⟨b', w'⟩ := w'
    obtain ⟨⟨q, s'⟩, ⟨b1, w1⟩, h1, h2⟩ := run_bind_eq_ok.1 hr
    have := metered_ready h1
    subst this
    cases h2
    exact ih
  | @call n hs fs w w' i h r f h' _ _ hr ih =>
    obtain ⟨b, w⟩ := w; obtain ⟨b', w'⟩ := w'
    obtain ⟨⟨o, π'⟩, ⟨b1, w1⟩, h1, h2⟩ := run_bind_eq_ok.1 hr
    cases h1
    obtain ⟨⟨g, s'⟩, ⟨b2, w2⟩, h3, h4⟩ := run_bind_eq_ok.1 h2
    cases h4
    obtain ⟨t, rfl⟩ := metered_call h3
    obtain ⟨hi, hf⟩ := ih
    refine ⟨?_, ?_⟩
    · refine BudInv.called (k := heldBy _) ?_ t
      refine ⟨hi.run, hi.ok, hi.err, ?_⟩
      have h1 := hi.calls
      have h2 := Nat.le_of_eq (heldBy_append fs { request := some r, retry := { policy := (), service := (metered now S).clone s' }, st := RetrySt.called g })
      exact Nat.le_trans (Nat.add_le_add_left (Nat.succ_le_succ h2) _) (by simp only [RetryFut.holds] at h1 ⊢; omega)
    · intro f hf'
      rcases List.mem_append.1 hf' with h | h
      · exact hf f h
      · rw [List.mem_singleton.1 h]; exact Option.some_ne_none _
  | @pending n hs fs w w' j f f' _ hj hr ih =>
    obtain ⟨b, w⟩ := w; obtain ⟨b', w'⟩ := w'
    obtain ⟨hi, hf⟩ := ih
    have hset := heldBy_set fs j f f' hj
    rw [hset.1] at hi
    have := budPoll fuel (hf f (List.mem_of_getElem? hj)) hi hr
    refine ⟨this.1.weaken (Nat.le_of_eq hset.2), ?_⟩
    intro g hg
    rcases List.mem_or_eq_of_mem_set hg with h | rfl
    · exact hf g h
    · exact this.2
  | @done n hs fs w w' j f f' res _ hj hr ih =>
    obtain ⟨b, w⟩ := w; obtain ⟨b', w'⟩ := w'
    obtain ⟨hi, hf⟩ := ih
    have hset := heldBy_set fs j f f' hj
    rw [hset.1] at hi
    have := budPoll fuel (hf f (List.mem_of_getElem? hj)) hi hr
    exact ⟨this.1.weaken (Nat.le_add_right _ _), fun g hg => hf g (List.mem_of_mem_eraseIdx hg)⟩
  | drop j _ ih => exact ⟨ih.1.weaken (heldBy_eraseIdx _ _), fun g hg => ih.2 g (List.mem_of_mem_eraseIdx hg)⟩

/-! ## Theorems -/

/-- **C60 (attempts).** Over all clones and all requests together: the inner service is called at most once per request made, plus once per retry the budget has granted. -/
theorem C60_attempts (h : BudHist fuel now S tps0 n hs fs (b, w)) : b.inner.countP InnerEv.isCall ≤ n + b.log.countP isRetry := by
  have := h.inv.1.calls
  simp only at this
  omega

/-- **C60 (the budget is used as documented).** Every success of the inner service is one deposit and every failure one request to withdraw, at that time and in that order, and nothing
else touches the budget: its answers and its state are those of `TpsBudget` for that sequence. -/
theorem C60_used (h : BudHist fuel now S tps0 n hs fs (b, w)) :
    b.log.filterMap depositTime = b.inner.filterMap InnerEv.okTime ∧ b.log.filterMap withdrawTime = b.inner.filterMap InnerEv.errTime ∧
      Tps.run (b.log.map Prod.fst) tps0 = (b.log.map Prod.snd, b.tps) :=
  ⟨h.inv.1.ok, h.inv.1.err, h.inv.1.run⟩

theorem zip_fst_snd {α β : Type} (l : List (α × β)) : (l.map Prod.fst).zip (l.map Prod.snd) = l := by
  induction l with
  | nil => rfl
  | cons a l ih => simp [ih]

theorem countP_deposit_le (p : Nat → Bool) (l : List (BudgetOp × Bool)) : l.countP (isDeposit p) = (l.filterMap depositTime).countP p := by
  induction l with
  | nil => rfl
  | cons a l ih =>
    obtain ⟨o, b⟩ := a
    cases o with
    | deposit t => simp only [List.countP_cons, List.filterMap_cons, isDeposit, depositTime, ih]; rfl
    | withdraw t => simp only [List.countP_cons, List.filterMap_cons, isDeposit, depositTime, ih]; simp

/-- **C60 (no retry storm).** Whenever a retry is granted, at time `t`: the retries of the last five windows (half of `ttl`), this one included, cost no more than the reserve plus what the
successes of the inner service within the last eleven windows (1.1 `ttl`) have paid in. However many clones and requests there are and however they fail. (The clock is assumed not to go
backwards, and the sums to stay within `isize`.) -/
theorem C60_storm (h : BudHist fuel now S tps0 n hs fs (b, w)) {ttl mps : Nat} {pc : Percent} {t0 : Nat} (h0 : Tps.new ttl mps pc t0 = some tps0)
    (hmono : (t0 :: b.log.map (fun e => e.1.now)).Pairwise (· ≤ ·)) (hfit : (b.log.length + 1) * max tps0.depositAmount tps0.withdrawAmount + tps0.reserve ≤ isizeMax)
    {pre post : List (BudgetOp × Bool)} {t : Nat} (hlog : b.log = pre ++ (.withdraw t, true) :: post) :
    tps0.withdrawAmount * (pre.countP (isGrant fun τ => decide (t < τ + 5 * tps0.window)) + 1 : Nat) ≤
      tps0.reserve + tps0.depositAmount * ((b.inner.filterMap InnerEv.okTime).countP (fun τ => decide (τ ≤ t) && decide (t < τ + 11 * tps0.window)) : Nat) := by
  obtain ⟨h1, h2, h3, h4, h5⟩ := Tps.new_rel h0
  obtain ⟨hok, -, hrun⟩ := C60_used h
  -- the run up to this operation
  have key : ∀ (l1 l2 : List (BudgetOp × Bool)) (o : BudgetOp × Bool) (s : Tps), (Tps.run ((l1 ++ o :: l2).map Prod.fst) s).1 = (l1 ++ o :: l2).map Prod.snd →
      (Tps.run (l1.map Prod.fst) s).1 = l1.map Prod.snd ∧ ((Tps.run (l1.map Prod.fst) s).2.op o.1).1 = o.2 := by
    intro l1
    induction l1 with
    | nil => intro l2 o s hh; simp only [List.nil_append, List.map_cons, Tps.run, List.cons.injEq] at hh; exact ⟨rfl, hh.1⟩
    | cons a l1 ih =>
      intro l2 o s hh
      simp only [List.cons_append, List.map_cons, Tps.run, List.cons.injEq] at hh
      have := ih l2 o _ hh.2
      simp only [List.map_cons, Tps.run, hh.1, this.1]
      exact ⟨trivial, this.2⟩
  have hk := key pre post (.withdraw t, true) tps0 (by rw [← hlog, hrun])
  have hlen : b.log.length = pre.length + (post.length + 1) := by rw [hlog]; simp
  have hM : 0 ≤ max tps0.depositAmount tps0.withdrawAmount := by omega
  have mono2 : (t0 :: (pre.map Prod.fst).map BudgetOp.now ++ [t]).Pairwise (· ≤ ·) := by
    have e : t0 :: b.log.map (fun e => e.1.now) = (t0 :: (pre.map Prod.fst).map BudgetOp.now ++ [t]) ++ post.map (fun e => e.1.now) := by
      rw [hlog]; simp [BudgetOp.now, Function.comp_def]
    rw [e] at hmono
    exact (List.pairwise_append.1 hmono).1
  have st := C15_storm h0 (pre.map Prod.fst) t mono2 (by
    have : ((pre.length : Int) + 1) * max tps0.depositAmount tps0.withdrawAmount ≤ (b.log.length + 1) * max tps0.depositAmount tps0.withdrawAmount :=
      Int.mul_le_mul_of_nonneg_right (by omega) hM
    simp only [List.length_map]; omega) hk.2
  rw [hk.1, zip_fst_snd] at st
  refine Int.le_trans st (Int.add_le_add_left (Int.mul_le_mul_of_nonneg_left ?_ h4) _)
  rw [countP_deposit_le, ← hok, hlog, List.filterMap_append, List.countP_append]
  have : (pre.filterMap depositTime).countP (fun τ => decide (t < τ + 11 * tps0.window)) ≤ (pre.filterMap depositTime).countP (fun τ => decide (τ ≤ t) && decide (t < τ + 11 * tps0.window)) := by
    refine List.countP_mono_left ?_
    intro τ hτ hlt
    obtain ⟨e, he, h6⟩ := List.mem_filterMap.1 hτ
    have hle : τ ≤ t := by
      rw [List.pairwise_append] at mono2
      refine mono2.2.2 τ ?_ t (by simp)
      refine List.mem_cons_of_mem _ (List.mem_map.2 ⟨e.1, List.mem_map.2 ⟨e, he, rfl⟩, ?_⟩)
      obtain ⟨o, c⟩ := e
      cases o with
      | deposit u => exact Option.some.inj h6
      | withdraw u => cases h6
    simp only [hle, decide_true, Bool.true_and]
    exact hlt
  omega

end

/-- **C60, the recording changes nothing.** The metered service answers, goes on and changes the world exactly as the service itself, whatever has been recorded; it does not touch the budget or its log; calls, successes and failures are recorded when they happen. -/
theorem C60_transparent {W Req Res Err : Type} (now : W → Nat) (S : Service W Req Res Err) (b : BudW) (w : W) :
    (∀ s, ((metered now S).pollReady s).run (b, w) = match (S.pollReady s).run w with | .ok x w' => .ok x (b, w') | .panic m => .panic m | .spin => .spin) ∧
    (∀ s r, ((metered now S).call s r).run (b, w) = match (S.call s r).run w with
      | .ok x w' => .ok x ({ b with inner := b.inner ++ [.called (now w')] }, w')
      | .panic m => .panic m | .spin => .spin) ∧
    (∀ x, ((metered now S).poll x).run (b, w) = match (S.poll x).run w with
      | .ok (.pending, y) w' => .ok (.pending, y) (b, w')
      | .ok (.ready (.ok v), y) w' => .ok (.ready (.ok v), y) ({ b with inner := b.inner ++ [.ok (now w')] }, w')
      | .ok (.ready (.error e), y) w' => .ok (.ready (.error e), y) ({ b with inner := b.inner ++ [.err (now w')] }, w')
      | .panic m => .panic m | .spin => .spin) ∧
    (∀ s, (metered now S).clone s = S.clone s) := by
  refine ⟨fun s => ?_, fun s r => ?_, fun x => ?_, fun _ => rfl⟩
  · simp only [Act.snd]
    cases (S.pollReady s).run w <;> rfl
  · simp only [run_bind, Act.snd, BudW.note]
    cases (S.call s r).run w <;> rfl
  · simp only [run_bind, Act.snd, BudW.note]
    cases (S.poll x).run w with
    | panic m => rfl
    | spin => rfl
    | ok y w' =>
      obtain ⟨p, y⟩ := y
      match p with
      | .pending => rfl
      | .ready (.ok v) => rfl
      | .ready (.error e) => rfl

namespace Demo60

/-- a service that works before time 5 and fails afterwards -/
@[reducible] def breaks : Service Nat Nat Nat Nat where
  σ := Unit
  φ := Nat
  pollReady s := pure (.ready (.ok ()), s)
  call s r := pure (r, s)
  poll f := do
    let t ← Act.get
    pure (.ready (if t < 5 then .ok f else .error t), f)
  clone := id

/-- `TpsBudget::new(1s, 0, 1.0)` -/
def oneForOne : Tps :=
  { index := 0, time := 0, reserve := 0, slots := List.replicate 10 0, window := 10 ^ 8, writer := 0, depositAmount := 1, withdrawAmount := 1 }

theorem oneForOne_new : Tps.new (10 ^ 9) 0 (.upToOne 1) 0 = some oneForOne := rfl

/-- what the demonstration ends with -/
def after : BudW :=
  { tps := { oneForOne with writer := 0 }
    log := [(.deposit 0, true), (.withdraw 7, true), (.withdraw 7, false)]
    inner := [.called 0, .ok 0, .called 7, .err 7, .called 7, .err 7] }

/-- One request succeeds; another fails, is retried at the expense of the first, and fails for good. -/
theorem hist : BudHist 9 id breaks oneForOne 2 [⟨(), ()⟩] [] (after, 7) := by
  have h0 := BudHist.start (fuel := 9) (now := id) (S := breaks) (tps0 := oneForOne) () 0
  have h1 := BudHist.call (i := 0) (h := ⟨(), ()⟩) (r := (1 : Nat)) h0 rfl rfl
  have h2 := BudHist.done (j := 0) h1 rfl rfl
  have h3 := BudHist.env 7 h2
  have h4 := BudHist.call (i := 0) (h := ⟨(), ()⟩) (r := (2 : Nat)) h3 rfl rfl
  exact BudHist.done (j := 0) h4 rfl rfl

/-- `C60_storm` applies to the retry that was granted -/
example : (oneForOne.withdrawAmount * (0 + 1 : Nat) : Int) ≤ oneForOne.reserve + oneForOne.depositAmount * (1 : Nat) := by
  have := C60_storm hist oneForOne_new (by decide +kernel) (by decide +kernel) (pre := [(.deposit 0, true)]) (post := [(.withdraw 7, false)]) (t := 7) rfl
  exact this

/-- and `C60_attempts` is tight: 3 calls = 2 requests and 1 retry -/
example : after.inner.countP InnerEv.isCall = 2 + after.log.countP isRetry := rfl

end Demo60
end Tower
