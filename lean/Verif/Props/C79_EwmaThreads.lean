import Verif.Model.EwmaThreads
import Verif.Props.C37_Load

/-!
# C79: `PeakEwma` when handles are dropped, and the load is read, on any threads
-/

namespace Tower
set_option linter.unusedSimpArgs false

/-! ## Specification -/

/-- One event, applied to the estimate and the time of its last update: the end of a call with a round trip time above the estimate replaces it; with a lower one, the estimate moves towards it; a reading of the load lets it decay. -/
noncomputable def EwEv.apply (D : ℝ) (p : ℝ × Nat) : EwEv → ℝ × Nat
  | .ended _ rtt t => (if p.1 < nanos rtt then nanos rtt else nanos rtt + (p.1 - nanos rtt) * Real.exp (-nanos (t - p.2) / D), t)
  | .loaded _ t _ => (p.1 * Real.exp (-nanos (t - p.2) / D), t)
  | _ => p

/-- The estimate that a log says: its events one after the other. -/
noncomputable def estimateOf (D : ℝ) (d0 t0 : Nat) (log : List EwEv) : ℝ × Nat := log.foldl (EwEv.apply D) (nanos d0, t0)

/-- calls made, minus handles gone -/
def notReleased : List EwEv → Int
  | [] => 0
  | .called _ _ :: l => 1 + notReleased l
  | .released _ :: l => -1 + notReleased l
  | _ :: l => notReleased l

/-! ## Proofs -/

theorem notReleased_append (a b : List EwEv) : notReleased (a ++ b) = notReleased a + notReleased b := by
  induction a with
  | nil => simp [notReleased]
  | cons x a ih => cases x <;> simp only [List.cons_append, notReleased, ih] <;> omega

theorem estimateOf_append (D : ℝ) (d0 t0 : Nat) (a : List EwEv) (ev : EwEv) : estimateOf D d0 t0 (a ++ [ev]) = ev.apply D (estimateOf D d0 t0 a) := by
  simp [estimateOf]

/-- `load` of the sequential model is the two steps one after the other -/
theorem C79_load_steps (D : ℝ) (e : Ewma) : (Ewma.load D).run e = (Ewma.pendingCount >>= Ewma.loadWith D).run e := by
  unfold Ewma.load Ewma.pendingCount
  show (Act.get >>= _).run e = ((Act.get >>= _) >>= _).run e
  rw [Act.run_bind_ok (Act.run_get _), Act.run_bind, Act.run_bind_ok (Act.run_get _)]
  simp only []
  split
  · rfl
  · rfl

theorem tick_run (e : Ewma) : Ewma.tick.run e = .ok (e.now + e.lag 0) { e with now := e.now + e.lag 0, lag := fun n => e.lag (n + 1) } := rfl

theorem pendingCount_ok {e e' : Ewma} {c : Nat} (h : Ewma.pendingCount.run e = .ok c e') : e' = e ∧ e.count % 2 ^ 32 = c + 1 := by
  unfold Ewma.pendingCount at h
  rw [Act.run_bind_ok (Act.run_get _)] at h
  simp only at h
  split at h
  · cases h
  · next hc => cases h; exact ⟨rfl, by omega⟩

theorem loadWith_ok {D : ℝ} {e e' : Ewma} {c : Nat} {v : ℝ} (hu : e.updateAt ≤ e.now) (h0 : 0 ≤ e.rtt) (h : (Ewma.loadWith D c).run e = .ok v e') :
    ∃ t, e.now ≤ t ∧ e' = { e with rtt := e.rtt * Real.exp (-nanos (t - e.updateAt) / D), updateAt := t, now := t, lag := e'.lag } ∧ v = e'.rtt * ((c : ℝ) + 1) := by
  unfold Ewma.loadWith at h
  rw [Act.run_bind_ok (decay_run hu h0)] at h
  split at h
  · cases h
  · cases h
    exact ⟨e.now + e.lag 0 + e.lag 1, by omega, rfl, by simp⟩

/-- the invariant -/
structure EInv (D : ℝ) (d0 t0 : Nat) (x : EThreads) (log : List EwEv) : Prop where
  upd : x.e.updateAt ≤ x.e.now
  start : t0 ≤ x.e.updateAt
  nonneg : 0 ≤ x.e.rtt
  count : x.e.count = x.handles.length + 1
  out : (x.handles.length : Int) = notReleased log
  est : (x.e.rtt, x.e.updateAt) = estimateOf D d0 t0 log
  sent : ∀ n s pc, (n, s, pc) ∈ x.handles → EwEv.called n s ∈ log ∧ s ≤ x.e.now ∧ (∀ r, pc = .looked r → s ≤ r ∧ r ≤ x.e.now)
  fresh : ∀ n s pc, (n, s, pc) ∈ x.handles → n < x.calls
  nodup : (x.handles.map (·.1)).Nodup
  unended : ∀ n s pc, (n, s, pc) ∈ x.handles → pc ≠ .updated → ∀ r t, EwEv.ended n r t ∉ log
  known : ∀ n r t, EwEv.ended n r t ∈ log → n < x.calls

theorem EInv.time {D : ℝ} {d0 t0 : Nat} {x : EThreads} {log : List EwEv} (h : EInv D d0 t0 x log) (d : Nat) (lag : Nat → Nat) :
    EInv D d0 t0 { x with e := { x.e with now := x.e.now + d, lag := lag } } log where
  upd := by have := h.upd; simp only; omega
  start := h.start
  nonneg := h.nonneg
  count := h.count
  out := h.out
  est := h.est
  sent n s pc hm := by
    obtain ⟨a, b, c⟩ := h.sent n s pc hm
    refine ⟨a, by simp only; omega, fun r hr => ?_⟩
    have := c r hr
    simp only; omega
  fresh := h.fresh
  nodup := h.nodup
  unended := h.unended
  known := h.known

theorem EHist.inv {D : ℝ} (hD : 0 < D) {d0 t0 : Nat} {x : EThreads} {log : List EwEv} (h : EHist D d0 t0 x log) : EInv D d0 t0 x log := by
  induction h with
  | new lag => exact ⟨Nat.le_refl _, Nat.le_refl _, nanos_nonneg _, rfl, rfl, rfl, by simp, by simp, by simp, by simp, by simp⟩
  | time d lag _ ih => exact ih.time d lag
  | @call x log s e' _ hr ih =>
    rw [handle_run] at hr
    cases hr
    have ih2 := ih.time (x.e.lag 0) (fun n => x.e.lag (n + 1))
    refine ⟨ih2.upd, ih2.start, ih2.nonneg, ?_, ?_, ?_, ?_, ?_, ?_, ?_, ?_⟩
    · simp [ih.count]
    · rw [notReleased_append, ← ih.out]; simp [notReleased]
    · rw [estimateOf_append, ← ih.est]; rfl
    · intro n s pc hm
      rcases List.mem_append.1 hm with hm | hm
      · obtain ⟨a, b, c⟩ := ih2.sent n s pc hm
        exact ⟨List.mem_append_left _ a, b, c⟩
      · simp only [List.mem_singleton, Prod.mk.injEq] at hm
        obtain ⟨rfl, rfl, rfl⟩ := hm
        exact ⟨by simp, Nat.le_refl _, by simp⟩
    · intro n s pc hm
      rcases List.mem_append.1 hm with hm | hm
      · have := ih.fresh n s pc hm; simp only; omega
      · simp only [List.mem_singleton, Prod.mk.injEq] at hm
        obtain ⟨rfl, -⟩ := hm
        exact Nat.lt_succ_self _
    · simp only [List.map_append, List.map_cons, List.map_nil]
      rw [List.nodup_append]
      refine ⟨ih.nodup, by simp, ?_⟩
      intro a ha b hb
      obtain ⟨⟨n, s, pc⟩, hm, rfl⟩ := List.mem_map.1 ha
      have := ih.fresh n s pc hm
      simp only [List.mem_singleton] at hb
      simp only; omega
    · intro n s pc hm hpc r t hl
      have hl' : EwEv.ended n r t ∈ log := by simpa using hl
      rcases List.mem_append.1 hm with hm | hm
      · exact ih.unended n s pc hm hpc r t hl'
      · simp only [List.mem_singleton, Prod.mk.injEq] at hm
        obtain ⟨rfl, -⟩ := hm
        exact absurd (ih.known _ _ _ hl') (Nat.lt_irrefl _)
    · intro n r t hl
      have hl' : EwEv.ended n r t ∈ log := by simpa using hl
      have := ih.known _ _ _ hl'
      simp only; omega
  | @looks x log l r n s recv e' _ hx hr ih =>
    rw [tick_run] at hr
    cases hr
    have ih2 := ih.time (x.e.lag 0) (fun n => x.e.lag (n + 1))
    refine ⟨ih2.upd, ih2.start, ih2.nonneg, ?_, ?_, ih2.est, ?_, ?_, ?_, ?_, ih2.known⟩
    · have := ih.count; rw [hx] at this; simpa using this
    · have := ih.out; rw [hx] at this; simpa using this
    · intro n' s' pc hm
      have hm' : (n', s', pc) ∈ x.handles ∨ (n', s', pc) = (n, s, .looked (x.e.now + x.e.lag 0)) := by
        rw [hx]; simp only [List.mem_append, List.mem_cons] at hm ⊢; tauto
      rcases hm' with hm' | hm'
      · exact ih2.sent n' s' pc hm'
      · cases hm'
        obtain ⟨a, b, -⟩ := ih2.sent n s .live (by rw [show (_ : EThreads).handles = _ from hx]; simp)
        refine ⟨a, b, fun r hr => ?_⟩
        cases hr
        exact ⟨b, Nat.le_refl _⟩
    · intro n' s' pc hm
      have hm' : (n', s', pc) ∈ x.handles ∨ (n', s', pc) = (n, s, .looked (x.e.now + x.e.lag 0)) := by
        rw [hx]; simp only [List.mem_append, List.mem_cons] at hm ⊢; tauto
      rcases hm' with hm' | hm'
      · exact ih.fresh n' s' pc hm'
      · cases hm'; exact ih.fresh n s .live (by rw [hx]; simp)
    · have := ih.nodup; rw [hx] at this; simpa using this
    · intro n' s' pc hm hpc
      have hm' : (n', s', pc) ∈ x.handles ∨ (n', s', pc) = (n, s, .looked (x.e.now + x.e.lag 0)) := by
        rw [hx]; simp only [List.mem_append, List.mem_cons] at hm ⊢; tauto
      rcases hm' with hm' | hm'
      · exact ih.unended n' s' pc hm' hpc
      · cases hm'; exact ih.unended n s .live (by rw [hx]; simp) (by simp)
  | @updates x log l r n s recv v e' _ hx hr ih =>
    obtain ⟨-, -, c⟩ := ih.sent n s (.looked recv) (by rw [hx]; simp)
    obtain ⟨hsr, -⟩ := c recv rfl
    rw [update_run hsr ih.upd] at hr
    cases hr
    have ih2 := ih.time (x.e.lag 0) (fun n => x.e.lag (n + 1))
    have hmem : ∀ n' s' pc, (n', s', pc) ∈ l ++ (n, s, HPc.updated) :: r → ((n', s', pc) ∈ l ∨ (n', s', pc) ∈ r) ∨ (n', s', pc) = (n, s, .updated) := by
      intro n' s' pc hm; simp only [List.mem_append, List.mem_cons] at hm; tauto
    have hsub : ∀ y, (y ∈ l ∨ y ∈ r) → y ∈ x.handles := by
      intro y hy; rw [hx]; simp only [List.mem_append, List.mem_cons]; tauto
    have hnd := ih.nodup
    rw [hx] at hnd
    refine ⟨Nat.le_refl _, ?_, ?_, ?_, ?_, ?_, ?_, ?_, ?_, ?_, ?_⟩
    · have := ih.start; have := ih.upd; simp only; omega
    · have hm := nextEst_mem (D := D) (old := x.e.rtt) (rtt := nanos (recv - s)) (el := nanos (x.e.now + x.e.lag 0 - x.e.updateAt)) hD (nanos_nonneg _)
      have := nanos_nonneg (recv - s)
      simp only
      rcases lt_or_ge x.e.rtt (nanos (recv - s)) with h | h
      · rw [hm.1 h]; exact this
      · exact this.trans (hm.2 h).1
    · have := ih.count; rw [hx] at this; simpa using this
    · rw [notReleased_append]; have := ih.out; rw [hx] at this; simpa [notReleased] using this
    · rw [estimateOf_append, ← ih.est]
      simp only [EwEv.apply, nextEst]
      split
      · rfl
      · refine Prod.ext ?_ rfl
        simp only; ring
    · intro n' s' pc hm
      rcases hmem n' s' pc hm with hm' | hm'
      · obtain ⟨a, b, c⟩ := ih2.sent n' s' pc (hsub _ hm')
        exact ⟨List.mem_append_left _ a, b, c⟩
      · cases hm'
        obtain ⟨a, b, -⟩ := ih2.sent n s (.looked recv) (by simp only [hx]; simp)
        exact ⟨List.mem_append_left _ a, b, by simp⟩
    · intro n' s' pc hm
      rcases hmem n' s' pc hm with hm' | hm'
      · exact ih.fresh n' s' pc (hsub _ hm')
      · cases hm'; exact ih.fresh n s (.looked recv) (by rw [hx]; simp)
    · simpa using hnd
    · intro n' s' pc hm hpc r' t hl
      rcases hmem n' s' pc hm with hm' | hm'
      · rcases List.mem_append.1 hl with hl | hl
        · exact ih.unended n' s' pc (hsub _ hm') hpc r' t hl
        · simp only [List.mem_singleton, EwEv.ended.injEq] at hl
          obtain ⟨rfl, -⟩ := hl
          simp only [List.map_append, List.map_cons, List.nodup_append, List.nodup_cons, List.mem_map, List.mem_cons] at hnd
          rcases hm' with hm' | hm'
          · exact hnd.2.2 n' ⟨_, hm', rfl⟩ n' (Or.inl rfl) rfl
          · exact hnd.2.1.1 ⟨_, hm', rfl⟩
      · cases hm'; exact hpc rfl
    · intro n' r' t hl
      rcases List.mem_append.1 hl with hl | hl
      · exact ih.known _ _ _ hl
      · simp only [List.mem_singleton, EwEv.ended.injEq] at hl
        obtain ⟨rfl, -⟩ := hl
        exact ih.fresh n' s (.looked recv) (by rw [hx]; simp)
  | @releases x log l r n s _ hx ih =>
    have hsub : ∀ y, y ∈ l ++ r → y ∈ x.handles := by
      intro y hy; rw [hx]; simp only [List.mem_append, List.mem_cons] at hy ⊢; tauto
    have hin : ∀ n r t, EwEv.ended n r t ∈ log ++ [EwEv.released ‹Nat›] → EwEv.ended n r t ∈ log := by
      intro n r t h; simpa using h
    refine ⟨ih.upd, ih.start, ih.nonneg, ?_, ?_, ?_, ?_, ?_, ?_, ?_, ?_⟩
    · have := ih.count; rw [hx] at this; simp at this ⊢; omega
    · rw [notReleased_append, ← ih.out, hx]; simp [notReleased]; omega
    · rw [estimateOf_append, ← ih.est]; rfl
    · intro n' s' pc hm
      obtain ⟨a, b, c⟩ := ih.sent n' s' pc (hsub _ hm)
      exact ⟨List.mem_append_left _ a, b, c⟩
    · exact fun n' s' pc hm => ih.fresh n' s' pc (hsub _ hm)
    · have := ih.nodup
      rw [hx] at this
      refine this.sublist ?_
      simp
    · intro n' s' pc hm hpc r' t hl
      exact ih.unended n' s' pc (hsub _ hm) hpc r' t (by simpa using hl)
    · intro n' r' t hl
      exact ih.known n' r' t (by simpa using hl)
  | @counts x log c e' _ hr ih =>
    obtain ⟨rfl, hc⟩ := pendingCount_ok hr
    refine ⟨ih.upd, ih.start, ih.nonneg, ih.count, ?_, ?_, ?_, ih.fresh, ih.nodup, ?_, ?_⟩
    · rw [notReleased_append, ← ih.out]; simp [notReleased]
    · rw [estimateOf_append, ← ih.est]; rfl
    · intro n' s' pc hm
      obtain ⟨a, b, c⟩ := ih.sent n' s' pc hm
      exact ⟨List.mem_append_left _ a, b, c⟩
    · intro n' s' pc hm hpc r' t hl
      exact ih.unended n' s' pc hm hpc r' t (by simpa using hl)
    · intro n' r' t hl
      exact ih.known n' r' t (by simpa using hl)
  | @loads x log l r c v e' _ hx hr ih =>
    obtain ⟨t, ht, he, hv⟩ := loadWith_ok ih.upd ih.nonneg hr
    have hnow : e'.now = t := by rw [he]
    have hupd : e'.updateAt = t := by rw [he]
    have hrtt : e'.rtt = x.e.rtt * Real.exp (-nanos (t - x.e.updateAt) / D) := by rw [he]
    have hcount : e'.count = x.e.count := by rw [he]
    refine ⟨by simp only; omega, ?_, ?_, ?_, ?_, ?_, ?_, ih.fresh, ih.nodup, ?_, ?_⟩
    · have := ih.start; have := ih.upd; simp only; omega
    · simp only [hrtt]; exact mul_nonneg ih.nonneg (Real.exp_pos _).le
    · simp only [hcount]; exact ih.count
    · rw [notReleased_append, ← ih.out]; simp [notReleased]
    · rw [estimateOf_append, ← ih.est]
      simp only [EwEv.apply, hrtt, hupd]
    · intro n' s' pc hm
      obtain ⟨a, b, c⟩ := ih.sent n' s' pc hm
      refine ⟨List.mem_append_left _ a, by simp only; omega, fun r hr => ?_⟩
      have := c r hr
      simp only; omega
    · intro n' s' pc hm hpc r' t hl
      exact ih.unended n' s' pc hm hpc r' t (by simpa using hl)
    · intro n' r' t hl
      exact ih.known n' r' t (by simpa using hl)

/-! ## Theorems -/

/-- **C79 (one after the other).** Whatever the threads do, the estimate is what the ends of calls and the readings of the load, applied one after the other in the order in which they got the lock, give. No update is lost. -/
theorem C79_estimate {D : ℝ} (hD : 0 < D) {d0 t0 : Nat} {x : EThreads} {log : List EwEv} (h : EHist D d0 t0 x log) :
    (x.e.rtt, x.e.updateAt) = estimateOf D d0 t0 log := (h.inv hD).est

/-- **C79 (no panic).** No assertion about times can fail, whatever overlaps: the end of a call, and a reading of the load (below 2³² − 1 handles), always succeed. -/
theorem C79_no_panic {D : ℝ} (hD : 0 < D) {d0 t0 : Nat} {x : EThreads} {log : List EwEv} (h : EHist D d0 t0 x log) :
    (∀ n s r, (n, s, HPc.looked r) ∈ x.handles → ∃ v e', (Ewma.update D s r).run x.e = .ok v e') ∧
    (∀ c, c + 1 < 2 ^ 32 → ∃ v e', (Ewma.loadWith D c).run x.e = .ok v e') ∧
    (x.handles.length + 1 < 2 ^ 32 → Ewma.pendingCount.run x.e = .ok x.handles.length x.e) := by
  have i := h.inv hD
  refine ⟨fun n s r hm => ?_, fun c hc => ?_, fun hl => ?_⟩
  · exact ⟨_, _, update_run ((i.sent n s _ hm).2.2 r rfl).1 i.upd⟩
  · unfold Ewma.loadWith
    rw [Act.run_bind_ok (decay_run i.upd i.nonneg), if_neg (by omega)]
    exact ⟨_, _, rfl⟩
  · unfold Ewma.pendingCount
    rw [Act.run_bind_ok (Act.run_get _)]
    simp only [i.count, Nat.mod_eq_of_lt hl]
    rfl

/-- **C79 (what a reading says).** A `load` that returned `cost` had counted, at one moment, the calls whose handles were not gone (exactly, below 2³² − 1 of them), and at a later one took the estimate, decayed to that moment: `cost` is the one times one more than the other. -/
theorem C79_loaded {D : ℝ} (hD : 0 < D) {d0 t0 : Nat} {x : EThreads} {log : List EwEv} (h : EHist D d0 t0 x log) {c t : Nat} {cost : ℝ} (hl : EwEv.loaded c t cost ∈ log) :
    ∃ a b, log = a ++ EwEv.loaded c t cost :: b ∧ (estimateOf D d0 t0 a).2 ≤ t ∧
      cost = (estimateOf D d0 t0 a).1 * Real.exp (-nanos (t - (estimateOf D d0 t0 a).2) / D) * ((c : ℝ) + 1) ∧
      ∃ a1 a2, a = a1 ++ EwEv.counted c :: a2 ∧ (notReleased a1 + 1 < 2 ^ 32 → notReleased a1 = c) := by
  suffices hs : (∀ c ∈ x.readers, ∃ a1 a2, log = a1 ++ EwEv.counted c :: a2 ∧ (notReleased a1 + 1 < 2 ^ 32 → notReleased a1 = c)) ∧
      ∀ c t cost, EwEv.loaded c t cost ∈ log → ∃ a b, log = a ++ EwEv.loaded c t cost :: b ∧ (estimateOf D d0 t0 a).2 ≤ t ∧
      cost = (estimateOf D d0 t0 a).1 * Real.exp (-nanos (t - (estimateOf D d0 t0 a).2) / D) * ((c : ℝ) + 1) ∧
      ∃ a1 a2, a = a1 ++ EwEv.counted c :: a2 ∧ (notReleased a1 + 1 < 2 ^ 32 → notReleased a1 = c) from hs.2 c t cost hl
  clear hl
  have up : ∀ {log : List EwEv} (ev : EwEv) {c : Nat}, (∃ a1 a2, log = a1 ++ EwEv.counted c :: a2 ∧ (notReleased a1 + 1 < 2 ^ 32 → notReleased a1 = c)) →
      ∃ a1 a2, log ++ [ev] = a1 ++ EwEv.counted c :: a2 ∧ (notReleased a1 + 1 < 2 ^ 32 → notReleased a1 = c) := by
    rintro log ev c ⟨a1, a2, rfl, h⟩
    exact ⟨a1, a2 ++ [ev], by simp, h⟩
  have up2 : ∀ {log : List EwEv} (ev : EwEv) {c t : Nat} {cost : ℝ}, (∃ a b, log = a ++ EwEv.loaded c t cost :: b ∧ (estimateOf D d0 t0 a).2 ≤ t ∧
      cost = (estimateOf D d0 t0 a).1 * Real.exp (-nanos (t - (estimateOf D d0 t0 a).2) / D) * ((c : ℝ) + 1) ∧
      ∃ a1 a2, a = a1 ++ EwEv.counted c :: a2 ∧ (notReleased a1 + 1 < 2 ^ 32 → notReleased a1 = c)) →
      (∃ a b, log ++ [ev] = a ++ EwEv.loaded c t cost :: b ∧ (estimateOf D d0 t0 a).2 ≤ t ∧
      cost = (estimateOf D d0 t0 a).1 * Real.exp (-nanos (t - (estimateOf D d0 t0 a).2) / D) * ((c : ℝ) + 1) ∧
      ∃ a1 a2, a = a1 ++ EwEv.counted c :: a2 ∧ (notReleased a1 + 1 < 2 ^ 32 → notReleased a1 = c)) := by
    rintro log ev c t cost ⟨a, b, rfl, h⟩
    exact ⟨a, b ++ [ev], by simp, h⟩
  induction h with
  | new lag => exact ⟨by simp, by simp⟩
  | time d lag _ ih => exact ih
  | call _ _ ih => exact ⟨fun c hc => up _ (ih.1 c hc), fun c t cost hl => up2 _ (ih.2 c t cost (by simpa using hl))⟩
  | looks _ _ _ ih => exact ih
  | updates _ _ _ ih => exact ⟨fun c hc => up _ (ih.1 c hc), fun c t cost hl => up2 _ (ih.2 c t cost (by simpa using hl))⟩
  | releases _ _ ih => exact ⟨fun c hc => up _ (ih.1 c hc), fun c t cost hl => up2 _ (ih.2 c t cost (by simpa using hl))⟩
  | @counts x log c e' hh hr ih =>
    obtain ⟨rfl, hc⟩ := pendingCount_ok hr
    refine ⟨fun c' hc' => ?_, fun c t cost hl => up2 _ (ih.2 c t cost (by simpa using hl))⟩
    rcases List.mem_append.1 hc' with hc' | hc'
    · exact up _ (ih.1 c' hc')
    · simp only [List.mem_singleton] at hc'
      subst hc'
      refine ⟨log, [], rfl, fun hb => ?_⟩
      have i := hh.inv hD
      have h1 := i.count
      have h2 := i.out
      rw [Nat.mod_eq_of_lt (by omega)] at hc
      omega
  | @loads x log l r c v e' hh hx hr ih =>
    have i := hh.inv hD
    refine ⟨fun c' hc' => up _ (ih.1 c' (by rw [hx]; simp only [List.mem_append, List.mem_cons] at hc' ⊢; tauto)), fun c' t cost hl => ?_⟩
    rcases List.mem_append.1 hl with hl | hl
    · exact up2 _ (ih.2 c' t cost hl)
    · simp only [List.mem_singleton, EwEv.loaded.injEq] at hl
      obtain ⟨rfl, rfl, rfl⟩ := hl
      obtain ⟨t, ht, he, hv⟩ := loadWith_ok i.upd i.nonneg hr
      have hupd : e'.updateAt = t := by rw [he]
      have hrtt : e'.rtt = x.e.rtt * Real.exp (-nanos (t - x.e.updateAt) / D) := by rw [he]
      refine ⟨log, [], rfl, ?_, ?_, ih.1 _ (by rw [hx]; simp)⟩
      · rw [← i.est, hupd]; have := i.upd; simp only; omega
      · rw [← i.est, hupd, hv, hrtt]

/-- **C79 (what is observed).** The end of a call is observed at most once, after the call, and with a round trip time that is not longer than the time since the call. -/
theorem C79_observed {D : ℝ} (hD : 0 < D) {d0 t0 : Nat} {x : EThreads} {log : List EwEv} (h : EHist D d0 t0 x log) :
    ∀ n r t, EwEv.ended n r t ∈ log → ∃ a b, log = a ++ EwEv.ended n r t :: b ∧ (∃ s, EwEv.called n s ∈ a ∧ s + r ≤ t) ∧ ∀ r' t', EwEv.ended n r' t' ∉ a ∧ EwEv.ended n r' t' ∉ b := by
  have up : ∀ {log : List EwEv} (ev : EwEv) {n r t : Nat}, (∀ r' t', ev ≠ EwEv.ended n r' t') →
      (∃ a b, log = a ++ EwEv.ended n r t :: b ∧ (∃ s, EwEv.called n s ∈ a ∧ s + r ≤ t) ∧ ∀ r' t', EwEv.ended n r' t' ∉ a ∧ EwEv.ended n r' t' ∉ b) →
      ∃ a b, log ++ [ev] = a ++ EwEv.ended n r t :: b ∧ (∃ s, EwEv.called n s ∈ a ∧ s + r ≤ t) ∧ ∀ r' t', EwEv.ended n r' t' ∉ a ∧ EwEv.ended n r' t' ∉ b := by
    rintro log ev n r t hev ⟨a, b, rfl, h, h2⟩
    refine ⟨a, b ++ [ev], by simp, h, fun r' t' => ⟨(h2 r' t').1, ?_⟩⟩
    simp only [List.mem_append, List.mem_singleton, not_or]
    exact ⟨(h2 r' t').2, fun e => hev r' t' e.symm⟩
  induction h with
  | new lag => simp
  | time d lag _ ih => exact ih
  | call _ _ ih => exact fun n r t hl => up _ (by simp) (ih n r t (by simpa using hl))
  | looks _ _ _ ih => exact ih
  | @updates x log l r n s recv v e' hh hx hr ih =>
    intro n' r' t hl
    have i := hh.inv hD
    obtain ⟨hs, -, c⟩ := i.sent n s (.looked recv) (by rw [hx]; simp)
    obtain ⟨hsr, hrn⟩ := c recv rfl
    have hun := i.unended n s (.looked recv) (by rw [hx]; simp) (by simp)
    rcases List.mem_append.1 hl with hl | hl
    · refine up _ (fun a b hc => ?_) (ih n' r' t hl)
      simp only [EwEv.ended.injEq] at hc
      obtain ⟨rfl, -⟩ := hc
      exact hun _ _ hl
    · simp only [List.mem_singleton, EwEv.ended.injEq] at hl
      obtain ⟨rfl, rfl, rfl⟩ := hl
      refine ⟨log, [], rfl, ⟨s, hs, ?_⟩, fun r' t' => ⟨hun r' t', by simp⟩⟩
      rw [update_run hsr i.upd] at hr
      cases hr
      simp only; omega
  | releases _ _ ih => exact fun n r t hl => up _ (by simp) (ih n r t (by simpa using hl))
  | counts _ _ ih => exact fun n r t hl => up _ (by simp) (ih n r t (by simpa using hl))
  | loads _ _ _ ih => exact fun n r t hl => up _ (by simp) (ih n r t (by simpa using hl))

/-- **C79 (between the peaks).** The estimate is never negative and never above both the default and every round trip time observed; and it is at least every round trip time observed, decayed since it was observed (below the saturation of the clock arithmetic at 2⁶⁴ ns): a peak is not forgotten, whatever overlaps with it. -/
theorem C79_bounds {D : ℝ} (hD : 0 < D) {d0 t0 : Nat} {x : EThreads} {log : List EwEv} (h : EHist D d0 t0 x log) :
    0 ≤ x.e.rtt ∧ (x.e.rtt ≤ nanos d0 ∨ ∃ n r t, EwEv.ended n r t ∈ log ∧ x.e.rtt ≤ nanos r) ∧
    ∀ n r t, EwEv.ended n r t ∈ log → t ≤ x.e.updateAt ∧ (x.e.updateAt - t < 2 ^ 64 → nanos r * Real.exp (-nanos (x.e.updateAt - t) / D) ≤ x.e.rtt) := by
  refine ⟨(h.inv hD).nonneg, ?_⟩
  -- one more update, to an estimate `new` at time `u`
  have keepUp : ∀ {old new : ℝ} {last u : Nat} {log : List EwEv}, (old ≤ nanos d0 ∨ ∃ n r t, EwEv.ended n r t ∈ log ∧ old ≤ nanos r) →
      (∀ n r t, EwEv.ended n r t ∈ log → t ≤ last ∧ (last - t < 2 ^ 64 → nanos r * Real.exp (-nanos (last - t) / D) ≤ old)) → last ≤ u →
      old * Real.exp (-nanos (u - last) / D) ≤ new →
      ∀ n r t, EwEv.ended n r t ∈ log → t ≤ u ∧ (u - t < 2 ^ 64 → nanos r * Real.exp (-nanos (u - t) / D) ≤ new) := by
    intro old new last u log _ h2 hlu hnew n r t hm
    obtain ⟨h3, h4⟩ := h2 n r t hm
    refine ⟨h3.trans hlu, fun hb => ?_⟩
    have h5 := h4 (by omega)
    have e1 : nanos (u - t) = nanos (last - t) + nanos (u - last) := by
      rw [nanos_eq hb, nanos_eq (by omega), nanos_eq (by omega), ← Nat.cast_add]
      congr 1; omega
    rw [e1, neg_add, add_div, Real.exp_add, ← mul_assoc]
    exact (mul_le_mul_of_nonneg_right h5 (Real.exp_pos _).le).trans hnew
  induction h with
  | new lag => exact ⟨.inl (le_refl _), by simp⟩
  | time d lag _ ih => exact ih
  | @call x log s e' _ hr ih =>
    rw [handle_run] at hr
    cases hr
    refine ⟨?_, fun n r t hl => ih.2 n r t (by simpa using hl)⟩
    rcases ih.1 with h | ⟨n, r, t, h, h'⟩
    · exact .inl h
    · exact .inr ⟨n, r, t, by simp [h], h'⟩
  | @looks x log l r n s recv e' _ hx hr ih => rw [tick_run] at hr; cases hr; exact ih
  | @updates x log l r n s recv v e' hh hx hr ih =>
    have i := hh.inv hD
    obtain ⟨-, -, c⟩ := i.sent n s (.looked recv) (by rw [hx]; simp)
    obtain ⟨hsr, -⟩ := c recv rfl
    rw [update_run hsr i.upd] at hr
    cases hr
    have hm := nextEst_mem (D := D) (old := x.e.rtt) (rtt := nanos (recv - s)) (el := nanos (x.e.now + x.e.lag 0 - x.e.updateAt)) hD (nanos_nonneg _)
    have h0 := nanos_nonneg (recv - s)
    obtain ⟨hp, h1⟩ := decay_mem (D := D) (x := nanos (x.e.now + x.e.lag 0 - x.e.updateAt)) hD (nanos_nonneg _)
    refine ⟨?_, fun n' r' t hl => ?_⟩
    · rcases lt_or_ge x.e.rtt (nanos (recv - s)) with h | h
      · exact .inr ⟨n, recv - s, _, List.mem_append_right _ (List.mem_singleton.2 rfl), (hm.1 h).le⟩
      · rcases ih.1 with h2 | ⟨n, r, t, h2, h3⟩
        · exact .inl ((hm.2 h).2.trans h2)
        · exact .inr ⟨n, r, t, List.mem_append_left _ h2, (hm.2 h).2.trans h3⟩
    · have hge : nanos (recv - s) ≤ nextEst D x.e.rtt (nanos (recv - s)) (nanos (x.e.now + x.e.lag 0 - x.e.updateAt)) := by
        rcases lt_or_ge x.e.rtt (nanos (recv - s)) with h | h
        · rw [hm.1 h]
        · exact (hm.2 h).1
      rcases List.mem_append.1 hl with hl | hl
      · refine keepUp (u := x.e.now + x.e.lag 0) ih.1 ih.2 (by have := i.upd; omega) ?_ n' r' t hl
        simp only [nextEst]
        split
        · next hlt => nlinarith [i.nonneg]
        · nlinarith
      · simp only [List.mem_singleton, EwEv.ended.injEq] at hl
        obtain ⟨rfl, rfl, rfl⟩ := hl
        refine ⟨Nat.le_refl _, fun _ => ?_⟩
        simp only [Nat.sub_self, nanos_zero, neg_zero, zero_div, Real.exp_zero, mul_one]
        exact hge
  | @releases x log l r n s _ hx ih =>
    refine ⟨?_, fun n r t hl => ih.2 n r t (by simpa using hl)⟩
    rcases ih.1 with h | ⟨n, r, t, h, h'⟩
    · exact .inl h
    · exact .inr ⟨n, r, t, by simp [h], h'⟩
  | @counts x log c e' _ hr ih =>
    obtain ⟨rfl, -⟩ := pendingCount_ok hr
    refine ⟨?_, fun n r t hl => ih.2 n r t (by simpa using hl)⟩
    rcases ih.1 with h | ⟨n, r, t, h, h'⟩
    · exact .inl h
    · exact .inr ⟨n, r, t, by simp [h], h'⟩
  | @loads x log l r c v e' hh hx hr ih =>
    have i := hh.inv hD
    obtain ⟨t, ht, he, hv⟩ := loadWith_ok i.upd i.nonneg hr
    have hupd : e'.updateAt = t := by rw [he]
    have hrtt : e'.rtt = x.e.rtt * Real.exp (-nanos (t - x.e.updateAt) / D) := by rw [he]
    obtain ⟨hp, h1⟩ := decay_mem (D := D) (x := nanos (t - x.e.updateAt)) hD (nanos_nonneg _)
    have hle : e'.rtt ≤ x.e.rtt := by rw [hrtt]; nlinarith [i.nonneg]
    refine ⟨?_, fun n' r' t' hl => ?_⟩
    · rcases ih.1 with h | ⟨n, r, t, h, h'⟩
      · exact .inl (hle.trans h)
      · exact .inr ⟨n, r, t, by simp [h], hle.trans h'⟩
    · simp only [hupd]
      exact keepUp (u := t) ih.1 ih.2 (by have := i.upd; omega) hrtt.ge n' r' t' (by simpa using hl)

/-- **C79 (at rest).** When every handle is gone, a reading of the load counts no call in flight: it is the decayed estimate. -/
theorem C79_at_rest {D : ℝ} (hD : 0 < D) {d0 t0 : Nat} {x : EThreads} {log : List EwEv} (h : EHist D d0 t0 x log) :
    (x.handles.length : Int) = notReleased log ∧
    (x.handles = [] → ∃ t e', (Ewma.load D).run x.e = .ok (x.e.rtt * Real.exp (-nanos (t - x.e.updateAt) / D)) e' ∧ e'.updateAt = t ∧ e'.now = t) := by
  have i := h.inv hD
  refine ⟨i.out, fun hh => ?_⟩
  have hc : x.e.count = 1 := by have := i.count; rw [hh] at this; exact this
  have hr := load_run (D := D) i.upd i.nonneg (by omega) (by omega)
  rw [hc, Nat.cast_one, mul_one] at hr
  exact ⟨_, _, hr, rfl, rfl⟩

/-! ## A concrete case: two handles whose drops overlap -/

namespace Demo79

/-- a state: no time passes by itself -/
noncomputable def st (rtt : ℝ) (upd count now : Nat) (hs : List (Nat × Nat × HPc)) (rs : List Nat) (calls : Nat) : EThreads := ⟨⟨upd, rtt, count, now, fun _ => 0⟩, hs, rs, calls⟩

theorem n130 : nanos (150 - 20) = 130 := by rw [nanos_eq (by norm_num)]; norm_num
theorem n100 : nanos (110 - 10) = 100 := by rw [nanos_eq (by norm_num)]; norm_num
theorem n100' : nanos (250 - 150) = 100 := by rw [nanos_eq (by norm_num)]; norm_num
theorem n50 : nanos 50 = 50 := by rw [nanos_eq (by norm_num)]; norm_num

/-- The default is 50 ns, the decay 100 ns. Call 0 at time 10, call 1 at time 20. The drop of handle 0 reads the clock at time 110; that of handle 1, at time 150, overtakes it and updates (130 ns: the new peak). A `load` has counted both calls. Then handle 0 updates, with 100 ns, at time 250, handle 1 is gone, and the `load` goes on. -/
theorem hist : ∃ v : ℝ, EHist 100 50 0 (st (100 + 30 * Real.exp (-1)) 250 2 250 [(0, 10, .updated)] [] 2)
      [.called 0 10, .called 1 20, .ended 1 130 150, .counted 2, .ended 0 100 250, .released 1, .loaded 2 250 v] ∧ v = (100 + 30 * Real.exp (-1)) * 3 := by
  have h0 : EHist 100 50 0 (st (nanos 50) 0 1 0 [] [] 0) [] := EHist.new (D := 100) (d0 := 50) (t0 := 0) (fun _ => 0)
  have t1 : EHist 100 50 0 (st (nanos 50) 0 1 10 [] [] 0) [] := EHist.time 10 (fun _ => 0) h0
  have h1 : EHist 100 50 0 (st (nanos 50) 0 2 10 [(0, 10, .live)] [] 1) [.called 0 10] := EHist.call t1 handle_run
  have t2 : EHist 100 50 0 (st (nanos 50) 0 2 20 [(0, 10, .live)] [] 1) [.called 0 10] := EHist.time 10 (fun _ => 0) h1
  have h2 : EHist 100 50 0 (st (nanos 50) 0 3 20 [(0, 10, .live), (1, 20, .live)] [] 2) [.called 0 10, .called 1 20] := EHist.call t2 handle_run
  have t3 : EHist 100 50 0 (st (nanos 50) 0 3 110 [(0, 10, .live), (1, 20, .live)] [] 2) [.called 0 10, .called 1 20] := EHist.time 90 (fun _ => 0) h2
  have h3 : EHist 100 50 0 (st (nanos 50) 0 3 110 [(0, 10, .looked 110), (1, 20, .live)] [] 2) [.called 0 10, .called 1 20] :=
    EHist.looks (l := []) (n := 0) (s := 10) (r := [(1, 20, .live)]) t3 rfl (tick_run _)
  have t4 : EHist 100 50 0 (st (nanos 50) 0 3 150 [(0, 10, .looked 110), (1, 20, .live)] [] 2) [.called 0 10, .called 1 20] := EHist.time 40 (fun _ => 0) h3
  have h4 : EHist 100 50 0 (st (nanos 50) 0 3 150 [(0, 10, .looked 110), (1, 20, .looked 150)] [] 2) [.called 0 10, .called 1 20] :=
    EHist.looks (l := [(0, 10, .looked 110)]) (n := 1) (s := 20) (r := []) t4 rfl (tick_run _)
  have h5 : EHist 100 50 0 (st (nextEst 100 (nanos 50) (nanos (150 - 20)) (nanos (150 - 0))) 150 3 150 [(0, 10, .looked 110), (1, 20, .updated)] [] 2) [.called 0 10, .called 1 20, .ended 1 130 150] :=
    EHist.updates (l := [(0, 10, .looked 110)]) (n := 1) (s := 20) (r := []) (recv := 150) h4 rfl (update_run (by decide) (by decide))
  rw [n130, n50, show nextEst 100 50 130 (nanos (150 - 0)) = 130 by simp [nextEst]; norm_num] at h5
  have h6 : EHist 100 50 0 (st 130 150 3 150 [(0, 10, .looked 110), (1, 20, .updated)] [2] 2) [.called 0 10, .called 1 20, .ended 1 130 150, .counted 2] :=
    EHist.counts (c := 2) h5 rfl
  have t7 : EHist 100 50 0 (st 130 150 3 250 [(0, 10, .looked 110), (1, 20, .updated)] [2] 2) [.called 0 10, .called 1 20, .ended 1 130 150, .counted 2] := EHist.time 100 (fun _ => 0) h6
  have h7 : EHist 100 50 0 (st (nextEst 100 130 (nanos (110 - 10)) (nanos (250 - 150))) 250 3 250 [(0, 10, .updated), (1, 20, .updated)] [2] 2)
      [.called 0 10, .called 1 20, .ended 1 130 150, .counted 2, .ended 0 100 250] :=
    EHist.updates (l := []) (n := 0) (s := 10) (r := [(1, 20, .updated)]) (recv := 110) t7 rfl (update_run (by decide) (by decide))
  rw [n100, show nextEst 100 130 100 100 = 100 + 30 * Real.exp (-1) by
    rw [nextEst, if_neg (by norm_num), show (-(100 : ℝ) / 100) = -1 by norm_num]; ring] at h7
  have h8 : EHist 100 50 0 (st (100 + 30 * Real.exp (-1)) 250 2 250 [(0, 10, .updated)] [2] 2)
      [.called 0 10, .called 1 20, .ended 1 130 150, .counted 2, .ended 0 100 250, .released 1] :=
    EHist.releases (l := [(0, 10, .updated)]) (n := 1) (s := 20) (r := []) h7 rfl
  have i := h8.inv (by norm_num)
  have e9 : (Ewma.loadWith 100 2).run (st (100 + 30 * Real.exp (-1)) 250 2 250 [(0, 10, .updated)] [2] 2).e =
      .ok ((100 + 30 * Real.exp (-1)) * 3) (st (100 + 30 * Real.exp (-1)) 250 2 250 [(0, 10, .updated)] [2] 2).e := by
    unfold Ewma.loadWith
    rw [Act.run_bind_ok (decay_run i.upd i.nonneg), if_neg (by norm_num)]
    simp only [st, Nat.add_zero, Nat.sub_self, nanos_zero, neg_zero, zero_div, Real.exp_zero, mul_one]
    norm_num
  have h9 : EHist 100 50 0 (st (100 + 30 * Real.exp (-1)) 250 2 250 [(0, 10, .updated)] [] 2)
      [.called 0 10, .called 1 20, .ended 1 130 150, .counted 2, .ended 0 100 250, .released 1, .loaded 2 250 ((100 + 30 * Real.exp (-1)) * 3)] :=
    EHist.loads (l := []) (r := []) (c := 2) h8 rfl e9
  exact ⟨_, h9, rfl⟩

end Demo79

end Tower
