import Verif.Proof.Load1
import Verif.Props.C52_Combinators
import Mathlib.Analysis.SpecialFunctions.Log.Basic

/-! # C37, C38: `PendingRequests`, `PeakEwma` -/

namespace Tower
set_option linter.unusedSectionVars false
variable {W Req Res Err Res' : Type} {S : Service W Req Res Err} {C : Completion Res Res'} {T : Tracker}

/-! ## Specification -/

/-- the calls made, in order -/
def calledIds : List LoadEv → List Nat
  | [] => []
  | .called n _ :: l => n :: calledIds l
  | .finished _ _ :: l => calledIds l

/-- the calls finished, in order -/
def finishedIds : List LoadEv → List Nat
  | [] => []
  | .called _ _ :: l => finishedIds l
  | .finished n _ :: l => n :: finishedIds l

/-- the calls in flight: made and not finished -/
def inFlight (log : List LoadEv) : List Nat := (calledIds log).filter (fun n => n ∉ finishedIds log)

/-! ## Which calls have a live handle -/

theorem calledIds_append (a b : List LoadEv) : calledIds (a ++ b) = calledIds a ++ calledIds b := by
  induction a with
  | nil => rfl
  | cons e l ih => cases e <;> simp [calledIds, ih]

theorem finishedIds_append (a b : List LoadEv) : finishedIds (a ++ b) = finishedIds a ++ finishedIds b := by
  induction a with
  | nil => rfl
  | cons e l ih => cases e <;> simp [finishedIds, ih]

theorem LoadClosed.and {I J : T.R → List (Nat × T.H) → List LoadEv → Nat → Prop} (hI : LoadClosed T I) (hJ : LoadClosed T J) :
    LoadClosed T (fun r l log c => I r l log c ∧ J r l log c) where
  perm h p := ⟨hI.perm h.1 p, hJ.perm h.2 p⟩
  call h p := ⟨hI.call h.1 p, hJ.call h.2 p⟩
  fin h p := ⟨hI.fin h.1 p, hJ.fin h.2 p⟩
  other h p := ⟨hI.other h.1 p, hJ.other h.2 p⟩

/-- the handles alive belong to the calls in flight, one each -/
structure LiveOk {H : Type} (l : List (Nat × H)) (log : List LoadEv) (c : Nat) : Prop where
  nodup : (l.map Prod.fst).Nodup
  calls : calledIds log = List.range c
  fin : (finishedIds log).Nodup
  fin_lt : ∀ n ∈ finishedIds log, n < c
  live : ∀ n, n ∈ l.map Prod.fst ↔ n < c ∧ n ∉ finishedIds log

theorem liveOk_closed (T : Tracker) : LoadClosed T (fun _ l log c => LiveOk l log c) where
  perm h p := ⟨(p.map _).nodup_iff.1 h.nodup, h.calls, h.fin, h.fin_lt, fun n => (p.map _).mem_iff.symm.trans (h.live n)⟩
  call {r l log c hd r1} h _ := by
    constructor
    · rw [List.map_cons, List.nodup_cons]
      exact ⟨fun hm => Nat.lt_irrefl _ ((h.live c).1 hm).1, h.nodup⟩
    · rw [calledIds_append, h.calls, List.range_succ]; rfl
    · rw [finishedIds_append]; simpa [finishedIds] using h.fin
    · intro n hn
      rw [finishedIds_append] at hn
      have := h.fin_lt n (by simpa [finishedIds] using hn)
      omega
    · intro n
      rw [finishedIds_append, List.map_cons, List.mem_cons, h.live]
      simp only [finishedIds, List.append_nil]
      constructor
      · rintro (rfl | ⟨h1, h2⟩)
        · exact ⟨by omega, fun hn => Nat.lt_irrefl _ (h.fin_lt _ hn)⟩
        · exact ⟨by omega, h2⟩
      · rintro ⟨h1, h2⟩
        by_cases hn : n = c
        · exact Or.inl hn
        · exact Or.inr ⟨by omega, h2⟩
  fin {r n hd l log c r'} h _ := by
    have hn := (h.live n).1 (by simp)
    have hnd := h.nodup
    rw [List.map_cons, List.nodup_cons] at hnd
    constructor
    · exact hnd.2
    · rw [calledIds_append, h.calls]; simp [calledIds]
    · rw [finishedIds_append]
      simp only [finishedIds]
      rw [List.nodup_append]
      refine ⟨h.fin, List.nodup_singleton _, ?_⟩
      rintro a ha b hb rfl
      rw [List.mem_singleton] at hb
      subst hb
      exact hn.2 ha
    · intro m hm
      rw [finishedIds_append] at hm
      rcases List.mem_append.1 hm with hm | hm
      · exact h.fin_lt m hm
      · simp only [finishedIds, List.mem_singleton] at hm
        subst hm; exact hn.1
    · intro m
      have := h.live m
      rw [List.map_cons, List.mem_cons] at this
      rw [finishedIds_append]
      simp only [finishedIds, List.mem_append, List.mem_singleton]
      constructor
      · intro hm
        have h1 := this.1 (Or.inr hm)
        refine ⟨h1.1, ?_⟩
        rintro (h2 | rfl)
        · exact h1.2 h2
        · exact hnd.1 hm
      · rintro ⟨h1, h2⟩
        rcases this.2 ⟨h1, fun h3 => h2 (Or.inl h3)⟩ with h3 | h3
        · exact absurd h3 (fun h4 => h2 (Or.inr h4))
        · exact h3
  other h _ := h

theorem liveOk_new {H : Type} : LiveOk ([] : List (Nat × H)) [] 0 :=
  ⟨List.nodup_nil, rfl, List.nodup_nil, (fun n hn => by cases hn), (fun n => by simp [finishedIds])⟩

theorem LiveOk.length {H : Type} {l : List (Nat × H)} {log : List LoadEv} {c : Nat} (h : LiveOk l log c) : l.length = (inFlight log).length := by
  have hp : (l.map Prod.fst).Perm (inFlight log) := by
    refine (List.perm_ext_iff_of_nodup h.nodup ?_).2 ?_
    · refine List.Nodup.filter _ ?_
      rw [h.calls]; exact List.nodup_range
    · intro n
      rw [h.live, inFlight, List.mem_filter, h.calls, List.mem_range]
      simp
  simpa using hp.length_eq

theorem LoadHist.liveOk {r0 : T.R} {x : LState T S} {log : List LoadEv} (h : LoadHist T C S r0 x log) : LiveOk x.live log x.calls :=
  (LoadHist.induct (liveOk_closed T) liveOk_new h).1

/-! ## C37 -/

/-- **C37.** In every history of a `PendingRequests` service (calls, polls, drops of futures and of responses, panics of the inner `call`, in any interleaving) the load read is the number of calls made that are not finished. -/
theorem C37_load {x : LState pendingTracker S} {log : List LoadEv} (h : LoadHist pendingTracker C S 1 x log) :
    pendingLoad.run x.r = .ok (inFlight log).length x.r := by
  have hc : LoadClosed pendingTracker (fun (r : Nat) l _ _ => r = 1 + l.length) := by
    refine ⟨?_, ?_, ?_, ?_⟩
    · intro r l l' log c h p; rw [← p.length_eq]; exact h
    · intro r l log c hd r1 h h1; cases h1; simp only [List.length_cons]; simp only at h; omega
    · intro r n hd l log c r1 h h1; cases h1; simp only [List.length_cons] at h ⊢; omega
    · intro r l log c r1 h h1; cases h1; exact h
  have hr : (x.r : Nat) = 1 + x.live.length := (LoadHist.induct hc rfl h).1
  have hl := h.liveOk.length
  obtain ⟨r, i, fs, os, cs⟩ := x
  change Nat at r
  change r = 1 + _ at hr
  change (if r = 0 then _ else _) = _
  rw [if_neg (by omega), ← hl]
  show Out.ok (r - 1) r = _
  generalize LState.live _ = v at hr
  subst hr
  rw [Nat.add_sub_cancel_left]

/-- **C37.** Calls are numbered `0, 1, 2, ...`; every call is finished at most once, and only after it was made. (For `PendingRequests` and `PeakEwma` alike.) -/
theorem C37_once {r0 : T.R} {x : LState T S} {log : List LoadEv} (h : LoadHist T C S r0 x log) :
    calledIds log = List.range x.calls ∧ (finishedIds log).Nodup ∧ ∀ n ∈ finishedIds log, n ∈ calledIds log :=
  ⟨h.liveOk.calls, h.liveOk.fin, fun n hn => by rw [h.liveOk.calls, List.mem_range]; exact h.liveOk.fin_lt n hn⟩

/-- **C37.** The load goes up by exactly one with a call, stays the same when the readiness is polled or a future returns `Pending` or an error, and goes down by exactly one when a call is finished. -/
theorem C37_steps (log : List LoadEv) (n t : Nat) (hc : (calledIds log).Nodup) :
    (n ∉ calledIds log → n ∉ finishedIds log → (inFlight (log ++ [.called n t])).length = (inFlight log).length + 1) ∧
    (n ∈ inFlight log → (inFlight (log ++ [.finished n t])).length + 1 = (inFlight log).length) := by
  constructor
  · intro h1 h2
    unfold inFlight
    rw [calledIds_append, finishedIds_append]
    simp [calledIds, finishedIds, List.filter_append, h2]
  · intro h1
    have h3 : inFlight (log ++ [.finished n t]) = (inFlight log).erase n := by
      unfold inFlight
      rw [calledIds_append, finishedIds_append]
      simp only [calledIds, finishedIds, List.append_nil]
      rw [(hc.filter _).erase_eq_filter, List.filter_filter]
      refine List.filter_congr fun m _ => ?_
      by_cases hm : m = n
      · simp [hm]
      · simp [hm]
    rw [h3, List.length_erase_of_mem h1]
    have := List.length_pos_of_mem h1
    omega

/-- A future that has not returned `Ready(Ok)` still has its handle: the wrapper adds no panic to it (`completion.rs:86`, `expect`). -/
theorem C37_no_panic {r0 : T.R} {x : LState T S} {log : List LoadEv} (h : LoadHist T C S r0 x log) {n : Nat} {f : S.φ × Option T.H} (hf : (n, false, f) ∈ x.futs) :
    ∃ hd, f.2 = some hd ∧ (n, hd) ∈ x.live := by
  have h1 := (LoadHist.induct (liveOk_closed T) liveOk_new h).2 _ hf
  obtain ⟨f0, fh⟩ := f
  cases fh with
  | none => cases h1
  | some hd => exact ⟨hd, rfl, List.mem_append_left _ (List.mem_filterMap.2 ⟨_, hf, rfl⟩)⟩

/-- with `CompleteOnResponse` no response has a handle in it, and a future has its handle until it has returned a response -/
theorem LoadHist.on_response {r0 : T.R} {x : LState T S} {log : List LoadEv} (h : LoadHist T CompleteOnResponse S r0 x log) :
    x.outs = [] ∧ ∀ f ∈ x.futs, f.2.2.2.isSome = !f.2.1 := by
  induction h with
  | new i => exact ⟨rfl, by simp⟩
  | ready _ _ ih => exact ih
  | call h hr ih =>
    refine ⟨ih.1, ?_⟩
    intro f hf
    rcases List.mem_append.1 hf with hf | hf
    · exact ih.2 f hf
    · rw [List.mem_singleton] at hf
      subst hf
      obtain ⟨hd, w1, h1, h2⟩ := Act.run_bind_eq_ok.1 hr
      obtain ⟨fs, w2, h3, h4⟩ := Act.run_bind_eq_ok.1 h2
      simp at h4
      simp [← h4.1.1]
  | call_panics _ _ _ _ ih => exact ih
  | poll h hx hr ih =>
    rename_i x log w p r' w' l r n d f f'
    have hf := ih.2 (n, d, f) (by rw [hx]; simp)
    obtain ⟨⟨q, g⟩, w1, h1, h2⟩ := Act.run_bind_eq_ok.1 hr
    have key : kept p n = [] ∧ f'.2.isSome = !(gotOk p d) := by
      match q, h2 with
      | .pending, h2 =>
        simp at h2
        obtain ⟨⟨rfl, rfl⟩, _⟩ := h2
        exact ⟨rfl, hf⟩
      | .ready (.error e), h2 =>
        simp at h2
        obtain ⟨⟨rfl, rfl⟩, _⟩ := h2
        exact ⟨rfl, hf⟩
      | .ready (.ok v), h2 =>
        obtain ⟨f0, fh⟩ := f
        cases fh with
        | none => simp at h2
        | some hd =>
          obtain ⟨o, w2, h3, h4⟩ := Act.run_bind_eq_ok.1 h2
          have h4 := (Out.ok.inj h4).1
          obtain ⟨rfl, rfl⟩ := Prod.mk.inj h4
          obtain ⟨h5, h6⟩ := fst_eq_ok.1 h3
          simp only [Completion.track, CompleteOnResponse, Bool.false_eq_true, if_false] at h5
          obtain ⟨u, w3, h8, h9⟩ := Act.run_bind_eq_ok.1 h5
          simp at h9
          obtain ⟨rfl, _⟩ := h9
          exact ⟨rfl, rfl⟩
    refine ⟨by simp [ih.1, key.1], ?_⟩
    intro g hg
    dsimp only at hg
    have hold : ∀ g ∈ l ++ r, g.2.2.2.isSome = !g.2.1 := fun g hg => ih.2 g (by rw [hx]; simp at hg ⊢; tauto)
    rcases List.mem_append.1 hg with hg | hg
    · exact hold g (by simp [hg])
    · rcases List.mem_cons.1 hg with rfl | hg
      · exact key.2
      · exact hold g (by simp [hg])
  | drop_future h hx hr ih =>
    refine ⟨ih.1, fun f hf => ih.2 f ?_⟩
    rw [hx]
    simp at hf ⊢
    tauto
  | drop_response h hx hr ih => rw [ih.1] at hx; simp at hx
  | other _ _ ih => exact ih

/-- **C37.** With `CompleteOnResponse` (the default) the load is the number of response futures that exist and have not yet returned a response. -/
theorem C37_on_response {x : LState pendingTracker S} {log : List LoadEv} (h : LoadHist pendingTracker CompleteOnResponse S 1 x log) :
    pendingLoad.run x.r = .ok (x.futs.filter (fun f => !f.2.1)).length x.r := by
  rw [C37_load h, ← h.liveOk.length]
  congr 1
  obtain ⟨h1, h2⟩ := h.on_response
  unfold LState.live
  rw [h1]
  simp only [List.append_nil]
  clear h1 h
  revert h2
  generalize x.futs = fs
  intro h2
  induction fs with
  | nil => rfl
  | cons f l ih =>
    obtain ⟨n, d, f0, fh⟩ := f
    have h3 := h2 _ List.mem_cons_self
    have h4 := ih fun f hf => h2 f (List.mem_cons_of_mem _ hf)
    cases fh with
    | none =>
      simp at h3
      subst h3
      simpa [futHandle, List.filterMap_cons] using h4
    | some hd =>
      simp at h3
      subst h3
      simpa [futHandle, List.filterMap_cons] using h4
/-! ## C38 -/

theorem nanos_nonneg (d : Nat) : 0 ≤ nanos d := by unfold nanos; positivity

theorem nanos_zero : nanos 0 = 0 := by simp [nanos]

/-- Below 584 years, nanoseconds are nanoseconds. -/
theorem nanos_eq {d : Nat} (h : d < 2 ^ 64) : nanos d = (d : ℝ) := by
  unfold nanos
  have h1 : d / 1000000000 * 1000000000 ≤ 2 ^ 64 - 1 := by
    have : d / 1000000000 * 1000000000 ≤ d := Nat.div_mul_le_self _ _
    omega
  rw [min_eq_left h1, ← Nat.cast_add]
  congr 1
  have := Nat.div_add_mod d 1000000000
  rw [Nat.mul_comm] at this
  omega

/-- the next estimate: `old` is the estimate before, `rtt` the one observed, `elapsed` the time since the last update -/
noncomputable def nextEst (D old rtt elapsed : ℝ) : ℝ :=
  if old < rtt then rtt else old * Real.exp (-elapsed / D) + rtt * (1 - Real.exp (-elapsed / D))

theorem update_run {D : ℝ} {s r : Nat} {e : Ewma} (hsr : s ≤ r) (hu : e.updateAt ≤ e.now) :
    (Ewma.update D s r).run e = .ok (nextEst D e.rtt (nanos (r - s)) (nanos (e.now + e.lag 0 - e.updateAt)))
      { e with rtt := nextEst D e.rtt (nanos (r - s)) (nanos (e.now + e.lag 0 - e.updateAt)), updateAt := e.now + e.lag 0, now := e.now + e.lag 0, lag := fun n => e.lag (n + 1) } := by
  unfold Ewma.update
  rw [if_neg (not_not.2 hsr)]
  rw [Act.run_bind_ok (a := e.now + e.lag 0) (w' := { e with now := e.now + e.lag 0, lag := fun n => e.lag (n + 1) }) rfl]
  rw [Act.run_bind_ok (Act.run_get _)]
  rw [if_neg (by simp only [not_not]; omega)]
  rfl

theorem decay_mem {D x : ℝ} (hD : 0 < D) (hx : 0 ≤ x) : 0 < Real.exp (-x / D) ∧ Real.exp (-x / D) ≤ 1 :=
  ⟨Real.exp_pos _, Real.exp_le_one_iff.2 (div_nonpos_of_nonpos_of_nonneg (by linarith) hD.le)⟩

/-- A higher observation replaces the estimate; otherwise the new estimate is between the two. -/
theorem nextEst_mem {D old rtt el : ℝ} (hD : 0 < D) (he : 0 ≤ el) :
    (old < rtt → nextEst D old rtt el = rtt) ∧ (rtt ≤ old → rtt ≤ nextEst D old rtt el ∧ nextEst D old rtt el ≤ old) := by
  constructor
  · intro h; simp [nextEst, h]
  · intro h
    obtain ⟨h1, h2⟩ := decay_mem hD he
    rw [nextEst, if_neg (by linarith)]
    constructor <;> nlinarith

theorem nextEst_zero {D old el : ℝ} (h : 0 ≤ old) : nextEst D old 0 el = old * Real.exp (-el / D) := by
  rw [nextEst, if_neg (by linarith)]; ring

theorem dropH_run {D : ℝ} {s : Nat} {e : Ewma} (hs : s ≤ e.now) (hu : e.updateAt ≤ e.now) :
    ((ewmaTracker D).dropH s).run e = .ok ()
      { updateAt := e.now + e.lag 0 + e.lag 1
        rtt := nextEst D e.rtt (nanos (e.now + e.lag 0 - s)) (nanos (e.now + e.lag 0 + e.lag 1 - e.updateAt))
        count := e.count - 1
        now := e.now + e.lag 0 + e.lag 1
        lag := fun n => e.lag (n + 2) } := by
  show (Ewma.tick >>= _).run e = _
  rw [Act.run_bind_ok (a := e.now + e.lag 0) (w' := { e with now := e.now + e.lag 0, lag := fun n => e.lag (n + 1) }) rfl]
  rw [Act.run_bind_ok (update_run (by omega) (by simp only; omega))]
  rfl

theorem handle_run {D : ℝ} {e : Ewma} : (ewmaTracker D).handle.run e = .ok (e.now + e.lag 0) { e with count := e.count + 1, now := e.now + e.lag 0, lag := fun n => e.lag (n + 1) } := rfl

theorem decay_run {D : ℝ} {e : Ewma} (hu : e.updateAt ≤ e.now) (h0 : 0 ≤ e.rtt) :
    (Ewma.decay D).run e = .ok (e.rtt * Real.exp (-nanos (e.now + e.lag 0 + e.lag 1 - e.updateAt) / D))
      { e with
        rtt := e.rtt * Real.exp (-nanos (e.now + e.lag 0 + e.lag 1 - e.updateAt) / D)
        updateAt := e.now + e.lag 0 + e.lag 1
        now := e.now + e.lag 0 + e.lag 1
        lag := fun n => e.lag (n + 2) } := by
  unfold Ewma.decay
  rw [Act.run_bind_ok (a := e.now + e.lag 0) (w' := { e with now := e.now + e.lag 0, lag := fun n => e.lag (n + 1) }) rfl]
  rw [update_run (Nat.le_refl _) (by simp only; omega), Nat.sub_self, nanos_zero]
  simp only [nextEst_zero h0]

theorem load_run {D : ℝ} {e : Ewma} (hu : e.updateAt ≤ e.now) (h0 : 0 ≤ e.rtt) (hc : 0 < e.count) (hc2 : e.count < 2 ^ 32) :
    (Ewma.load D).run e = .ok (e.rtt * Real.exp (-nanos (e.now + e.lag 0 + e.lag 1 - e.updateAt) / D) * (e.count : ℝ))
      { e with
        rtt := e.rtt * Real.exp (-nanos (e.now + e.lag 0 + e.lag 1 - e.updateAt) / D)
        updateAt := e.now + e.lag 0 + e.lag 1
        now := e.now + e.lag 0 + e.lag 1
        lag := fun n => e.lag (n + 2) } := by
  unfold Ewma.load
  rw [Act.run_bind_ok (Act.run_get _)]
  rw [Nat.mod_eq_of_lt hc2]
  simp only
  rw [if_neg (by omega)]
  rw [Act.run_bind_ok (decay_run hu h0)]
  rw [if_neg (by omega), Nat.sub_add_cancel hc]
  rfl

/-- what reading the load can do, whatever the count -/
theorem load_ok {D : ℝ} {e e' : Ewma} {c : ℝ} (hu : e.updateAt ≤ e.now) (h0 : 0 ≤ e.rtt) (h : (Ewma.load D).run e = .ok c e') :
    e' = { e with
        rtt := e.rtt * Real.exp (-nanos (e.now + e.lag 0 + e.lag 1 - e.updateAt) / D)
        updateAt := e.now + e.lag 0 + e.lag 1
        now := e.now + e.lag 0 + e.lag 1
        lag := fun n => e.lag (n + 2) } := by
  unfold Ewma.load at h
  rw [Act.run_bind_ok (Act.run_get _)] at h
  simp only at h
  split at h
  · cases h
  · rw [Act.run_bind_ok (decay_run hu h0)] at h
    split at h
    · cases h
    · cases h; rfl

/-- the invariant of `PeakEwma` -/
structure EwmaOk (d0 : Nat) (e : Ewma) (l : List (Nat × Nat)) (log : List LoadEv) : Prop where
  nonneg : 0 ≤ e.rtt
  upd : e.updateAt ≤ e.now
  sent : ∀ x ∈ l, x.2 ≤ e.now ∧ LoadEv.called x.1 x.2 ∈ log
  count : e.count = 1 + l.length
  bound : e.rtt ≤ nanos d0 ∨ ∃ n t0 t1, LoadEv.called n t0 ∈ log ∧ LoadEv.finished n t1 ∈ log ∧ t0 ≤ t1 ∧ e.rtt ≤ nanos (t1 - t0)

theorem EwmaOk.bound_mono {d0 : Nat} {e : Ewma} {l : List (Nat × Nat)} {log log' : List LoadEv} {r : ℝ} (h : EwmaOk d0 e l log) (hl : ∀ x ∈ log, x ∈ log') (hr : r ≤ e.rtt) :
    r ≤ nanos d0 ∨ ∃ n t0 t1, LoadEv.called n t0 ∈ log' ∧ LoadEv.finished n t1 ∈ log' ∧ t0 ≤ t1 ∧ r ≤ nanos (t1 - t0) := by
  rcases h.bound with hb | ⟨n, t0, t1, h1, h2, h3, h4⟩
  · exact Or.inl (hr.trans hb)
  · exact Or.inr ⟨n, t0, t1, hl _ h1, hl _ h2, h3, hr.trans h4⟩

theorem ewmaOk_closed {D : ℝ} (hD : 0 < D) (d0 : Nat) : LoadClosed (ewmaTracker D) (fun (e : Ewma) l log _ => EwmaOk d0 e l log) where
  perm h p := ⟨h.nonneg, h.upd, fun x hx => h.sent x (p.mem_iff.2 hx), by rw [← p.length_eq]; exact h.count, h.bound⟩
  call {e l log c hd e1} h h1 := by
    rw [handle_run] at h1
    cases h1
    refine ⟨h.nonneg, ?_, ?_, ?_, ?_⟩
    · exact h.upd.trans (Nat.le_add_right _ _)
    · intro x hx
      rcases List.mem_cons.1 hx with rfl | hx
      · exact ⟨Nat.le_refl _, by simp⟩
      · exact ⟨(h.sent x hx).1.trans (Nat.le_add_right _ _), List.mem_append_left _ (h.sent x hx).2⟩
    · have := h.count
      simp only [List.length_cons]; omega
    · exact h.bound_mono (fun x hx => List.mem_append_left _ hx) (le_refl _)
  fin {e n s l log c e1} h h1 := by
    have hs := h.sent (n, s) List.mem_cons_self
    rw [dropH_run hs.1 h.upd] at h1
    cases h1
    have hel := nanos_nonneg (e.now + e.lag 0 + e.lag 1 - e.updateAt)
    have hrt := nanos_nonneg (e.now + e.lag 0 - s)
    obtain ⟨hm1, hm2⟩ := nextEst_mem (old := e.rtt) (rtt := nanos (e.now + e.lag 0 - s)) hD hel
    refine ⟨?_, Nat.le_refl _, ?_, ?_, ?_⟩
    · rcases lt_or_ge e.rtt (nanos (e.now + e.lag 0 - s)) with hlt | hge
      · simp only [hm1 hlt]; exact hrt
      · exact hrt.trans (hm2 hge).1
    · intro x hx
      have := h.sent x (List.mem_cons_of_mem _ hx)
      exact ⟨by simp only; omega, List.mem_append_left _ this.2⟩
    · have := h.count
      simp only [List.length_cons] at this ⊢; omega
    · rcases lt_or_ge e.rtt (nanos (e.now + e.lag 0 - s)) with hlt | hge
      · simp only [hm1 hlt]
        refine Or.inr ⟨n, s, e.now + e.lag 0, List.mem_append_left _ hs.2, ?_, ?_, le_refl _⟩
        · exact List.mem_append_right _ List.mem_cons_self
        · have := hs.1; simp only at this; omega
      · exact h.bound_mono (fun x hx => List.mem_append_left _ hx) (hm2 hge).2
  other {e l log c e1} h h1 := by
    rcases h1 with ⟨d, lag, rfl⟩ | ⟨c, h1⟩
    · exact ⟨h.nonneg, h.upd.trans (Nat.le_add_right _ _), fun x hx => ⟨(h.sent x hx).1.trans (Nat.le_add_right _ _), (h.sent x hx).2⟩, h.count, h.bound⟩
    · obtain rfl := load_ok h.upd h.nonneg h1
      obtain ⟨h2, h3⟩ := decay_mem hD (nanos_nonneg (e.now + e.lag 0 + e.lag 1 - e.updateAt))
      refine ⟨mul_nonneg h.nonneg h2.le, Nat.le_refl _, ?_, h.count, ?_⟩
      · intro x hx
        have := h.sent x hx
        exact ⟨by simp only; omega, this.2⟩
      · exact h.bound_mono (fun x hx => hx) (mul_le_of_le_one_right h.nonneg h3)

theorem ewmaOk_new (d0 t : Nat) (lag : Nat → Nat) : EwmaOk d0 (Ewma.new d0 t lag) [] [] :=
  ⟨nanos_nonneg _, Nat.le_refl _, (fun x hx => by cases hx), rfl, Or.inl (le_refl _)⟩

theorem LoadHist.ewmaOk {D : ℝ} (hD : 0 < D) {d0 t : Nat} {lag : Nat → Nat} {x : LState (ewmaTracker D) S} {log : List LoadEv}
    (h : LoadHist (ewmaTracker D) C S (Ewma.new d0 t lag) x log) : EwmaOk d0 x.r x.live log :=
  (LoadHist.induct (ewmaOk_closed hD d0) (ewmaOk_new d0 t lag) h).1

/-- **C38.** The estimate is never negative, and never above both the default and every round trip time observed (from a call to its end). -/
theorem C38_bounds {D : ℝ} (hD : 0 < D) {d0 t : Nat} {lag : Nat → Nat} {x : LState (ewmaTracker D) S} {log : List LoadEv}
    (h : LoadHist (ewmaTracker D) C S (Ewma.new d0 t lag) x log) :
    0 ≤ x.r.rtt ∧ (x.r.rtt ≤ nanos d0 ∨ ∃ n t0 t1, LoadEv.called n t0 ∈ log ∧ LoadEv.finished n t1 ∈ log ∧ t0 ≤ t1 ∧ x.r.rtt ≤ nanos (t1 - t0)) :=
  ⟨(h.ewmaOk hD).nonneg, (h.ewmaOk hD).bound⟩

/-- **C38.** The load read is the estimate, decayed to the moment of reading, times one more than the number of calls in flight. Reading never panics (below 2³² − 1 calls in flight). -/
theorem C38_load {D : ℝ} (hD : 0 < D) {d0 t : Nat} {lag : Nat → Nat} {x : LState (ewmaTracker D) S} {log : List LoadEv}
    (h : LoadHist (ewmaTracker D) C S (Ewma.new d0 t lag) x log) (hf : (inFlight log).length + 1 < 2 ^ 32) :
    ∃ e' : Ewma, (Ewma.load D).run x.r = .ok (e'.rtt * ((inFlight log).length + 1 : ℝ)) e' ∧
      e'.rtt = x.r.rtt * Real.exp (-nanos (e'.now - x.r.updateAt) / D) ∧ e'.updateAt = e'.now ∧ x.r.now ≤ e'.now ∧ e'.count = x.r.count := by
  have h1 := h.ewmaOk hD
  have h2 := h.liveOk.length
  have h3 := h1.count
  have := load_run (D := D) h1.upd h1.nonneg (by omega) (by omega)
  have hc : (x.r.count : ℝ) = (inFlight log).length + 1 := by
    rw [h3, h2]; push_cast; ring
  rw [hc] at this
  exact ⟨{ x.r with
      rtt := x.r.rtt * Real.exp (-nanos (x.r.now + x.r.lag 0 + x.r.lag 1 - x.r.updateAt) / D)
      updateAt := x.r.now + x.r.lag 0 + x.r.lag 1
      now := x.r.now + x.r.lag 0 + x.r.lag 1
      lag := fun n => x.r.lag (n + 2) }, this, rfl, rfl, (by simp only; omega), rfl⟩

/-- **C38.** When a call ends with a round trip time above the estimate, that becomes the estimate at once; otherwise the new estimate is a mean of the two, `rtt + (old - rtt)·exp(-elapsed/decay)`.
The end of a call never panics. -/
theorem C38_end {D : ℝ} (hD : 0 < D) {d0 t : Nat} {lag : Nat → Nat} {x : LState (ewmaTracker D) S} {log : List LoadEv}
    (h : LoadHist (ewmaTracker D) C S (Ewma.new d0 t lag) x log) {n s : Nat} (hl : (n, s) ∈ x.live) :
    LoadEv.called n s ∈ log ∧ ∃ e' : Ewma, ((ewmaTracker D).dropH s).run x.r = .ok () e' ∧ ∃ recv, x.r.now ≤ recv ∧ s ≤ recv ∧ recv ≤ e'.now ∧ e'.updateAt = e'.now ∧
      (x.r.rtt < nanos (recv - s) → e'.rtt = nanos (recv - s)) ∧
      (nanos (recv - s) ≤ x.r.rtt → e'.rtt = nanos (recv - s) + (x.r.rtt - nanos (recv - s)) * Real.exp (-nanos (e'.now - x.r.updateAt) / D) ∧
        nanos (recv - s) ≤ e'.rtt ∧ e'.rtt ≤ x.r.rtt) := by
  have h1 := h.ewmaOk hD
  have hs := h1.sent _ hl
  simp only at hs
  refine ⟨hs.2, _, dropH_run hs.1 h1.upd, x.r.now + x.r.lag 0, by omega, by omega, by simp only; omega, rfl, ?_, ?_⟩
  · exact (nextEst_mem hD (nanos_nonneg _)).1
  · intro hle
    refine ⟨?_, (nextEst_mem hD (nanos_nonneg _)).2 hle⟩
    simp only
    rw [nextEst, if_neg (by linarith)]; ring

/-- The share of the old estimate that is left shrinks with time, strictly, and towards 0 (below the saturation of the clock arithmetic at 2⁶⁴ ns). -/
theorem C38_decay {D : ℝ} (hD : 0 < D) {a b : Nat} (hab : a < b) (hb : b < 2 ^ 64) : Real.exp (-nanos b / D) < Real.exp (-nanos a / D) := by
  rw [nanos_eq hb, nanos_eq (hab.trans hb), Real.exp_lt_exp]
  have : (a : ℝ) < b := by exact_mod_cast hab
  exact div_lt_div_of_pos_right (by linarith) hD

/-- ... after `ln(k)` decay periods, a k-th of it. -/
theorem C38_decay_to {D k : ℝ} (hD : 0 < D) (hk : 0 < k) {a : Nat} (ha : a < 2 ^ 64) (h : D * Real.log k ≤ a) : Real.exp (-nanos a / D) ≤ 1 / k := by
  rw [nanos_eq ha]
  have h1 : -(a : ℝ) / D ≤ -Real.log k := by rw [div_le_iff₀ hD]; linarith
  refine (Real.exp_le_exp.2 h1).trans ?_
  rw [Real.exp_neg, Real.exp_log hk, one_div]

/-- Time passes, and the load is read, any number of times. -/
inductive Reads (D : ℝ) : Ewma → Ewma → Prop
  | refl (e) : Reads D e e
  | step {a b c} : Reads D a b → (ewmaTracker D).other b c → Reads D a c

/-- **C38.** Reading the load has no effect on later readings: however often it was read meanwhile, the estimate is the one that one reading would have found. It never rises between the ends of calls. -/
theorem C38_reads {D : ℝ} (hD : 0 < D) {a b : Ewma} (h : Reads D a b) (hu : a.updateAt ≤ a.now) (h0 : 0 ≤ a.rtt) (hb : b.updateAt - a.updateAt < 2 ^ 64) :
    b.rtt = a.rtt * Real.exp (-nanos (b.updateAt - a.updateAt) / D) ∧ b.rtt ≤ a.rtt := by
  have key : a.updateAt ≤ b.updateAt ∧ b.updateAt ≤ b.now ∧ 0 ≤ b.rtt ∧ (b.updateAt - a.updateAt < 2 ^ 64 → b.rtt = a.rtt * Real.exp (-nanos (b.updateAt - a.updateAt) / D)) := by
    clear hb
    induction h with
    | refl => exact ⟨Nat.le_refl _, hu, h0, fun _ => by rw [Nat.sub_self, nanos_zero]; simp⟩
    | step _ hs ih =>
      rename_i b c _
      obtain ⟨i1, i2, i3, i4⟩ := ih
      rcases hs with ⟨d, lag, rfl⟩ | ⟨x, hx⟩
      · exact ⟨i1, i2.trans (Nat.le_add_right _ _), i3, i4⟩
      · obtain rfl := load_ok i2 i3 hx
        refine ⟨by simp only; omega, Nat.le_refl _, mul_nonneg i3 (Real.exp_pos _).le, ?_⟩
        intro hlt
        simp only at hlt ⊢
        rw [i4 (by omega), mul_assoc, ← Real.exp_add]
        congr 2
        rw [nanos_eq (by omega), nanos_eq (by omega), nanos_eq hlt, ← add_div]
        congr 1
        rw [← neg_add, ← Nat.cast_add]
        congr 2
        omega
  obtain ⟨_, _, _, i4⟩ := key
  refine ⟨i4 hb, ?_⟩
  rw [i4 hb]
  exact mul_le_of_le_one_right h0 (decay_mem hD (nanos_nonneg _)).2

/-- The strong count is truncated to 32 bits (`as u32`): with exactly 2³² − 1 calls in flight, reading the load panics. -/
theorem C38_overflow {D : ℝ} (e : Ewma) (h : e.count = 2 ^ 32) : ∃ m, (Ewma.load D).run e = .panic m := by
  refine ⟨"attempt to subtract with overflow", ?_⟩
  unfold Ewma.load
  rw [Act.run_bind_ok (Act.run_get _), h, Nat.mod_self]
  rfl

/-! ## C58: `Constant`, the wrappers of discovery -/

/-- `Constant` forwards: in the morphism of C52, nothing is rewritten. -/
def morphConstant {M : Type} (S : Service W Req Res Err) (m : M) : Morph S (Constant M S) keep keep keep where
  σmap s := (s, m)
  φmap f := f
  ready_eq s w := by
    show ((S.pollReady s) >>= _).run w = _
    rw [Act.run_bind]
    cases h : (S.pollReady s).run w with
    | ok a w' => obtain ⟨p, i⟩ := a; cases p <;> rfl
    | panic m => rfl
    | spin => rfl
  call_eq s r w := by
    show ((S.call s r) >>= _).run w = Out.void _ ((S.call s r).run w)
    rw [Act.run_bind]
    cases h : (S.call s r).run w <;> rfl
  poll_eq f w := ⟨id, by
    show (S.poll f).run w = _
    cases h : (S.poll f).run w with
    | ok a w' => obtain ⟨p, i⟩ := a; cases p <;> rfl
    | panic m => rfl
    | spin => rfl⟩
  clone_eq s := rfl

/-- **C58.** `Constant` is transparent: same observations as the inner service, in every use of it. -/
theorem C58_constant {M : Type} (S : Service W Req Res Err) (s : S.σ) (m : M) (ops : List (UOp W Req)) :
    trace (Constant M S) (fresh (S := Constant M S) (s, m)) ops = trace S (fresh s) ops := by
  have := (morphConstant S m).trace_eq ops (fresh s)
  rw [mapReq_keep, map_keep] at this
  exact this

/-- **C58.** The load of a `Constant` stays what it was made with, whatever is done to it. -/
theorem C58_constant_load {M : Type} {S : Service W Req Res Err} (le : M → M → Bool) {s s' : (Constant M S).σ} {w w' : W} :
    (∀ p, ((Constant M S).pollReady s).run w = .ok (p, s') w' → (Constant.load (S := S) le).load s' = (Constant.load (S := S) le).load s) ∧
    (∀ q f, ((Constant M S).call s q).run w = .ok (f, s') w' → (Constant.load (S := S) le).load s' = (Constant.load (S := S) le).load s) ∧
    ((Constant.load (S := S) le).load s).run w = .ok s.2 w := by
  refine ⟨?_, ?_, rfl⟩
  · intro p h
    obtain ⟨⟨p, i⟩, w1, _, h2⟩ := Act.run_bind_eq_ok.1 h
    cases h2; rfl
  · intro q f h
    obtain ⟨⟨p, i⟩, w1, _, h2⟩ := Act.run_bind_eq_ok.1 h
    cases h2; rfl

/-- the answer of a discovery, with the inserted service replaced -/
def wrapAnswer {K V V' DErr : Type} (f : V → V') : Poll (Option (Except DErr (Change K V))) → Poll (Option (Except DErr (Change K V')))
  | .pending => .pending
  | .ready none => .ready none
  | .ready (some (.error e)) => .ready (some (.error e))
  | .ready (some (.ok (.remove k))) => .ready (some (.ok (.remove k)))
  | .ready (some (.ok (.insert k v))) => .ready (some (.ok (.insert k (f v))))

/-- what a discovery answers when it is polled once in each of the worlds -/
def discoverTrace {K V DErr : Type} (D : Discover W K V DErr) : D.δ → List W → List (Poll (Option (Except DErr (Change K V))))
  | _, [] => []
  | d, w :: ws => match (D.poll d).run w with
    | .ok (p, d') _ => p :: discoverTrace D d' ws
    | .panic _ => []
    | .spin => []

/-- **C58.** `PendingRequestsDiscover`, `PeakEwmaDiscover` and `Constant` as a discovery pass on every answer of the inner discovery, in order and unchanged, except that each inserted service is wrapped, once. -/
theorem C58_discover {K V V' DErr : Type} (f : V → V') (D : Discover W K V DErr) (d : D.δ) (ws : List W) :
    discoverTrace (wrapDiscover (fun v => pure (f v)) D) d ws = (discoverTrace D d ws).map (wrapAnswer f) := by
  induction ws generalizing d with
  | nil => rfl
  | cons w ws ih =>
    have : ((wrapDiscover (fun v => pure (f v)) D).poll d).run w = match (D.poll d).run w with
        | .ok (p, d') w' => .ok (wrapAnswer f p, d') w'
        | .panic m => .panic m
        | .spin => .spin := by
      show (D.poll d >>= _).run w = _
      rw [Act.run_bind]
      cases h : (D.poll d).run w with
      | ok a w' => obtain ⟨p, i⟩ := a; rcases p with _ | (_ | (e | (k | k))) <;> rfl
      | panic m => rfl
      | spin => rfl
    rw [discoverTrace, discoverTrace, this]
    cases h : (D.poll d).run w with
    | ok a w' => obtain ⟨p, i⟩ := a; simp only [List.map_cons]; rw [← ih]
    | panic m => rfl
    | spin => rfl

/-! ## Concrete cases -/

namespace LoadDemo

/-- answers at once; a request above 9 fails -/
@[reducible] def svc : Service Unit Nat Nat String where
  σ := Unit
  φ := Nat
  pollReady s := pure (.ready (.ok ()), s)
  call s r := pure (r, s)
  poll f := pure (if f ≤ 9 then .ready (.ok f) else .ready (.error "no"), f)
  clone s := s

/-- responses above 5 keep the handle -/
@[reducible] def comp : Completion Nat Nat := ⟨id, fun v => decide (5 < v)⟩

/-- Four calls: the first answers, the second answers with a response that keeps the handle, the third fails (and is not dropped yet), the fourth is dropped. Two are in flight. -/
theorem hist : ∃ x : LState pendingTracker svc, LoadHist pendingTracker comp svc 1 x
    [.called 0 0, .called 1 0, .called 2 0, .called 3 0, .finished 0 0, .finished 3 0] ∧ pendingLoad.run x.r = .ok 2 x.r := by
  have h0 := LoadHist.new (T := pendingTracker) (C := comp) (S := svc) (r0 := (1 : Nat)) ()
  have h1 := LoadHist.call (q := (3 : Nat)) (w := ()) (f := ((3 : Nat), some ())) (s' := ()) (r' := (2 : Nat)) (w' := ()) h0 rfl
  have h2 := LoadHist.call (q := (7 : Nat)) (w := ()) (f := ((7 : Nat), some ())) (s' := ()) (r' := (3 : Nat)) (w' := ()) h1 rfl
  have h3 := LoadHist.call (q := (12 : Nat)) (w := ()) (f := ((12 : Nat), some ())) (s' := ()) (r' := (4 : Nat)) (w' := ()) h2 rfl
  have h4 := LoadHist.call (q := (4 : Nat)) (w := ()) (f := ((4 : Nat), some ())) (s' := ()) (r' := (5 : Nat)) (w' := ()) h3 rfl
  have h5 := LoadHist.poll (l := []) (w := ()) (p := .ready (.ok ((3 : Nat), none))) (f' := ((3 : Nat), none)) (r' := (4 : Nat)) (w' := ()) h4 rfl rfl
  have h6 := LoadHist.poll (l := [_]) (w := ()) (p := .ready (.ok ((7 : Nat), some ()))) (f' := ((7 : Nat), none)) (r' := (4 : Nat)) (w' := ()) h5 rfl rfl
  have h7 := LoadHist.poll (l := [_, _]) (w := ()) (p := .ready (.error "no")) (f' := ((12 : Nat), some ())) (r' := (4 : Nat)) (w' := ()) h6 rfl rfl
  have h8 := LoadHist.drop_future (l := [_, _, _]) (r' := (3 : Nat)) h7 rfl rfl
  exact ⟨_, h8, rfl⟩

/-- the theorem applied to it -/
example : inFlight [.called 0 0, .called 1 0, .called 2 0, .called 3 0, .finished 0 0, .finished 3 0] = [1, 2] := rfl

/-- PeakEwma, default 50 ns, decay 100 ns: a call at time 10 that ends at time 110. The estimate jumps to 100. -/
theorem ewmaHist : ∃ x : LState (ewmaTracker 100) svc, LoadHist (ewmaTracker 100) comp svc (Ewma.new 50 0 (fun _ => 10)) x [.called 0 10, .finished 0 110] ∧ x.r.rtt = 100 := by
  have h0 := LoadHist.new (T := ewmaTracker 100) (C := comp) (S := svc) (r0 := Ewma.new 50 0 (fun _ => 10)) ()
  have h1 := LoadHist.call (q := (3 : Nat)) (w := ()) (f := ((3 : Nat), some (10 : Nat))) (s' := ()) (r' := { Ewma.new 50 0 (fun _ => 10) with count := 2, now := 10 }) (w' := ()) h0 rfl
  have h2 := LoadHist.other (r' := { Ewma.new 50 0 (fun _ => 10) with count := 2, now := 100 }) h1 (Or.inl ⟨90, fun _ => 10, rfl⟩)
  have h3 := LoadHist.drop_future (l := []) h2 rfl (dropH_run (s := 10) (by decide) (by decide))
  refine ⟨_, h3, ?_⟩
  have e1 : nanos (100 + 10 - 10) = 100 := by rw [nanos_eq (by norm_num)]; norm_num
  have e2 : (Ewma.new 50 0 (fun _ => 10)).rtt < 100 := by show nanos 50 < 100; rw [nanos_eq (by norm_num)]; norm_num
  show nextEst 100 _ (nanos (100 + 10 - 10)) _ = 100
  rw [e1]
  simp [nextEst, e2]

end LoadDemo

end Tower
