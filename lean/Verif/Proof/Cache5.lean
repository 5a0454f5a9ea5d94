import Verif.Proof.Cache4

/-! # Histories of the cache and of its specification -/

namespace Tower
set_option linter.unusedSectionVars false
variable {W Req Res Err : Type} {K : Type} [DecidableEq K] {S : Service W Req Res Err}

/-! ## One poll -/

/-- a poll concerns the service that waits for its key -/
theorem PollStep.pend {v v' : View K S.σ} {w w' : W} {ev} (h : PollStep S v w ev v' w') : ∃ s, v.pend ev.key = some (ev.num, s) := by
  cases h with
  | still h _ => exact ⟨_, h⟩
  | promoted h _ => exact ⟨_, h⟩
  | failed h _ => exact ⟨_, h⟩

/-- after a poll, what waits for a key waited for it before -/
theorem PollStep.pend_sub {v v' : View K S.σ} {w w' : W} {ev} (h : PollStep S v w ev v' w') {k t s} (hp : v'.pend k = some (t, s)) :
    ∃ s0, v.pend k = some (t, s0) := by
  cases h with
  | still h1 h2 =>
    rename_i k0 t0 _ _
    by_cases hk : k = k0
    · subst hk
      change View.upd _ _ _ _ = _ at hp
      rw [upd_self] at hp
      cases hp; exact ⟨_, h1⟩
    · change View.upd _ _ _ _ = _ at hp
      rw [upd_ne _ _ hk] at hp
      exact ⟨s, hp⟩
  | promoted h1 h2 =>
    rename_i k0 t0 _ _
    by_cases hk : k = k0
    · subst hk
      change View.upd _ _ _ _ = _ at hp
      rw [upd_self] at hp; cases hp
    · change View.upd _ _ _ _ = _ at hp
      rw [upd_ne _ _ hk] at hp
      exact ⟨s, hp⟩
  | failed h1 h2 =>
    rename_i k0 t0 _ _ _
    by_cases hk : k = k0
    · subst hk
      change View.upd _ _ _ _ = _ at hp
      rw [upd_self] at hp; cases hp
    · change View.upd _ _ _ _ = _ at hp
      rw [upd_ne _ _ hk] at hp
      exact ⟨s, hp⟩

theorem PollSteps.pend_sub {E : W → W → Prop} {v v' : View K S.σ} {w w' : W} {es} (h : PollSteps S E v w es v' w') :
    ∀ {k t s}, v'.pend k = some (t, s) → ∃ s0, v.pend k = some (t, s0) := by
  induction h with
  | nil => intro k t s h; exact ⟨s, h⟩
  | env _ _ ih => exact ih
  | snoc _ he ih =>
    intro k t s h
    obtain ⟨s0, h0⟩ := he.pend_sub h
    exact ih h0

/-- every poll of a sequence concerns a service that waited for its key at the start -/
theorem PollSteps.events {E : W → W → Prop} {v v' : View K S.σ} {w w' : W} {es} (h : PollSteps S E v w es v' w') :
    ∀ ev ∈ es, ∃ s, v.pend ev.key = some (ev.num, s) := by
  induction h with
  | nil => intro ev hev; cases hev
  | env _ _ ih => exact ih
  | snoc hs he ih =>
    intro ev hev
    rcases List.mem_append.1 hev with hev | hev
    · exact ih ev hev
    · rw [List.mem_singleton] at hev; subst hev
      obtain ⟨s, h⟩ := he.pend
      exact hs.pend_sub h

/-- what is ready for a key changes only by promotion -/
theorem PollSteps.rdy {E : W → W → Prop} {v v' : View K S.σ} {w w' : W} {es} (h : PollSteps S E v w es v' w') (k : K) :
    (v'.rdy k = v.rdy k ∧ ∀ t, .promoted k t ∉ es) ∨
    (∃ t s s' w1 w2, v'.rdy k = some (t, s') ∧ .promoted k t ∈ es ∧ v'.pend k = none ∧ (S.pollReady s).run w1 = .ok (.ready (.ok ()), s') w2) := by
  induction h with
  | nil => exact Or.inl ⟨rfl, fun t h => by cases h⟩
  | env _ _ ih => exact ih
  | snoc hs he ih =>
    cases he with
    | still h1 h2 =>
      rename_i k0 t0 _ _
      rcases ih with ⟨a, b⟩ | ⟨t, s, s', w1, w2, a, b, d, e⟩
      · refine Or.inl ⟨a, fun t hm => ?_⟩
        rcases List.mem_append.1 hm with hm | hm
        · exact b t hm
        · simp at hm
      · refine Or.inr ⟨t, s, s', w1, w2, a, List.mem_append.2 (Or.inl b), ?_, e⟩
        have hk : k ≠ k0 := by rintro rfl; rw [h1] at d; cases d
        show View.upd _ _ _ _ = _
        rw [upd_ne _ _ hk]; exact d
    | promoted h1 h2 =>
      rename_i k0 t0 _ _
      by_cases hk : k = k0
      · subst hk
        exact Or.inr ⟨t0, _, _, _, _, upd_self _ _ _, List.mem_append.2 (Or.inr (by simp)), upd_self _ _ _, h2⟩
      · rcases ih with ⟨a, b⟩ | ⟨t, s, s', w1, w2, a, b, d, e⟩
        · refine Or.inl ⟨(upd_ne _ _ hk).trans a, fun t hm => ?_⟩
          rcases List.mem_append.1 hm with hm | hm
          · exact b t hm
          · simp only [List.mem_singleton, PollEv.promoted.injEq] at hm; exact hk hm.1
        · exact Or.inr ⟨t, s, s', w1, w2, (upd_ne _ _ hk).trans a, List.mem_append.2 (Or.inl b), (upd_ne _ _ hk).trans d, e⟩
    | failed h1 h2 =>
      rename_i k0 t0 _ _ _
      rcases ih with ⟨a, b⟩ | ⟨t, s, s', w1, w2, a, b, d, e⟩
      · refine Or.inl ⟨a, fun t hm => ?_⟩
        rcases List.mem_append.1 hm with hm | hm
        · exact b t hm
        · simp at hm
      · refine Or.inr ⟨t, s, s', w1, w2, a, List.mem_append.2 (Or.inl b), ?_, e⟩
        have hk : k ≠ k0 := by rintro rfl; rw [h1] at d; cases d
        show View.upd _ _ _ _ = _
        rw [upd_ne _ _ hk]; exact d

/-! ## Operations -/

theorem CStep.sim {V : Sched W} {c c' : Cache K S} (h : c.Inv) (hs : CStep V S c c') : c'.Inv ∧ VStep S V.eff c.view c'.view := by
  have check : ∀ {i w w' r}, (c.checkReadyIndex i).run w = .ok (r, c') w' → c'.Inv ∧ VStep S V.eff c.view c'.view := by
    intro i w w' r hr
    cases he : c.ready[i]? with
    | none =>
      rw [Cache.checkReadyIndex_none he] at hr
      cases hr; exact ⟨h, .none⟩
    | some e =>
      obtain ⟨k, s, t⟩ := e
      have hg := h.get_ready he
      obtain ⟨a, b, d, e, f⟩ := Cache.checkReadyIndex_spec h he w
      cases hp : (S.pollReady s).run w with
      | panic m => rw [a m hp] at hr; cases hr
      | spin => rw [b hp] at hr; cases hr
      | ok x w1 =>
        obtain ⟨p, s'⟩ := x
        rcases p with _ | (er | ⟨⟩)
        · obtain ⟨c1, h1, h2, h3, _⟩ := e s' w1 hp
          rw [h1] at hr; cases hr
          exact ⟨h2, by rw [h3]; exact .check_pending hg hp⟩
        · obtain ⟨c1, h1, h2, h3, _⟩ := f s' w1 er hp
          rw [h1] at hr; cases hr
          exact ⟨h2, by rw [h3]; exact .check_failed hg hp⟩
        · obtain ⟨c1, h1, h2, h3, _⟩ := d s' w1 hp
          rw [h1] at hr; cases hr
          exact ⟨h2, by rw [h3]; exact .check_ok hg hp⟩
  have call : ∀ {i r w w' f}, (c.callReadyIndex i r).run w = .ok (f, c') w' → c'.Inv ∧ VStep S V.eff c.view c'.view := by
    intro i r w w' f hr
    cases he : c.ready[i]? with
    | none => rw [Cache.callReadyIndex_none he] at hr; cases hr
    | some e =>
      obtain ⟨k, s, t⟩ := e
      have hg := h.get_ready he
      obtain ⟨a, b, d⟩ := Cache.callReadyIndex_spec h he r w
      cases hp : (S.call s r).run w with
      | panic m => rw [a m hp] at hr; cases hr
      | spin => rw [b hp] at hr; cases hr
      | ok x w1 =>
        obtain ⟨f', s'⟩ := x
        obtain ⟨c1, h1, h2, h3, _⟩ := d f' s' w1 hp
        rw [h1] at hr; cases hr
        exact ⟨h2, by rw [h3]; exact .call hg hp⟩
  cases hs with
  | push k s => obtain ⟨a, b, _⟩ := Cache.push_spec h k s; exact ⟨a, by rw [b]; exact .push k s⟩
  | evict k => obtain ⟨a, b, _⟩ := Cache.evict_spec h k; exact ⟨a, by rw [b]; exact .evict k⟩
  | poll hr =>
    obtain ⟨es, hp⟩ := Act.wpx_ok (Cache.pollPending_wpx V c _ h) hr
    exact ⟨hp.inv, .polls hp.steps⟩
  | check hr => exact check hr
  | check_key hr =>
    unfold Cache.checkReady at hr
    split at hr
    · exact check hr
    · cases hr; exact ⟨h, .none⟩
  | call hr => exact call hr
  | call_key hr =>
    unfold Cache.callReady at hr
    split at hr
    · exact call hr
    · cases hr
  | tamper s' he =>
    obtain ⟨a, b⟩ := Cache.setRdy_spec h he (s' := s')
    refine ⟨a, ?_⟩
    rw [b]; exact .tamper s' (h.get_ready he)

theorem CReach.inv {V : Sched W} {c c' : Cache K S} (h : c.Inv) (hr : CRun V S c c') : c'.Inv := by
  induction hr with
  | refl => exact h
  | step _ hs ih => exact (hs.sim ih).1

/-! ## Services do not come back -/

theorem PollStep.alive {v v' : View K S.σ} {w w' : W} {ev} (h : PollStep S v w ev v' w') {k t} (ha : v'.Holds k t) : v.Holds k t := by
  rcases ha with ⟨s, hs⟩ | ⟨s, hs⟩
  · obtain ⟨s0, h0⟩ := h.pend_sub hs
    exact Or.inl ⟨s0, h0⟩
  · cases h with
    | still => exact Or.inr ⟨s, hs⟩
    | promoted h1 h2 =>
      rename_i k0 t0 _ _
      by_cases hk : k = k0
      · subst hk
        change View.upd _ _ _ _ = _ at hs
        rw [upd_self] at hs; cases hs
        exact Or.inl ⟨_, h1⟩
      · change View.upd _ _ _ _ = _ at hs
        rw [upd_ne _ _ hk] at hs
        exact Or.inr ⟨s, hs⟩
    | failed => exact Or.inr ⟨s, hs⟩

theorem PollSteps.alive {E : W → W → Prop} {v v' : View K S.σ} {w w' : W} {es} (h : PollSteps S E v w es v' w') {k t} (ha : v'.Holds k t) : v.Holds k t := by
  induction h with
  | nil => exact ha
  | env _ _ ih => exact ih ha
  | snoc _ he ih => exact ih (he.alive ha)

/-- a service in the cache was there before, under the same key, or it is new -/
theorem VStep.alive {E : W → W → Prop} {v v' : View K S.σ} (h : VStep S E v v') {k t} (ha : v'.Holds k t) : v.Holds k t ∨ t = v.count := by
  have upd_case : ∀ {f : K → Option (Nat × S.σ)} {k0 o s}, View.upd f k0 o k = some (t, s) → (k = k0 ∧ o = some (t, s)) ∨ f k = some (t, s) := by
    intro f k0 o s h
    by_cases hk : k = k0
    · subst hk; rw [upd_self] at h; exact Or.inl ⟨rfl, h⟩
    · rw [upd_ne _ _ hk] at h; exact Or.inr h
  have demote : ∀ {k0 t0 s0 s1}, v.rdy k0 = some (t0, s0) → (v.demote k0 t0 s1).Holds k t → v.Holds k t := by
    intro k0 t0 s0 s1 h1 ha
    rcases ha with ⟨s, hs⟩ | ⟨s, hs⟩
    · change (if v.pend k0 = Option.none then View.upd v.pend k0 (some (t0, s1)) else v.pend) k = _ at hs
      split at hs
      · rcases upd_case hs with ⟨rfl, he⟩ | he
        · cases he; exact Or.inr ⟨_, h1⟩
        · exact Or.inl ⟨_, he⟩
      · exact Or.inl ⟨_, hs⟩
    · rcases upd_case hs with ⟨rfl, he⟩ | he
      · cases he
      · exact Or.inr ⟨_, he⟩
  have setR : ∀ {k0 t0 s0 s1}, v.rdy k0 = some (t0, s0) → (v.setRdy k0 t0 s1).Holds k t → v.Holds k t := by
    intro k0 t0 s0 s1 h1 ha
    rcases ha with ⟨s, hs⟩ | ⟨s, hs⟩
    · exact Or.inl ⟨s, hs⟩
    · rcases upd_case hs with ⟨rfl, he⟩ | he
      · cases he; exact Or.inr ⟨_, h1⟩
      · exact Or.inr ⟨_, he⟩
  cases h with
  | none => exact Or.inl ha
  | push k0 s0 =>
    rcases ha with ⟨s, hs⟩ | ⟨s, hs⟩
    · rcases upd_case hs with ⟨rfl, he⟩ | he
      · cases he; exact Or.inr rfl
      · exact Or.inl (Or.inl ⟨s, he⟩)
    · exact Or.inl (Or.inr ⟨s, hs⟩)
  | evict k0 =>
    left
    rcases ha with ⟨s, hs⟩ | ⟨s, hs⟩
    · rcases upd_case hs with ⟨rfl, he⟩ | he
      · cases he
      · exact Or.inl ⟨s, he⟩
    · rcases upd_case hs with ⟨rfl, he⟩ | he
      · cases he
      · exact Or.inr ⟨s, he⟩
  | polls hp => exact Or.inl (hp.alive ha)
  | check_ok h1 _ => exact Or.inl (setR h1 ha)
  | check_pending h1 _ => exact Or.inl (demote h1 ha)
  | check_failed h1 _ =>
    left
    rcases ha with ⟨s, hs⟩ | ⟨s, hs⟩
    · exact Or.inl ⟨s, hs⟩
    · rcases upd_case hs with ⟨rfl, he⟩ | he
      · cases he
      · exact Or.inr ⟨s, he⟩
  | call h1 _ => exact Or.inl (demote h1 ha)
  | tamper s' h1 => exact Or.inl (setR h1 ha)

theorem VStep.count {E : W → W → Prop} {v v' : View K S.σ} (h : VStep S E v v') : v.count ≤ v'.count := by
  cases h with
  | push => exact Nat.le_succ _
  | polls hp => exact Nat.le_of_eq hp.count.symm
  | _ => exact Nat.le_refl _

/-- what a later state holds, the earlier one held under the same key, or it was pushed in between -/
theorem CRun.alive {V : Sched W} {c c' : Cache K S} (h : c.Inv) (hr : CRun V S c c') :
    c.view.count ≤ c'.view.count ∧ ∀ k t, c'.view.Holds k t → c.view.Holds k t ∨ c.view.count ≤ t := by
  induction hr with
  | refl => exact ⟨Nat.le_refl _, fun k t h => Or.inl h⟩
  | step hr hs ih =>
    have hi := CReach.inv h hr
    have hv := (hs.sim hi).2
    refine ⟨Nat.le_trans ih.1 hv.count, fun k t ht => ?_⟩
    rcases hv.alive ht with h1 | h1
    · exact ih.2 k t h1
    · right; rw [h1]; exact ih.1

/-- a service is in the cache at most once -/
theorem Cache.Inv.holds_key {c : Cache K S} (h : c.Inv) {k k' t} (h1 : c.view.Holds k t) (h2 : c.view.Holds k' t) : k = k' := by
  rcases h1 with ⟨s, h1⟩ | ⟨s, h1⟩ <;> rcases h2 with ⟨s', h2⟩ | ⟨s', h2⟩
  · exact (h.P_cell (h.pend_iff.1 h1) (h.pend_iff.1 h2)).1
  · exact absurd rfl (h.disj (h.pend_iff.1 h1).1 (h.rdy_iff.1 h2))
  · exact absurd rfl (h.disj (h.pend_iff.1 h2).1 (h.rdy_iff.1 h1))
  · have := (List.nodup_append.1 h.cells).2.1
    have := List.inj_on_of_nodup_map this (h.rdy_iff.1 h1) (h.rdy_iff.1 h2) rfl
    cases this; rfl

theorem Cache.Inv.holds_excl {c : Cache K S} (h : c.Inv) {k k' t s s'} (h1 : c.view.pend k = some (t, s)) (h2 : c.view.rdy k' = some (t, s')) : False :=
  h.disj (h.pend_iff.1 h1).1 (h.rdy_iff.1 h2) rfl

theorem Cache.Inv.holds_lt {c : Cache K S} (h : c.Inv) {k t} (h1 : c.view.Holds k t) : t < c.view.count := by
  rcases h1 with ⟨s, h1⟩ | ⟨s, h1⟩
  · exact h.fresh _ (List.mem_append.2 (Or.inl (List.mem_map.2 ⟨_, (h.pend_iff.1 h1).1, rfl⟩)))
  · exact h.fresh _ (List.mem_append.2 (Or.inr (List.mem_map.2 ⟨_, h.rdy_iff.1 h1, rfl⟩)))

end Tower
