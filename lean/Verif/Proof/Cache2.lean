import Verif.Proof.Cache1

/-! # The cache refines its specification -/

namespace Tower
set_option linter.unusedSectionVars false
variable {W Req Res Err : Type} {K : Type} [DecidableEq K] {S : Service W Req Res Err}

namespace Cache
variable {c c' : Cache K S}

theorem Inv.pend_iff (h : c.Inv) {k t s} : c.view.pend k = some (t, s) ↔ c.P k t s := by
  unfold Cache.view
  simp only [Option.map_eq_some_iff, Prod.mk.injEq]
  constructor
  · rintro ⟨e, h1, rfl, rfl⟩
    have hm := List.mem_of_find?_eq_some h1
    have hp := List.find?_some h1
    simp only [decide_eq_true_eq] at hp
    obtain ⟨rfl, h2⟩ := hp
    exact ⟨hm, h2⟩
  · intro hp
    cases hf : c.pending.find? (fun e => decide (e.key = k ∧ e.rx ∉ c.cancelled)) with
    | none =>
      have := List.find?_eq_none.1 hf _ hp.1
      simp only [decide_eq_true_eq] at this
      exact absurd ⟨trivial, hp.2⟩ this
    | some e =>
      have hm := List.mem_of_find?_eq_some hf
      have hq := List.find?_some hf
      simp only [decide_eq_true_eq] at hq
      have he : c.P k e.rx e.svc := ⟨by obtain ⟨h1, _⟩ := hq; subst h1; exact hm, hq.2⟩
      obtain ⟨h1, h2⟩ := h.P_key he hp
      exact ⟨e, rfl, h1, h2⟩

theorem Inv.rdy_iff (h : c.Inv) {k t s} : c.view.rdy k = some (t, s) ↔ c.R k t s := by
  unfold Cache.view
  simp only [Option.map_eq_some_iff, Prod.mk.injEq]
  constructor
  · rintro ⟨v, h1, rfl, rfl⟩
    have := h.R_of (IMap.get_some h1)
    exact this
  · intro hr
    cases hg : c.ready.get k with
    | none => exact absurd (List.mem_map.2 ⟨_, hr, rfl⟩) (IMap.get_none hg)
    | some v =>
      have := IMap.nodup_val h.rkeys (IMap.get_some hg) hr
      exact ⟨v, rfl, by rw [this], by rw [this]⟩

theorem view_ext {v v' : View K S.σ} (hp : ∀ k t s, v.pend k = some (t, s) ↔ v'.pend k = some (t, s))
    (hr : ∀ k t s, v.rdy k = some (t, s) ↔ v'.rdy k = some (t, s)) (hc : v.count = v'.count) : v = v' := by
  obtain ⟨p, r, n⟩ := v
  obtain ⟨p', r', n'⟩ := v'
  simp only at hp hr hc
  have h1 : p = p' := by funext k; apply Option.ext; rintro ⟨t, s⟩; exact hp k t s
  have h2 : r = r' := by funext k; apply Option.ext; rintro ⟨t, s⟩; exact hr k t s
  rw [h1, h2, hc]

theorem upd_some {f : K → Option (Nat × S.σ)} {k k' : K} {t t' : Nat} {s s' : S.σ} :
    View.upd f k (some (t, s)) k' = some (t', s') ↔ (k' = k ∧ t' = t ∧ s' = s) ∨ (k' ≠ k ∧ f k' = some (t', s')) := by
  unfold View.upd
  by_cases h : k' = k
  · rw [if_pos h, Option.some.injEq, Prod.mk.injEq]
    constructor
    · rintro ⟨rfl, rfl⟩; exact Or.inl ⟨h, rfl, rfl⟩
    · rintro (⟨_, rfl, rfl⟩ | ⟨h', _⟩)
      · exact ⟨rfl, rfl⟩
      · exact absurd h h'
  · simp [h]

theorem upd_none {f : K → Option (Nat × S.σ)} {k k' : K} {t' : Nat} {s' : S.σ} :
    View.upd f k none k' = some (t', s') ↔ k' ≠ k ∧ f k' = some (t', s') := by
  unfold View.upd
  by_cases h : k' = k <;> simp [h]

theorem P_congr (hp : c'.pending = c.pending) (hx : c'.cancelled = c.cancelled) {k t s} : c'.P k t s ↔ c.P k t s := by
  unfold P; rw [hp, hx]

theorem R_congr (hr : c'.ready = c.ready) {k t s} : c'.R k t s ↔ c.R k t s := by unfold R; rw [hr]

/-! ## push, evict, put back -/

theorem view_empty : (Cache.empty K S).view = View.nil K S.σ := rfl

theorem push_spec (h : c.Inv) (k : K) (s : S.σ) : (c.push k s).Inv ∧ (c.push k s).view = c.view.push k s ∧ (c.push k s).ready = c.ready := by
  have h1 : Inv { c with nextCell := c.nextCell + 1 } := inv_congr h rfl rfl rfl rfl (Nat.le_succ _)
  obtain ⟨a, b, d, e⟩ := pushPending_inv h1 (k := k) (s := s) (t := c.nextCell) (Nat.lt_succ_self _)
    (fun hx => Nat.lt_irrefl _ (h.cfresh _ hx)) (fun hx => Nat.lt_irrefl _ (h.fresh _ hx))
  change (c.push k s).Inv at a
  change (c.push k s).ready = c.ready at b
  change (c.push k s).nextCell = c.nextCell + 1 at d
  change ∀ k' t' s', (c.push k s).P k' t' s' ↔ (k' = k ∧ t' = c.nextCell ∧ s' = s) ∨ (k' ≠ k ∧ c.P k' t' s') at e
  refine ⟨a, ?_, b⟩
  apply view_ext
  · intro k' t' s'
    rw [a.pend_iff, e]
    show _ ↔ View.upd c.view.pend k (some (c.nextCell, s)) k' = some (t', s')
    rw [upd_some, h.pend_iff]
  · intro k' t' s'
    rw [a.rdy_iff, R_congr b]
    show _ ↔ c.view.rdy k' = _
    rw [h.rdy_iff]
  · exact d

theorem evict_spec (h : c.Inv) (k : K) : (c.evict k).2.Inv ∧ (c.evict k).2.view = c.view.evict k ∧
    ((c.evict k).1 = true ↔ c.view.pend k ≠ none ∨ c.view.rdy k ≠ none) := by
  obtain ⟨a, b, d, e, f⟩ := evict_inv h k
  refine ⟨a, ?_, ?_⟩
  · apply view_ext
    · intro k' t' s'
      rw [a.pend_iff, e]
      show _ ↔ View.upd c.view.pend k none k' = some (t', s')
      rw [upd_none, h.pend_iff]
    · intro k' t' s'
      rw [a.rdy_iff, f]
      show _ ↔ View.upd c.view.rdy k none k' = some (t', s')
      rw [upd_none, h.rdy_iff]
    · exact b
  · rw [d]
    constructor
    · rintro (⟨t, s, h1⟩ | ⟨t, s, h1⟩)
      · rw [← h.pend_iff] at h1; left; rw [h1]; simp
      · rw [← h.rdy_iff] at h1; right; rw [h1]; simp
    · rintro (h1 | h1)
      · obtain ⟨⟨t, s⟩, h2⟩ := Option.ne_none_iff_exists'.1 h1
        exact Or.inl ⟨t, s, h.pend_iff.1 h2⟩
      · obtain ⟨⟨t, s⟩, h2⟩ := Option.ne_none_iff_exists'.1 h1
        exact Or.inr ⟨t, s, h.rdy_iff.1 h2⟩

theorem pendingContains_iff (h : c.Inv) (k : K) : c.pendingContains k = true ↔ c.view.pend k ≠ none := by
  unfold pendingContains
  rw [IMap.contains_iff]
  constructor
  · intro hm
    obtain ⟨⟨k', t⟩, h1, h2⟩ := List.mem_map.1 hm
    simp only at h2; subst h2
    obtain ⟨s, hs⟩ := (h.tx _ _).1 h1
    rw [h.pend_iff.2 hs]; simp
  · intro hm
    obtain ⟨⟨t, s⟩, h2⟩ := Option.ne_none_iff_exists'.1 hm
    exact List.mem_map.2 ⟨_, (h.tx k t).2 ⟨s, h.pend_iff.1 h2⟩, rfl⟩

/-- a ready service is taken out and put back among the pending ones -/
theorem demote_spec (h : c.Inv) {e : K × (S.σ × (Nat × Nat))} {m : IMap K (S.σ × (Nat × Nat))} (hp : c.ready.Perm (e :: m)) (s' : S.σ) :
    Inv (putBack { c with ready := m } e.1 s' e.2.2) ∧ (putBack { c with ready := m } e.1 s' e.2.2).view = c.view.demote e.1 e.2.2.2 s' ∧
    (putBack { c with ready := m } e.1 s' e.2.2).ready = m := by
  obtain ⟨i1, i2, i3, i4, i5, i6⟩ := rmReady_inv h hp
  have hcont : pendingContains { c with ready := m } e.1 = true ↔ c.view.pend e.1 ≠ none := by
    rw [← pendingContains_iff h]; exact Iff.rfl
  have hP : ∀ k t s, P { c with ready := m } k t s ↔ c.P k t s := fun k t s => P_congr rfl rfl
  unfold putBack
  by_cases hc : c.view.pend e.1 = none
  · rw [if_neg (by rw [hcont]; simpa using hc)]
    obtain ⟨k, s, t1, t2⟩ := e
    simp only at i2 i3 i4 i5 i6 hc ⊢
    subst i6
    obtain ⟨j1, j2, j3, j4⟩ := pushPending_inv i1 (k := k) (s := s') i4 i5 i3
    refine ⟨j1, ?_, j2⟩
    apply view_ext
    · intro k' t' s1
      rw [j1.pend_iff, j4]
      show _ ↔ (if c.view.pend k = none then View.upd c.view.pend k (some (t1, s')) else c.view.pend) k' = some (t', s1)
      rw [if_pos hc, upd_some, h.pend_iff, hP]
    · intro k' t' s1
      rw [j1.rdy_iff, R_congr j2, i2]
      show _ ↔ View.upd c.view.rdy k none k' = some (t', s1)
      rw [upd_none, h.rdy_iff]
    · exact j3
  · rw [if_pos (by rw [hcont]; exact hc)]
    refine ⟨i1, ?_, rfl⟩
    apply view_ext
    · intro k' t' s1
      rw [i1.pend_iff]
      show _ ↔ (if c.view.pend e.1 = none then View.upd c.view.pend e.1 (some (e.2.2.2, s')) else c.view.pend) k' = some (t', s1)
      rw [if_neg hc, h.pend_iff, hP]
    · intro k' t' s1
      rw [i1.rdy_iff, i2]
      show _ ↔ View.upd c.view.rdy e.1 none k' = some (t', s1)
      rw [upd_none, h.rdy_iff]
    · rfl

/-- a ready service is dropped -/
theorem dropRdy_spec (h : c.Inv) {e : K × (S.σ × (Nat × Nat))} {m : IMap K (S.σ × (Nat × Nat))} (hp : c.ready.Perm (e :: m)) :
    Inv { c with ready := m } ∧ view { c with ready := m } = c.view.dropRdy e.1 := by
  obtain ⟨i1, i2, -⟩ := rmReady_inv h hp
  refine ⟨i1, view_ext ?_ ?_ rfl⟩
  · intro k t s
    exact Iff.rfl
  · intro k' t' s1
    rw [i1.rdy_iff, i2]
    show _ ↔ View.upd c.view.rdy e.1 none k' = some (t', s1)
    rw [upd_none, h.rdy_iff]

/-- a ready service changes -/
theorem setRdy_spec (h : c.Inv) {i : Nat} {k : K} {s s' : S.σ} {t : Nat × Nat} (he : c.ready[i]? = some (k, (s, t))) :
    Inv { c with ready := c.ready.set i (k, (s', t)) } ∧ view { c with ready := c.ready.set i (k, (s', t)) } = c.view.setRdy k t.2 s' := by
  obtain ⟨i1, i2⟩ := setReady_inv h he (s' := s')
  refine ⟨i1, view_ext ?_ ?_ rfl⟩
  · intro k t s
    exact Iff.rfl
  · intro k' t' s1
    rw [i1.rdy_iff, i2]
    show _ ↔ View.upd c.view.rdy k (some (t.2, s')) k' = some (t', s1)
    rw [upd_some, h.rdy_iff]

/-- the ready service at an index is that of its key -/
theorem Inv.get_ready (h : c.Inv) {i : Nat} {k : K} {s : S.σ} {t : Nat × Nat} (he : c.ready[i]? = some (k, (s, t))) : c.view.rdy k = some (t.2, s) :=
  h.rdy_iff.2 (h.R_of (List.mem_of_getElem? he))

/-! ## check_ready_index, call_ready_index -/

theorem checkReadyIndex_spec (h : c.Inv) {i : Nat} {k : K} {s : S.σ} {t : Nat × Nat} (he : c.ready[i]? = some (k, (s, t))) (w : W) :
    (∀ m, (S.pollReady s).run w = .panic m → (c.checkReadyIndex i).run w = .panic m) ∧
    ((S.pollReady s).run w = .spin → (c.checkReadyIndex i).run w = .spin) ∧
    (∀ s' w', (S.pollReady s).run w = .ok (.ready (.ok ()), s') w' →
      ∃ c', (c.checkReadyIndex i).run w = .ok (.ok true, c') w' ∧ c'.Inv ∧ c'.view = c.view.setRdy k t.2 s' ∧
        c'.ready = c.ready.set i (k, (s', t)) ∧ c'.pending = c.pending) ∧
    (∀ s' w', (S.pollReady s).run w = .ok (.pending, s') w' →
      ∃ c', (c.checkReadyIndex i).run w = .ok (.ok false, c') w' ∧ c'.Inv ∧ c'.view = c.view.demote k t.2 s' ∧ c.ready.Perm ((k, (s, t)) :: c'.ready)) ∧
    (∀ s' w' e, (S.pollReady s).run w = .ok (.ready (.error e), s') w' →
      ∃ c', (c.checkReadyIndex i).run w = .ok (.error (k, e), c') w' ∧ c'.Inv ∧ c'.view = c.view.dropRdy k ∧ c.ready.Perm ((k, (s, t)) :: c'.ready) ∧
        c'.pending = c.pending) := by
  have hi : i < c.ready.length := (List.getElem?_eq_some_iff.1 he).1
  have hset : ∀ s' : S.σ, (c.ready.set i (k, (s', t)))[i]? = some (k, (s', t)) := fun s' => by simp [hi]
  have hrm : ∀ s' : S.σ, ∃ m, IMap.swapRemoveIndex (c.ready.set i (k, (s', t))) i = some ((k, (s', t)), m) ∧ c.ready.Perm ((k, (s, t)) :: m) := by
    intro s'
    obtain ⟨m, hm⟩ := IMap.swapRemoveIndex_isSome (hset s')
    refine ⟨m, hm, ?_⟩
    have hp := (IMap.swapRemoveIndex_some hm).2
    obtain ⟨l, r, hr, hl, hs, _⟩ := split_at he
    rw [hs] at hp
    have := (List.perm_middle.symm.trans hp).cons_inv
    rw [hr]
    exact List.perm_middle.trans (this.cons _)
  refine ⟨?_, ?_, ?_, ?_, ?_⟩
  · intro m hm
    unfold checkReadyIndex
    simp only [he]
    rw [Act.run_bind, hm]
  · intro hm
    unfold checkReadyIndex
    simp only [he]
    rw [Act.run_bind, hm]
  · intro s' w' hm
    unfold checkReadyIndex
    simp only [he]
    rw [Act.run_bind_ok hm]
    obtain ⟨i1, i2⟩ := setRdy_spec h he (s' := s')
    exact ⟨_, rfl, i1, i2, rfl, rfl⟩
  · intro s' w' hm
    unfold checkReadyIndex
    simp only [he]
    rw [Act.run_bind_ok hm]
    obtain ⟨m, h1, h2⟩ := hrm s'
    simp only [h1]
    obtain ⟨i1, i2, i3⟩ := demote_spec h h2 s'
    exact ⟨_, rfl, i1, i2, by rw [i3]; exact h2⟩
  · intro s' w' e hm
    unfold checkReadyIndex
    simp only [he]
    rw [Act.run_bind_ok hm]
    obtain ⟨m, h1, h2⟩ := hrm s'
    simp only [h1]
    obtain ⟨i1, i2⟩ := dropRdy_spec h h2
    exact ⟨_, rfl, i1, i2, h2, rfl⟩

theorem checkReadyIndex_none {i : Nat} (he : c.ready[i]? = none) (w : W) : (c.checkReadyIndex i).run w = .ok (.ok false, c) w := by
  unfold checkReadyIndex
  simp only [he]
  rfl

theorem callReadyIndex_spec (h : c.Inv) {i : Nat} {k : K} {s : S.σ} {t : Nat × Nat} (he : c.ready[i]? = some (k, (s, t))) (r : Req) (w : W) :
    (∀ m, (S.call s r).run w = .panic m → (c.callReadyIndex i r).run w = .panic m) ∧
    ((S.call s r).run w = .spin → (c.callReadyIndex i r).run w = .spin) ∧
    (∀ f s' w', (S.call s r).run w = .ok (f, s') w' →
      ∃ c', (c.callReadyIndex i r).run w = .ok (f, c') w' ∧ c'.Inv ∧ c'.view = c.view.demote k t.2 s' ∧ c.ready.Perm ((k, (s, t)) :: c'.ready)) := by
  obtain ⟨m, hm⟩ := IMap.swapRemoveIndex_isSome he
  have h2 := (IMap.swapRemoveIndex_some hm).2
  refine ⟨?_, ?_, ?_⟩
  · intro x hx
    unfold callReadyIndex
    simp only [hm]
    rw [Act.run_bind, hx]
  · intro hx
    unfold callReadyIndex
    simp only [hm]
    rw [Act.run_bind, hx]
  · intro f s' w' hx
    unfold callReadyIndex
    simp only [hm]
    rw [Act.run_bind_ok hx]
    obtain ⟨i1, i2, i3⟩ := demote_spec h h2 s'
    exact ⟨_, rfl, i1, i2, by rw [i3]; exact h2⟩

theorem callReadyIndex_none {i : Nat} (he : c.ready[i]? = none) (r : Req) (w : W) :
    (c.callReadyIndex i r).run w = .panic "check_ready_index was not called" := by
  unfold callReadyIndex
  cases hs : c.ready.swapRemoveIndex i with
  | none => rfl
  | some x =>
    obtain ⟨e, m⟩ := x
    have := (IMap.swapRemoveIndex_some hs).1
    rw [he] at this; cases this

/-! ## poll_pending -/

/-- a waiting service changes -/
theorem setPend_spec (h : c.Inv) {l r : List (PEnt K S.σ)} {e : PEnt K S.σ} (hp : c.pending = l ++ e :: r) (hc : e.rx ∉ c.cancelled) (s' : S.σ) :
    Inv { c with pending := l ++ { e with svc := s' } :: r } ∧ view { c with pending := l ++ { e with svc := s' } :: r } = c.view.setPend e.key e.rx s' := by
  obtain ⟨i1, i2⟩ := setPend_inv h hp hc s'
  refine ⟨i1, view_ext ?_ ?_ rfl⟩
  · intro k' t' s1
    rw [i1.pend_iff, i2]
    show _ ↔ View.upd c.view.pend e.key (some (e.rx, s')) k' = some (t', s1)
    rw [upd_some, h.pend_iff]
  · intro k' t' s1
    exact Iff.rfl

/-- a cancelled future goes away -/
theorem rmCancelled_spec (h : c.Inv) {l r : List (PEnt K S.σ)} {e : PEnt K S.σ} (hp : c.pending = l ++ e :: r) (hc : e.rx ∈ c.cancelled) :
    Inv { c with pending := l ++ r } ∧ view { c with pending := l ++ r } = c.view := by
  obtain ⟨i1, i2⟩ := rmCancelled_inv h hp hc
  refine ⟨i1, view_ext ?_ ?_ rfl⟩
  · intro k' t' s1
    rw [i1.pend_iff, i2, h.pend_iff]
  · intro k' t' s1
    exact Iff.rfl

/-- a waiting service fails -/
theorem failed_spec (h : c.Inv) {l r : List (PEnt K S.σ)} {e : PEnt K S.σ} (hp : c.pending = l ++ e :: r) (hc : e.rx ∉ c.cancelled) :
    ∃ m, c.txs.swapRemove e.key = some (e.rx, m) ∧ Inv { c with pending := l ++ r, txs := m } ∧
      view { c with pending := l ++ r, txs := m } = c.view.dropPend e.key := by
  obtain ⟨m, h1, i1, i2, _⟩ := rmPend_inv h hp hc
  refine ⟨m, h1, i1, view_ext ?_ ?_ rfl⟩
  · intro k' t' s1
    rw [i1.pend_iff, i2]
    show _ ↔ View.upd c.view.pend e.key none k' = some (t', s1)
    rw [upd_none, h.pend_iff]
  · intro k' t' s1
    exact Iff.rfl

/-- a waiting service is ready -/
theorem promote_spec (h : c.Inv) {l r : List (PEnt K S.σ)} {e : PEnt K S.σ} (hp : c.pending = l ++ e :: r) (hc : e.rx ∉ c.cancelled) (s' : S.σ) :
    ∃ m, c.txs.swapRemove e.key = some (e.rx, m) ∧
      Inv { c with pending := l ++ r, txs := m, ready := c.ready.insert e.key (s', (e.rx, e.rx)) } ∧
      view { c with pending := l ++ r, txs := m, ready := c.ready.insert e.key (s', (e.rx, e.rx)) } = c.view.promote e.key e.rx s' := by
  obtain ⟨m, h1, i1, i2, i3, i4⟩ := rmPend_inv h hp hc
  obtain ⟨j1, j2⟩ := insReady_inv i1 (k := e.key) (s := s') i4 hc i3
  refine ⟨m, h1, j1, view_ext ?_ ?_ rfl⟩
  · intro k' t' s1
    rw [j1.pend_iff]
    refine Iff.trans (i2 k' t' s1) ?_
    show _ ↔ View.upd c.view.pend e.key none k' = some (t', s1)
    rw [upd_none, h.pend_iff]
  · intro k' t' s1
    rw [j1.rdy_iff, j2]
    show _ ↔ View.upd c.view.rdy e.key (some (e.rx, s')) k' = some (t', s1)
    rw [upd_some, h.rdy_iff]
    exact Iff.rfl

end Cache
end Tower
