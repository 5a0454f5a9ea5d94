import Verif.Proof.IMap
import Verif.Proof.Wpx
import Verif.Spec.CacheSpec
import Mathlib.Data.List.Nodup

/-! # The invariant of the cache -/

namespace Tower
set_option linter.unusedSectionVars false
variable {W Req Res Err : Type} {K : Type} [DecidableEq K] {S : Service W Req Res Err}

namespace Cache

/-- service `t`, in state `s`, waits for key `k` -/
def P (c : Cache K S) (k : K) (t : Nat) (s : S.σ) : Prop := PEnt.mk k s t ∈ c.pending ∧ t ∉ c.cancelled

/-- service `t`, in state `s`, is ready for key `k` -/
def R (c : Cache K S) (k : K) (t : Nat) (s : S.σ) : Prop := (k, (s, (t, t))) ∈ c.ready

/-- the cells in use -/
def cells (c : Cache K S) : List Nat := c.pending.map (·.rx) ++ c.ready.map (·.2.2.2)

structure Inv (c : Cache K S) : Prop where
  rkeys : (c.ready.map (·.1)).Nodup
  tkeys : (c.txs.map (·.1)).Nodup
  cells : c.cells.Nodup
  pair : ∀ e ∈ c.ready, e.2.2.1 = e.2.2.2
  rlive : ∀ e ∈ c.ready, e.2.2.2 ∉ c.cancelled
  tx : ∀ k t, (k, t) ∈ c.txs ↔ ∃ s, c.P k t s
  fresh : ∀ t ∈ c.cells, t < c.nextCell
  cfresh : ∀ t ∈ c.cancelled, t < c.nextCell

theorem inv_empty : (Cache.empty K S).Inv := by
  constructor <;> simp [Cache.empty, Cache.cells, Cache.P]

/-- entries with the same cell are equal -/
theorem ent_inj {p : List (PEnt K S.σ)} (h : (p.map (·.rx)).Nodup) {e e' : PEnt K S.σ} (he : e ∈ p) (he' : e' ∈ p) (hr : e.rx = e'.rx) : e = e' :=
  List.inj_on_of_nodup_map h he he' hr

variable {c : Cache K S}

theorem Inv.pnodup (h : c.Inv) : (c.pending.map (·.rx)).Nodup := (List.nodup_append.1 h.cells).1

theorem Inv.disj (h : c.Inv) {e : PEnt K S.σ} (he : e ∈ c.pending) {r} (hr : r ∈ c.ready) : e.rx ≠ r.2.2.2 := by
  intro heq
  exact (List.nodup_append.1 h.cells).2.2 e.rx (List.mem_map.2 ⟨e, he, rfl⟩) _ (List.mem_map.2 ⟨r, hr, rfl⟩) heq

theorem Inv.P_cell (h : c.Inv) {k k' t s s'} (hp : c.P k t s) (hp' : c.P k' t s') : k = k' ∧ s = s' := by
  have := ent_inj h.pnodup hp.1 hp'.1 rfl
  cases this; exact ⟨rfl, rfl⟩

theorem Inv.P_key (h : c.Inv) {k t t' s s'} (hp : c.P k t s) (hp' : c.P k t' s') : t = t' ∧ s = s' := by
  have h1 := (h.tx k t).2 ⟨s, hp⟩
  have h2 := (h.tx k t').2 ⟨s', hp'⟩
  have := IMap.nodup_val h.tkeys h1 h2
  subst this
  exact ⟨rfl, (h.P_cell hp hp').2⟩

theorem Inv.R_key (h : c.Inv) {k t t' s s'} (hp : c.R k t s) (hp' : c.R k t' s') : t = t' ∧ s = s' := by
  have := IMap.nodup_val h.rkeys hp hp'
  simp only [Prod.mk.injEq] at this
  exact ⟨this.2.1, this.1⟩

theorem Inv.R_of (h : c.Inv) {e} (he : e ∈ c.ready) : c.R e.1 e.2.2.2 e.2.1 := by
  obtain ⟨k, s, t, t'⟩ := e
  have := h.pair _ he
  simp only at this
  subst this
  exact he

/-- changing only what is not mentioned -/
theorem inv_congr {c c' : Cache K S} (h : c.Inv) (h1 : c'.pending = c.pending) (h2 : c'.txs = c.txs) (h3 : c'.ready = c.ready)
    (h4 : c'.cancelled = c.cancelled) (h5 : c.nextCell ≤ c'.nextCell) : c'.Inv := by
  obtain ⟨p, t, r, x, n⟩ := c
  obtain ⟨p', t', r', x', n'⟩ := c'
  simp only at h1 h2 h3 h4 h5
  subst h1 h2 h3 h4
  exact ⟨h.rkeys, h.tkeys, h.cells, h.pair, h.rlive, h.tx, fun t ht => Nat.lt_of_lt_of_le (h.fresh t ht) h5,
    fun t ht => Nat.lt_of_lt_of_le (h.cfresh t ht) h5⟩

/-! ## push_pending -/

theorem pushPending_inv (h : c.Inv) {k : K} {s : S.σ} {t : Nat} (hn : t < c.nextCell) (hc : t ∉ c.cancelled) (hf : t ∉ c.cells) :
    (c.pushPending k s (t, t)).Inv ∧ (c.pushPending k s (t, t)).ready = c.ready ∧ (c.pushPending k s (t, t)).nextCell = c.nextCell ∧
    (∀ k' t' s', (c.pushPending k s (t, t)).P k' t' s' ↔ (k' = k ∧ t' = t ∧ s' = s) ∨ (k' ≠ k ∧ c.P k' t' s')) := by
  have hfp : ∀ e ∈ c.pending, e.rx ≠ t := fun e he heq => hf (List.mem_append.2 (Or.inl (List.mem_map.2 ⟨e, he, heq⟩)))
  have hfr : ∀ e ∈ c.ready, e.2.2.2 ≠ t := fun e he heq => hf (List.mem_append.2 (Or.inr (List.mem_map.2 ⟨e, he, heq⟩)))
  -- the cells afterwards
  have key : ∀ x : List Nat, (∀ y, y ∈ x ↔ y ∈ c.cancelled ∨ (∃ s, c.P k y s)) →
      let c' : Cache K S := ⟨c.pending ++ [⟨k, s, t⟩], c.txs.insert k t, c.ready, x, c.nextCell⟩
      c'.Inv ∧ (∀ k' t' s', c'.P k' t' s' ↔ (k' = k ∧ t' = t ∧ s' = s) ∨ (k' ≠ k ∧ c.P k' t' s')) := by
    intro x hx c'
    have hP : ∀ k' t' s', c'.P k' t' s' ↔ (k' = k ∧ t' = t ∧ s' = s) ∨ (k' ≠ k ∧ c.P k' t' s') := by
      intro k' t' s'
      simp only [Cache.P, c', List.mem_append, List.mem_singleton, PEnt.mk.injEq, hx, not_or, not_exists, not_and, not_not]
      constructor
      · rintro ⟨hm | ⟨rfl, rfl, rfl⟩, h2, h3⟩
        · refine Or.inr ⟨?_, hm, h2⟩
          rintro rfl
          exact h2 (h3 s' hm)
        · exact Or.inl ⟨rfl, rfl, rfl⟩
      · rintro (⟨rfl, rfl, rfl⟩ | ⟨hk, hm, h2⟩)
        · refine ⟨Or.inr ⟨rfl, rfl, rfl⟩, hc, fun s0 h0 => absurd rfl (hfp _ h0)⟩
        · refine ⟨Or.inl hm, h2, fun s0 h0 => ?_⟩
          have := ent_inj h.pnodup hm h0 rfl
          cases this; exact absurd rfl hk
    refine ⟨⟨h.rkeys, ?_, ?_, h.pair, ?_, ?_, ?_, ?_⟩, hP⟩
    · simp only [c']
      rcases IMap.insert_cases h.tkeys k t with ⟨l, v0, r, h1, h2⟩ | ⟨h1, h2⟩
      · have := h.tkeys
        rw [h1] at this; rw [h2]; simpa using this
      · rw [h2]
        simp only [List.map_append, List.map_cons, List.map_nil]
        exact List.nodup_append.2 ⟨h.tkeys, by simp, by rintro a ha b hb rfl; simp at hb; subst hb; exact h1 ha⟩
    · have hperm : c'.cells.Perm (t :: c.cells) := by
        simp only [Cache.cells, c', List.map_append, List.map_cons, List.map_nil, List.append_assoc, List.singleton_append]
        exact List.perm_middle
      exact hperm.nodup_iff.2 (List.nodup_cons.2 ⟨hf, h.cells⟩)
    · intro e he hcan
      rcases (hx _).1 hcan with h1 | ⟨s0, h1⟩
      · exact h.rlive e he h1
      · exact h.disj h1.1 he rfl
    · intro k' t'
      have ht : (k', t') ∈ c'.txs ↔ (k' = k ∧ t' = t) ∨ (k' ≠ k ∧ (k', t') ∈ c.txs) := by
        simp only [c']
        rcases IMap.insert_cases h.tkeys k t with ⟨l, v0, r, h1, h2⟩ | ⟨h1, h2⟩
        · rw [h2]
          have hk := h.tkeys
          rw [h1] at hk ⊢
          simp only [List.map_append, List.map_cons] at hk
          have hl := (List.nodup_append.1 hk).2.2
          have hr := (List.nodup_cons.1 (List.nodup_append.1 hk).2.1).1
          simp only [List.mem_append, List.mem_cons, Prod.mk.injEq]
          constructor
          · rintro (h3 | h3 | h3)
            · exact Or.inr ⟨fun he => hl k' (List.mem_map.2 ⟨_, h3, rfl⟩) k (by simp) he, Or.inl h3⟩
            · exact Or.inl h3
            · exact Or.inr ⟨fun he => hr (he ▸ List.mem_map.2 ⟨_, h3, rfl⟩), Or.inr (Or.inr h3)⟩
          · rintro (h3 | ⟨hk', h3 | ⟨h3, _⟩ | h3⟩)
            · exact Or.inr (Or.inl h3)
            · exact Or.inl h3
            · exact absurd h3 hk'
            · exact Or.inr (Or.inr h3)
        · rw [h2]
          simp only [List.mem_append, List.mem_singleton, Prod.mk.injEq]
          constructor
          · rintro (h3 | h3)
            · exact Or.inr ⟨fun he => h1 (he ▸ List.mem_map.2 ⟨_, h3, rfl⟩), h3⟩
            · exact Or.inl h3
          · rintro (h3 | h3)
            · exact Or.inr h3
            · exact Or.inl h3.2
      rw [ht, h.tx]
      simp only [hP]
      constructor
      · rintro (⟨rfl, rfl⟩ | ⟨hk, s0, h0⟩)
        · exact ⟨s, Or.inl ⟨rfl, rfl, rfl⟩⟩
        · exact ⟨s0, Or.inr ⟨hk, h0⟩⟩
      · rintro ⟨s0, ⟨h1, h2, _⟩ | ⟨hk, h0⟩⟩
        · exact Or.inl ⟨h1, h2⟩
        · exact Or.inr ⟨hk, s0, h0⟩
    · intro y hy
      simp only [Cache.cells, c', List.map_append, List.mem_append, List.map_cons, List.map_nil, List.mem_singleton] at hy
      rcases hy with (hy | rfl) | hy
      · exact h.fresh y (List.mem_append.2 (Or.inl hy))
      · exact hn
      · exact h.fresh y (List.mem_append.2 (Or.inr hy))
    · intro y hy
      rcases (hx y).1 hy with h1 | ⟨s0, h1⟩
      · exact h.cfresh y h1
      · exact h.fresh y (List.mem_append.2 (Or.inl (List.mem_map.2 ⟨_, h1.1, rfl⟩)))
  unfold pushPending
  cases hg : c.txs.get k with
  | none =>
    have := key c.cancelled (by
      intro y
      constructor
      · exact Or.inl
      · rintro (h1 | ⟨s0, h1⟩)
        · exact h1
        · exact absurd (List.mem_map.2 ⟨_, (h.tx k y).2 ⟨s0, h1⟩, rfl⟩) (IMap.get_none hg))
    exact ⟨this.1, rfl, rfl, this.2⟩
  | some old =>
    have ho := IMap.get_some hg
    obtain ⟨s0, h0⟩ := (h.tx k old).1 ho
    have := key (old :: c.cancelled) (by
      intro y
      rw [List.mem_cons]
      constructor
      · rintro (rfl | h1)
        · exact Or.inr ⟨s0, h0⟩
        · exact Or.inl h1
      · rintro (h1 | ⟨s1, h1⟩)
        · exact Or.inr h1
        · exact Or.inl (h.P_key h1 h0).1)
    exact ⟨this.1, rfl, rfl, this.2⟩

/-! ## Ready services -/

/-- a ready service is taken out -/
theorem rmReady_inv (h : c.Inv) {e : K × (S.σ × (Nat × Nat))} {m : IMap K (S.σ × (Nat × Nat))} (hp : c.ready.Perm (e :: m)) :
    Inv { c with ready := m } ∧ (∀ k t s, Cache.R { c with ready := m } k t s ↔ k ≠ e.1 ∧ c.R k t s) ∧
      e.2.2.2 ∉ Cache.cells { c with ready := m } ∧ e.2.2.2 < c.nextCell ∧ e.2.2.2 ∉ c.cancelled ∧ e.2.2.1 = e.2.2.2 := by
  have he : e ∈ c.ready := hp.mem_iff.2 (by simp)
  have hk : ((e :: m).map (·.1)).Nodup := (hp.map (·.1)).nodup_iff.1 h.rkeys
  have hcp : c.cells.Perm (e.2.2.2 :: Cache.cells { c with ready := m }) := by
    unfold Cache.cells
    exact ((hp.map (·.2.2.2)).append_left _).trans List.perm_middle
  have hcn := hcp.nodup_iff.1 h.cells
  have hm : ∀ x, x ∈ m → x ∈ c.ready := fun x hx => hp.mem_iff.2 (by simp [hx])
  refine ⟨⟨(List.nodup_cons.1 hk).2, h.tkeys, (List.nodup_cons.1 hcn).2, fun x hx => h.pair x (hm x hx), fun x hx => h.rlive x (hm x hx), h.tx,
    fun t ht => h.fresh t (hcp.mem_iff.2 (by simp [ht])), h.cfresh⟩, ?_, (List.nodup_cons.1 hcn).1, h.fresh _ (hcp.mem_iff.2 (by simp)), h.rlive e he, h.pair e he⟩
  intro k t s
  constructor
  · intro hr
    refine ⟨?_, hm _ hr⟩
    rintro rfl
    exact (List.nodup_cons.1 hk).1 (List.mem_map.2 ⟨_, hr, rfl⟩)
  · rintro ⟨hne, hr⟩
    rcases List.mem_cons.1 (hp.mem_iff.1 hr) with rfl | h1
    · exact absurd rfl hne
    · exact h1

/-- a ready service changes in place -/
theorem setReady_inv (h : c.Inv) {i : Nat} {k : K} {s s' : S.σ} {t : Nat × Nat} (he : c.ready[i]? = some (k, (s, t))) :
    Inv { c with ready := c.ready.set i (k, (s', t)) } ∧
      (∀ k1 t1 s1, Cache.R { c with ready := c.ready.set i (k, (s', t)) } k1 t1 s1 ↔ (k1 = k ∧ t1 = t.2 ∧ s1 = s') ∨ (k1 ≠ k ∧ c.R k1 t1 s1)) := by
  obtain ⟨l, r, hr, hl, hs, _⟩ := split_at he
  have hrk := h.rkeys
  have hcl := h.cells
  have hpair := h.pair
  have hrl := h.rlive
  have hfr := h.fresh
  have htp : t.1 = t.2 := h.pair (k, (s, t)) (by rw [hr]; simp)
  obtain ⟨t1, t2⟩ := t
  simp only at htp
  subst htp
  rw [hs]
  rw [hr] at hrk hpair hrl
  unfold Cache.cells at hcl hfr
  rw [hr] at hcl hfr
  simp only [List.map_append, List.map_cons] at hrk hcl hfr
  refine ⟨⟨by simpa using hrk, h.tkeys, by simpa [Cache.cells] using hcl, ?_, ?_, h.tx, by simpa [Cache.cells] using hfr, h.cfresh⟩, ?_⟩
  · intro e he
    simp only [List.mem_append, List.mem_cons] at he
    rcases he with he | rfl | he
    · exact hpair e (by simp [he])
    · rfl
    · exact hpair e (by simp [he])
  · intro e he
    simp only [List.mem_append, List.mem_cons] at he
    rcases he with he | rfl | he
    · exact hrl e (by simp [he])
    · exact hrl (k, (s, (t1, t1))) (by simp)
    · exact hrl e (by simp [he])
  · intro k1 u1 s1
    have hl := (List.nodup_append.1 hrk).2.2
    have hrr := (List.nodup_cons.1 (List.nodup_append.1 hrk).2.1).1
    simp only [Cache.R, hr, List.mem_append, List.mem_cons, Prod.mk.injEq]
    constructor
    · rintro (h3 | ⟨rfl, rfl, rfl, _⟩ | h3)
      · exact Or.inr ⟨fun he => hl k1 (List.mem_map.2 ⟨_, h3, rfl⟩) k (by simp) he, Or.inl h3⟩
      · exact Or.inl ⟨rfl, rfl, rfl⟩
      · exact Or.inr ⟨fun he => hrr (he ▸ List.mem_map.2 ⟨_, h3, rfl⟩), Or.inr (Or.inr h3)⟩
    · rintro (⟨rfl, rfl, rfl⟩ | ⟨hk', h3 | ⟨h3, _⟩ | h3⟩)
      · exact Or.inr (Or.inl ⟨rfl, rfl, rfl, rfl⟩)
      · exact Or.inl h3
      · exact absurd h3 hk'
      · exact Or.inr (Or.inr h3)

/-! ## evict -/

theorem evictPending_inv (h : c.Inv) (k : K) :
    (c.evictPending k).2.Inv ∧ (c.evictPending k).2.ready = c.ready ∧ (c.evictPending k).2.nextCell = c.nextCell ∧
    ((c.evictPending k).1 = true ↔ ∃ t s, c.P k t s) ∧
    (∀ k' t s, (c.evictPending k).2.P k' t s ↔ k' ≠ k ∧ c.P k' t s) := by
  unfold evictPending
  cases hs : c.txs.swapRemove k with
  | none =>
    have hn : ∀ t s, ¬ c.P k t s := fun t s hp => IMap.swapRemove_none hs (List.mem_map.2 ⟨_, (h.tx k t).2 ⟨s, hp⟩, rfl⟩)
    refine ⟨h, rfl, rfl, ⟨fun h => (by cases h), fun ⟨t, s, hp⟩ => absurd hp (hn t s)⟩, fun k' t s => ⟨fun hp => ⟨?_, hp⟩, fun hp => hp.2⟩⟩
    rintro rfl
    exact hn t s hp
  | some x =>
    obtain ⟨t0, m⟩ := x
    have hp := IMap.swapRemove_some hs
    obtain ⟨s0, h0⟩ := (h.tx k t0).1 (hp.mem_iff.2 (by simp))
    have hk : (((k, t0) :: m).map (·.1)).Nodup := (hp.map (·.1)).nodup_iff.1 h.tkeys
    have hP : ∀ k' t s, (PEnt.mk k' s t ∈ c.pending ∧ t ∉ t0 :: c.cancelled) ↔ k' ≠ k ∧ c.P k' t s := by
      intro k' t s
      simp only [Cache.P, List.mem_cons, not_or]
      constructor
      · rintro ⟨h1, h2, h3⟩
        refine ⟨?_, h1, h3⟩
        rintro rfl
        exact h2 (h.P_key ⟨h1, h3⟩ h0).1
      · rintro ⟨h1, h2, h3⟩
        refine ⟨h2, ?_, h3⟩
        rintro rfl
        exact h1 (h.P_cell ⟨h2, h3⟩ h0).1
    refine ⟨⟨h.rkeys, (List.nodup_cons.1 hk).2, h.cells, h.pair, ?_, ?_, h.fresh, ?_⟩, rfl, rfl, ⟨fun _ => ⟨t0, s0, h0⟩, fun _ => rfl⟩, hP⟩
    · intro e he hcan
      rcases List.mem_cons.1 hcan with h1 | h1
      · exact h.disj h0.1 he h1.symm
      · exact h.rlive e he h1
    · intro k' t
      have h1 : (k', t) ∈ m ↔ k' ≠ k ∧ (k', t) ∈ c.txs := by
        rw [hp.mem_iff, List.mem_cons]
        constructor
        · intro h1
          refine ⟨?_, Or.inr h1⟩
          rintro rfl
          exact (List.nodup_cons.1 hk).1 (List.mem_map.2 ⟨_, h1, rfl⟩)
        · rintro ⟨h1, h2 | h2⟩
          · cases h2; exact absurd rfl h1
          · exact h2
      show (k', t) ∈ m ↔ ∃ s, PEnt.mk k' s t ∈ c.pending ∧ t ∉ t0 :: c.cancelled
      rw [h1, h.tx]
      simp only [hP]
      constructor
      · rintro ⟨a, s, b⟩; exact ⟨s, a, b⟩
      · rintro ⟨s, a, b⟩; exact ⟨a, s, b⟩
    · intro y hy
      rcases List.mem_cons.1 hy with rfl | h1
      · exact h.fresh _ (List.mem_append.2 (Or.inl (List.mem_map.2 ⟨_, h0.1, rfl⟩)))
      · exact h.cfresh y h1

theorem evict_inv (h : c.Inv) (k : K) :
    (c.evict k).2.Inv ∧ (c.evict k).2.nextCell = c.nextCell ∧
    ((c.evict k).1 = true ↔ (∃ t s, c.P k t s) ∨ (∃ t s, c.R k t s)) ∧
    (∀ k' t s, (c.evict k).2.P k' t s ↔ k' ≠ k ∧ c.P k' t s) ∧ (∀ k' t s, (c.evict k).2.R k' t s ↔ k' ≠ k ∧ c.R k' t s) := by
  obtain ⟨i1, i2, i3, i4, i5⟩ := evictPending_inv h k
  unfold evict
  rcases hc : c.evictPending k with ⟨b, c1⟩
  rw [hc] at i1 i2 i3 i4 i5
  simp only at i1 i2 i3 i4 i5 ⊢
  have hR : ∀ k' t s, c1.R k' t s ↔ c.R k' t s := fun k' t s => by unfold Cache.R; rw [i2]
  cases hs : c1.ready.swapRemove k with
  | none =>
    have hn : ∀ t s, ¬ c1.R k t s := fun t s hr => IMap.swapRemove_none hs (List.mem_map.2 ⟨_, hr, rfl⟩)
    refine ⟨i1, i3, ?_, i5, ?_⟩
    · rw [i4]
      constructor
      · exact Or.inl
      · rintro (h1 | ⟨t, s, h1⟩)
        · exact h1
        · exact absurd ((hR _ _ _).2 h1) (hn t s)
    · intro k' t s
      rw [hR]
      refine ⟨fun hr => ⟨?_, hr⟩, fun hr => hr.2⟩
      rintro rfl
      exact hn t s ((hR _ _ _).2 hr)
  | some x =>
    obtain ⟨v, m⟩ := x
    have hp := IMap.swapRemove_some hs
    obtain ⟨j1, j2, _⟩ := rmReady_inv i1 hp
    refine ⟨j1, i3, ⟨fun _ => Or.inr ?_, fun _ => rfl⟩, i5, ?_⟩
    · have := i1.R_of (e := (k, v)) (hp.mem_iff.2 (by simp))
      exact ⟨_, _, (hR _ _ _).1 this⟩
    · intro k' t s
      rw [j2, hR]

/-! ## Pending services -/

/-- a cancelled future is dropped -/
theorem rmCancelled_inv (h : c.Inv) {l r : List (PEnt K S.σ)} {e : PEnt K S.σ} (hp : c.pending = l ++ e :: r) (hc : e.rx ∈ c.cancelled) :
    Inv { c with pending := l ++ r } ∧ (∀ k t s, Cache.P { c with pending := l ++ r } k t s ↔ c.P k t s) := by
  have hP : ∀ k t s, Cache.P { c with pending := l ++ r } k t s ↔ c.P k t s := by
    intro k t s
    unfold Cache.P
    rw [hp]
    simp only [List.mem_append, List.mem_cons]
    constructor
    · rintro ⟨h1 | h1, h2⟩
      · exact ⟨Or.inl h1, h2⟩
      · exact ⟨Or.inr (Or.inr h1), h2⟩
    · rintro ⟨h1 | h1 | h1, h2⟩
      · exact ⟨Or.inl h1, h2⟩
      · subst h1; exact absurd hc h2
      · exact ⟨Or.inr h1, h2⟩
  have hcp : c.cells.Perm (e.rx :: Cache.cells { c with pending := l ++ r }) := by
    unfold Cache.cells
    rw [hp]
    simp only [List.map_append, List.map_cons, List.append_assoc, List.cons_append]
    exact List.perm_middle
  refine ⟨⟨h.rkeys, h.tkeys, (List.nodup_cons.1 (hcp.nodup_iff.1 h.cells)).2, h.pair, h.rlive, fun k t => ?_, fun t ht => h.fresh t (hcp.mem_iff.2 (by simp [ht])), h.cfresh⟩, hP⟩
  show (k, t) ∈ c.txs ↔ _
  rw [h.tx]
  simp only [hP]

/-- a waiting service changes in place -/
theorem setPend_inv (h : c.Inv) {l r : List (PEnt K S.σ)} {e : PEnt K S.σ} (hp : c.pending = l ++ e :: r) (hc : e.rx ∉ c.cancelled) (s' : S.σ) :
    Inv { c with pending := l ++ { e with svc := s' } :: r } ∧
      (∀ k t s, Cache.P { c with pending := l ++ { e with svc := s' } :: r } k t s ↔ (k = e.key ∧ t = e.rx ∧ s = s') ∨ (k ≠ e.key ∧ c.P k t s)) := by
  obtain ⟨ek, es, et⟩ := e
  simp only at hc ⊢
  have h0 : c.P ek et es := ⟨by rw [hp]; simp, hc⟩
  have hnd := h.pnodup
  rw [hp] at hnd
  simp only [List.map_append, List.map_cons] at hnd
  have hl := (List.nodup_append.1 hnd).2.2
  have hr := (List.nodup_cons.1 (List.nodup_append.1 hnd).2.1).1
  have hP : ∀ k t s, Cache.P { c with pending := l ++ ⟨ek, s', et⟩ :: r } k t s ↔ (k = ek ∧ t = et ∧ s = s') ∨ (k ≠ ek ∧ c.P k t s) := by
    intro k t s
    constructor
    · rintro ⟨h1, h2⟩
      simp only [List.mem_append, List.mem_cons, PEnt.mk.injEq] at h1
      have hne : (PEnt.mk k s t ∈ l ∨ PEnt.mk k s t ∈ r) → k ≠ ek ∧ c.P k t s := by
        intro q1
        have hm : c.P k t s := ⟨by rw [hp]; simp only [List.mem_append, List.mem_cons]; rcases q1 with q1 | q1 <;> simp [q1], h2⟩
        refine ⟨?_, hm⟩
        rintro rfl
        obtain ⟨rfl, rfl⟩ := h.P_key hm h0
        rcases q1 with q1 | q1
        · exact hl t (List.mem_map.2 ⟨_, q1, rfl⟩) t (by simp) rfl
        · exact hr (List.mem_map.2 ⟨PEnt.mk k s t, q1, rfl⟩)
      rcases h1 with h1 | ⟨rfl, rfl, rfl⟩ | h1
      · exact Or.inr (hne (Or.inl h1))
      · exact Or.inl ⟨rfl, rfl, rfl⟩
      · exact Or.inr (hne (Or.inr h1))
    · rintro (⟨rfl, rfl, rfl⟩ | ⟨hk, h1, h2⟩)
      · exact ⟨by simp, hc⟩
      · refine ⟨?_, h2⟩
        rw [hp] at h1
        simp only [List.mem_append, List.mem_cons, PEnt.mk.injEq] at h1 ⊢
        rcases h1 with h1 | h1 | h1
        · exact Or.inl h1
        · exact absurd h1.1 hk
        · exact Or.inr (Or.inr h1)
  have hcp : Cache.cells { c with pending := l ++ ⟨ek, s', et⟩ :: r } = c.cells := by
    unfold Cache.cells
    rw [hp]
    simp
  refine ⟨⟨h.rkeys, h.tkeys, by rw [hcp]; exact h.cells, h.pair, h.rlive, fun k t => ?_, by rw [hcp]; exact h.fresh, h.cfresh⟩, hP⟩
  show (k, t) ∈ c.txs ↔ _
  rw [h.tx]
  simp only [hP]
  constructor
  · rintro ⟨s, h1⟩
    by_cases hk : k = ek
    · subst hk
      obtain ⟨rfl, rfl⟩ := h.P_key h1 h0
      exact ⟨s', Or.inl ⟨rfl, rfl, rfl⟩⟩
    · exact ⟨s, Or.inr ⟨hk, h1⟩⟩
  · rintro ⟨s, ⟨rfl, rfl, rfl⟩ | ⟨_, h1⟩⟩
    · exact ⟨_, h0⟩
    · exact ⟨s, h1⟩

/-- a waiting service leaves the pending set, with its handle -/
theorem rmPend_inv (h : c.Inv) {l r : List (PEnt K S.σ)} {e : PEnt K S.σ} (hp : c.pending = l ++ e :: r) (hc : e.rx ∉ c.cancelled) :
    ∃ m, c.txs.swapRemove e.key = some (e.rx, m) ∧ Inv { c with pending := l ++ r, txs := m } ∧
      (∀ k t s, Cache.P { c with pending := l ++ r, txs := m } k t s ↔ k ≠ e.key ∧ c.P k t s) ∧
      e.rx ∉ Cache.cells { c with pending := l ++ r, txs := m } ∧ e.rx < c.nextCell := by
  obtain ⟨ek, es, et⟩ := e
  simp only at hc ⊢
  have h0 : c.P ek et es := ⟨by rw [hp]; simp, hc⟩
  have htx := (h.tx ek et).2 ⟨es, h0⟩
  cases hs : c.txs.swapRemove ek with
  | none => exact absurd (List.mem_map.2 ⟨_, htx, rfl⟩) (IMap.swapRemove_none hs)
  | some x =>
    obtain ⟨t0, m⟩ := x
    have hperm := IMap.swapRemove_some hs
    have : t0 = et := IMap.nodup_val h.tkeys (hperm.mem_iff.2 (by simp)) htx
    subst this
    have hk : (((ek, t0) :: m).map (·.1)).Nodup := (hperm.map (·.1)).nodup_iff.1 h.tkeys
    have hcp : c.cells.Perm (t0 :: Cache.cells { c with pending := l ++ r, txs := m }) := by
      unfold Cache.cells
      rw [hp]
      simp only [List.map_append, List.map_cons, List.append_assoc, List.cons_append]
      exact List.perm_middle
    have hcn := List.nodup_cons.1 (hcp.nodup_iff.1 h.cells)
    have hP : ∀ k t s, Cache.P { c with pending := l ++ r, txs := m } k t s ↔ k ≠ ek ∧ c.P k t s := by
      intro k t s
      constructor
      · rintro ⟨h1, h2⟩
        simp only [List.mem_append] at h1
        have hm : c.P k t s := ⟨by rw [hp]; simp only [List.mem_append, List.mem_cons]; rcases h1 with h1 | h1 <;> simp [h1], h2⟩
        refine ⟨?_, hm⟩
        rintro rfl
        obtain ⟨rfl, _⟩ := h.P_key hm h0
        exact hcn.1 (List.mem_append.2 (Or.inl (List.mem_map.2 ⟨PEnt.mk k s t, List.mem_append.2 h1, rfl⟩)))
      · rintro ⟨hk, h1, h2⟩
        refine ⟨?_, h2⟩
        rw [hp] at h1
        simp only [List.mem_append, List.mem_cons, PEnt.mk.injEq] at h1 ⊢
        rcases h1 with h1 | h1 | h1
        · exact Or.inl h1
        · exact absurd h1.1 hk
        · exact Or.inr h1
    refine ⟨m, rfl, ⟨h.rkeys, (List.nodup_cons.1 hk).2, hcn.2, h.pair, h.rlive, fun k t => ?_, fun t ht => h.fresh t (hcp.mem_iff.2 (by simp [ht])), h.cfresh⟩,
      hP, hcn.1, h.fresh _ (hcp.mem_iff.2 (by simp))⟩
    have h1 : (k, t) ∈ m ↔ k ≠ ek ∧ (k, t) ∈ c.txs := by
      rw [hperm.mem_iff, List.mem_cons]
      constructor
      · intro h1
        refine ⟨?_, Or.inr h1⟩
        rintro rfl
        exact (List.nodup_cons.1 hk).1 (List.mem_map.2 ⟨_, h1, rfl⟩)
      · rintro ⟨h1, h2 | h2⟩
        · cases h2; exact absurd rfl h1
        · exact h2
    show (k, t) ∈ m ↔ _
    rw [h1, h.tx]
    simp only [hP]
    constructor
    · rintro ⟨a, s, b⟩; exact ⟨s, a, b⟩
    · rintro ⟨s, a, b⟩; exact ⟨a, s, b⟩

/-- a service enters the ready set, in place of an older one -/
theorem insReady_inv (h : c.Inv) {k : K} {s : S.σ} {t : Nat} (hn : t < c.nextCell) (hc : t ∉ c.cancelled) (hf : t ∉ c.cells) :
    Inv { c with ready := c.ready.insert k (s, (t, t)) } ∧
      (∀ k1 t1 s1, Cache.R { c with ready := c.ready.insert k (s, (t, t)) } k1 t1 s1 ↔ (k1 = k ∧ t1 = t ∧ s1 = s) ∨ (k1 ≠ k ∧ c.R k1 t1 s1)) := by
  rcases IMap.insert_cases h.rkeys k (s, (t, t)) with ⟨l, ⟨s0, t0⟩, r, hr, h2⟩ | ⟨h1, h2⟩
  · rw [h2]
    have hget : c.ready[l.length]? = some (k, (s0, t0)) := by rw [hr]; simp
    -- first put the new cell in place of the old one
    have hrk := h.rkeys
    have hcl := h.cells
    have hpair := h.pair
    have hrl := h.rlive
    have hfr := h.fresh
    unfold Cache.cells at hcl hfr hf
    rw [hr] at hrk hpair hrl hcl hfr hf
    simp only [List.map_append, List.map_cons] at hrk hcl hfr hf
    refine ⟨⟨by simpa using hrk, h.tkeys, ?_, ?_, ?_, h.tx, ?_, h.cfresh⟩, ?_⟩
    · simp only [Cache.cells, List.map_append, List.map_cons]
      have p1 : ∀ x : Nat, (c.pending.map (·.rx) ++ (l.map (·.2.2.2) ++ x :: r.map (·.2.2.2))).Perm (x :: (c.pending.map (·.rx) ++ (l.map (·.2.2.2) ++ r.map (·.2.2.2)))) := by
        intro x
        rw [← List.append_assoc, ← List.append_assoc]
        exact List.perm_middle
      refine (p1 t).nodup_iff.2 (List.nodup_cons.2 ⟨?_, (List.nodup_cons.1 ((p1 _).nodup_iff.1 hcl)).2⟩)
      intro hm
      exact hf ((p1 _).mem_iff.2 (by simp only [List.mem_cons]; exact Or.inr hm))
    · intro e he
      simp only [List.mem_append, List.mem_cons] at he
      rcases he with he | rfl | he
      · exact hpair e (by simp [he])
      · rfl
      · exact hpair e (by simp [he])
    · intro e he
      simp only [List.mem_append, List.mem_cons] at he
      rcases he with he | rfl | he
      · exact hrl e (by simp [he])
      · exact hc
      · exact hrl e (by simp [he])
    · intro y hy
      simp only [Cache.cells, List.map_append, List.map_cons, List.mem_append, List.mem_cons] at hy
      simp only [List.mem_append, List.mem_cons] at hfr
      rcases hy with hy | hy | rfl | hy
      · exact hfr y (Or.inl hy)
      · exact hfr y (Or.inr (Or.inl hy))
      · exact hn
      · exact hfr y (Or.inr (Or.inr (Or.inr hy)))
    · intro k1 u1 s1
      have hl := (List.nodup_append.1 hrk).2.2
      have hrr := (List.nodup_cons.1 (List.nodup_append.1 hrk).2.1).1
      simp only [Cache.R, hr, List.mem_append, List.mem_cons, Prod.mk.injEq]
      constructor
      · rintro (h3 | ⟨rfl, rfl, rfl, _⟩ | h3)
        · exact Or.inr ⟨fun he => hl k1 (List.mem_map.2 ⟨_, h3, rfl⟩) k (by simp) he, Or.inl h3⟩
        · exact Or.inl ⟨rfl, rfl, rfl⟩
        · exact Or.inr ⟨fun he => hrr (he ▸ List.mem_map.2 ⟨_, h3, rfl⟩), Or.inr (Or.inr h3)⟩
      · rintro (⟨rfl, rfl, rfl⟩ | ⟨hk', h3 | ⟨h3, _⟩ | h3⟩)
        · exact Or.inr (Or.inl ⟨rfl, rfl, rfl, rfl⟩)
        · exact Or.inl h3
        · exact absurd h3 hk'
        · exact Or.inr (Or.inr h3)
  · rw [h2]
    refine ⟨⟨?_, h.tkeys, ?_, ?_, ?_, h.tx, ?_, h.cfresh⟩, ?_⟩
    · simp only [List.map_append, List.map_cons, List.map_nil]
      exact List.nodup_append.2 ⟨h.rkeys, by simp, by rintro a ha b hb rfl; simp at hb; subst hb; exact h1 ha⟩
    · have : Cache.cells { c with ready := c.ready ++ [(k, (s, (t, t)))] } = c.cells ++ [t] := by simp [Cache.cells]
      rw [this]
      exact List.nodup_append.2 ⟨h.cells, by simp, by rintro a ha b hb rfl; simp at hb; subst hb; exact hf ha⟩
    · intro e he
      simp only [List.mem_append, List.mem_singleton] at he
      rcases he with he | rfl
      · exact h.pair e he
      · rfl
    · intro e he
      simp only [List.mem_append, List.mem_singleton] at he
      rcases he with he | rfl
      · exact h.rlive e he
      · exact hc
    · intro y hy
      have : Cache.cells { c with ready := c.ready ++ [(k, (s, (t, t)))] } = c.cells ++ [t] := by simp [Cache.cells]
      rw [this] at hy
      simp only [List.mem_append, List.mem_singleton] at hy
      rcases hy with hy | rfl
      · exact h.fresh y hy
      · exact hn
    · intro k1 u1 s1
      simp only [Cache.R, List.mem_append, List.mem_singleton, Prod.mk.injEq]
      constructor
      · rintro (h3 | ⟨rfl, rfl, rfl, _⟩)
        · exact Or.inr ⟨fun he => h1 (he ▸ List.mem_map.2 ⟨_, h3, rfl⟩), h3⟩
        · exact Or.inl ⟨rfl, rfl, rfl⟩
      · rintro (⟨rfl, rfl, rfl⟩ | ⟨_, h3⟩)
        · exact Or.inr ⟨rfl, rfl, rfl, rfl⟩
        · exact Or.inl h3

end Cache
end Tower
