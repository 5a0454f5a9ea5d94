import Verif.Model.ReadyCache
import Mathlib.Data.List.Perm.Subperm

/-! # IndexMap -/

namespace Tower
variable {K V : Type} [DecidableEq K]

/-- a list cut at a position -/
theorem split_at {α : Type} {p : List α} {i : Nat} {e : α} (h : p[i]? = some e) :
    ∃ l r, p = l ++ e :: r ∧ l.length = i ∧ (∀ e', p.set i e' = l ++ e' :: r) ∧ p.eraseIdx i = l ++ r := by
  obtain ⟨hlt, he⟩ := List.getElem?_eq_some_iff.1 h
  have hp : p = p.take i ++ e :: p.drop (i + 1) := by
    rw [← he, ← List.drop_eq_getElem_cons hlt, List.take_append_drop]
  have hl : (p.take i).length = i := by simp; omega
  refine ⟨p.take i, p.drop (i + 1), hp, hl, fun e' => ?_, ?_⟩
  · rw [List.set_eq_take_append_cons_drop, if_pos hlt]
  · rw [List.eraseIdx_eq_take_drop_succ]

namespace IMap

theorem swapRemoveIndex_some {m m' : IMap K V} {i : Nat} {e : K × V} (h : m.swapRemoveIndex i = some (e, m')) :
    m[i]? = some e ∧ m.Perm (e :: m') := by
  unfold swapRemoveIndex at h
  split at h
  · rename_i e' l h1 h2
    simp only [Option.some.injEq, Prod.mk.injEq] at h
    obtain ⟨rfl, rfl⟩ := h
    refine ⟨h1, ?_⟩
    obtain ⟨m0, rfl⟩ : ∃ m0, m = m0 ++ [l] := by
      have hne : m ≠ [] := by rintro rfl; simp at h2
      refine ⟨m.dropLast, ?_⟩
      have := List.dropLast_append_getLast hne
      rw [List.getLast?_eq_some_getLast hne] at h2
      cases h2
      exact this.symm
    by_cases hi : i < m0.length
    · rw [List.getElem?_append_left hi] at h1
      obtain ⟨a, b, rfl, rfl, hs, _⟩ := split_at h1
      rw [List.set_append_left _ _ (by simp), hs, List.dropLast_concat]
      have : (a ++ e' :: b ++ [l]).Perm (e' :: (a ++ b ++ [l])) := by
        simpa using List.perm_middle (a := e') (l₁ := a) (l₂ := b ++ [l])
      refine this.trans (List.Perm.cons _ ?_)
      have : (a ++ b ++ [l]).Perm (l :: (a ++ b)) := List.perm_append_singleton _ _
      exact this.trans List.perm_middle.symm
    · have hlt := (List.getElem?_eq_some_iff.1 h1).1
      simp at hlt
      have : i = m0.length := by omega
      subst this
      simp at h1
      subst h1
      simp
  · cases h

theorem swapRemoveIndex_isSome {m : IMap K V} {i : Nat} {e : K × V} (h : m[i]? = some e) : ∃ m', m.swapRemoveIndex i = some (e, m') := by
  unfold swapRemoveIndex
  cases hl : m.getLast? with
  | none => simp at hl; subst hl; simp at h
  | some l => rw [h]; exact ⟨_, rfl⟩

theorem swapRemoveIndex_none {m : IMap K V} {i : Nat} (h : m.swapRemoveIndex i = none) : m[i]? = none := by
  cases he : m[i]? with
  | none => rfl
  | some e => obtain ⟨m', h'⟩ := swapRemoveIndex_isSome he; rw [h] at h'; cases h'

theorem swapRemoveIndex_get {m m' : IMap K V} {i j : Nat} {e : K × V} (h : m.swapRemoveIndex i = some (e, m')) (hj : j ≠ i) (hl : j + 1 < m.length) :
    m'[j]? = m[j]? := by
  unfold swapRemoveIndex at h
  split at h
  · simp only [Option.some.injEq, Prod.mk.injEq] at h
    obtain ⟨rfl, rfl⟩ := h
    rw [List.getElem?_dropLast, List.length_set, if_pos (by omega), List.getElem?_set_ne (Ne.symm hj)]
  · cases h

theorem swapRemoveIndex_length {m m' : IMap K V} {i : Nat} {e : K × V} (h : m.swapRemoveIndex i = some (e, m')) : m'.length + 1 = m.length := by
  have := (swapRemoveIndex_some h).2.length_eq
  simpa using this.symm

theorem index_some {m : IMap K V} {k : K} {i : Nat} (h : m.index k = some i) : ∃ v, m[i]? = some (k, v) := by
  unfold index at h
  rw [List.findIdx?_eq_some_iff_getElem] at h
  obtain ⟨hlt, h1, _⟩ := h
  refine ⟨(m[i]).2, ?_⟩
  rw [List.getElem?_eq_some_iff]
  refine ⟨hlt, ?_⟩
  have : (m[i]).1 = k := by simpa using h1
  rw [← this]

theorem index_none {m : IMap K V} {k : K} (h : m.index k = none) : k ∉ m.map (·.1) := by
  unfold index at h
  rw [List.findIdx?_eq_none_iff] at h
  intro hm
  obtain ⟨e, h1, h2⟩ := List.mem_map.1 hm
  have := h e h1
  simp [h2] at this

theorem contains_iff {m : IMap K V} {k : K} : m.contains k = true ↔ k ∈ m.map (·.1) := by
  simp [contains]

theorem swapRemove_some {m m' : IMap K V} {k : K} {v : V} (h : m.swapRemove k = some (v, m')) : m.Perm ((k, v) :: m') := by
  unfold swapRemove at h
  split at h
  · cases h
  · rename_i i hi
    obtain ⟨v0, h0⟩ := index_some hi
    obtain ⟨m'', h1⟩ := swapRemoveIndex_isSome h0
    rw [h1] at h
    simp only [Option.map_some, Option.some.injEq, Prod.mk.injEq] at h
    obtain ⟨rfl, rfl⟩ := h
    exact (swapRemoveIndex_some h1).2

theorem swapRemove_none {m : IMap K V} {k : K} (h : m.swapRemove k = none) : k ∉ m.map (·.1) := by
  unfold swapRemove at h
  split at h
  · rename_i hi; exact index_none hi
  · rename_i i hi
    obtain ⟨v0, h0⟩ := index_some hi
    obtain ⟨m'', h1⟩ := swapRemoveIndex_isSome h0
    rw [h1] at h; cases h

theorem nodup_val {m : IMap K V} (hn : (m.map (·.1)).Nodup) {k : K} {v v' : V} (h : (k, v) ∈ m) (h' : (k, v') ∈ m) : v = v' := by
  induction m with
  | nil => cases h
  | cons e m ih =>
    simp only [List.map_cons, List.nodup_cons] at hn
    rcases List.mem_cons.1 h with h | h <;> rcases List.mem_cons.1 h' with h' | h'
    · rw [← h] at h'; cases h'; rfl
    · exact absurd (List.mem_map.2 ⟨_, h', by rw [← h]⟩) hn.1
    · exact absurd (List.mem_map.2 ⟨_, h, by rw [← h']⟩) hn.1
    · exact ih hn.2 h h'

theorem get_some {m : IMap K V} {k : K} {v : V} (h : m.get k = some v) : (k, v) ∈ m := by
  unfold get at h
  cases hf : m.find? (fun e => e.1 = k) with
  | none => rw [hf] at h; cases h
  | some e =>
    rw [hf] at h
    simp only [Option.map_some, Option.some.injEq] at h
    have h1 := List.mem_of_find?_eq_some hf
    have h2 := List.find?_some hf
    simp only [decide_eq_true_eq] at h2
    rw [← h2, ← h]; exact h1

theorem get_none {m : IMap K V} {k : K} (h : m.get k = none) : k ∉ m.map (·.1) := by
  unfold get at h
  simp only [Option.map_eq_none_iff, List.find?_eq_none, decide_eq_true_eq] at h
  intro hm
  obtain ⟨e, h1, h2⟩ := List.mem_map.1 hm
  exact h e h1 h2

theorem insert_cases {m : IMap K V} (hn : (m.map (·.1)).Nodup) (k : K) (v : V) :
    (∃ l v0 r, m = l ++ (k, v0) :: r ∧ m.insert k v = l ++ (k, v) :: r) ∨ (k ∉ m.map (·.1) ∧ m.insert k v = m ++ [(k, v)]) := by
  by_cases hk : k ∈ m.map (·.1)
  · left
    obtain ⟨⟨k', v0⟩, h1, h2⟩ := List.mem_map.1 hk
    simp only at h2; subst h2
    obtain ⟨l, r, rfl⟩ := List.append_of_mem h1
    refine ⟨l, v0, r, rfl, ?_⟩
    unfold insert
    rw [if_pos (contains_iff.2 hk)]
    simp only [List.map_append, List.map_cons] at hn
    have hl : ∀ e ∈ l, e.1 ≠ k' := by
      intro e he heq
      exact (List.nodup_append.1 hn).2.2 e.1 (List.mem_map.2 ⟨e, he, rfl⟩) k' (by simp) heq
    have hr : ∀ e ∈ r, e.1 ≠ k' := by
      intro e he heq
      have := (List.nodup_cons.1 (List.nodup_append.1 hn).2.1).1
      exact this (heq ▸ List.mem_map.2 ⟨e, he, rfl⟩)
    have map_id : ∀ q : List (K × V), (∀ e ∈ q, e.1 ≠ k') → q.map (fun e => if e.1 = k' then (e.1, v) else e) = q := by
      intro q hq
      induction q with
      | nil => rfl
      | cons a q ih =>
        rw [List.map_cons, if_neg (hq a (by simp)), ih (fun e he => hq e (by simp [he]))]
    rw [List.map_append, List.map_cons, map_id l hl, map_id r hr, if_pos rfl]
  · right
    refine ⟨hk, ?_⟩
    unfold insert
    rw [if_neg (by rw [contains_iff]; exact hk)]

end IMap
end Tower
