import Verif.Model.Fleet
import Verif.Props.C04_Concurrency
import Mathlib.Data.List.Perm.Subperm

/-! # C65: what the services made by a concurrency limit layer share -/

set_option linter.unusedSimpArgs false

namespace Tower
open Act
variable {W Req Res Err : Type} {S : Service W Req Res Err} {debug : Bool} {x : Fleet S}

/-! ## Specification -/

/-- `j`-th application of a layer used the layer `l` -/
def Fleet.madeBy (x : Fleet S) (j : Nat) (l : LimLayer) : Prop := ∃ k, x.made[j]? = some (l, k)

/-- the calls accepted by the services of the applications satisfying `P` whose response futures still exist -/
def Fleet.inFlight (x : Fleet S) (P : Nat → Bool) : Nat := x.fs.countP (fun f => P f.app)

/-- the services (and clones) of these applications that hold a permit for their next call -/
def Fleet.reserved (x : Fleet S) (P : Nat → Bool) : Nat := x.hs.countP (fun h => P h.app && h.st.permit)

/-- the services (and clones) of these applications that exist -/
def Fleet.handles (x : Fleet S) (P : Nat → Bool) : Nat := x.hs.countP (fun h => P h.app)

/-- the application used the global layer with semaphore `k` -/
def Fleet.usesGlobal (x : Fleet S) (k : Nat) (j : Nat) : Bool := (x.made[j]?).map (·.1) == some (LimLayer.global k)

/-! ## Proofs -/

/-- what belongs to the semaphore `k` -/
def Fleet.proj (x : Fleet S) (k : Nat) (c : SemCell) : Lim S :=
  ⟨c.sem, (x.hs.filter (fun h => h.cell = k)).map (·.st), (x.fs.filter (fun f => f.cell = k)).map (·.fut), c.next⟩

/-- one semaphore and what belongs to it is unused or has a history of its own -/
def CellOk (debug : Bool) (x : Fleet S) (k : Nat) (c : SemCell) : Prop :=
  (∃ arr, LimHist debug c.max S (x.proj k c) arr) ∨ (c = .new c.max ∧ (∀ h ∈ x.hs, h.cell ≠ k) ∧ ∀ f ∈ x.fs, f.cell ≠ k)

structure FleetInv (debug : Bool) (x : Fleet S) : Prop where
  cell : ∀ k c, x.cells[k]? = some c → CellOk debug x k c
  hs : ∀ h ∈ x.hs, ∃ l, x.made[h.app]? = some (l, h.cell)
  fs : ∀ f ∈ x.fs, ∃ l, x.made[f.app]? = some (l, f.cell)
  glob : ∀ k m, (k, m) ∈ x.globals → ∃ c, x.cells[k]? = some c ∧ c.max = m
  own : ∀ (a m k : Nat), x.made[a]? = some (LimLayer.own m, k) → (∃ c, x.cells[k]? = some c ∧ c.max = m) ∧ (∀ m, (k, m) ∉ x.globals) ∧ ∀ b l, x.made[b]? = some (l, k) → b = a
  shared : ∀ (a g k : Nat), x.made[a]? = some (LimLayer.global g, k) → k = g ∧ ∃ m, (g, m) ∈ x.globals

theorem FleetInv.lt (h : FleetInv debug x) {a : Nat} {l : LimLayer} {k : Nat} (hm : x.made[a]? = some (l, k)) : k < x.cells.length := by
  cases l with
  | own m =>
    obtain ⟨⟨c, hc, -⟩, -⟩ := h.own a m k hm
    exact (List.getElem?_eq_some_iff.1 hc).1
  | global g =>
    obtain ⟨rfl, m, hg⟩ := h.shared a g k hm
    obtain ⟨c, hc, -⟩ := h.glob _ _ hg
    exact (List.getElem?_eq_some_iff.1 hc).1

/-- a new semaphore at the end of the heap -/
theorem FleetInv.alloc (h : FleetInv debug x) (max : Nat) :
    (∀ k c, (x.cells ++ [SemCell.new max])[k]? = some c → CellOk debug x k c) ∧
    ∀ (a m k : Nat), x.made[a]? = some (LimLayer.own m, k) → (∃ c, (x.cells ++ [SemCell.new max])[k]? = some c ∧ c.max = m) := by
  refine ⟨fun k c hc => ?_, fun a m k hm => ?_⟩
  · rw [List.getElem?_append] at hc
    split at hc
    · exact h.cell k c hc
    · rename_i hge
      have hk : k = x.cells.length := by
        have := (List.getElem?_eq_some_iff.1 hc).1
        simp at this; omega
      subst hk
      simp at hc
      subst hc
      refine .inr ⟨rfl, fun h' hh => ?_, fun f hf => ?_⟩
      · obtain ⟨l, hl⟩ := h.hs h' hh
        have := h.lt hl; omega
      · obtain ⟨l, hl⟩ := h.fs f hf
        have := h.lt hl; omega
  · obtain ⟨⟨c, hc, hcm⟩, -⟩ := h.own a m k hm
    exact ⟨c, by rw [List.getElem?_append_left (List.getElem?_eq_some_iff.1 hc).1]; exact hc, hcm⟩

/-- a step that concerns semaphore `k` only: the cells of the other semaphores, and what belongs to them, stay as they are -/
theorem FleetInv.local (h : FleetInv debug x) {y : Fleet S} {k : Nat} {c c' : SemCell} (hc : x.cells[k]? = some c) (hcm : c'.max = c.max)
    (hcells : y.cells = x.cells.set k c') (hglob : y.globals = x.globals) (hmade : y.made = x.made)
    (hhs : ∀ k', k' ≠ k → (y.hs.filter (fun h => h.cell = k')).map (·.st) = (x.hs.filter (fun h => h.cell = k')).map (·.st))
    (hfs : ∀ k', k' ≠ k → (y.fs.filter (fun h => h.cell = k')).map (·.fut) = (x.fs.filter (fun h => h.cell = k')).map (·.fut))
    (happ : ∀ a ∈ y.hs, ∃ b ∈ x.hs, b.app = a.app ∧ b.cell = a.cell)
    (happf : ∀ a ∈ y.fs, (∃ b ∈ x.hs, b.app = a.app ∧ b.cell = a.cell) ∨ (∃ b ∈ x.fs, b.app = a.app ∧ b.cell = a.cell))
    (hk : ∃ arr, LimHist debug c.max S (y.proj k c') arr) : FleetInv debug y := by
  have hklt := (List.getElem?_eq_some_iff.1 hc).1
  refine ⟨fun k' d hd => ?_, fun a ha => ?_, fun a ha => ?_, ?_, ?_, ?_⟩
  · rw [hcells] at hd
    by_cases hkk : k' = k
    · subst hkk
      simp [hklt] at hd
      subst hd
      left; rw [hcm]; exact hk
    · rw [List.getElem?_set_ne (by omega)] at hd
      rcases h.cell k' d hd with ⟨arr, h1⟩ | ⟨h1, h2, h3⟩
      · left
        refine ⟨arr, ?_⟩
        have : y.proj k' d = x.proj k' d := by simp only [Fleet.proj, hhs k' hkk, hfs k' hkk]
        rw [this]; exact h1
      · refine .inr ⟨h1, fun a ha he => ?_, fun a ha he => ?_⟩
        · obtain ⟨b, hb, -, hbc⟩ := happ a ha
          exact h2 b hb (by rw [hbc, he])
        · rcases happf a ha with ⟨b, hb, -, hbc⟩ | ⟨b, hb, -, hbc⟩
          · exact h2 b hb (by rw [hbc, he])
          · exact h3 b hb (by rw [hbc, he])
  · obtain ⟨b, hb, h1, h2⟩ := happ a ha
    obtain ⟨l, hl⟩ := h.hs b hb
    exact ⟨l, by rw [hmade, ← h1, ← h2]; exact hl⟩
  · rcases happf a ha with ⟨b, hb, h1, h2⟩ | ⟨b, hb, h1, h2⟩
    · obtain ⟨l, hl⟩ := h.hs b hb
      exact ⟨l, by rw [hmade, ← h1, ← h2]; exact hl⟩
    · obtain ⟨l, hl⟩ := h.fs b hb
      exact ⟨l, by rw [hmade, ← h1, ← h2]; exact hl⟩
  · intro k' m hk'
    rw [hglob] at hk'
    obtain ⟨d, hd, hdm⟩ := h.glob k' m hk'
    rw [hcells]
    by_cases hkk : k' = k
    · subst hkk
      rw [hc] at hd; cases hd
      exact ⟨c', by simp [hklt], by rw [hcm]; exact hdm⟩
    · exact ⟨d, by rw [List.getElem?_set_ne (by omega)]; exact hd, hdm⟩
  · intro a m k' hm
    rw [hmade] at hm
    obtain ⟨⟨d, hd, hdm⟩, h2, h3⟩ := h.own a m k' hm
    refine ⟨?_, by rw [hglob]; exact h2, by rw [hmade]; exact h3⟩
    rw [hcells]
    by_cases hkk : k' = k
    · subst hkk
      rw [hc] at hd; cases hd
      exact ⟨c', by simp [hklt], by rw [hcm]; exact hdm⟩
    · exact ⟨d, by rw [List.getElem?_set_ne (by omega)]; exact hd, hdm⟩
  · rw [hmade, hglob]; exact h.shared

theorem filter_split {α β : Type} (p : α → Bool) (f : α → β) (l r : List α) (a : α) (ha : p a = true) :
    ((l ++ a :: r).filter p).map f = (l.filter p).map f ++ f a :: (r.filter p).map f := by
  simp [List.filter_append, List.filter_cons, ha]

theorem filter_skip {α β : Type} (p : α → Bool) (f : α → β) (l r : List α) (a : α) (ha : p a = false) :
    ((l ++ a :: r).filter p).map f = ((l ++ r).filter p).map f := by
  simp [List.filter_append, List.filter_cons, ha]

/-- a semaphore to which something belongs has a history -/
theorem FleetInv.hist (h : FleetInv debug x) {k : Nat} {c : SemCell} (hc : x.cells[k]? = some c)
    (hb : (∃ a ∈ x.hs, a.cell = k) ∨ ∃ a ∈ x.fs, a.cell = k) : ∃ arr, LimHist debug c.max S (x.proj k c) arr := by
  rcases h.cell k c hc with h1 | ⟨-, h2, h3⟩
  · exact h1
  · rcases hb with ⟨a, ha, he⟩ | ⟨a, ha, he⟩
    · exact absurd he (h2 a ha)
    · exact absurd he (h3 a ha)

/-- applying a layer whose semaphore is `k` -/
theorem FleetInv.withSem (h : FleetInv debug x) {k : Nat} {c : SemCell} (hc : x.cells[k]? = some c) (i : S.σ) (l : LimLayer)
    (hl : match l with
      | .own m => c.max = m ∧ (∀ m, (k, m) ∉ x.globals) ∧ ∀ (b : Nat) (l : LimLayer), x.made[b]? ≠ some (l, k)
      | .global g => k = g ∧ ∃ m, (g, m) ∈ x.globals) : FleetInv debug (x.withSemaphore l k i) := by
  have hklt := (List.getElem?_eq_some_iff.1 hc).1
  have hmk : ∀ {a : Nat} {v : LimLayer × Nat}, x.made[a]? = some v → (x.made ++ [(l, k)])[a]? = some v := by
    intro a v hv
    rw [List.getElem?_append_left (List.getElem?_eq_some_iff.1 hv).1]; exact hv
  have hmk' : ∀ {a : Nat} {v : LimLayer × Nat}, (x.made ++ [(l, k)])[a]? = some v → x.made[a]? = some v ∨ (a = x.made.length ∧ v = (l, k)) := by
    intro a v hv
    rw [List.getElem?_append] at hv
    split at hv
    · exact .inl hv
    · right
      have := (List.getElem?_eq_some_iff.1 hv).1
      simp at this
      have ha : a = x.made.length := by omega
      subst ha
      simp at hv
      exact ⟨rfl, hv.symm⟩
  have hcell : ∀ (k' : Nat) (d : SemCell), x.cells[k']? = some d → ∃ d' : SemCell, (x.cells.set k { c with next := c.next + 1 })[k']? = some d' ∧ d'.max = d.max := by
    intro k' d hd
    by_cases hkk : k' = k
    · subst hkk
      rw [hc] at hd; cases hd
      exact ⟨{ c with next := c.next + 1 }, by simp [hklt], rfl⟩
    · exact ⟨d, by rw [List.getElem?_set_ne (by omega)]; exact hd, rfl⟩
  unfold Fleet.withSemaphore
  rw [hc]
  refine ⟨fun k' d hd => ?_, fun a ha => ?_, fun a ha => ?_, fun k' m hk' => ?_, fun a m k' hm => ?_, fun a g k' hm => ?_⟩
  · simp only at hd
    by_cases hkk : k' = k
    · subst hkk
      simp [hklt] at hd
      subst hd
      left
      rcases h.cell k' c hc with ⟨arr, h1⟩ | ⟨h1, h2, h3⟩
      · exact ⟨arr, by simpa [Fleet.proj, List.filter_append] using h1.with_semaphore i⟩
      · refine ⟨[], ?_⟩
        have hh : x.hs.filter (fun h => decide (h.cell = k')) = [] := by
          rw [List.filter_eq_nil_iff]; intro a ha; simpa using h2 a ha
        have hf : x.fs.filter (fun h => decide (h.cell = k')) = [] := by
          rw [List.filter_eq_nil_iff]; intro a ha; simpa using h3 a ha
        have hn : c.sem = Sem.new c.max ∧ c.next = 0 := by rw [h1]; exact ⟨rfl, rfl⟩
        simpa [Fleet.proj, List.filter_append, hh, hf, hn.1, hn.2] using LimHist.new (debug := debug) (max := c.max) (S := S) i
    · rw [List.getElem?_set_ne (by omega)] at hd
      have hne : ¬ k = k' := fun he => hkk he.symm
      rcases h.cell k' d hd with ⟨arr, h1⟩ | ⟨h1, h2, h3⟩
      · exact .inl ⟨arr, by simpa [Fleet.proj, List.filter_append, List.filter_cons, hne] using h1⟩
      · refine .inr ⟨h1, fun a ha => ?_, h3⟩
        simp only [List.mem_append, List.mem_singleton] at ha
        rcases ha with ha | rfl
        · exact h2 a ha
        · exact hne
  · simp only [List.mem_append, List.mem_singleton] at ha
    rcases ha with ha | rfl
    · obtain ⟨l', hl'⟩ := h.hs a ha
      exact ⟨l', hmk hl'⟩
    · exact ⟨l, by simp⟩
  · obtain ⟨l', hl'⟩ := h.fs a ha
    exact ⟨l', hmk hl'⟩
  · obtain ⟨d, hd, hdm⟩ := h.glob k' m hk'
    obtain ⟨d', hd', hdm'⟩ := hcell k' d hd
    exact ⟨d', hd', by rw [hdm', hdm]⟩
  · rcases hmk' hm with hm1 | ⟨rfl, hv⟩
    · obtain ⟨⟨d, hd, hdm⟩, h2, h3⟩ := h.own a m k' hm1
      obtain ⟨d', hd', hdm'⟩ := hcell k' d hd
      refine ⟨⟨d', hd', by rw [hdm', hdm]⟩, h2, fun b l' hb => ?_⟩
      rcases hmk' hb with hb | ⟨rfl, hv⟩
      · exact h3 b l' hb
      · cases hv
        cases l with
        | own m' => exact absurd hm1 (hl.2.2 a _)
        | global g => obtain ⟨rfl, m', hg⟩ := hl; exact absurd hg (h2 m')
    · cases hv
      obtain ⟨d', hd', hdm'⟩ := hcell k c hc
      refine ⟨⟨d', hd', by rw [hdm', hl.1]⟩, hl.2.1, fun b l' hb => ?_⟩
      rcases hmk' hb with hb | ⟨rfl, -⟩
      · exact absurd hb (hl.2.2 b l')
      · rfl
  · rcases hmk' hm with hm | ⟨rfl, hv⟩
    · exact h.shared a g k' hm
    · cases hv
      exact hl

theorem FleetHist.inv (h : FleetHist debug S x) : FleetInv debug x := by
  induction h with
  | empty => exact ⟨by simp [Fleet.empty], by simp [Fleet.empty], by simp [Fleet.empty], by simp [Fleet.empty], by simp [Fleet.empty], by simp [Fleet.empty]⟩
  | @newGlobal x max _ ih =>
    obtain ⟨h1, h2⟩ := ih.alloc max
    refine ⟨h1, ih.hs, ih.fs, ?_, fun a m k hm => ⟨h2 a m k hm, ?_, (ih.own a m k hm).2.2⟩, fun a g k hm => ?_⟩
    · intro k m hk
      simp only [Fleet.newGlobal, List.mem_append, List.mem_singleton, Prod.mk.injEq] at hk ⊢
      rcases hk with hk | ⟨rfl, rfl⟩
      · obtain ⟨c, hc, hcm⟩ := ih.glob k m hk
        exact ⟨c, by rw [List.getElem?_append_left (List.getElem?_eq_some_iff.1 hc).1]; exact hc, hcm⟩
      · exact ⟨.new m, by simp, rfl⟩
    · have := ih.lt hm
      intro m'
      simp only [Fleet.newGlobal, List.mem_append, List.mem_singleton, not_or, Prod.mk.injEq]
      exact ⟨(ih.own a m k hm).2.1 m', by omega⟩
    · obtain ⟨h3, m, h4⟩ := ih.shared a g k hm
      exact ⟨h3, m, by simp [Fleet.newGlobal, h4]⟩
  | @layer x max i _ ih =>
    obtain ⟨h1, h2⟩ := ih.alloc max
    have hb : FleetInv debug ({ x with cells := x.cells ++ [.new max] } : Fleet S) :=
      ⟨h1, ih.hs, ih.fs, by
        intro k m hk
        obtain ⟨c, hc, hcm⟩ := ih.glob k m hk
        exact ⟨c, by simp only []; rw [List.getElem?_append_left (List.getElem?_eq_some_iff.1 hc).1]; exact hc, hcm⟩, fun a m k hm => ⟨h2 a m k hm, (ih.own a m k hm).2⟩, ih.shared⟩
    refine hb.withSem (k := x.cells.length) (c := .new max) (by simp) i (.own max) ⟨rfl, fun m hk => ?_, fun b l hm => ?_⟩
    · obtain ⟨c, hc, -⟩ := ih.glob _ m hk
      have := (List.getElem?_eq_some_iff.1 hc).1; omega
    · have := ih.lt hm; omega
  | @layerGlobal x k m i _ hk ih =>
    obtain ⟨c, hc, -⟩ := ih.glob k m hk
    exact ih.withSem hc i (.global k) ⟨rfl, m, hk⟩
  | @ready x c w p sem' w' l r h s' _ hl hc hr ih =>
    obtain ⟨arr, hh⟩ := ih.hist hc (.inl ⟨h, by simp [hl], rfl⟩)
    refine ih.local (k := h.cell) (c := c) (c' := { c with sem := sem' }) hc rfl rfl rfl rfl ?_ (fun _ _ => rfl) ?_ ?_ ?_
    · intro k' hk; simp only [hl]; rw [filter_skip _ _ _ _ _ (by simpa using fun h => hk h.symm), filter_skip _ _ _ _ _ (by simpa using fun h => hk h.symm)]
    · intro a ha; simp only [hl, List.mem_append, List.mem_cons] at ha ⊢
      rcases ha with ha | rfl | ha
      · exact ⟨a, .inl ha, rfl, rfl⟩
      · exact ⟨h, .inr (.inl rfl), rfl, rfl⟩
      · exact ⟨a, .inr (.inr ha), rfl, rfl⟩
    · intro a ha; exact .inr ⟨a, ha, rfl, rfl⟩
    · have hp := hh.ready (w := w) (p := p) (sem' := sem') (w' := w') (s' := s') (l := (l.filter (fun a => a.cell = h.cell)).map (·.st)) (s := h.st)
        (r := (r.filter (fun a => a.cell = h.cell)).map (·.st)) (by simp only [Fleet.proj, hl]; exact filter_split _ _ _ _ _ (by simp)) hr
      have he : ((l ++ { h with st := s' } :: r).filter (fun a => decide (a.cell = h.cell))).map (·.st) =
        ((l.filter (fun a => a.cell = h.cell)).map (·.st) ++ s' :: (r.filter (fun a => a.cell = h.cell)).map (·.st)) := filter_split _ _ _ _ _ (by simp)
      simp only [Fleet.proj, Fleet.setSem] at hp ⊢
      rw [he]; exact ⟨_, hp⟩
  | @ready_panics x c sem' i l r h _ hl hc hr ih =>
    obtain ⟨arr, hh⟩ := ih.hist hc (.inl ⟨h, by simp [hl], rfl⟩)
    refine ih.local (k := h.cell) (c := c) (c' := { c with sem := sem' }) hc rfl rfl rfl rfl ?_ (fun _ _ => rfl) ?_ ?_ ?_
    · intro k' hk; simp only [hl]; rw [filter_skip _ _ _ _ _ (by simpa using fun h => hk h.symm), filter_skip _ _ _ _ _ (by simpa using fun h => hk h.symm)]
    · intro a ha; simp only [hl, List.mem_append, List.mem_cons] at ha ⊢
      rcases ha with ha | rfl | ha
      · exact ⟨a, .inl ha, rfl, rfl⟩
      · exact ⟨h, .inr (.inl rfl), rfl, rfl⟩
      · exact ⟨a, .inr (.inr ha), rfl, rfl⟩
    · intro a ha; exact .inr ⟨a, ha, rfl, rfl⟩
    · have hp := hh.ready_panics (sem' := sem') (i := i) (l := (l.filter (fun a => a.cell = h.cell)).map (·.st)) (s := h.st)
        (r := (r.filter (fun a => a.cell = h.cell)).map (·.st)) (by simp only [Fleet.proj, hl]; exact filter_split _ _ _ _ _ (by simp)) hr
      have he : ((l ++ { h with st := ⟨i, h.st.sem, true⟩ } :: r).filter (fun a => decide (a.cell = h.cell))).map (·.st) =
        ((l.filter (fun a => a.cell = h.cell)).map (·.st) ++ ⟨i, h.st.sem, true⟩ :: (r.filter (fun a => a.cell = h.cell)).map (·.st)) :=
        filter_split _ _ _ _ _ (by simp)
      simp only [Fleet.proj, Fleet.setSem] at hp ⊢
      rw [he]; exact ⟨_, hp⟩
  | @call x c q w sem' w' l r h s' f _ hl hc hr ih =>
    obtain ⟨arr, hh⟩ := ih.hist hc (.inl ⟨h, by simp [hl], rfl⟩)
    refine ih.local (k := h.cell) (c := c) (c' := { c with sem := sem' }) hc rfl rfl rfl rfl ?_ ?_ ?_ ?_ ?_
    · intro k' hk; simp only [hl]; rw [filter_skip _ _ _ _ _ (by simpa using fun h => hk h.symm), filter_skip _ _ _ _ _ (by simpa using fun h => hk h.symm)]
    · intro k' hk; simp [List.filter_append, List.filter_cons, show ¬ h.cell = k' from fun e => hk e.symm, Fleet.setSem]
    · intro a ha; simp only [hl, List.mem_append, List.mem_cons] at ha ⊢
      rcases ha with ha | rfl | ha
      · exact ⟨a, .inl ha, rfl, rfl⟩
      · exact ⟨h, .inr (.inl rfl), rfl, rfl⟩
      · exact ⟨a, .inr (.inr ha), rfl, rfl⟩
    · intro a ha
      simp only [List.mem_append, List.mem_singleton] at ha
      rcases ha with ha | rfl
      · exact .inr ⟨a, ha, rfl, rfl⟩
      · exact .inl ⟨h, by simp [hl], rfl, rfl⟩
    · have hp := hh.call (w := w) (sem' := sem') (w' := w') (s' := s') (f := f) (q := q) (l := (l.filter (fun a => a.cell = h.cell)).map (·.st)) (s := h.st)
        (r := (r.filter (fun a => a.cell = h.cell)).map (·.st)) (by simp only [Fleet.proj, hl]; exact filter_split _ _ _ _ _ (by simp)) hr
      have he : ((l ++ { h with st := s' } :: r).filter (fun a => decide (a.cell = h.cell))).map (·.st) =
        ((l.filter (fun a => a.cell = h.cell)).map (·.st) ++ s' :: (r.filter (fun a => a.cell = h.cell)).map (·.st)) := filter_split _ _ _ _ _ (by simp)
      simp only [Fleet.proj, Fleet.setSem] at hp ⊢
      rw [he]; exact ⟨_, by simpa [List.filter_append] using hp⟩
  | @call_panics x c i l r h _ hl hc hr ih =>
    obtain ⟨arr, hh⟩ := ih.hist hc (.inl ⟨h, by simp [hl], rfl⟩)
    refine ih.local (k := h.cell) (c := c) (c' := { c with sem := c.sem.release }) hc rfl rfl rfl rfl ?_ (fun _ _ => rfl) ?_ ?_ ?_
    · intro k' hk; simp only [hl]; rw [filter_skip _ _ _ _ _ (by simpa using fun h => hk h.symm), filter_skip _ _ _ _ _ (by simpa using fun h => hk h.symm)]
    · intro a ha; simp only [hl, List.mem_append, List.mem_cons] at ha ⊢
      rcases ha with ha | rfl | ha
      · exact ⟨a, .inl ha, rfl, rfl⟩
      · exact ⟨h, .inr (.inl rfl), rfl, rfl⟩
      · exact ⟨a, .inr (.inr ha), rfl, rfl⟩
    · intro a ha; exact .inr ⟨a, ha, rfl, rfl⟩
    · have hp := hh.call_panics (i := i) (l := (l.filter (fun a => a.cell = h.cell)).map (·.st)) (s := h.st)
        (r := (r.filter (fun a => a.cell = h.cell)).map (·.st)) (by simp only [Fleet.proj, hl]; exact filter_split _ _ _ _ _ (by simp)) hr
      have he : ((l ++ { h with st := ⟨i, h.st.sem, false⟩ } :: r).filter (fun a => decide (a.cell = h.cell))).map (·.st) =
        ((l.filter (fun a => a.cell = h.cell)).map (·.st) ++ ⟨i, h.st.sem, false⟩ :: (r.filter (fun a => a.cell = h.cell)).map (·.st)) :=
        filter_split _ _ _ _ _ (by simp)
      simp only [Fleet.proj, Fleet.setSem] at hp ⊢
      rw [he]; exact ⟨_, hp⟩
  | @poll x c w p sem' w' l r f f' _ hl hc hr ih =>
    obtain ⟨arr, hh⟩ := ih.hist hc (.inr ⟨f, by simp [hl], rfl⟩)
    refine ih.local (k := f.cell) (c := c) (c' := { c with sem := sem' }) hc rfl rfl rfl rfl (fun _ _ => rfl) ?_ (fun a ha => ⟨a, ha, rfl, rfl⟩) ?_ ?_
    · intro k' hk; simp only [hl]; rw [filter_skip _ _ _ _ _ (by simpa using fun h => hk h.symm), filter_skip _ _ _ _ _ (by simpa using fun h => hk h.symm)]
    · intro a ha; right; simp only [hl, List.mem_append, List.mem_cons] at ha ⊢
      rcases ha with ha | rfl | ha
      · exact ⟨a, .inl ha, rfl, rfl⟩
      · exact ⟨f, .inr (.inl rfl), rfl, rfl⟩
      · exact ⟨a, .inr (.inr ha), rfl, rfl⟩
    · have hp := hh.poll (w := w) (p := p) (sem' := sem') (w' := w') (f' := f') (l := (l.filter (fun a => a.cell = f.cell)).map (·.fut)) (f := f.fut)
        (r := (r.filter (fun a => a.cell = f.cell)).map (·.fut)) (by simp only [Fleet.proj, hl]; exact filter_split _ _ _ _ _ (by simp)) hr
      have he : ((l ++ { f with fut := f' } :: r).filter (fun a => decide (a.cell = f.cell))).map (·.fut) =
        ((l.filter (fun a => a.cell = f.cell)).map (·.fut) ++ f' :: (r.filter (fun a => a.cell = f.cell)).map (·.fut)) := filter_split _ _ _ _ _ (by simp)
      simp only [Fleet.proj, Fleet.setSem] at hp ⊢
      rw [he]; exact ⟨_, hp⟩
  | @poll_panics x l r f f' _ hl ih =>
    obtain ⟨lay, hlay⟩ := ih.fs f (by simp [hl])
    have hlt := ih.lt hlay
    have hc : x.cells[f.cell]? = some x.cells[f.cell] := by simp
    obtain ⟨arr, hh⟩ := ih.hist hc (.inr ⟨f, by simp [hl], rfl⟩)
    refine ih.local (k := f.cell) (c := x.cells[f.cell]) (c' := x.cells[f.cell]) hc rfl (by simp) rfl rfl (fun _ _ => rfl) ?_ (fun a ha => ⟨a, ha, rfl, rfl⟩) ?_ ?_
    · intro k' hk; simp only [hl]; rw [filter_skip _ _ _ _ _ (by simpa using fun h => hk h.symm), filter_skip _ _ _ _ _ (by simpa using fun h => hk h.symm)]
    · intro a ha; right; simp only [hl, List.mem_append, List.mem_cons] at ha ⊢
      rcases ha with ha | rfl | ha
      · exact ⟨a, .inl ha, rfl, rfl⟩
      · exact ⟨f, .inr (.inl rfl), rfl, rfl⟩
      · exact ⟨a, .inr (.inr ha), rfl, rfl⟩
    · have hp := hh.poll_panics (f' := f') (l := (l.filter (fun a => a.cell = f.cell)).map (·.fut)) (f := f.fut)
        (r := (r.filter (fun a => a.cell = f.cell)).map (·.fut)) (by simp only [Fleet.proj, hl]; exact filter_split _ _ _ _ _ (by simp))
      have he : ((l ++ { f with fut := f' } :: r).filter (fun a => decide (a.cell = f.cell))).map (·.fut) =
        ((l.filter (fun a => a.cell = f.cell)).map (·.fut) ++ f' :: (r.filter (fun a => a.cell = f.cell)).map (·.fut)) := filter_split _ _ _ _ _ (by simp)
      simp only [Fleet.proj] at hp ⊢
      rw [he]; exact ⟨_, hp⟩
  | @drop_future x c l r f _ hl hc ih =>
    obtain ⟨arr, hh⟩ := ih.hist hc (.inr ⟨f, by simp [hl], rfl⟩)
    refine ih.local (k := f.cell) (c := c) (c' := { c with sem := c.sem.release }) hc rfl rfl rfl rfl (fun _ _ => rfl) ?_ (fun a ha => ⟨a, ha, rfl, rfl⟩) ?_ ?_
    · intro k' hk; simp only [hl]; rw [filter_skip _ _ _ _ _ (by simpa using fun h => hk h.symm)]
    · intro a ha; right; simp only [hl, List.mem_append, List.mem_cons] at ha ⊢
      rcases ha with ha | ha
      · exact ⟨a, .inl ha, rfl, rfl⟩
      · exact ⟨a, .inr (.inr ha), rfl, rfl⟩
    · have hp := hh.drop_future (l := (l.filter (fun a => a.cell = f.cell)).map (·.fut)) (f := f.fut)
        (r := (r.filter (fun a => a.cell = f.cell)).map (·.fut)) (by simp only [Fleet.proj, hl]; exact filter_split _ _ _ _ _ (by simp))
      exact ⟨_, by simpa [Fleet.proj, Fleet.setSem, List.filter_append] using hp⟩
  | @clone x c h _ hm hc ih =>
    obtain ⟨arr, hh⟩ := ih.hist hc (.inl ⟨h, hm, rfl⟩)
    refine ih.local (k := h.cell) (c := c) (c' := { c with next := c.next + 1 }) hc rfl rfl rfl rfl ?_ (fun _ _ => rfl) ?_ (fun a ha => .inr ⟨a, ha, rfl, rfl⟩) ?_
    · intro k' hk; simp [List.filter_append, List.filter_cons, show ¬ h.cell = k' from fun e => hk e.symm]
    · intro a ha; simp only [List.mem_append, List.mem_singleton] at ha
      rcases ha with ha | rfl
      · exact ⟨a, ha, rfl, rfl⟩
      · exact ⟨h, hm, rfl, rfl⟩
    · have hp := hh.clone (s := h.st) (by simp only [Fleet.proj, List.mem_map, List.mem_filter]; exact ⟨h, ⟨hm, by simp⟩, rfl⟩)
      exact ⟨_, by simpa [Fleet.proj, List.filter_append] using hp⟩
  | @drop_handle x c l r h _ hl hc ih =>
    obtain ⟨arr, hh⟩ := ih.hist hc (.inl ⟨h, by simp [hl], rfl⟩)
    refine ih.local (k := h.cell) (c := c) (c' := { c with sem := (if h.st.permit = true then (c.sem.dropAcquire h.st.sem).release else c.sem.dropAcquire h.st.sem) }) hc rfl rfl rfl rfl ?_ (fun _ _ => rfl) ?_ (fun a ha => .inr ⟨a, ha, rfl, rfl⟩) ?_
    · intro k' hk; simp only [hl]; rw [filter_skip _ _ _ _ _ (by simpa using fun h => hk h.symm)]
    · intro a ha; simp only [hl, List.mem_append, List.mem_cons] at ha ⊢
      rcases ha with ha | ha
      · exact ⟨a, .inl ha, rfl, rfl⟩
      · exact ⟨a, .inr (.inr ha), rfl, rfl⟩
    · have hp := hh.drop_handle (l := (l.filter (fun a => a.cell = h.cell)).map (·.st)) (s := h.st)
        (r := (r.filter (fun a => a.cell = h.cell)).map (·.st)) (by simp only [Fleet.proj, hl]; exact filter_split _ _ _ _ _ (by simp))
      exact ⟨_, by simpa [Fleet.proj, Fleet.setSem, List.filter_append] using hp⟩

/-- what belongs to a set of applications that use semaphore `k`, and to no other -/
theorem FleetInv.counts (h : FleetInv debug x) {k : Nat} {c : SemCell} (_hc : x.cells[k]? = some c) (P : Nat → Bool)
    (hP : ∀ a l k', x.made[a]? = some (l, k') → (P a = true ↔ k' = k)) :
    x.inFlight P = (x.proj k c).fs.length ∧ x.reserved P = (x.proj k c).holders ∧ x.handles P = (x.proj k c).hs.length := by
  have hh : ∀ a ∈ x.hs, P a.app = decide (a.cell = k) := by
    intro a ha
    obtain ⟨l, hl⟩ := h.hs a ha
    have := hP _ _ _ hl
    by_cases he : a.cell = k
    · simpa [he] using this.2 he
    · simp only [he, decide_false]
      cases hp : P a.app with
      | false => rfl
      | true => exact absurd (this.1 hp) he
  have hf : ∀ a ∈ x.fs, P a.app = decide (a.cell = k) := by
    intro a ha
    obtain ⟨l, hl⟩ := h.fs a ha
    have := hP _ _ _ hl
    by_cases he : a.cell = k
    · simpa [he] using this.2 he
    · simp only [he, decide_false]
      cases hp : P a.app with
      | false => rfl
      | true => exact absurd (this.1 hp) he
  refine ⟨?_, ?_, ?_⟩
  · simp only [Fleet.inFlight, Fleet.proj, List.length_map, ← List.countP_eq_length_filter]
    exact List.countP_congr (fun a ha => by rw [hf a ha])
  · simp only [Fleet.reserved, Fleet.proj, Lim.holders, List.countP_map, List.countP_filter]
    exact List.countP_congr (fun a ha => by rw [hh a ha]; simp [and_comm])
  · simp only [Fleet.handles, Fleet.proj, List.length_map, ← List.countP_eq_length_filter]
    exact List.countP_congr (fun a ha => by rw [hh a ha])

/-- the bound for the applications that use semaphore `k` -/
theorem FleetInv.bound (h : FleetInv debug x) {k : Nat} {c : SemCell} (hc : x.cells[k]? = some c) (P : Nat → Bool)
    (hP : ∀ a l k', x.made[a]? = some (l, k') → (P a = true ↔ k' = k)) : x.inFlight P + x.reserved P ≤ c.max := by
  obtain ⟨h1, h2, -⟩ := h.counts hc P hP
  rcases h.cell k c hc with ⟨arr, hh⟩ | ⟨-, h3, h4⟩
  · have := C04_bound hh
    rw [h1, h2]; exact this
  · have e1 : (x.proj k c).fs = [] := by
      simp only [Fleet.proj, List.map_eq_nil_iff, List.filter_eq_nil_iff]
      intro a ha; simpa using h4 a ha
    have e2 : (x.proj k c).hs = [] := by
      simp only [Fleet.proj, List.map_eq_nil_iff, List.filter_eq_nil_iff]
      intro a ha; simpa using h3 a ha
    rw [h1, h2, e1, Lim.holders, e2]; simp

theorem FleetInv.own_iff (h : FleetInv debug x) {j m k : Nat} (hj : x.made[j]? = some (LimLayer.own m, k)) :
    ∀ a l k', x.made[a]? = some (l, k') → (decide (a = j) = true ↔ k' = k) := by
  intro a l k' ha
  simp only [decide_eq_true_eq]
  constructor
  · rintro rfl; rw [hj] at ha; cases ha; rfl
  · rintro rfl; exact (h.own j m k' hj).2.2 a l ha

/-- a handle is refused a permit only on account of what belongs to its semaphore -/
theorem FleetInv.refused (h : FleetInv debug x) {a : FHandle S.σ} (ha : a ∈ x.hs) {c : SemCell} (hc : x.cells[a.cell]? = some c) (P : Nat → Bool)
    (hP : ∀ b l k', x.made[b]? = some (l, k') → (P b = true ↔ k' = a.cell)) {w w' : W} {p : Poll (Except Err Unit)} {s' : ConcState S.σ Nat} {sem' : Sem}
    (hr : ((LimSvc debug S).pollReady a.st).run (c.sem, w) = .ok (p, s') (sem', w')) (hs' : s'.permit = false) :
    p = .pending ∧ c.max + 1 ≤ x.inFlight P + x.handles P := by
  have hp : p = .pending := by
    cases p with
    | pending => rfl
    | ready res =>
      have := C04_ready_has_permit (x := x.proj a.cell c) (debug := debug) (S := S) (s := a.st) (s' := s') (w := w) (w' := w') (sem' := sem') (res := res) hr
      rw [hs'] at this; cases this
  refine ⟨hp, ?_⟩
  obtain ⟨arr, hh⟩ := h.hist hc (.inl ⟨a, ha, rfl⟩)
  obtain ⟨h1, -, h3⟩ := h.counts hc P hP
  rw [h1, h3]
  have hi := hh.inv
  obtain ⟨he, hcase⟩ := limReady_cases hr
  rcases hcase with ⟨hpt, hpt', -⟩ | ⟨hpf, hpt', -⟩
  · rw [hs'] at hpt'; cases hpt'
  · rw [hs'] at hpt'
    -- no permit is free
    have hz : c.sem.permits = 0 := by
      by_contra hne
      have := C06_work_conserving hh (n := a.st.sem) (by simp only [Fleet.proj]; omega)
      simp only [Lim.wouldGet, Fleet.proj] at this
      rw [this] at hpt'; cases hpt'
    have hng : a.st.sem ∉ c.sem.granted := by
      intro hg
      simp [Sem.pollAcquire, hg] at hpt'
    have hcons := hi.conserved
    -- handles with a permit, and handles to which one was granted, are different ones, and `a` is neither
    let L := (x.proj a.cell c).hs
    have haL : a.st ∈ L := by
      simp only [L, Fleet.proj, List.mem_map, List.mem_filter]; exact ⟨a, ⟨ha, by simp⟩, rfl⟩
    have hnd : (L.map (·.sem)).Nodup := hi.names
    have hgl : c.sem.granted.length + 1 ≤ (L.filter (fun s => !s.permit)).length := by
      have hsub : (a.st.sem :: c.sem.granted) ⊆ (L.filter (fun s => !s.permit)).map (·.sem) := by
        intro n hn
        simp only [List.mem_cons] at hn
        rcases hn with rfl | hn
        · simp only [List.mem_map, List.mem_filter]; exact ⟨a.st, ⟨haL, by simp [hpf]⟩, rfl⟩
        · obtain ⟨s, hs, h4, h5⟩ := hi.waiting n (by rw [hi.order]; exact List.mem_append_left _ hn)
          simp only [List.mem_map, List.mem_filter]; exact ⟨s, ⟨hs, by simp [h5]⟩, h4⟩
      have hgnd : (a.st.sem :: c.sem.granted).Nodup := by
        rw [List.nodup_cons]
        refine ⟨hng, ?_⟩
        have := hi.nodup
        rw [hi.order] at this
        exact (List.nodup_append.1 this).1
      have := (hgnd.subperm hsub).length_le
      simpa using this
    have hsplit : (L.filter (fun s => !s.permit)).length + L.countP (·.permit) = L.length := by
      rw [← List.countP_eq_length_filter, Nat.add_comm, List.length_eq_countP_add_countP (fun s : ConcState S.σ Nat => s.permit)]
      congr 1
      apply List.countP_congr; intro s _; simp
    have : (x.proj a.cell c).sem = c.sem := rfl
    rw [this, hz] at hcons
    simp only [Lim.holders] at hcons
    show c.max + 1 ≤ (x.proj a.cell c).fs.length + L.length
    have e : (x.proj a.cell c).hs = L := rfl
    rw [e] at hcons
    omega

theorem FleetInv.global_iff (h : FleetInv debug x) {k max : Nat} (hk : (k, max) ∈ x.globals) :
    ∀ a l k', x.made[a]? = some (l, k') → (x.usesGlobal k a = true ↔ k' = k) := by
  intro a l k' ha
  simp only [Fleet.usesGlobal, ha, Option.map_some, beq_iff_eq, Option.some.injEq]
  constructor
  · rintro rfl
    exact (h.shared a k k' ha).1
  · rintro rfl
    cases l with
    | own m => exact absurd hk ((h.own a m k' ha).2.1 _)
    | global g => rw [(h.shared a g k' ha).1]

/-! ## Theorems -/

/-- **C65, own limits.** Each service to which `ConcurrencyLimitLayer { max }` was applied has, with all its clones, a limit of `max` of its own,
whatever happens to other services to which that or another layer was applied. -/
theorem C65_own (h : FleetHist debug S x) {j max : Nat} (hj : x.madeBy j (.own max)) :
    x.inFlight (fun a => a = j) + x.reserved (fun a => a = j) ≤ max := by
  obtain ⟨k, hj⟩ := hj
  obtain ⟨⟨c, hc, hcm⟩, -⟩ := h.inv.own j max k hj
  rw [← hcm]
  exact h.inv.bound hc _ (h.inv.own_iff hj)

/-- **C65, independence.** Such a service is refused a permit only on its own account: if `poll_ready` of one of its handles comes back without a permit, then
it has `max` calls in flight or other handles that have, or are being given, a permit. In particular, with a single handle, it is only
refused if `max` of its own calls are in flight. -/
theorem C65_independent (h : FleetHist debug S x) {j max : Nat} (hj : x.madeBy j (.own max)) {a : FHandle S.σ} (ha : a ∈ x.hs) (haj : a.app = j)
    {c : SemCell} (hc : x.cells[a.cell]? = some c) {w w' : W} {p : Poll (Except Err Unit)} {s' : ConcState S.σ Nat} {sem' : Sem}
    (hr : ((LimSvc debug S).pollReady a.st).run (c.sem, w) = .ok (p, s') (sem', w')) (hs' : s'.permit = false) :
    p = .pending ∧ max + 1 ≤ x.inFlight (fun a => a = j) + x.handles (fun a => a = j) := by
  obtain ⟨k, hj⟩ := hj
  have hak : a.cell = k := by
    obtain ⟨l, hl⟩ := h.inv.hs a ha
    rw [haj, hj] at hl; cases hl; rfl
  subst hak
  obtain ⟨⟨c', hc', hcm⟩, -⟩ := h.inv.own j max a.cell hj
  rw [hc] at hc'; cases hc'
  rw [← hcm]
  exact h.inv.refused ha hc _ (h.inv.own_iff hj) hr hs'

/-- **C65, one limit for all.** All services together to which a `GlobalConcurrencyLimitLayer::new(max)` (or clones of it) was applied, and their clones,
share the one limit `max`. -/
theorem C65_global (h : FleetHist debug S x) {k max : Nat} (hk : (k, max) ∈ x.globals) :
    x.inFlight (x.usesGlobal k) + x.reserved (x.usesGlobal k) ≤ max := by
  obtain ⟨c, hc, rfl⟩ := h.inv.glob k max hk
  exact h.inv.bound hc _ (h.inv.global_iff hk)

/-- **C65, the shared limit is used to the full.** A service of a `GlobalConcurrencyLimitLayer::new(max)` is refused a permit only if `max` permits of that layer are in use by
calls in flight or set aside for other handles of services of that layer; other layers do not matter. -/
theorem C65_global_refused (h : FleetHist debug S x) {k max : Nat} (hk : (k, max) ∈ x.globals) {a : FHandle S.σ} (ha : a ∈ x.hs)
    (hak : x.madeBy a.app (.global k))
    {c : SemCell} (hc : x.cells[a.cell]? = some c) {w w' : W} {p : Poll (Except Err Unit)} {s' : ConcState S.σ Nat} {sem' : Sem}
    (hr : ((LimSvc debug S).pollReady a.st).run (c.sem, w) = .ok (p, s') (sem', w')) (hs' : s'.permit = false) :
    p = .pending ∧ max + 1 ≤ x.inFlight (x.usesGlobal k) + x.handles (x.usesGlobal k) := by
  obtain ⟨k', hak⟩ := hak
  have hcell : a.cell = k := by
    obtain ⟨l, hl⟩ := h.inv.hs a ha
    rw [hak] at hl; cases hl
    exact (h.inv.shared _ _ _ hak).1
  subst hcell
  obtain ⟨c', hc', rfl⟩ := h.inv.glob _ max hk
  rw [hc] at hc'; cases hc'
  exact h.inv.refused ha hc _ (h.inv.global_iff hk) hr hs'

/-! ## Both kinds of layer, limit 1, over two services -/

namespace Demo65

def inner : Service Unit Nat Nat Nat where
  σ := Unit
  φ := Nat
  pollReady _ := pure (.ready (.ok ()), ())
  call _ r := pure (r, ())
  poll r := pure (.ready (.ok r), r)
  clone := id

/-- `ConcurrencyLimitLayer::new(1)` applied to two services, both of which have a call in flight -/
def own2 : Fleet inner :=
  ⟨[⟨1, ⟨0, [], []⟩, 1⟩, ⟨1, ⟨0, [], []⟩, 1⟩], [], [(.own 1, 0), (.own 1, 1)], [⟨0, 0, ⟨(), 0, false⟩⟩, ⟨1, 1, ⟨(), 0, false⟩⟩], [⟨0, 0, (5 : Nat)⟩, ⟨1, 1, (6 : Nat)⟩]⟩

theorem own2_hist : FleetHist true inner own2 := by
  have h0 := FleetHist.empty (debug := true) (S := inner)
  have h1 := h0.layer 1 ()
  have h2 := h1.layer 1 ()
  have h3 := h2.ready (l := []) (h := ⟨0, 0, ⟨(), 0, false⟩⟩) (s' := ⟨(), 0, true⟩) (w := ()) rfl rfl rfl
  have h4 := h3.call (l := []) (h := ⟨0, 0, ⟨(), 0, true⟩⟩) (s' := ⟨(), 0, false⟩) (w := ()) (q := (5 : Nat)) (f := (5 : Nat)) rfl rfl rfl
  have h5 := h4.ready (l := [⟨0, 0, ⟨(), 0, false⟩⟩]) (h := ⟨1, 1, ⟨(), 0, false⟩⟩) (s' := ⟨(), 0, true⟩) (w := ()) rfl rfl rfl
  exact h5.call (l := [⟨0, 0, ⟨(), 0, false⟩⟩]) (h := ⟨1, 1, ⟨(), 0, true⟩⟩) (s' := ⟨(), 0, false⟩) (w := ()) (q := (6 : Nat)) (f := (6 : Nat)) rfl rfl rfl

/-- two calls in flight in all, one for each application: `C65_own` holds with equality -/
example : own2.inFlight (fun a => a = 0) = 1 ∧ own2.inFlight (fun a => a = 1) = 1 ∧ own2.fs.length = 2 ∧ own2.madeBy 0 (.own 1) ∧ own2.madeBy 1 (.own 1) :=
  ⟨by decide, by decide, rfl, ⟨0, rfl⟩, ⟨1, rfl⟩⟩

/-- `GlobalConcurrencyLimitLayer::new(1)` applied to two services, the first of which has a call in flight -/
def glob2 : Fleet inner :=
  ⟨[⟨1, ⟨0, [], []⟩, 2⟩], [(0, 1)], [(.global 0, 0), (.global 0, 0)], [⟨0, 0, ⟨(), 0, false⟩⟩, ⟨1, 0, ⟨(), 1, false⟩⟩], [⟨0, 0, (5 : Nat)⟩]⟩

theorem glob2_hist : FleetHist true inner glob2 := by
  have h0 := FleetHist.empty (debug := true) (S := inner)
  have h1 := (h0.newGlobal 1).layerGlobal (k := 0) (max := 1) () (by simp [Fleet.newGlobal, Fleet.empty])
  have h2 := h1.layerGlobal (k := 0) (max := 1) () (by simp [Fleet.newGlobal, Fleet.empty, LimLayer.layer, Fleet.withSemaphore])
  have h3 := h2.ready (l := []) (h := ⟨0, 0, ⟨(), 0, false⟩⟩) (s' := ⟨(), 0, true⟩) (w := ()) rfl rfl rfl
  exact h3.call (l := []) (h := ⟨0, 0, ⟨(), 0, true⟩⟩) (s' := ⟨(), 0, false⟩) (w := ()) (q := (5 : Nat)) (f := (5 : Nat)) rfl rfl rfl

/-- the second one must wait although it has no call in flight itself -/
example : ∃ s' sem' w', ((LimSvc true inner).pollReady ⟨(), 1, false⟩).run (⟨0, [], []⟩, ()) = .ok (.pending, s') (sem', w') ∧
    s'.permit = false ∧ glob2.inFlight (fun a => a = 1) = 0 ∧ glob2.inFlight (glob2.usesGlobal 0) = 1 ∧ glob2.handles (glob2.usesGlobal 0) = 2 :=
  ⟨_, _, _, rfl, rfl, by decide, by decide, by decide⟩

end Demo65

end Tower
