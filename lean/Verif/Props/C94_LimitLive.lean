import Verif.Spec.LimLiveSpec
import Verif.Props.C73_LimitWake
import Verif.Proof.BufferLive2
import Mathlib.Tactic.IntervalCases

/-! # C94: whoever waits for a permit of a concurrency limit gets one -/

set_option linter.unusedSimpArgs false

namespace Tower
variable {W Req Res Err : Type} {S : Service W Req Res Err} {debug : Bool} {max : Nat} {x y : Lim S} {arr arr' : List Nat} {e : LimEv}
  {xs : Nat → Lim S} {arrs wk : Nat → List Nat} {evs : Nat → Option LimEv}

/-! ## Lemmas -/

theorem LimLife.wake (L : LimLife debug max S xs arrs wk evs) (n : Nat) : LimWake debug max S (xs n) (arrs n) (wk n) := by
  induction n with
  | zero => obtain ⟨i, h1, h2, h3⟩ := L.start; rw [h1, h2, h3]; exact .new i
  | succ n ih =>
    cases he : evs n with
    | none => obtain ⟨h1, h2, h3⟩ := L.rest n he; rw [h1, h2, h3]; exact ih
    | some e => obtain ⟨h1, h2⟩ := L.step n e he; rw [h2]; exact ih.step h1

/-- in a list of named handles with one of them replaced -/
theorem mem_mid {α : Type} {l r : List α} {a s : α} : s ∈ l ++ a :: r ↔ s = a ∨ s ∈ l ++ r := by
  rw [List.perm_middle.mem_iff, List.mem_cons]

/-- a permit that is given away goes to a response future, or is given up -/
theorem holder_step (hs : LimStep debug S x arr e y arr') {s : ConcState S.σ Nat} (hm : s ∈ x.hs) (hp : s.permit = true) :
    (∃ s' ∈ y.hs, s'.sem = s.sem ∧ s'.permit = true) ∨ 0 < e.freed ∨ y.fs ≠ [] := by
  cases hs with
  | with_semaphore i => exact .inl ⟨s, List.mem_append_left _ hm, rfl, hp⟩
  | ready h1 h2 =>
    rw [h1, mem_mid] at hm
    rcases hm with rfl | hm
    · obtain ⟨h3, h4⟩ := limReady_cases h2
      rcases h4 with ⟨_, h4, _⟩ | ⟨h4, _⟩
      · exact .inl ⟨_, mem_mid.2 (.inl rfl), h3, h4⟩
      · rw [hp] at h4; cases h4
    · exact .inl ⟨s, mem_mid.2 (.inr hm), rfl, hp⟩
  | ready_panics h1 h2 =>
    rw [h1, mem_mid] at hm
    rcases hm with rfl | hm
    · exact .inl ⟨_, mem_mid.2 (.inl rfl), rfl, rfl⟩
    · exact .inl ⟨s, mem_mid.2 (.inr hm), rfl, hp⟩
  | call h1 h2 => exact .inr (.inr (by simp))
  | call_panics h1 h2 => exact .inr (.inl (by simp))
  | poll h1 h2 => exact .inl ⟨s, hm, rfl, hp⟩
  | poll_panics h1 => exact .inl ⟨s, hm, rfl, hp⟩
  | drop_future h1 => exact .inr (.inl (by simp))
  | clone h1 => exact .inl ⟨s, List.mem_append_left _ hm, rfl, hp⟩
  | drop_ready h1 h2 => exact .inr (.inl (by simp))
  | drop_handle h1 h2 =>
    rw [h1, mem_mid] at hm
    rcases hm with rfl | hm
    · rw [hp] at h2; cases h2
    · exact .inl ⟨s, hm, rfl, hp⟩

/-- a permit that was assigned stays assigned until its handle is polled (then it has it) or dropped -/
theorem assigned_step (h : LimHist debug max S x arr) (hs : LimStep debug S x arr e y arr') {a : Nat} (ha : a ∈ x.sem.granted) :
    (a ∈ y.sem.granted ∧ e.polled ≠ some a) ∨ 0 < e.freed ∨ ∃ s ∈ y.hs, s.permit = true := by
  have hi := h.inv
  have hn : (x.sem.granted ++ x.sem.queue).Nodup := by have := hi.nodup; rwa [hi.order] at this
  have acq : ∀ {c : Nat}, c ≠ a → a ∈ (x.sem.pollAcquire c).2.granted := by
    intro c hc
    unfold Sem.pollAcquire
    split
    · exact (List.mem_erase_of_ne hc.symm).2 ha
    · split
      · exact ha
      · split <;> exact ha
  cases hs with
  | with_semaphore i => exact .inl ⟨ha, by simp⟩
  | ready h1 h2 =>
    rename_i l r s s'
    obtain ⟨h3, h4⟩ := limReady_cases h2
    rcases h4 with ⟨_, h4, _⟩ | ⟨_, h4, h5⟩
    · exact .inr (.inr ⟨s', mem_mid.2 (.inl rfl), h4⟩)
    · by_cases hc : s.sem = a
      · subst hc
        refine .inr (.inr ⟨s', mem_mid.2 (.inl rfl), ?_⟩)
        rw [h4]; simp [Sem.pollAcquire, ha]
      · exact .inl ⟨by dsimp only; rw [h5]; exact acq hc, fun h => hc (by simpa using h)⟩
  | ready_panics h1 h2 => exact .inr (.inr ⟨_, mem_mid.2 (.inl rfl), rfl⟩)
  | call h1 h2 => exact .inl ⟨by dsimp only; rw [(limCall_cases h2).2.2.2]; exact ha, by simp⟩
  | call_panics h1 h2 => exact .inr (.inl (by simp))
  | poll h1 h2 =>
    obtain ⟨-, hh⟩ := snd_eq_ok.1 h2
    simp only at hh
    exact .inl ⟨by dsimp only; rw [hh]; exact ha, by simp⟩
  | poll_panics h1 => exact .inl ⟨ha, by simp⟩
  | drop_future h1 => exact .inr (.inl (by simp))
  | clone h1 => exact .inl ⟨ha, by simp⟩
  | drop_ready h1 h2 => exact .inr (.inl (by simp))
  | drop_handle h1 h2 =>
    rename_i l s r
    by_cases hg : s.sem ∈ x.sem.granted
    · exact .inr (.inl (by simp [hg]))
    · refine .inl ⟨?_, by simp⟩
      show a ∈ (x.sem.dropAcquire s.sem).granted
      unfold Sem.dropAcquire
      rw [if_neg hg]; exact ha

/-- only the drop of a response future makes them fewer -/
theorem fewer_futures (hs : LimStep debug S x arr e y arr') (h : y.fs.length < x.fs.length) : 0 < e.freed := by
  cases hs with
  | drop_future h1 => simp
  | call h1 h2 => simp at h
  | poll h1 h2 => rw [h1] at h; simp at h
  | poll_panics h1 => rw [h1] at h; simp at h
  | _ => exact absurd h (Nat.lt_irrefl _)

/-- whoever ceases to wait has a permit, or was dropped -/
theorem ceases (h : LimHist debug max S x arr) (hs : LimStep debug S x arr e y arr') {nm : Nat} (h1 : nm ∈ arr) (h2 : nm ∉ arr') : ∀ s ∈ y.hs, s.sem = nm → s.permit = true := by
  intro s hm hsn
  have hi' := (hs.hist h).inv
  have same : ∀ {b : ConcState S.σ Nat}, b ∈ y.hs → b.sem = nm → s = b := fun hb hbn => List.inj_on_of_nodup_map hi'.names hm hb (hsn.trans hbn.symm)
  have left : ∀ {b : Nat}, nm ∉ arr.erase b → b = nm := by
    intro b hb
    by_contra hne
    exact hb ((List.mem_erase_of_ne (fun h => hne h.symm)).2 h1)
  have names : ∀ {l r : List (ConcState S.σ Nat)} {a : ConcState S.σ Nat}, x.hs = l ++ a :: r → a.sem = nm → s ∈ l ++ r → False := by
    intro l r a hh ha hms
    have hnd := h.inv.names
    rw [hh, List.map_append, List.map_cons] at hnd
    have := (List.nodup_cons.1 (List.nodup_middle.1 hnd)).1
    rw [← List.map_append] at this
    exact this (ha.trans hsn.symm ▸ List.mem_map_of_mem hms)
  cases hs with
  | ready h3 h4 =>
    rename_i l r a a'
    have h5 := (limReady_cases h4).1
    split at h2
    · rename_i hp
      rw [same (b := a') (mem_mid.2 (.inl rfl)) (by rw [h5]; exact left h2)]; exact hp
    · split at h2
      · exact absurd h1 h2
      · exact absurd (List.mem_append_left _ h1) h2
  | ready_panics h3 h4 => rw [same (mem_mid.2 (.inl rfl)) (left h2)]
  | drop_ready h3 h4 => exact (names h3 (left h2) hm).elim
  | drop_handle h3 h4 => exact (names h3 (left h2) hm).elim
  | _ => exact absurd h1 h2

/-! ## The theorem -/

/-- **C94.** The clones of a `ConcurrencyLimit` with a limit of at least one: if those who were woken poll, those who have a permit use it or drop their handle, and response futures do not live for ever, then a handle that waits for a permit gets one (or is dropped), whatever the others do. -/
theorem C94_admitted (L : LimLife debug max S xs arrs wk evs) (U : LimUsers xs arrs wk evs) (hmax : 0 < max) {nm n : Nat} (hw : nm ∈ arrs n) : ∃ m, n < m ∧ ∀ s ∈ (xs m).hs, s.sem = nm → s.permit = true := by
  by_contra hcon
  push Not at hcon
  have harr : ∀ m, n ≤ m → nm ∈ arrs m := by
    have : ∀ d, nm ∈ arrs (n + d) := by
      intro d
      induction d with
      | zero => exact hw
      | succ d ih =>
        rw [← Nat.add_assoc]
        cases he : evs (n + d) with
        | none => rw [(L.rest _ he).2.1]; exact ih
        | some e =>
          by_contra hno
          obtain ⟨s, h1, h2, h3⟩ := hcon (n + d + 1) (by omega)
          exact h3 (ceases (L.wake _).hist (L.step _ _ he).1 ih hno s h1 h2)
    intro m hm
    have := this (m - n); rwa [show n + (m - n) = m by omega] at this
  have hinv : ∀ m, LimInv max (xs m) (arrs m) := fun m => (L.wake m).hist.inv
  -- some day a permit is given up
  have key : ∀ n₀, n ≤ n₀ → (∀ k e, n₀ ≤ k → evs k = some e → e.freed = 0) → ∃ k, n₀ ≤ k ∧ (xs k).fs = [] ∧ (∀ s ∈ (xs k).hs, s.permit = false) ∧ (xs k).sem.granted = [] := by
    intro n₀ hn₀ H
    have hfs : ∀ k, n₀ ≤ k → (xs k).fs = [] := by
      intro k hk
      by_contra hne
      obtain ⟨m, hm, hlt⟩ := U.ends k hne
      cases he : evs m with
      | none => rw [(L.rest m he).1] at hlt; exact Nat.lt_irrefl _ hlt
      | some e => have := fewer_futures (L.step _ _ he).1 hlt; have := H m e (by omega) he; omega
    have hno : ∀ k, n₀ ≤ k → ∀ s ∈ (xs k).hs, s.permit = false := by
      intro k hk s hs
      by_contra hp
      have hp : s.permit = true := by simpa using hp
      have stays : ∀ d, ∃ s' ∈ (xs (k + d)).hs, s'.sem = s.sem ∧ s'.permit = true := by
        intro d
        induction d with
        | zero => exact ⟨s, hs, rfl, hp⟩
        | succ d ih =>
          obtain ⟨s', h1, h2, h3⟩ := ih
          rw [← Nat.add_assoc]
          cases he : evs (k + d) with
          | none => rw [(L.rest _ he).1]; exact ⟨s', h1, h2, h3⟩
          | some e =>
            rcases holder_step (L.step _ _ he).1 h1 h3 with ⟨s'', h4, h5, h6⟩ | h4 | h4
            · exact ⟨s'', h4, h5.trans h2, h6⟩
            · have := H (k + d) e (by omega) he; omega
            · exact absurd (hfs _ (by omega)) h4
      obtain ⟨m, hm, h1⟩ := U.calls k s hs hp
      obtain ⟨s', h2, h3, h4⟩ := stays (m - k)
      rw [show k + (m - k) = m by omega] at h2
      rw [h1 s' h2 h3] at h4; cases h4
    refine ⟨n₀, Nat.le_refl _, hfs _ (Nat.le_refl _), hno _ (Nat.le_refl _), ?_⟩
    by_contra hg
    obtain ⟨a, ha⟩ := List.exists_mem_of_ne_nil _ hg
    have stays : ∀ d, a ∈ (xs (n₀ + d)).sem.granted := by
      intro d
      induction d with
      | zero => exact ha
      | succ d ih =>
        rw [← Nat.add_assoc]
        cases he : evs (n₀ + d) with
        | none => rw [(L.rest _ he).1]; exact ih
        | some e =>
          rcases assigned_step (L.wake _).hist (L.step _ _ he).1 ih with h1 | h1 | ⟨s, h1, h2⟩
          · exact h1.1
          · have := H (n₀ + d) e (by omega) he; omega
          · rw [hno (n₀ + d + 1) (by omega) s h1] at h2; cases h2
    have inarr : ∀ k, n₀ ≤ k → a ∈ arrs k := fun k hk => by
      rw [(hinv k).order]
      have := stays (k - n₀); rw [show n₀ + (k - n₀) = k by omega] at this
      exact List.mem_append_left _ this
    obtain ⟨m, hm, h1⟩ := U.polls a n₀ (inarr n₀ (Nat.le_refl _)) ((L.wake n₀).inv.1 a ha)
    rcases h1 with ⟨e, he, hp⟩ | h1
    · have := stays (m - n₀)
      rw [show n₀ + (m - n₀) = m by omega] at this
      rcases assigned_step (L.wake _).hist (L.step _ _ he).1 this with h1 | h1 | ⟨s, h1, h2⟩
      · exact h1.2 hp
      · have := H m e hm he; omega
      · rw [hno (m + 1) (by omega) s h1] at h2; cases h2
    · obtain ⟨s, h2, h3, _⟩ := (hinv m).waiting a (inarr m hm)
      exact h1 s h2 h3
  have hprog : ∀ n₀, n ≤ n₀ → ∃ k e, n₀ ≤ k ∧ evs k = some e ∧ 0 < e.freed := by
    intro n₀ hn₀
    by_contra H
    push Not at H
    obtain ⟨k, hk, h1, h2, h3⟩ := key n₀ hn₀ fun k e hk he => by have := H k e hk he; omega
    have h4 := (hinv k).conserved
    have h5 : nm ∈ (xs k).sem.queue := by
      have := harr k (by omega)
      rw [(hinv k).order, h3] at this
      exact this
    rw [(hinv k).busy (List.ne_nil_of_mem h5), h3, h1, show (xs k).holders = 0 from List.countP_eq_zero.2 fun s hs => by simp [h2 s hs]] at h4
    simp at h4; omega
  -- it is never assigned one
  have hq : ∀ m, n ≤ m → nm ∈ (xs m).sem.queue := by
    intro m hm
    by_contra hnq
    have hg : nm ∈ (xs m).sem.granted := by
      have := harr m hm
      rw [(hinv m).order] at this
      exact (List.mem_append.1 this).resolve_right hnq
    have stays : ∀ d, nm ∈ (xs (m + d)).sem.granted := by
      intro d
      induction d with
      | zero => exact hg
      | succ d ih =>
        rw [← Nat.add_assoc]
        cases he : evs (m + d) with
        | none => rw [(L.rest _ he).1]; exact ih
        | some e =>
          have hin := harr (m + d + 1) (by omega)
          rw [(hinv _).order] at hin
          exact (List.mem_append.1 hin).resolve_right fun h => ((L.step _ _ he).1.move (L.wake _).hist).keeps nm ih h
    obtain ⟨m', hm', h1⟩ := U.polls nm m (harr m hm) ((L.wake m).inv.1 nm hg)
    have hg' := stays (m' - m)
    rw [show m + (m' - m) = m' by omega] at hg'
    rcases h1 with ⟨e, he, hp⟩ | h1
    · have hin := harr (m' + 1) (by omega)
      have key2 : ∀ {x y : Lim S} {arr arr' e}, LimHist debug max S x arr → LimStep debug S x arr e y arr' → e.polled = some nm → nm ∈ x.sem.granted → nm ∉ arr' := by
        intro x y arr arr' e h hs hp hg
        have hnd := h.inv.nodup
        have hna : nm ∈ arr := by rw [h.inv.order]; exact List.mem_append_left _ hg
        cases hs with
        | ready h3 h4 =>
          injection hp with hp
          obtain ⟨s0, hs0, hs1, hs2⟩ := h.inv.waiting nm hna
          rename_i l r a a'
          have : a = s0 := List.inj_on_of_nodup_map h.inv.names (by rw [h3]; simp) hs0 (hp.trans hs1.symm)
          subst this
          have h6 : a'.permit = true := by
            rcases (limReady_cases h4).2 with ⟨h5, _⟩ | ⟨_, h5, _⟩
            · rw [hs2] at h5; cases h5
            · rw [h5, hs1]; simp [Sem.pollAcquire, hg]
          rw [if_pos h6, hp]
          exact hnd.not_mem_erase
        | ready_panics h3 h4 => injection hp with hp; subst hp; exact hnd.not_mem_erase
        | _ => cases hp
      exact key2 (L.wake _).hist (L.step _ _ he).1 hp hg' hin
    · obtain ⟨s, h2, h3, _⟩ := (hinv m').waiting nm (harr m' (by omega))
      exact h1 s h2 h3
  refine no_descent (fun m => (xs m).sem.queue.idxOf nm) n (fun m hm => ?_) fun m hm => ?_
  · cases he : evs m with
    | none => rw [(L.rest _ he).1]
    | some e => have := ((L.step _ _ he).1.move (L.wake _).hist).moves nm (hq (m + 1) (by omega)) (hq m hm); omega
  · obtain ⟨k, e, h1, h2, h3⟩ := hprog m hm
    have := ((L.step _ _ h2).1.move (L.wake _).hist).moves nm (hq (k + 1) (by omega)) (hq k (by omega))
    exact ⟨k, h1, by omega⟩

/-! ## A concrete case -/

namespace Demo94
open Demo04 (inner)

abbrev H (n : Nat) (p : Bool) : ConcState inner.σ Nat := ⟨(), n, p⟩

def dx : Nat → Lim inner
  | 0 => ⟨Sem.new 1, [H 0 false], [], 1⟩
  | 1 => ⟨⟨1, [], []⟩, [H 0 false, H 1 false], [], 2⟩
  | 2 => ⟨⟨0, [], []⟩, [H 0 true, H 1 false], [], 2⟩
  | 3 => ⟨⟨0, [], []⟩, [H 0 false, H 1 false], [(7 : Nat)], 2⟩
  | 4 => ⟨⟨0, [1], []⟩, [H 0 false, H 1 false], [(7 : Nat)], 2⟩
  | 5 => ⟨⟨0, [], [1]⟩, [H 0 false, H 1 false], [], 2⟩
  | 6 => ⟨⟨0, [], []⟩, [H 0 false, H 1 true], [], 2⟩
  | _ => ⟨⟨1, [], []⟩, [H 0 false], [], 2⟩

def a : Nat → List Nat | 4 => [1] | 5 => [1] | _ => []
def k : Nat → List Nat | 5 => [1] | _ => []

/-- handle 0 gets the permit and calls; handle 1 waits until the response future is dropped, gets the permit, and is dropped -/
def ev : Nat → Option LimEv
  | 0 => some ⟨none, 0, []⟩
  | 1 => some ⟨some 0, 0, []⟩
  | 2 => some ⟨none, 0, []⟩
  | 3 => some ⟨some 1, 0, []⟩
  | 4 => some ⟨none, 1, [1]⟩
  | 5 => some ⟨some 1, 0, []⟩
  | 6 => some ⟨none, 1, []⟩
  | _ => none

theorem life : LimLife true 1 inner dx a k ev where
  start := ⟨(), rfl, rfl, rfl⟩
  step
    | 0, _, rfl => ⟨.clone (s := H 0 false) (by simp [dx]), rfl⟩
    | 1, _, rfl => ⟨.ready (l := []) (s := H 0 false) (s' := H 0 true) (w := ()) rfl rfl, rfl⟩
    | 2, _, rfl => ⟨.call (l := []) (s := H 0 true) (s' := H 0 false) (q := (7 : Nat)) (f := (7 : Nat)) (w := ()) rfl rfl, rfl⟩
    | 3, _, rfl => ⟨.ready (l := [H 0 false]) (s := H 1 false) (s' := H 1 false) (w := ()) rfl rfl, rfl⟩
    | 4, _, rfl => ⟨.drop_future (l := []) (f := (7 : Nat)) (r := []) rfl, rfl⟩
    | 5, _, rfl => ⟨.ready (l := [H 0 false]) (s := H 1 false) (s' := H 1 true) (w := ()) rfl rfl, rfl⟩
    | 6, _, rfl => ⟨.drop_ready (l := [H 0 false]) (s := H 1 true) (r := []) rfl rfl, rfl⟩
  rest
    | n + 7, _ => ⟨rfl, rfl, rfl⟩

theorem users : LimUsers dx a k ev where
  polls
    | nm, 0, h, _ => by cases h
    | nm, 1, h, _ => by cases h
    | nm, 2, h, _ => by cases h
    | nm, 3, h, _ => by cases h
    | nm, 4, _, h => by cases h
    | nm, 5, h, _ => ⟨5, Nat.le_refl _, .inl ⟨_, rfl, by rw [List.mem_singleton.1 h]⟩⟩
    | nm, n + 6, h, _ => by cases h
  calls n s hs hp := by
    by_cases hn : n < 7
    · exact ⟨7, by omega, fun s' hs' _ => by have : s' = H 0 false := List.mem_singleton.1 hs'
                                             rw [this]⟩
    · obtain ⟨d, rfl⟩ := Nat.exists_eq_add_of_le (Nat.le_of_not_lt hn)
      rw [Nat.add_comm] at hs
      have : s = H 0 false := List.mem_singleton.1 hs
      rw [this] at hp; cases hp
  ends
    | 0, h | 1, h | 2, h => absurd rfl h
    | 3, _ => ⟨4, by omega, Nat.zero_lt_one⟩
    | 4, _ => ⟨4, by omega, Nat.zero_lt_one⟩
    | 5, h | 6, h | n + 7, h => absurd rfl h

example : ∃ m, 4 < m ∧ ∀ s ∈ (dx m).hs, s.sem = 1 → s.permit = true := C94_admitted life users (by decide) (by simp [a] : 1 ∈ a 4)

end Demo94

end Tower
