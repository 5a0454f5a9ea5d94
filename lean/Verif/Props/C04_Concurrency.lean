import Verif.Model.Semaphore
import Mathlib.Data.List.Nodup

/-! # C04, C05, C06: ConcurrencyLimit -/

set_option linter.unusedSimpArgs false

namespace Tower
open Act
variable {W Req Res Err : Type}

/-! ## Specification -/

/-- The handles that hold a permit for their next call. -/
def Lim.holders {S : Service W Req Res Err} (x : Lim S) : Nat := x.hs.countP (·.permit)

/-- Would `poll_ready` of the handle named `h` get a permit now? -/
def Lim.wouldGet {S : Service W Req Res Err} (x : Lim S) (h : Nat) : Bool := (x.sem.pollAcquire h).1

/-- One acquire future polled again and again, each time in the world `p.1`, which it leaves as `p.2`; it was
pending each time. -/
inductive AcqWaits (V : SemView W) : List (W × W) → V.α → V.α → Prop
  | nil (a) : AcqWaits V [] a a
  | snoc {l a b c w w'} : AcqWaits V l a b → V.pollAcquire b w = ((.pending, c), w') → AcqWaits V (l ++ [(w, w')]) a c

/-- `poll_ready` of one service called again and again, with anything done by others in between; it was pending each time. -/
inductive ReadyWaits (S : Service W Req Res Err) : List (W × W) → S.σ → S.σ → Prop
  | nil (s) : ReadyWaits S [] s s
  | snoc {l s t u w w'} : ReadyWaits S l s t → (S.pollReady t).run w = .ok (.pending, u) w' → ReadyWaits S (l ++ [(w, w')]) s u

/-! ## Proofs -/

structure LimInv {S : Service W Req Res Err} (max : Nat) (x : Lim S) (arr : List Nat) : Prop where
  conserved : x.sem.permits + x.sem.granted.length + x.holders + x.fs.length = max
  busy : x.sem.queue ≠ [] → x.sem.permits = 0
  order : arr = x.sem.granted ++ x.sem.queue
  nodup : arr.Nodup
  names : (x.hs.map (·.sem)).Nodup
  bound : ∀ s ∈ x.hs, s.sem < x.next
  waiting : ∀ h ∈ arr, ∃ s ∈ x.hs, s.sem = h ∧ s.permit = false

/-- the handle `s` does not wait if it has a permit -/
theorem LimInv.not_waiting {S : Service W Req Res Err} {max : Nat} {x : Lim S} {arr : List Nat} (h : LimInv max x arr)
    {s : ConcState S.σ Nat} (hs : s ∈ x.hs) (hp : s.permit = true) : s.sem ∉ arr := by
  intro hm
  obtain ⟨s', hs', he, hp'⟩ := h.waiting _ hm
  have : s' = s := List.inj_on_of_nodup_map h.names hs' hs he
  subst this
  simp [hp] at hp'

theorem release_facts (s : Sem) (hb : s.queue ≠ [] → s.permits = 0) :
    s.release.granted ++ s.release.queue = s.granted ++ s.queue ∧
    (s.release.queue ≠ [] → s.release.permits = 0) ∧
    s.release.permits + s.release.granted.length = s.permits + s.granted.length + 1 := by
  obtain ⟨p, q, g⟩ := s
  cases q with
  | nil => simp [Sem.release]; omega
  | cons h q =>
    have := hb (by simp)
    simp at this
    simp [Sem.release, this]

theorem erase_append_notMem {a : Nat} {l r : List Nat} (h : a ∉ l) : (l ++ r).erase a = l ++ r.erase a := by
  rw [List.erase_append_right _ h]

/-- polling the semaphore, for a name that waits at most once -/
theorem pollAcquire_facts (s : Sem) (h : Nat) (hn : (s.granted ++ s.queue).Nodup)
    (hb : s.queue ≠ [] → s.permits = 0) :
    let r := s.pollAcquire h
    (r.2.queue ≠ [] → r.2.permits = 0) ∧
    r.2.permits + r.2.granted.length + (if r.1 then 1 else 0) = s.permits + s.granted.length ∧
    r.2.granted ++ r.2.queue =
      (if r.1 then (s.granted ++ s.queue).erase h
       else if h ∈ s.granted ++ s.queue then s.granted ++ s.queue else s.granted ++ s.queue ++ [h]) := by
  obtain ⟨p, q, g⟩ := s
  simp only at hn hb ⊢
  unfold Sem.pollAcquire
  by_cases h1 : h ∈ g
  · have := List.length_erase_of_mem h1
    have h3 : 0 < g.length := List.length_pos_of_mem h1
    simp only [h1, if_true]
    refine ⟨hb, by omega, ?_⟩
    rw [List.erase_append_left _ h1]
  · by_cases h2 : h ∈ q
    · simp [h1, h2, hb]
      exact fun hq => hb hq
    · by_cases h3 : p > 0
      · have hq : q = [] := by
          by_contra hq
          have := hb hq
          omega
        subst hq
        simp only [h1, h2, h3, if_true, if_false]
        refine ⟨by simp, by omega, ?_⟩
        rw [List.erase_of_not_mem]
        simpa using h1
      · simp only [h1, h2, h3, if_false]
        refine ⟨fun _ => by omega, by simp, ?_⟩
        simp [h1, h2]

theorem dropAcquire_facts (s : Sem) (h : Nat) (hn : (s.granted ++ s.queue).Nodup)
    (hb : s.queue ≠ [] → s.permits = 0) :
    ((s.dropAcquire h).queue ≠ [] → (s.dropAcquire h).permits = 0) ∧
    (s.dropAcquire h).permits + (s.dropAcquire h).granted.length = s.permits + s.granted.length ∧
    (s.dropAcquire h).granted ++ (s.dropAcquire h).queue = (s.granted ++ s.queue).erase h := by
  unfold Sem.dropAcquire
  by_cases h1 : h ∈ s.granted
  · simp only [h1, if_true]
    have h2 := release_facts { s with granted := s.granted.erase h } hb
    have h3 := List.length_erase_of_mem h1
    have h4 : 0 < s.granted.length := List.length_pos_of_mem h1
    refine ⟨h2.2.1, ?_, ?_⟩
    · rw [h2.2.2]; simp only; omega
    · rw [h2.1, List.erase_append_left _ h1]
  · simp only [h1, if_false]
    refine ⟨fun hq => hb ?_, trivial, ?_⟩
    · intro h0; rw [h0] at hq; simp at hq
    · rw [List.erase_append_right _ h1]

/-- what `poll_ready` does to handle and semaphore -/
theorem limReady_cases {debug : Bool} {S : Service W Req Res Err} {s s' : ConcState S.σ Nat} {sem sem' : Sem} {w w' : W}
    {p : Poll (Except Err Unit)} (h : ((LimSvc debug S).pollReady s).run (sem, w) = .ok (p, s') (sem', w')) :
    s'.sem = s.sem ∧
    ((s.permit = true ∧ s'.permit = true ∧ sem' = sem) ∨
     (s.permit = false ∧ s'.permit = (sem.pollAcquire s.sem).1 ∧ sem' = (sem.pollAcquire s.sem).2)) := by
  obtain ⟨i, n, b⟩ := s
  cases b with
  | true =>
    simp only [LimSvc, ConcurrencyLimit, if_true, run_bind, Act.snd] at h
    cases hp : (S.pollReady i).run w with
    | panic m => simp [hp] at h
    | spin => simp [hp] at h
    | ok a w1 =>
      simp only [hp, run_pure] at h
      cases h
      exact ⟨rfl, .inl ⟨rfl, rfl, rfl⟩⟩
  | false =>
    simp only [LimSvc, ConcurrencyLimit, Bool.false_eq_true, if_false, run_bind, run_lift] at h
    cases hg : (sem.pollAcquire n).1 with
    | false =>
      simp only [hg, Bool.false_eq_true, if_false, run_pure] at h
      cases h
      exact ⟨rfl, .inr ⟨rfl, rfl, rfl⟩⟩
    | true =>
      simp only [hg, if_true, Bool.not_true, Bool.and_false, Bool.false_eq_true, if_false, run_bind, Act.snd] at h
      cases hp : (S.pollReady i).run w with
      | panic m => simp [hp] at h
      | spin => simp [hp] at h
      | ok a w1 =>
        simp only [hp, run_pure] at h
        cases h
        exact ⟨rfl, .inr ⟨rfl, rfl, rfl⟩⟩

theorem limCall_cases {debug : Bool} {S : Service W Req Res Err} {s s' : ConcState S.σ Nat} {sem sem' : Sem} {w w' : W}
    {q : Req} {f : S.φ} (h : ((LimSvc debug S).call s q).run (sem, w) = .ok (f, s') (sem', w')) :
    s'.sem = s.sem ∧ s.permit = true ∧ s'.permit = false ∧ sem' = sem := by
  obtain ⟨i, n, b⟩ := s
  cases b with
  | false => simp [LimSvc, ConcurrencyLimit] at h
  | true =>
    simp only [LimSvc, ConcurrencyLimit, if_true, run_bind, Act.snd] at h
    cases hp : (S.call i q).run w with
    | panic m => simp [hp] at h
    | spin => simp [hp] at h
    | ok a w1 =>
      simp only [hp, run_pure] at h
      cases h
      exact ⟨rfl, rfl, rfl, rfl⟩

section
variable {S : Service W Req Res Err} {l r : List (ConcState S.σ Nat)} {s s' : ConcState S.σ Nat}

theorem names_replace (he : s'.sem = s.sem) :
    (l ++ s' :: r).map (·.sem) = (l ++ s :: r).map (·.sem) := by simp [he]

/-- waiting handles after replacing `s` by `s'` -/
theorem waiting_replace {arr arr' : List Nat} (hn : ((l ++ s :: r).map (·.sem)).Nodup) (he : s'.sem = s.sem)
    (hw : ∀ h ∈ arr, ∃ t ∈ l ++ s :: r, t.sem = h ∧ t.permit = false)
    (hsub : ∀ h ∈ arr', h ∈ arr ∨ h = s.sem) (hs : s.sem ∈ arr' → s'.permit = false) :
    ∀ h ∈ arr', ∃ t ∈ l ++ s' :: r, t.sem = h ∧ t.permit = false := by
  intro h hh
  by_cases hhs : h = s.sem
  · subst hhs
    exact ⟨s', by simp, he, hs hh⟩
  · rcases hsub h hh with h1 | h1
    · obtain ⟨t, ht, h2, h3⟩ := hw h h1
      refine ⟨t, ?_, h2, h3⟩
      simp only [List.mem_append, List.mem_cons] at ht ⊢
      rcases ht with ht | ht | ht
      · exact .inl ht
      · subst ht; exact absurd h2.symm hhs
      · exact .inr (.inr ht)
    · exact absurd h1 hhs

theorem waiting_remove {arr arr' : List Nat}
    (hw : ∀ h ∈ arr, ∃ t ∈ l ++ s :: r, t.sem = h ∧ t.permit = false)
    (hsub : ∀ h ∈ arr', h ∈ arr ∧ h ≠ s.sem) :
    ∀ h ∈ arr', ∃ t ∈ l ++ r, t.sem = h ∧ t.permit = false := by
  intro h hh
  obtain ⟨h1, hhs⟩ := hsub h hh
  obtain ⟨t, ht, h2, h3⟩ := hw h h1
  refine ⟨t, ?_, h2, h3⟩
  simp only [List.mem_append, List.mem_cons] at ht ⊢
  rcases ht with ht | ht | ht
  · exact .inl ht
  · subst ht; exact absurd h2.symm hhs
  · exact .inr ht

end

/-- what `poll_ready` preserves -/
theorem LimInv.ready_step {S : Service W Req Res Err} {max : Nat} {x : Lim S} {arr : List Nat} {sem' : Sem}
    {l r : List (ConcState S.σ Nat)} {s s' : ConcState S.σ Nat} (ih : LimInv max x arr) (hl : x.hs = l ++ s :: r)
    (he : s'.sem = s.sem)
    (hcase : (s.permit = true ∧ s'.permit = true ∧ sem' = x.sem) ∨
     (s.permit = false ∧ s'.permit = (x.sem.pollAcquire s.sem).1 ∧ sem' = (x.sem.pollAcquire s.sem).2)) :
    LimInv max ({ x with sem := sem', hs := l ++ s' :: r } : Lim S)
      (if s'.permit = true then arr.erase s.sem else if s.sem ∈ arr then arr else arr ++ [s.sem]) := by
  obtain ⟨sem, hs, fs, next⟩ := x
  simp only at hl hcase
  subst hl
  have hnd : (sem.granted ++ sem.queue).Nodup := by have := ih.nodup; rwa [ih.order] at this
  have hnm : ((l ++ s :: r).map (·.sem)).Nodup := ih.names
  have hbd : ∀ t ∈ l ++ s' :: r, t.sem < next := by
    intro t ht
    simp only [List.mem_append, List.mem_cons] at ht
    rcases ht with ht | ht | ht
    · exact ih.bound t (by simp [ht])
    · subst ht; rw [he]; exact ih.bound s (by simp)
    · exact ih.bound t (by simp [ht])
  rcases hcase with ⟨hp, hp', rfl⟩ | ⟨hp, hp', rfl⟩
  · have hnw := ih.not_waiting (s := s) (by simp) hp
    simp only [hp', if_true, List.erase_of_not_mem hnw]
    refine ⟨?_, ih.busy, ih.order, ih.nodup, by rw [names_replace he]; exact hnm, hbd, ?_⟩
    · have := ih.conserved
      simp only [Lim.holders, List.countP_append, List.countP_cons, hp, hp'] at this ⊢
      exact this
    · exact waiting_replace hnm he ih.waiting (fun _ h => .inl h) (fun h => absurd h hnw)
  · have hf := pollAcquire_facts sem s.sem hnd ih.busy
    simp only [hp']
    obtain ⟨h1, h2, h3⟩ := hf
    rw [← ih.order] at h3
    refine ⟨?_, h1, h3.symm, ?_, by rw [names_replace he]; exact hnm, hbd, ?_⟩
    · have := ih.conserved
      simp only [Lim.holders, List.countP_append, List.countP_cons, hp, hp'] at this ⊢
      cases hg : (sem.pollAcquire s.sem).1 <;> simp [hg] at h2 this ⊢ <;> omega
    · cases hg : (sem.pollAcquire s.sem).1
      · simp only [Bool.false_eq_true, if_false]
        split
        · exact ih.nodup
        · rename_i hna
          rw [List.nodup_append]
          exact ⟨ih.nodup, by simp, by intro a ha b hb hab; simp at hb; subst hb; subst hab; exact hna ha⟩
      · simp only [if_true]
        exact ih.nodup.erase _
    · refine waiting_replace hnm he ih.waiting ?_ ?_
      · intro h hh
        cases hg : (sem.pollAcquire s.sem).1
        · simp only [hg, Bool.false_eq_true, if_false] at hh
          split at hh
          · exact .inl hh
          · simp only [List.mem_append, List.mem_singleton] at hh
            exact hh
        · simp only [hg, if_true] at hh
          exact .inl (List.mem_of_mem_erase hh)
      · intro hh
        rw [hp']
        cases hg : (sem.pollAcquire s.sem).1
        · rfl
        · simp only [hg, if_true] at hh
          exact absurd hh (ih.nodup.not_mem_erase)

theorem LimHist.inv {debug : Bool} {max : Nat} {S : Service W Req Res Err} {x : Lim S} {arr : List Nat}
    (h : LimHist debug max S x arr) : LimInv max x arr := by
  induction h with
  | new i =>
    exact ⟨by simp [Sem.new, Lim.holders], by simp [Sem.new], rfl, by simp, by simp, by simp, by simp⟩
  | @with_semaphore x arr i _ ih =>
    refine ⟨?_, ih.busy, ih.order, ih.nodup, ?_, ?_, ?_⟩
    · have := ih.conserved
      simp only [Lim.holders, List.countP_append] at this ⊢
      simpa using this
    · simp only [List.map_append, List.map_cons, List.map_nil]
      rw [List.nodup_append]
      refine ⟨ih.names, by simp, ?_⟩
      intro a ha b hb hab
      simp only [List.mem_singleton] at hb
      simp only [List.mem_map] at ha
      obtain ⟨s, hs, rfl⟩ := ha
      have := ih.bound s hs
      omega
    · intro s hs
      simp only [List.mem_append, List.mem_singleton] at hs
      rcases hs with hs | rfl
      · have := ih.bound s hs; simp only; omega
      · simp
    · intro h hh
      obtain ⟨s, hs, h1⟩ := ih.waiting h hh
      exact ⟨s, by simp [hs], h1⟩
  | @ready x arr w p sem' w' l r s s' _ hl hr ih =>
    obtain ⟨he, hcase⟩ := limReady_cases hr
    exact ih.ready_step hl he hcase
  | @ready_panics x arr sem' i l r s _ hl hc ih =>
    have := ih.ready_step (s' := ⟨i, s.sem, true⟩) (sem' := sem') hl rfl (by
      rcases hc with ⟨h1, h2⟩ | ⟨h1, h2⟩
      · exact .inl ⟨h1, rfl, h2⟩
      · exact .inr ⟨h1, by rw [h2], by rw [h2]⟩)
    simpa using this
  | @call x arr q w sem' w' l r s s' f _ hl hr ih =>
    obtain ⟨sem, hs, fs, next⟩ := x
    simp only at hl hr
    subst hl
    obtain ⟨he, hp, hp', rfl⟩ := limCall_cases hr
    have hnw := ih.not_waiting (s := s) (by simp) hp
    have hnm : ((l ++ s :: r).map (·.sem)).Nodup := ih.names
    refine ⟨?_, ih.busy, ih.order, ih.nodup, by rw [names_replace he]; exact hnm, ?_, ?_⟩
    · have := ih.conserved
      simp only [Lim.holders, List.countP_append, List.countP_cons, hp, hp', List.length_append,
        List.length_cons, List.length_nil] at this ⊢
      simp at this ⊢
      omega
    · intro t ht
      simp only [List.mem_append, List.mem_cons] at ht
      rcases ht with ht | ht | ht
      · exact ih.bound t (by simp [ht])
      · subst ht; rw [he]; exact ih.bound s (by simp)
      · exact ih.bound t (by simp [ht])
    · exact waiting_replace hnm he ih.waiting (fun _ h => .inl h) (fun h => absurd h hnw)
  | @call_panics x arr i l r s _ hl hp ih =>
    obtain ⟨sem, hs, fs, next⟩ := x
    simp only at hl
    subst hl
    have hnw := ih.not_waiting (s := s) (by simp) hp
    have hnm : ((l ++ s :: r).map (·.sem)).Nodup := ih.names
    obtain ⟨h1, h2, h3⟩ := release_facts sem ih.busy
    refine ⟨?_, h2, by rw [h1]; exact ih.order, ih.nodup, by rw [show ∀ y : Lim S, y.hs = l ++ ⟨i, s.sem, false⟩ :: r → y.hs.map (·.sem) = (l ++ s :: r).map (·.sem) from fun y hy => by rw [hy]; exact names_replace rfl]; exact hnm; rfl, ?_, ?_⟩
    · have := ih.conserved
      simp only [Lim.holders, List.countP_append, List.countP_cons, hp] at this ⊢
      simp at this ⊢
      omega
    · intro t ht
      simp only [List.mem_append, List.mem_cons] at ht
      rcases ht with ht | ht | ht
      · exact ih.bound t (by simp [ht])
      · subst ht; exact ih.bound s (by simp)
      · exact ih.bound t (by simp [ht])
    · exact waiting_replace (s := s) hnm rfl ih.waiting (fun _ h => .inl h) (fun h => absurd h hnw)
  | @poll x arr w p sem' w' l r f f' _ hl hr ih =>
    obtain ⟨sem, hs, fs, next⟩ := x
    simp only at hl hr
    subst hl
    have : sem' = sem := by
      simp only [LimSvc, ConcurrencyLimit, Act.snd] at hr
      cases hp : (S.poll f).run w with
      | panic m => simp [hp] at hr
      | spin => simp [hp] at hr
      | ok a w1 => simp only [hp] at hr; cases hr; rfl
    subst this
    refine ⟨?_, ih.busy, ih.order, ih.nodup, ih.names, ih.bound, ih.waiting⟩
    have := ih.conserved
    simpa [Lim.holders] using this
  | @poll_panics x arr l r f f' _ hl ih =>
    refine ⟨?_, ih.busy, ih.order, ih.nodup, ih.names, ih.bound, ih.waiting⟩
    have := ih.conserved
    simp only [hl, List.length_append, List.length_cons, Lim.holders] at this ⊢
    exact this
  | @drop_future x arr l f r _ hl ih =>
    obtain ⟨sem, hs, fs, next⟩ := x
    simp only at hl
    subst hl
    obtain ⟨h1, h2, h3⟩ := release_facts sem ih.busy
    refine ⟨?_, h2, by rw [h1]; exact ih.order, ih.nodup, ih.names, ih.bound, ih.waiting⟩
    have := ih.conserved
    simp [Lim.holders] at this ⊢
    omega
  | @clone x arr s _ hs ih =>
    refine ⟨?_, ih.busy, ih.order, ih.nodup, ?_, ?_, ?_⟩
    · have := ih.conserved
      simp only [Lim.holders, List.countP_append] at this ⊢
      simpa [LimSvc, ConcurrencyLimit] using this
    · simp only [List.map_append, List.map_cons, List.map_nil]
      rw [List.nodup_append]
      refine ⟨ih.names, by simp, ?_⟩
      intro a ha b hb hab
      simp only [List.mem_singleton] at hb
      simp only [List.mem_map] at ha
      obtain ⟨s, hs, rfl⟩ := ha
      have := ih.bound s hs
      omega
    · intro s hs
      simp only [List.mem_append, List.mem_singleton] at hs
      rcases hs with hs | rfl
      · have := ih.bound s hs; simp only; omega
      · simp
    · intro h hh
      obtain ⟨s, hs, h1⟩ := ih.waiting h hh
      exact ⟨s, by simp [hs], h1⟩
  | @drop_handle x arr l s r _ hl ih =>
    obtain ⟨sem, hs, fs, next⟩ := x
    simp only at hl
    subst hl
    have hnd : (sem.granted ++ sem.queue).Nodup := by have := ih.nodup; rwa [ih.order] at this
    obtain ⟨h1, h2, h3⟩ := dropAcquire_facts sem s.sem hnd ih.busy
    rw [← ih.order] at h3
    have hnm : ((l ++ r).map (·.sem)).Nodup := by
      have := ih.names
      simp only [List.map_append, List.map_cons] at this ⊢
      exact this.sublist (by simp)
    have hbd : ∀ t ∈ l ++ r, t.sem < next := by
      intro t ht
      apply ih.bound t
      simp only [List.mem_append, List.mem_cons] at ht ⊢
      rcases ht with ht | ht <;> simp [ht]
    have hwt := waiting_remove (s := s) (arr' := arr.erase s.sem) ih.waiting
      (fun h hh => ⟨List.mem_of_mem_erase hh, fun he => by subst he; exact ih.nodup.not_mem_erase hh⟩)
    have hc := ih.conserved
    by_cases hp : s.permit = true
    · simp only [hp, if_true]
      obtain ⟨h4, h5, h6⟩ := release_facts (sem.dropAcquire s.sem) h1
      refine ⟨?_, h5, by rw [h4]; exact h3.symm, ih.nodup.erase _, hnm, hbd, hwt⟩
      simp only [Lim.holders, List.countP_append, List.countP_cons, hp] at hc ⊢
      simp at hc ⊢
      omega
    · simp only [hp, if_false, Bool.false_eq_true]
      refine ⟨?_, h1, h3.symm, ih.nodup.erase _, hnm, hbd, hwt⟩
      simp only [Lim.holders, List.countP_append, List.countP_cons, hp] at hc ⊢
      simp at hc ⊢
      omega

section
variable {debug : Bool} {max : Nat} {S : Service W Req Res Err} {x : Lim S} {arr : List Nat}

/-- **C04.** At every moment of every history, the accepted calls whose response futures still exist, plus the
handles that may call next, are at most `max`. -/
theorem C04_bound (h : LimHist debug max S x arr) : x.fs.length + x.holders ≤ max := by
  have := h.inv.conserved
  omega

/-- **C04 (calls need a permit).** A handle without a permit cannot call: it panics. -/
theorem C04_no_permit_no_call (s : ConcState S.σ Nat) (q : Req) (w : Sem × W) (hp : s.permit = false) :
    ∃ m, ((LimSvc debug S).call s q).run w = .panic m := by
  simp [LimSvc, ConcurrencyLimit, hp]

/-- **C04 (readiness means a permit).** When `poll_ready` says `Ready(Ok)` (or anything that came from the
inner service), the handle has a permit. -/
theorem C04_ready_has_permit {s s' : ConcState S.σ Nat} {w w' : W} {sem' : Sem} {res : Except Err Unit}
    (hr : ((LimSvc debug S).pollReady s).run (x.sem, w) = .ok (.ready res, s') (sem', w')) : s'.permit = true := by
  obtain ⟨i, n, b⟩ := s
  cases b with
  | true =>
    rcases limReady_cases hr with ⟨-, ⟨-, h1, -⟩ | ⟨h1, -⟩⟩
    · exact h1
    · cases h1
  | false =>
    simp only [LimSvc, ConcurrencyLimit, Bool.false_eq_true, if_false, run_bind, run_lift] at hr
    cases hg : (x.sem.pollAcquire n).1 with
    | false => simp [hg] at hr
    | true =>
      rcases limReady_cases (debug := debug) (S := S) (s := ⟨i, n, false⟩) (s' := s') (w := w) (w' := w') (sem := x.sem) (sem' := sem')
        (p := .ready res) (by simpa [LimSvc, ConcurrencyLimit, run_bind] using hr) with ⟨-, ⟨h1, -, -⟩ | ⟨-, h1, -⟩⟩
      · cases h1
      · rw [h1]; exact hg

/-- **C05 (conservation).** At every moment, whatever was dropped whenever: free permits, permits assigned to a
waiter that has not picked its up, permits of ready handles and permits of response futures add up to `max`. The waiters with an assigned
permit are the first of those that wait, and each gets its permit when it polls. -/
theorem C05_conserved (h : LimHist debug max S x arr) :
    x.sem.permits + x.sem.granted.length + x.holders + x.fs.length = max ∧ x.sem.granted <+: arr ∧ ∀ n ∈ x.sem.granted, x.wouldGet n = true := by
  refine ⟨h.inv.conserved, ⟨_, h.inv.order.symm⟩, fun n hn => ?_⟩
  simp [Lim.wouldGet, Sem.pollAcquire, hn]

/-- **C05 (nothing leaks).** When all handles and futures are gone, all permits are free and nobody waits. -/
theorem C05_all_dropped (h : LimHist debug max S x arr) (hh : x.hs = []) (hf : x.fs = []) :
    x.sem = Sem.new max := by
  have hi := h.inv
  have harr : arr = [] := by
    cases arr with
    | nil => rfl
    | cons a l =>
      obtain ⟨s, hs, -⟩ := hi.waiting a (by simp)
      rw [hh] at hs; cases hs
  have ho := hi.order
  rw [harr] at ho
  have hg : x.sem.granted = [] ∧ x.sem.queue = [] := by
    have := ho.symm
    simpa using this
  have hc := hi.conserved
  simp [hg.1, hf, Lim.holders, hh] at hc
  obtain ⟨⟨p, q, g⟩, _, _, _⟩ := x
  simp only at hg hc
  simp [Sem.new, hg.1, hg.2, hc]

/-- **C06 (FIFO).** The waiting handles that would get a permit if they polled now are exactly the first `k`
of those waiting, in the order in which they started to wait; and if anybody does not get one then no permit is
free (all are in use or assigned to earlier waiters). -/
theorem C06_fifo (h : LimHist debug max S x arr) :
    ∃ k ≤ arr.length, (∀ i n, arr[i]? = some n → (x.wouldGet n = true ↔ i < k)) ∧
      (k < arr.length → x.sem.permits = 0 ∧ k + x.holders + x.fs.length = max) := by
  have hi := h.inv
  refine ⟨x.sem.granted.length, by rw [hi.order]; simp, ?_, ?_⟩
  · intro i n hn
    have hnd := hi.nodup
    rw [hi.order] at hn hnd
    by_cases hlt : i < x.sem.granted.length
    · rw [List.getElem?_append_left hlt] at hn
      have := List.mem_of_getElem? hn
      simp [Lim.wouldGet, Sem.pollAcquire, this, hlt]
    · rw [List.getElem?_append_right (by omega)] at hn
      have hq := List.mem_of_getElem? hn
      have hg : n ∉ x.sem.granted := fun hg => (List.nodup_append.mp hnd).2.2 n hg n hq rfl
      simp [Lim.wouldGet, Sem.pollAcquire, hg, hq, hlt]
  · intro hk
    have hq : x.sem.queue ≠ [] := by
      intro hq
      rw [hi.order, hq] at hk
      simp at hk
    have hb := hi.busy hq
    have hc := hi.conserved
    exact ⟨hb, by omega⟩

/-- **C06 (no overtaking).** While a handle waits that would not get a permit now, a handle that is not waiting
yet does not get one either; it queues up last. -/
theorem C06_no_overtaking (h : LimHist debug max S x arr) {n m : Nat} (hn : n ∈ arr) (hw : x.wouldGet n = false)
    (hm : m ∉ arr) : x.wouldGet m = false ∧ (x.sem.pollAcquire m).2.queue = x.sem.queue ++ [m] := by
  have hi := h.inv
  rw [hi.order] at hn hm
  simp only [List.mem_append, not_or] at hm
  have hq : x.sem.queue ≠ [] := by
    intro hq
    rw [hq, List.append_nil] at hn
    simp [Lim.wouldGet, Sem.pollAcquire, hn] at hw
  have hb := hi.busy hq
  simp [Lim.wouldGet, Sem.pollAcquire, hm.1, hm.2, hb]

/-- **C06 (work conserving).** If a permit is free, every handle without a permit that polls gets one. -/
theorem C06_work_conserving (h : LimHist debug max S x arr) (hf : 0 < x.sem.permits) (n : Nat) :
    x.wouldGet n = true := by
  have hi := h.inv
  have hq : x.sem.queue = [] := by
    by_contra hq
    have := hi.busy hq
    omega
  unfold Lim.wouldGet Sem.pollAcquire
  split
  · rfl
  · simp [hq, hf]

/-- **C06 (the place in the queue is kept).** With any semaphore that nobody closes: while `poll_ready` answers pending for want of a
permit, all its calls poll one and the same acquire future, and nothing else; the inner service is not touched. -/
theorem C06_same_acquire {V : SemView W} {S : Service W Req Res Err} {debug : Bool} {l : List (W × W)} {s s' : (ConcurrencyLimit debug V S).σ}
    (hV : V.NeverClosed) (h : ReadyWaits (ConcurrencyLimit debug V S) l s s') (hp : s'.permit = false) :
    s.permit = false ∧ AcqWaits V l s.sem s'.sem ∧ s'.inner = s.inner := by
  induction h with
  | nil => exact ⟨hp, .nil _, rfl⟩
  | @snoc l s t u w w' _ hr ih =>
    obtain ⟨i, a, b⟩ := t
    cases b with
    | true =>
      simp only [ConcurrencyLimit, if_true, run_bind] at hr
      cases hq : (S.pollReady i).run w with
      | panic m => simp [hq] at hr
      | spin => simp [hq] at hr
      | ok v w1 =>
        simp only [hq, run_pure] at hr
        obtain rfl := congrArg Prod.snd (Out.ok.inj hr).1
        cases hp
    | false =>
      obtain ⟨h1, h2, h3⟩ := ih rfl
      simp only [ConcurrencyLimit, Bool.false_eq_true, if_false, run_bind, run_lift] at hr
      rcases hv : V.pollAcquire a w with ⟨⟨p, c⟩, w1⟩
      cases p with
      | pending =>
        simp only [hv, run_pure] at hr
        obtain rfl := congrArg Prod.snd (Out.ok.inj hr).1
        obtain rfl := (Out.ok.inj hr).2
        exact ⟨h1, h2.snoc hv, h3⟩
      | ready got =>
        simp only [hv] at hr
        cases got with
        | false => exact absurd (by rw [hv]) (hV a w)
        | true =>
          simp only [Bool.not_true, Bool.and_false, Bool.false_eq_true, if_false, run_bind] at hr
          cases hq : (S.pollReady i).run w1 with
          | panic m => simp [hq] at hr
          | spin => simp [hq] at hr
          | ok v w2 =>
            simp only [hq, run_pure] at hr
            obtain rfl := congrArg Prod.snd (Out.ok.inj hr).1
            cases hp

end

/-! ## A concrete case: limit 1, two handles -/

namespace Demo04

def inner : Service Unit Nat Nat Nat where
  σ := Unit
  φ := Nat
  pollReady _ := pure (.ready (.ok ()), ())
  call _ r := pure (r, ())
  poll r := pure (.ready (.ok r), r)
  clone := id

/-- a semaphore whose acquire futures count their polls and never finish -/
def slow : SemView Nat := ⟨Nat, fun a w => ((.pending, a + 1), w + 1), id⟩

def innerN : Service Nat Nat Nat Nat where
  σ := Unit
  φ := Nat
  pollReady _ := pure (.ready (.ok ()), ())
  call _ r := pure (r, ())
  poll r := pure (.ready (.ok r), r)
  clone := id

/-- two calls of `poll_ready`, the world changed in between, poll the one acquire future twice -/
example : slow.NeverClosed ∧ ReadyWaits (ConcurrencyLimit true slow innerN) [(3, 4), (9, 10)] ⟨(), (0 : Nat), false⟩ ⟨(), (2 : Nat), false⟩ :=
  ⟨fun _ _ h => by simp [slow] at h, .snoc (l := [_]) (.snoc (l := []) (.nil _) rfl) rfl⟩

/-- handle 0 calls, handle 1 waits, the future is dropped: handle 1 would get the permit, handle 2 not -/
example : ∃ x : Lim inner, LimHist true 1 inner x [1, 2] ∧ x.wouldGet 1 = true ∧ x.wouldGet 2 = false ∧
    x.fs = [] ∧ x.sem = ⟨0, [2], [1]⟩ := by
  have h0 := LimHist.new (debug := true) (max := 1) (S := inner) ()
  have h1 := h0.clone (s := ⟨(), 0, false⟩) (by simp)
  have h2 := h1.clone (s := ⟨(), 0, false⟩) (by simp)
  have h3 := h2.ready (l := []) (s := ⟨(), 0, false⟩) (s' := ⟨(), 0, true⟩) (w := ()) rfl rfl
  have h4 := h3.call (l := []) (s := ⟨(), 0, true⟩) (s' := ⟨(), 0, false⟩) (q := (7 : Nat)) (f := (7 : Nat)) (w := ()) rfl rfl
  have h5 := h4.ready (l := [⟨(), 0, false⟩]) (s := ⟨(), 1, false⟩) (s' := ⟨(), 1, false⟩) (w := ()) rfl rfl
  have h6 := h5.ready (l := [⟨(), 0, false⟩, ⟨(), 1, false⟩]) (s := ⟨(), 2, false⟩) (s' := ⟨(), 2, false⟩) (w := ()) rfl rfl
  have h7 := h6.drop_future (l := []) (f := (7 : Nat)) (r := []) rfl
  exact ⟨_, h7, rfl, rfl, rfl, rfl⟩

end Demo04

end Tower
