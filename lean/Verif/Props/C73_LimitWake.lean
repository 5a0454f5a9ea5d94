import Verif.Model.LimWake
import Verif.Props.C04_Concurrency
import Verif.Proof.Load1

/-!
# C73: waiting for a concurrency limit: nobody is forgotten

`C06_fifo` says who would get a permit if it polled. Here: a task that could get one is told so, and nobody waits for more than its turn.
-/

namespace Tower
open Act
set_option linter.unusedSimpArgs false
set_option linter.unusedSectionVars false
variable {W Req Res Err : Type} {S : Service W Req Res Err} {debug : Bool} {max : Nat} {x x' : Lim S} {arr arr' woken : List Nat} {e : LimEv}

/-! ## The histories are those of C04 -/

theorem LimStep.hist (h : LimHist debug max S x arr) (hs : LimStep debug S x arr e x' arr') : LimHist debug max S x' arr' := by
  cases hs with
  | with_semaphore i => exact h.with_semaphore i
  | ready h1 h2 => exact h.ready h1 h2
  | ready_panics h1 h2 => exact h.ready_panics h1 h2
  | call h1 h2 => exact h.call h1 h2
  | call_panics h1 h2 => exact h.call_panics h1 h2
  | poll h1 h2 => exact h.poll h1 h2
  | poll_panics h1 => exact h.poll_panics h1
  | drop_future h1 => exact h.drop_future h1
  | clone h1 => exact h.clone h1
  | drop_ready h1 h2 => have := h.drop_handle h1; simpa only [h2, if_true] using this
  | drop_handle h1 h2 => have := h.drop_handle h1; simpa only [h2, Bool.false_eq_true, if_false] using this

/-- with the wake-ups left out, the histories are those of C04 to C06 -/
theorem LimWake.hist (h : LimWake debug max S x arr woken) : LimHist debug max S x arr := by
  induction h with
  | new i => exact .new i
  | step _ hs ih => exact hs.hist ih

theorem LimWake.of_hist (h : LimHist debug max S x arr) : ∃ woken, LimWake debug max S x arr woken := by
  induction h with
  | new i => exact ⟨_, .new i⟩
  | with_semaphore i _ ih => obtain ⟨w, ih⟩ := ih; exact ⟨_, ih.step (.with_semaphore i)⟩
  | ready _ h1 h2 ih => obtain ⟨w, ih⟩ := ih; exact ⟨_, ih.step (.ready h1 h2)⟩
  | ready_panics _ h1 h2 ih => obtain ⟨w, ih⟩ := ih; exact ⟨_, ih.step (.ready_panics h1 h2)⟩
  | call _ h1 h2 ih => obtain ⟨w, ih⟩ := ih; exact ⟨_, ih.step (.call h1 h2)⟩
  | call_panics _ h1 h2 ih => obtain ⟨w, ih⟩ := ih; exact ⟨_, ih.step (.call_panics h1 h2)⟩
  | poll _ h1 h2 ih => obtain ⟨w, ih⟩ := ih; exact ⟨_, ih.step (.poll h1 h2)⟩
  | poll_panics _ h1 ih => obtain ⟨w, ih⟩ := ih; exact ⟨_, ih.step (.poll_panics h1)⟩
  | drop_future _ h1 ih => obtain ⟨w, ih⟩ := ih; exact ⟨_, ih.step (.drop_future h1)⟩
  | clone _ h1 ih => obtain ⟨w, ih⟩ := ih; exact ⟨_, ih.step (.clone h1)⟩
  | @drop_handle x arr l s r _ h1 ih =>
    obtain ⟨w, ih⟩ := ih
    cases hp : s.permit with
    | true => simp only [if_true]; exact ⟨_, ih.step (.drop_ready h1 hp)⟩
    | false => simp only [Bool.false_eq_true, if_false]; exact ⟨_, ih.step (.drop_handle h1 hp)⟩

/-! ## What a step does to the semaphore -/

/-- the semaphore before and after, the waker events, and the places of the waiters -/
structure SemMove (s s' : Sem) (e : LimEv) : Prop where
  /-- a new grant is a wake-up -/
  woke : ∀ n ∈ s'.granted, n ∈ s.granted ∧ e.polled ≠ some n ∨ n ∈ e.woke
  /-- and the other way round -/
  only : ∀ n ∈ e.woke, n ∈ s'.granted
  /-- a grant is not taken back -/
  keeps : ∀ n ∈ s.granted, n ∉ s'.queue
  /-- a waiter moves up by one with each permit given up -/
  moves : ∀ n ∈ s'.queue, n ∈ s.queue → s'.queue.idxOf n + e.freed ≤ s.queue.idxOf n

theorem semMove_refl {s : Sem} (hn : (s.granted ++ s.queue).Nodup) : SemMove s s ⟨none, 0, []⟩ :=
  ⟨fun n h => .inl ⟨h, by simp⟩, by simp, fun n h hq => (List.nodup_append.mp hn).2.2 n h n hq rfl, fun n _ _ => by simp⟩

theorem semMove_polled {s : Sem} {h : Nat} (hn : (s.granted ++ s.queue).Nodup) (hh : h ∉ s.granted ++ s.queue) : SemMove s s ⟨some h, 0, []⟩ :=
  ⟨fun n hg => .inl ⟨hg, fun he => by cases he; exact hh (List.mem_append_left _ hg)⟩, by simp, fun n h hq => (List.nodup_append.mp hn).2.2 n h n hq rfl, fun n _ _ => by simp⟩

theorem semMove_acquire {s : Sem} (h : Nat) (hn : (s.granted ++ s.queue).Nodup) : SemMove s (s.pollAcquire h).2 ⟨some h, 0, []⟩ := by
  have hd : ∀ n ∈ s.granted, n ∉ s.queue := fun n h hq => (List.nodup_append.mp hn).2.2 n h n hq rfl
  have hg := (List.nodup_append.mp hn).1
  unfold Sem.pollAcquire
  split
  · rename_i h1
    refine ⟨fun n hm => .inl ⟨List.mem_of_mem_erase hm, fun he => ?_⟩, by simp, fun n h => hd n h, fun n _ _ => by simp⟩
    cases he
    exact hg.not_mem_erase hm
  · rename_i h1
    have hpn : ∀ n ∈ s.granted, (some h : Option Nat) ≠ some n := fun n hn he => by cases he; exact h1 hn
    split
    · exact ⟨fun n hm => .inl ⟨hm, hpn n hm⟩, by simp, fun n h => hd n h, fun n _ _ => by simp⟩
    · split
      · exact ⟨fun n hm => .inl ⟨hm, hpn n hm⟩, by simp, fun n h => hd n h, fun n _ _ => by simp⟩
      · refine ⟨fun n hm => .inl ⟨hm, hpn n hm⟩, by simp, fun n hm hq => ?_, fun n _ hq => ?_⟩
        · rcases List.mem_append.1 hq with hq | hq
          · exact hd n hm hq
          · rw [List.mem_singleton] at hq; subst hq; exact h1 hm
        · simp only [List.idxOf_append_of_mem hq]; omega

theorem semMove_release {s : Sem} (hn : (s.granted ++ s.queue).Nodup) : SemMove s s.release ⟨none, 1, s.releaseWakes⟩ := by
  have hd : ∀ n ∈ s.granted, n ∉ s.queue := fun n h hq => (List.nodup_append.mp hn).2.2 n h n hq rfl
  have hq := (List.nodup_append.mp hn).2.1
  obtain ⟨p, q, g⟩ := s
  cases q with
  | nil => exact ⟨fun n h => .inl ⟨h, by simp⟩, by simp [Sem.releaseWakes], fun n h => by simp [Sem.release], fun n h => by simp [Sem.release] at h⟩
  | cons a q =>
    simp only [Sem.release, Sem.releaseWakes, List.take_succ_cons, List.take_zero] at hd hq ⊢
    refine ⟨fun n h => ?_, fun n h => List.mem_append_right _ h, fun n h hm => hd n h (List.mem_cons_of_mem _ hm), fun n h _ => ?_⟩
    · rcases List.mem_append.1 h with h | h
      · exact .inl ⟨h, by simp⟩
      · exact .inr h
    · have : a ≠ n := fun he => (List.nodup_cons.1 hq).1 (he ▸ h)
      rw [List.idxOf_cons_ne _ this]
      exact Nat.le_refl _

theorem idxOf_erase_le {l : List Nat} {a n : Nat} (hl : l.Nodup) (h : n ∈ l.erase a) : (l.erase a).idxOf n ≤ l.idxOf n := by
  induction l with
  | nil => simp at h
  | cons b l ih =>
    by_cases hb : b = a
    · subst hb
      rw [List.erase_cons_head] at h ⊢
      by_cases hn : b = n
      · subst hn; exact absurd h (List.nodup_cons.1 hl).1
      · rw [List.idxOf_cons_ne _ hn]; omega
    · rw [List.erase_cons_tail (by simpa using hb)] at h ⊢
      by_cases hn : b = n
      · subst hn; simp
      · rw [List.idxOf_cons_ne _ hn, List.idxOf_cons_ne _ hn]
        rcases List.mem_cons.1 h with h | h
        · exact absurd h.symm hn
        · have := ih (List.nodup_cons.1 hl).2 h; omega

theorem semMove_drop {s : Sem} (h : Nat) (hn : (s.granted ++ s.queue).Nodup) : SemMove s (s.dropAcquire h) ⟨none, if h ∈ s.granted then 1 else 0, s.dropWakes h⟩ := by
  have hd : ∀ n ∈ s.granted, n ∉ s.queue := fun n h hq => (List.nodup_append.mp hn).2.2 n h n hq rfl
  have hq := (List.nodup_append.mp hn).2.1
  unfold Sem.dropAcquire Sem.dropWakes
  split
  · rename_i h1
    have hn' : (s.granted.erase h ++ s.queue).Nodup := hn.sublist ((List.erase_sublist).append_right _)
    have := semMove_release (s := { s with granted := s.granted.erase h }) hn'
    refine ⟨fun n hm => ?_, this.only, fun n hm hqm => ?_, this.moves⟩
    · rcases this.woke n hm with h2 | h2
      · exact .inl ⟨List.mem_of_mem_erase h2.1, h2.2⟩
      · exact .inr h2
    · refine hd n hm ?_
      revert hqm
      unfold Sem.release
      split
      · intro hh; exact hh
      · rename_i heq
        intro hh
        simp only at heq hh
        rw [heq]; exact List.mem_cons_of_mem _ hh
  · exact ⟨fun n hm => .inl ⟨hm, by simp⟩, by simp, fun n hm hqm => hd n hm (List.mem_of_mem_erase hqm), fun n hm _ => by simpa using idxOf_erase_le hq hm⟩

theorem LimStep.move (h : LimHist debug max S x arr) (hs : LimStep debug S x arr e x' arr') : SemMove x.sem x'.sem e := by
  have hi := h.inv
  have hn : (x.sem.granted ++ x.sem.queue).Nodup := by have := hi.nodup; rwa [hi.order] at this
  cases hs with
  | with_semaphore i => exact semMove_refl hn
  | ready h1 h2 =>
    rename_i l r s s'
    rcases (limReady_cases h2).2 with ⟨hp, -, hh⟩ | ⟨hp, -, hh⟩
    · have := hi.not_waiting (s := s) (by rw [h1]; simp) hp
      rw [hi.order] at this
      simp only [hh]; exact semMove_polled hn this
    · simp only [hh]; exact semMove_acquire _ hn
  | ready_panics h1 h2 =>
    rename_i i l r s
    rcases h2 with ⟨hp, hh⟩ | ⟨hp, hh⟩
    · have := hi.not_waiting (s := s) (by rw [h1]; simp) hp
      rw [hi.order] at this
      simp only [hh]; exact semMove_polled hn this
    · have := semMove_acquire s.sem hn; rw [hh] at this; exact this
  | call h1 h2 => simp only [(limCall_cases h2).2.2.2]; exact semMove_refl hn
  | call_panics h1 h2 => exact semMove_release hn
  | poll h1 h2 =>
    obtain ⟨-, hh⟩ := snd_eq_ok.1 h2
    simp only at hh; simp only [hh]; exact semMove_refl hn
  | poll_panics h1 => exact semMove_refl hn
  | drop_future h1 => exact semMove_release hn
  | clone h1 => exact semMove_refl hn
  | drop_ready h1 h2 =>
    rename_i l s r
    have hw := hi.not_waiting (s := s) (by rw [h1]; simp) h2
    rw [hi.order] at hw
    have hg : s.sem ∉ x.sem.granted := fun hh => hw (List.mem_append_left _ hh)
    have hq : s.sem ∉ x.sem.queue := fun hh => hw (List.mem_append_right _ hh)
    have : x.sem.dropAcquire s.sem = x.sem := by
      unfold Sem.dropAcquire
      rw [if_neg hg, List.erase_of_not_mem hq]
    simp only [this, Sem.dropWakes, if_neg hg, List.nil_append]
    exact semMove_release hn
  | drop_handle h1 h2 => exact semMove_drop _ hn

/-- the waiters after a step: those before, and the handle that was polled -/
theorem LimStep.waiters (hs : LimStep debug S x arr e x' arr') : ∀ n ∈ arr', n ∈ arr ∨ e.polled = some n := by
  intro n hn
  cases hs with
  | ready h1 h2 =>
    dsimp only
    split at hn
    · exact .inl (List.mem_of_mem_erase hn)
    · split at hn
      · exact .inl hn
      · rcases List.mem_append.1 hn with hn | hn
        · exact .inl hn
        · rw [List.mem_singleton] at hn; subst hn; exact .inr rfl
  | ready_panics h1 h2 => exact .inl (List.mem_of_mem_erase hn)
  | drop_ready h1 h2 => exact .inl (List.mem_of_mem_erase hn)
  | drop_handle h1 h2 => exact .inl (List.mem_of_mem_erase hn)
  | _ => exact .inl hn

theorem LimWake.inv (h : LimWake debug max S x arr woken) : (∀ n ∈ x.sem.granted, n ∈ woken) ∧ ∀ n ∈ woken, n ∈ arr → n ∈ x.sem.granted := by
  induction h with
  | new i => simp [Sem.new]
  | @step x arr woken e x' arr' h hs ih =>
    have hm := hs.move h.hist
    have hi' := (hs.hist h.hist).inv
    constructor
    · intro n hn
      rcases hm.woke n hn with ⟨h1, h2⟩ | h1
      · exact List.mem_append_left _ (List.mem_filter.2 ⟨ih.1 n h1, by simpa using fun he => h2 he.symm⟩)
      · exact List.mem_append_right _ h1
    · intro n hn ha
      rcases List.mem_append.1 hn with hn | hn
      · obtain ⟨h1, h2⟩ := List.mem_filter.1 hn
        have h2 : some n ≠ e.polled := by simpa using h2
        rcases hs.waiters n ha with h3 | h3
        · have h4 := hm.keeps n (ih.2 n h1 h3)
          rw [hi'.order] at ha
          exact (List.mem_append.1 ha).resolve_right h4
        · exact absurd h3.symm h2
      · exact hm.only n hn

theorem wouldGet_iff (h : LimHist debug max S x arr) {n : Nat} (hn : n ∈ arr) : x.wouldGet n = true ↔ n ∈ x.sem.granted := by
  have hi := h.inv
  rw [hi.order] at hn
  unfold Lim.wouldGet Sem.pollAcquire
  by_cases h1 : n ∈ x.sem.granted
  · simp [h1]
  · have h2 := (List.mem_append.1 hn).resolve_left h1
    simp [h1, h2]

/-! ## The theorems -/

/-- **C73 (told).** A handle whose `poll_ready` returned `Pending` because of the limit, and that would get a permit if it polled now, has been woken since that poll. Nobody sleeps while a permit is there for it. -/
theorem C73_woken (h : LimWake debug max S x arr woken) {n : Nat} (hn : n ∈ arr) (hg : x.wouldGet n = true) : n ∈ woken :=
  h.inv.1 n ((wouldGet_iff h.hist hn).1 hg)

/-- **C73 (not in vain).** A waiting handle that has been woken gets a permit when it polls: no newcomer takes it away, and no more handles are woken than there are permits. -/
theorem C73_not_in_vain (h : LimWake debug max S x arr woken) {n : Nat} (hn : n ∈ arr) (hw : n ∈ woken) : x.wouldGet n = true :=
  (wouldGet_iff h.hist hn).2 (h.inv.2 n hw hn)

/-- **C73 (at rest).** If every wake-up was followed by a poll of the handle (the tasks are at rest) and yet a handle waits, then all `max` permits are in use: by response futures that exist, and by handles that were told `Ready` and have not called. -/
theorem C73_rest (h : LimWake debug max S x arr woken) (hrest : ∀ n ∈ woken, n ∉ arr) (hw : arr ≠ []) : x.fs.length + x.holders = max := by
  obtain ⟨k, hk, h1, h2⟩ := C06_fifo h.hist
  have h0 : k = 0 := by
    by_contra hne
    have hpos : 0 < arr.length := List.length_pos_iff.2 hw
    have hm : arr[0] ∈ arr := List.getElem_mem hpos
    have := (h1 0 arr[0] (List.getElem?_eq_getElem hpos)).2 (by omega)
    exact hrest _ (C73_woken h hm this) hm
  have := (h2 (by have := List.length_pos_iff.2 hw; omega)).2
  omega

/-- the handle `n` waits all the time, and meanwhile `k` permits are given up (response futures or ready handles dropped, ...) -/
inductive Waits (debug : Bool) (S : Service W Req Res Err) (n : Nat) : Lim S → List Nat → Nat → Lim S → List Nat → Prop
  | here {x : Lim S} {arr : List Nat} : n ∈ arr → Waits debug S n x arr 0 x arr
  | step {x : Lim S} {arr : List Nat} {k : Nat} {x' : Lim S} {arr' : List Nat} {e : LimEv} {x'' : Lim S} {arr'' : List Nat} : Waits debug S n x arr k x' arr' → LimStep debug S x' arr' e x'' arr'' → n ∈ arr'' → Waits debug S n x arr (k + e.freed) x'' arr''

theorem Waits.hist {n k : Nat} (h : LimHist debug max S x arr) (hw : Waits debug S n x arr k x' arr') : LimHist debug max S x' arr' := by
  induction hw with
  | here _ => exact h
  | step _ hs _ ih => exact hs.hist ih

/-- **C73 (no starvation).** While a handle waits, each permit given up brings it one place forward: if `i` handles were waiting before it, then after `i + 1` permits were given up it would get one, whatever the others do. -/
theorem C73_no_starvation {n k : Nat} (h : LimHist debug max S x arr) (hw : Waits debug S n x arr k x' arr') (hk : arr.idxOf n < k) : x'.wouldGet n = true := by
  have key : n ∈ arr' ∧ (n ∈ x'.sem.queue → n ∈ x.sem.queue ∧ x'.sem.queue.idxOf n + k ≤ x.sem.queue.idxOf n) := by
    clear hk
    induction hw with
    | here hn => exact ⟨hn, fun hq => ⟨hq, by simp⟩⟩
    | @step k y arry e z arrz hw hs hn ih =>
      obtain ⟨a1, a2⟩ := ih
      have hm := hs.move (hw.hist h)
      refine ⟨hn, fun hq => ?_⟩
      have hy : n ∈ y.sem.queue := by
        have ho := (hw.hist h).inv.order
        rw [ho] at a1
        exact (List.mem_append.1 a1).resolve_left fun hg => hm.keeps n hg hq
      obtain ⟨b1, b2⟩ := a2 hy
      have := hm.moves n hq hy
      exact ⟨b1, by omega⟩
  have h' := hw.hist h
  rw [wouldGet_iff h' key.1]
  have ho := h'.inv.order
  have hn := key.1
  rw [ho] at hn
  refine (List.mem_append.1 hn).resolve_right fun hq => ?_
  obtain ⟨b1, b2⟩ := key.2 hq
  have hng : n ∉ x.sem.granted := fun hg => by
    have := h.inv.nodup
    rw [h.inv.order] at this
    exact (List.nodup_append.mp this).2.2 n hg n b1 rfl
  rw [h.inv.order, List.idxOf_append_of_notMem hng] at hk
  omega

/-! ## A concrete run -/

namespace Demo73
open Demo04 (inner)

abbrev H (n : Nat) (p : Bool) : ConcState inner.σ Nat := ⟨(), n, p⟩

/-- one permit, three handles: the first has a call in flight, the others wait -/
abbrev full : Lim inner := ⟨⟨0, [1, 2], []⟩, [H 0 false, H 1 false, H 2 false], [(7 : Nat)], 3⟩

theorem full_reached : LimWake true 1 inner full [1, 2] [] := by
  have h0 := LimWake.new (debug := true) (max := 1) (S := inner) ()
  have h1 := h0.step (.clone (s := H 0 false) (by simp))
  have h2 := h1.step (.clone (s := H 0 false) (by simp))
  have h3 := h2.step (.ready (l := []) (s := H 0 false) (s' := H 0 true) (w := ()) rfl rfl)
  have h4 := h3.step (.call (l := []) (s := H 0 true) (s' := H 0 false) (q := (7 : Nat)) (f := (7 : Nat)) (w := ()) rfl rfl)
  have h5 := h4.step (.ready (l := [H 0 false]) (s := H 1 false) (s' := H 1 false) (w := ()) rfl rfl)
  exact h5.step (.ready (l := [H 0 false, H 1 false]) (s := H 2 false) (s' := H 2 false) (w := ()) rfl rfl)

/-- at rest: the permit is in use -/
example : full.fs.length + full.holders = 1 := C73_rest full_reached (by simp) (by simp)

/-- the call ends: handle 1 is woken, and only it -/
theorem freed : LimStep true inner full [1, 2] ⟨none, 1, [1]⟩ ⟨⟨0, [2], [1]⟩, [H 0 false, H 1 false, H 2 false], [], 3⟩ [1, 2] :=
  .drop_future (l := []) (f := (7 : Nat)) (r := []) rfl

example : LimWake true 1 inner ⟨⟨0, [2], [1]⟩, [H 0 false, H 1 false, H 2 false], [], 3⟩ [1, 2] [1] := full_reached.step freed

/-- handle 1 gets the permit, calls, and its future is dropped too: two permits were given up while handle 2, the second in the queue, waited -/
example : ∃ x', Waits true inner 2 full [1, 2] 2 x' [2] ∧ x'.wouldGet 2 = true := by
  have w0 : Waits true inner 2 full [1, 2] 0 full [1, 2] := .here (by simp)
  have w1 := w0.step freed (by simp)
  have w2 := w1.step (.ready (l := [H 0 false]) (s := H 1 false) (s' := H 1 true) (r := [H 2 false]) (w := ()) rfl rfl) (by decide)
  have w3 := w2.step (.call (l := [H 0 false]) (s := H 1 true) (s' := H 1 false) (r := [H 2 false]) (q := (8 : Nat)) (f := (8 : Nat)) (w := ()) rfl rfl) (by decide)
  have w4 := w3.step (.drop_future (l := []) (f := (8 : Nat)) (r := []) rfl) (by decide)
  exact ⟨_, w4, C73_no_starvation full_reached.hist w4 (by decide)⟩

end Demo73

end Tower
