import Verif.Spec.BufferSpec
import Verif.Props.C04_Concurrency

/-! # Buffer: accounting of permits, control state of the worker -/

set_option linter.unusedSimpArgs false

namespace Tower
variable {W Req Res Err : Type} {S : Service W Req Res Err}

/-- accounting -/
structure SemInv (x : Buf S) : Prop where
  conserved : x.sem.permits + x.sem.granted.length + x.reserved + x.queue.length = x.bound
  busy : x.sem.queue ≠ [] → x.sem.permits = 0
  nodup : (x.sem.granted ++ x.sem.queue).Nodup
  names : (x.hs.map (·.name)).Nodup
  fresh : ∀ h ∈ x.hs, h.name < x.nextName
  waiting : ∀ n ∈ x.sem.granted ++ x.sem.queue, ∃ h ∈ x.hs, h.name = n ∧ h.st = .acquiring
  closedq : x.closed = true → x.sem.queue = []
  hclosed : ∀ h ∈ x.hs, h.st = .closed → x.closed = true

theorem SemInv.of_same {x y : Buf S} (h : SemInv x) (h1 : y.sem = x.sem) (h2 : y.hs = x.hs) (h3 : y.queue = x.queue)
    (h4 : y.bound = x.bound) (h5 : y.nextName = x.nextName) (h6 : y.closed = x.closed) : SemInv y := by
  obtain ⟨a, b, c, d, e, f, g, i⟩ := h
  constructor
  · simpa [Buf.reserved, h1, h2, h3, h4] using a
  · simpa [h1] using b
  · simpa [h1] using c
  · simpa [h2] using d
  · simpa [h2, h5] using e
  · simpa [h1, h2] using f
  · simpa [h6, h1] using g
  · simpa [h2, h6] using i

theorem SemInv.close {x : Buf S} (h : SemInv x) : SemInv x.close := by
  obtain ⟨a, b, c, d, e, f, g, i⟩ := h
  refine ⟨a, by simp [Buf.close], ?_, d, e, ?_, fun _ => rfl, fun _ _ _ => rfl⟩
  · simp only [Buf.close, List.append_nil]; exact (List.nodup_append.1 c).1
  · simp only [Buf.close, List.append_nil]
    intro n hn; exact f n (by simp [hn])

theorem SemInv.pop {x : Buf S} (h : SemInv x) {m q} (hq : x.queue = m :: q) : SemInv { x with queue := q, sem := x.sem.release } := by
  obtain ⟨a, b, c, d, e, f, g, i⟩ := h
  obtain ⟨r1, r2, r3⟩ := release_facts x.sem b
  refine ⟨?_, r2, by rw [r1]; exact c, d, e, by rw [r1]; exact f, ?_, i⟩
  · simp only [Buf.reserved] at a ⊢
    rw [hq] at a; simp only [List.length_cons] at a
    omega
  · intro hc
    have := g hc
    simp only [Sem.release, this]

theorem SemInv.init (bound : Nat) (svc : S.σ) : SemInv (Buf.init S bound svc) := by
  constructor <;> simp [Buf.init, Sem.new, Buf.reserved]

theorem SemInv.worker {x y : Buf S} {ev} (h : SemInv x) (hs : WStep x ev y) : SemInv y := by
  cases hs
  case recv m q h1 h2 => exact (h.pop h2).of_same rfl rfl rfl rfl rfl rfl
  case close m e h1 => exact h.close.of_same rfl rfl rfl rfl rfl rfl
  all_goals exact h.of_same rfl rfl rfl rfl rfl rfl

theorem SemInv.death {x y : Buf S} {ev} (h : SemInv x) (hs : DStep x ev y) : SemInv y := by
  cases hs
  case ready_panics => exact h.of_same rfl rfl rfl rfl rfl rfl
  case call_panics => exact h.of_same rfl rfl rfl rfl rfl rfl
  case dropped => exact h.of_same rfl rfl rfl rfl rfl rfl
  case dropped_done => exact h.of_same rfl rfl rfl rfl rfl rfl
  case closes => exact h.close.of_same rfl rfl rfl rfl rfl rfl
  case drain m q h1 h2 => exact (h.pop h2).of_same rfl rfl rfl rfl rfl rfl
  case drained => exact h.of_same rfl rfl rfl rfl rfl rfl
  case free h1 h2 =>
    constructor
    · simp [Buf.dropMsgs, Sem.new, Buf.reserved, h2]
    all_goals simp [Buf.dropMsgs, Sem.new, h2]

theorem SemInv.future {x y : Buf S} {ev} (h : SemInv x) (hs : FStep x ev y) : SemInv y := by
  cases hs <;> first | exact h | exact h.of_same rfl rfl rfl rfl rfl rfl

theorem countP_ready_split (l r : List BHandle) (h : BHandle) :
    (l ++ h :: r).countP (·.st = .ready) = l.countP (·.st = .ready) + r.countP (·.st = .ready) + (if h.st = .ready then 1 else 0) := by
  simp only [List.countP_append, List.countP_cons, decide_eq_true_eq]; omega

/-- a handle whose name is waiting is acquiring -/
theorem SemInv.acquiring {x : Buf S} (h : SemInv x) {k : BHandle} (hk : k ∈ x.hs) (hn : k.name ∈ x.sem.granted ++ x.sem.queue) : k.st = .acquiring := by
  obtain ⟨k', hk', he, hst⟩ := h.waiting _ hn
  have : k' = k := List.inj_on_of_nodup_map h.names hk' hk he
  rw [← this]; exact hst

theorem SemInv.handle {x y : Buf S} {ev} (h : SemInv x) (hs : HStep x ev y) : SemInv y := by
  cases hs
  case call_panics => exact h
  case call_closed => exact h.of_same rfl rfl rfl rfl rfl rfl
  case clone k hk =>
    obtain ⟨a, b, c, d, e, f, g, i⟩ := h
    refine ⟨?_, b, c, ?_, ?_, ?_, g, ?_⟩
    · simpa [Buf.reserved] using a
    · simp only [List.map_append, List.map_cons, List.map_nil]
      refine List.nodup_append.2 ⟨d, by simp, ?_⟩
      intro n hn n' hn'
      simp only [List.mem_map] at hn
      obtain ⟨k', hk', rfl⟩ := hn
      have := e _ hk'
      simp only [List.mem_singleton] at hn'
      omega
    · intro k' hk'
      simp only [List.mem_append, List.mem_singleton] at hk'
      rcases hk' with hk' | hk'
      · have := e _ hk'; simp only; omega
      · subst hk'; simp
    · intro n hn
      obtain ⟨k', hk', h2⟩ := f n hn
      exact ⟨k', by simp [hk'], h2⟩
    · intro k' hk' hst
      simp only [List.mem_append, List.mem_singleton] at hk'
      rcases hk' with hk' | hk'
      · exact i _ hk' hst
      · subst hk'; cases hst
  case call k l r q hl hc =>
    have hst : k.st = .ready := by
      unfold Buf.callOutcome at hc
      cases hk : k.st <;> simp [hk] at hc <;> rfl
    have hk : k ∈ x.hs := by rw [hl]; simp
    have hkw : k.name ∉ x.sem.granted ++ x.sem.queue := fun hn => by
      have := h.acquiring hk hn; rw [hst] at this; cases this
    obtain ⟨a, b, c, d, e, f, g, i⟩ := h
    refine ⟨?_, b, c, ?_, ?_, ?_, g, ?_⟩
    · simp only [Buf.reserved] at a ⊢
      rw [hl, countP_ready_split, if_pos hst] at a
      rw [countP_ready_split]
      simp only [reduceCtorEq, if_false, List.length_append, List.length_singleton]
      omega
    · rw [hl] at d; simpa using d
    · intro k' hk'
      simp only [List.mem_append, List.mem_cons] at hk'
      rcases hk' with hk' | rfl | hk'
      · exact e _ (by rw [hl]; simp [hk'])
      · exact e k hk
      · exact e _ (by rw [hl]; simp [hk'])
    · intro n hn
      obtain ⟨k', hk', he, hst'⟩ := f n hn
      rw [hl] at hk'
      simp only [List.mem_append, List.mem_cons] at hk'
      rcases hk' with hk' | rfl | hk'
      · exact ⟨k', by simp [hk'], he, hst'⟩
      · exact absurd (he ▸ hn) hkw
      · exact ⟨k', by simp [hk'], he, hst'⟩
    · intro k' hk' hs'
      simp only [List.mem_append, List.mem_cons] at hk'
      rcases hk' with hk' | rfl | hk'
      · exact i _ (by rw [hl]; simp [hk']) hs'
      · cases hs'
      · exact i _ (by rw [hl]; simp [hk']) hs'
  case drop k l r hl =>
    have hk : k ∈ x.hs := by rw [hl]; simp
    have hacq := fun hn => h.acquiring hk hn
    obtain ⟨a, b, c, d, e, f, g, i⟩ := h
    have hmem : ∀ k' ∈ l ++ r, k' ∈ x.hs := by
      intro k' hk'; rw [hl]
      simp only [List.mem_append, List.mem_cons] at hk' ⊢
      rcases hk' with hk' | hk'
      · exact .inl hk'
      · exact .inr (.inr hk')
    have hd : ((l ++ r).map (·.name)).Nodup := by
      rw [hl] at d
      simp only [List.map_append, List.map_cons] at d ⊢
      exact (List.nodup_middle.1 d).of_cons
    have hname : ∀ k' ∈ l ++ r, k'.name ≠ k.name := by
      rw [hl] at d
      simp only [List.map_append, List.map_cons] at d
      have := (List.nodup_cons.1 (List.nodup_middle.1 d)).1
      intro k' hk' he
      apply this
      rw [← List.map_append, ← he]
      exact List.mem_map_of_mem hk'
    simp only [Buf.reserved] at a
    rw [hl, countP_ready_split] at a
    by_cases hst : k.st = .ready
    · obtain ⟨r1, r2, r3⟩ := release_facts x.sem b
      rw [if_pos hst] at a
      refine ⟨?_, ?_, ?_, hd, fun k' hk' => e k' (hmem k' hk'), ?_, ?_, fun k' hk' => i k' (hmem k' hk')⟩
      · simp only [if_pos hst, Buf.reserved, List.countP_append]; omega
      · simp only [if_pos hst]; exact r2
      · simp only [if_pos hst, r1]; exact c
      · simp only [if_pos hst, r1]
        intro n hn
        obtain ⟨k', hk', he, hs'⟩ := f n hn
        have hne : k' ≠ k := by rintro rfl; rw [hst] at hs'; cases hs'
        refine ⟨k', ?_, he, hs'⟩
        rw [hl] at hk'
        simp only [List.mem_append, List.mem_cons] at hk' ⊢
        tauto
      · intro hc; simp only [if_pos hst, Sem.release, g hc]
    · obtain ⟨r1, r2, r3⟩ := dropAcquire_facts x.sem k.name c b
      rw [if_neg hst] at a
      refine ⟨?_, ?_, ?_, hd, fun k' hk' => e k' (hmem k' hk'), ?_, ?_, fun k' hk' => i k' (hmem k' hk')⟩
      · simp only [if_neg hst, Buf.reserved, List.countP_append]; omega
      · simp only [if_neg hst]; exact r1
      · simp only [if_neg hst, r3]; exact c.erase _
      · simp only [if_neg hst, r3]
        intro n hn
        have hn' := (c.mem_erase_iff.1 hn)
        obtain ⟨k', hk', he, hs'⟩ := f n hn'.2
        have hne : k' ≠ k := by rintro rfl; exact hn'.1 he.symm
        refine ⟨k', ?_, he, hs'⟩
        rw [hl] at hk'
        simp only [List.mem_append, List.mem_cons] at hk' ⊢
        tauto
      · intro hc
        simp only [if_neg hst, Sem.dropAcquire]
        split
        · simp only [Sem.release, g hc]
        · simp [g hc]
  case ready k l r hl =>
    have hk : k ∈ x.hs := by rw [hl]; simp
    have hacq := fun hn => h.acquiring hk hn
    obtain ⟨a, b, c, d, e, f, g, i⟩ := h
    have hrn : (x.reserve k).2.1.name = k.name := by
      unfold Buf.reserve
      split
      · rfl
      · split <;> rfl
    have hnm : (x.pollReady k).2.1.name = k.name := by
      unfold Buf.pollReady
      split
      · rfl
      · rfl
      · exact hrn
      · exact hrn
    -- how membership changes
    have hmem : ∀ k' ∈ l ++ (x.pollReady k).2.1 :: r, k' = (x.pollReady k).2.1 ∨ k' ∈ x.hs := by
      intro k' hk'; rw [hl]
      simp only [List.mem_append, List.mem_cons] at hk' ⊢
      tauto
    have hd : ((l ++ (x.pollReady k).2.1 :: r).map (·.name)).Nodup := by
      rw [hl] at d
      simpa [hnm] using d
    have he' : ∀ k' ∈ l ++ (x.pollReady k).2.1 :: r, k'.name < x.nextName := by
      intro k' hk'
      rcases hmem k' hk' with h1 | h1
      · rw [h1, hnm]; exact e _ hk
      · exact e _ h1
    have hoth : ∀ n k', k' ∈ x.hs → k'.name = n → n ≠ k.name → k' ∈ l ++ (x.pollReady k).2.1 :: r := by
      intro n k' hk' hn hne
      rw [hl] at hk'
      simp only [List.mem_append, List.mem_cons] at hk' ⊢
      rcases hk' with hk' | rfl | hk'
      · exact .inl hk'
      · exact absurd hn.symm hne
      · exact .inr (.inr hk')
    simp only [Buf.reserved] at a
    rw [hl, countP_ready_split] at a
    -- by the cases of pollReady
    have main : ∀ (k2 : BHandle) (sem : Sem), k2.name = k.name →
        sem.permits + sem.granted.length + (if k2.st = .ready then 1 else 0) = x.sem.permits + x.sem.granted.length + (if k.st = .ready then 1 else 0) →
        (sem.queue ≠ [] → sem.permits = 0) → (sem.granted ++ sem.queue).Nodup →
        (∀ n ∈ sem.granted ++ sem.queue, (n = k.name ∧ k2.st = .acquiring) ∨ (n ≠ k.name ∧ n ∈ x.sem.granted ++ x.sem.queue)) →
        (x.closed = true → sem.queue = []) → (k2.st = .closed → x.closed = true) →
        x.pollReady k = ((x.pollReady k).1, k2, sem) → SemInv { x with hs := l ++ (x.pollReady k).2.1 :: r, sem := (x.pollReady k).2.2 } := by
      intro k2 sem _ h1 h2 h3 h4 h5 h6 heq
      have e1 : (x.pollReady k).2.1 = k2 := by rw [heq]
      have e2 : (x.pollReady k).2.2 = sem := by rw [heq]
      rw [e1] at hd he' hoth hmem hnm ⊢
      rw [e2]
      refine ⟨?_, h2, h3, hd, he', ?_, h5, ?_⟩
      · simp only [Buf.reserved]
        rw [countP_ready_split]; omega
      · intro n hn
        rcases h4 n hn with ⟨hn1, hn2⟩ | ⟨hn1, hn2⟩
        · exact ⟨k2, by simp, by rw [hnm, hn1], hn2⟩
        · obtain ⟨k', hk', he1, he2⟩ := f n hn2
          exact ⟨k', hoth n k' hk' he1 hn1, he1, he2⟩
      · intro k' hk' hs'
        rcases hmem k' hk' with h' | h'
        · subst h'; exact h6 hs'
        · exact i _ h' hs'
    have nowait : k.st ≠ .acquiring → k.name ∉ x.sem.granted ++ x.sem.queue := fun h1 h2 => h1 (hacq h2)
    have same : ∀ n ∈ x.sem.granted ++ x.sem.queue, k.name ∉ x.sem.granted ++ x.sem.queue →
        n ≠ k.name ∧ n ∈ x.sem.granted ++ x.sem.queue := fun n hn hk => ⟨fun h => hk (h ▸ hn), hn⟩
    have acq : k.st = .idle ∨ k.st = .acquiring → SemInv { x with hs := l ++ (x.pollReady k).2.1 :: r, sem := (x.pollReady k).2.2 } := by
      intro hst
      have hnr : k.st ≠ .ready := by rcases hst with h | h <;> rw [h] <;> simp
      have heq : x.pollReady k = (if x.closed = true then
          (.ready (.error x.workerError), { k with st := .closed },
            if k.name ∈ x.sem.granted then Sem.release { x.sem with granted := x.sem.granted.erase k.name } else x.sem)
        else
          match x.sem.pollAcquire k.name with
          | (true, sem) => (.ready (.ok ()), { k with st := .ready }, sem)
          | (false, sem) => (.pending, { k with st := .acquiring }, sem)) := by
        unfold Buf.pollReady
        rcases hst with h | h
        · rw [h]; rfl
        · rw [h]; rfl
      by_cases hc : x.closed = true
      · rw [if_pos hc] at heq
        have hq := g hc
        rw [hq, List.append_nil] at c
        by_cases hg : k.name ∈ x.sem.granted
        · rw [if_pos hg] at heq
          have hrel : Sem.release { x.sem with granted := x.sem.granted.erase k.name } =
              { x.sem with granted := x.sem.granted.erase k.name, permits := x.sem.permits + 1 } := by
            simp [Sem.release, hq]
          rw [hrel] at heq
          have hlen := List.length_erase_of_mem hg
          have hpos : 0 < x.sem.granted.length := List.length_pos_of_mem hg
          refine main { k with st := .closed } { x.sem with granted := x.sem.granted.erase k.name, permits := x.sem.permits + 1 } rfl ?_ ?_ ?_ ?_ ?_ ?_ (by rw [heq])
          · simp only [reduceCtorEq, if_false, if_neg hnr]; omega
          · intro h'; exact absurd hq h'
          · simp only [hq, List.append_nil]; exact c.erase _
          · intro n hn
            simp only [hq, List.append_nil] at hn ⊢
            have := c.mem_erase_iff.1 hn
            exact .inr this
          · intro _; exact hq
          · intro _; exact hc
        · rw [if_neg hg] at heq
          refine main { k with st := .closed } x.sem rfl ?_ b (by rw [hq, List.append_nil]; exact c) ?_ (fun _ => hq) (fun _ => hc) (by rw [heq])
          · simp only [reduceCtorEq, if_false, if_neg hnr]
          · intro n hn
            exact .inr (same n hn (by rw [hq, List.append_nil]; exact hg))
      · rw [if_neg hc] at heq
        obtain ⟨p1, p2, p3⟩ := pollAcquire_facts x.sem k.name c b
        cases hp : x.sem.pollAcquire k.name with
        | mk ok sem =>
          rw [hp] at heq p1 p2 p3
          simp only at p1 p2 p3
          cases ok with
          | true =>
            simp only [if_true] at p2 p3
            simp only at heq
            refine main { k with st := .ready } sem rfl ?_ p1 ?_ ?_ (fun h => absurd h hc) (by simp) (by rw [heq])
            · simp only [if_true, if_neg hnr]; omega
            · rw [p3]; exact c.erase _
            · rw [p3]; intro n hn; exact .inr (c.mem_erase_iff.1 hn)
          | false =>
            simp only [Bool.false_eq_true, if_false] at p2 p3
            simp only at heq
            refine main { k with st := .acquiring } sem rfl ?_ p1 ?_ ?_ (fun h => absurd h hc) (by simp) (by rw [heq])
            · simp only [reduceCtorEq, if_false, if_neg hnr]; omega
            · rw [p3]; split
              · exact c
              · rename_i hn
                refine List.nodup_append.2 ⟨c, by simp, ?_⟩
                intro n h1 n' h2 heq'
                simp only [List.mem_singleton] at h2
                subst h2 heq'; exact hn h1
            · rw [p3]; intro n hn
              by_cases hnk : n = k.name
              · exact .inl ⟨hnk, rfl⟩
              · refine .inr ⟨hnk, ?_⟩
                split at hn
                · exact hn
                · simpa [hnk] using hn
    cases hst : k.st with
    | closed =>
      refine main k x.sem rfl rfl b c ?_ g (fun h => i _ hk h) ?_
      · intro n hn; exact .inr (same n hn (nowait (by simp [hst])))
      · simp [Buf.pollReady, hst]
    | ready =>
      refine main k x.sem rfl rfl b c ?_ g (fun h => i _ hk h) ?_
      · intro n hn; exact .inr (same n hn (nowait (by simp [hst])))
      · simp [Buf.pollReady, hst]
    | idle => exact acq (.inl hst)
    | acquiring => exact acq (.inr hst)

theorem SemInv.step {x y : Buf S} {ev} (h : SemInv x) (hs : BStep x ev y) : SemInv y := by
  cases hs with
  | worker hs => exact h.worker hs
  | death hs => exact h.death hs
  | handle hs => exact h.handle hs
  | future hs => exact h.future hs

/-- from a state with the invariant -/
theorem SemInv.run {x y : Buf S} {tr} (h : SemInv x) (hr : BRun x tr y) : SemInv y := by
  induction hr with
  | nil => exact h
  | snoc _ hs ih => exact ih.step hs

theorem bound_run {x y : Buf S} {tr} (hr : BRun x tr y) : y.bound = x.bound := by
  induction hr with
  | nil => rfl
  | snoc _ hs ih =>
    rw [← ih]
    cases hs with
    | worker hs => cases hs <;> rfl
    | death hs => cases hs <;> rfl
    | handle hs => cases hs <;> rfl
    | future hs => cases hs <;> rfl

end Tower
