import Verif.Model.ShedLimit
import Verif.Props.C04_Concurrency
import Verif.Spec.Trace

/-! # C63: load shedding over a concurrency limit -/

set_option linter.unusedSimpArgs false

namespace Tower
open Act
variable {W Req Res Err : Type}

/-! ## Specification -/

/-- accepted calls whose response futures exist -/
def Stack.inFlight {S : Service W Req Res Err} (x : Stack S) : Nat := x.fs.countP Option.isSome

/-- A handle has reserved capacity: it holds a permit for its next call, or a permit that became free was assigned to it. -/
def Stack.reserves {S : Service W Req Res Err} (x : Stack S) (t : ShedState (ConcState S.σ Nat)) : Bool :=
  t.inner.permit || decide (t.inner.sem ∈ x.sem.granted)

/-- how many of these handles have reserved capacity -/
def Stack.reserved {S : Service W Req Res Err} (x : Stack S) (ts : List (ShedState (ConcState S.σ Nat))) : Nat := ts.countP x.reserves

/-! ## Projection to the limit -/

/-- the limit inside -/
def Stack.lim {S : Service W Req Res Err} (x : Stack S) : Lim S := ⟨x.sem, x.hs.map (·.inner), x.fs.filterMap id, x.next⟩

theorem stackReady_limit {debug : Bool} {S : Service W Req Res Err} {s s' : ShedState (ConcState S.σ Nat)} {sem sem' : Sem} {w w' : W}
    {p : Poll (Except (ShedErr Err) Unit)} (h : ((ShedLim debug S).pollReady s).run (sem, w) = .ok (p, s') (sem', w')) :
    ∃ q, ((LimSvc debug S).pollReady s.inner).run (sem, w) = .ok (q, s'.inner) (sem', w') ∧
      (q = .ready (.ok ()) ∧ s'.isReady = true ∧ p = .ready (.ok ()) ∨ q = .pending ∧ s'.isReady = false ∧ p = .ready (.ok ()) ∨
       ∃ e, q = .ready (.error e) ∧ s'.isReady = s.isReady ∧ p = .ready (.error (.inner e))) := by
  obtain ⟨⟨q, i⟩, w1, h1, h2⟩ := run_bind_eq_ok.1 h
  match q with
  | .pending => simp only [run_pure, Out.ok.injEq, Prod.mk.injEq] at h2; obtain ⟨⟨rfl, rfl⟩, rfl⟩ := h2; exact ⟨_, h1, .inr (.inl ⟨rfl, rfl, rfl⟩)⟩
  | .ready (.ok ()) => simp only [run_pure, Out.ok.injEq, Prod.mk.injEq] at h2; obtain ⟨⟨rfl, rfl⟩, rfl⟩ := h2; exact ⟨_, h1, .inl ⟨rfl, rfl, rfl⟩⟩
  | .ready (.error e) =>
    simp only [run_pure, Out.ok.injEq, Prod.mk.injEq] at h2; obtain ⟨⟨rfl, rfl⟩, rfl⟩ := h2; exact ⟨_, h1, .inr (.inr ⟨e, rfl, rfl, rfl⟩)⟩

theorem stackCall_cases {debug : Bool} {S : Service W Req Res Err} {s s' : ShedState (ConcState S.σ Nat)} {sem sem' : Sem} {w w' : W}
    {q : Req} {f : Option S.φ} (h : ((ShedLim debug S).call s q).run (sem, w) = .ok (f, s') (sem', w')) :
    (s.isReady = true ∧ ∃ g, f = some g ∧ ((LimSvc debug S).call s.inner q).run (sem, w) = .ok (g, s'.inner) (sem', w') ∧ s'.isReady = false) ∨
    (s.isReady = false ∧ f = none ∧ s' = s ∧ sem' = sem ∧ w' = w) := by
  by_cases hr : s.isReady = true
  · left
    simp only [ShedLim, LoadShed, hr, if_true] at h
    obtain ⟨⟨g, i⟩, w1, h1, h2⟩ := run_bind_eq_ok.1 h
    simp only [run_pure, Out.ok.injEq, Prod.mk.injEq] at h2
    obtain ⟨⟨rfl, rfl⟩, rfl⟩ := h2
    exact ⟨hr, g, rfl, h1, rfl⟩
  · right
    simp only [ShedLim, LoadShed, hr, Bool.false_eq_true, if_false, run_pure, Out.ok.injEq, Prod.mk.injEq] at h
    obtain ⟨⟨rfl, rfl⟩, rfl, rfl⟩ := h
    exact ⟨by simpa using hr, rfl, rfl, rfl, rfl⟩

theorem stackPoll_cases {debug : Bool} {S : Service W Req Res Err} {f f' : Option S.φ} {sem sem' : Sem} {w w' : W}
    {p : Poll (Except (ShedErr Err) Res)} (h : ((ShedLim debug S).poll f).run (sem, w) = .ok (p, f') (sem', w')) :
    (∃ g g' q, f = some g ∧ f' = some g' ∧ ((LimSvc debug S).poll g).run (sem, w) = .ok (q, g') (sem', w') ∧ p = q.map (mapErr .inner)) ∨
    (f = none ∧ f' = none ∧ sem' = sem ∧ p = .ready (.error .overloaded)) := by
  cases f with
  | none => cases h; exact .inr ⟨rfl, rfl, rfl, rfl⟩
  | some g =>
    obtain ⟨⟨q, g'⟩, w1, h1, h2⟩ := run_bind_eq_ok.1 h
    simp only [run_pure, Out.ok.injEq, Prod.mk.injEq] at h2
    obtain ⟨⟨rfl, rfl⟩, rfl⟩ := h2
    exact .inl ⟨g, g', q, rfl, rfl, h1, rfl⟩

theorem StackStep.lim {debug : Bool} {max : Nat} {S : Service W Req Res Err} {a : Actor} {x x' : Stack S} {arr : List Nat}
    (hx : LimHist debug max S x.lim arr) (h : StackStep debug S a x x') : ∃ arr', LimHist debug max S x'.lim arr' := by
  obtain ⟨sem, hs, fs, next⟩ := x
  cases h with
  | layer i =>
    have := hx.with_semaphore i
    exact ⟨arr, by simpa [Stack.lim] using this⟩
  | @ready _ l r s s' p sem' w w' hl hr =>
    simp only at hl hr; subst hl
    obtain ⟨q, hq, -⟩ := stackReady_limit hr
    have := hx.ready (l := l.map (·.inner)) (r := r.map (·.inner)) (s := s.inner) (by simp [Stack.lim]) hq
    exact ⟨_, by simpa [Stack.lim] using this⟩
  | @call _ l r s s' f q sem' w w' hl hr =>
    simp only at hl hr; subst hl
    rcases stackCall_cases hr with ⟨-, g, rfl, hg, -⟩ | ⟨-, rfl, rfl, rfl, -⟩
    · have := hx.call (l := l.map (·.inner)) (r := r.map (·.inner)) (s := s.inner) (by simp [Stack.lim]) hg
      exact ⟨_, by simpa [Stack.lim] using this⟩
    · exact ⟨arr, by simpa [Stack.lim] using hx⟩
  | @ready_panics _ l r s i sem' hl hc =>
    simp only at hl hc; subst hl
    have := hx.ready_panics (i := i) (l := l.map (·.inner)) (r := r.map (·.inner)) (s := s.inner) (by simp [Stack.lim]) hc
    exact ⟨_, by simpa [Stack.lim] using this⟩
  | @call_panics _ l r s i hl hr hp =>
    simp only at hl; subst hl
    have := hx.call_panics (i := i) (l := l.map (·.inner)) (r := r.map (·.inner)) (s := s.inner) (by simp [Stack.lim]) hp
    exact ⟨_, by simpa [Stack.lim] using this⟩
  | @poll _ l r f f' p sem' w w' hl hr =>
    simp only at hl hr; subst hl
    rcases stackPoll_cases hr with ⟨g, g', q, rfl, rfl, hg, -⟩ | ⟨rfl, rfl, rfl, -⟩
    · have := hx.poll (l := l.filterMap id) (r := r.filterMap id) (f := g) (by simp [Stack.lim]) hg
      exact ⟨_, by simpa [Stack.lim] using this⟩
    · exact ⟨arr, by simpa [Stack.lim] using hx⟩
  | @poll_panics _ l r f f' hl =>
    simp only at hl; subst hl
    have := hx.poll_panics (l := l.filterMap id) (r := r.filterMap id) (f := f) (f' := f') (by simp [Stack.lim])
    exact ⟨_, by simpa [Stack.lim] using this⟩
  | @drop_future _ l r f hl =>
    simp only at hl; subst hl
    cases f with
    | none => exact ⟨arr, by simpa [Stack.lim] using hx⟩
    | some g =>
      have := hx.drop_future (l := l.filterMap id) (r := r.filterMap id) (f := g) (by simp [Stack.lim])
      exact ⟨_, by simpa [Stack.lim] using this⟩
  | @clone _ s c hs' hc =>
    simp only at hs'
    have := hx.clone (s := s.inner) (by simp only [Stack.lim, List.mem_map]; exact ⟨s, hs', rfl⟩)
    subst hc
    exact ⟨_, by simpa [Stack.lim, ShedLim, LoadShed] using this⟩
  | @drop_handle _ l r s hl =>
    simp only at hl; subst hl
    have := hx.drop_handle (l := l.map (·.inner)) (r := r.map (·.inner)) (s := s.inner) (by simp [Stack.lim])
    exact ⟨_, by simpa [Stack.lim] using this⟩

theorem StackHist.lim {debug : Bool} {max : Nat} {S : Service W Req Res Err} {x : Stack S} (h : StackHist debug max S x) :
    ∃ arr, LimHist debug max S x.lim arr := by
  induction h with
  | new i => exact ⟨[], LimHist.new i⟩
  | step _ hs ih => obtain ⟨arr, ha⟩ := ih; exact hs.lim ha


/-! ## Invariants -/

/-- `is_ready` is set only with a permit in hand -/
theorem StackHist.flag {debug : Bool} {max : Nat} {S : Service W Req Res Err} {x : Stack S} (h : StackHist debug max S x) :
    ∀ s ∈ x.hs, s.isReady = true → s.inner.permit = true := by
  have repl : ∀ {l r : List (ShedState (ConcState S.σ Nat))} {s s' : ShedState (ConcState S.σ Nat)},
      (∀ t ∈ l ++ s :: r, t.isReady = true → t.inner.permit = true) → (s'.isReady = true → s'.inner.permit = true) →
      ∀ t ∈ l ++ s' :: r, t.isReady = true → t.inner.permit = true := by
    intro l r s s' h1 h2 t ht
    simp only [List.mem_append, List.mem_cons] at ht
    rcases ht with ht | rfl | ht
    · exact h1 t (by simp [ht])
    · exact h2
    · exact h1 t (by simp [ht])
  induction h with
  | new i => intro s hs; simp only [List.mem_singleton] at hs; subst hs; simp
  | @step a x x' _ hst ih =>
    obtain ⟨sem, hs, fs, next⟩ := x
    cases hst with
    | layer i =>
      intro s hs h
      simp only [List.mem_append, List.mem_singleton] at hs
      rcases hs with hs | rfl
      · exact ih s hs h
      · simp at h
    | @ready _ l r s s' p sem' w w' hl hr =>
      simp only at hl hr; subst hl
      refine repl ih fun hs' => ?_
      obtain ⟨q, hq, h1 | h1 | h1⟩ := stackReady_limit hr
      · rw [h1.1] at hq
        exact C04_ready_has_permit (x := (⟨sem, [], [], 0⟩ : Lim S)) hq
      · rw [h1.2.1] at hs'; cases hs'
      · obtain ⟨e, rfl, -, -⟩ := h1
        exact C04_ready_has_permit (x := (⟨sem, [], [], 0⟩ : Lim S)) hq
    | @call _ l r s s' f q sem' w w' hl hr =>
      simp only at hl hr; subst hl
      rcases stackCall_cases hr with ⟨-, g, rfl, hg, h1⟩ | ⟨h1, rfl, rfl, rfl, -⟩
      · exact repl ih fun hs' => by rw [h1] at hs'; cases hs'
      · exact ih
    | @ready_panics _ l r s i sem' hl hc => simp only at hl; subst hl; exact repl ih fun _ => rfl
    | @call_panics _ l r s i hl hr hp => simp only at hl; subst hl; exact repl ih fun h => h
    | poll hl hr => exact ih
    | poll_panics hl => exact ih
    | drop_future hl => exact ih
    | @clone _ s c hs' hc =>
      subst hc
      intro t ht h
      simp only [List.mem_append, List.mem_singleton] at ht
      rcases ht with ht | rfl
      · exact ih t ht h
      · cases h
    | @drop_handle _ l r s hl =>
      simp only at hl; subst hl
      intro t ht
      refine ih t ?_
      simp only [List.mem_append, List.mem_cons] at ht ⊢
      rcases ht with ht | ht <;> simp [ht]

theorem countP_mem_nodup {N g : List Nat} (hN : N.Nodup) (hg : g.Nodup) (hs : ∀ n ∈ g, n ∈ N) : N.countP (fun n => decide (n ∈ g)) = g.length := by
  rw [List.countP_eq_length_filter]
  apply List.Perm.length_eq
  rw [List.perm_ext_iff_of_nodup (hN.filter _) hg]
  intro a
  simp only [List.mem_filter, decide_eq_true_eq]
  exact ⟨fun h => h.2, fun h => ⟨hs a h, h⟩⟩

/-- reservations, counted -/
theorem StackHist.reserved_eq {debug : Bool} {max : Nat} {S : Service W Req Res Err} {x : Stack S} (h : StackHist debug max S x) :
    x.reserved x.hs = x.lim.holders + x.sem.granted.length := by
  obtain ⟨arr, ha⟩ := h.lim
  have hi := ha.inv
  have hgn : x.sem.granted.Nodup := by
    have := hi.nodup; rw [hi.order] at this; exact (List.nodup_append.1 this).1
  have hnp : ∀ t ∈ x.hs, t.inner.sem ∈ x.sem.granted → t.inner.permit = false := by
    intro t ht hg
    cases hp : t.inner.permit with
    | false => rfl
    | true =>
      refine absurd ?_ (hi.not_waiting (s := t.inner) (by simp only [Stack.lim, List.mem_map]; exact ⟨t, ht, rfl⟩) hp)
      rw [hi.order]; simp [Stack.lim, hg]
  have hmem : ∀ n ∈ x.sem.granted, n ∈ (x.lim.hs.map (·.sem)) := by
    intro n hn
    obtain ⟨s, hs, he, -⟩ := hi.waiting n (by rw [hi.order]; simp [Stack.lim, hn])
    exact List.mem_map.2 ⟨s, hs, he⟩
  have key := countP_mem_nodup hi.names hgn hmem
  rw [← key]
  simp only [Stack.reserved, Lim.holders, Stack.lim, List.map_map, List.countP_map, Function.comp_def]
  have : ∀ (hs : List (ShedState (ConcState S.σ Nat))), (∀ t ∈ hs, t.inner.sem ∈ x.sem.granted → t.inner.permit = false) →
      hs.countP x.reserves = hs.countP (fun t => t.inner.permit) + hs.countP (fun t => decide (t.inner.sem ∈ x.sem.granted)) := by
    intro hs
    induction hs with
    | nil => intro _; rfl
    | cons t hs ih =>
      intro hh
      have h1 := ih fun t' ht' => hh t' (by simp [ht'])
      have h2 := hh t (by simp)
      simp only [List.countP_cons, h1, Stack.reserves]
      by_cases hg : t.inner.sem ∈ x.sem.granted
      · simp [hg, h2 hg]; omega
      · simp [hg]; omega
  exact this x.hs hnp

theorem Stack.inFlight_lim {S : Service W Req Res Err} (x : Stack S) : x.lim.fs.length = x.inFlight := by
  simp only [Stack.lim, Stack.inFlight]
  induction x.fs with
  | nil => rfl
  | cons f fs ih => cases f <;> simp [List.filterMap_cons] <;> exact ih

section
variable {debug : Bool} {max : Nat} {S : Service W Req Res Err} {x : Stack S}

/-- free permits and what is taken add up -/
theorem StackHist.conserved (h : StackHist debug max S x) : x.sem.permits + x.reserved x.hs + x.inFlight = max := by
  obtain ⟨arr, ha⟩ := h.lim
  have hc := ha.inv.conserved
  rw [h.reserved_eq, ← x.inFlight_lim]
  have : x.lim.sem = x.sem := rfl
  rw [this] at hc
  omega

theorem Stack.reserved_split (x : Stack S) (l r : List (ShedState (ConcState S.σ Nat))) (s : ShedState (ConcState S.σ Nat)) :
    x.reserved (l ++ s :: r) = x.reserved (l ++ r) + (if x.reserves s then 1 else 0) := by
  simp only [Stack.reserved, List.countP_append, List.countP_cons]
  omega

/-- the limit admits a handle exactly if what the others take is less than `max` -/
theorem StackHist.admits (h : StackHist debug max S x) {l r : List (ShedState (ConcState S.σ Nat))} {s : ShedState (ConcState S.σ Nat)}
    (hl : x.hs = l ++ s :: r) (hp : s.inner.permit = false) :
    (x.sem.pollAcquire s.inner.sem).1 = true ↔ x.inFlight + x.reserved (l ++ r) < max := by
  have hc := h.conserved
  rw [hl, Stack.reserved_split] at hc
  obtain ⟨arr, ha⟩ := h.lim
  have hi := ha.inv
  by_cases hg : s.inner.sem ∈ x.sem.granted
  · simp [Stack.reserves, hg, hp] at hc
    simp only [Sem.pollAcquire, hg, if_true]
    simp; omega
  · simp [Stack.reserves, hg, hp] at hc
    by_cases hq : s.inner.sem ∈ x.sem.queue
    · have : x.sem.permits = 0 := hi.busy (by intro h0; rw [show x.lim.sem = x.sem from rfl] at h0; rw [h0] at hq; cases hq)
      simp only [Sem.pollAcquire, hg, hq, if_true, if_false]
      simp; omega
    · by_cases h0 : x.sem.permits > 0
      · simp only [Sem.pollAcquire, hg, hq, h0, if_true, if_false]
        simp; omega
      · simp only [Sem.pollAcquire, hg, hq, h0, if_true, if_false]
        simp; omega

/-! ## Theorems -/

/-- **C63 (bound).** At every moment of every history of all clones: accepted calls in flight, together with the capacity that handles have
reserved, are at most `max`; and what is not in flight or reserved is free. -/
theorem C63_bound (h : StackHist debug max S x) : x.inFlight + x.reserved x.hs ≤ max ∧ x.sem.permits = max - (x.inFlight + x.reserved x.hs) := by
  have := h.conserved
  omega

/-- **C63 (accepted or shed, exactly).** At any moment of any history, let a handle poll while the inner service would say `Ready(Ok)`. Then its
`poll_ready` is `Ready(Ok)`; and whenever and with whatever request it then calls, if calls in flight and reservations of *other* handles were
fewer than `max` at the poll, the request goes to the inner service; and if not, the request is shed: nothing changes and the first poll of the
response says `Overloaded`. -/
theorem C63_exact (h : StackHist debug max S x) {l r : List (ShedState (ConcState S.σ Nat))} {s : ShedState (ConcState S.σ Nat)}
    (hl : x.hs = l ++ s :: r) {w w1 : W} {i : S.σ} (hin : (S.pollReady s.inner.inner).run w = .ok (.ready (.ok ()), i) w1) :
    ∃ s' sem' w', ((ShedLim debug S).pollReady s).run (x.sem, w) = .ok (.ready (.ok ()), s') (sem', w') ∧
      (x.inFlight + x.reserved (l ++ r) < max → ∀ q sem2 w2 g i2 w3, (S.call i q).run w2 = .ok (g, i2) w3 →
        ∃ s'', ((ShedLim debug S).call s' q).run (sem2, w2) = .ok (some g, s'') (sem2, w3)) ∧
      (max ≤ x.inFlight + x.reserved (l ++ r) → ∀ q sem2 w2, ((ShedLim debug S).call s' q).run (sem2, w2) = .ok (none, s') (sem2, w2) ∧
        ∀ v vs, (ShedLim debug S).futOf.drive none (v :: vs) = .done (.error .overloaded) v vs) := by
  obtain ⟨⟨si, sn, sp⟩, sr⟩ := s
  cases sp with
  | true =>
    have hc := h.conserved
    rw [hl, Stack.reserved_split] at hc
    simp [Stack.reserves] at hc
    refine ⟨⟨⟨i, sn, true⟩, true⟩, x.sem, w1, ?_, ?_, fun hge => by omega⟩
    · simp [ShedLim, LoadShed, LimSvc, ConcurrencyLimit, run_bind, Act.snd, hin]
    · intro _ q sem2 w2 g i2 w3 hcall
      exact ⟨⟨⟨i2, sn, false⟩, false⟩, by simp only [ShedLim, LoadShed, LimSvc, ConcurrencyLimit, if_true, run_bind, Act.snd, hcall, run_pure]⟩
  | false =>
    have had := h.admits hl rfl
    cases hg : (x.sem.pollAcquire sn).1 with
    | true =>
      have hlt := had.1 hg
      refine ⟨⟨⟨i, sn, true⟩, true⟩, (x.sem.pollAcquire sn).2, w1, ?_, ?_, fun hge => by omega⟩
      · simp [ShedLim, LoadShed, LimSvc, ConcurrencyLimit, run_bind, Act.snd, hin, hg]
      · intro _ q sem2 w2 g i2 w3 hcall
        exact ⟨⟨⟨i2, sn, false⟩, false⟩, by simp only [ShedLim, LoadShed, LimSvc, ConcurrencyLimit, if_true, run_bind, Act.snd, hcall, run_pure]⟩
    | false =>
      refine ⟨⟨⟨si, sn, false⟩, false⟩, (x.sem.pollAcquire sn).2, w, ?_, ?_, ?_⟩
      · simp [ShedLim, LoadShed, LimSvc, ConcurrencyLimit, run_bind, Act.snd, hg]
      · intro hlt
        have := had.2 hlt
        simp only at this
        rw [hg] at this; cases this
      · intro _ q sem2 w2
        exact ⟨by simp [ShedLim, LoadShed], fun _ _ => rfl⟩

/-- **C63 (inner service not ready).** If the inner service would say `Pending`, the handle still says `Ready(Ok)` and its next call is shed. -/
theorem C63_inner_pending (s : ShedState (ConcState S.σ Nat)) {sem : Sem} {w w1 : W} {i : S.σ}
    (hin : (S.pollReady s.inner.inner).run w = .ok (.pending, i) w1) :
    ∃ s' sem' w', ((ShedLim debug S).pollReady s).run (sem, w) = .ok (.ready (.ok ()), s') (sem', w') ∧
      ∀ q sem2 w2, ((ShedLim debug S).call s' q).run (sem2, w2) = .ok (none, s') (sem2, w2) := by
  obtain ⟨⟨si, sn, sp⟩, sr⟩ := s
  cases sp with
  | true => exact ⟨⟨⟨i, sn, true⟩, false⟩, sem, w1, by simp [ShedLim, LoadShed, LimSvc, ConcurrencyLimit, run_bind, Act.snd, hin], by simp [ShedLim, LoadShed]⟩
  | false =>
    cases hg : (sem.pollAcquire sn).1 with
    | true => exact ⟨⟨⟨i, sn, true⟩, false⟩, (sem.pollAcquire sn).2, w1, by simp [ShedLim, LoadShed, LimSvc, ConcurrencyLimit, run_bind, Act.snd, hin, hg], by simp [ShedLim, LoadShed]⟩
    | false => exact ⟨⟨⟨si, sn, false⟩, false⟩, (sem.pollAcquire sn).2, w, by simp [ShedLim, LoadShed, LimSvc, ConcurrencyLimit, run_bind, Act.snd, hg], by simp [ShedLim, LoadShed]⟩

/-- **C63 (one handle).** With one handle left (for instance behind a `Buffer`), a request is accepted exactly if fewer than `max` accepted calls
are in flight. -/
theorem C63_single (h : StackHist debug max S x) {s : ShedState (ConcState S.σ Nat)} (hl : x.hs = [s]) {w w1 : W} {i : S.σ}
    (hin : (S.pollReady s.inner.inner).run w = .ok (.ready (.ok ()), i) w1) :
    ∃ s' sem' w', ((ShedLim debug S).pollReady s).run (x.sem, w) = .ok (.ready (.ok ()), s') (sem', w') ∧
      (x.inFlight < max → ∀ q sem2 w2 g i2 w3, (S.call i q).run w2 = .ok (g, i2) w3 →
        ∃ s'', ((ShedLim debug S).call s' q).run (sem2, w2) = .ok (some g, s'') (sem2, w3)) ∧
      (x.inFlight = max → ∀ q sem2 w2, ((ShedLim debug S).call s' q).run (sem2, w2) = .ok (none, s') (sem2, w2)) := by
  obtain ⟨s', sem', w', h1, h2, h3⟩ := C63_exact (l := []) (r := []) h hl hin
  simp only [List.append_nil, Stack.reserved, List.countP_nil, Nat.add_zero] at h2 h3
  exact ⟨s', sem', w', h1, h2, fun he q sem2 w2 => (h3 (by omega) q sem2 w2).1⟩

/-- **C63 (no panic).** In every history, `call`, with or without `poll_ready` before it, panics only if the inner `call` does, with the same
message: the limit's own panic is unreachable. -/
theorem C63_no_panic (h : StackHist debug max S x) {s : ShedState (ConcState S.σ Nat)} (hs : s ∈ x.hs) (q : Req) (sem : Sem) (w : W) (m : String)
    (hc : ((ShedLim debug S).call s q).run (sem, w) = .panic m) : (S.call s.inner.inner q).run w = .panic m := by
  have hf := h.flag s hs
  obtain ⟨⟨si, sn, sp⟩, sr⟩ := s
  cases sr with
  | false => simp [ShedLim, LoadShed] at hc
  | true =>
    have := hf rfl
    simp only at this
    subst this
    simp only [ShedLim, LoadShed, LimSvc, ConcurrencyLimit, run_bind, Act.snd, if_true] at hc
    cases hS : (S.call si q).run w with
    | ok a w1 => simp [hS] at hc
    | panic m' => simp [hS] at hc; rw [hc]
    | spin => simp [hS] at hc

theorem release_granted (s : Sem) {n : Nat} (h : n ∈ s.granted) : n ∈ s.release.granted := by
  unfold Sem.release
  split
  · exact h
  · simp [h]

theorem pollAcquire_granted (s : Sem) {n m : Nat} (hm : n ≠ m) (h : n ∈ s.granted) : n ∈ (s.pollAcquire m).2.granted := by
  unfold Sem.pollAcquire
  split
  · exact (List.mem_erase_of_ne hm).2 h
  · split
    · exact h
    · split <;> exact h

theorem dropAcquire_granted (s : Sem) {n m : Nat} (hm : n ≠ m) (h : n ∈ s.granted) : n ∈ (s.dropAcquire m).granted := by
  unfold Sem.dropAcquire
  split
  · exact release_granted _ ((List.mem_erase_of_ne hm).2 h)
  · exact h

/-- **C63 (reservations stay).** Whatever others do, a handle's reservation stays until that handle itself is used or dropped. So a clone that was
shed once and then lies idle can come to hold capacity that no other clone can use (the example below sheds with nothing in flight). -/
theorem C63_kept {a : Actor} {x' : Stack S} (hst : StackStep debug S a x x')
    {t : ShedState (ConcState S.σ Nat)} (ht : t ∈ x.hs) (ha : a ≠ some t.inner.sem) (hr : x.reserves t = true) :
    t ∈ x'.hs ∧ x'.reserves t = true := by
  obtain ⟨sem, hs, fs, next⟩ := x
  have keep : ∀ {l r : List (ShedState (ConcState S.σ Nat))} {s s' : ShedState (ConcState S.σ Nat)}, t ∈ l ++ s :: r →
      some s.inner.sem ≠ some t.inner.sem → t ∈ l ++ s' :: r ∧ t ∈ l ++ r := by
    intro l r s s' h1 h2
    simp only [List.mem_append, List.mem_cons] at h1 ⊢
    rcases h1 with h1 | rfl | h1
    · simp [h1]
    · exact absurd rfl h2
    · simp [h1]
  have res : ∀ {sem' : Sem}, (t.inner.sem ∈ sem.granted → t.inner.sem ∈ sem'.granted) → ∀ {hs' fs' n'}, Stack.reserves (S := S) ⟨sem', hs', fs', n'⟩ t = true := by
    intro sem' hg hs' fs' n'
    simp only [Stack.reserves, Bool.or_eq_true, decide_eq_true_eq] at hr ⊢
    exact hr.imp id hg
  cases hst with
  | layer i => exact ⟨by simp [show t ∈ hs from ht], res id⟩
  | @ready _ l r s s' p sem' w w' hl hp =>
    simp only at hl hp; subst hl
    refine ⟨(keep ht ha).1, res fun hg => ?_⟩
    obtain ⟨q, hq, -⟩ := stackReady_limit hp
    rcases (limReady_cases hq).2 with ⟨-, -, rfl⟩ | ⟨-, -, rfl⟩
    · exact hg
    · exact pollAcquire_granted _ (fun he => ha (by rw [he])) hg
  | @call _ l r s s' f q sem' w w' hl hp =>
    simp only at hl hp; subst hl
    refine ⟨(keep ht ha).1, res fun hg => ?_⟩
    rcases stackCall_cases hp with ⟨-, g, rfl, hq, h1⟩ | ⟨h1, rfl, rfl, rfl, -⟩
    · rw [(limCall_cases hq).2.2.2]; exact hg
    · exact hg
  | @ready_panics _ l r s i sem' hl hc =>
    simp only at hl hc; subst hl
    refine ⟨(keep ht ha).1, res fun hg => ?_⟩
    rcases hc with ⟨-, rfl⟩ | ⟨-, hc⟩
    · exact hg
    · have := pollAcquire_granted sem (m := s.inner.sem) (fun he => ha (by rw [he])) hg
      rwa [hc] at this
  | @call_panics _ l r s i hl hr hp =>
    simp only at hl; subst hl
    exact ⟨(keep ht ha).1, res fun hg => release_granted _ hg⟩
  | @poll _ l r f f' p sem' w w' hl hp =>
    refine ⟨ht, res fun hg => ?_⟩
    simp only at hl hp; subst hl
    rcases stackPoll_cases hp with ⟨g, g', q, rfl, rfl, hq, -⟩ | ⟨rfl, rfl, rfl, -⟩
    · simp only [LimSvc, ConcurrencyLimit, Act.snd] at hq
      cases hS : (S.poll g).run w with
      | ok a w1 => simp only [hS] at hq; cases hq; exact hg
      | panic m => simp [hS] at hq
      | spin => simp [hS] at hq
    · exact hg
  | poll_panics hl => exact ⟨ht, res id⟩
  | @drop_future _ l r f hl =>
    refine ⟨ht, res fun hg => ?_⟩
    simp only at hl ⊢
    split
    · exact release_granted _ hg
    · exact hg
  | clone hs' hc => exact ⟨by simp [show t ∈ hs from ht], res id⟩
  | @drop_handle _ l r s hl =>
    simp only at hl; subst hl
    refine ⟨(keep (s' := s) ht ha).2, res fun hg => ?_⟩
    have h1 := dropAcquire_granted sem (m := s.inner.sem) (fun he => ha (by rw [he])) hg
    simp only
    split
    · exact release_granted _ h1
    · exact h1

end

/-! ## A concrete case: limit 1, three clones -/

namespace Demo63

def inner : Service Unit Nat Nat Nat where
  σ := Unit
  φ := Nat
  pollReady _ := pure (.ready (.ok ()), ())
  call _ r := pure (r, ())
  poll r := pure (.ready (.ok r), r)
  clone := id

abbrev H := ShedState (ConcState Unit Nat)

/-- Clone 0 has a call in flight, clone 1 is shed and left idle, the call of 0 ends. Now nothing is in flight, but clone 1 has the only permit
reserved: clones 0 and 2 are shed, clone 1 would be accepted. -/
def idle : Stack inner := ⟨⟨0, [], [1]⟩, [⟨⟨(), 0, false⟩, false⟩, ⟨⟨(), 1, false⟩, false⟩, ⟨⟨(), 2, false⟩, false⟩], [none], 3⟩

theorem idle_hist : StackHist true 1 inner idle := by
  have h0 := StackHist.new (debug := true) (max := 1) (S := inner) ()
  have h1 := h0.step (.clone (s := ⟨⟨(), 0, false⟩, false⟩) (by simp) rfl)
  have h2 := h1.step (.clone (s := ⟨⟨(), 0, false⟩, false⟩) (by simp [ShedLim, LoadShed, LimSvc, ConcurrencyLimit]) rfl)
  have h3 := h2.step (.ready (l := []) (s := ⟨⟨(), 0, false⟩, false⟩) (s' := ⟨⟨(), 0, true⟩, true⟩) (w := ()) rfl rfl)
  have h4 := h3.step (.call (l := []) (s := ⟨⟨(), 0, true⟩, true⟩) (s' := ⟨⟨(), 0, false⟩, false⟩) (q := (7 : Nat)) (f := some (7 : Nat)) (w := ()) rfl rfl)
  have h5 := h4.step (.ready (l := [⟨⟨(), 0, false⟩, false⟩]) (s := ⟨⟨(), 1, false⟩, false⟩) (s' := ⟨⟨(), 1, false⟩, false⟩) (w := ()) rfl rfl)
  have h6 := h5.step (.call (l := [⟨⟨(), 0, false⟩, false⟩]) (s := ⟨⟨(), 1, false⟩, false⟩) (s' := ⟨⟨(), 1, false⟩, false⟩) (q := (8 : Nat)) (f := none) (w := ()) rfl rfl)
  exact h6.step (.drop_future (l := []) (f := some (7 : Nat)) (r := [none]) rfl)

example : idle.inFlight = 0 ∧ idle.reserves ⟨⟨(), 1, false⟩, false⟩ = true ∧
    idle.reserved [⟨⟨(), 0, false⟩, false⟩, ⟨⟨(), 1, false⟩, false⟩] = 1 := by decide

/-- clone 2 is shed with nothing in flight -/
example : ∃ s' sem' w', ((ShedLim true inner).pollReady ⟨⟨(), 2, false⟩, false⟩).run (idle.sem, ()) = .ok (.ready (.ok ()), s') (sem', w') ∧
    ∀ q sem2 w2, ((ShedLim true inner).call s' q).run (sem2, w2) = .ok (none, s') (sem2, w2) := by
  obtain ⟨s', sem', w', h1, -, h3⟩ := C63_exact idle_hist (l := [⟨⟨(), 0, false⟩, false⟩, ⟨⟨(), 1, false⟩, false⟩]) (r := []) (s := ⟨⟨(), 2, false⟩, false⟩)
    (w := ()) (w1 := ()) (i := ()) rfl rfl
  exact ⟨s', sem', w', h1, fun q sem2 w2 => (h3 (by decide) q sem2 w2).1⟩

end Demo63

end Tower
