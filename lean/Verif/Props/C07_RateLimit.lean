import Verif.Model.Middleware

/-! # C07, C08: RateLimit -/

set_option linter.unusedSimpArgs false

namespace Tower
open Act
variable {W Req Res Err : Type}

/-! ## Specification -/

/-- Histories of a RateLimit: state, the time of the last operation, and the times at which a request was
passed to the inner service. Time never goes back; timers may fire arbitrarily late; calls out of turn (which
panic) are not excluded, they just do not pass a request on. -/
inductive RateHist (C : Clock W) (R : Rate) (S : Service W Req Res Err) : RateState S.σ → Nat → List Nat → Prop
  | new (i : S.σ) (t : Nat) : RateHist C R S (RateLimit.new R t i) t []
  | ready {x : RateState S.σ} {t : Nat} {calls : List Nat} {w w' : W} {p : Poll (Except Err Unit)} {x' : RateState S.σ} :
      RateHist C R S x t calls → t ≤ C.now w →
      ((RateLimit C R S).pollReady x).run w = .ok (p, x') w' → RateHist C R S x' (C.now w) calls
  | call {x : RateState S.σ} {t : Nat} {calls : List Nat} {r : Req} {w w' : W} {f : S.φ} {x' : RateState S.σ} :
      RateHist C R S x t calls → t ≤ C.now w →
      ((RateLimit C R S).call x r).run w = .ok (f, x') w' → RateHist C R S x' (C.now w) (calls ++ [C.now w])

/-- How many calls were made at a time in `[a, b)`. -/
def callsIn (a b : Nat) (calls : List Nat) : Nat := calls.countP (fun c => decide (a ≤ c ∧ c < b))

/-- `gs` splits the calls into consecutive periods: each `(e, cs)` is the period `[e - per, e)` with the calls
made in it; periods do not overlap, and contain at most `num` calls. -/
structure Periods (R : Rate) (gs : List (Nat × List Nat)) (calls : List Nat) : Prop where
  all : calls = gs.flatMap Prod.snd
  disjoint : gs.Pairwise (fun g g' => g.1 + R.per ≤ g'.1)
  inside : ∀ g ∈ gs, ∀ c ∈ g.2, c < g.1 ∧ g.1 ≤ c + R.per
  few : ∀ g ∈ gs, g.2.length ≤ R.num

/-! ## Proofs -/

/-- the invariant: all but the last period `gs`, and the current one, which ends at `e` and has calls `cur` -/
structure RateInv {α : Type} (R : Rate) (x : RateState α) (t : Nat) (gs : List (Nat × List Nat)) (e : Nat) (cur calls : List Nat) : Prop where
  periods : Periods R (gs ++ [(e, cur)]) calls
  state : (∃ m, x.st = .ready e m ∧ cur.length + m = R.num ∧ 0 < m) ∨
    (x.st = .limited ∧ x.sleep = e ∧ cur.length = R.num)

theorem RateInv.fresh {α : Type} {R : Rate} {x : RateState α} {t : Nat} {gs : List (Nat × List Nat)} {e : Nat} {cur calls : List Nat}
    (h : RateInv R x t gs e cur calls) {e' : Nat} (he : e + R.per ≤ e') {cs : List Nat}
    (hcs : ∀ c ∈ cs, c < e' ∧ e' ≤ c + R.per) (hl : cs.length ≤ R.num) :
    Periods R ((gs ++ [(e, cur)]) ++ [(e', cs)]) (calls ++ cs) := by
  have hp := h.periods
  refine ⟨?_, ?_, ?_, ?_⟩
  · rw [List.flatMap_append, ← hp.all]; simp
  · rw [List.pairwise_append]
    refine ⟨hp.disjoint, by simp, ?_⟩
    intro g hg g' hg'
    simp only [List.mem_singleton] at hg'
    subst hg'
    simp only [List.mem_append, List.mem_singleton] at hg
    rcases hg with hg | rfl
    · have h1 := (List.pairwise_append.mp hp.disjoint).2.2 g hg (e, cur) (by simp)
      simp only at h1 ⊢
      omega
    · exact he
  · intro g hg
    rw [List.mem_append] at hg
    rcases hg with hg | hg
    · exact hp.inside g hg
    · simp only [List.mem_singleton] at hg; subst hg; exact hcs
  · intro g hg
    rw [List.mem_append] at hg
    rcases hg with hg | hg
    · exact hp.few g hg
    · simp only [List.mem_singleton] at hg; subst hg; exact hl

theorem RateInv.extend {α : Type} {R : Rate} {x : RateState α} {t : Nat} {gs : List (Nat × List Nat)} {e : Nat} {cur calls : List Nat}
    (h : RateInv R x t gs e cur calls) {c : Nat} (hc : c < e ∧ e ≤ c + R.per) (hl : cur.length + 1 ≤ R.num) :
    Periods R (gs ++ [(e, cur ++ [c])]) (calls ++ [c]) := by
  have hp := h.periods
  refine ⟨?_, ?_, ?_, ?_⟩
  · rw [hp.all]; simp
  · have := hp.disjoint
    rw [List.pairwise_append] at this ⊢
    refine ⟨this.1, by simp, ?_⟩
    intro g hg g' hg'
    simp only [List.mem_singleton] at hg'
    subst hg'
    exact this.2.2 g hg (e, cur) (by simp)
  · intro g hg
    rw [List.mem_append] at hg
    rcases hg with hg | hg
    · exact hp.inside g (by simp [hg])
    · simp only [List.mem_singleton] at hg
      subst hg
      intro c' hc'
      simp only [List.mem_append, List.mem_singleton] at hc'
      rcases hc' with hc' | rfl
      · exact hp.inside (e, cur) (by simp) c' hc'
      · exact hc
  · intro g hg
    rw [List.mem_append] at hg
    rcases hg with hg | hg
    · exact hp.few g (by simp [hg])
    · simp only [List.mem_singleton] at hg; subst hg; simpa using hl

/-- the current period ends at most `per` after the last operation -/
theorem RateHist.inv {C : Clock W} {R : Rate} {S : Service W Req Res Err} (hnum : 0 < R.num) (hper : 0 < R.per) {x : RateState S.σ} {t : Nat}
    {calls : List Nat} (h : RateHist C R S x t calls) :
    ∃ gs e cur, RateInv R x t gs e cur calls ∧ e ≤ t + R.per := by
  induction h with
  | new i t =>
    refine ⟨[], t, [], ⟨⟨by simp, by simp, by simp, by simp⟩, .inl ⟨R.num, rfl, by simp, hnum⟩⟩, by omega⟩
  | @ready x t calls w w' p x' _ ht hr ih =>
    obtain ⟨gs, e, cur, hi, he⟩ := ih
    simp only [RateLimit] at hr
    rcases hi.state with ⟨m, hst, hm, hpos⟩ | ⟨hst, hsl, hlen⟩
    · simp only [hst, run_bind] at hr
      cases hp : (S.pollReady x.inner).run w with
      | panic m => simp [hp] at hr
      | spin => simp [hp] at hr
      | ok a w1 =>
        simp only [hp, run_pure] at hr
        cases hr
        exact ⟨gs, e, cur, ⟨hi.periods, .inl ⟨m, rfl, hm, hpos⟩⟩, by omega⟩
    · simp only [hst, run_bind, run_get] at hr
      split at hr
      · rename_i hf
        have hs := C.sound _ _ hf
        simp only [run_bind, run_get] at hr
        cases hp : (S.pollReady x.inner).run w with
        | panic m => simp [hp] at hr
        | spin => simp [hp] at hr
        | ok a w1 =>
          simp only [hp, run_pure] at hr
          cases hr
          refine ⟨gs ++ [(e, cur)], C.now w + R.per, [], ⟨?_, .inl ⟨R.num, rfl, by simp, hnum⟩⟩, by omega⟩
          have := hi.fresh (e' := C.now w + R.per) (by omega) (cs := []) (by simp) (by simp)
          simpa using this
      · simp only [run_bind, run_modify, run_pure] at hr
        cases hr
        exact ⟨gs, e, cur, ⟨hi.periods, .inr ⟨hst, hsl, hlen⟩⟩, by omega⟩
  | @call x t calls r w w' f x' _ ht hr ih =>
    obtain ⟨gs, e, cur, hi, he⟩ := ih
    simp only [RateLimit, run_bind, run_get] at hr
    rcases hi.state with ⟨m, hst, hm, hpos⟩ | ⟨hst, hsl, hlen⟩
    · have key : ∀ st sl, rateTake R (C.now w) x.st x.sleep = some (st, sl) → x'.st = st ∧ x'.sleep = sl := by
        intro st sl htk
        simp only [htk, run_bind] at hr
        cases hp : (S.call x.inner r).run w with
        | panic m => simp [hp] at hr
        | spin => simp [hp] at hr
        | ok a w1 => simp only [hp, run_pure] at hr; cases hr; exact ⟨rfl, rfl⟩
      simp only [hst, rateTake] at key
      by_cases hge : C.now w ≥ e
      · have hP := hi.fresh (e' := C.now w + R.per) (by omega) (cs := [C.now w])
          (by intro c hc; simp at hc; subst hc; exact ⟨by omega, by omega⟩) (by simp; omega)
        simp only [if_pos hge] at key
        refine ⟨gs ++ [(e, cur)], C.now w + R.per, [C.now w], ⟨hP, ?_⟩, by omega⟩
        by_cases h1 : R.num > 1
        · simp only [if_pos h1] at key
          obtain ⟨k1, k2⟩ := key _ _ rfl
          exact .inl ⟨R.num - 1, k1, by simp; omega, by omega⟩
        · simp only [if_neg h1] at key
          obtain ⟨k1, k2⟩ := key _ _ rfl
          exact .inr ⟨k1, k2, by simp; omega⟩
      · have hP := hi.extend (c := C.now w) (by omega) (by omega)
        simp only [if_neg hge] at key
        refine ⟨gs, e, cur ++ [C.now w], ⟨hP, ?_⟩, by omega⟩
        by_cases h1 : m > 1
        · simp only [if_pos h1] at key
          obtain ⟨k1, k2⟩ := key _ _ rfl
          exact .inl ⟨m - 1, k1, by simp; omega, by omega⟩
        · simp only [if_neg h1] at key
          obtain ⟨k1, k2⟩ := key _ _ rfl
          exact .inr ⟨k1, k2, by simp; omega⟩
    · simp [hst, rateTake] at hr

theorem Periods.later {R : Rate} {gs : List (Nat × List Nat)} :
    ∀ {lo k a : Nat}, gs.Pairwise (fun g g' => g.1 + R.per ≤ g'.1) →
      (∀ g ∈ gs, ∀ c ∈ g.2, c < g.1 ∧ g.1 ≤ c + R.per) → (∀ g ∈ gs, g.2.length ≤ R.num) →
      (∀ g ∈ gs, lo + R.per ≤ g.1) → callsIn a (lo + k * R.per) (gs.flatMap Prod.snd) ≤ k * R.num := by
  induction gs with
  | nil => intros; simp [callsIn]
  | cons g rest ih =>
    intro lo k a hd hi hf hl
    rw [List.pairwise_cons] at hd
    cases k with
    | zero =>
      simp only [Nat.zero_mul, Nat.add_zero, Nat.le_zero, callsIn, List.countP_eq_zero, List.mem_flatMap]
      rintro c ⟨g', hg', hc⟩ hcc
      have h1 := hi g' hg' c hc
      have h2 := hl g' hg'
      simp only [decide_eq_true_eq] at hcc
      omega
    | succ k =>
      have h1 : callsIn a (lo + (k + 1) * R.per) g.2 ≤ R.num :=
        Nat.le_trans List.countP_le_length (hf g (by simp))
      have h2 := ih (lo := lo + R.per) (k := k) (a := a) hd.2 (fun g' h' => hi g' (by simp [h']))
        (fun g' h' => hf g' (by simp [h'])) (fun g' h' => by
          have := hd.1 g' h'
          have := hl g (by simp)
          omega)
      have e1 : lo + R.per + k * R.per = lo + (k + 1) * R.per := by rw [Nat.add_mul]; omega
      rw [e1] at h2
      simp only [callsIn, List.flatMap_cons, List.countP_append] at h1 h2 ⊢
      rw [Nat.add_mul k 1 R.num]; omega

theorem Periods.window {R : Rate} {gs : List (Nat × List Nat)} :
    ∀ {k a : Nat}, gs.Pairwise (fun g g' => g.1 + R.per ≤ g'.1) →
      (∀ g ∈ gs, ∀ c ∈ g.2, c < g.1 ∧ g.1 ≤ c + R.per) → (∀ g ∈ gs, g.2.length ≤ R.num) →
      callsIn a (a + k * R.per) (gs.flatMap Prod.snd) ≤ (k + 1) * R.num := by
  induction gs with
  | nil => intros; simp [callsIn]
  | cons g rest ih =>
    intro k a hd hi hf
    rw [List.pairwise_cons] at hd
    have hi' := fun g' (h' : g' ∈ rest) => hi g' (by simp [h'])
    have hf' := fun g' (h' : g' ∈ rest) => hf g' (by simp [h'])
    by_cases hg : g.1 ≤ a
    · have h0 : callsIn a (a + k * R.per) g.2 = 0 := by
        simp only [callsIn, List.countP_eq_zero]
        intro c hc hcc
        have := hi g (by simp) c hc
        simp only [decide_eq_true_eq] at hcc
        omega
      have := ih (k := k) (a := a) hd.2 hi' hf'
      simp only [callsIn, List.flatMap_cons, List.countP_append] at h0 this ⊢
      omega
    · have h1 : callsIn a (a + k * R.per) g.2 ≤ R.num :=
        Nat.le_trans List.countP_le_length (hf g (by simp))
      have h2 := Periods.later (lo := a) (k := k) (a := a) hd.2 hi' hf' (fun g' h' => by
        have := hd.1 g' h'
        omega)
      simp only [callsIn, List.flatMap_cons, List.countP_append] at h1 h2 ⊢
      rw [Nat.add_mul k 1 R.num]; omega

/-! ## Theorems -/

/-- **C07.** In any window of length `k · per`, at most `(k+1) · num` requests are passed to the inner service:
for every inner service, every clock, every history of `poll_ready` and `call` and every window. -/
theorem C07_window {C : Clock W} {R : Rate} {S : Service W Req Res Err} (hnum : 0 < R.num) (hper : 0 < R.per)
    {x : RateState S.σ} {t : Nat} {calls : List Nat} (h : RateHist C R S x t calls) (a k : Nat) :
    callsIn a (a + k * R.per) calls ≤ (k + 1) * R.num := by
  obtain ⟨gs, e, cur, hi, _⟩ := h.inv hnum hper
  rw [hi.periods.all]
  exact Periods.window hi.periods.disjoint hi.periods.inside hi.periods.few

/-- **C08.** The calls always split into disjoint periods of length `per` with at most `num` calls each. -/
theorem C08_periods {C : Clock W} {R : Rate} {S : Service W Req Res Err} (hnum : 0 < R.num) (hper : 0 < R.per)
    {x : RateState S.σ} {t : Nat} {calls : List Nat} (h : RateHist C R S x t calls) :
    ∃ gs, Periods R gs calls := by
  obtain ⟨gs, e, cur, hi, _⟩ := h.inv hnum hper
  exact ⟨_, hi.periods⟩

/-- **C08, refusal.** If `poll_ready` returns `Pending`, then either the inner service did, or exactly `num` calls
were already made in the latest period, and its timer has not fired. -/
theorem C08_refusal {C : Clock W} {R : Rate} {S : Service W Req Res Err} (hnum : 0 < R.num) (hper : 0 < R.per)
    {x : RateState S.σ} {t : Nat} {calls : List Nat} (h : RateHist C R S x t calls) {w w' : W} {x' : RateState S.σ}
    (hr : ((RateLimit C R S).pollReady x).run w = .ok (.pending, x') w') :
    (∃ i', (S.pollReady x.inner).run w = .ok (.pending, i') w') ∨
    (∃ gs e cur, Periods R (gs ++ [(e, cur)]) calls ∧ cur.length = R.num ∧ C.fired e w = false) := by
  obtain ⟨gs, e, cur, hi, he⟩ := h.inv hnum hper
  simp only [RateLimit] at hr
  have inner : ∀ {g : S.σ → RateState S.σ},
      Act.run (S.pollReady x.inner >>= fun a => pure (a.1, g a.2)) w = .ok (.pending, x') w' →
      ∃ i', (S.pollReady x.inner).run w = .ok (.pending, i') w' := by
    intro g hr
    rw [run_bind] at hr
    cases hp : (S.pollReady x.inner).run w with
    | panic m => simp [hp] at hr
    | spin => simp [hp] at hr
    | ok a w1 =>
      obtain ⟨p, i⟩ := a
      simp only [hp, run_pure] at hr
      cases hr
      exact ⟨i, rfl⟩
  rcases hi.state with ⟨m, hst, hm, hpos⟩ | ⟨hst, hsl, hlen⟩
  · simp only [hst] at hr
    exact .inl (inner (g := fun i => ⟨i, RateSt.ready e m, x.sleep⟩) hr)
  · by_cases hf : C.fired x.sleep w = true
    · simp only [hst, run_bind, run_get, if_pos hf] at hr
      refine .inl (inner (g := fun i => ⟨i, RateSt.ready (C.now w + R.per) R.num, x.sleep⟩) ?_)
      rw [run_bind]; exact hr
    · refine .inr ⟨gs, e, cur, hi.periods, hlen, ?_⟩
      rw [← hsl]; simpa using hf

/-- **C08, refresh.** The refusal ends: it is limited by the latest period's end `e ≤ (last operation) + per`, and
once a timer with that deadline has fired and the inner service is ready, `poll_ready` returns `Ready(Ok)`: the limiter adds
no other refusal. -/
theorem C08_refresh {C : Clock W} {R : Rate} {S : Service W Req Res Err} (hnum : 0 < R.num) (hper : 0 < R.per)
    {x : RateState S.σ} {t : Nat} {calls : List Nat} (h : RateHist C R S x t calls) :
    ∃ e, e ≤ t + R.per ∧ ∀ w, C.fired e w = true → ∀ p i' w',
      (S.pollReady x.inner).run w = .ok (p, i') w' →
      ∃ x', ((RateLimit C R S).pollReady x).run w = .ok (p, x') w' ∧ x'.inner = i' := by
  obtain ⟨gs, e, cur, hi, he⟩ := h.inv hnum hper
  refine ⟨e, he, fun w hf p i' w' hp => ?_⟩
  rcases hi.state with ⟨m, hst, hm, hpos⟩ | ⟨hst, hsl, hlen⟩
  · refine ⟨{ x with inner := i' }, ?_, rfl⟩
    simp only [RateLimit, hst, run_bind, hp, run_pure]
  · rw [← hsl] at hf
    refine ⟨⟨i', RateSt.ready (C.now w + R.per) R.num, x.sleep⟩, ?_, rfl⟩
    simp only [RateLimit, hst, run_bind, run_get, if_pos hf, hp, run_pure]

/-- Any use of a rate limiter, with `m` calls in it. -/
inductive RateUse (C : Clock W) (R : Rate) (S : Service W Req Res Err) (x : RateState S.σ) : Nat → RateState S.σ → Prop
  | start : RateUse C R S x 0 x
  | ready {m : Nat} {y y' : RateState S.σ} {p : Poll (Except Err Unit)} {w w' : W} : RateUse C R S x m y → ((RateLimit C R S).pollReady y).run w = .ok (p, y') w' → RateUse C R S x m y'
  | call {m : Nat} {y y' : RateState S.σ} {r : Req} {f : S.φ} {w w' : W} : RateUse C R S x m y → ((RateLimit C R S).call y r).run w = .ok (f, y') w' → RateUse C R S x (m + 1) y'

/-- **C08, available again.** A limiter that refuses is polled once its timer has fired. Until `num` further calls were made, whatever else happens, it refuses nothing: every `poll_ready` is that of the inner service, and every call is passed on. -/
theorem C08_available {C : Clock W} {R : Rate} {S : Service W Req Res Err} {x x' y : RateState S.σ} {p : Poll (Except Err Unit)} {w0 w0' : W} {m : Nat}
    (hlim : x.st = .limited) (hf : C.fired x.sleep w0 = true) (hr : ((RateLimit C R S).pollReady x).run w0 = .ok (p, x') w0')
    (hu : RateUse C R S x' m y) (hm : m < R.num) :
    (∀ w p i' w', (S.pollReady y.inner).run w = .ok (p, i') w' → ∃ y', ((RateLimit C R S).pollReady y).run w = .ok (p, y') w' ∧ y'.inner = i') ∧
    (∀ r w f i' w', (S.call y.inner r).run w = .ok (f, i') w' → ∃ y', ((RateLimit C R S).call y r).run w = .ok (f, y') w' ∧ y'.inner = i') := by
  have key : ∃ u rem, y.st = .ready u rem ∧ R.num ≤ rem + m := by
    have h0 : x'.st = .ready (C.now w0 + R.per) R.num := by
      simp only [RateLimit, hlim, run_bind, run_get, if_pos hf] at hr
      cases hq : (S.pollReady x.inner).run w0 with
      | panic => simp [hq] at hr
      | spin => simp [hq] at hr
      | ok a w1 =>
        simp only [hq, run_pure, Out.ok.injEq, Prod.mk.injEq] at hr
        rw [← hr.1.2]
    clear hr
    induction hu with
    | start => exact ⟨_, _, h0, by omega⟩
    | @ready m y y' p w w' _ hr ih =>
      obtain ⟨u, rem, hst, hle⟩ := ih hm
      simp only [RateLimit, hst, run_bind] at hr
      cases hq : (S.pollReady y.inner).run w with
      | panic => simp [hq] at hr
      | spin => simp [hq] at hr
      | ok a w1 =>
        simp only [hq, run_pure, Out.ok.injEq, Prod.mk.injEq] at hr
        exact ⟨u, rem, by rw [← hr.1.2], hle⟩
    | @call m y y' r f w w' _ hr ih =>
      obtain ⟨u, rem, hst, hle⟩ := ih (by omega)
      simp only [RateLimit, run_bind, run_get, hst, rateTake] at hr
      have fin : ∀ u' rem', R.num ≤ rem' + m → (match (if rem' > 1 then some (RateSt.ready u' (rem' - 1), y.sleep) else some (.limited, u')) with
          | none => (Act.panic "service not ready; poll_ready must be called first" : Act W (S.φ × RateState S.σ))
          | some (st, sleep) => do
            let (x, i) ← S.call y.inner r
            pure (x, ⟨i, st, sleep⟩)).run w = .ok (f, y') w' → ∃ u rem, y'.st = .ready u rem ∧ R.num ≤ rem + (m + 1) := by
        intro u' rem' hle' h
        rw [if_pos (by omega)] at h
        simp only [run_bind] at h
        cases hq : (S.call y.inner r).run w with
        | panic => simp [hq] at h
        | spin => simp [hq] at h
        | ok a w1 =>
          simp only [hq, run_pure, Out.ok.injEq, Prod.mk.injEq] at h
          exact ⟨u', rem' - 1, by rw [← h.1.2], by omega⟩
      by_cases hn : C.now w ≥ u
      · simp only [if_pos hn] at hr
        exact fin _ _ (by omega) hr
      · simp only [if_neg hn] at hr
        exact fin _ _ hle hr
  obtain ⟨u, rem, hst, hle⟩ := key
  constructor
  · intro w p i' w' h
    exact ⟨{ y with inner := i' }, by simp only [RateLimit, hst, run_bind, h, run_pure], rfl⟩
  · intro r w f i' w' h
    have : ∃ z, rateTake R (C.now w) y.st y.sleep = some z := by
      rw [hst]
      simp only [rateTake]
      by_cases hn : C.now w ≥ u <;> simp only [hn, if_true, if_false] <;> split <;> exact ⟨_, rfl⟩
    obtain ⟨⟨st, sl⟩, he⟩ := this
    exact ⟨⟨i', st, sl⟩, by simp only [RateLimit, run_bind, run_get, he, h, run_pure], rfl⟩

/-! ## The bound is reached; hypotheses are met -/

namespace Demo07

/-- an always ready service -/
@[reducible] def Free : Service Nat Unit Unit Unit where
  σ := Unit
  φ := Unit
  pollReady _ := pure (.ready (.ok ()), ())
  call _ _ := pure ((), ())
  poll _ := pure (.ready (.ok ()), ())
  clone := id

/-- the world is the clock; timers fire on time -/
def clk : Clock Nat := { now := id, fired := fun d w => decide (d ≤ w), sound := fun _ _ h => by simpa using h }

/-- `n` calls at time `t` before the current period ends use up `n` of the `n + m` left -/
theorem burst {R : Rate} (t e : Nat) (he : t < e) : ∀ (n m sl t0 : Nat) (calls : List Nat), t0 ≤ t →
    0 < m → RateHist clk R Free ⟨(), .ready e (n + m), sl⟩ t0 calls →
    ∃ t1, t1 ≤ t ∧ RateHist clk R Free ⟨(), .ready e m, sl⟩ t1 (calls ++ List.replicate n t) := by
  intro n
  induction n with
  | zero => intro m sl t0 calls h0 hm h; exact ⟨t0, h0, by simpa using h⟩
  | succ n ih =>
    intro m sl t0 calls h0 hm h
    have h1 : RateHist clk R Free ⟨(), .ready e (n + m), sl⟩ t (calls ++ [t]) := by
      refine RateHist.call (w := t) (w' := t) (r := ()) (f := ()) h h0 ?_
      have hn : ¬ (clk.now t ≥ e) := by simp [clk]; omega
      have hm : n + 1 + m > 1 := by omega
      have hm' : n + 1 + m - 1 = n + m := by omega
      simp only [RateLimit, run_bind, run_get, rateTake, if_neg hn, if_pos hm, hm', run_pure]
    obtain ⟨t1, h3, h2⟩ := ih m sl t (calls ++ [t]) (Nat.le_refl _) hm h1
    refine ⟨t1, h3, ?_⟩
    rw [List.append_assoc] at h2
    simpa [List.replicate_succ] using h2

/-- the last call of a period -/
theorem last {R : Rate} (t e sl t0 : Nat) (calls : List Nat) (he : t < e) (h0 : t0 ≤ t)
    (h : RateHist clk R Free ⟨(), .ready e 1, sl⟩ t0 calls) :
    RateHist clk R Free ⟨(), .limited, e⟩ t (calls ++ [t]) := by
  refine RateHist.call (w := t) (w' := t) (r := ()) (f := ()) h h0 ?_
  have hn : ¬ (clk.now t ≥ e) := by simp [clk]; omega
  simp only [RateLimit, run_bind, run_get, rateTake, if_neg hn, run_pure]
  simp

/-- a whole period's calls at time `t` -/
theorem full {R : Rate} (hnum : 0 < R.num) (t e sl t0 : Nat) (calls : List Nat) (he : t < e) (h0 : t0 ≤ t)
    (h : RateHist clk R Free ⟨(), .ready e R.num, sl⟩ t0 calls) :
    RateHist clk R Free ⟨(), .limited, e⟩ t (calls ++ List.replicate R.num t) := by
  have e1 : R.num - 1 + 1 = R.num := by omega
  obtain ⟨t1, h1, h2⟩ := burst t e he (R.num - 1) 1 sl t0 calls h0 (by omega) (by rw [e1]; exact h)
  have h3 := last t e sl t1 _ he h1 h2
  rw [List.append_assoc, ← List.replicate_succ', e1] at h3
  exact h3

/-- the timer fires at `t` -/
theorem refresh {R : Rate} (t e t0 : Nat) (calls : List Nat) (he : e ≤ t) (h0 : t0 ≤ t)
    (h : RateHist clk R Free ⟨(), .limited, e⟩ t0 calls) :
    RateHist clk R Free ⟨(), .ready (t + R.per) R.num, e⟩ t calls := by
  refine RateHist.ready (w := t) (w' := t) (p := .ready (.ok ())) h h0 ?_
  have hf : clk.fired e t = true := by simpa [clk] using he
  simp only [RateLimit, run_bind, run_get, if_pos hf, run_pure]
  rfl

/-- `num = 2`: limited until 10; polled at 12 and called once, the limiter still refuses nothing -/
example : (∀ r w f i' w', (Free.call () r).run w = .ok (f, i') w' → ∃ y', ((RateLimit clk ⟨2, 10⟩ Free).call ⟨(), .ready 22 1, 10⟩ r).run w = .ok (f, y') w' ∧ y'.inner = i') :=
  (C08_available (C := clk) (R := ⟨2, 10⟩) (S := Free) (x := ⟨(), .limited, 10⟩) (w0 := 12) (m := 1) (y := ⟨(), .ready 22 1, 10⟩) rfl rfl rfl
    (.call (S := Free) (y := ⟨(), .ready 22 2, 10⟩) (r := ()) (f := ()) (w := 13) (w' := 13) .start rfl) (by decide)).2

end Demo07

open Demo07 in
/-- **C07, tight.** For every `num ≥ 1` and `per ≥ 2` the factor `k + 1` cannot be improved for `k = 1`: there is a
history in which `2 · num` requests pass within one sliding window of length `per`. -/
theorem C07_tight (num per : Nat) (hnum : 0 < num) (hper : 2 ≤ per) :
    ∃ (x : RateState Unit) (t : Nat) (calls : List Nat) (a : Nat),
      RateHist clk ⟨num, per⟩ Free x t calls ∧ callsIn a (a + per) calls = 2 * num := by
  have h0 : RateHist clk ⟨num, per⟩ Free (RateLimit.new ⟨num, per⟩ per ()) per [] := RateHist.new (S := Free) () per
  -- one call opens the period `[per, 2 per)`; the rest of it is used at `2 per - 1`
  have key : ∃ sl, RateHist clk ⟨num, per⟩ Free ⟨(), .limited, sl⟩ (per + per + per - 1)
      (List.replicate num per ++ List.replicate num (per + per + per - 1)) ∧ sl = per + per + per := by
    have hopen : RateHist clk ⟨num, per⟩ Free ⟨(), .limited, per + per⟩ per (List.replicate num per) := by
      have : RateHist clk ⟨num, per⟩ Free
          (if num > 1 then ⟨(), .ready (per + per) (num - 1), per⟩ else ⟨(), .limited, per + per⟩) per [per] := by
        refine RateHist.call (w := per) (w' := per) (r := ()) (f := ()) h0 (Nat.le_refl _) ?_
        have hn : clk.now per ≥ per := Nat.le_refl _
        by_cases h1 : num > 1
        · simp only [RateLimit, RateLimit.new, run_bind, run_get, rateTake, if_pos hn, if_pos h1, run_pure]
          rfl
        · simp only [RateLimit, RateLimit.new, run_bind, run_get, rateTake, if_pos hn, if_neg h1, run_pure]
          rfl
      by_cases h1 : num > 1
      · rw [if_pos h1] at this
        have e1 : num - 1 = (num - 2) + 1 := by omega
        rw [e1] at this
        obtain ⟨t1, h2, h3⟩ := burst per (per + per) (by omega) (num - 2) 1 per per [per] (Nat.le_refl _) (by omega) this
        have h4 := last per (per + per) per t1 _ (by omega) h2 h3
        have : List.replicate num per = [per] ++ List.replicate (num - 2) per ++ [per] := by
          obtain ⟨n, rfl⟩ : ∃ n, num = n + 1 + 1 := ⟨num - 2, by omega⟩
          rw [List.replicate_succ, List.replicate_succ']
          simp
        rw [this]; exact h4
      · rw [if_neg h1] at this
        have : num = 1 := by omega
        subst this
        assumption
    have h5 := refresh (per + per) (per + per) per _ (Nat.le_refl _) (by omega) hopen
    exact ⟨_, full hnum (per + per + per - 1) (per + per + per) (per + per) (per + per) _ (by omega) (by omega) h5, rfl⟩
  obtain ⟨sl, h6, rfl⟩ := key
  have h7 := refresh (per + per + per) (per + per + per) (per + per + per - 1) _ (Nat.le_refl _) (by omega) h6
  have h8 := full hnum (per + per + per) (per + per + per + per) (per + per + per) (per + per + per) _ (by omega) (by omega) h7
  refine ⟨_, _, _, per + per + per - 1, h8, ?_⟩
  simp only [callsIn, List.countP_append, List.countP_replicate]
  have c1 : ¬ (per + per + per - 1 ≤ per) := by omega
  have c2 : per + per + per - 1 < per + per + per - 1 + per := by omega
  have c3 : per + per + per - 1 ≤ per + per + per := by omega
  have c4 : per + per + per < per + per + per - 1 + per := by omega
  simp [c1, c2, c3, c4]
  omega

end Tower
