import Verif.Props.C07_RateLimit
import Verif.Props.C09_LoadShed

/-! # C96: load shed over a rate limit

`ServiceBuilder::new().load_shed().rate_limit(num, per)`: requests above the rate are answered `Overloaded` instead of waiting. The stack is not `Clone`, as `RateLimit` is not. -/

set_option linter.unusedSimpArgs false

namespace Tower
open Act
variable {W Req Res Err : Type}

/-! ## Specification -/

/-- `LoadShed<RateLimit<S>>`, `tower/src/builder/mod.rs:220-222, 251-257` -/
abbrev ShedRate (C : Clock W) (R : Rate) (S : Service W Req Res Err) : Service W Req Res (ShedErr Err) := LoadShed (RateLimit C R S)

/-- Histories of the stack: the state, the time of the last operation, and the times at which a request was passed on to the service inside. The user calls and polls as it likes: it may also call without `poll_ready`, and go on after
an error. Time does not go back; timers may fire late. -/
inductive ShedRateHist (C : Clock W) (R : Rate) (S : Service W Req Res Err) : (ShedRate C R S).σ → Nat → List Nat → Prop
  | new (i : S.σ) (t : Nat) : ShedRateHist C R S ⟨RateLimit.new R t i, false⟩ t []
  | ready {x x' : (ShedRate C R S).σ} {t : Nat} {calls : List Nat} {w w' : W} {p : Poll (Except (ShedErr Err) Unit)} : ShedRateHist C R S x t calls → t ≤ C.now w →
      ((ShedRate C R S).pollReady x).run w = .ok (p, x') w' → ShedRateHist C R S x' (C.now w) calls
  | admitted {x x' : (ShedRate C R S).σ} {t : Nat} {calls : List Nat} {w w' : W} {r : Req} {f : S.φ} : ShedRateHist C R S x t calls → t ≤ C.now w →
      ((ShedRate C R S).call x r).run w = .ok (some f, x') w' → ShedRateHist C R S x' (C.now w) (calls ++ [C.now w])
  | shed {x x' : (ShedRate C R S).σ} {t : Nat} {calls : List Nat} {w w' : W} {r : Req} : ShedRateHist C R S x t calls → t ≤ C.now w →
      ((ShedRate C R S).call x r).run w = .ok (none, x') w' → ShedRateHist C R S x' (C.now w) calls

/-- how many of the calls were made in the last `per` before `now`, that is, after `now - per` -/
def recent (per now : Nat) (calls : List Nat) : Nat := calls.countP (fun c => decide (now < c + per))

/-- timers fire on time -/
def Clock.Punctual (C : Clock W) : Prop := ∀ d w, d ≤ C.now w → C.fired d w = true

/-! ## Proofs -/

variable {C : Clock W} {R : Rate} {S : Service W Req Res Err}

theorem shed_ready_run {T : Service W Req Res Err} {x x' : (LoadShed T).σ} {w w' : W} {p : Poll (Except (ShedErr Err) Unit)} (h : ((LoadShed T).pollReady x).run w = .ok (p, x') w') :
    ∃ q i, (T.pollReady x.inner).run w = .ok (q, i) w' ∧ x'.inner = i ∧ x'.isReady = (match q with | .ready (.ok _) => true | .pending => false | .ready (.error _) => x.isReady) := by
  simp only [LoadShed, run_bind] at h
  cases hp : (T.pollReady x.inner).run w with
  | panic m => simp [hp] at h
  | spin => simp [hp] at h
  | ok a v =>
    obtain ⟨q, i⟩ := a
    match q with
    | .pending => simp only [hp, run_pure] at h; cases h; exact ⟨_, _, rfl, rfl, rfl⟩
    | .ready (.ok ()) => simp only [hp, run_pure] at h; cases h; exact ⟨_, _, rfl, rfl, rfl⟩
    | .ready (.error e) => simp only [hp, run_pure] at h; cases h; exact ⟨_, _, rfl, rfl, rfl⟩

theorem shed_call_run {T : Service W Req Res Err} {x x' : (LoadShed T).σ} {w w' : W} {r : Req} {f : Option T.φ} (h : ((LoadShed T).call x r).run w = .ok (f, x') w') :
    (x.isReady = false ∧ f = none ∧ x' = x ∧ w' = w) ∨ ∃ g i, x.isReady = true ∧ f = some g ∧ (T.call x.inner r).run w = .ok (g, i) w' ∧ x' = ⟨i, false⟩ := by
  simp only [LoadShed] at h
  split at h
  · rename_i hr
    simp only [run_bind] at h
    cases hc : (T.call x.inner r).run w with
    | panic m => simp [hc] at h
    | spin => simp [hc] at h
    | ok a v => simp only [hc, run_pure] at h; cases h; exact .inr ⟨_, _, hr, rfl, rfl, rfl⟩
  · rename_i hr
    simp only [run_pure] at h
    cases h
    exact .inl ⟨by simpa using hr, rfl, rfl, rfl⟩

/-- after a `poll_ready` that was not pending, the rate limit is not in `State::Limited` -/
theorem rate_ready_state {x x' : RateState S.σ} {w w' : W} {v : Except Err Unit} (h : ((RateLimit C R S).pollReady x).run w = .ok (.ready v, x') w') : x'.st ≠ .limited := by
  simp only [RateLimit] at h
  split at h
  · rename_i u m hst
    simp only [run_bind] at h
    cases hp : (S.pollReady x.inner).run w with
    | panic m => simp [hp] at h
    | spin => simp [hp] at h
    | ok a v => simp only [hp, run_pure, Out.ok.injEq, Prod.mk.injEq] at h; rw [← h.1.2]; simp [hst]
  · simp only [run_bind, run_get] at h
    split at h
    · simp only [run_bind, run_get] at h
      cases hp : (S.pollReady x.inner).run w with
      | panic m => simp [hp] at h
      | spin => simp [hp] at h
      | ok a v => simp only [hp, run_pure, Out.ok.injEq, Prod.mk.injEq] at h; rw [← h.1.2]; simp
    · simp only [run_bind, run_modify, run_pure] at h; cases h

/-- no `poll_ready` takes the current period away -/
theorem rate_keeps_state {x x' : RateState S.σ} {w w' : W} {q : Poll (Except Err Unit)} (hx : x.st ≠ .limited) (h : ((RateLimit C R S).pollReady x).run w = .ok (q, x') w') : x'.st ≠ .limited := by
  simp only [RateLimit] at h
  split at h
  · rename_i u m hst
    simp only [run_bind] at h
    cases hp : (S.pollReady x.inner).run w with
    | panic m => simp [hp] at h
    | spin => simp [hp] at h
    | ok a v => simp only [hp, run_pure, Out.ok.injEq, Prod.mk.injEq] at h; rw [← h.1.2]; simp [hst]
  · rename_i hst; exact absurd hst hx

theorem ShedRateHist.inv {x : (ShedRate C R S).σ} {t : Nat} {calls : List Nat} (h : ShedRateHist C R S x t calls) :
    (∃ t', t' ≤ t ∧ RateHist C R S x.inner t' calls) ∧ (x.isReady = true → x.inner.st ≠ .limited) := by
  induction h with
  | new i t => exact ⟨⟨t, Nat.le_refl t, .new i t⟩, by intro h; cases h⟩
  | @ready x x' t calls w w' p _ ht hr ih =>
    obtain ⟨⟨t', h1, h2⟩, h3⟩ := ih
    obtain ⟨q, i, h4, h5, h6⟩ := shed_ready_run hr
    refine ⟨⟨_, Nat.le_refl _, ?_⟩, fun h => ?_⟩
    · rw [h5]; exact .ready h2 (by omega) h4
    · rw [h5]
      match q, h6 with
      | .pending, h6 => rw [h6] at h; cases h
      | .ready (.ok u), _ => exact rate_ready_state h4
      | .ready (.error e), _ => exact rate_ready_state h4
  | @admitted x x' t calls w w' r f _ ht hr ih =>
    obtain ⟨⟨t', h1, h2⟩, h3⟩ := ih
    rcases shed_call_run hr with ⟨_, h, _⟩ | ⟨g, i, h4, h5, h6, rfl⟩
    · cases h
    · exact ⟨⟨_, Nat.le_refl _, .call h2 (by omega) h6⟩, by intro h; cases h⟩
  | @shed x x' t calls w w' r _ ht hr ih =>
    obtain ⟨⟨t', h1, h2⟩, h3⟩ := ih
    rcases shed_call_run hr with ⟨h4, _, rfl, rfl⟩ | ⟨g, i, _, h, _⟩
    · exact ⟨⟨t', by omega, h2⟩, h3⟩
    · cases h

theorem Periods.recent {gs : List (Nat × List Nat)} {e : Nat} {cur calls : List Nat} (h : Periods R (gs ++ [(e, cur)]) calls) {now : Nat} (hn : now < e) : cur.length ≤ recent R.per now calls := by
  rw [h.all]
  simp only [Tower.recent, List.flatMap_append, List.countP_append]
  have : cur.countP (fun c => decide (now < c + R.per)) = cur.length := by
    rw [List.countP_eq_length]
    intro c hc
    have := h.inside (e, cur) (by simp) c hc
    simp only [decide_eq_true_eq]
    simp only at this
    omega
  simp [this]

/-! ## Theorems -/

/-- **C96, the rate is kept** whatever the user does, also if it calls without asking first: at most `(k+1) · num` requests reach the service inside in any window of length `k · per`. -/
theorem C96_bound (hnum : 0 < R.num) (hper : 0 < R.per) {x : (ShedRate C R S).σ} {t : Nat} {calls : List Nat} (h : ShedRateHist C R S x t calls) (a k : Nat) : callsIn a (a + k * R.per) calls ≤ (k + 1) * R.num := by
  obtain ⟨⟨t', -, h1⟩, -⟩ := h.inv
  exact C07_window hnum hper h1 a k

/-- **C96, nobody waits, and nothing panics:** `poll_ready` is never pending, and `call` panics only if that of the service inside does, even without `poll_ready`. -/
theorem C96_no_panic {x : (ShedRate C R S).σ} {t : Nat} {calls : List Nat} (h : ShedRateHist C R S x t calls) (w : W) :
    (∀ p x' w', ((ShedRate C R S).pollReady x).run w = .ok (p, x') w' → p ≠ .pending) ∧
    ∀ r m, ((ShedRate C R S).call x r).run w = .panic m → (S.call x.inner.inner r).run w = .panic m := by
  refine ⟨fun p x' w' hr => C09_never_pending _ _ _ _ _ _ hr, fun r m hr => ?_⟩
  obtain ⟨-, h3⟩ := h.inv
  unfold ShedRate LoadShed at hr
  dsimp only at hr
  split at hr
  · rename_i hx
    obtain ⟨u, k, hst⟩ : ∃ u k, x.inner.st = .ready u k := by
      cases hs : x.inner.st with
      | limited => exact absurd hs (h3 hx)
      | ready u k => exact ⟨u, k, rfl⟩
    obtain ⟨y, hy⟩ : ∃ y, rateTake R (C.now w) x.inner.st x.inner.sleep = some y := by
      rw [hst]
      simp only [rateTake]
      split <;> split <;> exact ⟨_, rfl⟩
    simp only [RateLimit, run_bind, run_get, hy] at hr
    cases hc : (S.call x.inner.inner r).run w with
    | panic m' => simp [hc] at hr; rw [hr]
    | spin => simp [hc] at hr
    | ok a v => simp [hc, run_pure] at hr
  · simp [run_pure] at hr

/-- what one round of the rate limit does, in terms of its periods -/
theorem rate_round {x : RateState S.σ} {t : Nat} {gs : List (Nat × List Nat)} {e : Nat} {cur calls : List Nat} (hi : RateInv R x t gs e cur calls) {w w' : W} {q : Poll (Except Err Unit)} {x' : RateState S.σ}
    (h : ((RateLimit C R S).pollReady x).run w = .ok (q, x') w') : (cur.length = R.num ∧ C.fired e w = false ∧ q = .pending) ∨ (¬ (cur.length = R.num ∧ C.fired e w = false) ∧ ∃ i, (S.pollReady x.inner).run w = .ok (q, i) w') := by
  simp only [RateLimit] at h
  rcases hi.state with ⟨m, hst, hm, hpos⟩ | ⟨hst, hsl, hlen⟩
  · right
    refine ⟨fun hh => by omega, ?_⟩
    simp only [hst, run_bind] at h
    cases hp : (S.pollReady x.inner).run w with
    | panic m => simp [hp] at h
    | spin => simp [hp] at h
    | ok a v => simp only [hp, run_pure, Out.ok.injEq, Prod.mk.injEq] at h; exact ⟨a.2, by rw [← h.1.1, ← h.2]⟩
  · simp only [hst, run_bind, run_get, hsl] at h
    cases hf : C.fired e w with
    | false =>
      left
      simp only [hf, Bool.false_eq_true, if_false, run_bind, run_modify, run_pure, Out.ok.injEq, Prod.mk.injEq] at h
      exact ⟨hlen, rfl, h.1.1.symm⟩
    | true =>
      right
      refine ⟨fun hh => by simp at hh, ?_⟩
      simp only [hf, if_true, run_bind, run_get] at h
      cases hp : (S.pollReady x.inner).run w with
      | panic m => simp [hp] at h
      | spin => simp [hp] at h
      | ok a v => simp only [hp, run_pure, Out.ok.injEq, Prod.mk.injEq] at h; exact ⟨a.2, by rw [← h.1.1, ← h.2]⟩

/-- **C96, what is shed.** The requests that were passed on fall into consecutive periods of at least `per`, with at most `num` in each; let `e` be the end of the last one, and `cur` the requests in it. The user asks whether the stack is
ready, and then calls it, at once or later. The request is shed exactly if the service inside was not ready when it was asked, or the period was full (`num` requests) and its timer had not fired. -/
theorem C96_exact (hnum : 0 < R.num) (hper : 0 < R.per) {x : (ShedRate C R S).σ} {t : Nat} {calls : List Nat} (h : ShedRateHist C R S x t calls) :
    ∃ gs e cur, Periods R (gs ++ [(e, cur)]) calls ∧ ∀ {w w' v v' : W} {r : Req} {f : Option S.φ} {x' x'' : (ShedRate C R S).σ},
      ((ShedRate C R S).pollReady x).run w = .ok (.ready (.ok ()), x') w' → ((ShedRate C R S).call x' r).run v = .ok (f, x'') v' →
      (f = none ↔ (∃ i, (S.pollReady x.inner.inner).run w = .ok (.pending, i) w') ∨ (cur.length = R.num ∧ C.fired e w = false)) := by
  obtain ⟨⟨t', -, h1⟩, -⟩ := h.inv
  obtain ⟨gs, e, cur, hi, -⟩ := h1.inv hnum hper
  refine ⟨gs, e, cur, hi.periods, ?_⟩
  intro w w' v v' r f x' x'' hr hc
  obtain ⟨q, i, h4, h5, h6⟩ := shed_ready_run hr
  have hne : ∀ e', q ≠ .ready (.error e') := by
    rintro e' rfl
    obtain ⟨s', hs⟩ := C09_error _ x w w' e' i h4
    rw [hr] at hs
    cases hs
  have hq : f = none ↔ q = .pending := by
    rcases shed_call_run hc with ⟨h7, h8, -⟩ | ⟨g, j, h7, h8, -⟩
    · match q, h6, hne with
      | .pending, _, _ => exact ⟨fun _ => rfl, fun _ => h8⟩
      | .ready (.ok u), h6, _ => rw [h7] at h6; cases h6
      | .ready (.error e'), _, hne => exact absurd rfl (hne e')
    · match q, h6, hne with
      | .pending, h6, _ => rw [h7] at h6; cases h6
      | .ready (.ok u), _, _ => exact ⟨fun h => (by rw [h8] at h; cases h), fun h => (by cases h)⟩
      | .ready (.error e'), _, hne => exact absurd rfl (hne e')
  rw [hq]
  rcases rate_round hi h4 with ⟨h7, h8, h9⟩ | ⟨h7, j, h8⟩
  · exact ⟨fun _ => .inr ⟨h7, h8⟩, fun _ => h9⟩
  · refine ⟨fun h => .inl ⟨j, by rw [← h]; exact h8⟩, fun h => ?_⟩
    rcases h with ⟨j', h9⟩ | h9
    · rw [h8] at h9; cases h9; rfl
    · exact absurd h9 h7

/-- **C96, forwarding and shedding.** A call of the stack either passes the request on to the service inside and returns what that returns, or it touches nothing and the request is answered `Overloaded`. -/
theorem C96_forward {x x' : (ShedRate C R S).σ} {r : Req} {v v' : W} {f : Option S.φ} (hc : ((ShedRate C R S).call x r).run v = .ok (f, x') v') :
    (f = none ∧ v' = v ∧ x' = x ∧ ∀ w ws, (ShedRate C R S).futOf.drive f (w :: ws) = .done (.error .overloaded) w ws) ∨
    ∃ g i, f = some g ∧ (S.call x.inner.inner r).run v = .ok (g, i) v' ∧ ∀ ws, (ShedRate C R S).futOf.drive f ws = (S.futOf.drive g ws).map (mapErr .inner) := by
  rcases shed_call_run hc with ⟨-, rfl, h9, h10⟩ | ⟨g, j, -, rfl, h9, -⟩
  · exact .inl ⟨rfl, h10, h9, fun _ _ => rfl⟩
  · right
    simp only [RateLimit, run_bind, run_get] at h9
    cases ht : rateTake R (C.now v) x.inner.st x.inner.sleep with
    | none => rw [ht] at h9; cases h9
    | some y =>
      obtain ⟨st, sl⟩ := y
      simp only [ht, run_bind] at h9
      cases hs : (S.call x.inner.inner r).run v with
      | panic m' => simp [hs] at h9
      | spin => simp [hs] at h9
      | ok a u =>
        simp only [hs, run_pure, Out.ok.injEq, Prod.mk.injEq] at h9
        obtain ⟨h9, rfl⟩ := h9
        injection h9 with h9 _
        refine ⟨g, a.2, rfl, by rw [← h9], fun ws => ?_⟩
        exact loadShed_drive (RateLimit C R S) g ws

/-- **C96, only the excess is shed.** If timers fire on time, and a request is shed although the service inside was ready when the stack was asked, then `num` requests were passed on in the last `per` before: nothing is shed as long as
the rate is not used up. -/
theorem C96_excess (hC : C.Punctual) (hnum : 0 < R.num) (hper : 0 < R.per) {x x' x'' : (ShedRate C R S).σ} {t : Nat} {calls : List Nat} (h : ShedRateHist C R S x t calls) {w w' v v' : W} {r : Req}
    (hr : ((ShedRate C R S).pollReady x).run w = .ok (.ready (.ok ()), x') w') (hi : ∀ i, (S.pollReady x.inner.inner).run w ≠ .ok (.pending, i) w')
    (hc : ((ShedRate C R S).call x' r).run v = .ok (none, x'') v') : R.num ≤ recent R.per (C.now w) calls := by
  obtain ⟨gs, e, cur, h1, h2⟩ := C96_exact hnum hper h
  rcases (h2 hr hc).1 rfl with ⟨i, h3⟩ | ⟨h3, h4⟩
  · exact absurd h3 (hi i)
  · have hn : C.now w < e := by
      rcases Nat.lt_or_ge (C.now w) e with hn | hn
      · exact hn
      · rw [hC e w hn] at h4; cases h4
    have := h1.recent hn
    omega

/-! ## Two requests per 10, and what becomes of five -/

namespace Demo96
open Demo07

abbrev R2 : Rate := ⟨2, 10⟩
abbrev D : Service Nat Unit Unit (ShedErr Unit) := ShedRate clk R2 Free

theorem punctual : clk.Punctual := fun d w h => by simpa [clk] using h

/-- asked and called at 3 and at 5: passed on. At 7, asked again: it is in this state. -/
def x5 : D.σ := ⟨⟨(), .limited, 13⟩, false⟩

theorem hist5 : ShedRateHist clk R2 Free x5 5 [3, 5] := by
  have h0 : ShedRateHist clk R2 Free ⟨RateLimit.new R2 0 (), false⟩ 0 [] := ShedRateHist.new (C := clk) (R := R2) (S := Free) () 0
  have h1 : ShedRateHist clk R2 Free ⟨RateLimit.new R2 0 (), true⟩ 3 [] := .ready (w := 3) (w' := 3) (p := .ready (.ok ())) h0 (by decide) rfl
  have h2 : ShedRateHist clk R2 Free ⟨⟨(), .ready 13 1, 0⟩, false⟩ 3 [3] := .admitted (w := 3) (w' := 3) (r := ()) (f := ()) h1 (by decide) rfl
  have h3 : ShedRateHist clk R2 Free ⟨⟨(), .ready 13 1, 0⟩, true⟩ 5 [3] := .ready (w := 5) (w' := 5) (p := .ready (.ok ())) h2 (by decide) rfl
  exact .admitted (w := 5) (w' := 5) (r := ()) (f := ()) h3 (by decide) rfl

/-- asked and called at 7: shed, and indeed two requests were passed on in the last 10 -/
example : 2 ≤ recent 10 7 [3, 5] :=
  C96_excess (w := (7 : Nat)) (w' := (7 : Nat)) (v := (8 : Nat)) (v' := (8 : Nat)) (r := ()) (x' := x5) (x'' := x5) punctual (by decide) (by decide) hist5 rfl (fun i h => by cases h) rfl

/-- asked at 12: still shed (and `recent` of 12 is 2); asked at 13: passed on -/
example : ((D.pollReady x5).run (12 : Nat), recent 10 12 [3, 5]) = (.ok (.ready (.ok ()), x5) (12 : Nat), 2) := rfl
example : (D.pollReady x5).run (13 : Nat) = .ok (.ready (.ok ()), ⟨⟨(), .ready 23 2, 13⟩, true⟩) (13 : Nat) := rfl

/-- a call without `poll_ready` is shed, although the rate is not used up: the user is to ask first -/
example : (D.call ⟨RateLimit.new R2 0 (), false⟩ ()).run (3 : Nat) = .ok (none, ⟨RateLimit.new R2 0 (), false⟩) (3 : Nat) := rfl

end Demo96

end Tower
