import Verif.Proof.LiveMw

/-! # Not hanging: `Reconnect`, `FutureService` -/

set_option linter.unusedSimpArgs false

namespace Tower
open Act
variable {W : Type} {F : Fairness W}

local macro "nope" : term => `((by intro hp; cases hp))

section
variable {Tgt Q R E1 E2 : Type} {S : Service W Q R E2} {M : Service W Tgt S.σ E1} {m₀ : M.σ} {t : Tgt}

theorem PolledTo.finishes {A V : Type} {poll : A → Act W (Poll V × A)} {f g : A} (h : Finishes F poll f) (hp : PolledTo poll f g) : Finishes F poll g := by
  induction hp with
  | new => exact h
  | pending _ hr ih => exact ih.pending hr

theorem PolledTo.head {A V : Type} {poll : A → Act W (Poll V × A)} {f f' g : A} {w w' : W} (hr : (poll f).run w = .ok (.pending, f') w') (hp : PolledTo poll f' g) : PolledTo poll f g := by
  induction hp with
  | new => exact .pending .new hr
  | pending _ h ih => exact .pending ih h

theorem PolledTo.reach {s₀ s s' : S.σ} (h : Reach S s₀ false s) (hp : PolledTo S.pollReady s s') : Reach S s₀ false s' := by
  induction hp with
  | new => exact h
  | pending _ hr ih => exact .pending ih hr

/-- the future was made by the maker -/
def Coming (M : Service W Tgt S.σ E1) (m₀ : M.σ) (t : Tgt) (f : M.φ) : Prop :=
  ∃ m w f0 m' w', Reach M m₀ true m ∧ (M.call m t).run w = .ok (f0, m') w' ∧ PolledTo M.poll f0 f

/-- a new connection that was only polled -/
def Fresh (S : Service W Q R E2) (M : Service W Tgt S.σ E1) (m₀ : M.σ) (t : Tgt) (s : S.σ) : Prop := ∃ s0, Made M m₀ t s0 ∧ PolledTo S.pollReady s0 s

/-- a connection -/
def Used (S : Service W Q R E2) (M : Service W Tgt S.σ E1) (m₀ : M.σ) (t : Tgt) (b : Bool) (s : S.σ) : Prop := ∃ s0, Made M m₀ t s0 ∧ Loose (Reach S s0) b s

theorem Fresh.used {s : S.σ} (h : Fresh S M m₀ t s) : Used S M m₀ t false s := by
  obtain ⟨s0, h0, hp⟩ := h
  exact ⟨s0, h0, .of (hp.reach .new)⟩

/-- what holds between the uses of a `Reconnect` -/
structure RcLive (S : Service W Q R E2) (M : Service W Tgt S.σ E1) (m₀ : M.σ) (t : Tgt) (b : Bool) (x : ReconState M.σ M.φ S.σ E1) : Prop where
  maker : ∃ c, Reach M m₀ c x.maker
  coming : ∀ f, x.st = .connecting f → Coming M m₀ t f
  used : ∀ s, x.st = .connected s → Used S M m₀ t (b && x.error.isNone) s

theorem RcLive.weak {b : Bool} {x : ReconState M.σ M.φ S.σ E1} (h : RcLive S M m₀ t b x) : RcLive S M m₀ t false x where
  maker := h.maker
  coming := h.coming
  used s hs := by
    obtain ⟨s0, h0, h1⟩ := h.used s hs
    exact ⟨s0, h0, h1.weak⟩

theorem Coming.made {f f' : M.φ} {s : S.σ} {w w' : W} (h : Coming M m₀ t f) (hr : (M.poll f).run w = .ok (.ready (.ok s), f') w') : Made M m₀ t s := by
  obtain ⟨m, v, f0, m', v', h1, h2, h3⟩ := h
  exact ⟨m, v, f0, m', v', f, w, f', w', h1, h2, h3, hr⟩

theorem Coming.pending {f f' : M.φ} {w w' : W} (h : Coming M m₀ t f) (hr : (M.poll f).run w = .ok (.pending, f') w') : Coming M m₀ t f' := by
  obtain ⟨m, v, f0, m', v', h1, h2, h3⟩ := h
  exact ⟨m, v, f0, m', v', h1, h2, h3.pending hr⟩

/-- the invariant is kept -/
theorem reconLive_keeps : ∀ (n : Nat) (x : ReconState M.σ M.φ S.σ E1) (w w' : W) (p : Poll (Except (ReconErr E1 E2) Unit)) (y : ReconState M.σ M.φ S.σ E1), RcLive S M m₀ t false x →
    (reconPoll S M t n x).run w = .ok (p, y) w' → (p = .ready (.ok ()) → RcLive S M m₀ t true y) ∧ (p = .pending → RcLive S M m₀ t false y)
  | 0, x, w, w', p, y, _, hr => by cases hr
  | n + 1, x, w, w', p, y, h, hr => by
    obtain ⟨mk, st, err⟩ := x
    obtain ⟨c, hm⟩ := h.maker
    unfold reconPoll at hr
    cases st with
    | idle =>
      obtain ⟨⟨q, m1⟩, w1, h1, h2⟩ := run_bind_eq_ok.1 hr
      match q, h1, h2 with
      | .ready (.error e), h1, h2 => cases h2; exact ⟨nope, nope⟩
      | .pending, h1, h2 => cases h2; exact ⟨nope, fun _ => ⟨⟨_, .pending hm h1⟩, nofun, nofun⟩⟩
      | .ready (.ok ()), h1, h2 =>
        obtain ⟨⟨f, m2⟩, w2, h3, h4⟩ := run_bind_eq_ok.1 h2
        refine reconLive_keeps n ⟨m2, .connecting f, err⟩ _ _ _ _ ⟨⟨_, .call (.ready hm h1) h3⟩, ?_, nofun⟩ h4
        intro f' hf; cases hf
        exact ⟨_, _, _, _, _, .ready hm h1, h3, .new⟩
    | connecting f =>
      have hc := h.coming f rfl
      obtain ⟨⟨q, f1⟩, w1, h1, h2⟩ := run_bind_eq_ok.1 hr
      match q, h1, h2 with
      | .ready (.ok s), h1, h2 =>
        refine reconLive_keeps n ⟨mk, .connected s, err⟩ _ _ _ _ ⟨h.maker, nofun, ?_⟩ h2
        intro s' hs; cases hs
        exact Fresh.used ⟨s, hc.made h1, .new⟩
      | .pending, h1, h2 =>
        cases h2
        refine ⟨nope, fun _ => ⟨h.maker, ?_, nofun⟩⟩
        intro f' hf; cases hf
        exact hc.pending h1
      | .ready (.error e), h1, h2 => cases h2; exact ⟨fun _ => ⟨h.maker, nofun, nofun⟩, nope⟩
    | connected s =>
      obtain ⟨s0, h0, c', hs, _⟩ := h.used s rfl
      obtain ⟨⟨q, s1⟩, w1, h1, h2⟩ := run_bind_eq_ok.1 hr
      match q, h1, h2 with
      | .ready (.ok ()), h1, h2 =>
        cases h2
        refine ⟨fun _ => ⟨h.maker, nofun, ?_⟩, nope⟩
        intro s' hs'; cases hs'
        exact ⟨s0, h0, true, .ready hs h1, fun _ => rfl⟩
      | .pending, h1, h2 =>
        cases h2
        refine ⟨nope, fun _ => ⟨h.maker, nofun, ?_⟩⟩
        intro s' hs'; cases hs'
        exact ⟨s0, h0, false, .pending hs h1, nope⟩
      | .ready (.error e), h1, h2 => exact reconLive_keeps n ⟨mk, .idle, err⟩ _ _ _ _ ⟨h.maker, nofun, nofun⟩ h2

/-- a new connection -/
theorem reconLive_fresh_step (hS : ∀ s, Made M m₀ t s → NeverHangs F S s) (hE : FailsNotAtOnce S M m₀ t) (n : Nat) (mk : M.σ) (err : Option E1) {s : S.σ} (h : Fresh S M m₀ t s) (w : W) :
    calm (reconPoll S M t (n + 1) ⟨mk, .connected s, err⟩) (fun r _ => r.1 = .pending → ∃ s' w1, (S.pollReady s).run w = .ok (.pending, s') w1 ∧ r.2 = ⟨mk, .connected s', err⟩ ∧ Fresh S M m₀ t s') w := by
  obtain ⟨s0, h0, hp⟩ := h
  have hf := (hS s0 h0).ready _ _ (hp.reach .new)
  unfold reconPoll
  refine calm_bind (hf.spin w) fun r w' hr => ?_
  obtain ⟨p, s'⟩ := r
  match p with
  | .ready (.ok ()) => exact nope
  | .pending => exact fun _ => ⟨s', w', hr, rfl, s0, h0, hp.pending hr⟩
  | .ready (.error e) => exact (hE _ _ _ _ _ _ h0 hp hr).elim

theorem reconLive_fresh (hS : ∀ s, Made M m₀ t s → NeverHangs F S s) (hE : FailsNotAtOnce S M m₀ t) (fuel : Nat) (mk : M.σ) (err : Option E1) {s : S.σ} (h : Fresh S M m₀ t s) :
    Finishes F (reconPoll S M t (fuel + 4)) ⟨mk, .connected s, err⟩ := by
  obtain ⟨s0, h0, hp⟩ := h
  refine ((hS s0 h0).ready _ _ (hp.reach .new)).map (fun a b => b = ⟨mk, .connected a, err⟩ ∧ Fresh S M m₀ t a) (fun a b w hk _ => ?_) ⟨rfl, s0, h0, hp⟩
  obtain ⟨rfl, hk⟩ := hk
  exact wpx_mono (reconLive_fresh_step hS hE _ mk err hk w) fun r _ hr hp => by
    obtain ⟨s', w1, h1, h2, h3⟩ := hr hp
    exact ⟨s', w1, h1, h2, h3⟩

variable (hM : NeverHangs F M m₀)
include hM

theorem Coming.finishes {f : M.φ} (h : Coming M m₀ t f) : Finishes F M.poll f := by
  obtain ⟨m, v, f0, m', v', h1, h2, h3⟩ := h
  exact PolledTo.finishes (hM.poll _ _ _ _ _ _ h1 h2) h3

/-- an attempt to connect -/
theorem reconLive_connecting_step (hS : ∀ s, Made M m₀ t s → NeverHangs F S s) (hE : FailsNotAtOnce S M m₀ t) (fuel n : Nat) (mk : M.σ) (err : Option E1) {f : M.φ} (h : Coming M m₀ t f) (w : W) :
    calm (reconPoll S M t (n + 2) ⟨mk, .connecting f, err⟩) (fun r _ => r.1 = .pending → Finishes F (reconPoll S M t (fuel + 4)) r.2 ∨
      ∃ f' w1, (M.poll f).run w = .ok (.pending, f') w1 ∧ r.2 = ⟨mk, .connecting f', err⟩ ∧ Coming M m₀ t f') w := by
  rw [reconPoll]
  refine calm_bind ((h.finishes hM).spin w) fun r w' hr => ?_
  obtain ⟨p, f'⟩ := r
  match p with
  | .ready (.error e) => exact nope
  | .pending => exact fun _ => .inr ⟨f', w', hr, rfl, h.pending hr⟩
  | .ready (.ok s) =>
    have hfr : Fresh S M m₀ t s := ⟨s, h.made hr, .new⟩
    exact wpx_mono (reconLive_fresh_step hS hE n mk err hfr w') fun r _ hr hp => by
      obtain ⟨s', w1, h1, h2, h3⟩ := hr hp
      rw [h2]; exact .inl (reconLive_fresh hS hE fuel mk err h3)

theorem reconLive_connecting (hS : ∀ s, Made M m₀ t s → NeverHangs F S s) (hE : FailsNotAtOnce S M m₀ t) (fuel : Nat) (mk : M.σ) (err : Option E1) {f : M.φ} (h : Coming M m₀ t f) :
    Finishes F (reconPoll S M t (fuel + 4)) ⟨mk, .connecting f, err⟩ := by
  refine (h.finishes hM).sim (fun a b => b = ⟨mk, .connecting a, err⟩ ∧ Coming M m₀ t a) (fun a b w hk _ => ?_) ⟨rfl, h⟩
  obtain ⟨rfl, hk⟩ := hk
  exact wpx_mono (reconLive_connecting_step hM hS hE fuel (fuel + 2) mk err hk w) fun r _ hr hp => by
    rcases hr hp with h | ⟨f', w1, h1, h2, h3⟩
    · exact .inl h
    · exact .inr ⟨f', w1, h1, h2, h3⟩

/-- no connection -/
theorem reconLive_idle_step (hS : ∀ s, Made M m₀ t s → NeverHangs F S s) (hE : FailsNotAtOnce S M m₀ t) (fuel n : Nat) (mk : M.σ) (err : Option E1) {c : Bool} (h : Reach M m₀ c mk) (w : W) :
    calm (reconPoll S M t (n + 3) ⟨mk, .idle, err⟩) (fun r _ => r.1 = .pending → Finishes F (reconPoll S M t (fuel + 4)) r.2 ∨
      ∃ m' w1, (M.pollReady mk).run w = .ok (.pending, m') w1 ∧ r.2 = ⟨m', .idle, err⟩ ∧ ∃ c, Reach M m₀ c m') w := by
  rw [reconPoll]
  refine calm_bind ((hM.ready _ _ h).spin w) fun r w' hr => ?_
  obtain ⟨p, m'⟩ := r
  match p with
  | .ready (.error e) => exact nope
  | .pending => exact fun _ => .inr ⟨m', w', hr, rfl, _, .pending h hr⟩
  | .ready (.ok ()) =>
    refine calm_bind (hM.call _ _ _ (.ready h hr)) fun r w2 hr2 => ?_
    have hc : Coming M m₀ t r.1 := ⟨_, _, _, _, _, .ready h hr, hr2, .new⟩
    exact wpx_mono (reconLive_connecting_step hM hS hE fuel n r.2 err hc w2) fun r _ hr hp => by
      rcases hr hp with h | ⟨f', w1, h1, h2, h3⟩
      · exact .inl h
      · rw [h2]; exact .inl (reconLive_connecting hM hS hE fuel _ err h3)

theorem reconLive_idle (hS : ∀ s, Made M m₀ t s → NeverHangs F S s) (hE : FailsNotAtOnce S M m₀ t) (fuel : Nat) (mk : M.σ) (err : Option E1) {c : Bool} (h : Reach M m₀ c mk) :
    Finishes F (reconPoll S M t (fuel + 4)) ⟨mk, .idle, err⟩ := by
  refine (hM.ready _ _ h).sim (fun a b => b = ⟨a, .idle, err⟩ ∧ ∃ c, Reach M m₀ c a) (fun a b w hk _ => ?_) ⟨rfl, c, h⟩
  obtain ⟨rfl, c, hk⟩ := hk
  exact wpx_mono (reconLive_idle_step hM hS hE fuel (fuel + 1) a err hk w) fun r _ hr hp => by
    rcases hr hp with h | ⟨f', w1, h1, h2, h3⟩
    · exact .inl h
    · exact .inr ⟨f', w1, h1, h2, h3⟩

/-- a connection -/
theorem reconLive_connected (hS : ∀ s, Made M m₀ t s → NeverHangs F S s) (hE : FailsNotAtOnce S M m₀ t) (fuel : Nat) (mk : M.σ) (err : Option E1) {c : Bool} (h : Reach M m₀ c mk) {b : Bool} {s : S.σ}
    (hs : Used S M m₀ t b s) : Finishes F (reconPoll S M t (fuel + 4)) ⟨mk, .connected s, err⟩ := by
  obtain ⟨s0, h0, c', hs, _⟩ := hs
  refine ((hS s0 h0).ready _ _ hs).sim (fun a b => b = ⟨mk, .connected a, err⟩) (fun a b w hk hn => ?_) rfl
  subst hk
  rw [reconPoll]
  refine calm_bind hn fun r w' hr => ?_
  obtain ⟨p, s'⟩ := r
  match p with
  | .ready (.ok ()) => exact nope
  | .pending => exact fun _ => .inr ⟨s', w', hr, rfl⟩
  | .ready (.error e) =>
    exact wpx_mono (reconLive_idle_step hM hS hE fuel fuel mk err h w') fun r _ hr hp => by
      rcases hr hp with h | ⟨f', w1, h1, h2, c, h3⟩
      · exact .inl h
      · rw [h2]; exact .inl (reconLive_idle hM hS hE fuel _ err h3)

theorem Live.reconnect (hS : ∀ s, Made M m₀ t s → NeverHangs F S s) (hE : FailsNotAtOnce S M m₀ t) {fuel : Nat} (hf : 4 ≤ fuel) :
    Live F (Reconnect fuel S M t) (RcLive S M m₀ t) := by
  obtain ⟨fuel, rfl⟩ : ∃ k, fuel = k + 4 := ⟨fuel - 4, by omega⟩
  have hfin : ∀ b x, RcLive S M m₀ t b x → Finishes F (reconPoll S M t (fuel + 4)) x := by
    rintro b ⟨mk, st, err⟩ h
    obtain ⟨c, hm⟩ := h.maker
    cases st with
    | idle => exact reconLive_idle hM hS hE fuel mk err hm
    | connecting f => exact reconLive_connecting hM hS hE fuel mk err (h.coming f rfl)
    | connected s => exact reconLive_connected hM hS hE fuel mk err hm (h.used s rfl)
  refine Live.of hfin (fun b x w h => ?_) (fun x r w h => ?_) (fun _ _ h => h.weak)
  · exact calm_of ((hfin b x h).spin w) fun a w' ha => reconLive_keeps _ _ _ _ _ _ h.weak ha
  · obtain ⟨mk, st, err⟩ := x
    cases err with
    | some e => exact ⟨Finishes.now fun w => nope, ⟨h.maker, h.coming, fun s hs => by
        obtain ⟨s0, h0, h1⟩ := h.used s hs
        exact ⟨s0, h0, h1.weak⟩⟩⟩
    | none =>
      cases st with
      | idle => exact trivial
      | connecting f => exact trivial
      | connected s =>
        obtain ⟨s0, h0, c, hs, hc⟩ := h.used s rfl
        cases hc rfl
        refine calm_bind ((hS s0 h0).call _ _ _ hs) fun a w' ha => ?_
        refine ⟨((hS s0 h0).poll _ _ _ _ _ _ hs ha).map (fun f (g : S.φ ⊕ Option E1) => g = .inl f) (fun f g w hk hn => ?_) rfl, h.maker, nofun, ?_⟩
        · subst hk
          exact calm_bind hn fun r w' hr hp => ⟨_, _, pend hr (Poll.map_pending.1 hp), rfl⟩
        · intro s' hs'; cases hs'
          exact ⟨s0, h0, .of (.call hs ha)⟩
end

section
variable {Q R E : Type} {S : Service W Q R E} {G : Fut W (Except E S.σ)}

/-- what holds of a `FutureService` -/
def FsLive (F : Fairness W) (S : Service W Q R E) (G : Fut W (Except E S.σ)) (b : Bool) : FsState G.φ S.σ → Prop
  | .future f => b = false ∧ Finishes F G.poll f ∧ ∀ g w s g' w', PolledTo G.poll f g → (G.poll g).run w = .ok (.ready (.ok s), g') w' → NeverHangs F S s
  | .service s => ∃ s0, NeverHangs F S s0 ∧ Reach S s0 b s

theorem Live.futureService (fclone : G.φ → G.φ) (hc : ∀ f, FsLive F S G false (.future f) → FsLive F S G false (.future (fclone f))) : Live F (FutureService S G fclone) (FsLive F S G) := by
  have hsvc : ∀ b (s : S.σ), FsLive F S G b (.service s) → Finishes F (FutureService S G fclone).pollReady (.service s) := by
    rintro b s ⟨s0, h0, hs⟩
    exact (h0.ready _ _ hs).map (fun a (b : FsState G.φ S.σ) => b = .service a) (fun a b w hk hn => by subst hk; exact calm_bind hn fun r w' hr hp => ⟨_, _, pend hr hp, rfl⟩) rfl
  have svcStep : ∀ b (s : S.σ) w, FsLive F S G b (.service s) → calm (do let (q, s') ← S.pollReady s; pure (q, .service s') : Act W (Poll (Except E Unit) × FsState G.φ S.σ))
      (fun r _ => ((r.1 = .ready (.ok ()) → FsLive F S G true r.2) ∧ (r.1 = .pending → FsLive F S G false r.2)) ∧ ∃ s', r.2 = .service s') w := by
    rintro b s w ⟨s0, h0, hs⟩
    refine calm_bind ((h0.ready _ _ hs).spin w) fun r w' hr => ?_
    obtain ⟨p, s'⟩ := r
    exact ⟨⟨fun hp => by cases hp; exact ⟨s0, h0, .ready hs hr⟩, fun hp => by cases hp; exact ⟨s0, h0, .pending hs hr⟩⟩, s', rfl⟩
  refine Live.of ?_ ?_ ?_ ?_
  · rintro b (f | s) h
    · obtain ⟨_, hf, hg⟩ := h
      refine hf.sim (fun a (b : FsState G.φ S.σ) => b = .future a ∧ PolledTo G.poll f a) (fun a b w hk hn => ?_) ⟨rfl, .new⟩
      obtain ⟨rfl, hk⟩ := hk
      refine calm_bind hn fun r w' hr => ?_
      obtain ⟨p, f'⟩ := r
      match p with
      | .pending => exact fun _ => .inr ⟨f', w', hr, rfl, hk.pending hr⟩
      | .ready (.error e) => exact nope
      | .ready (.ok s) =>
        have h0 := hg _ _ _ _ _ hk hr
        refine wpx_mono (svcStep false s w' ⟨s, h0, .new⟩) fun r _ hr hp => .inl ?_
        have h2 := hr.1.2 hp
        obtain ⟨s', hy⟩ := hr.2
        rw [hy] at h2 ⊢
        exact hsvc false s' h2
    · exact hsvc b s h
  · rintro b (f | s) w h
    · obtain ⟨_, hf, hg⟩ := h
      refine calm_bind (hf.spin w) fun r w' hr => ?_
      obtain ⟨p, f'⟩ := r
      match p with
      | .pending => exact ⟨nope, fun _ => ⟨rfl, hf.pending hr, fun g v s g' v' hp => hg g v s g' v' (PolledTo.head hr hp)⟩⟩
      | .ready (.error e) => exact ⟨nope, nope⟩
      | .ready (.ok s) => exact wpx_mono (svcStep false s w' ⟨s, hg _ _ _ _ _ .new hr, .new⟩) fun r _ hr => hr.1
    · exact wpx_mono (svcStep b s w h) fun r _ hr => hr.1
  · rintro (f | s) r w h
    · exact trivial
    · obtain ⟨s0, h0, hs⟩ := h
      refine calm_bind (h0.call _ _ _ hs) fun a w' ha => ⟨h0.poll _ _ _ _ _ _ hs ha, s0, h0, .call hs ha⟩
  · rintro b (f | s) h
    · exact hc f ⟨rfl, h.2⟩
    · obtain ⟨s0, h0, hs⟩ := h
      exact ⟨s0, h0, .clone hs⟩
end

end Tower
