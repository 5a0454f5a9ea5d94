import Verif.Proof.LiveMw
import Verif.Model.Hedge

/-! # Not hanging: `Retry`, `Hedge` -/

set_option linter.unusedSimpArgs false

namespace Tower
open Act
variable {W : Type} {F : Fairness W}

local macro "nope" : term => `((by intro hp; cases hp))

section
variable {Q R E : Type} {S : Service W Q R E} {I : Bool → S.σ → Prop} {P : RetryPolicy W Q R E}

/-- what holds of a response future that was not finished -/
structure RLive (F : Fairness W) (S : Service W Q R E) (P : RetryPolicy W Q R E) (I : Bool → S.σ → Prop) (x : RetryFut Q P.π S.σ S.φ P.ρ) : Prop where
  svc : ∃ c, I c x.retry.service
  called : ∀ f, x.st = .called f → Finishes F S.poll f
  waiting : ∀ ρ, x.st = .waiting ρ → Finishes F (fun ρ => Act.lift (P.wait ρ)) ρ

theorem retryStep_live (L : Live F S I) (hW : P.WaitsEnd F) {x : RetryFut Q P.π S.σ S.φ P.ρ} (h : RLive F S P I x) (w : W) :
    calm (retryStep P S x) (fun o _ => match o with
      | .inl (.pending, y) => RLive F S P I y ∧ y.retry.policy = x.retry.policy ∧ match x.st, y.st with
        | .called f, .called f' => ∃ w', (S.poll f).run w = .ok (.pending, f') w'
        | .waiting r, .waiting r' => ∃ w', (Act.lift (P.wait r)).run w = .ok (.pending, r') w'
        | .retrying, .retrying => ∃ w', (S.pollReady x.retry.service).run w = .ok (.pending, y.retry.service) w'
        | _, _ => False
      | .inl (.ready _, _) => True
      | .inr y => RLive F S P I y) w := by
  obtain ⟨req, ⟨p, s⟩, st⟩ := x
  obtain ⟨c, hI⟩ := h.svc
  cases st with
  | called f =>
    refine calm_bind ((h.called f rfl).spin w) fun r w' hr => ?_
    obtain ⟨o, f'⟩ := r
    cases o with
    | pending => exact ⟨⟨⟨c, hI⟩, fun g hg => by cases hg; exact (h.called f rfl).pending hr, nofun⟩, rfl, _, hr⟩
    | ready res =>
      cases req with
      | none => exact trivial
      | some req =>
        refine calm_bind nope fun o w2 ho => ?_
        obtain ⟨o, p', req', res'⟩ := o
        cases o with
        | none => exact trivial
        | some ρ =>
          refine ⟨⟨c, hI⟩, nofun, fun ρ' hρ => ?_⟩
          cases hρ
          rw [run_lift] at ho; injection ho with h1 h2
          exact hW p req res w' ρ p' req' res' _ (Prod.ext h1 rfl)
  | waiting r =>
    refine calm_bind nope fun o w' ho => ?_
    obtain ⟨o, r'⟩ := o
    cases o with
    | pending => exact ⟨⟨⟨c, hI⟩, nofun, fun g hg => by cases hg; exact (h.waiting r rfl).pending ho⟩, rfl, _, ho⟩
    | ready u => exact ⟨⟨c, hI⟩, nofun, nofun⟩
  | retrying =>
    refine calm_bind ((L.ready _ _ hI).spin w) fun o w' ho => ?_
    have hst := wpx_ok (L.pollReady hI w) ho
    obtain ⟨o, s'⟩ := o
    match o with
    | .pending => exact ⟨⟨⟨false, hst.2 rfl⟩, nofun, nofun⟩, rfl, _, ho⟩
    | .ready (.error e) => exact trivial
    | .ready (.ok ()) =>
      cases req with
      | none => exact trivial
      | some req =>
        refine calm_bind nope fun o w2 _ => ?_
        refine calm_bind (L.call s' req w2 (hst.1 rfl)).spin fun x w3 hx => ?_
        have := wpx_ok (L.call s' req w2 (hst.1 rfl)) hx
        exact ⟨⟨false, this.2⟩, fun g hg => by cases hg; exact this.1, nofun⟩

/-- one poll, if what it may be left in finishes -/
theorem retryPoll_live (L : Live F S I) (hW : P.WaitsEnd F) {μ : P.π → Nat} {B fuel : Nat} (hP : RetryBounded P μ B) (N : Nat)
    (hN : ∀ y, RLive F S P I y → retryRank (S := S) μ y ≤ N → Finishes F (retryPoll P S fuel) y) :
    ∀ (n : Nat) (y : RetryFut Q P.π S.σ S.φ P.ρ), RLive F S P I y → retryRank (S := S) μ y ≤ N → retryRank (S := S) μ y ≤ n → ∀ w, calm (retryPoll P S n y) (fun r _ => r.1 = .pending → Finishes F (retryPoll P S fuel) r.2) w
  | 0, y, _, _, hn, w => by
    exfalso
    unfold retryRank at hn
    split at hn <;> omega
  | n + 1, y, hy, hyN, hn, w => by
    unfold retryPoll
    have hs := retryStep_live L hW hy w
    refine calm_bind hs.spin fun o w' ho => ?_
    have h1 := wpx_ok hs ho
    match o, ho, h1 with
    | .inl (.pending, z), ho, h1 =>
      refine fun _ => hN z h1.1 (Nat.le_trans ?_ hyN)
      obtain ⟨-, h2, h3⟩ := h1
      obtain ⟨rq, ⟨p, s⟩, st⟩ := y
      obtain ⟨rq', ⟨p', s'⟩, st'⟩ := z
      cases h2
      cases st <;> cases st' <;> first | exact Nat.le_refl _ | exact h3.elim
    | .inl (.ready v, z), ho, h1 => exact nope
    | .inr z, ho, h1 =>
      have := retryStep_rank hP ho
      exact retryPoll_live L hW hP N hN n z h1 (by omega) (by omega) w'

theorem retry_finishes (L : Live F S I) (hW : P.WaitsEnd F) {μ : P.π → Nat} {B fuel : Nat} (hP : RetryBounded P μ B) (hf : 3 * B + 3 ≤ fuel) :
    ∀ (N : Nat) (y : RetryFut Q P.π S.σ S.φ P.ρ), RLive F S P I y → retryRank (S := S) μ y ≤ N → Finishes F (retryPoll P S fuel) y
  | 0, y, _, hn => by
    exfalso
    unfold retryRank at hn
    split at hn <;> omega
  | N + 1, y, hy, hn => by
    obtain ⟨fuel, rfl⟩ : ∃ k, fuel = k + 1 := ⟨fuel - 1, by omega⟩
    have ih := retry_finishes L hW hP hf N
    -- one poll: pending in the same phase, or in one from which it finishes
    have main : ∀ (x : RetryFut Q P.π S.σ S.φ P.ρ) w, RLive F S P I x → retryRank (S := S) μ x ≤ N + 1 →
        calm (retryPoll P S (fuel + 1) x) (fun r _ => r.1 = .pending → Finishes F (retryPoll P S (fuel + 1)) r.2 ∨
          (RLive F S P I r.2 ∧ r.2.retry.policy = x.retry.policy ∧ match x.st, r.2.st with
            | .called f, .called f' => ∃ w', (S.poll f).run w = .ok (.pending, f') w'
            | .waiting r, .waiting r' => ∃ w', (Act.lift (P.wait r)).run w = .ok (.pending, r') w'
            | .retrying, .retrying => ∃ w', (S.pollReady x.retry.service).run w = .ok (.pending, r.2.retry.service) w'
            | _, _ => False)) w := by
      intro x w hx hxN
      have hs := retryStep_live L hW hx w
      show calm (retryStep P S x >>= _) _ w
      refine calm_bind hs.spin fun o w' ho => ?_
      have h1 := wpx_ok hs ho
      match o, ho, h1 with
      | .inl (.pending, z), ho, h1 => exact fun _ => .inr h1
      | .inl (.ready v, z), ho, h1 => exact nope
      | .inr z, ho, h1 =>
        have h2 := retryStep_rank hP ho
        refine wpx_mono (retryPoll_live L hW hP N ih fuel z h1 (by omega) ?_ w') fun _ _ h3 hp => .inl (h3 hp)
        have := hP.top x.retry.policy
        have h4 : retryRank (S := S) μ x ≤ 3 * B + 3 := by unfold retryRank; split <;> omega
        omega
    obtain ⟨rq, ⟨p, s⟩, st⟩ := y
    cases st with
    | called f =>
      refine (hy.called f rfl).sim (fun a (b : RetryFut Q P.π S.σ S.φ P.ρ) => RLive F S P I b ∧ b.retry.policy = p ∧ b.st = .called a) (fun a b w hk _ => ?_) ⟨hy, rfl, rfl⟩
      obtain ⟨hb, hp, hst⟩ := hk
      obtain ⟨rq, ⟨p, s⟩, st⟩ := b
      cases hst; cases hp
      refine wpx_mono (main _ w hb hn) fun r _ h3 hpd => ?_
      rcases h3 hpd with h4 | ⟨h4, h5, h6⟩
      · exact .inl h4
      · obtain ⟨o, ⟨rq', ⟨p', s'⟩, st'⟩⟩ := r
        cases st' with
        | called f' => obtain ⟨w1, h6⟩ := h6; exact .inr ⟨f', w1, h6, h4, h5, rfl⟩
        | waiting _ => exact h6.elim
        | retrying => exact h6.elim
    | waiting ρ =>
      refine (hy.waiting ρ rfl).sim (fun a (b : RetryFut Q P.π S.σ S.φ P.ρ) => RLive F S P I b ∧ b.retry.policy = p ∧ b.st = .waiting a) (fun a b w hk _ => ?_) ⟨hy, rfl, rfl⟩
      obtain ⟨hb, hp, hst⟩ := hk
      obtain ⟨rq, ⟨p, s⟩, st⟩ := b
      cases hst; cases hp
      refine wpx_mono (main _ w hb hn) fun r _ h3 hpd => ?_
      rcases h3 hpd with h4 | ⟨h4, h5, h6⟩
      · exact .inl h4
      · obtain ⟨o, ⟨rq', ⟨p', s'⟩, st'⟩⟩ := r
        cases st' with
        | waiting f' => obtain ⟨w1, h6⟩ := h6; exact .inr ⟨f', w1, h6, h4, h5, rfl⟩
        | called _ => exact h6.elim
        | retrying => exact h6.elim
    | retrying =>
      obtain ⟨c, hI⟩ := hy.svc
      refine (L.ready _ _ hI).sim (fun a (b : RetryFut Q P.π S.σ S.φ P.ρ) => RLive F S P I b ∧ b.retry.policy = p ∧ b.st = .retrying ∧ b.retry.service = a) (fun a b w hk _ => ?_) ⟨hy, rfl, rfl, rfl⟩
      obtain ⟨hb, hp, hst, hsv⟩ := hk
      obtain ⟨rq, ⟨p, s⟩, st⟩ := b
      cases hst; cases hp; cases hsv
      refine wpx_mono (main _ w hb hn) fun r _ h3 hpd => ?_
      rcases h3 hpd with h4 | ⟨h4, h5, h6⟩
      · exact .inl h4
      · obtain ⟨o, ⟨rq', ⟨p', s'⟩, st'⟩⟩ := r
        cases st' with
        | retrying => obtain ⟨w1, h6⟩ := h6; exact .inr ⟨s', w1, h6, h4, h5, rfl, rfl⟩
        | waiting _ => exact h6.elim
        | called _ => exact h6.elim

theorem Live.retry (L : Live F S I) (hW : P.WaitsEnd F) {μ : P.π → Nat} {B fuel : Nat} (hP : RetryBounded P μ B) (hf : 3 * B + 3 ≤ fuel) : Live F (Retry fuel P S) (fun b s => I b s.service) := by
  refine Live.of ?_ ?_ ?_ (fun b s h => L.clone b _ h)
  · intro b s h
    exact (L.ready b _ h).map (fun a (b : RetryState P.π S.σ) => b.service = a) (fun a b w hk hs => by subst hk; exact calm_bind hs fun r w' hr hp => ⟨_, _, pend hr hp, rfl⟩) rfl
  · intro b s w h
    exact calm_bind ((L.ready b _ h).spin w) fun r w' hr => by have := wpx_ok (L.pollReady h w) hr; exact this
  · intro s r w h
    refine calm_bind nope fun o w' _ => ?_
    refine calm_bind (L.call _ r w' h).spin fun x w2 hx => ?_
    have := wpx_ok (L.call _ r w' h) hx
    exact ⟨retry_finishes L hW hP hf _ _ ⟨⟨false, L.clone _ _ this.2⟩, fun g hg => by cases hg; exact this.1, nofun⟩ (Nat.le_refl _), this.2⟩

theorem Live.latency {B : Type} (L : Live F S I) (into : E → B) (C : Clock W) (record : Nat → W → W) : Live F (Latency into C record S) I := by
  refine Live.of (fun _ _ h => L.readyMap into h) (fun _ _ w h => L.stepMap into h w) (fun s r w h => ?_) L.clone
  show calm (Act.get >>= _) _ w
  refine calm_bind nope fun o w' _ => ?_
  refine calm_bind (L.call s r w' h).spin fun x w2 hx => ?_
  have := wpx_ok (L.call s r w' h) hx
  refine ⟨this.1.map (fun a (b : Nat × S.φ) => b.2 = a) (fun a b w hk hs => ?_) rfl, this.2⟩
  subst hk
  refine calm_bind hs fun r w hr => ?_
  obtain ⟨p, y⟩ := r
  match p with
  | .pending => exact fun _ => ⟨_, _, hr, rfl⟩
  | .ready (.error e) => exact nope
  | .ready (.ok v) => exact nope

/-- a `Select` whose second service is always ready and never blocks finishes as the first one does -/
theorem Live.select {A S' : Service W Q R E} {J : Bool → A.σ → Prop} (L : Live F A J) (cloneReq : Q → W → Option Q × W) (hB : ∀ s w, ∃ w', (S'.pollReady s).run w = .ok (.ready (.ok ()), s) w')
    (hp : Prompt S') : Live F (Select cloneReq A S') (fun b s => J b s.1) := by
  refine Live.of ?_ ?_ ?_ (fun b s h => L.clone b _ h)
  · rintro b ⟨s, s'⟩ h
    refine (L.ready b s h).map (fun a (b : A.σ × S'.σ) => b.1 = a) (fun a b w hk hs => ?_) rfl
    subst hk
    refine calm_bind hs fun r w' hr => ?_
    obtain ⟨w2, h2⟩ := hB b.2 w'
    refine calm_bind (by rw [h2]; exact nope) fun r' w3 hr' => ?_
    rw [h2] at hr'; cases hr'
    obtain ⟨p, a⟩ := r
    match p with
    | .pending => exact fun _ => ⟨_, _, hr, rfl⟩
    | .ready (.error e) => exact nope
    | .ready (.ok ()) => exact nope
  · rintro b ⟨s, s'⟩ w h
    refine calm_bind ((L.ready b s h).spin w) fun r w' hr => ?_
    have hst := wpx_ok (L.pollReady h w) hr
    obtain ⟨w2, h2⟩ := hB s' w'
    refine calm_bind (by rw [h2]; exact nope) fun r' w3 hr' => ?_
    rw [h2] at hr'; cases hr'
    obtain ⟨p, a⟩ := r
    match p with
    | .pending => exact ⟨nope, fun _ => hst.2 rfl⟩
    | .ready (.error e) => exact ⟨nope, nope⟩
    | .ready (.ok ()) => exact ⟨fun _ => hst.1 rfl, nope⟩
  · rintro ⟨s, s'⟩ r w h
    have hpoll : ∀ x y, Finishes F A.poll x → Finishes F (Select cloneReq A S').poll (x, y) := by
      intro x y hx
      refine hx.map (fun a (b : A.φ × Option S'.φ) => b.1 = a) (fun a b w hk hs => ?_) rfl
      subst hk
      obtain ⟨x, y⟩ := b
      refine calm_bind hs fun r w' hr => ?_
      obtain ⟨p, a⟩ := r
      cases p with
      | ready v => exact nope
      | pending =>
        cases y with
        | none => exact fun _ => ⟨_, _, hr, rfl⟩
        | some y =>
          refine calm_bind ((hp.poll y).spin w') fun q w2 _ => ?_
          obtain ⟨q, b⟩ := q
          cases q with
          | ready v => exact nope
          | pending => exact fun _ => ⟨_, _, hr, rfl⟩
    refine calm_bind nope fun c w' _ => ?_
    cases c with
    | none =>
      refine calm_bind (L.call s r w' h).spin fun x w2 hx => ?_
      have := wpx_ok (L.call s r w' h) hx
      exact ⟨hpoll _ _ this.1, this.2⟩
    | some r' =>
      refine calm_bind ((hp.call s' r').spin w') fun y w2 _ => ?_
      refine calm_bind (L.call s r w2 h).spin fun x w3 hx => ?_
      have := wpx_ok (L.call s r w2 h) hx
      exact ⟨hpoll _ _ this.1, this.2⟩
end

end Tower
