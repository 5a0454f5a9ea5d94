import Verif.Proof.Live

/-! # Not hanging: each middleware -/

set_option linter.unusedSimpArgs false

namespace Tower
open Act
variable {W : Type} {F : Fairness W}

local macro "nope" : term => `((by intro hp; cases hp))

theorem Live.of {Req Res Err : Type} {S : Service W Req Res Err} {I : Bool → S.σ → Prop}
    (ready : ∀ b s, I b s → Finishes F S.pollReady s)
    (step : ∀ b s w, I b s → calm (S.pollReady s) (fun r _ => (r.1 = .ready (.ok ()) → I true r.2) ∧ (r.1 = .pending → I false r.2)) w)
    (call : ∀ s r w, I true s → calm (S.call s r) (fun x _ => Finishes F S.poll x.1 ∧ I false x.2) w)
    (clone : ∀ b s, I b s → I false (S.clone s)) : Live F S I where
  ready := ready
  isReady _ _ _ _ _ h hr := (wpx_ok (step _ _ _ h) hr).1 rfl
  isPending _ _ _ _ _ h hr := (wpx_ok (step _ _ _ h) hr).2 rfl
  call := call
  clone := clone

theorem Poll.map_pending {α β : Type} {f : α → β} {p : Poll α} : p.map f = .pending ↔ p = .pending := by cases p <;> simp [Poll.map]
theorem Poll.map_mapErr_ok {E E' : Type} {f : E → E'} {p : Poll (Except E Unit)} : p.map (mapErr f) = .ready (.ok ()) ↔ p = .ready (.ok ()) := by
  cases p with
  | pending => simp [Poll.map]
  | ready v => cases v <;> simp [Poll.map, mapErr]

theorem pend {α A : Type} {x : Act W (Poll α × A)} {w w' : W} {r : Poll α × A} (hr : x.run w = .ok r w') (hp : r.1 = .pending) : x.run w = .ok (.pending, r.2) w' := by
  obtain ⟨p, a⟩ := r; cases hp; exact hr

section
variable {Q Q' R R' E E' : Type} {S : Service W Q R E} {I : Bool → S.σ → Prop}

/-- `poll_ready` passed on with the error changed -/
theorem Live.readyMap (L : Live F S I) (into : E → E') {b : Bool} {s : S.σ} (h : I b s) :
    Finishes F (fun s => (do let (p, s') ← S.pollReady s; pure (p.map (mapErr into), s') : Act W (Poll (Except E' Unit) × S.σ))) s :=
  (L.ready b s h).map (fun a b => a = b) (fun a b w hk hs => by subst hk; exact calm_bind hs fun r w' hr hp => ⟨_, _, pend hr (Poll.map_pending.1 hp), rfl⟩) rfl

theorem Live.stepMap (L : Live F S I) (into : E → E') {b : Bool} {s : S.σ} (h : I b s) (w : W) :
    calm (do let (p, s') ← S.pollReady s; pure (p.map (mapErr into), s') : Act W (Poll (Except E' Unit) × S.σ)) (fun r _ => (r.1 = .ready (.ok ()) → I true r.2) ∧ (r.1 = .pending → I false r.2)) w := by
  refine calm_bind ((L.ready b s h).spin w) fun r w' hr => ?_
  have := wpx_ok (L.pollReady h w) hr
  exact ⟨fun hp => this.1 (Poll.map_mapErr_ok.1 hp), fun hp => this.2 (Poll.map_pending.1 hp)⟩

/-- futures inside `Map`, `MapOk`, `MapErr`, `ErrInto` -/
theorem Finishes.mapFut {φ A B : Type} {poll : φ → Act W (Poll A × φ)} {f : A → Act W B} (hf : ∀ a w, (f a).run w ≠ .spin) {x : φ} (h : Finishes F poll x) :
    Finishes F (mapFut poll f) (some x) := by
  refine h.map (fun a b => b = some a) (fun a b w hk hs => ?_) rfl
  subst hk
  refine calm_bind hs fun r w hr => ?_
  obtain ⟨p, a'⟩ := r
  cases p with
  | pending => exact fun _ => ⟨_, _, hr, rfl⟩
  | ready v => exact calm_bind (hf v w) fun b w' _ => nope

theorem Live.timeout (L : Live F S I) (C : Clock W) (d : Nat) : Live F (Timeout C d S) I := by
  refine Live.of (fun b s h => L.readyMap TimeoutErr.inner h) (fun b s w h => L.stepMap TimeoutErr.inner h w) (fun s r w h => ?_) L.clone
  refine calm_bind (L.call s r w h).spin fun x w' hx => ?_
  have := wpx_ok (L.call s r w h) hx
  refine ⟨this.1.map (fun a (b : S.φ × Nat) => b.1 = a) (fun a b w hk hs => ?_) rfl, this.2⟩
  subst hk
  refine calm_bind hs fun r w hr => ?_
  obtain ⟨p, y⟩ := r
  cases p with
  | ready v => exact nope
  | pending =>
    show calm (Act.get >>= _) _ w
    refine calm_bind nope fun a w' _ => ?_
    split
    · exact nope
    · exact fun _ => ⟨_, _, hr, rfl⟩

theorem Live.loadShed (L : Live F S I) : Live F (LoadShed S) (fun _ s => I s.isReady s.inner) := by
  have key : ∀ s : ShedState S.σ, I s.isReady s.inner → ∀ w, calm ((LoadShed S).pollReady s) (fun r _ => r.1 ≠ .pending ∧ (r.1 = .ready (.ok ()) → I r.2.isReady r.2.inner)) w := by
    intro s h w
    refine calm_bind ((L.ready _ _ h).spin w) fun r w' hr => ?_
    have := wpx_ok (L.pollReady h w) hr
    obtain ⟨p, i⟩ := r
    match p with
    | .ready (.error e) => exact ⟨nope, nope⟩
    | .ready (.ok ()) => exact ⟨nope, fun _ => this.1 rfl⟩
    | .pending => exact ⟨nope, fun _ => this.2 rfl⟩
  refine Live.of (fun b s h => Finishes.now fun w => wpx_mono (key s h w) fun r w' h => h.1) (fun b s w h => wpx_mono (key s h w) fun r w' h => ⟨h.2, fun hp => (h.1 hp).elim⟩) (fun s r w h => ?_)
    (fun b s h => L.clone _ _ h)
  obtain ⟨i, rd⟩ := s
  cases rd with
  | true =>
    show calm (S.call i r >>= _) _ w
    refine calm_bind (L.call i r w h).spin fun x w' hx => ?_
    have := wpx_ok (L.call i r w h) hx
    refine ⟨this.1.map (fun a (b : Option S.φ) => b = some a) (fun a b w hk hs => by subst hk; exact calm_bind hs fun r w' hr hp => ⟨_, _, pend hr (Poll.map_pending.1 hp), rfl⟩) rfl, this.2⟩
  | false => exact ⟨Finishes.now fun w => nope, h⟩

theorem Live.rateLimit (L : Live F S I) (C : Clock W) (rate : Rate) (hC : ∀ d ws, F.fair ws → ∃ n, C.fired d (ws n) = true) :
    Live F (RateLimit C rate S) (fun b s => ∃ c, I c s.inner ∧ (b = true → c = true)) := by
  have hopen : ∀ (s : RateState S.σ) u m c, s.st = .ready u m → I c s.inner → Finishes F (RateLimit C rate S).pollReady s := by
    intro s u m c hs h
    refine (L.ready _ _ h).map (fun a (b : RateState S.σ) => b.inner = a ∧ ∃ u m, b.st = .ready u m) (fun a b w hk hn => ?_) ⟨rfl, u, m, hs⟩
    obtain ⟨rfl, u, m, hb⟩ := hk
    obtain ⟨i, st, sl⟩ := b
    cases hb
    exact calm_bind hn fun r w' hr hp => ⟨_, _, pend hr hp, rfl, u, m, rfl⟩
  refine Live.of ?_ ?_ ?_ ?_
  · rintro b s ⟨c, h, hb⟩
    cases hs : s.st with
    | ready u m => exact hopen s u m c hs h
    | limited =>
      intro ws hf
      obtain ⟨n, hn⟩ := hC s.sleep ws hf
      induction n generalizing ws with
      | zero =>
        have hrun : ((RateLimit C rate S).pollReady s).run (ws 0) = ((RateLimit C rate S).pollReady { s with st := .ready (C.now (ws 0) + rate.per) rate.num }).run (ws 0) := by
          show (match s.st with | .ready _ _ => _ | .limited => _ : Act W (Poll (Except E Unit) × RateState S.σ)).run (ws 0) = _
          rw [hs]
          simp only [run_bind, run_get, hn, if_true]
          rfl
        have he := hopen { s with st := .ready (C.now (ws 0) + rate.per) rate.num } _ _ c rfl h ws hf
        cases he with
        | ready h1 => exact .ready (hrun.trans h1)
        | panics h1 => exact .panics (hrun.trans h1)
        | pending h1 h2 => exact .pending (hrun.trans h1) h2
      | succ n ih =>
        by_cases h0 : C.fired s.sleep (ws 0) = true
        · have hrun : ((RateLimit C rate S).pollReady s).run (ws 0) = ((RateLimit C rate S).pollReady { s with st := .ready (C.now (ws 0) + rate.per) rate.num }).run (ws 0) := by
            show (match s.st with | .ready _ _ => _ | .limited => _ : Act W (Poll (Except E Unit) × RateState S.σ)).run (ws 0) = _
            rw [hs]
            simp only [run_bind, run_get, h0, if_true]
            rfl
          have he := hopen { s with st := .ready (C.now (ws 0) + rate.per) rate.num } _ _ c rfl h ws hf
          cases he with
          | ready h1 => exact .ready (hrun.trans h1)
          | panics h1 => exact .panics (hrun.trans h1)
          | pending h1 h2 => exact .pending (hrun.trans h1) h2
        · refine .pending (a' := s) (w' := C.arm s.sleep (ws 0)) ?_ (ih _ (F.tail _ hf) hn)
          show (match s.st with | .ready _ _ => _ | .limited => _ : Act W (Poll (Except E Unit) × RateState S.σ)).run (ws 0) = _
          rw [hs]
          simp only [run_bind, run_get, h0]
          rfl
  · rintro b s w ⟨c, h, hb⟩
    have inner : ∀ st sl, calm (do let (p, i) ← S.pollReady s.inner; pure (p, (⟨i, st, sl⟩ : RateState S.σ)) : Act W (Poll (Except E Unit) × RateState S.σ))
        (fun r _ => (r.1 = .ready (.ok ()) → ∃ c, I c r.2.inner ∧ (true = true → c = true)) ∧ (r.1 = .pending → ∃ c, I c r.2.inner ∧ (false = true → c = true))) w := by
      intro st sl
      refine calm_bind ((L.ready _ _ h).spin w) fun r w' hr => ?_
      have := wpx_ok (L.pollReady h w) hr
      exact ⟨fun hp => ⟨true, this.1 hp, fun _ => rfl⟩, fun hp => ⟨false, this.2 hp, nope⟩⟩
    show calm (match s.st with | .ready _ _ => _ | .limited => _ : Act W (Poll (Except E Unit) × RateState S.σ)) _ w
    cases hs : s.st with
    | ready u m => exact inner (.ready u m) s.sleep
    | limited =>
      dsimp only
      refine calm_bind nope fun a w' ha => ?_
      cases ha
      split
      · refine calm_bind nope fun a w' ha => ?_
        cases ha
        exact inner _ _
      · exact ⟨nope, fun _ => ⟨c, h, nope⟩⟩
  · rintro s r w ⟨c, h, hb⟩
    cases hb rfl
    show calm (Act.get >>= _) _ w
    refine calm_bind nope fun a w' ha => ?_
    cases ha
    simp only
    split
    · exact trivial
    · refine calm_bind (L.call _ r w h).spin fun x w' hx => ?_
      have := wpx_ok (L.call _ r w h) hx
      exact ⟨this.1, false, this.2, nope⟩
  · rintro b s ⟨c, h, _⟩; exact ⟨c, h, nope⟩

theorem Live.concurrencyLimit (L : Live F S I) (debug : Bool) (V : SemView W) (hV : V.Grants F) (hn : V.NeverClosed) :
    Live F (ConcurrencyLimit debug V S) (fun b s => ∃ c, I c s.inner ∧ (b = true → c = true)) := by
  have hopen : ∀ (s : ConcState S.σ V.α) c, s.permit = true → I c s.inner → Finishes F (ConcurrencyLimit debug V S).pollReady s := by
    intro s c hs h
    refine (L.ready _ _ h).map (fun a (b : ConcState S.σ V.α) => b.inner = a ∧ b.permit = true) (fun a b w hk hn => ?_) ⟨rfl, hs⟩
    obtain ⟨rfl, hb⟩ := hk
    obtain ⟨i, sm, pm⟩ := b
    cases hb
    exact calm_bind hn fun r w' hr hp => ⟨_, _, pend hr hp, rfl, rfl⟩
  refine Live.of ?_ ?_ ?_ ?_
  · rintro b s ⟨c, h, hb⟩
    by_cases hs : s.permit = true
    · exact hopen s c hs h
    · refine (hV s.sem).sim (fun a (b : ConcState S.σ V.α) => b.sem = a ∧ b.permit = false ∧ ∃ c, I c b.inner) (fun a b w hk _ => ?_) ⟨rfl, by simpa using hs, c, h⟩
      obtain ⟨rfl, hp, c, hI⟩ := hk
      show calm (if b.permit = true then _ else _ : Act W (Poll (Except E Unit) × ConcState S.σ V.α)) _ w
      rw [if_neg (by simp [hp])]
      refine calm_bind nope fun r w' hr => ?_
      obtain ⟨p, a'⟩ := r
      cases p with
      | pending => exact fun _ => .inr ⟨a', w', hr, rfl, hp, c, hI⟩
      | ready got =>
        have hgot : got = true := by
          cases got with
          | true => rfl
          | false =>
            refine (hn b.sem w ?_).elim
            rw [run_lift] at hr
            injection hr with h1 h2
            rw [h1]
        subst hgot
        simp only [Bool.not_true, Bool.and_false, Bool.false_eq_true, if_false]
        refine calm_bind ((L.ready _ _ hI).spin w') fun r w2 hr2 => ?_
        have := wpx_ok (L.pollReady hI w') hr2
        intro hp2
        exact .inl (hopen _ false rfl (this.2 hp2))
  · rintro b s w ⟨c, h, hb⟩
    have inner : ∀ sem pm w, calm (do let (p, i) ← S.pollReady s.inner; pure (p, (⟨i, sem, pm⟩ : ConcState S.σ V.α)) : Act W (Poll (Except E Unit) × ConcState S.σ V.α))
        (fun r _ => (r.1 = .ready (.ok ()) → ∃ c, I c r.2.inner ∧ (true = true → c = true)) ∧ (r.1 = .pending → ∃ c, I c r.2.inner ∧ (false = true → c = true))) w := by
      intro sem pm w
      refine calm_bind ((L.ready _ _ h).spin w) fun r w' hr => ?_
      have := wpx_ok (L.pollReady h w) hr
      exact ⟨fun hp => ⟨true, this.1 hp, fun _ => rfl⟩, fun hp => ⟨false, this.2 hp, nope⟩⟩
    show calm (if s.permit = true then _ else _ : Act W (Poll (Except E Unit) × ConcState S.σ V.α)) _ w
    split
    · exact inner _ _ w
    · refine calm_bind nope fun r w' hr => ?_
      obtain ⟨p, a'⟩ := r
      cases p with
      | pending => exact ⟨nope, fun _ => ⟨c, h, nope⟩⟩
      | ready got =>
        dsimp only
        split
        · exact trivial
        · exact inner _ _ w'
  · rintro s r w ⟨c, h, hb⟩
    cases hb rfl
    show calm (if s.permit = true then _ else _ : Act W (S.φ × ConcState S.σ V.α)) _ w
    split
    · refine calm_bind (L.call _ r w h).spin fun x w' hx => ?_
      have := wpx_ok (L.call _ r w h) hx
      exact ⟨this.1, false, this.2, nope⟩
    · exact trivial
  · rintro b s ⟨c, h, _⟩; exact ⟨false, L.clone _ _ h, nope⟩

theorem Live.mapRequest (L : Live F S I) (f : Q' → W → Q × W) : Live F (MapRequest f S) I :=
  Live.of L.ready (fun _ _ w h => L.pollReady h w) (fun s r w h => calm_bind nope fun r' w' _ => L.call s r' w' h) L.clone

theorem Live.callSome (L : Live F S I) {poll' : Option S.φ → Act W (Poll (Except E' R') × Option S.φ)} {s : S.σ} {r : Q} {w : W} (h : I true s) (hp : ∀ x, Finishes F S.poll x → Finishes F poll' (some x)) :
    calm (do let (x, s') ← S.call s r; pure (some x, s') : Act W (Option S.φ × S.σ)) (fun x _ => Finishes F poll' x.1 ∧ I false x.2) w := by
  refine calm_bind (L.call s r w h).spin fun x w' hx => ?_
  have := wpx_ok (L.call s r w h) hx
  exact ⟨hp _ this.1, this.2⟩

theorem Live.mapResponse (L : Live F S I) (f : R → W → R' × W) : Live F (MapResponse f S) I :=
  Live.of L.ready (fun _ _ w h => L.pollReady h w) (fun s r w h => L.callSome h fun x hx => hx.mapFut (by rintro (e | v) w hh <;> cases hh)) L.clone

theorem Live.mapErr (L : Live F S I) (f : E → W → E' × W) : Live F (MapErr f S) I := by
  refine Live.of ?_ ?_ (fun s r w h => L.callSome h fun x hx => hx.mapFut (by rintro (e | v) w hh <;> cases hh)) L.clone
  · intro b s h
    refine (L.ready b s h).map (fun a b => a = b) (fun a b w hk hs => ?_) rfl
    subst hk
    refine calm_bind hs fun r w hr => ?_
    obtain ⟨p, s'⟩ := r
    match p with
    | .pending => exact fun _ => ⟨_, _, hr, rfl⟩
    | .ready (.ok ()) => exact nope
    | .ready (.error e) => exact nope
  · intro b s w h
    refine calm_bind ((L.ready b s h).spin w) fun r w' hr => ?_
    have := wpx_ok (L.pollReady h w) hr
    obtain ⟨p, s'⟩ := r
    match p with
    | .pending => exact ⟨nope, fun _ => this.2 rfl⟩
    | .ready (.ok ()) => exact ⟨fun _ => this.1 rfl, nope⟩
    | .ready (.error e) => exact ⟨nope, nope⟩

theorem Live.mapResult (L : Live F S I) (into : E → E') (f : Except E R → W → Except E' R' × W) : Live F (MapResult into f S) I :=
  Live.of (fun _ _ h => L.readyMap into h) (fun _ _ w h => L.stepMap into h w) (fun s r w h => L.callSome h fun x hx => hx.mapFut (by intro a w hh; cases hh)) L.clone

theorem Live.mapFuture (L : Live F S I) (into : E → E') (G : Fut W (Except E' R')) (f : S.φ → W → G.φ × W) (hf : ∀ x w, Finishes F S.poll x → Finishes F G.poll (f x w).1) : Live F (MapFuture into S G f) I := by
  refine Live.of (fun _ _ h => L.readyMap into h) (fun _ _ w h => L.stepMap into h w) (fun s r w h => ?_) L.clone
  refine calm_bind (L.call s r w h).spin fun x w' hx => ?_
  have := wpx_ok (L.call s r w h) hx
  exact ⟨hf _ _ this.1, this.2⟩

theorem Finishes.second {A Out : Type} {G : Fut W Out} {poll' : TwoStage A G.φ → Act W (Poll Out × TwoStage A G.φ)} (hp : ∀ g, poll' (.second g) = pollSecond G g) {g : G.φ} (h : Finishes F G.poll g) :
    Finishes F poll' (.second g) := by
  refine h.map (fun a b => b = .second a) (fun a b w hk hs => ?_) rfl
  subst hk
  rw [hp]
  refine calm_bind hs fun r w hr => ?_
  obtain ⟨p, g'⟩ := r
  cases p with
  | pending => exact fun _ => ⟨_, _, hr, rfl⟩
  | ready v => intro hh; cases hh

theorem Finishes.secondStep {A Out : Type} {G : Fut W Out} {poll' : TwoStage A G.φ → Act W (Poll Out × TwoStage A G.φ)} (hp : ∀ g, poll' (.second g) = pollSecond G g) {g : G.φ} (h : Finishes F G.poll g) (w : W) :
    calm (pollSecond (A := A) G g) (fun r _ => r.1 = .pending → Finishes F poll' r.2) w := by
  rw [← hp g]; exact (Finishes.second hp h).step w

theorem Live.thenDo (L : Live F S I) (into : E → E') (G : Fut W (Except E' R')) (f : Except E R → W → G.φ × W) (hf : ∀ v w, Finishes F G.poll (f v w).1) : Live F (Then into S G f) I := by
  refine Live.of (fun _ _ h => L.readyMap into h) (fun _ _ w h => L.stepMap into h w) (fun s r w h => ?_) L.clone
  refine calm_bind (L.call s r w h).spin fun x w' hx => ?_
  have := wpx_ok (L.call s r w h) hx
  refine ⟨this.1.sim (fun a (b : TwoStage S.φ G.φ) => b = .first a) (fun a b w hk hs => ?_) rfl, this.2⟩
  subst hk
  show calm (S.poll a >>= _) _ w
  refine calm_bind hs fun r w' hr => ?_
  obtain ⟨p, x'⟩ := r
  cases p with
  | pending => exact fun _ => .inr ⟨x', w', hr, rfl⟩
  | ready v =>
    refine calm_bind nope fun g w2 hg => ?_
    refine wpx_mono (Finishes.secondStep (poll' := (Then into S G f).poll) (fun _ => rfl) (g := g) ?_ w2) fun o w3 h3 hp => .inl (h3 hp)
    rw [run_lift] at hg; injection hg with h1 h2; rw [← h1]; exact hf v w'

theorem Live.andThen (L : Live F S I) (into : E → E') (G : Fut W (Except E' R')) (f : R → W → G.φ × W) (hf : ∀ v w, Finishes F G.poll (f v w).1) : Live F (AndThen into S G f) I := by
  refine Live.of (fun _ _ h => L.readyMap into h) (fun _ _ w h => L.stepMap into h w) (fun s r w h => ?_) L.clone
  refine calm_bind (L.call s r w h).spin fun x w' hx => ?_
  have := wpx_ok (L.call s r w h) hx
  refine ⟨this.1.sim (fun a (b : TwoStage S.φ G.φ) => b = .first a) (fun a b w hk hs => ?_) rfl, this.2⟩
  subst hk
  show calm (S.poll a >>= _) _ w
  refine calm_bind hs fun r w' hr => ?_
  obtain ⟨p, x'⟩ := r
  match p with
  | .pending => exact fun _ => .inr ⟨x', w', hr, rfl⟩
  | .ready (.error e) => exact nope
  | .ready (.ok v) =>
    refine calm_bind nope fun g w2 hg => ?_
    refine wpx_mono (Finishes.secondStep (poll' := (AndThen into S G f).poll) (fun _ => rfl) (g := g) ?_ w2) fun o w3 h3 hp => .inl (h3 hp)
    rw [run_lift] at hg; injection hg with h1 h2; rw [← h1]; exact hf v w'

/-- a handle that is ready may also be used as one that is not -/
def Loose {σ : Type} (I : Bool → σ → Prop) (b : Bool) (s : σ) : Prop := ∃ c, I c s ∧ (b = true → c = true)

theorem Loose.of {σ : Type} {I : Bool → σ → Prop} {b : Bool} {s : σ} (h : I b s) : Loose I b s := ⟨b, h, id⟩
theorem Loose.weak {σ : Type} {I : Bool → σ → Prop} {b : Bool} {s : σ} (h : Loose I b s) : Loose I false s := ⟨h.choose, h.choose_spec.1, nope⟩

theorem Live.loose (L : Live F S I) : Live F S (Loose I) where
  ready := by rintro b s ⟨c, h, _⟩; exact L.ready c s h
  isReady := by rintro b s s' w w' ⟨c, h, _⟩ hr; exact .of (L.isReady c s s' w w' h hr)
  isPending := by rintro b s s' w w' ⟨c, h, _⟩ hr; exact .of (L.isPending c s s' w w' h hr)
  call := by
    rintro s r w ⟨c, h, hc⟩
    cases hc rfl
    exact wpx_mono (L.call s r w h) fun x _ hx => ⟨hx.1, .of hx.2⟩
  clone := by rintro b s ⟨c, h, _⟩; exact .of (L.clone c s h)

theorem Live.filter {B : Type} (L : Live F S I) (hw : ∀ s, I true s → I false s) (into : E → B) (check : Q' → W → Except B Q × W) : Live F (Filter into check S) I := by
  refine Live.of (fun _ _ h => L.readyMap into h) (fun _ _ w h => L.stepMap into h w) (fun s r w h => ?_) (fun b s h => L.clone b s h)
  show calm (Act.lift _ >>= _) _ w
  refine calm_bind nope fun c w' _ => ?_
  cases c with
  | ok r' =>
    refine calm_bind (L.call s r' w' h).spin fun x w2 hx => ?_
    have := wpx_ok (L.call s r' w' h) hx
    refine ⟨(this.1.mapFut (f := fun res => (pure (Tower.mapErr into res) : Act W (Except B R))) (by intro a w hh; cases hh)).map (fun a (b : Option B ⊕ Option S.φ) => b = .inr a)
      (fun a b w hk hs => by subst hk; exact calm_bind hs fun r w' hr hp => ⟨_, _, pend hr hp, rfl⟩) rfl, this.2⟩
  | error e => exact ⟨Finishes.now fun w => nope, hw s h⟩

theorem Live.asyncFilter {B : Type} (L : Live F S I) (into : E → B) (P : Fut W (Except B Q)) (check : Q' → W → P.φ × W) (hP : ∀ r w, Finishes F P.poll (check r w).1) : Live F (AsyncFilter into P check S) I := by
  refine Live.of (fun _ _ h => L.readyMap into h) (fun _ _ w h => L.stepMap into h w) (fun s r w h => ?_) (fun b s h => L.clone b s h)
  have hwait : ∀ x, Finishes F S.poll x → Finishes F (AsyncFilter into P check S).poll (.waitResponse x) := fun x hx =>
    hx.map (fun a (b : AsyncFilterFut P.φ S.σ S.φ) => b = .waitResponse a) (fun a b w hk hs => by subst hk; exact calm_bind hs fun r w' hr hp => ⟨_, _, pend hr (Poll.map_pending.1 hp), rfl⟩) rfl
  refine calm_bind nope fun c w' hc => ?_
  refine ⟨(hP r w).sim (fun a (b : AsyncFilterFut P.φ S.σ S.φ) => b = .check a s) (fun a b w hk hs => ?_) ?_, L.clone _ _ h⟩
  · subst hk
    show calm (P.poll a >>= _) _ w
    refine calm_bind hs fun o w1 ho => ?_
    obtain ⟨p, c'⟩ := o
    match p with
    | .pending => exact fun _ => .inr ⟨_, _, ho, rfl⟩
    | .ready (.error e) => exact nope
    | .ready (.ok q) =>
      refine calm_bind (L.call s q w1 h).spin fun x w2 hx => ?_
      have := wpx_ok (L.call s q w1 h) hx
      refine calm_bind (this.1.spin w2) fun y w3 hy hp => .inl (hwait _ ?_)
      exact this.1.pending (pend hy (Poll.map_pending.1 hp))
  · rw [run_lift] at hc; injection hc with h1 _; rw [← h1]

theorem Live.either {S' : Service W Q R E} {I' : Bool → S'.σ → Prop} (L : Live F S I) (L' : Live F S' I') : Live F (Either S S') (fun b s => Sum.elim (I b) (I' b) s) := by
  refine Live.of ?_ ?_ ?_ ?_
  · rintro b (s | s) h
    · exact (L.ready b s h).map (fun a (b : S.σ ⊕ S'.σ) => b = .inl a) (fun a b w hk hs => by subst hk; exact calm_bind hs fun r w' hr hp => ⟨_, _, pend hr hp, rfl⟩) rfl
    · exact (L'.ready b s h).map (fun a (b : S.σ ⊕ S'.σ) => b = .inr a) (fun a b w hk hs => by subst hk; exact calm_bind hs fun r w' hr hp => ⟨_, _, pend hr hp, rfl⟩) rfl
  · rintro b (s | s) w h
    · exact calm_bind ((L.ready b s h).spin w) fun r w' hr => by have := wpx_ok (L.pollReady h w) hr; exact this
    · exact calm_bind ((L'.ready b s h).spin w) fun r w' hr => by have := wpx_ok (L'.pollReady h w) hr; exact this
  · rintro (s | s) r w h
    · refine calm_bind (L.call s r w h).spin fun x w' hx => ?_
      have := wpx_ok (L.call s r w h) hx
      exact ⟨this.1.map (fun a (b : S.φ ⊕ S'.φ) => b = .inl a) (fun a b w hk hs => by subst hk; exact calm_bind hs fun r w' hr hp => ⟨_, _, pend hr hp, rfl⟩) rfl, this.2⟩
    · refine calm_bind (L'.call s r w h).spin fun x w' hx => ?_
      have := wpx_ok (L'.call s r w h) hx
      exact ⟨this.1.map (fun a (b : S.φ ⊕ S'.φ) => b = .inr a) (fun a b w hk hs => by subst hk; exact calm_bind hs fun r w' hr hp => ⟨_, _, pend hr hp, rfl⟩) rfl, this.2⟩
  · rintro b (s | s) h
    · exact L.clone b s h
    · exact L'.clone b s h

theorem Live.optional (L : Live F S I) : Live F (Optional S) (fun b s => ∀ i, s = some i → I b i) := by
  refine Live.of ?_ ?_ ?_ ?_
  · rintro b (_ | s) h
    · exact Finishes.now fun w => nope
    · exact (L.ready b s (h s rfl)).map (fun a b => b = some a) (fun a b w hk hs => by subst hk; exact calm_bind hs fun r w' hr hp => ⟨_, _, pend hr (Poll.map_pending.1 hp), rfl⟩) rfl
  · rintro b (_ | s) w h
    · exact ⟨fun _ _ => nope, nope⟩
    · refine calm_bind ((L.ready b s (h s rfl)).spin w) fun r w' hr => ?_
      have := wpx_ok (L.pollReady (h s rfl) w) hr
      exact ⟨fun hp i hi => by cases hi; exact this.1 (Poll.map_mapErr_ok.1 hp), fun hp i hi => by cases hi; exact this.2 (Poll.map_pending.1 hp)⟩
  · rintro (_ | s) r w h
    · exact ⟨Finishes.now fun w => nope, fun _ => nope⟩
    · refine calm_bind (L.call s r w (h s rfl)).spin fun x w' hx => ?_
      have := wpx_ok (L.call s r w (h s rfl)) hx
      exact ⟨this.1.map (fun a b => b = some a) (fun a b w hk hs => by subst hk; exact calm_bind hs fun r w' hr hp => ⟨_, _, pend hr (Poll.map_pending.1 hp), rfl⟩) rfl, fun i hi => by cases hi; exact this.2⟩
  · rintro b (_ | s) h i hi
    · cases hi
    · cases hi; exact L.clone b s (h s rfl)

theorem Live.boxed (L : Live F S I) : Live F (BoxService S) (fun b s => I b s.val) := by
  refine Live.of ?_ ?_ ?_ (fun b s h => L.clone b _ h)
  · rintro b ⟨s⟩ h
    exact (L.ready b s h).map (fun a (b : Boxed S.σ) => b = ⟨a⟩) (fun a b w hk hs => by subst hk; exact calm_bind hs fun r w' hr hp => ⟨_, _, pend hr hp, rfl⟩) rfl
  · rintro b ⟨s⟩ w h
    exact calm_bind ((L.ready b s h).spin w) fun r w' hr => by have := wpx_ok (L.pollReady h w) hr; exact this
  · rintro ⟨s⟩ r w h
    refine calm_bind (L.call s r w h).spin fun x w' hx => ?_
    have := wpx_ok (L.call s r w h) hx
    exact ⟨this.1.map (fun a (b : Boxed S.φ) => b = ⟨a⟩) (fun a b w hk hs => by subst hk; exact calm_bind hs fun r w' hr hp => ⟨_, _, pend hr hp, rfl⟩) rfl, this.2⟩

/-- `oneshot` -/
theorem Live.oneshot (L : Live F S I) {b : Bool} {s : S.σ} (h : I b s) (r : Q) : Finishes F (Oneshot S).poll (.notReady s (some r)) := by
  have hcalled : ∀ x, Finishes F S.poll x → Finishes F (Oneshot S).poll (.called x) := by
    intro x hx
    refine hx.map (fun a (b : OneshotState S.σ Q S.φ) => b = .called a) (fun a b w hk hs => ?_) rfl
    subst hk
    refine calm_bind hs fun o w' ho => ?_
    obtain ⟨p, y⟩ := o
    match p with
    | .pending => exact fun _ => ⟨_, _, ho, rfl⟩
    | .ready (.error e) => exact nope
    | .ready (.ok v) => exact nope
  refine (L.ready b s h).sim (fun a (o : OneshotState S.σ Q S.φ) => o = .notReady a (some r) ∧ ∃ b, I b a) (fun a o w hk hs => ?_) ⟨rfl, b, h⟩
  obtain ⟨rfl, b, hI⟩ := hk
  refine calm_bind hs fun o w' ho => ?_
  have hst := wpx_ok (L.pollReady hI w) ho
  obtain ⟨p, s'⟩ := o
  match p with
  | .pending => exact fun _ => .inr ⟨_, _, ho, rfl, false, hst.2 rfl⟩
  | .ready (.error e) => exact nope
  | .ready (.ok ()) =>
    refine calm_bind (L.call s' r w' (hst.1 rfl)).spin fun x w2 hx => ?_
    have := wpx_ok (L.call s' r w' (hst.1 rfl)) hx
    refine calm_bind (this.1.spin w2) fun o w3 ho2 => ?_
    obtain ⟨p, y⟩ := o
    match p with
    | .pending => exact fun _ => .inl (hcalled _ (this.1.pending ho2))
    | .ready (.error e) => exact nope
    | .ready (.ok v) => exact nope
end

end Tower
