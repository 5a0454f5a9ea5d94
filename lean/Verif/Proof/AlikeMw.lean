import Verif.Proof.Alike
import Verif.Model.Hedge

/-! # Each middleware respects bisimulation -/

set_option linter.unusedSimpArgs false

namespace Tower
open Act
variable {W : Type}

section
variable {Q Q' R R' E E' B : Type}

/-- at least as ready -/
def Lax {σ τ : Type} (rs : Bool → σ → τ → Prop) (b : Bool) (s : σ) (t : τ) : Prop := rs true s t ∨ (b = false ∧ rs false s t)

theorem Lax.of {σ τ : Type} {rs : Bool → σ → τ → Prop} {b : Bool} {s : σ} {t : τ} (h : rs b s t) : Lax rs b s t := by
  cases b
  · exact .inr ⟨rfl, h⟩
  · exact .inl h

theorem Lax.some {σ τ : Type} {rs : Bool → σ → τ → Prop} {b : Bool} {s : σ} {t : τ} (h : Lax rs b s t) : ∃ b', rs b' s t := by
  rcases h with h | ⟨_, h⟩
  · exact ⟨_, h⟩
  · exact ⟨_, h⟩

theorem Lax.tt {σ τ : Type} {rs : Bool → σ → τ → Prop} {s : σ} {t : τ} (h : Lax rs true s t) : rs true s t := by
  rcases h with h | ⟨h, _⟩
  · exact h
  · cases h

theorem Lax.ff {σ τ : Type} {rs : Bool → σ → τ → Prop} {b : Bool} {s : σ} {t : τ} (h : Lax rs b s t) : Lax rs false s t := by
  rcases h with h | ⟨_, h⟩
  · exact .inl h
  · exact .inr ⟨rfl, h⟩

theorem ReadyRel.map {σ τ σ' τ' : Type} {rs : Bool → σ → τ → Prop} {rs' : Bool → σ' → τ' → Prop} {p q : Poll (Except E Unit)} {s : σ} {t : τ} {s' : σ'} {t' : τ'} (f : E → E')
    (h : ReadyRel rs (p, s) (q, t)) (h' : ∀ b, rs b s t → rs' b s' t') : ReadyRel rs' (p.map (mapErr f), s') (q.map (mapErr f), t') := by
  obtain ⟨h1, h2, h3⟩ := h
  dsimp only at h1 h2 h3; subst h1
  refine ⟨rfl, fun hp => h' _ (h2 ?_), fun hp => h' _ (h3 ?_)⟩
  · match p, hp with
    | .ready (.ok ()), _ => rfl
  · match p, hp with
    | .pending, _ => rfl

theorem ReadyRel.imp {σ τ σ' τ' : Type} {rs : Bool → σ → τ → Prop} {rs' : Bool → σ' → τ' → Prop} {p q : Poll (Except E Unit)} {s : σ} {t : τ} {s' : σ'} {t' : τ'}
    (h : ReadyRel rs (p, s) (q, t)) (h' : ∀ b, rs b s t → rs' b s' t') : ReadyRel rs' (p, s') (q, t') := by
  obtain ⟨h1, h2, h3⟩ := h
  exact ⟨h1, fun hp => h' _ (h2 hp), fun hp => h' _ (h3 hp)⟩

theorem PollRel.map {φ ψ φ' ψ' A A' : Type} {rf : φ → ψ → Prop} {rf' : φ' → ψ' → Prop} {p q : Poll A} {x : φ} {y : ψ} {x' : φ'} {y' : ψ'} (f : A → A')
    (h : PollRel rf (p, x) (q, y)) (h' : rf x y → rf' x' y') : PollRel rf' (p.map f, x') (q.map f, y') := by
  obtain ⟨h1, h2⟩ := h
  dsimp only at h1 h2; subst h1
  refine ⟨rfl, fun hp => h' (h2 ?_)⟩
  match p, hp with
  | .pending, _ => rfl

theorem PollRel.imp {φ ψ φ' ψ' A : Type} {rf : φ → ψ → Prop} {rf' : φ' → ψ' → Prop} {p q : Poll A} {x : φ} {y : ψ} {x' : φ'} {y' : ψ'}
    (h : PollRel rf (p, x) (q, y)) (h' : rf x y → rf' x' y') : PollRel rf' (p, x') (q, y') :=
  ⟨h.1, fun hp => h' (h.2 hp)⟩

theorem rel_mapFut {φ ψ A A' : Type} {rf : φ → ψ → Prop} {poll : φ → Act W (Poll A × φ)} {poll' : ψ → Act W (Poll A × ψ)} (f : A → Act W A')
    (h : ∀ x y, rf x y → Rel (PollRel rf) (poll x) (poll' y)) : ∀ x y, OptRel rf x y → Rel (PollRel (OptRel rf)) (mapFut poll f x) (mapFut poll' f y) := by
  intro x y hxy
  match x, y, hxy with
  | none, none, _ => exact Rel.panic
  | some x, some y, hxy =>
    refine Rel.bind (h x y hxy) ?_
    rintro ⟨p, x'⟩ ⟨q, y'⟩ ⟨h1, h2⟩
    dsimp only at h1 h2; subst h1
    cases p with
    | pending => exact Rel.pure ⟨rfl, fun _ => h2 rfl⟩
    | ready a =>
      refine Rel.bind Rel.rfl ?_
      rintro b _ ⟨⟩
      exact Rel.pure ⟨rfl, by intro h; cases h⟩

variable {S T : Service W Q R E} {rs : Bool → S.σ → T.σ → Prop} {rf : S.φ → T.φ → Prop}

theorem Alike.call_map (A : Alike S T rs rf) {φ ψ : Type} {rf' : φ → ψ → Prop} (f : S.φ → φ) (g : T.φ → ψ) (h : ∀ x y, rf x y → rf' (f x) (g y))
    {σ τ : Type} {rs' : Bool → σ → τ → Prop} (fs : S.σ → σ) (gs : T.σ → τ) (h' : ∀ x y, rs false x y → rs' false (fs x) (gs y))
    {s : S.σ} {t : T.σ} (r : Q) (hst : rs true s t) :
    Rel (fun a b => rf' a.1 b.1 ∧ rs' false a.2 b.2) (S.call s r >>= fun a => pure (f a.1, fs a.2)) (T.call t r >>= fun a => pure (g a.1, gs a.2)) :=
  Rel.bind (A.call s t r hst) fun _ _ hab => Rel.pure ⟨h _ _ hab.1, h' _ _ hab.2⟩

theorem Alike.timeout (A : Alike S T rs rf) (C : Clock W) (d : Nat) :
    Alike (Timeout C d S) (Timeout C d T) rs (fun x y => rf x.1 y.1 ∧ x.2 = y.2) where
  ready b s t h := Rel.bind (A.ready b s t h) fun _ _ hab => Rel.pure (ReadyRel.map _ hab fun _ h => h)
  call s t r h := Rel.bind (A.call s t r h) fun _ _ hab => Rel.get fun w => Rel.pure ⟨⟨hab.1, rfl⟩, hab.2⟩
  poll := by
    rintro ⟨x, d⟩ ⟨y, d'⟩ ⟨hxy, h⟩
    dsimp only at hxy h; subst h
    refine Rel.bind (A.poll x y hxy) ?_
    rintro ⟨p, x'⟩ ⟨q, y'⟩ ⟨h1, h2⟩
    dsimp only at h1 h2; subst h1
    cases p with
    | ready v => exact Rel.pure ⟨rfl, by intro h; cases h⟩
    | pending =>
      refine Rel.get fun w => ?_
      dsimp only
      split
      · exact Rel.pure ⟨rfl, by intro h; cases h⟩
      · exact Rel.modify (Rel.pure ⟨rfl, fun _ => ⟨h2 rfl, rfl⟩⟩)
  clone := A.clone

theorem Alike.loadShed (A : Alike S T rs rf) :
    Alike (LoadShed S) (LoadShed T) (fun _ s t => s.isReady = t.isReady ∧ Lax rs s.isReady s.inner t.inner) (OptRel rf) where
  ready := by
    rintro b ⟨s, m⟩ ⟨t, m'⟩ ⟨h, hst⟩
    dsimp only at h; subst h
    obtain ⟨b', hb'⟩ := hst.some
    refine Rel.bind (A.ready b' s t hb') ?_
    rintro ⟨p, s'⟩ ⟨q, t'⟩ ⟨h1, h2, h3⟩
    dsimp only at h1 h2 h3; subst h1
    match p, h2, h3 with
    | .ready (.error e), _, _ => exact Rel.pure ⟨rfl, (by intro h; cases h), by intro h; cases h⟩
    | .ready (.ok ()), h2, _ => exact Rel.pure ⟨rfl, (fun _ => ⟨rfl, .inl (h2 rfl)⟩), by intro h; cases h⟩
    | .pending, _, h3 => exact Rel.pure ⟨rfl, (fun _ => ⟨rfl, .inr ⟨rfl, h3 rfl⟩⟩), by intro h; cases h⟩
  call := by
    rintro ⟨s, m⟩ ⟨t, m'⟩ r ⟨h, hst⟩
    dsimp only at h; subst h
    cases m with
    | true => exact Rel.bind (A.call s t r hst.tt) fun _ _ hab => Rel.pure ⟨hab.1, rfl, .inr ⟨rfl, hab.2⟩⟩
    | false => exact Rel.pure ⟨trivial, rfl, hst⟩
  poll := by
    intro x y hxy
    match x, y, hxy with
    | some x, some y, hxy => exact Rel.bind (A.poll x y hxy) fun _ _ hab => Rel.pure (PollRel.map (rf' := OptRel rf) _ hab fun h => h)
    | none, none, _ => exact Rel.pure ⟨rfl, by intro h; cases h⟩
  clone := by
    rintro b ⟨s, m⟩ ⟨t, m'⟩ ⟨h, hst⟩
    obtain ⟨b', hb'⟩ := hst.some
    exact ⟨rfl, .inr ⟨rfl, A.clone _ _ _ hb'⟩⟩

theorem Alike.rateLimit (A : Alike S T rs rf) (C : Clock W) (rate : Rate) :
    Alike (RateLimit C rate S) (RateLimit C rate T) (fun b s t => s.st = t.st ∧ s.sleep = t.sleep ∧ Lax rs b s.inner t.inner) rf where
  ready := by
    rintro b ⟨s, st, sl⟩ ⟨t, st', sl'⟩ ⟨h1, h2, hst⟩
    dsimp only at h1 h2; subst h1; subst h2
    obtain ⟨b', hb'⟩ := hst.some
    cases st with
    | ready u m => exact Rel.bind (A.ready b' s t hb') fun _ _ hab => Rel.pure (ReadyRel.imp hab fun _ h => ⟨rfl, rfl, Lax.of h⟩)
    | limited =>
      refine Rel.get fun w => ?_
      dsimp only
      split
      · exact Rel.get fun w => Rel.bind (A.ready b' s t hb') fun _ _ hab => Rel.pure (ReadyRel.imp hab fun _ h => ⟨rfl, rfl, Lax.of h⟩)
      · exact Rel.modify (Rel.pure ⟨rfl, (by intro h; cases h), fun _ => ⟨rfl, rfl, hst.ff⟩⟩)
  call := by
    rintro ⟨s, st, sl⟩ ⟨t, st', sl'⟩ r ⟨h1, h2, hst⟩
    dsimp only at h1 h2; subst h1; subst h2
    refine Rel.get fun w => ?_
    dsimp only
    split
    · exact Rel.panic
    · exact Rel.bind (A.call s t r hst.tt) fun _ _ hab => Rel.pure ⟨hab.1, rfl, rfl, Lax.of hab.2⟩
  poll := A.poll
  clone := by
    rintro b ⟨s, st, sl⟩ ⟨t, st', sl'⟩ ⟨h1, h2, hst⟩
    exact ⟨h1, h2, hst.ff⟩

theorem Alike.concurrencyLimit (A : Alike S T rs rf) (debug : Bool) (V : SemView W) :
    Alike (ConcurrencyLimit debug V S) (ConcurrencyLimit debug V T) (fun b s t => s.sem = t.sem ∧ s.permit = t.permit ∧ Lax rs b s.inner t.inner) rf where
  ready := by
    rintro b ⟨s, a, m⟩ ⟨t, a', m'⟩ ⟨h1, h2, hst⟩
    dsimp only at h1 h2; subst h1; subst h2
    obtain ⟨b', hb'⟩ := hst.some
    cases m with
    | true => exact Rel.bind (A.ready b' s t hb') fun _ _ hab => Rel.pure (ReadyRel.imp hab fun _ h => ⟨rfl, rfl, Lax.of h⟩)
    | false =>
      refine Rel.lift ?_
      rintro ⟨p, a⟩
      cases p with
      | pending => exact Rel.pure ⟨rfl, (by intro h; cases h), fun _ => ⟨rfl, rfl, hst.ff⟩⟩
      | ready got =>
        dsimp only
        split
        · exact Rel.panic
        · exact Rel.bind (A.ready b' s t hb') fun _ _ hab => Rel.pure (ReadyRel.imp hab fun _ h => ⟨rfl, rfl, Lax.of h⟩)
  call := by
    rintro ⟨s, a, m⟩ ⟨t, a', m'⟩ r ⟨h1, h2, hst⟩
    dsimp only at h1 h2; subst h1; subst h2
    cases m with
    | true => exact Rel.bind (A.call s t r hst.tt) fun _ _ hab => Rel.pure ⟨hab.1, rfl, rfl, Lax.of hab.2⟩
    | false => exact Rel.panic
  poll := A.poll
  clone := by
    rintro b ⟨s, a, m⟩ ⟨t, a', m'⟩ ⟨h1, h2, hst⟩
    obtain ⟨b', hb'⟩ := hst.some
    dsimp only at h1; subst h1
    exact ⟨rfl, rfl, Lax.of (A.clone _ _ _ hb')⟩

/-- relation of `Filter`'s futures -/
def FilterRel {φ ψ : Type} (rf : φ → ψ → Prop) : Option B ⊕ Option φ → Option B ⊕ Option ψ → Prop
  | .inl a, .inl b => a = b
  | .inr x, .inr y => OptRel rf x y
  | _, _ => False

theorem Alike.filter (A : Alike S T rs rf) (into : E → B) (check : Q' → W → Except B Q × W) :
    Alike (Filter into check S) (Filter into check T) (Lax rs) (FilterRel rf) where
  ready b s t h := by
    obtain ⟨b', hb'⟩ := h.some
    exact Rel.bind (A.ready b' s t hb') fun _ _ hab => Rel.pure (ReadyRel.map _ hab fun _ h => Lax.of h)
  call s t r h := by
    refine Rel.lift fun c => ?_
    cases c with
    | ok r' => exact Rel.bind (A.call s t r' h.tt) fun _ _ hab => Rel.pure ⟨hab.1, Lax.of hab.2⟩
    | error e => exact Rel.pure ⟨rfl, h.ff⟩
  poll x y h := by
    match x, y, h with
    | .inl (some a), .inl (some b), h =>
      cases h
      exact Rel.pure ⟨rfl, by intro h; cases h⟩
    | .inl none, .inl none, _ => exact Rel.panic
    | .inr x, .inr y, h =>
      exact Rel.bind (rel_mapFut _ A.poll x y h) fun _ _ hab => Rel.pure (PollRel.imp (rf' := FilterRel rf) hab fun h => h)
  clone b s t h := by
    obtain ⟨b', hb'⟩ := h.some
    exact Lax.of (A.clone _ _ _ hb')

/-- relation of `AsyncFilter`'s futures -/
def AFilterRel {F σ τ φ ψ : Type} (rs : Bool → σ → τ → Prop) (rf : φ → ψ → Prop) : AsyncFilterFut F σ φ → AsyncFilterFut F τ ψ → Prop
  | .check c s, .check c' t => c = c' ∧ rs true s t
  | .waitResponse x, .waitResponse y => rf x y
  | _, _ => False

theorem Alike.asyncFilter (A : Alike S T rs rf) (into : E → B) (P : Fut W (Except B Q)) (check : Q' → W → P.φ × W) :
    Alike (AsyncFilter into P check S) (AsyncFilter into P check T) rs (AFilterRel rs rf) where
  ready b s t h := Rel.bind (A.ready b s t h) fun _ _ hab => Rel.pure (ReadyRel.map _ hab fun _ h => h)
  call s t r h := Rel.lift fun c => Rel.pure ⟨⟨rfl, h⟩, A.clone _ _ _ h⟩
  poll x y h := by
    match x, y, h with
    | .check c s, .check c' t, ⟨e, h⟩ =>
      subst e
      refine Rel.bind Rel.rfl ?_
      rintro ⟨p, c'⟩ _ ⟨⟩
      match p with
      | .pending => exact Rel.pure ⟨rfl, fun _ => ⟨rfl, h⟩⟩
      | .ready (.error e) => exact Rel.pure ⟨rfl, by intro h; cases h⟩
      | .ready (.ok r) =>
        refine Rel.bind (A.call s t r h) fun a b hab => ?_
        exact Rel.bind (A.poll _ _ hab.1) fun _ _ hab => Rel.pure (PollRel.map _ hab fun h => h)
    | .waitResponse x, .waitResponse y, h => exact Rel.bind (A.poll _ _ h) fun _ _ hab => Rel.pure (PollRel.map _ hab fun h => h)
  clone := A.clone

/-- relation of the states of a retry -/
def RetryStRel {φ ψ ρ : Type} (rf : φ → ψ → Prop) : RetrySt φ ρ → RetrySt ψ ρ → Prop
  | .called f, .called g => rf f g
  | .waiting r, .waiting r' => r = r'
  | .retrying, .retrying => True
  | _, _ => False

/-- relation of retry futures -/
structure RetryRel {Req π ρ σ τ φ ψ : Type} (rs : Bool → σ → τ → Prop) (rf : φ → ψ → Prop) (x : RetryFut Req π σ φ ρ) (y : RetryFut Req π τ ψ ρ) : Prop where
  req : x.request = y.request
  pol : x.retry.policy = y.retry.policy
  svc : rs false x.retry.service y.retry.service
  st : RetryStRel rf x.st y.st

/-- relation of the outcomes of one round -/
def RoundRel {A φ ψ : Type} (rf : φ → ψ → Prop) : (Poll A × φ) ⊕ φ → (Poll A × ψ) ⊕ ψ → Prop
  | .inl a, .inl b => PollRel rf a b
  | .inr x, .inr y => rf x y
  | _, _ => False

theorem Alike.retryStep (A : Alike S T rs rf) (P : RetryPolicy W Q R E) (x : RetryFut Q P.π S.σ S.φ P.ρ) (y : RetryFut Q P.π T.σ T.φ P.ρ) (h : RetryRel rs rf x y) :
    Rel (RoundRel (RetryRel rs rf)) (retryStep P S x) (retryStep P T y) := by
  obtain ⟨req, ⟨π, s⟩, st⟩ := x
  obtain ⟨req', ⟨π', t⟩, st'⟩ := y
  obtain ⟨h1, h2, h3, h4⟩ := h
  dsimp only at h1 h2 h3 h4; subst h1; subst h2
  match st, st', h4 with
  | .called f, .called g, h4 =>
    refine Rel.bind (A.poll f g h4) ?_
    rintro ⟨p, f'⟩ ⟨q, g'⟩ ⟨h5, h6⟩
    dsimp only at h5 h6; subst h5
    cases p with
    | pending => exact Rel.pure ⟨rfl, fun _ => ⟨rfl, rfl, h3, h6 rfl⟩⟩
    | ready v =>
      cases req with
      | none => exact Rel.pure ⟨rfl, by intro h; cases h⟩
      | some r =>
        refine Rel.lift ?_
        rintro ⟨o, π', r', v'⟩
        cases o with
        | some ρ => exact Rel.pure ⟨rfl, rfl, h3, rfl⟩
        | none => exact Rel.pure ⟨rfl, by intro h; cases h⟩
  | .waiting r, .waiting r', h4 =>
    cases h4
    refine Rel.lift ?_
    rintro ⟨p, r'⟩
    cases p with
    | pending => exact Rel.pure ⟨rfl, fun _ => ⟨rfl, rfl, h3, rfl⟩⟩
    | ready u => exact Rel.pure ⟨rfl, rfl, h3, trivial⟩
  | .retrying, .retrying, _ =>
    refine Rel.bind (A.ready _ s t h3) ?_
    rintro ⟨p, s'⟩ ⟨q, t'⟩ ⟨h5, h6, h7⟩
    dsimp only at h5 h6 h7; subst h5
    match p, h6, h7 with
    | .pending, _, h7 => exact Rel.pure ⟨rfl, fun _ => ⟨rfl, rfl, h7 rfl, trivial⟩⟩
    | .ready (.error e), _, _ => exact Rel.pure ⟨rfl, by intro h; cases h⟩
    | .ready (.ok ()), h6, _ =>
      cases req with
      | none => exact Rel.panic
      | some r =>
        refine Rel.lift ?_
        rintro ⟨o, π'⟩
        exact Rel.bind (A.call s' t' r (h6 rfl)) fun a b hab => Rel.pure ⟨rfl, rfl, hab.2, hab.1⟩

theorem Alike.retryPoll (A : Alike S T rs rf) (P : RetryPolicy W Q R E) (fuel : Nat) : ∀ (x : RetryFut Q P.π S.σ S.φ P.ρ) (y : RetryFut Q P.π T.σ T.φ P.ρ), RetryRel rs rf x y →
    Rel (PollRel (RetryRel rs rf)) (retryPoll P S fuel x) (retryPoll P T fuel y) := by
  induction fuel with
  | zero => intros; exact Rel.spin
  | succ n ih =>
    intro x y h
    refine Rel.bind (A.retryStep P x y h) ?_
    intro a b hab
    match a, b, hab with
    | .inl a, .inl b, hab => exact Rel.pure hab
    | .inr x, .inr y, hab => exact ih x y hab

theorem Alike.retry (A : Alike S T rs rf) (fuel : Nat) (P : RetryPolicy W Q R E) :
    Alike (Retry fuel P S) (Retry fuel P T) (fun b s t => s.policy = t.policy ∧ rs b s.service t.service) (RetryRel rs rf) where
  ready := by
    rintro b ⟨π, s⟩ ⟨π', t⟩ ⟨h, hst⟩
    dsimp only at h; subst h
    exact Rel.bind (A.ready b s t hst) fun _ _ hab => Rel.pure (ReadyRel.imp hab fun _ h => ⟨rfl, h⟩)
  call := by
    rintro ⟨π, s⟩ ⟨π', t⟩ r ⟨h, hst⟩
    dsimp only at h; subst h
    refine Rel.lift ?_
    rintro ⟨c, π'⟩
    exact Rel.bind (A.call s t r hst) fun a b hab => Rel.pure ⟨⟨rfl, rfl, A.clone _ _ _ hab.2, hab.1⟩, rfl, hab.2⟩
  poll := A.retryPoll P fuel
  clone := by
    rintro b ⟨π, s⟩ ⟨π', t⟩ ⟨h, hst⟩
    dsimp only at h; subst h
    exact ⟨rfl, A.clone _ _ _ hst⟩

theorem Alike.mapRequest (A : Alike S T rs rf) (f : Q' → W → Q × W) : Alike (MapRequest f S) (MapRequest f T) rs rf where
  ready := A.ready
  call s t r h := Rel.lift fun r' => A.call s t r' h
  poll := A.poll
  clone := A.clone

theorem Alike.mapResponse (A : Alike S T rs rf) (f : R → W → R' × W) : Alike (MapResponse f S) (MapResponse f T) rs (OptRel rf) where
  ready := A.ready
  call s t r h := Rel.bind (A.call s t r h) fun _ _ hab => Rel.pure ⟨hab.1, hab.2⟩
  poll := rel_mapFut _ A.poll
  clone := A.clone

theorem Alike.mapErr (A : Alike S T rs rf) (f : E → W → E' × W) : Alike (MapErr f S) (MapErr f T) rs (OptRel rf) where
  ready b s t h := by
    refine Rel.bind (A.ready b s t h) ?_
    rintro ⟨p, s'⟩ ⟨q, t'⟩ ⟨h1, h2, h3⟩
    dsimp only at h1 h2 h3; subst h1
    match p, h2, h3 with
    | .pending, _, h3 => exact Rel.pure ⟨rfl, (by intro h; cases h), fun _ => h3 rfl⟩
    | .ready (.ok ()), h2, _ => exact Rel.pure ⟨rfl, (fun _ => h2 rfl), by intro h; cases h⟩
    | .ready (.error e), _, _ => exact Rel.lift fun e' => Rel.pure ⟨rfl, (by intro h; cases h), by intro h; cases h⟩
  call s t r h := Rel.bind (A.call s t r h) fun _ _ hab => Rel.pure ⟨hab.1, hab.2⟩
  poll := rel_mapFut _ A.poll
  clone := A.clone

theorem Alike.mapResult (A : Alike S T rs rf) (into : E → E') (f : Except E R → W → Except E' R' × W) : Alike (MapResult into f S) (MapResult into f T) rs (OptRel rf) where
  ready b s t h := Rel.bind (A.ready b s t h) fun _ _ hab => Rel.pure (ReadyRel.map _ hab fun _ h => h)
  call s t r h := Rel.bind (A.call s t r h) fun _ _ hab => Rel.pure ⟨hab.1, hab.2⟩
  poll := rel_mapFut _ A.poll
  clone := A.clone

theorem Alike.mapFuture (A : Alike S T rs rf) (into : E → E') {G G' : Fut W (Except E' R')} {f : S.φ → W → G.φ × W} {f' : T.φ → W → G'.φ × W}
    (hf : ∀ x y w, S.futOf.SameAs T.futOf x y → G.SameAs G' (f x w).1 (f' y w).1 ∧ (f x w).2 = (f' y w).2) :
    Alike (MapFuture into S G f) (MapFuture into T G' f') rs (G.SameAs G') where
  ready b s t h := Rel.bind (A.ready b s t h) fun _ _ hab => Rel.pure (ReadyRel.map _ hab fun _ h => h)
  call s t r h := by
    refine Rel.bind (A.call s t r h) fun a b hab => ?_
    refine Rel.bind (r := G.SameAs G') (fun w => hf _ _ w (A.futSame hab.1)) fun g g' hg => Rel.pure ⟨hg, hab.2⟩
  poll := futAlike_sameAs G G'
  clone := A.clone

/-- relation of two-stage futures -/
def StageRel {φ ψ γ : Type} (rf : φ → ψ → Prop) : TwoStage φ γ → TwoStage ψ γ → Prop
  | .first x, .first y => rf x y
  | .second g, .second g' => g = g'
  | .done, .done => True
  | _, _ => False

theorem rel_pollSecond {φ ψ Out : Type} (rf : φ → ψ → Prop) (G : Fut W Out) (g : G.φ) :
    Rel (PollRel (StageRel rf)) (pollSecond G g : Act W (Poll Out × TwoStage φ G.φ)) (pollSecond G g : Act W (Poll Out × TwoStage ψ G.φ)) := by
  refine Rel.bind Rel.rfl ?_
  rintro ⟨q, g'⟩ _ ⟨⟩
  cases q with
  | pending => exact Rel.pure ⟨rfl, fun _ => rfl⟩
  | ready v => exact Rel.pure ⟨rfl, by intro h; cases h⟩

theorem Alike.andThenAlways (A : Alike S T rs rf) (into : E → E') (G : Fut W (Except E' R')) (f : Except E R → W → G.φ × W) :
    Alike (Then into S G f) (Then into T G f) rs (StageRel rf) where
  ready b s t h := Rel.bind (A.ready b s t h) fun _ _ hab => Rel.pure (ReadyRel.map _ hab fun _ h => h)
  call s t r h := Rel.bind (A.call s t r h) fun _ _ hab => Rel.pure ⟨hab.1, hab.2⟩
  poll x y h := by
    match x, y, h with
    | .first x, .first y, h =>
      refine Rel.bind (A.poll x y h) ?_
      rintro ⟨p, x'⟩ ⟨q, y'⟩ ⟨h1, h2⟩
      dsimp only at h1 h2; subst h1
      cases p with
      | pending => exact Rel.pure ⟨rfl, fun _ => h2 rfl⟩
      | ready v => exact Rel.lift fun g => rel_pollSecond rf G g
    | .second g, .second g', h => cases h; exact rel_pollSecond rf G g
    | .done, .done, _ => exact Rel.panic
  clone := A.clone

theorem Alike.andThen (A : Alike S T rs rf) (into : E → E') (G : Fut W (Except E' R')) (f : R → W → G.φ × W) :
    Alike (AndThen into S G f) (AndThen into T G f) rs (StageRel rf) where
  ready b s t h := Rel.bind (A.ready b s t h) fun _ _ hab => Rel.pure (ReadyRel.map _ hab fun _ h => h)
  call s t r h := Rel.bind (A.call s t r h) fun _ _ hab => Rel.pure ⟨hab.1, hab.2⟩
  poll x y h := by
    match x, y, h with
    | .first x, .first y, h =>
      refine Rel.bind (A.poll x y h) ?_
      rintro ⟨p, x'⟩ ⟨q, y'⟩ ⟨h1, h2⟩
      dsimp only at h1 h2; subst h1
      match p, h2 with
      | .pending, h2 => exact Rel.pure ⟨rfl, fun _ => h2 rfl⟩
      | .ready (.error e), _ => exact Rel.pure ⟨rfl, by intro h; cases h⟩
      | .ready (.ok v), _ => exact Rel.lift fun g => rel_pollSecond rf G g
    | .second g, .second g', h => cases h; exact rel_pollSecond rf G g
    | .done, .done, _ => exact Rel.panic
  clone := A.clone

theorem Alike.boxed (A : Alike S T rs rf) : Alike (BoxService S) (BoxService T) (fun b s t => rs b s.val t.val) (fun x y => rf x.val y.val) where
  ready b s t h := Rel.bind (A.ready b _ _ h) fun _ _ hab => Rel.pure (ReadyRel.imp hab fun _ h => h)
  call s t r h := Rel.bind (A.call _ _ r h) fun _ _ hab => Rel.pure ⟨hab.1, hab.2⟩
  poll x y h := Rel.bind (A.poll _ _ h) fun _ _ hab => Rel.pure (PollRel.imp hab fun h => h)
  clone b s t h := A.clone b _ _ h

/-- relation of sums -/
def SumRel {α α' β β' : Type} (r : α → α' → Prop) (r' : β → β' → Prop) : α ⊕ β → α' ⊕ β' → Prop
  | .inl a, .inl b => r a b
  | .inr a, .inr b => r' a b
  | _, _ => False

theorem Alike.either (A : Alike S T rs rf) {S' T' : Service W Q R E} {rs' : Bool → S'.σ → T'.σ → Prop} {rf' : S'.φ → T'.φ → Prop} (A' : Alike S' T' rs' rf') :
    Alike (Either S S') (Either T T') (fun b => SumRel (rs b) (rs' b)) (SumRel rf rf') where
  ready b s t h := by
    match s, t, h with
    | .inl s, .inl t, h => exact Rel.bind (A.ready b s t h) fun _ _ hab => Rel.pure (ReadyRel.imp (rs' := fun b => SumRel (rs b) (rs' b)) hab fun _ h => h)
    | .inr s, .inr t, h => exact Rel.bind (A'.ready b s t h) fun _ _ hab => Rel.pure (ReadyRel.imp (rs' := fun b => SumRel (rs b) (rs' b)) hab fun _ h => h)
  call s t r h := by
    match s, t, h with
    | .inl s, .inl t, h => exact Rel.bind (A.call s t r h) fun _ _ hab => Rel.pure ⟨hab.1, hab.2⟩
    | .inr s, .inr t, h => exact Rel.bind (A'.call s t r h) fun _ _ hab => Rel.pure ⟨hab.1, hab.2⟩
  poll x y h := by
    match x, y, h with
    | .inl x, .inl y, h => exact Rel.bind (A.poll x y h) fun _ _ hab => Rel.pure (PollRel.imp (rf' := SumRel rf rf') hab fun h => h)
    | .inr x, .inr y, h => exact Rel.bind (A'.poll x y h) fun _ _ hab => Rel.pure (PollRel.imp (rf' := SumRel rf rf') hab fun h => h)
  clone b s t h := by
    match s, t, h with
    | .inl s, .inl t, h => exact A.clone b s t h
    | .inr s, .inr t, h => exact A'.clone b s t h

theorem Alike.optional (A : Alike S T rs rf) : Alike (Optional S) (Optional T) (fun b => OptRel (rs b)) (OptRel rf) where
  ready b s t h := by
    match s, t, h with
    | some s, some t, h => exact Rel.bind (A.ready b s t h) fun _ _ hab => Rel.pure (ReadyRel.map (rs' := fun b => OptRel (rs b)) _ hab fun _ h => h)
    | none, none, _ => exact Rel.pure ⟨rfl, (fun _ => trivial), by intro h; cases h⟩
  call s t r h := by
    match s, t, h with
    | some s, some t, h => exact Rel.bind (A.call s t r h) fun _ _ hab => Rel.pure ⟨hab.1, hab.2⟩
    | none, none, _ => exact Rel.pure ⟨trivial, trivial⟩
  poll x y h := by
    match x, y, h with
    | some x, some y, h => exact Rel.bind (A.poll x y h) fun _ _ hab => Rel.pure (PollRel.map (rf' := OptRel rf) _ hab fun h => h)
    | none, none, _ => exact Rel.pure ⟨rfl, by intro h; cases h⟩
  clone b s t h := by
    match s, t, h with
    | some s, some t, h => exact A.clone b s t h
    | none, none, _ => trivial

/-- relation of background tasks -/
def TaskRel {σ τ : Type} (rs : Bool → σ → τ → Prop) : TaskSt σ E → TaskSt τ E → Prop
  | .running s, .running t => ∃ b, rs b s t
  | .done (.ok s), .done (.ok t) => rs true s t
  | .done (.error e), .done (.error e') => e = e'
  | .failed, .failed => True
  | .taken, .taken => True
  | _, _ => False

theorem Alike.runTask (A : Alike S T rs rf) (ws : List W) : ∀ (x : TaskSt S.σ E) (y : TaskSt T.σ E), TaskRel rs x y → TaskRel rs (runTask S ws x) (runTask T ws y) := by
  induction ws with
  | nil => intro x y h; simpa [Tower.runTask] using h
  | cons w ws ih =>
    intro x y h
    match x, y, h with
    | .running s, .running t, ⟨b, hb⟩ =>
      have hw := A.ready b s t hb w
      simp only [Tower.runTask]
      cases hx : (S.pollReady s).run w <;> cases hy : (T.pollReady t).run w <;> rw [hx, hy] at hw <;> simp only [Out.Rel] at hw
      · rename_i a w1 c w2
        obtain ⟨⟨e, h5, h6⟩, rfl⟩ := hw
        obtain ⟨p, s'⟩ := a
        obtain ⟨q, t'⟩ := c
        dsimp only at e h5 h6; subst e
        match p, h5, h6 with
        | .pending, _, h6 => exact ih _ _ ⟨false, h6 rfl⟩
        | .ready (.ok ()), h5, _ => exact h5 rfl
        | .ready (.error e), _, _ => rfl
      · trivial
      · exact ⟨b, hb⟩
    | .done (.ok s), .done (.ok t), h => exact h
    | .done (.error e), .done (.error e'), h => exact h
    | .failed, .failed, _ => trivial
    | .taken, .taken, _ => trivial

theorem Alike.taskAt (A : Alike S T rs rf) (rt : Runtime W) (w : W) (x : TaskSt S.σ E) (y : TaskSt T.σ E) (h : TaskRel rs x y) :
    TaskRel rs (taskAt rt S w x) (taskAt rt T w y) := by
  have := A.runTask (rt.sched w) x y h
  simp only [Tower.taskAt]
  revert this
  generalize Tower.runTask S (rt.sched w) x = x'
  generalize Tower.runTask T (rt.sched w) y = y'
  intro h
  match x', y', h with
  | .running s, .running t, h => dsimp only; split <;> [trivial; exact h]
  | .done (.ok s), .done (.ok t), h => exact h
  | .done (.error e), .done (.error e'), h => exact h
  | .failed, .failed, _ => trivial
  | .taken, .taken, _ => trivial

/-- relation of the states of `SpawnReady` -/
def SpawnRel {σ τ : Type} (rs : Bool → σ → τ → Prop) (b : Bool) : SpawnState σ E → SpawnState τ E → Prop
  | .service (some s), .service (some t) => Lax rs b s t
  | .future x, .future y => b = false ∧ TaskRel rs x y
  | _, _ => False

theorem Alike.spawnPoll (A : Alike S T rs rf) (rt : Runtime W) (fuel : Nat) : ∀ (b : Bool) (x : SpawnState S.σ E) (y : SpawnState T.σ E), SpawnRel rs b x y →
    Rel (ReadyRel (SpawnRel rs)) (spawnPoll rt S fuel x) (spawnPoll rt T fuel y) := by
  induction fuel with
  | zero => intros; exact Rel.spin
  | succ n ih =>
    intro b x y h
    match x, y, h with
    | .service (some s), .service (some t), h =>
      obtain ⟨b', hb'⟩ := Lax.some h
      refine Rel.bind (A.ready b' s t hb') ?_
      rintro ⟨p, s'⟩ ⟨q, t'⟩ ⟨h1, h2, h3⟩
      dsimp only at h1 h2 h3; subst h1
      match p, h2, h3 with
      | .pending, _, h3 => exact ih false _ _ ⟨rfl, false, h3 rfl⟩
      | .ready (.ok ()), h2, _ => exact Rel.pure ⟨rfl, (fun _ => Or.inl (h2 rfl)), by intro h; cases h⟩
      | .ready (.error e), _, _ => exact Rel.pure ⟨rfl, (by intro h; cases h), by intro h; cases h⟩
    | .future x, .future y, h =>
      refine Rel.get fun w => ?_
      have := A.taskAt rt w x y h.2
      revert this
      generalize Tower.taskAt rt S w x = x'
      generalize Tower.taskAt rt T w y = y'
      intro h
      match x', y', h with
      | .running s, .running t, h => exact Rel.modify (Rel.pure ⟨rfl, (by intro h; cases h), fun _ => ⟨rfl, h⟩⟩)
      | .done (.ok s), .done (.ok t), h => exact ih true (.service (some s)) (.service (some t)) (Or.inl h)
      | .done (.error e), .done (.error e'), h => cases h; exact Rel.pure ⟨rfl, (by intro h; cases h), by intro h; cases h⟩
      | .failed, .failed, _ => exact Rel.pure ⟨rfl, (by intro h; cases h), by intro h; cases h⟩
      | .taken, .taken, _ => exact Rel.panic

theorem Alike.spawnReady (A : Alike S T rs rf) (fuel : Nat) (rt : Runtime W) : Alike (SpawnReady fuel rt S) (SpawnReady fuel rt T) (SpawnRel rs) (OptRel rf) where
  ready := A.spawnPoll rt fuel
  call x y r h := by
    match x, y, h with
    | .service (some s), .service (some t), h => exact Rel.bind (A.call s t r (Lax.tt h)) fun _ _ hab => Rel.pure ⟨hab.1, Or.inr ⟨rfl, hab.2⟩⟩
    | .future _, .future _, h => cases h.1
  poll := rel_mapFut _ A.poll
  clone b x y h := by
    match x, y, h with
    | .service (some s), .service (some t), h => exact Lax.ff h
    | .future _, .future _, h => exact ⟨rfl, h.2⟩

end

theorem Alike.refl {Q R E : Type} (S : Service W Q R E) : Alike S S (fun _ => Eq) Eq where
  ready := by
    rintro b s _ ⟨⟩
    exact Rel.refl' fun a => ⟨rfl, fun _ => rfl, fun _ => rfl⟩
  call := by
    rintro s _ r ⟨⟩
    exact Rel.refl' fun a => ⟨rfl, rfl⟩
  poll := by
    rintro s _ ⟨⟩
    exact Rel.refl' fun a => ⟨rfl, fun _ => rfl⟩
  clone := by
    rintro b s _ ⟨⟩; rfl

/-- relation of the states of a oneshot -/
def OneshotRel {σ τ φ ψ Req : Type} (rs : Bool → σ → τ → Prop) (rf : φ → ψ → Prop) : OneshotState σ Req φ → OneshotState τ Req ψ → Prop
  | .notReady s r, .notReady t r' => r = r' ∧ ∃ b, rs b s t
  | .called x, .called y => rf x y
  | .done, .done => True
  | _, _ => False

section
variable {Q R E B : Type} {S T : Service W Q R E} {rs : Bool → S.σ → T.σ → Prop} {rf : S.φ → T.φ → Prop}

/-- what a oneshot does with a poll of the response future -/
theorem Alike.oneshotTail (A : Alike S T rs rf) (x : S.φ) (y : T.φ) (h : rf x y) :
    Rel (PollRel (OneshotRel rs rf)) ((Oneshot S).poll (.called x)) ((Oneshot T).poll (.called y)) := by
  refine Rel.bind (A.poll x y h) ?_
  rintro ⟨p, x'⟩ ⟨q, y'⟩ ⟨h1, h2⟩
  dsimp only at h1 h2; subst h1
  match p, h2 with
  | .pending, h2 => exact Rel.pure ⟨rfl, fun _ => h2 rfl⟩
  | .ready (.error e), _ => exact Rel.pure ⟨rfl, by intro h; cases h⟩
  | .ready (.ok v), _ => exact Rel.pure ⟨rfl, by intro h; cases h⟩

theorem Alike.oneshot (A : Alike S T rs rf) : FutAlike (Oneshot S) (Oneshot T) (OneshotRel rs rf) := by
  intro x y h
  match x, y, h with
  | .notReady s r, .notReady t r', ⟨e, b, hb⟩ =>
    subst e
    refine Rel.bind (A.ready b s t hb) ?_
    rintro ⟨p, s'⟩ ⟨q, t'⟩ ⟨h1, h2, h3⟩
    dsimp only at h1 h2 h3; subst h1
    match p, h2, h3 with
    | .pending, _, h3 => exact Rel.pure ⟨rfl, fun _ => ⟨rfl, false, h3 rfl⟩⟩
    | .ready (.error e), _, _ => exact Rel.pure ⟨rfl, by intro h; cases h⟩
    | .ready (.ok ()), h2, _ =>
      cases r with
      | none => exact Rel.panic
      | some r => exact Rel.bind (A.call s' t' r (h2 rfl)) fun a b hab => A.oneshotTail a.1 b.1 hab.1
  | .called x, .called y, h => exact A.oneshotTail x y h
  | .done, .done, _ => exact Rel.panic

theorem Alike.latency (A : Alike S T rs rf) (into : E → B) (C : Clock W) (record : Nat → W → W) :
    Alike (Latency into C record S) (Latency into C record T) rs (fun x y => x.1 = y.1 ∧ rf x.2 y.2) where
  ready b s t h := Rel.bind (A.ready b s t h) fun _ _ hab => Rel.pure (ReadyRel.map _ hab fun _ h => h)
  call s t r h := Rel.get fun w => Rel.bind (A.call s t r h) fun _ _ hab => Rel.pure ⟨⟨rfl, hab.1⟩, hab.2⟩
  poll := by
    rintro ⟨n, x⟩ ⟨n', y⟩ ⟨e, h⟩
    dsimp only at e h; subst e
    refine Rel.bind (A.poll x y h) ?_
    rintro ⟨p, x'⟩ ⟨q, y'⟩ ⟨h1, h2⟩
    dsimp only at h1 h2; subst h1
    match p, h2 with
    | .pending, h2 => exact Rel.pure ⟨rfl, fun _ => ⟨rfl, h2 rfl⟩⟩
    | .ready (.error e), _ => exact Rel.pure ⟨rfl, by intro h; cases h⟩
    | .ready (.ok v), _ => exact Rel.get fun w => Rel.modify (Rel.pure ⟨rfl, by intro h; cases h⟩)
  clone := A.clone

/-- relation of the futures of `Delay` -/
def DelayRel {σ τ φ ψ Req : Type} (rs : Bool → σ → τ → Prop) (rf : φ → ψ → Prop) : DelayFut σ Req φ → DelayFut τ Req ψ → Prop
  | .delaying d r s, .delaying d' r' t => d = d' ∧ r = r' ∧ rs false s t
  | .called x, .called y => rf x y
  | _, _ => False

theorem Alike.delay (A : Alike S T rs rf) (into : E → B) (C : Clock W) (dl : Q → W → Nat × W) :
    Alike (Delay into C dl S) (Delay into C dl T) (fun _ s t => ∃ b, rs b s t) (DelayRel rs (OneshotRel rs rf)) where
  ready b s t h := Rel.pure ⟨rfl, (fun _ => h), fun _ => h⟩
  call s t r h := Rel.lift fun d => Rel.get fun w => Rel.pure ⟨⟨rfl, rfl, A.clone _ _ _ h.choose_spec⟩, h⟩
  poll x y h := by
    match x, y, h with
    | .delaying d r s, .delaying d' r' t, ⟨e1, e2, h⟩ =>
      subst e1; subst e2
      refine Rel.get fun w => ?_
      dsimp only
      split
      · exact Rel.bind (A.oneshot _ _ ⟨rfl, false, h⟩) fun _ _ hab => Rel.pure (PollRel.map (rf' := DelayRel rs (OneshotRel rs rf)) _ hab fun h => h)
      · exact Rel.modify (Rel.pure ⟨rfl, fun _ => ⟨rfl, rfl, h⟩⟩)
    | .called x, .called y, h => exact Rel.bind (A.oneshot _ _ h) fun _ _ hab => Rel.pure (PollRel.map (rf' := DelayRel rs (OneshotRel rs rf)) _ hab fun h => h)
  clone b s t h := ⟨false, A.clone _ _ _ h.choose_spec⟩

theorem ReadyRel.lax {σ τ : Type} {rs : Bool → σ → τ → Prop} {p q : Poll (Except E Unit)} {s : σ} {t : τ} (h : ReadyRel rs (p, s) (q, t)) (hp : ∀ e, p ≠ .ready (.error e)) : Lax rs false s t := by
  obtain ⟨h1, h2, h3⟩ := h
  match p, h2, h3, hp with
  | .pending, _, h3, _ => exact .inr ⟨rfl, h3 rfl⟩
  | .ready (.ok ()), h2, _, _ => exact .inl (h2 rfl)
  | .ready (.error e), _, _, hp => exact absurd rfl (hp e)

theorem Alike.select (A : Alike S T rs rf) {S' T' : Service W Q R E} {rs' : Bool → S'.σ → T'.σ → Prop} {rf' : S'.φ → T'.φ → Prop} (A' : Alike S' T' rs' rf')
    (cr : Q → W → Option Q × W) :
    Alike (Select cr S S') (Select cr T T') (fun b s t => Lax rs b s.1 t.1 ∧ Lax rs' b s.2 t.2) (fun x y => rf x.1 y.1 ∧ OptRel rf' x.2 y.2) where
  ready := by
    rintro b ⟨s, s'⟩ ⟨t, t'⟩ ⟨h, h'⟩
    obtain ⟨b1, h⟩ := h.some
    obtain ⟨b2, h'⟩ := h'.some
    refine Rel.bind (A.ready b1 s t h) ?_
    rintro ⟨p, s1⟩ ⟨q, t1⟩ h1
    refine Rel.bind (A'.ready b2 s' t' h') ?_
    rintro ⟨p', s1'⟩ ⟨q', t1'⟩ h2
    have e := h1.1
    have e' := h2.1
    dsimp only at e e'; subst e; subst e'
    match p, p', h1, h2 with
    | .ready (.ok ()), .ready (.ok ()), h1, h2 => exact Rel.pure ⟨rfl, (fun _ => ⟨.inl (h1.2.1 rfl), .inl (h2.2.1 rfl)⟩), by intro h; cases h⟩
    | .ready (.error e), p', _, _ => exact Rel.pure ⟨rfl, (by intro h; cases h), by intro h; cases h⟩
    | .pending, .ready (.error e), _, _ => exact Rel.pure ⟨rfl, (by intro h; cases h), by intro h; cases h⟩
    | .ready (.ok ()), .ready (.error e), _, _ => exact Rel.pure ⟨rfl, (by intro h; cases h), by intro h; cases h⟩
    | .pending, .pending, h1, h2 => exact Rel.pure ⟨rfl, (by intro h; cases h), fun _ => ⟨h1.lax (by simp), h2.lax (by simp)⟩⟩
    | .pending, .ready (.ok ()), h1, h2 => exact Rel.pure ⟨rfl, (by intro h; cases h), fun _ => ⟨h1.lax (by simp), h2.lax (by simp)⟩⟩
    | .ready (.ok ()), .pending, h1, h2 => exact Rel.pure ⟨rfl, (by intro h; cases h), fun _ => ⟨h1.lax (by simp), h2.lax (by simp)⟩⟩
  call := by
    rintro ⟨s, s'⟩ ⟨t, t'⟩ r ⟨h, h'⟩
    refine Rel.lift fun c => ?_
    cases c with
    | none => exact Rel.bind (A.call s t r h.tt) fun a b hab => Rel.pure ⟨⟨hab.1, trivial⟩, Lax.of hab.2, h'.ff⟩
    | some r' =>
      refine Rel.bind (A'.call s' t' r' h'.tt) fun a b hab => ?_
      exact Rel.bind (A.call s t r h.tt) fun a' b' hab' => Rel.pure ⟨⟨hab'.1, hab.1⟩, Lax.of hab'.2, Lax.of hab.2⟩
  poll := by
    rintro ⟨x, o⟩ ⟨y, o'⟩ ⟨h, h'⟩
    refine Rel.bind (A.poll x y h) ?_
    rintro ⟨p, x'⟩ ⟨q, y'⟩ ⟨h1, h2⟩
    dsimp only at h1 h2 h'; subst h1
    cases p with
    | ready v => exact Rel.pure ⟨rfl, by intro h; cases h⟩
    | pending =>
      match o, o', h' with
      | none, none, _ => exact Rel.pure ⟨rfl, fun _ => ⟨h2 rfl, trivial⟩⟩
      | some z, some z', h' =>
        refine Rel.bind (A'.poll z z' h') ?_
        rintro ⟨p, u⟩ ⟨q, u'⟩ ⟨h3, h4⟩
        dsimp only at h3 h4; subst h3
        cases p with
        | ready v => exact Rel.pure ⟨rfl, by intro h; cases h⟩
        | pending => exact Rel.pure ⟨rfl, fun _ => ⟨h2 rfl, h4 rfl⟩⟩
  clone := by
    rintro b ⟨s, s'⟩ ⟨t, t'⟩ ⟨h, h'⟩
    obtain ⟨b1, h⟩ := h.some
    obtain ⟨b2, h'⟩ := h'.some
    exact ⟨Lax.of (A.clone _ _ _ h), Lax.of (A'.clone _ _ _ h')⟩

theorem Alike.hedge (A : Alike S T rs rf) (into : E → B) (H : HedgeCfg W Q) {s : S.σ} {t : T.σ} (h : rs false s t) :
    ∃ rs' rf', Alike (Hedge into H S) (Hedge into H T) rs' rf' ∧ rs' false (Hedge.new S s) (Hedge.new T t) :=
  ⟨_, _, (A.latency into H.clock H.record).select (((A.latency into H.clock H.record).asyncFilter id hedgePredFut _).delay id H.clock (fun _ => H.delay)) H.selectClone,
    Lax.of (A.clone _ _ _ h), .inr ⟨rfl, false, h⟩⟩

end

end Tower
