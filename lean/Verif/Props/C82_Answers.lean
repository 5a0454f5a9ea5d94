import Verif.Proof.Answers2
import Verif.Props.C19_Buffer

/-!
# C82 Responses answer their requests
-/

set_option linter.unusedVariables false

namespace Tower
open Act

/-- Stacks of middleware, with the results that are allowed for a request and the errors that are allowed from `poll_ready`. -/
inductive AStack : {W Q R E : Type} → Service W Q R E → (Q → Except E R → Prop) → (E → Prop) → Prop
  | base {W Q R E : Type} {S : Service W Q R E} {A : Q → Except E R → Prop} {Z : E → Prop} : Replies S A Z → AStack S A Z
  | weaken {W Q R E : Type} {S : Service W Q R E} {A A' : Q → Except E R → Prop} {Z Z' : E → Prop} : (∀ q r, A q r → A' q r) → (∀ e, Z e → Z' e) → AStack S A Z → AStack S A' Z'
  | serviceFn {W Q R E : Type} {F : Fut W (Except E R)} {f : Q → W → F.φ × W} : AStack (ServiceFn F f) (fun q r => ∃ w, Outputs F (f q w).1 r) noErr
  | mapRequest {W Q Q' R E : Type} {S : Service W Q R E} {A : Q → Except E R → Prop} {Z : E → Prop} {f : Q' → W → Q × W} :
      AStack S A Z → AStack (MapRequest f S) (fun q r => ∃ w, A (f q w).1 r) Z
  | mapResponse {W Q R R' E : Type} {S : Service W Q R E} {A : Q → Except E R → Prop} {Z : E → Prop} {f : R → W → R' × W} :
      AStack S A Z → AStack (MapResponse f S) (mapResponseAns f A) Z
  | mapErr {W Q R E E' : Type} {S : Service W Q R E} {A : Q → Except E R → Prop} {Z : E → Prop} {f : E → W → E' × W} :
      AStack S A Z → AStack (MapErr f S) (mapErrAns f A) (fun e' => ∃ e w, Z e ∧ e' = (f e w).1)
  | mapResult {W Q R R' E E' : Type} {S : Service W Q R E} {A : Q → Except E R → Prop} {Z : E → Prop} {into : E → E'} {f : Except E R → W → Except E' R' × W} :
      AStack S A Z → AStack (MapResult into f S) (fun q r' => ∃ r w, A q r ∧ r' = (f r w).1) (wrapErr into Z)
  | mapFuture {W Q R R' E E' : Type} {S : Service W Q R E} {A : Q → Except E R → Prop} {Z : E → Prop} {into : E → E'} {G : Fut W (Except E' R')} {f : S.φ → W → G.φ × W} :
      AStack S A Z → AStack (MapFuture into S G f) (fun q r' => ∃ x w, FutureOf S q x ∧ Outputs G (f x w).1 r') (wrapErr into Z)
  | then {W Q R R' E E' : Type} {S : Service W Q R E} {A : Q → Except E R → Prop} {Z : E → Prop} {into : E → E'} {G : Fut W (Except E' R')} {f : Except E R → W → G.φ × W} :
      AStack S A Z → AStack (Then into S G f) (fun q r' => ∃ r w, A q r ∧ Outputs G (f r w).1 r') (wrapErr into Z)
  | andThen {W Q R R' E E' : Type} {S : Service W Q R E} {A : Q → Except E R → Prop} {Z : E → Prop} {into : E → E'} {G : Fut W (Except E' R')} {f : R → W → G.φ × W} :
      AStack S A Z → AStack (AndThen into S G f) (fun q r' => (∃ v w, A q (.ok v) ∧ Outputs G (f v w).1 r') ∨ ∃ e, A q (.error e) ∧ r' = .error (into e)) (wrapErr into Z)
  | either {W Q R E : Type} {S T : Service W Q R E} {A : Q → Except E R → Prop} {Z : E → Prop} : AStack S A Z → AStack T A Z → AStack (Either S T) A Z
  | optional {W Q R E : Type} {S : Service W Q R E} {A : Q → Except E R → Prop} {Z : E → Prop} : AStack S A Z → AStack (Optional S) (wrapAns .inner (· = .none) A) (wrapErr .inner Z)
  | futureService {W Q R E : Type} {S : Service W Q R E} {A : Q → Except E R → Prop} {Z : E → Prop} {F : Fut W (Except E S.σ)} {cl : F.φ → F.φ} :
      AStack S A Z → AStack (FutureService S F cl) A (fun e => Z e ∨ ∃ g, Outputs F g (.error e))
  | boxed {W Q R E : Type} {S : Service W Q R E} {A : Q → Except E R → Prop} {Z : E → Prop} : AStack S A Z → AStack (BoxService S) A Z
  | timeout {W Q R E : Type} {S : Service W Q R E} {A : Q → Except E R → Prop} {Z : E → Prop} {C : Clock W} {d : Nat} :
      AStack S A Z → AStack (Timeout C d S) (wrapAns .inner (· = .elapsed) A) (wrapErr .inner Z)
  | loadShed {W Q R E : Type} {S : Service W Q R E} {A : Q → Except E R → Prop} {Z : E → Prop} : AStack S A Z → AStack (LoadShed S) (wrapAns .inner (· = .overloaded) A) (wrapErr .inner Z)
  | rateLimit {W Q R E : Type} {S : Service W Q R E} {A : Q → Except E R → Prop} {Z : E → Prop} {C : Clock W} {r : Rate} : AStack S A Z → AStack (RateLimit C r S) A Z
  | concurrencyLimit {W Q R E : Type} {S : Service W Q R E} {A : Q → Except E R → Prop} {Z : E → Prop} {debug : Bool} {V : SemView W} :
      AStack S A Z → AStack (ConcurrencyLimit debug V S) A Z
  | filter {W Q Q' R E E' : Type} {S : Service W Q R E} {A : Q → Except E R → Prop} {Z : E → Prop} {into : E → E'} {check : Q' → W → Except E' Q × W} :
      AStack S A Z → AStack (Filter into check S) (filterAns into (fun q' c => ∃ w, (check q' w).1 = c) A) (wrapErr into Z)
  | asyncFilter {W Q Q' R E E' : Type} {S : Service W Q R E} {A : Q → Except E R → Prop} {Z : E → Prop} {into : E → E'} {P : Fut W (Except E' Q)} {check : Q' → W → P.φ × W} :
      AStack S A Z → AStack (AsyncFilter into P check S) (filterAns into (fun q' c => ∃ w, Outputs P (check q' w).1 c) A) (wrapErr into Z)
  | steer {W Q R E : Type} {S : Service W Q R E} {A : Q → Except E R → Prop} {Z : E → Prop} {pick : Q → List S.σ → W → Nat × W} : AStack S A Z → AStack (Steer S pick) A Z
  | latency {W Q R E E' : Type} {S : Service W Q R E} {A : Q → Except E R → Prop} {Z : E → Prop} {into : E → E'} {C : Clock W} {record : Nat → W → W} :
      AStack S A Z → AStack (Latency into C record S) (wrapAns into noErr A) (wrapErr into Z)
  | delay {W Q R E E' : Type} {S : Service W Q R E} {A : Q → Except E R → Prop} {Z : E → Prop} {into : E → E'} {C : Clock W} {d : Q → W → Nat × W} :
      AStack S A Z → AStack (Delay into C d S) (wrapAns into (wrapErr into Z) A) noErr
  | select {W Q R E : Type} {S T : Service W Q R E} {A A' : Q → Except E R → Prop} {Z Z' : E → Prop} {cr : Q → W → Option Q × W} :
      AStack S A Z → AStack T A' Z' → AStack (Select cr S T) (fun q r => A q r ∨ ∃ q' w, (cr q w).1 = some q' ∧ A' q' r) (fun e => Z e ∨ Z' e)
  | hedge {W Q R E E' : Type} {S : Service W Q R E} {A : Q → Except E R → Prop} {Z : E → Prop} {into : E → E'} {H : HedgeCfg W Q} :
      AStack S A Z → AStack (Hedge into H S) (hedgeAns into H.cloneRequest A Z) (wrapErr into Z)
  | constant {W Q R E M : Type} {S : Service W Q R E} {A : Q → Except E R → Prop} {Z : E → Prop} : AStack S A Z → AStack (Constant M S) A Z
  | tracked {W Q R R' E : Type} {S : Service W Q R E} {A : Q → Except E R → Prop} {Z : E → Prop} {T : Tracker} {C : Completion R R'} :
      AStack S A Z → AStack (Tower.tracked T C S) (trackedAns C A) Z
  | intoService {W Q R E : Type} {S : Service W Q R E} {A : Q → Except E R → Prop} {Z : E → Prop} : AStack S A Z → AStack (IntoService S) A Z
  | retry {W Q R E : Type} {S : Service W Q R E} {A : Q → Except E R → Prop} {Z : E → Prop} {P : RetryPolicy W Q R E} {fuel : Nat} :
      AStack S A Z → AStack (Retry fuel P S) (retryAns P A Z) Z
  | reconnect {W Q R T E1 E2 : Type} {S : Service W Q R E2} {A : Q → Except E2 R → Prop} {Z : E2 → Prop} {M : Service W T S.σ E1} {t : T} {fuel : Nat} :
      AStack S A Z → AStack (Reconnect fuel S M t) (wrapAns .conn (fun e => ∃ e', e = .make e') A) (fun e => ∃ e', e = .make e')
  | spawnReady {W Q R E : Type} {S : Service W Q R E} {A : Q → Except E R → Prop} {Z : E → Prop} {rt : Runtime W} {fuel : Nat} :
      AStack S A Z → AStack (SpawnReady fuel rt S) (wrapAns .inner noErr A) (fun _ => True)
  | balance {W Q R E K DE BE : Type} [DecidableEq K] {B : BalCfg W Q R E K DE BE} {A : Q → Except E R → Prop} {Z : E → Prop} {fuel : Nat} :
      AStack B.S A Z → AStack (Tower.balance B fuel) (wrapAns B.fromErr noErr A) (fun e => ∃ d, e = B.fromDisc d)
  | makeBalance {W Q R E K DE BE T ME : Type} [DecidableEq K] {B : BalCfg W Q R E K DE BE} {seed : Act W B.G.ρ} {M : Service W T B.D.δ ME} {A : T → Except ME B.D.δ → Prop} {Z : ME → Prop} :
      AStack M A Z → AStack (Tower.makeBalance B seed M) (makeBalanceAns B A) Z

/-- **C82.** In any stack of the middleware, a response future for a request returns only the results that the stack allows for that request, and `poll_ready` only the errors that it allows: whatever states
the services are in, whatever else is called before, between and after, and whenever the future is polled. -/
theorem C82_stack {W Q R E : Type} {S : Service W Q R E} {A : Q → Except E R → Prop} {Z : E → Prop} (h : AStack S A Z) : Replies S A Z := by
  induction h with
  | base h => exact h
  | weaken ha hz _ ih => exact ih.mono ha hz
  | serviceFn => exact ServiceFn.answers
  | mapRequest _ ih => exact MapRequest.answers ih
  | mapResponse _ ih => exact MapResponse.answers ih
  | mapErr _ ih => exact MapErr.answers ih
  | mapResult _ ih => exact MapResult.answers ih
  | mapFuture _ ih => exact MapFuture.answers ih
  | «then» _ ih => exact Then.answers ih
  | andThen _ ih => exact AndThen.answers ih
  | either _ _ ih ih' => exact Either.answers ih ih'
  | optional _ ih => exact Optional.answers ih
  | futureService _ ih => exact FutureService.answers ih
  | boxed _ ih => exact BoxService.answers ih
  | timeout _ ih => exact Timeout.answers ih
  | loadShed _ ih => exact LoadShed.answers ih
  | rateLimit _ ih => exact RateLimit.answers ih
  | concurrencyLimit _ ih => exact ConcurrencyLimit.answers ih
  | filter _ ih => exact Filter.answers ih
  | asyncFilter _ ih => exact AsyncFilter.answers ih
  | steer _ ih => exact Steer.answers ih
  | latency _ ih => exact Latency.answers ih
  | delay _ ih => exact Delay.answers ih
  | select _ _ ih ih' => exact Select.answers ih ih'
  | hedge _ ih => exact Hedge.answers ih
  | constant _ ih => exact Constant.answers ih
  | tracked _ ih => exact tracked.answers ih
  | intoService _ ih => exact IntoService.answers ih
  | retry _ ih => exact Retry.answers ih
  | reconnect _ ih => exact Reconnect.answers ih
  | spawnReady _ ih => exact SpawnReady.answers ih
  | balance _ ih => exact balance.answers ih
  | makeBalance _ ih => exact makeBalance.answers ih

/-! ## Stacks that neither change requests nor responses -/

/-- Every response to `q` is one that `A` allows for `q`. -/
def Honest {W Q R E : Type} (S : Service W Q R E) (A : Q → R → Prop) : Prop :=
  ∀ q f f' v w w', FutureOf S q f → (S.poll f).run w = .ok (.ready (.ok v), f') w' → A q v

/-- Stacks of middleware that pass requests and responses on. Where requests are copied or checked, what answers the copy must answer the original. -/
inductive TStack {Q R : Type} (A : Q → R → Prop) : {W E : Type} → Service W Q R E → Prop
  | base {W E : Type} {S : Service W Q R E} : Honest S A → TStack A S
  | mapErr {W E E' : Type} {S : Service W Q R E} {f : E → W → E' × W} : TStack A S → TStack A (MapErr f S)
  | either {W E : Type} {S T : Service W Q R E} : TStack A S → TStack A T → TStack A (Either S T)
  | optional {W E : Type} {S : Service W Q R E} : TStack A S → TStack A (Optional S)
  | futureService {W E : Type} {S : Service W Q R E} {F : Fut W (Except E S.σ)} {cl : F.φ → F.φ} : TStack A S → TStack A (FutureService S F cl)
  | boxed {W E : Type} {S : Service W Q R E} : TStack A S → TStack A (BoxService S)
  | timeout {W E : Type} {S : Service W Q R E} {C : Clock W} {d : Nat} : TStack A S → TStack A (Timeout C d S)
  | loadShed {W E : Type} {S : Service W Q R E} : TStack A S → TStack A (LoadShed S)
  | rateLimit {W E : Type} {S : Service W Q R E} {C : Clock W} {r : Rate} : TStack A S → TStack A (RateLimit C r S)
  | concurrencyLimit {W E : Type} {S : Service W Q R E} {debug : Bool} {V : SemView W} : TStack A S → TStack A (ConcurrencyLimit debug V S)
  | filter {W E E' : Type} {S : Service W Q R E} {into : E → E'} {check : Q → W → Except E' Q × W} :
      (∀ q w q' v, (check q w).1 = .ok q' → A q' v → A q v) → TStack A S → TStack A (Filter into check S)
  | asyncFilter {W E E' : Type} {S : Service W Q R E} {into : E → E'} {P : Fut W (Except E' Q)} {check : Q → W → P.φ × W} :
      (∀ q w q' v, Outputs P (check q w).1 (.ok q') → A q' v → A q v) → TStack A S → TStack A (AsyncFilter into P check S)
  | steer {W E : Type} {S : Service W Q R E} {pick : Q → List S.σ → W → Nat × W} : TStack A S → TStack A (Steer S pick)
  | hedge {W E E' : Type} {S : Service W Q R E} {into : E → E'} {H : HedgeCfg W Q} :
      (∀ q w q' v, H.cloneRequest q w = some q' → A q' v → A q v) → TStack A S → TStack A (Hedge into H S)
  | constant {W E M : Type} {S : Service W Q R E} : TStack A S → TStack A (Constant M S)
  | retry {W E : Type} {S : Service W Q R E} {P : RetryPolicy W Q R E} {fuel : Nat} :
      (∀ p q w q' v, (P.cloneRequest p q w).1.1 = some q' → A q' v → A q v) →
      (∀ p q r w q' v, (P.retry p q r w).1.2.2.1 = q' → A q' v → A q v) →
      (∀ p q r w v, (P.retry p q r w).1.1 = none → (P.retry p q r w).1.2.2.2 = .ok v → r = .ok v) → TStack A S → TStack A (Retry fuel P S)
  | reconnect {W T E1 E2 : Type} {S : Service W Q R E2} {M : Service W T S.σ E1} {t : T} {fuel : Nat} : TStack A S → TStack A (Reconnect fuel S M t)
  | spawnReady {W E : Type} {S : Service W Q R E} {rt : Runtime W} {fuel : Nat} : TStack A S → TStack A (SpawnReady fuel rt S)
  | balance {W E K DE BE : Type} [DecidableEq K] {B : BalCfg W Q R E K DE BE} {fuel : Nat} : TStack A B.S → TStack A (Tower.balance B fuel)

/-- as results -/
def okAns {Q R E : Type} (A : Q → R → Prop) (q : Q) (r : Except E R) : Prop := ∀ v, r = .ok v → A q v

theorem Honest.answers {W Q R E : Type} {S : Service W Q R E} {A : Q → R → Prop} (h : Honest S A) : Replies S (okAns A) (fun _ => True) :=
  ⟨fun _ => trivial, fun hf hr v hv => by subst hv; exact h _ _ _ _ _ _ hf hr⟩

theorem Replies.honest {W Q R E : Type} {S : Service W Q R E} {A : Q → R → Prop} {Z : E → Prop} (h : Replies S (okAns A) Z) : Honest S A :=
  fun q f f' v w w' hf hr => h.answer hf hr v rfl

theorem wrapAns.ok {Q R E E' : Type} {A : Q → R → Prop} {inner : E → E'} {own : E' → Prop} {q : Q} {r : Except E' R} (h : wrapAns inner own (okAns A) q r) : okAns A q r := by
  rcases h with ⟨r0, h, rfl⟩ | ⟨e, _, rfl⟩
  · cases r0 with
    | ok a => intro v hv; cases hv; exact h a rfl
    | error e => intro v hv; cases hv
  · intro v hv; cases hv

theorem filterAns.ok {Q R E E' : Type} {A : Q → R → Prop} {into : E → E'} {check : Q → Except E' Q → Prop} (hc : ∀ q q' v, check q (.ok q') → A q' v → A q v) {q : Q} {r : Except E' R}
    (h : filterAns into check (okAns A) q r) : okAns A q r := by
  rcases h with ⟨q', r0, h1, h2, rfl⟩ | ⟨e, _, rfl⟩
  · cases r0 with
    | ok a => intro v hv; cases hv; exact hc q q' a h1 (h2 a rfl)
    | error e => intro v hv; cases hv
  · intro v hv; cases hv

theorem Attempt.ok {W Q R E : Type} {A : Q → R → Prop} {P : RetryPolicy W Q R E} {A' : Q → Except E R → Prop}
    (h1 : ∀ p q w q' v, (P.cloneRequest p q w).1.1 = some q' → A q' v → A q v) (h2 : ∀ p q r w q' v, (P.retry p q r w).1.2.2.1 = q' → A q' v → A q v)
    {q a : Q} {o : Option Q} (h : Attempt P A' q a o) : (∀ v, A a v → A q v) ∧ ∀ c, o = some c → ∀ v, A c v → A q v := by
  induction h with
  | first hc => exact ⟨fun v hv => hv, fun c ho v hv => h1 _ _ _ _ v (by rw [hc]; exact ho) hv⟩
  | again _ _ hr hc ih =>
    refine ⟨fun v hv => ih.2 _ rfl v (h2 _ _ _ _ _ v (by rw [hr]) hv), fun c ho v hv => ?_⟩
    exact ih.2 _ rfl v (h2 _ _ _ _ _ v (by rw [hr]) (h1 _ _ _ _ v (by rw [hc]; exact ho) hv))

/-- **C82.** Middleware does not mix up requests. If the services at the bottom give to every request only responses that answer it, so does the stack above them: the response to `q` answers `q`.
(`A` is any relation between requests and responses; for instance: `v` is what some service at the bottom returned for `q`.) -/
theorem C82_transparent {W Q R E : Type} {A : Q → R → Prop} {S : Service W Q R E} (h : TStack A S) : Honest S A := by
  suffices hs : Replies S (okAns A) (fun _ => True) from hs.honest
  induction h with
  | base h => exact h.answers
  | mapErr _ ih =>
    refine (MapErr.answers ih).mono (fun q r hr => ?_) (fun _ _ => trivial)
    cases r with
    | ok v => exact fun v' hv => by cases hv; exact hr v rfl
    | error e => intro v hv; cases hv
  | either _ _ ih ih' => exact Either.answers ih ih'
  | optional _ ih => exact (Optional.answers ih).mono (fun q r hr => hr.ok) (fun _ _ => trivial)
  | futureService _ ih => exact (FutureService.answers ih).mono (fun q r hr => hr) (fun _ _ => trivial)
  | boxed _ ih => exact BoxService.answers ih
  | timeout _ ih => exact (Timeout.answers ih).mono (fun q r hr => hr.ok) (fun _ _ => trivial)
  | loadShed _ ih => exact (LoadShed.answers ih).mono (fun q r hr => hr.ok) (fun _ _ => trivial)
  | rateLimit _ ih => exact RateLimit.answers ih
  | concurrencyLimit _ ih => exact ConcurrencyLimit.answers ih
  | filter hc _ ih => exact (Filter.answers ih).mono (fun q r hr => hr.ok fun q q' v ⟨w, hw⟩ hv => hc q w q' v hw hv) (fun _ _ => trivial)
  | asyncFilter hc _ ih => exact (AsyncFilter.answers ih).mono (fun q r hr => hr.ok fun q q' v ⟨w, hw⟩ hv => hc q w q' v hw hv) (fun _ _ => trivial)
  | steer _ ih => exact Steer.answers ih
  | hedge hc _ ih =>
    refine (Hedge.answers ih).mono (fun q r hr => ?_) (fun _ _ => trivial)
    rcases hr with ⟨r0, h, rfl⟩ | ⟨q', w, hq, ⟨r0, h, rfl⟩ | ⟨e, _, rfl⟩⟩
    · cases r0 with
      | ok a => intro v hv; cases hv; exact h a rfl
      | error e => intro v hv; cases hv
    · cases r0 with
      | ok a => intro v hv; cases hv; exact hc q w q' a hq (h a rfl)
      | error e => intro v hv; cases hv
    · intro v hv; cases hv
  | constant _ ih => exact Constant.answers ih
  | retry h1 h2 h3 _ ih =>
    refine (Retry.answers ih).mono (fun q r hr => ?_) (fun _ _ => trivial)
    rcases hr with ⟨a, ha, h⟩ | ⟨a, c, c', r0, p, p', w, w', ha, h, hr⟩ | ⟨e, _, rfl⟩
    · exact fun v hv => (ha.ok h1 h2).1 v (h v hv)
    · intro v hv
      refine (ha.ok h1 h2).1 v (h v ?_)
      exact h3 p c r0 w v (by rw [hr]) (by rw [hr]; exact hv)
    · intro v hv; cases hv
  | reconnect _ ih => exact (Reconnect.answers ih).mono (fun q r hr => hr.ok) (fun _ _ => trivial)
  | spawnReady _ ih => exact (SpawnReady.answers ih).mono (fun q r hr => hr.ok) (fun _ _ => trivial)
  | balance _ ih => exact (balance.answers ih).mono (fun q r hr => hr.ok) (fun _ _ => trivial)

/-- **C82.** A `Oneshot` for `q` resolves only to a result that is allowed for `q`, or to a readiness error. -/
theorem C82_oneshot {W Q R E : Type} {S : Service W Q R E} {A : Q → Except E R → Prop} {Z : E → Prop} (h : Replies S A Z) (s : S.σ) (q : Q) (r : Except E R)
    (ho : Outputs (Oneshot S) (.notReady s (some q)) r) : A q r ∨ ∃ e, Z e ∧ r = .error e := by
  have key : ∀ (x : (Oneshot S).φ) (r : Except E R), Outputs (Oneshot S) x r → oneshotInv S q x → A q r ∨ ∃ e, Z e ∧ r = .error e := by
    intro x r ho
    induction ho with
    | ready hr => exact fun hx => (gives_iff.1 (Oneshot.gives h q _ _ hx) _ _ hr).2 _ rfl
    | pending hr _ ih => exact fun hx => ih ((gives_iff.1 (Oneshot.gives h q _ _ hx) _ _ hr).1 rfl)
  exact key _ r ho (fun q' hq => (Option.some.inj hq).symm)

section
variable {W Req Res Err : Type} {S : Service W Req Res Err} {bound : Nat} {svc : S.σ} {tr : List (BEv S)} {x : Buf S}

theorem dispatch_called {y : Buf S} (h : BRun y tr x) {i : Nat} {r : Req} {f : S.φ} (hd : .dispatch i r f ∈ tr) : FutureOf S r f := by
  induction h with
  | nil => cases hd
  | snoc _ hs ih =>
    rcases List.mem_append.1 hd with hd | hd
    · exact ih hd
    · simp only [List.mem_singleton] at hd
      subst hd
      cases hs with
      | worker hw => cases hw; exact .called (by assumption)
      | death hw => cases hw
      | handle hw => cases hw
      | future hw => cases hw

theorem FutureOf.desc {q : Req} {f0 f : S.φ} (h : FutureOf S q f0) (hd : Desc S f0 f) : FutureOf S q f := by
  induction hd with
  | refl => exact h
  | step _ hr ih => exact .polled ih hr

/-- **C82.** Through a `Buffer`, with any number of clones and under any interleaving: the response future of a call with `q` returns a response or an error of the service only if the service may give it to `q`. -/
theorem C82_buffer {A : Req → Except Err Res → Prop} {Z : Err → Prop} (hS : Replies S A Z) (h : BHist S bound svc tr x) {i k : Nat} {q : Req} (ha : .accept k i q ∈ tr) :
    (∀ v, .poll i (.ready (.ok v)) ∈ tr → A q (.ok v)) ∧ ∀ e, .poll i (.ready (.error (.inner e))) ∈ tr → A q (.error e) := by
  have key : ∀ {k' : Nat} {r : Req}, .accept k' i r ∈ tr → r = q := by
    intro k' r hr
    have hp := (C20_once h).1
    have h1 : (⟨i, r⟩ : Msg Req) ∈ accepted tr := mem_accepted.2 ⟨k', hr⟩
    have h2 : (⟨i, q⟩ : Msg Req) ∈ accepted tr := mem_accepted.2 ⟨k, ha⟩
    rw [List.pairwise_map] at hp
    obtain ⟨a, ha, hra⟩ := List.getElem_of_mem h1
    obtain ⟨b, hb, hqb⟩ := List.getElem_of_mem h2
    rw [List.pairwise_iff_getElem] at hp
    rcases Nat.lt_trichotomy a b with hlt | heq | hgt
    · have := hp a b ha hb hlt
      rw [hra, hqb] at this
      exact absurd this (Nat.lt_irrefl _)
    · subst heq
      rw [hra] at hqb
      injection hqb
    · have := hp b a hb ha hgt
      rw [hra, hqb] at this
      exact absurd this (Nat.lt_irrefl _)
  constructor
  · intro v hv
    obtain ⟨k', r, f0, f, f', w, w', h1, h2, h3, h4⟩ := C21_ok h hv
    rw [← key h1]
    exact hS.answer ((dispatch_called h h2).desc h3) h4
  · intro e he
    obtain ⟨k', r, f0, f, f', w, w', h1, h2, h3, h4⟩ := C21_err h he
    rw [← key h1]
    exact hS.answer ((dispatch_called h h2).desc h3) h4

end

/-! ## Examples -/

namespace Demo82

/-- responds at the second poll with one more than the request; fails the first time it is asked (the world counts the calls) -/
def late : Fut Nat (Except String Nat) where
  φ := Nat × Bool × Bool
  poll
    | (q, b, false) => pure (.pending, (q, b, true))
    | (q, true, true) => pure (.ready (.ok (q + 1)), (q, true, true))
    | (q, false, true) => pure (.ready (.error "busy"), (q, false, true))

/-- A flaky server. -/
@[reducible] def server : Service Nat Nat Nat String := ServiceFn late (fun q w => ((q, decide (0 < w), false), w + 1))

/-- Retries errors, with a copy of the request. -/
def again : RetryPolicy Nat Nat Nat String where
  π := Unit
  ρ := Unit
  retry p q r w := match r with
    | .ok v => ((none, p, q, .ok v), w)
    | .error e => ((some (), p, q, .error e), w)
  cloneRequest p q w := ((some q, p), w)
  wait r w := ((.ready (), r), w)
  clone := id

/-- Sends another request the next time. -/
def sloppy : RetryPolicy Nat Nat Nat String := { again with
  retry := fun p q r w => match r with
    | .ok v => ((none, p, q, .ok v), w)
    | .error e => ((some (), p, q + 10, .error e), w) }

theorem late_outputs {x : late.φ} {r : Except String Nat} (h : Outputs late x r) : ∀ v, r = .ok v → v = x.1 + 1 := by
  induction h with
  | @ready g g' r w w' hr =>
    obtain ⟨a, b, c⟩ := g
    intro v hv
    subst hv
    cases c <;> cases b <;> cases congrArg Prod.fst (Out.ok.inj hr).1
    rfl
  | @pending g g' r w w' hr _ ih =>
    obtain ⟨a, b, c⟩ := g
    intro v hv
    have h2 := ih v hv
    cases c with
    | false =>
      have h1 : (a, b, true) = g' := congrArg Prod.snd (Out.ok.inj hr).1
      rw [h2, ← h1]
    | true =>
      cases b <;> cases congrArg Prod.fst (Out.ok.inj hr).1

theorem server_honest : Honest server (fun q v => v = q + 1) := by
  intro q f f' v w w' hf hr
  obtain ⟨w0, ho⟩ := (ServiceFn.answers (F := late)).answer hf hr
  exact late_outputs ho v rfl

/-- the clock -/
def clock : Clock Nat where
  now := id
  fired t w := decide (t ≤ w)
  sound d w h := of_decide_eq_true h

/-- **C82** holds of `Timeout` over `Retry` over the flaky server: the response to `q` is `q + 1` -/
theorem stack_honest : Honest (Timeout clock 100 (Retry 10 again server)) (fun q v => v = q + 1) :=
  C82_transparent (.timeout (.retry (fun p q w q' v hq hv => by cases hq; exact hv) (fun p q r w q' v hq hv => by cases r <;> (cases hq; exact hv))
    (fun p q r w v h0 hv => by cases r with
      | ok a => exact hv
      | error e => cases h0) (.base server_honest)))

/-- It is not about nothing: the first attempt fails, the second one succeeds. -/
theorem stack_answers : ∃ f f' w w', FutureOf (Timeout clock 100 (Retry 10 again server)) 7 f ∧
    ((Timeout clock 100 (Retry 10 again server)).poll f).run w = .ok (.ready (.ok 8), f') w' := by
  refine ⟨_, _, 3, _, FutureOf.polled (w := 1) (FutureOf.polled (S := Timeout clock 100 (Retry 10 again server)) (w := 1) (FutureOf.called (S := Timeout clock 100 (Retry 10 again server)) (s := (⟨(), ()⟩ : RetryState Unit Unit)) (w := 0) rfl) rfl) rfl, rfl⟩

/-- a `Oneshot` of the server -/
theorem oneshot_answers : Outputs (Oneshot server) (.notReady () (some 7)) (.ok 8) :=
  Outputs.pending (G := Oneshot server) (g' := .called (7, true, true)) (w := 1) rfl (Outputs.ready (G := Oneshot server) (g' := .done) (w := 2) rfl)

/-- the stack, with all its results -/
theorem stack_results : AStack (Timeout clock 100 (Retry 10 again server)) (wrapAns .inner (· = .elapsed) (retryAns again (fun q r => ∃ w : Nat, Outputs late (q, decide (0 < w), false) r) noErr)) (wrapErr .inner noErr) :=
  .timeout (.retry .serviceFn)

/-- **C82** needs policies that do not change what is asked: with a policy that does, a response to 7 is the answer to 17. -/
theorem C82_sloppy_violates : ¬ Honest (Retry 10 sloppy server) (fun q v => v = q + 1) := by
  intro h
  have := h 7 _ _ 18 3 _ (FutureOf.polled (w := 1) (FutureOf.polled (S := Retry 10 sloppy server) (w := 1) (FutureOf.called (S := Retry 10 sloppy server) (s := (⟨(), ()⟩ : RetryState Unit Unit)) (w := 0) rfl) rfl) rfl) rfl
  cases this

end Demo82

end Tower
