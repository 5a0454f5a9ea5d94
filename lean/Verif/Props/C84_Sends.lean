import Verif.Proof.Sends2

/-!
# C84 Middleware does not multiply requests
-/

set_option linter.unusedVariables false

namespace Tower
open Act

/-- Stacks of middleware. `μ` measures what has been sent to the services at the bottom, and the stack sends at most `v q` for a request `q`. User code (closures, clocks, policies, discovery) does not call the
services at the bottom on its own. -/
inductive Sender : {W Q R E : Type} → (W → Nat) → (Q → Nat) → Service W Q R E → Prop
  | base {W Q R E : Type} {μ : W → Nat} {v : Q → Nat} {S : Service W Q R E} : Sends μ v S → Sender μ v S
  | weaken {W Q R E : Type} {μ : W → Nat} {v v' : Q → Nat} {S : Service W Q R E} : (∀ q, v q ≤ v' q) → Sender μ v S → Sender μ v' S
  | serviceFn {W Q R E : Type} {μ : W → Nat} {F : Fut W (Except E R)} {f : Q → W → F.φ × W} : (∀ g, Silent μ (F.poll g)) → (∀ q, SilentFn μ (f q)) → Sender μ (fun _ => 0) (ServiceFn F f)
  | mapRequest {W Q Q' R E : Type} {μ : W → Nat} {v : Q → Nat} {v' : Q' → Nat} {S : Service W Q R E} {f : Q' → W → Q × W} :
      (∀ q w, v (f q w).1 ≤ v' q) → (∀ q, SilentFn μ (f q)) → Sender μ v S → Sender μ v' (MapRequest f S)
  | mapResponse {W Q R R' E : Type} {μ : W → Nat} {v : Q → Nat} {S : Service W Q R E} {f : R → W → R' × W} : (∀ r, SilentFn μ (f r)) → Sender μ v S → Sender μ v (MapResponse f S)
  | mapErr {W Q R E E' : Type} {μ : W → Nat} {v : Q → Nat} {S : Service W Q R E} {f : E → W → E' × W} : (∀ e, SilentFn μ (f e)) → Sender μ v S → Sender μ v (MapErr f S)
  | mapResult {W Q R R' E E' : Type} {μ : W → Nat} {v : Q → Nat} {S : Service W Q R E} {into : E → E'} {f : Except E R → W → Except E' R' × W} :
      (∀ r, SilentFn μ (f r)) → Sender μ v S → Sender μ v (MapResult into f S)
  | then {W Q R R' E E' : Type} {μ : W → Nat} {v : Q → Nat} {S : Service W Q R E} {into : E → E'} {G : Fut W (Except E' R')} {f : Except E R → W → G.φ × W} :
      (∀ g, Silent μ (G.poll g)) → (∀ r, SilentFn μ (f r)) → Sender μ v S → Sender μ v (Then into S G f)
  | andThen {W Q R R' E E' : Type} {μ : W → Nat} {v : Q → Nat} {S : Service W Q R E} {into : E → E'} {G : Fut W (Except E' R')} {f : R → W → G.φ × W} :
      (∀ g, Silent μ (G.poll g)) → (∀ r, SilentFn μ (f r)) → Sender μ v S → Sender μ v (AndThen into S G f)
  | either {W Q R E : Type} {μ : W → Nat} {v : Q → Nat} {S T : Service W Q R E} : Sender μ v S → Sender μ v T → Sender μ v (Either S T)
  | optional {W Q R E : Type} {μ : W → Nat} {v : Q → Nat} {S : Service W Q R E} : Sender μ v S → Sender μ v (Optional S)
  | futureService {W Q R E : Type} {μ : W → Nat} {v : Q → Nat} {S : Service W Q R E} {F : Fut W (Except E S.σ)} {cl : F.φ → F.φ} :
      (∀ g, Silent μ (F.poll g)) → Sender μ v S → Sender μ v (FutureService S F cl)
  | boxed {W Q R E : Type} {μ : W → Nat} {v : Q → Nat} {S : Service W Q R E} : Sender μ v S → Sender μ v (BoxService S)
  | timeout {W Q R E : Type} {μ : W → Nat} {v : Q → Nat} {S : Service W Q R E} {C : Clock W} {d : Nat} : (∀ t w, μ (C.arm t w) ≤ μ w) → Sender μ v S → Sender μ v (Timeout C d S)
  | loadShed {W Q R E : Type} {μ : W → Nat} {v : Q → Nat} {S : Service W Q R E} : Sender μ v S → Sender μ v (LoadShed S)
  | rateLimit {W Q R E : Type} {μ : W → Nat} {v : Q → Nat} {S : Service W Q R E} {C : Clock W} {r : Rate} : (∀ t w, μ (C.arm t w) ≤ μ w) → Sender μ v S → Sender μ v (RateLimit C r S)
  | concurrencyLimit {W Q R E : Type} {μ : W → Nat} {v : Q → Nat} {S : Service W Q R E} {debug : Bool} {V : SemView W} :
      (∀ a, SilentFn μ (V.pollAcquire a)) → Sender μ v S → Sender μ v (ConcurrencyLimit debug V S)
  | filter {W Q Q' R E E' : Type} {μ : W → Nat} {v : Q → Nat} {v' : Q' → Nat} {S : Service W Q R E} {into : E → E'} {check : Q' → W → Except E' Q × W} :
      (∀ q w q', (check q w).1 = .ok q' → v q' ≤ v' q) → (∀ q, SilentFn μ (check q)) → Sender μ v S → Sender μ v' (Filter into check S)
  | asyncFilter {W Q Q' R E E' : Type} {μ : W → Nat} {v : Q → Nat} {v' : Q' → Nat} {S : Service W Q R E} {into : E → E'} {P : Fut W (Except E' Q)} {check : Q' → W → P.φ × W} (pc : P.φ → Nat) :
      (∀ q w, pc (check q w).1 ≤ v' q) → (∀ c w p c' w', (P.poll c).run w = .ok (p, c') w' → pc c' ≤ pc c ∧ μ w' ≤ μ w ∧ ∀ q, p = .ready (.ok q) → v q ≤ pc c) → (∀ q, SilentFn μ (check q)) →
      Sender μ v S → Sender μ v' (AsyncFilter into P check S)
  | steer {W Q R E : Type} {μ : W → Nat} {v : Q → Nat} {S : Service W Q R E} {pick : Q → List S.σ → W → Nat × W} : (∀ q ss, SilentFn μ (pick q ss)) → Sender μ v S → Sender μ v (Steer S pick)
  | latency {W Q R E E' : Type} {μ : W → Nat} {v : Q → Nat} {S : Service W Q R E} {into : E → E'} {C : Clock W} {record : Nat → W → W} :
      (∀ t w, μ (record t w) ≤ μ w) → Sender μ v S → Sender μ v (Latency into C record S)
  | delay {W Q R E E' : Type} {μ : W → Nat} {v : Q → Nat} {S : Service W Q R E} {into : E → E'} {C : Clock W} {d : Q → W → Nat × W} :
      (∀ t w, μ (C.arm t w) ≤ μ w) → (∀ q, SilentFn μ (d q)) → Sender μ v S → Sender μ v (Delay into C d S)
  | select {W Q R E : Type} {μ : W → Nat} {v v' v2 : Q → Nat} {S T : Service W Q R E} {cr : Q → W → Option Q × W} :
      (∀ q, SilentFn μ (cr q)) → (∀ q, v q ≤ v2 q) → (∀ q w q', (cr q w).1 = some q' → v q + v' q' ≤ v2 q) → Sender μ v S → Sender μ v' T → Sender μ v2 (Select cr S T)
  | hedge {W Q R E E' : Type} {μ : W → Nat} {v v' : Q → Nat} {S : Service W Q R E} {into : E → E'} {H : HedgeCfg W Q} :
      (∀ t w, μ (H.clock.arm t w) ≤ μ w) → (∀ t w, μ (H.record t w) ≤ μ w) → SilentFn μ H.delay → SilentFn μ H.enough →
      (∀ q, v q ≤ v' q) → (∀ q w q', H.cloneRequest q w = some q' → v q + v q' ≤ v' q) → Sender μ v S → Sender μ v' (Hedge into H S)
  | constant {W Q R E M : Type} {μ : W → Nat} {v : Q → Nat} {S : Service W Q R E} : Sender μ v S → Sender μ v (Constant M S)
  | tracked {W Q R R' E : Type} {μ : W → Nat} {v : Q → Nat} {S : Service W Q R E} {T : Tracker} {C : Completion R R'} : Sender μ v S → Sender (fun w => μ w.2) v (Tower.tracked T C S)
  | intoService {W Q R E : Type} {μ : W → Nat} {v : Q → Nat} {S : Service W Q R E} : Sender μ v S → Sender μ v (IntoService S)
  | retry {W Q R E : Type} {μ : W → Nat} {v : Q → Nat} {S : Service W Q R E} {P : RetryPolicy W Q R E} {fuel n : Nat} {left : P.π → Nat} :
      Credit μ v P n left → Sender μ v S → Sender μ (fun q => (n + 1) * v q) (Retry fuel P S)
  | reconnect {W Q R T E1 E2 : Type} {μ : W → Nat} {v : Q → Nat} {S : Service W Q R E2} {M : Service W T S.σ E1} {t : T} {fuel : Nat} :
      SilentSvc μ M → Sender μ v S → Sender μ v (Reconnect fuel S M t)
  | spawnReady {W Q R E : Type} {μ : W → Nat} {v : Q → Nat} {S : Service W Q R E} {rt : Runtime W} {fuel : Nat} : (∀ w, μ (rt.arm w) ≤ μ w) → Sender μ v S → Sender μ v (SpawnReady fuel rt S)
  | balance {W Q R E K DE BE : Type} [DecidableEq K] {μ : W → Nat} {v : Q → Nat} {B : BalCfg W Q R E K DE BE} {fuel : Nat} :
      (∀ d, Silent μ (B.D.poll d)) → (∀ s, Silent μ (B.L.load s)) → (∀ n, SilentFn μ (B.V.order n)) → Sender μ v B.S → Sender μ v (Tower.balance B fuel)
  | makeBalance {W Q R E K DE BE T ME : Type} [DecidableEq K] {μ : W → Nat} {v : T → Nat} {B : BalCfg W Q R E K DE BE} {seed : Act W B.G.ρ} {M : Service W T B.D.δ ME} :
      Silent μ seed → Sender μ v M → Sender μ v (Tower.makeBalance B seed M)

/-- **C84.** `poll_ready` of a stack sends nothing; `call` and the polls of the response future together send at most what the stack says. -/
theorem C84_stack {W Q R E : Type} {μ : W → Nat} {v : Q → Nat} {S : Service W Q R E} (h : Sender μ v S) : Sends μ v S := by
  induction h with
  | base h => exact h
  | weaken hv _ ih => exact ih.mono hv
  | serviceFn h1 h2 => exact ServiceFn.sends h1 h2
  | mapRequest h1 h2 _ ih => exact MapRequest.sends h1 h2 ih
  | mapResponse h1 _ ih => exact MapResponse.sends h1 ih
  | mapErr h1 _ ih => exact MapErr.sends h1 ih
  | mapResult h1 _ ih => exact MapResult.sends h1 ih
  | «then» h1 h2 _ ih => exact Then.sends h1 h2 ih
  | andThen h1 h2 _ ih => exact AndThen.sends h1 h2 ih
  | either _ _ ih ih' => exact Either.sends ih ih'
  | optional _ ih => exact Optional.sends ih
  | futureService h1 _ ih => exact FutureService.sends h1 ih
  | boxed _ ih => exact BoxService.sends ih
  | timeout h1 _ ih => exact Timeout.sends h1 ih
  | loadShed _ ih => exact LoadShed.sends ih
  | rateLimit h1 _ ih => exact RateLimit.sends h1 ih
  | concurrencyLimit h1 _ ih => exact ConcurrencyLimit.sends h1 ih
  | filter h1 h2 _ ih => exact Filter.sends h1 h2 ih
  | asyncFilter pc h1 h2 h3 _ ih => exact AsyncFilter.sends pc h1 h2 h3 ih
  | steer h1 _ ih => exact Steer.sends h1 ih
  | latency h1 _ ih => exact Latency.sends h1 ih
  | delay h1 h2 _ ih => exact Delay.sends h1 h2 ih
  | select h1 h2 h3 _ _ ih ih' => exact Select.sends h1 h2 h3 ih ih'
  | hedge h1 h2 h3 h4 h5 h6 _ ih => exact Hedge.sends h1 h2 h3 h4 h5 h6 ih
  | constant _ ih => exact Constant.sends ih
  | tracked _ ih => exact tracked.sends ih
  | intoService _ ih => exact IntoService.sends ih
  | retry h1 _ ih => exact Retry.sends h1 ih
  | reconnect h1 _ ih => exact Reconnect.sends h1 ih
  | spawnReady h1 _ ih => exact SpawnReady.sends h1 ih
  | balance h1 h2 h3 _ ih => exact balance.sends h1 h2 h3 ih
  | makeBalance h1 _ ih => exact makeBalance.sends h1 ih

/-- **C84.** Whatever the users of a stack do with any number of handles and response futures, in any order, what has been sent to the services at the bottom is at most the sum of what the stack says, over the
requests they passed to `call`. -/
theorem C84_history {W Q R E : Type} {μ : W → Nat} {v : Q → Nat} {S : Service W Q R E} (h : Sender μ v S) {still : W → W → Prop} (hs : ∀ w w', still w w' → μ w' ≤ μ w) {handles : List S.σ} {w : W}
    {x : Party S} (hr : PartyRun S still handles w x) : μ x.world ≤ μ w + (x.sent.map v).sum := by
  obtain ⟨pot, hp⟩ := C84_stack h
  have := hr.sends hp hs
  omega

/-- Middleware over services that keep a record of their calls, with the number of times that a request may reach them: one for most middleware, twice as often through a `Hedge`, and `n + 1` times as often
through a `Retry` with a policy that retries a request at most `n` times. -/
inductive Fanout {Q : Type} : {W R E : Type} → (W → List Q) → Nat → Service W Q R E → Prop
  | base {W R E : Type} {log : W → List Q} {S : Service W Q R E} : Records log S → Fanout log 1 S
  | weaken {W R E : Type} {log : W → List Q} {k k' : Nat} {S : Service W Q R E} : k ≤ k' → Fanout log k S → Fanout log k' S
  | mapResponse {W R R' E : Type} {log : W → List Q} {k : Nat} {S : Service W Q R E} {f : R → W → R' × W} : (∀ r, LeavesFn log (f r)) → Fanout log k S → Fanout log k (MapResponse f S)
  | mapErr {W R E E' : Type} {log : W → List Q} {k : Nat} {S : Service W Q R E} {f : E → W → E' × W} : (∀ e, LeavesFn log (f e)) → Fanout log k S → Fanout log k (MapErr f S)
  | mapResult {W R R' E E' : Type} {log : W → List Q} {k : Nat} {S : Service W Q R E} {into : E → E'} {f : Except E R → W → Except E' R' × W} :
      (∀ r, LeavesFn log (f r)) → Fanout log k S → Fanout log k (MapResult into f S)
  | then {W R R' E E' : Type} {log : W → List Q} {k : Nat} {S : Service W Q R E} {into : E → E'} {G : Fut W (Except E' R')} {f : Except E R → W → G.φ × W} :
      (∀ g, Leaves log (G.poll g)) → (∀ r, LeavesFn log (f r)) → Fanout log k S → Fanout log k (Then into S G f)
  | andThen {W R R' E E' : Type} {log : W → List Q} {k : Nat} {S : Service W Q R E} {into : E → E'} {G : Fut W (Except E' R')} {f : R → W → G.φ × W} :
      (∀ g, Leaves log (G.poll g)) → (∀ r, LeavesFn log (f r)) → Fanout log k S → Fanout log k (AndThen into S G f)
  | either {W R E : Type} {log : W → List Q} {k : Nat} {S T : Service W Q R E} : Fanout log k S → Fanout log k T → Fanout log k (Either S T)
  | optional {W R E : Type} {log : W → List Q} {k : Nat} {S : Service W Q R E} : Fanout log k S → Fanout log k (Optional S)
  | futureService {W R E : Type} {log : W → List Q} {k : Nat} {S : Service W Q R E} {F : Fut W (Except E S.σ)} {cl : F.φ → F.φ} :
      (∀ g, Leaves log (F.poll g)) → Fanout log k S → Fanout log k (FutureService S F cl)
  | boxed {W R E : Type} {log : W → List Q} {k : Nat} {S : Service W Q R E} : Fanout log k S → Fanout log k (BoxService S)
  | timeout {W R E : Type} {log : W → List Q} {k : Nat} {S : Service W Q R E} {C : Clock W} {d : Nat} : (∀ t w, log (C.arm t w) = log w) → Fanout log k S → Fanout log k (Timeout C d S)
  | loadShed {W R E : Type} {log : W → List Q} {k : Nat} {S : Service W Q R E} : Fanout log k S → Fanout log k (LoadShed S)
  | rateLimit {W R E : Type} {log : W → List Q} {k : Nat} {S : Service W Q R E} {C : Clock W} {r : Rate} : (∀ t w, log (C.arm t w) = log w) → Fanout log k S → Fanout log k (RateLimit C r S)
  | concurrencyLimit {W R E : Type} {log : W → List Q} {k : Nat} {S : Service W Q R E} {debug : Bool} {V : SemView W} :
      (∀ a, LeavesFn log (V.pollAcquire a)) → Fanout log k S → Fanout log k (ConcurrencyLimit debug V S)
  | filter {W R E E' : Type} {log : W → List Q} {k : Nat} {S : Service W Q R E} {into : E → E'} {check : Q → W → Except E' Q × W} :
      (∀ q w q', (check q w).1 = .ok q' → q' = q) → (∀ q, LeavesFn log (check q)) → Fanout log k S → Fanout log k (Filter into check S)
  | asyncFilter {W R E E' : Type} {log : W → List Q} {k : Nat} {S : Service W Q R E} {into : E → E'} {P : Fut W (Except E' Q)} {check : Q → W → P.φ × W} (about : P.φ → Q) :
      (∀ q w, about (check q w).1 = q) → (∀ c w p c' w', (P.poll c).run w = .ok (p, c') w' → about c' = about c ∧ log w' = log w ∧ ∀ q, p = .ready (.ok q) → q = about c) → (∀ q, LeavesFn log (check q)) →
      Fanout log k S → Fanout log k (AsyncFilter into P check S)
  | steer {W R E : Type} {log : W → List Q} {k : Nat} {S : Service W Q R E} {pick : Q → List S.σ → W → Nat × W} : (∀ q ss, LeavesFn log (pick q ss)) → Fanout log k S → Fanout log k (Steer S pick)
  | hedge {W R E E' : Type} {log : W → List Q} {k : Nat} {S : Service W Q R E} {into : E → E'} {H : HedgeCfg W Q} :
      (∀ t w, log (H.clock.arm t w) = log w) → (∀ t w, log (H.record t w) = log w) → LeavesFn log H.delay → LeavesFn log H.enough →
      (∀ q w q', H.cloneRequest q w = some q' → q' = q) → Fanout log k S → Fanout log (2 * k) (Hedge into H S)
  | constant {W R E M : Type} {log : W → List Q} {k : Nat} {S : Service W Q R E} : Fanout log k S → Fanout log k (Constant M S)
  | tracked {W R R' E : Type} {log : W → List Q} {k : Nat} {S : Service W Q R E} {T : Tracker} {C : Completion R R'} : Fanout log k S → Fanout (fun w => log w.2) k (Tower.tracked T C S)
  | intoService {W R E : Type} {log : W → List Q} {k : Nat} {S : Service W Q R E} : Fanout log k S → Fanout log k (IntoService S)
  | retry {W R E : Type} {log : W → List Q} {k : Nat} {S : Service W Q R E} {P : RetryPolicy W Q R E} {fuel n : Nat} {left : P.π → Nat} :
      Limited log P n left → Fanout log k S → Fanout log ((n + 1) * k) (Retry fuel P S)
  | reconnect {W R T E1 E2 : Type} {log : W → List Q} {k : Nat} {S : Service W Q R E2} {M : Service W T S.σ E1} {t : T} {fuel : Nat} :
      (∀ m, Leaves log (M.pollReady m)) → (∀ m t, Leaves log (M.call m t)) → (∀ f, Leaves log (M.poll f)) → Fanout log k S → Fanout log k (Reconnect fuel S M t)
  | spawnReady {W R E : Type} {log : W → List Q} {k : Nat} {S : Service W Q R E} {rt : Runtime W} {fuel : Nat} : (∀ w, log (rt.arm w) = log w) → Fanout log k S → Fanout log k (SpawnReady fuel rt S)
  | balance {W R E K DE BE : Type} [DecidableEq K] {log : W → List Q} {k : Nat} {B : BalCfg W Q R E K DE BE} {fuel : Nat} :
      (∀ d, Leaves log (B.D.poll d)) → (∀ s, Leaves log (B.L.load s)) → (∀ n, LeavesFn log (B.V.order n)) → Fanout log k B.S → Fanout log k (Tower.balance B fuel)

/-- the record, weighed -/
def weigh {W Q : Type} (log : W → List Q) (u : Q → Nat) (w : W) : Nat := ((log w).map u).sum

theorem weigh_eq {W Q : Type} {log : W → List Q} {u : Q → Nat} {w w' : W} (h : log w' = log w) : weigh log u w' ≤ weigh log u w := by unfold weigh; rw [h]
theorem Leaves.quiet {W Q α : Type} {log : W → List Q} {x : Act W α} (h : Leaves log x) (u : Q → Nat) : Silent (weigh log u) x := fun w a w' hr => weigh_eq (h w a w' hr)
theorem LeavesFn.quiet {W Q α : Type} {log : W → List Q} {f : W → α × W} (h : LeavesFn log f) (u : Q → Nat) : SilentFn (weigh log u) f := fun w => weigh_eq (h w)

theorem Records.sends {W Q R E : Type} {log : W → List Q} {S : Service W Q R E} (h : Records log S) (u : Q → Nat) : Sends (weigh log u) u S := by
  refine ⟨fun _ => 0, fun s w p s' w' hr => weigh_eq (h.ready s w p s' w' hr), fun s q w f s' w' hr => ?_, fun f w p f' w' hr => weigh_eq (h.poll f w p f' w' hr)⟩
  unfold weigh
  rw [h.call s q w f s' w' hr]
  simp

theorem Limited.credit {W Q R E : Type} {log : W → List Q} {P : RetryPolicy W Q R E} {n : Nat} {left : P.π → Nat} (h : Limited log P n left) (u : Q → Nat) (v : Q → Nat) : Credit (weigh log u) v P n left where
  bound := h.bound
  retry := h.retry
  less p q r w := by rw [h.same p q r w]
  copy p q w c hc := by rw [h.copy p q w c hc]
  keep := h.keep
  clone := h.clone
  quiet p q r := (h.leaves p q r).quiet u
  quiet' p q := (h.leaves' p q).quiet u
  quiet'' r := (h.leaves'' r).quiet u

theorem Fanout.sender {W Q R E : Type} {log : W → List Q} {k : Nat} {S : Service W Q R E} (h : Fanout log k S) (u : Q → Nat) : Sender (weigh log u) (fun q => k * u q) S := by
  induction h with
  | base h => exact .weaken (v := u) (fun q => by simp) (.base (h.sends u))
  | weaken hk _ ih => exact .weaken (fun q => Nat.mul_le_mul_right _ hk) ih
  | mapResponse h1 _ ih => exact .mapResponse (fun r => (h1 r).quiet u) ih
  | mapErr h1 _ ih => exact .mapErr (fun r => (h1 r).quiet u) ih
  | mapResult h1 _ ih => exact .mapResult (fun r => (h1 r).quiet u) ih
  | «then» h1 h2 _ ih => exact .then (fun g => (h1 g).quiet u) (fun r => (h2 r).quiet u) ih
  | andThen h1 h2 _ ih => exact .andThen (fun g => (h1 g).quiet u) (fun r => (h2 r).quiet u) ih
  | either _ _ ih ih' => exact .either ih ih'
  | optional _ ih => exact .optional ih
  | futureService h1 _ ih => exact .futureService (fun g => (h1 g).quiet u) ih
  | boxed _ ih => exact .boxed ih
  | timeout h1 _ ih => exact .timeout (fun t w => weigh_eq (h1 t w)) ih
  | loadShed _ ih => exact .loadShed ih
  | rateLimit h1 _ ih => exact .rateLimit (fun t w => weigh_eq (h1 t w)) ih
  | concurrencyLimit h1 _ ih => exact .concurrencyLimit (fun a => (h1 a).quiet u) ih
  | filter h1 h2 _ ih => exact .filter (fun q w q' hq => by rw [h1 q w q' hq]) (fun q => (h2 q).quiet u) ih
  | @asyncFilter W R E E' log k S into P check about h1 h2 h3 _ ih =>
    refine .asyncFilter (fun c => k * u (about c)) (fun q w => ?_) (fun c w p c' w' hr => ?_) (fun q => (h3 q).quiet u) ih
    · show k * u (about (check q w).1) ≤ _
      rw [h1]
    · obtain ⟨h4, h5, h6⟩ := h2 c w p c' w' hr
      exact ⟨by rw [h4], weigh_eq h5, fun q hq => by rw [h6 q hq]⟩
  | steer h1 _ ih => exact .steer (fun q ss => (h1 q ss).quiet u) ih
  | @hedge W R E E' log k S into H h1 h2 h3 h4 h5 _ ih =>
    refine .hedge (fun t w => weigh_eq (h1 t w)) (fun t w => weigh_eq (h2 t w)) (h3.quiet u) (h4.quiet u) (fun q => ?_) (fun q w q' hq => ?_) ih
    · rw [Nat.mul_assoc, Nat.two_mul]; exact Nat.le_add_right _ _
    · rw [h5 q w q' hq, Nat.mul_assoc, Nat.two_mul]
  | constant _ ih => exact .constant ih
  | tracked _ ih => exact .tracked ih
  | intoService _ ih => exact .intoService ih
  | @retry W R E log k S P fuel n left h1 _ ih => exact .weaken (fun q => by rw [Nat.mul_assoc]) (.retry (h1.credit u _) ih)
  | reconnect h1 h2 h3 _ ih => exact .reconnect ⟨fun m => (h1 m).quiet u, fun m t => (h2 m t).quiet u, fun f => (h3 f).quiet u⟩ ih
  | spawnReady h1 _ ih => exact .spawnReady (fun w => weigh_eq (h1 w)) ih
  | balance h1 h2 h3 _ ih => exact .balance (fun d => (h1 d).quiet u) (fun s => (h2 s).quiet u) (fun n => (h3 n).quiet u) ih

theorem weigh_count {W Q : Type} [DecidableEq Q] (l : List Q) (q : Q) : (l.map (fun a => if a = q then 1 else 0)).sum = l.count q := by
  induction l with
  | nil => rfl
  | cons a l ih =>
    simp only [List.map_cons, List.sum_cons, List.count_cons, ih, beq_iff_eq]
    split <;> omega

/-- **C84.** Each request reaches the services at the bottom at most as often as the stack says, for each time that it was passed to `call`: at most once if there is no `Hedge` and no `Retry`. It holds whatever
the users do with any number of handles and response futures, in any order, and whatever else happens. -/
theorem C84_copies {W Q R E : Type} [DecidableEq Q] {log : W → List Q} {k : Nat} {S : Service W Q R E} (h : Fanout log k S) {still : W → W → Prop} (hs : ∀ w w', still w w' → log w' = log w) {handles : List S.σ}
    {w : W} {x : Party S} (hr : PartyRun S still handles w x) (q : Q) : (log x.world).count q ≤ (log w).count q + k * x.sent.count q := by
  have := C84_history (h.sender (fun a => if a = q then 1 else 0)) (fun w w' hw => weigh_eq (hs w w' hw)) hr
  unfold weigh at this
  rw [weigh_count (W := W), weigh_count (W := W)] at this
  have h2 : ((x.sent.map fun a => k * if a = q then 1 else 0)).sum = k * x.sent.count q := by
    generalize x.sent = l
    induction l with
    | nil => rfl
    | cons a l ih =>
      simp only [List.map_cons, List.sum_cons, List.count_cons, ih, beq_iff_eq]
      split <;> (simp [Nat.mul_add]; try omega)
  rw [h2] at this
  exact this

/-- **C84.** In number: the services at the bottom are called at most `k` times for each call of the stack. -/
theorem C84_calls {W Q R E : Type} {log : W → List Q} {k : Nat} {S : Service W Q R E} (h : Fanout log k S) {still : W → W → Prop} (hs : ∀ w w', still w w' → log w' = log w) {handles : List S.σ}
    {w : W} {x : Party S} (hr : PartyRun S still handles w x) : (log x.world).length ≤ (log w).length + k * x.sent.length := by
  have := C84_history (h.sender (fun _ => 1)) (fun w w' hw => weigh_eq (hs w w' hw)) hr
  unfold weigh at this
  simp only [List.map_const', List.sum_replicate, smul_eq_mul, Nat.mul_one] at this
  rw [Nat.mul_comm k]
  exact this

/-- The polls of a future, with whatever else happens between them. -/
inductive PolledF {W α : Type} (G : Fut W α) (still : W → W → Prop) (g : G.φ) (w : W) : G.φ → W → Prop
  | start : PolledF G still g w g w
  | poll {g' g'' : G.φ} {w' w'' : W} {p : Poll α} : PolledF G still g w g' w' → (G.poll g').run w' = .ok (p, g'') w'' → PolledF G still g w g'' w''
  | env {g' : G.φ} {w' w'' : W} : PolledF G still g w g' w' → still w' w'' → PolledF G still g w g' w''

/-- **C84.** A `Oneshot` of `q` sends at most what the stack sends for `q`, however often it is polled. -/
theorem C84_oneshot {W Q R E : Type} {μ : W → Nat} {v : Q → Nat} {S : Service W Q R E} (h : Sender μ v S) {still : W → W → Prop} (hs : ∀ w w', still w w' → μ w' ≤ μ w) {s : S.σ} {q : Q} {w w' : W}
    {x : (Oneshot S).φ} (hr : PolledF (Oneshot S) still (.notReady s (some q)) w x w') : μ w' ≤ μ w + v q := by
  obtain ⟨pot, hp⟩ := C84_stack h
  suffices μ w' + potOneshot v pot x ≤ μ w + v q by omega
  induction hr with
  | start => exact Nat.le_refl _
  | poll _ hr ih => exact Nat.le_trans (gives_iff.1 (Oneshot.sends hp _ _) _ _ hr) ih
  | env _ hst ih => have := hs _ _ hst; omega

/-! ## Examples -/

namespace Demo84

/-- The world is the record. Responds at the first poll, with an error if it has been called only once so far. -/
def flaky : Fut (List Nat) (Except String Nat) where
  φ := Nat
  poll q := Act.lift fun w => ((.ready (if w.length < 2 then .error "busy" else .ok q), q), w)

/-- A server with a record of its calls. -/
@[reducible] def server : Service (List Nat) Nat Nat String := ServiceFn flaky (fun q w => (q, w ++ [q]))

theorem server_records : Records id server where
  ready s w p s' w' hr := by cases hr; rfl
  call s q w f s' w' hr := by cases hr; rfl
  poll f w p f' w' hr := by
    cases hr; rfl

/-- Retries an error once. The state is the number of retries left. -/
def once : RetryPolicy (List Nat) Nat Nat String where
  π := Bool
  ρ := Unit
  retry p q r w := match r, p with
    | .error e, true => ((some (), false, q, .error e), w)
    | r, p => ((none, p, q, r), w)
  cloneRequest p q w := ((some q, p), w)
  wait r w := ((.ready (), r), w)
  clone := id

theorem once_limited : Limited id once 1 (fun p : Bool => p.toNat) where
  bound p := Bool.toNat_le p
  retry p q r w := by cases p <;> cases r <;> exact Nat.le_refl _
  same p q r w := by cases p <;> cases r <;> rfl
  copy p q w c hc := by cases hc; rfl
  keep p q w := Nat.le_refl _
  clone p := Nat.le_refl _
  leaves p q r w := by cases p <;> cases r <;> rfl
  leaves' p q w := rfl
  leaves'' r w := rfl

/-- the clock -/
def clock : Clock (List Nat) where
  now := List.length
  fired t w := decide (t ≤ w.length)
  sound d w h := of_decide_eq_true h

/-- `Timeout` over `Retry` over the server: a request reaches the server at most twice -/
theorem stack_fanout : Fanout id 2 (Timeout clock 100 (Retry 10 once server)) :=
  .timeout (fun t w => rfl) (.retry once_limited (.base server_records))

/-- a handle of the stack -/
def handle : (Timeout clock 100 (Retry 10 once server)).σ := (⟨true, ()⟩ : RetryState Bool Unit)

/-- It is sent twice indeed: the bound is met. -/
theorem stack_run : ∃ x : Party (Timeout clock 100 (Retry 10 once server)), PartyRun _ (fun w w' => w' = w) [handle] [] x ∧ x.sent = [7] ∧ x.world = [7, 7] := by
  refine ⟨_, .step (.step .start (.call (i := 0) (q := 7) rfl rfl)) (.poll (i := 0) rfl rfl), rfl, rfl⟩

/-- so `C84_copies` is about something -/
example : ∃ x : Party (Timeout clock 100 (Retry 10 once server)), x.sent = [7] ∧ x.world.count 7 = 2 ∧ x.world.count 7 ≤ 0 + 2 * x.sent.count 7 := by
  obtain ⟨x, h1, h2, h3⟩ := stack_run
  exact ⟨x, h2, by rw [h3]; rfl, C84_copies stack_fanout (fun w w' h => h) h1 7⟩

/-- A wrong middleware that calls the service inside twice and keeps the second future. -/
@[reducible] def Twice {W Q R E : Type} (S : Service W Q R E) : Service W Q R E where
  σ := S.σ
  φ := S.φ
  pollReady := S.pollReady
  call s q := do
    let (_, s') ← S.call s q
    S.call s' q
  poll := S.poll
  clone := S.clone

/-- **C84** is false of it. -/
theorem C84_twice_violates : ∃ x : Party (Twice server), PartyRun _ (fun w w' => w' = w) [()] [] x ∧ ¬ x.world.count 7 ≤ ([] : List Nat).count 7 + 1 * x.sent.count 7 := by
  refine ⟨_, .step .start (.call (i := 0) (q := 7) rfl rfl), ?_⟩
  decide

end Demo84

end Tower
