import Verif.Model.Loops
import Verif.Proof.Prompt2
import Verif.Proof.Prompt3

/-! # C81: polls return

`poll_ready`, `call` and the `poll` of a response future may not block the thread: they return (`Pending` if there is nothing to return yet) or panic. `Prompt S` says that of a service. Here: which stacks keep it, and, for the three middleware that have a loop without a bound, exactly when they do not. -/

set_option linter.unusedSimpArgs false

namespace Tower
open Act

/-- All stacks of middleware, over services that return. Where a middleware runs code of the user or of the runtime that is not a pure function (futures, the discovery stream, load metrics), that code has to return as well. `Retry` has to have a bounded policy; the connections `Reconnect` makes do not fail at once; the service under `SpawnReady` does not unlearn that it is ready; the discovery stream of a balancer is never ready more than `fuel` times in a row. -/
inductive PStack : {W Q R E : Type} → Service W Q R E → Prop
  | base {W Q R E : Type} {S : Service W Q R E} : Prompt S → PStack S
  | serviceFn {W Q R E : Type} {F : Fut W (Except E R)} {f : Q → W → F.φ × W} : (∀ x, (F.poll x).Returns) → PStack (ServiceFn F f)
  | shared {W Q V E : Type} {cl : V → V} : PStack (Shared (W := W) (Tgt := Q) V cl E)
  | mapRequest {W Q Q' R E : Type} {S : Service W Q R E} {f : Q' → W → Q × W} : PStack S → PStack (MapRequest f S)
  | mapResponse {W Q R R' E : Type} {S : Service W Q R E} {f : R → W → R' × W} : PStack S → PStack (MapResponse f S)
  | mapErr {W Q R E E' : Type} {S : Service W Q R E} {f : E → W → E' × W} : PStack S → PStack (MapErr f S)
  | mapResult {W Q R R' E E' : Type} {S : Service W Q R E} {into : E → E'} {f : Except E R → W → Except E' R' × W} : PStack S → PStack (MapResult into f S)
  | mapFuture {W Q R R' E E' : Type} {S : Service W Q R E} {into : E → E'} {G : Fut W (Except E' R')} {f : S.φ → W → G.φ × W} : (∀ x, (G.poll x).Returns) → PStack S → PStack (MapFuture into S G f)
  | then {W Q R R' E E' : Type} {S : Service W Q R E} {into : E → E'} {G : Fut W (Except E' R')} {f : Except E R → W → G.φ × W} : (∀ x, (G.poll x).Returns) → PStack S → PStack (Then into S G f)
  | andThen {W Q R R' E E' : Type} {S : Service W Q R E} {into : E → E'} {G : Fut W (Except E' R')} {f : R → W → G.φ × W} : (∀ x, (G.poll x).Returns) → PStack S → PStack (AndThen into S G f)
  | either {W Q R E : Type} {A B : Service W Q R E} : PStack A → PStack B → PStack (Either A B)
  | optional {W Q R E : Type} {S : Service W Q R E} : PStack S → PStack (Optional S)
  | futureService {W Q R E : Type} {S : Service W Q R E} {F : Fut W (Except E S.σ)} {cl : F.φ → F.φ} : (∀ x, (F.poll x).Returns) → PStack S → PStack (FutureService S F cl)
  | boxed {W Q R E : Type} {S : Service W Q R E} : PStack S → PStack (BoxService S)
  | timeout {W Q R E : Type} {S : Service W Q R E} {C : Clock W} {d : Nat} : PStack S → PStack (Timeout C d S)
  | loadShed {W Q R E : Type} {S : Service W Q R E} : PStack S → PStack (LoadShed S)
  | rateLimit {W Q R E : Type} {S : Service W Q R E} {C : Clock W} {r : Rate} : PStack S → PStack (RateLimit C r S)
  | concurrencyLimit {W Q R E : Type} {S : Service W Q R E} {debug : Bool} {V : SemView W} : PStack S → PStack (ConcurrencyLimit debug V S)
  | filter {W Q Q' R E E' : Type} {S : Service W Q R E} {into : E → E'} {check : Q' → W → Except E' Q × W} : PStack S → PStack (Filter into check S)
  | asyncFilter {W Q Q' R E E' : Type} {S : Service W Q R E} {into : E → E'} {P : Fut W (Except E' Q)} {check : Q' → W → P.φ × W} : (∀ x, (P.poll x).Returns) → PStack S → PStack (AsyncFilter into P check S)
  | steer {W Q R E : Type} {S : Service W Q R E} {pick : Q → List S.σ → W → Nat × W} : PStack S → PStack (Steer S pick)
  | latency {W Q R E E' : Type} {S : Service W Q R E} {into : E → E'} {C : Clock W} {record : Nat → W → W} : PStack S → PStack (Latency into C record S)
  | delay {W Q R E E' : Type} {S : Service W Q R E} {into : E → E'} {C : Clock W} {d : Q → W → Nat × W} : PStack S → PStack (Delay into C d S)
  | select {W Q R E : Type} {A B : Service W Q R E} {cr : Q → W → Option Q × W} : PStack A → PStack B → PStack (Select cr A B)
  | hedge {W Q R E E' : Type} {S : Service W Q R E} {into : E → E'} {H : HedgeCfg W Q} : PStack S → PStack (Hedge into H S)
  | constant {W Q R E M : Type} {S : Service W Q R E} : PStack S → PStack (Constant M S)
  | tracked {W Q R R' E : Type} {S : Service W Q R E} {T : Tracker} {C : Completion R R'} : T.handle.Returns → (∀ x, (T.dropH x).Returns) → PStack S → PStack (Tower.tracked T C S)
  | intoService {W Q R E : Type} {S : Service W Q R E} : PStack S → PStack (IntoService S)
  | retry {W Q R E : Type} {S : Service W Q R E} {P : RetryPolicy W Q R E} {μ : P.π → Nat} {bound fuel : Nat} : RetryBounded P μ bound → 3 * bound + 3 ≤ fuel → PStack S → PStack (Retry fuel P S)
  | reconnect {W Q R T E1 E2 : Type} {S : Service W Q R E2} {M : Service W T S.σ E1} {t : T} {fuel : Nat} : FreshReady S M → 5 ≤ fuel → PStack S → PStack M → PStack (Reconnect fuel S M t)
  | spawnReady {W Q R E : Type} {S : Service W Q R E} {rt : Runtime W} {fuel : Nat} : StaysReady S → 4 ≤ fuel → PStack S → PStack (SpawnReady fuel rt S)
  | balance {W Q R E K DE BE : Type} [DecidableEq K] {B : BalCfg W Q R E K DE BE} {fuel : Nat} : (∀ s, (B.L.load s).Returns) → (∀ d, (B.D.poll d).Returns) →
      (∀ d w, ∃ chs, Discovered B.D d w chs ∧ chs.length < fuel) → PStack B.S → PStack (Tower.balance B fuel)
  | makeBalance {W Q R E K DE BE T ME : Type} [DecidableEq K] {B : BalCfg W Q R E K DE BE} {seed : Act W B.G.ρ} {M : Service W T B.D.δ ME} : seed.Returns → PStack M → PStack (Tower.makeBalance B seed M)

/-- **C81.** In any stack of the middleware, over any services that return, every `poll_ready`, every `call` and every `poll` of a response future returns, in every state and at any time. -/
theorem C81_stack {W Q R E : Type} {S : Service W Q R E} (h : PStack S) : Prompt S := by
  induction h with
  | base h => exact h
  | serviceFn h => exact ServiceFn.prompt h
  | shared => exact Shared.prompt
  | mapRequest _ ih => exact MapRequest.prompt ih
  | mapResponse _ ih => exact MapResponse.prompt ih
  | mapErr _ ih => exact MapErr.prompt ih
  | mapResult _ ih => exact MapResult.prompt ih
  | mapFuture h _ ih => exact MapFuture.prompt h ih
  | «then» h _ ih => exact Then.prompt h ih
  | andThen h _ ih => exact AndThen.prompt h ih
  | either _ _ ia ib => exact Either.prompt ia ib
  | optional _ ih => exact Optional.prompt ih
  | futureService h _ ih => exact FutureService.prompt ih h
  | boxed _ ih => exact BoxService.prompt ih
  | timeout _ ih => exact Timeout.prompt ih
  | loadShed _ ih => exact LoadShed.prompt ih
  | rateLimit _ ih => exact RateLimit.prompt ih
  | concurrencyLimit _ ih => exact ConcurrencyLimit.prompt ih
  | filter _ ih => exact Filter.prompt ih
  | asyncFilter h _ ih => exact AsyncFilter.prompt h ih
  | steer _ ih => exact Steer.prompt ih
  | latency _ ih => exact Latency.prompt ih
  | delay _ ih => exact Delay.prompt ih
  | select _ _ ia ib => exact Select.prompt ia ib
  | hedge _ ih => exact Hedge.prompt ih
  | constant _ ih => exact Constant.prompt ih
  | tracked h1 h2 _ ih => exact tracked.prompt h1 h2 ih
  | intoService _ ih => exact IntoService.prompt ih
  | retry hP hf _ ih => exact Retry.prompt ih hP hf
  | reconnect hf hn _ _ is im => exact Reconnect.prompt im is hf hn
  | spawnReady hr hn _ ih => exact SpawnReady.prompt ih hr hn
  | balance h1 h2 h3 _ ih => exact Balance.prompt ih h1 h2 h3
  | makeBalance hs _ ih => exact makeBalance.prompt hs ih

/-! ## The loops without a bound -/

section loops
variable {W Req Res Err : Type}

/-- **C81.** The future of `Retry` is still in its loop after `3 * k` steps if and only if `k` attempts in a row have had an outcome at once, with a retry granted, waited for and sent at once each time. (Over a service that returns.) -/
theorem C81_retry {P : RetryPolicy W Req Res Err} {S : Service W Req Res Err} (h : Prompt S) (k : Nat) {x : (Retry (3 * k) P S).φ} {f : S.φ} {w : W} (hx : x.st = .called f) :
    ((Retry (3 * k) P S).poll x).run w = .spin ↔ ∃ y v, RetryRounds P S k x w y v := retry_spins h k hx

/-- **C81.** `poll_ready` of a `Reconnect` that has no connection is still in its loop after `3 * k` steps if and only if `k` times in a row the maker was ready at once, connected at once, and the connection failed at once. -/
theorem C81_reconnect {Tgt E1 E2 : Type} {S : Service W Req Res E2} {M : Service W Tgt S.σ E1} {t : Tgt} (hM : Prompt M) (hS : Prompt S) (k : Nat) {m : M.σ} {o : Option E1} {w : W} :
    ((Reconnect (3 * k) S M t).pollReady ⟨m, .idle, o⟩).run w = .spin ↔ ∃ m1 v, ReconRounds S M t k m w m1 v := recon_spins hM hS k

/-- **C81.** `poll_ready` of `SpawnReady` is still in its loop after `2 * k` steps if and only if `k` times in a row the service was not ready and the task spawned to wait for it had finished before it was looked at. -/
theorem C81_spawn_ready {S : Service W Req Res Err} {R : Runtime W} (h : Prompt S) (k : Nat) {s : S.σ} {w : W} :
    ((SpawnReady (2 * k) R S).pollReady (.service (some s))).run w = .spin ↔ ∃ s1 v, SpawnRounds R S k s w s1 v := spawn_spins h k

/-! ## The loops that end after two rounds -/

/-- **C81.** The loop of `Oneshot::poll` ends within two rounds, and does what the model's `Oneshot` does. -/
theorem C81_oneshot_loop (S : Service W Req Res Err) (n : Nat) (x : (Oneshot S).φ) (w : W) : (oneshotLoop S (n + 2) x).run w = ((Oneshot S).poll x).run w := by
  cases x with
  | notReady s req => rfl
  | called f => rfl
  | done => rfl

/-- **C81.** The same for `FutureService::poll_ready`. -/
theorem C81_future_service_loop (S : Service W Req Res Err) (F : Fut W (Except Err S.σ)) (cl : F.φ → F.φ) (n : Nat) (x : (FutureService S F cl).σ) (w : W) :
    (futureServiceLoop S F (n + 2) x).run w = ((FutureService S F cl).pollReady x).run w := by
  cases x with
  | future f => rfl
  | service s => rfl

/-- **C81.** The same for the future of `AsyncFilter`. -/
theorem C81_async_filter_loop {R1 R2 BErr : Type} (into : Err → BErr) (P : Fut W (Except BErr R2)) (check : R1 → W → P.φ × W) (S : Service W R2 Res Err) (n : Nat) (x : (AsyncFilter into P check S).φ) (w : W) :
    (asyncFilterLoop into P S (n + 2) x).run w = ((AsyncFilter into P check S).poll x).run w := by
  cases x with
  | check c s => rfl
  | waitResponse x => rfl

/-- **C81.** The same for the future of the hedge's `Delay`. -/
theorem C81_delay_loop {BErr : Type} (into : Err → BErr) (C : Clock W) (delay : Req → W → Nat × W) (S : Service W Req Res Err) (n : Nat) (x : (Delay into C delay S).φ) (w : W) :
    (delayLoop into C S (n + 2) x).run w = ((Delay into C delay S).poll x).run w := by
  cases x with
  | delaying dl r s => rfl
  | called x => rfl

end loops

/-- **C81.** A `ConcurrencyLimit` (whose semaphore is never closed) over a service that does not unlearn that it is ready does not either: the hypothesis of `SpawnReady` is met by the service it is made for. -/
theorem C81_limit_stays_ready {W Req Res Err : Type} {debug : Bool} {V : SemView W} (hV : V.NeverClosed) {S : Service W Req Res Err} (h : StaysReady S) : StaysReady (ConcurrencyLimit debug V S) := by
  have key : ∀ (i : S.σ) (a : V.α) (v : W) (i0 : S.σ) (v0 v1 : W), (S.pollReady i0).run v0 = .ok (.ready (.ok ()), i) v1 → ∀ s'' v', ((ConcurrencyLimit debug V S).pollReady ⟨i, a, true⟩).run v ≠ .ok (.pending, s'') v' := by
    intro i a v i0 v0 v1 h0 s'' v' h2
    simp only [ConcurrencyLimit, if_true] at h2
    obtain ⟨⟨p, j⟩, w2, h3, h4⟩ := run_bind_eq_ok.1 h2
    simp at h4
    obtain ⟨⟨rfl, _⟩, _⟩ := h4
    exact h _ _ _ _ h0 _ _ _ h3
  intro s w s' w' h1 v s'' v' h2
  obtain ⟨i, a, b⟩ := s
  cases b with
  | true =>
    simp only [ConcurrencyLimit, if_true] at h1
    obtain ⟨⟨p, j⟩, w2, h3, h4⟩ := run_bind_eq_ok.1 h1
    simp at h4
    obtain ⟨⟨rfl, rfl⟩, _⟩ := h4
    exact key _ _ _ _ _ _ h3 _ _ h2
  | false =>
    simp only [ConcurrencyLimit, Bool.false_eq_true, if_false] at h1
    obtain ⟨⟨p, a'⟩, w2, h3, h4⟩ := run_bind_eq_ok.1 h1
    cases p with
    | pending =>
      simp at h4
      exact absurd (congrArg Prod.fst h4.1) (by simp)
    | ready got =>
      cases got with
      | false => exact absurd (congrArg Prod.fst (by simpa using h3 : _ ∧ _).1) (hV a w)
      | true =>
        simp only [Bool.not_true, Bool.and_false, Bool.false_eq_true, if_false] at h4
        obtain ⟨⟨q, j⟩, w3, h5, h6⟩ := run_bind_eq_ok.1 h4
        simp at h6
        obtain ⟨⟨rfl, rfl⟩, _⟩ := h6
        exact key _ _ _ _ _ _ h5 _ _ h2

/-! ## Where they do block -/

namespace DemoRet

/-- a connection whose readiness is what it is told to be -/
@[reducible] def conn (r : Except String Unit) : Service Nat Nat Nat String where
  σ := Unit
  φ := Nat
  pollReady _ := Act.lift fun w => ((.ready r, ()), w + 1)
  call _ q := pure (q, ())
  poll f := pure (.ready (.ok f), f)
  clone := id

/-- a maker that connects at once -/
@[reducible] def maker : Service Nat Nat Unit String where
  σ := Unit
  φ := Unit
  pollReady _ := pure (.ready (.ok ()), ())
  call _ _ := pure ((), ())
  poll _ := pure (.ready (.ok ()), ())
  clone := id

theorem conn_prompt (r : Except String Unit) : Prompt (conn r) := ⟨fun _ => .lift _, fun _ _ => .pure _, fun _ => .pure _⟩
theorem maker_prompt : Prompt maker := ⟨fun _ => .pure _, fun _ _ => .pure _, fun _ => .pure _⟩

/-- **C81, where it fails.** `Reconnect` over a maker that always connects at once, to a peer whose connections fail at once: `poll_ready` does not return, however long it is let run, although maker and connection return from every poll. -/
theorem C81_reconnect_spins (fuel : Nat) : ∀ (w : Nat) (o : Option String), ((Reconnect fuel (conn (.error "reset")) maker 7).pollReady ⟨(), .idle, o⟩).run w = .spin := by
  induction fuel using Nat.strong_induction_on with
  | _ n ih =>
    intro w o
    match n with
    | 0 => rfl
    | 1 => rfl
    | 2 => rfl
    | n + 3 => exact ih n (by omega) (w + 1) o

/-- always ready; its futures are never ready -/
@[reducible] def stuck : Service Nat Nat Nat String where
  σ := Unit
  φ := Nat
  pollReady _ := pure (.ready (.ok ()), ())
  call _ q := pure (q, ())
  poll f := pure (.pending, f)
  clone := id

/-- a stream that never ends and is always ready -/
@[reducible] def endless : ReqStream Nat Nat where
  τ := Nat
  poll n := pure (.ready (some n), n + 1)

theorem pollSome_stuck : ∀ (o q : List Nat) (w : Nat), ∃ r q', (pollSome stuck.poll o q).run w = .ok (r, q') w ∧ (r = .pending ∨ r = .ready none)
  | _, [], w => ⟨.ready none, [], by simp [pollSome], Or.inr rfl⟩
  | [], a :: q, w => ⟨.pending, a :: q, by simp [pollSome], Or.inl rfl⟩
  | i :: is, a :: q, w => by
    unfold pollSome
    split
    · exact pollSome_stuck is _ w
    · exact pollSome_stuck is _ w

/-- **C81, where it fails.** `call_all` over an endless stream that is always ready and a service that is always ready, whose responses take time: `poll_next` does not return; it goes on taking requests and sending them. -/
theorem C81_call_all_spins (V : Sched Nat) (fuel : Nat) : ∀ (q : List Nat) (r w : Nat),
    (CallAll.pollNext (S := stuck) (R := endless) (D := unorderedQ V stuck.poll) fuel ⟨some (), r, q, false, none⟩).run w = .spin := by
  induction fuel with
  | zero => intros; rfl
  | succ n ih =>
    intro q r w
    obtain ⟨p, q', h, hp⟩ := pollSome_stuck (V.order q.length w).1 q (V.order q.length w).2
    unfold CallAll.pollNext
    simp only [run_bind, run_lift]
    erw [h]
    rcases hp with rfl | rfl
    · exact ih (q' ++ [r]) (r + 1) _
    · exact ih (q' ++ [r]) (r + 1) _

/-- flips between ready and not ready whenever it is asked -/
@[reducible] def flicker : Service Bool Nat Nat String where
  σ := Unit
  φ := Nat
  pollReady _ := Act.lift fun w => ((if w = true then .ready (.ok ()) else .pending, ()), w)
  call _ q := pure (q, ())
  poll f := pure (.ready (.ok f), f)
  clone := id

/-- **C81, where it fails.** `SpawnReady` over a service that is ready whenever the task asks and not when `poll_ready` asks (somebody else takes what it needs in between), under a runtime that runs the task at once: `poll_ready` does not return. -/
theorem C81_spawn_ready_spins (fuel : Nat) : ((SpawnReady fuel ⟨fun _ => [true], fun _ => false, id⟩ flicker).pollReady (.service (some ()))).run false = .spin := by
  induction fuel using Nat.strong_induction_on with
  | _ n ih =>
    match n with
    | 0 => rfl
    | 1 => rfl
    | n + 2 => exact ih n (by omega)

/-! ## A stack that meets the hypotheses -/

/-- a policy that grants three retries -/
@[reducible] def three : RetryPolicy Nat Nat Nat (ReconErr String String) where
  π := Fin 4
  ρ := Unit
  retry p q r w := match p, r with
    | ⟨n + 1, h⟩, .error e => ((some (), ⟨n, by omega⟩, q, .error e), w)
    | p, r => ((none, p, q, r), w)
  cloneRequest p q w := ((some q, p), w)
  wait _ w := ((.ready (), ()), w)
  clone := id

theorem three_bounded : RetryBounded three (fun p => p.val) 3 where
  top p := by omega
  retry p q r w ρ p' q' r' w' h := by
    obtain ⟨p, hp⟩ := p
    cases p with
    | zero => cases r <;> simp at h
    | succ n =>
      cases r with
      | ok v => simp at h
      | error e =>
        simp at h
        obtain ⟨⟨h, _⟩, _⟩ := h
        simp [← h]
  clone p q w o p' w' h := by
    simp at h
    obtain ⟨⟨_, rfl⟩, _⟩ := h
    exact le_refl _

/-- a clock for the timeout: the world is the time -/
@[reducible] def clk : Clock Nat := { now := id, fired := fun d w => decide (d ≤ w), sound := fun d w h => by simpa using h }

/-- `retry` over `timeout` over `reconnect`, over a maker whose connections work -/
example : Prompt (Retry 12 three (MapErr (fun e w => (match e with | .inner e => e | .elapsed => .make "late", w)) (Timeout clk 5 (Reconnect 5 (conn (.ok ())) maker 7)))) :=
  C81_stack (.retry three_bounded (by omega) (.mapErr (.timeout (.reconnect (fun f w s f' w' e s' w'' _ h => by simp at h) (by omega) (.base (conn_prompt _)) (.base maker_prompt)))))

/-- `SpawnReady` over a concurrency limit (whose semaphore has a permit when the world says so) -/
example : Prompt (SpawnReady 4 ⟨fun w => [w + 1], fun _ => false, id⟩ (ConcurrencyLimit true (⟨Unit, fun _ w => ((if w % 2 = 0 then .ready true else .pending, ()), w), id⟩ : SemView Nat) (conn (.ok ())))) :=
  C81_stack (.spawnReady (C81_limit_stays_ready (fun a w h => by dsimp at h; split at h <;> simp at h) (fun s w s' w' _ v s'' v' h => by simp at h)) (by omega) (.concurrencyLimit (.base (conn_prompt _))))

end DemoRet

end Tower
