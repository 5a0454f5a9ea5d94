import Verif.Model.Semaphore
import Verif.Model.Util

/-!
# A concurrency limit under any stack of per-request middleware

The services that can be built on top of a `ConcurrencyLimit` by the middleware whose handle owns one inner handle and whose response future owns at most one inner future: which handle and which future of the limit they
own, and every history of handles and futures of the whole stack. The middleware is the modelled one (`Model/Util.lean`, `Model/Middleware.lean`); here it is only said where, in its state, the limit is.
-/

namespace Tower
variable {W : Type}

/-- Code that leaves this limit's semaphore alone: closures of users, timers, services that are not behind the limit. No other code than `tower/src/limit/concurrency/service.rs:15-24` has the semaphore. -/
def Act.KeepsSem {α : Type} (a : Act (Sem × W) α) : Prop := ∀ x r y, a.run x = .ok r y → y.1 = x.1

/-- the same for closures. `tower/src/limit/concurrency/service.rs:15-24`. -/
def FnKeepsSem {A B : Type} (f : A → Sem × W → B × (Sem × W)) : Prop := ∀ a x, (f a x).2.1 = x.1

/-- The stacks: `base` is the limit around `S`, each further constructor puts one middleware on top, `free` is a service which is not behind the limit (a branch of an `Either`). Files and lines as in `Model/Util.lean` and
`Model/Middleware.lean`: `tower/src/timeout/mod.rs:48-70`, `tower/src/load_shed/mod.rs:34-76`, `tower/src/limit/rate/service.rs:64-119`, `tower/src/limit/concurrency/service.rs:57-107`, `tower/src/filter/mod.rs:100-120`,
`tower/src/util/map_request.rs:10-61`, `tower/src/util/map_response.rs:11-77`, `tower/src/util/map_err.rs:11-77`, `tower/src/util/map_result.rs:11-78`, `tower/src/util/then.rs:14-82`, `tower/src/util/and_then.rs:14-109`,
`tower/src/util/either.rs:20-88`, `tower/src/util/optional/mod.rs:20-59`, `tower/src/util/boxed_clone.rs:50-136`. -/
inductive Over {Q0 R0 E0 : Type} (debug : Bool) (S : Service W Q0 R0 E0) : {Q R E : Type} → Service (Sem × W) Q R E → Type 1
  | base : Over debug S (LimSvc debug S)
  | free {Q R E : Type} (B : Service (Sem × W) Q R E) (h1 : ∀ s, (B.pollReady s).KeepsSem) (h2 : ∀ s q, (B.call s q).KeepsSem) (h3 : ∀ f, (B.poll f).KeepsSem) : Over debug S B
  | mapRequest {Q Q' R E : Type} {T : Service (Sem × W) Q R E} (f : Q' → Sem × W → Q × (Sem × W)) (h : FnKeepsSem f) : Over debug S T → Over debug S (MapRequest f T)
  | mapResponse {Q R R' E : Type} {T : Service (Sem × W) Q R E} (f : R → Sem × W → R' × (Sem × W)) (h : FnKeepsSem f) : Over debug S T → Over debug S (MapResponse f T)
  | mapErr {Q R E E' : Type} {T : Service (Sem × W) Q R E} (f : E → Sem × W → E' × (Sem × W)) (h : FnKeepsSem f) : Over debug S T → Over debug S (MapErr f T)
  | mapResult {Q R R' E E' : Type} {T : Service (Sem × W) Q R E} (into : E → E') (f : Except E R → Sem × W → Except E' R' × (Sem × W)) (h : FnKeepsSem f) : Over debug S T → Over debug S (MapResult into f T)
  | andThen {Q R R' E E' : Type} {T : Service (Sem × W) Q R E} (into : E → E') (G : Fut (Sem × W) (Except E' R')) (f : R → Sem × W → G.φ × (Sem × W)) (h : FnKeepsSem f) (hg : ∀ g, (G.poll g).KeepsSem) :
      Over debug S T → Over debug S (AndThen into T G f)
  | thenDo {Q R R' E E' : Type} {T : Service (Sem × W) Q R E} (into : E → E') (G : Fut (Sem × W) (Except E' R')) (f : Except E R → Sem × W → G.φ × (Sem × W)) (h : FnKeepsSem f) (hg : ∀ g, (G.poll g).KeepsSem) :
      Over debug S T → Over debug S (Then into T G f)
  | filter {Q Q' R E E' : Type} {T : Service (Sem × W) Q R E} (into : E → E') (check : Q' → Sem × W → Except E' Q × (Sem × W)) (h : FnKeepsSem check) : Over debug S T → Over debug S (Filter into check T)
  | timeout {Q R E : Type} {T : Service (Sem × W) Q R E} (C : Clock (Sem × W)) (d : Nat) (h : ∀ d x, (C.arm d x).1 = x.1) : Over debug S T → Over debug S (Timeout C d T)
  | loadShed {Q R E : Type} {T : Service (Sem × W) Q R E} : Over debug S T → Over debug S (LoadShed T)
  | rateLimit {Q R E : Type} {T : Service (Sem × W) Q R E} (C : Clock (Sem × W)) (r : Rate) (h : ∀ d x, (C.arm d x).1 = x.1) : Over debug S T → Over debug S (RateLimit C r T)
  /-- another limit, with a semaphore of its own -/
  | limit {Q R E : Type} {T : Service (Sem × W) Q R E} (dbg : Bool) (V : SemView (Sem × W)) (h : ∀ a x, (V.pollAcquire a x).2.1 = x.1) : Over debug S T → Over debug S (ConcurrencyLimit dbg V T)
  | either {Q R E : Type} {A B : Service (Sem × W) Q R E} : Over debug S A → Over debug S B → Over debug S (Either A B)
  | optional {Q R E : Type} {T : Service (Sem × W) Q R E} : Over debug S T → Over debug S (Optional T)
  | boxed {Q R E : Type} {T : Service (Sem × W) Q R E} : Over debug S T → Over debug S (BoxService T)

namespace Over
variable {Q0 R0 E0 : Type} {debug : Bool} {S : Service W Q0 R0 E0}

/-- The handle of the limit that a handle of the stack owns: the field `inner` of the middlewares, down to `tower/src/limit/concurrency/service.rs:15-24`. -/
def own {Q R E : Type} {T : Service (Sem × W) Q R E} : Over debug S T → T.σ → Option (ConcState S.σ Nat)
  | .base, s => some s
  | .free .., _ => none
  | .mapRequest _ _ o, s => o.own s
  | .mapResponse _ _ o, s => o.own s
  | .mapErr _ _ o, s => o.own s
  | .mapResult _ _ _ o, s => o.own s
  | .andThen _ _ _ _ _ o, s => o.own s
  | .thenDo _ _ _ _ _ o, s => o.own s
  | .filter _ _ _ o, s => o.own s
  | .timeout _ _ _ o, s => o.own s
  | .loadShed o, s => o.own s.inner
  | .rateLimit _ _ _ o, s => o.own s.inner
  | .limit _ _ _ o, s => o.own s.inner
  | .either a _, .inl s => a.own s
  | .either _ b, .inr s => b.own s
  | .optional o, s => s.bind o.own
  | .boxed o, s => o.own s.val

/-- The clone's `PollSemaphore` is a new one, named `n` (see `semView`). `tower/src/limit/concurrency/service.rs:96-107`. -/
def rename {Q R E : Type} {T : Service (Sem × W) Q R E} : Over debug S T → Nat → T.σ → T.σ
  | .base, n, s => { s with sem := n }
  | .free .., _, s => s
  | .mapRequest _ _ o, n, s => o.rename n s
  | .mapResponse _ _ o, n, s => o.rename n s
  | .mapErr _ _ o, n, s => o.rename n s
  | .mapResult _ _ _ o, n, s => o.rename n s
  | .andThen _ _ _ _ _ o, n, s => o.rename n s
  | .thenDo _ _ _ _ _ o, n, s => o.rename n s
  | .filter _ _ _ o, n, s => o.rename n s
  | .timeout _ _ _ o, n, s => o.rename n s
  | .loadShed o, n, s => { s with inner := o.rename n s.inner }
  | .rateLimit _ _ _ o, n, s => { s with inner := o.rename n s.inner }
  | .limit _ _ _ o, n, s => { s with inner := o.rename n s.inner }
  | .either a _, n, .inl s => .inl (a.rename n s)
  | .either _ b, n, .inr s => .inr (b.rename n s)
  | .optional o, n, s => Option.map (o.rename n) s
  | .boxed o, n, s => ⟨o.rename n s.val⟩

/-- Whether the stack is `Clone`: all middlewares here are but `RateLimit`, `tower/src/limit/rate/service.rs:13-19`. -/
def isClone {Q R E : Type} {T : Service (Sem × W) Q R E} : Over debug S T → Bool
  | .base => true
  | .free .. => true
  | .mapRequest _ _ o => o.isClone
  | .mapResponse _ _ o => o.isClone
  | .mapErr _ _ o => o.isClone
  | .mapResult _ _ _ o => o.isClone
  | .andThen _ _ _ _ _ o => o.isClone
  | .thenDo _ _ _ _ _ o => o.isClone
  | .filter _ _ _ o => o.isClone
  | .timeout _ _ _ o => o.isClone
  | .loadShed o => o.isClone
  | .rateLimit .. => false
  | .limit _ _ _ o => o.isClone
  | .either a b => a.isClone && b.isClone
  | .optional o => o.isClone
  | .boxed o => o.isClone

/-- The response future of the limit that a response future of the stack owns, if it still exists: the limit's one is `tower/src/limit/concurrency/future.rs:14-20`; `map_*`, `filter`, `then` and `and_then` drop it as soon as
it is ready (`tower/src/util/map_response.rs:36-41`, `tower/src/util/then.rs:42-82`), `timeout` (`tower/src/timeout/future.rs:14-23`) and `load_shed` (`tower/src/load_shed/future.rs:17-33`) keep it until they are dropped. -/
def fut {Q R E : Type} {T : Service (Sem × W) Q R E} : Over debug S T → T.φ → Option S.φ
  | .base, f => some f
  | .free .., _ => none
  | .mapRequest _ _ o, f => o.fut f
  | .mapResponse _ _ o, f => f.bind o.fut
  | .mapErr _ _ o, f => f.bind o.fut
  | .mapResult _ _ _ o, f => f.bind o.fut
  | .andThen _ _ _ _ _ o, f => match f with | .first x => o.fut x | .second _ => none | .done => none
  | .thenDo _ _ _ _ _ o, f => match f with | .first x => o.fut x | .second _ => none | .done => none
  | .filter _ _ _ o, f => match f with | .inl _ => none | .inr x => x.bind o.fut
  | .timeout _ _ _ o, f => o.fut f.1
  | .loadShed o, f => f.bind o.fut
  | .rateLimit _ _ _ o, f => o.fut f
  | .limit _ _ _ o, f => o.fut f
  | .either a b, f => match f with | .inl x => a.fut x | .inr x => b.fut x
  | .optional o, f => f.bind o.fut
  | .boxed o, f => o.fut f.val

end Over

/-- What exists at a moment: the semaphore, the handles of the stack and its response futures not dropped yet. `next` names the next `PollSemaphore`. `tower/src/limit/concurrency/service.rs:15-24`. -/
structure OStack {Q R E : Type} (T : Service (Sem × W) Q R E) where
  sem : Sem
  hs : List T.σ
  fs : List T.φ
  next : Nat

/-- The drop of a limit's handle: its `PollSemaphore`, then its permit if it has one. `tower/src/limit/concurrency/service.rs:15-24`. -/
def dropOwn {σ : Type} (sem : Sem) : Option (ConcState σ Nat) → Sem
  | none => sem
  | some s => if s.permit = true then (sem.dropAcquire s.sem).release else sem.dropAcquire s.sem

/-- The semaphore after a response future of the limit was dropped inside a poll, if it was: it existed before and does not any more. `tower/src/limit/concurrency/future.rs:14-22`. -/
def dropGone {φ : Type} (sem : Sem) (before after : Option φ) : Sem := if before.isSome && after.isNone then sem.release else sem

variable {Q0 R0 E0 Q R E : Type} {debug : Bool} {S : Service W Q0 R0 E0} {T : Service (Sem × W) Q R E}

/-- One step of anybody who has a handle or a response future of the stack. The operations are those of the code, in any world; the inner service does anything, and may panic. After a panic that is caught the middleware may be
in any state in which it owns what it owned (its own code does not drop or take the inner service). `tower/src/limit/concurrency/service.rs:65-107`. -/
inductive OverStep (o : Over debug S T) : OStack T → OStack T → Prop
  /-- another service with this stack on it behind the same semaphore (`GlobalConcurrencyLimitLayer`, limit/concurrency/layer.rs:38-60) -/
  | layer {x : OStack T} {t : T.σ} {i : S.σ} : o.own t = some ⟨i, x.next, false⟩ → OverStep o x { x with hs := x.hs ++ [t], next := x.next + 1 }
  /-- one that is not behind the limit (`Either`, `Optional`) -/
  | layer_free {x : OStack T} {t : T.σ} : o.own t = none → OverStep o x { x with hs := x.hs ++ [t] }
  /-- `poll_ready` -/
  | ready {x : OStack T} {l r : List T.σ} {t t' : T.σ} {p sem' w w'} : x.hs = l ++ t :: r → (T.pollReady t).run (x.sem, w) = .ok (p, t') (sem', w') → OverStep o x { x with sem := sem', hs := l ++ t' :: r }
  /-- `call` -/
  | call {x : OStack T} {l r : List T.σ} {t t' : T.σ} {f : T.φ} {q sem' w w'} : x.hs = l ++ t :: r → (T.call t q).run (x.sem, w) = .ok (f, t') (sem', w') →
      OverStep o x { x with sem := sem', hs := l ++ t' :: r, fs := x.fs ++ [f] }
  /-- a response future is polled; the limit's future in it may be dropped by that -/
  | poll {x : OStack T} {l r : List T.φ} {f f' : T.φ} {p sem' w w'} : x.fs = l ++ f :: r → (T.poll f).run (x.sem, w) = .ok (p, f') (sem', w') →
      OverStep o x { x with sem := dropGone sem' (o.fut f) (o.fut f'), fs := l ++ f' :: r }
  /-- something panics in `poll_ready` above the limit, or in the limit without a permit -/
  | ready_panics_outside {x : OStack T} {l r : List T.σ} {t t' : T.σ} : x.hs = l ++ t :: r → o.own t' = o.own t → OverStep o x { x with hs := l ++ t' :: r }
  /-- the innermost service's `poll_ready` panics: the limit has its permit, or has just acquired it -/
  | ready_panics {x : OStack T} {l r : List T.σ} {t t' : T.σ} {s : ConcState S.σ Nat} {i sem'} : x.hs = l ++ t :: r → o.own t = some s → o.own t' = some ⟨i, s.sem, true⟩ →
      (s.permit = true ∧ sem' = x.sem ∨ s.permit = false ∧ x.sem.pollAcquire s.sem = (true, sem')) → OverStep o x { x with sem := sem', hs := l ++ t' :: r }
  /-- something panics in `call` above the limit, or the limit's own check does -/
  | call_panics_outside {x : OStack T} {l r : List T.σ} {t t' : T.σ} : x.hs = l ++ t :: r → o.own t' = o.own t → OverStep o x { x with hs := l ++ t' :: r }
  /-- the innermost service's `call` panics: the permit was taken out of the handle and is dropped -/
  | call_panics {x : OStack T} {l r : List T.σ} {t t' : T.σ} {s : ConcState S.σ Nat} {i} : x.hs = l ++ t :: r → o.own t = some s → s.permit = true → o.own t' = some ⟨i, s.sem, false⟩ →
      OverStep o x { x with sem := x.sem.release, hs := l ++ t' :: r }
  /-- something panics in `call` after the limit's `call` returned: the future is dropped -/
  | call_panics_after {x : OStack T} {l r : List T.σ} {t t' : T.σ} {s s' : ConcState S.σ Nat} {f0 : S.φ} {q sem' w w'} : x.hs = l ++ t :: r → o.own t = some s → o.own t' = some s' →
      ((LimSvc debug S).call s q).run (x.sem, w) = .ok (f0, s') (sem', w') → OverStep o x { x with sem := sem'.release, hs := l ++ t' :: r }
  /-- something panics in a poll of a response future: what it owns still exists, or was dropped before -/
  | poll_panics {x : OStack T} {l r : List T.φ} {f f' : T.φ} : x.fs = l ++ f :: r → ((o.fut f).isNone → (o.fut f').isNone) →
      OverStep o x { x with sem := dropGone x.sem (o.fut f) (o.fut f'), fs := l ++ f' :: r }
  /-- a response future is dropped, finished or not -/
  | drop_future {x : OStack T} {l r : List T.φ} {f : T.φ} : x.fs = l ++ f :: r → OverStep o x { x with sem := dropGone x.sem (o.fut f) none, fs := l ++ r }
  /-- `clone` -/
  | clone {x : OStack T} {t : T.σ} : o.isClone = true → t ∈ x.hs → OverStep o x { x with hs := x.hs ++ [o.rename x.next (T.clone t)], next := x.next + 1 }
  /-- a handle is dropped -/
  | drop_handle {x : OStack T} {l r : List T.σ} {t : T.σ} : x.hs = l ++ t :: r → OverStep o x { x with sem := dropOwn x.sem (o.own t), hs := l ++ r }

/-- All histories, from one new service behind a limit of `max`. `tower/src/limit/concurrency/service.rs:28-40`. -/
inductive OverHist (o : Over debug S T) (max : Nat) : OStack T → Prop
  | new (t : T.σ) (i : S.σ) : o.own t = some ⟨i, 0, false⟩ → OverHist o max ⟨Sem.new max, [t], [], 1⟩
  | step {x x'} : OverHist o max x → OverStep o x x' → OverHist o max x'

end Tower
