import Verif.Model.CacheDrop
import Verif.Model.HedgeLim
import Verif.Model.LimWake

/-!
# `Balance` whose endpoints are under a concurrency limit

A balancer (`tower/src/balance/p2c/service.rs`) over endpoints some of which are wrapped into a `ConcurrencyLimit` (`tower/src/limit/concurrency/service.rs`) with one semaphore: all endpoints that share the semaphore of a
`GlobalConcurrencyLimitLayer`, or the one endpoint of a limit of its own. The endpoints are wrapped as discovery hands them out, as a discovery that applies a layer does. Endpoints under other limits, or none, are the unlimited ones here: the inner
service is arbitrary. The world consists of the semaphore, the next name of a `PollSemaphore`, and the rest.
-/

namespace Tower
variable {W Req Res Err : Type} {K : Type} [DecidableEq K]

/-- An endpoint: under the limit or not. The endpoints of `tower/src/balance/p2c/service.rs:29-42`, with `tower/src/limit/concurrency/service.rs:15-24`. -/
@[reducible] def mixSvc (debug : Bool) (S : Service W Req Res Err) : Service (Sem × (Nat × W)) Req Res Err where
  σ := ConcState S.σ Nat ⊕ S.σ
  φ := S.φ ⊕ S.φ
  pollReady x := match x with
    | .inl s => do
      let r ← (LimSvc debug (S.snd Nat)).pollReady s
      pure (r.1, .inl r.2)
    | .inr s => do
      let r ← ((S.pollReady s).snd (A := Nat)).snd
      pure (r.1, .inr r.2)
  call x q := match x with
    | .inl s => do
      let r ← (LimSvc debug (S.snd Nat)).call s q
      pure (.inl r.1, .inl r.2)
    | .inr s => do
      let r ← ((S.call s q).snd (A := Nat)).snd
      pure (.inr r.1, .inr r.2)
  poll f := match f with
    | .inl g => do
      let r ← (LimSvc debug (S.snd Nat)).poll g
      pure (r.1, .inl r.2)
    | .inr g => do
      let r ← ((S.poll g).snd (A := Nat)).snd
      pure (r.1, .inr r.2)
  clone x := match x with
    | .inl s => .inl ((LimSvc debug (S.snd Nat)).clone s)
    | .inr s => .inr (S.clone s)

/-- The destructor of an endpoint; `d` is that of the inner service. `tower/src/limit/concurrency/service.rs:15-24`. -/
def mixDrop {σ : Type} (d : σ → W → W) : ConcState σ Nat ⊕ σ → Sem × (Nat × W) → Sem × (Nat × W)
  | .inl s, w => (dropConc w.1 s, (w.2.1, d s.inner w.2.2))
  | .inr s, w => (w.1, (w.2.1, d s w.2.2))

/-- The endpoint as discovery hands it out: for which keys and services the limit is used is given by `lim`. `tower/src/limit/concurrency/layer.rs:25-60`, `service.rs:35-44`. -/
def limitNew {σ : Type} (lim : Bool) (s : σ) : Act (Sem × (Nat × W)) (ConcState σ Nat ⊕ σ) :=
  if lim = true then do
    let w ← Act.get
    Act.modify (fun w => (w.1, (w.2.1 + 1, w.2.2)))
    pure (.inl ⟨s, w.2.1, false⟩)
  else pure (.inr s)

/-- A discovery that wraps the services it hands out. For `tower/src/balance/p2c/service.rs:116-126`. -/
@[reducible] def limDisc {V DErr : Type} (lim : K → V → Bool) (D : Discover W K V DErr) : Discover (Sem × (Nat × W)) K (ConcState V Nat ⊕ V) DErr where
  δ := D.δ
  poll d := do
    let r ← ((D.poll d).snd (A := Nat)).snd
    match r.1 with
    | .pending => pure (.pending, r.2)
    | .ready none => pure (.ready none, r.2)
    | .ready (some (.error e)) => pure (.ready (some (.error e)), r.2)
    | .ready (some (.ok (.remove k))) => pure (.ready (some (.ok (.remove k))), r.2)
    | .ready (some (.ok (.insert k s))) => do
      let x ← limitNew (lim k s) s
      pure (.ready (some (.ok (.insert k x))), r.2)

/-- `load` of an endpoint: that of the inner service, `tower/src/limit/concurrency/service.rs:110-118`. -/
def mixLoad {σ M : Type} (load : σ → Act W M) : ConcState σ Nat ⊕ σ → Act (Sem × (Nat × W)) M
  | .inl s => ((load s.inner).snd (A := Nat)).snd
  | .inr s => ((load s).snd (A := Nat)).snd

/-- The parameters of the stack: a balancer over the inner services; which endpoints are under the limit; which pending endpoints are polled (it may depend on the semaphore, which wakes them); `debug_assertions`; and the destructor of
an inner service. Of `tower/src/balance/p2c/service.rs:29-42`. -/
structure BlCfg (W Req Res Err K DErr BErr : Type) where
  B : BalCfg W Req Res Err K DErr BErr
  lim : K → B.S.σ → Bool
  order : Nat → Sem × (Nat × W) → List Nat × W
  debug : Bool
  dtor : B.S.σ → W → W

variable {DErr BErr : Type}

/-- The balancer over the wrapped endpoints. Of `tower/src/balance/p2c/service.rs:29-42`. -/
@[reducible] def BlCfg.bal (C : BlCfg W Req Res Err K DErr BErr) : BalCfg (Sem × (Nat × W)) Req Res Err K DErr BErr where
  S := mixSvc C.debug C.B.S
  D := limDisc C.lim C.B.D
  L := ⟨C.B.L.M, mixLoad C.B.L.load, C.B.L.le⟩
  G := C.B.G
  V := ⟨fun n w => ((C.order n w).1, (w.1, (w.2.1, (C.order n w).2)))⟩
  fromErr := C.B.fromErr
  fromDisc := C.B.fromDisc

/-- What exists at a moment: the semaphore, the next name, the balancers, the response futures they got from their endpoints, and handles and futures of other users of the limit. (A balancer puts such a future into a
`MapErr`, which drops it as soon as it is ready, a `drop_future` right after that poll, or when it is dropped itself.) `tower/src/balance/p2c/service.rs:29-42`, `tower/src/limit/concurrency/service.rs:15-24`. -/
structure BlStack (C : BlCfg W Req Res Err K DErr BErr) where
  sem : Sem
  next : Nat
  bals : List (Balance C.bal)
  futs : List (C.B.S.φ ⊕ C.B.S.φ)
  hs : List (ConcState C.B.S.σ Nat)
  fs : List C.B.S.φ

/-- The drop of a response future: that of a limited endpoint gives its permit back. `tower/src/limit/concurrency/future.rs:14-22`. -/
def dropMixFut {φ : Type} (sem : Sem) : φ ⊕ φ → Sem
  | .inl _ => sem.release
  | .inr _ => sem

/-- One step: of a balancer, `tower/src/balance/p2c/service.rs:193-259`, or of another user of the limit, `tower/src/limit/concurrency/service.rs:57-107`. The rest of the world is arbitrary at every step. Steps in which an endpoint panics are left out. -/
inductive BlStep (C : BlCfg W Req Res Err K DErr BErr) : BlStack C → BlStack C → Prop
  /-- `Balance::from_rng`, balance/p2c/service.rs:71-81 -/
  | new {x : BlStack C} (d : C.B.D.δ) (r : C.B.G.ρ) : BlStep C x { x with bals := x.bals ++ [Balance.fromRng C.bal d r] }
  /-- `poll_ready`, balance/p2c/service.rs:209-250 -/
  | ready {x : BlStack C} {l r : List (Balance C.bal)} {b b' : Balance C.bal} {fuel p sem' next' w w'} : x.bals = l ++ b :: r →
      (b.pollReadyD (mixDrop C.dtor) fuel).run (x.sem, (x.next, w)) = .ok (p, b') (sem', (next', w')) → BlStep C x { x with sem := sem', next := next', bals := l ++ b' :: r }
  /-- `call`, balance/p2c/service.rs:253-258 -/
  | call {x : BlStack C} {l r : List (Balance C.bal)} {b b' : Balance C.bal} {f : C.B.S.φ ⊕ C.B.S.φ} {q sem' next' w w'} : x.bals = l ++ b :: r →
      (b.callD (mixDrop C.dtor) q).run (x.sem, (x.next, w)) = .ok (f, b') (sem', (next', w')) → BlStep C x { x with sem := sem', next := next', bals := l ++ b' :: r, futs := x.futs ++ [f] }
  /-- a response future is polled -/
  | poll {x : BlStack C} {l r : List (C.B.S.φ ⊕ C.B.S.φ)} {f f' : C.B.S.φ ⊕ C.B.S.φ} {p sem' next' w w'} : x.futs = l ++ f :: r →
      ((mixSvc C.debug C.B.S).poll f).run (x.sem, (x.next, w)) = .ok (p, f') (sem', (next', w')) → BlStep C x { x with sem := sem', next := next', futs := l ++ f' :: r }
  /-- a response future is dropped -/
  | drop_future {x : BlStack C} {l r : List (C.B.S.φ ⊕ C.B.S.φ)} {f : C.B.S.φ ⊕ C.B.S.φ} : x.futs = l ++ f :: r → BlStep C x { x with sem := dropMixFut x.sem f, futs := l ++ r }
  /-- a balancer is dropped, with its endpoints -/
  | drop_balance {x : BlStack C} {l r : List (Balance C.bal)} {b : Balance C.bal} {w sem' next' w'} : x.bals = l ++ b :: r →
      dropAll (mixDrop C.dtor) b.svcs.held (x.sem, (x.next, w)) = (sem', (next', w')) → BlStep C x { x with sem := sem', next := next', bals := l ++ r }
  /-- any step of another user, as in C73 -/
  | other {x : BlStack C} {sem' hs' fs' next' arr arr' e} : LimStep C.debug (C.B.S.snd Nat) ⟨x.sem, x.hs, x.fs, x.next⟩ arr e ⟨sem', hs', fs', next'⟩ arr' →
      BlStep C x { x with sem := sem', hs := hs', fs := fs', next := next' }

/-- All histories, from one new limit: `tower/src/limit/concurrency/service.rs:28-44`. (The handle that comes with it may be dropped first.) -/
inductive BlHist (C : BlCfg W Req Res Err K DErr BErr) (max : Nat) : BlStack C → Prop
  | new (i : C.B.S.σ) : BlHist C max ⟨Sem.new max, 1, [], [], [⟨i, 0, false⟩], []⟩
  | step {x x'} : BlHist C max x → BlStep C x x' → BlHist C max x'

end Tower
