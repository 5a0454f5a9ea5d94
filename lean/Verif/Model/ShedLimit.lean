import Verif.Model.Semaphore

/-!
# `ServiceBuilder::new().load_shed().concurrency_limit(max)`

The stack that `tower/src/builder/mod.rs:196-201, 219-221` builds from `LoadShedLayer` (`tower/src/load_shed/layer.rs:27-33`) and
`ConcurrencyLimitLayer` (`tower/src/limit/concurrency/layer.rs:22-28`), or `GlobalConcurrencyLimitLayer` (`layer.rs:54-60`), with all its clones.
-/

namespace Tower
variable {W Req Res Err : Type}

/-- `LoadShed<ConcurrencyLimit<S>>`: `tower/src/load_shed/mod.rs:34-76` over `tower/src/limit/concurrency/service.rs:57-107`. -/
abbrev ShedLim (debug : Bool) (S : Service W Req Res Err) : Service (Sem × W) Req Res (ShedErr Err) := LoadShed (LimSvc debug S)

/-- What exists at a moment: the semaphore, the handles (`tower/src/load_shed/mod.rs:17-20` around `tower/src/limit/concurrency/service.rs:15-24`), and
the response futures not dropped yet (`none`: shed, `tower/src/load_shed/future.rs:24-33`). `next` names the next handle. -/
structure Stack (S : Service W Req Res Err) where
  sem : Sem
  hs : List (ShedState (ConcState S.σ Nat))
  fs : List (Option S.φ)
  next : Nat

/-- Who moves: a handle, or nobody (futures). Names a handle by its `PollSemaphore`. For `StackStep`, `tower/src/limit/concurrency/service.rs:17`. -/
abbrev Actor := Option Nat

/-- One step of the stack and its users. Every operation is that of the two middlewares' code, in every world; what the inner service does is
arbitrary. `tower/src/load_shed/mod.rs:43-76`, `tower/src/load_shed/future.rs:55-62`, `tower/src/limit/concurrency/service.rs:65-107`. -/
inductive StackStep (debug : Bool) (S : Service W Req Res Err) : Actor → Stack S → Stack S → Prop
  /-- another service behind a `GlobalConcurrencyLimitLayer`, limit/concurrency/layer.rs:54-60 -/
  | layer {x : Stack S} (i : S.σ) : StackStep debug S none x { x with hs := x.hs ++ [⟨⟨i, x.next, false⟩, false⟩], next := x.next + 1 }
  /-- `poll_ready` -/
  | ready {x : Stack S} {l r : List (ShedState (ConcState S.σ Nat))} {s s' : ShedState (ConcState S.σ Nat)} {p sem' w w'} : x.hs = l ++ s :: r →
      ((ShedLim debug S).pollReady s).run (x.sem, w) = .ok (p, s') (sem', w') →
      StackStep debug S (some s.inner.sem) x { x with sem := sem', hs := l ++ s' :: r }
  /-- `call` -/
  | call {x : Stack S} {l r : List (ShedState (ConcState S.σ Nat))} {s s' : ShedState (ConcState S.σ Nat)} {f : Option S.φ} {q sem' w w'} : x.hs = l ++ s :: r →
      ((ShedLim debug S).call s q).run (x.sem, w) = .ok (f, s') (sem', w') →
      StackStep debug S (some s.inner.sem) x { x with sem := sem', hs := l ++ s' :: r, fs := x.fs ++ [f] }
  /-- the inner `poll_ready` panics, somebody catches it and goes on to use the handle: the permit stays, `is_ready` keeps its value -/
  | ready_panics {x : Stack S} {l r : List (ShedState (ConcState S.σ Nat))} {s : ShedState (ConcState S.σ Nat)} {i sem'} : x.hs = l ++ s :: r →
      (s.inner.permit = true ∧ sem' = x.sem ∨ s.inner.permit = false ∧ x.sem.pollAcquire s.inner.sem = (true, sem')) →
      StackStep debug S (some s.inner.sem) x { x with sem := sem', hs := l ++ ⟨⟨i, s.inner.sem, true⟩, s.isReady⟩ :: r }
  /-- the inner `call` panics, somebody catches it: the permit is dropped, load_shed/mod.rs:59 ran before -/
  | call_panics {x : Stack S} {l r : List (ShedState (ConcState S.σ Nat))} {s : ShedState (ConcState S.σ Nat)} {i} : x.hs = l ++ s :: r →
      s.isReady = true → s.inner.permit = true →
      StackStep debug S (some s.inner.sem) x { x with sem := x.sem.release, hs := l ++ ⟨⟨i, s.inner.sem, false⟩, false⟩ :: r }
  /-- a response future is polled -/
  | poll {x : Stack S} {l r : List (Option S.φ)} {f f' : Option S.φ} {p sem' w w'} : x.fs = l ++ f :: r →
      ((ShedLim debug S).poll f).run (x.sem, w) = .ok (p, f') (sem', w') →
      StackStep debug S none x { x with sem := sem', fs := l ++ f' :: r }
  /-- the inner future panics when it is polled and somebody catches it: the response future, with its permit, still exists -/
  | poll_panics {x : Stack S} {l r : List (Option S.φ)} {f f' : S.φ} : x.fs = l ++ some f :: r →
      StackStep debug S none x { x with fs := l ++ some f' :: r }
  /-- a response future is dropped: an accepted call gives its permit back, limit/concurrency/future.rs:14-20 -/
  | drop_future {x : Stack S} {l r : List (Option S.φ)} {f : Option S.φ} : x.fs = l ++ f :: r →
      StackStep debug S none x { x with sem := if f.isSome then x.sem.release else x.sem, fs := l ++ r }
  /-- `clone` -/
  | clone {x : Stack S} {s c : ShedState (ConcState S.σ Nat)} : s ∈ x.hs → c = (ShedLim debug S).clone s →
      StackStep debug S none x { x with hs := x.hs ++ [⟨{ c.inner with sem := x.next }, c.isReady⟩], next := x.next + 1 }
  /-- a handle is dropped: its `PollSemaphore`, then its permit if it has one -/
  | drop_handle {x : Stack S} {l r : List (ShedState (ConcState S.σ Nat))} {s : ShedState (ConcState S.σ Nat)} : x.hs = l ++ s :: r →
      StackStep debug S (some s.inner.sem) x { x with
        sem := if s.inner.permit = true then (x.sem.dropAcquire s.inner.sem).release else x.sem.dropAcquire s.inner.sem
        hs := l ++ r }

/-- All histories, from one new service (`LoadShed::new`, `ConcurrencyLimit::new`): `tower/src/load_shed/mod.rs:26-31`, `tower/src/limit/concurrency/service.rs:28-40`. -/
inductive StackHist (debug : Bool) (max : Nat) (S : Service W Req Res Err) : Stack S → Prop
  | new (i : S.σ) : StackHist debug max S ⟨Sem.new max, [⟨⟨i, 0, false⟩, false⟩], [], 1⟩
  | step {a x x'} : StackHist debug max S x → StackStep debug S a x x' → StackHist debug max S x'

end Tower
