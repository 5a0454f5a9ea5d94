import Verif.Model.Semaphore

/-!
# What the services made by a limit layer share

`tower/src/limit/concurrency/layer.rs`: a layer can be applied to any number of services. `ConcurrencyLimitLayer` gives each of them a
semaphore of its own, `GlobalConcurrencyLimitLayer` one semaphore to all. The heap of semaphores is explicit here; a service refers to its
semaphore (`Arc<Semaphore>`) by its index.
-/

namespace Tower
variable {W Req Res Err : Type}

/-- An `Arc<Semaphore>` and how many permits it was made with; `next` is the name for the next acquire future (see `Lim.next`). `tower/src/limit/concurrency/service.rs:15-40`. -/
structure SemCell where
  max : Nat
  sem : Sem
  next : Nat
  deriving DecidableEq, Repr

/-- `Arc::new(Semaphore::new(max))`, `tower/src/limit/concurrency/service.rs:29`, `tower/src/limit/concurrency/layer.rs:38`. -/
def SemCell.new (max : Nat) : SemCell := ⟨max, Sem.new max, 0⟩

/-- A layer value: `ConcurrencyLimitLayer { max }`, `tower/src/limit/concurrency/layer.rs:9-12`, or `GlobalConcurrencyLimitLayer { semaphore }`, `:31-34`. -/
inductive LimLayer where
  | own (max : Nat)
  | global (cell : Nat)
  deriving DecidableEq, Repr

/-- A `ConcurrencyLimit`, `tower/src/limit/concurrency/service.rs:15-24`: the semaphore it refers to and its other fields. `app` (ghost) says by which application of a layer
it, or what it was cloned from, was made. -/
structure FHandle (σ : Type) where
  app : Nat
  cell : Nat
  st : ConcState σ Nat

/-- A `ResponseFuture` with its permit, `tower/src/limit/concurrency/future.rs:11-23`. -/
structure FFut (φ : Type) where
  app : Nat
  cell : Nat
  fut : φ

/-- Everything there is. `globals` lists the semaphores of the global layers that were made and (ghost) with how many permits each was asked for, `made` (ghost) the applications of layers so far, each with the layer and the semaphore its service got. `tower/src/limit/concurrency/layer.rs:9-60`. -/
structure Fleet (S : Service W Req Res Err) where
  cells : List SemCell
  globals : List (Nat × Nat)
  made : List (LimLayer × Nat)
  hs : List (FHandle S.σ)
  fs : List (FFut S.φ)

/-- At the beginning there is nothing. For `tower/src/limit/concurrency/layer.rs:9-60`. -/
def Fleet.empty (S : Service W Req Res Err) : Fleet S := ⟨[], [], [], [], []⟩

/-- `GlobalConcurrencyLimitLayer::new(max)`, `tower/src/limit/concurrency/layer.rs:37-45`. -/
def Fleet.newGlobal {S : Service W Req Res Err} (x : Fleet S) (max : Nat) : Fleet S :=
  { x with cells := x.cells ++ [.new max], globals := x.globals ++ [(x.cells.length, max)] }

/-- `ConcurrencyLimit::with_semaphore(inner, semaphore)`, `tower/src/limit/concurrency/service.rs:33-40`, in application `app`. -/
def Fleet.withSemaphore {S : Service W Req Res Err} (x : Fleet S) (l : LimLayer) (k : Nat) (i : S.σ) : Fleet S :=
  match x.cells[k]? with
  | none => x
  | some c =>
    { x with
      cells := x.cells.set k { c with next := c.next + 1 }
      made := x.made ++ [(l, k)]
      hs := x.hs ++ [⟨x.made.length, k, ⟨i, c.next, false⟩⟩] }

/-- `Layer::layer`, `tower/src/limit/concurrency/layer.rs:22-28` with `ConcurrencyLimit::new`, `service.rs:28-30`; and `layer.rs:53-59`. -/
def LimLayer.layer {S : Service W Req Res Err} (l : LimLayer) (i : S.σ) (x : Fleet S) : Fleet S :=
  match l with
  | .own max => Fleet.withSemaphore { x with cells := x.cells ++ [.new max] } l x.cells.length i
  | .global k => x.withSemaphore l k i

/-- the semaphore `k` becomes `sem`. The memory shared through `Arc<Semaphore>`, `tower/src/limit/concurrency/service.rs:17`. -/
def Fleet.setSem {S : Service W Req Res Err} (x : Fleet S) (k : Nat) (c : SemCell) (sem : Sem) : Fleet S := { x with cells := x.cells.set k { c with sem } }

/-- Every history: layers are made and applied, and the services made, their clones and futures are used and dropped in any interleaving (as in `LimHist`).
`tower/src/limit/concurrency/service.rs:57-107`, `tower/src/limit/concurrency/layer.rs:9-60`. -/
inductive FleetHist (debug : Bool) (S : Service W Req Res Err) : Fleet S → Prop
  | empty : FleetHist debug S (Fleet.empty S)
  | newGlobal {x} (max : Nat) : FleetHist debug S x → FleetHist debug S (x.newGlobal max)
  /-- `ConcurrencyLimitLayer::new(max).layer(i)` -/
  | layer {x} (max : Nat) (i : S.σ) : FleetHist debug S x → FleetHist debug S ((LimLayer.own max).layer i x)
  /-- a global layer, or a clone of it, is applied -/
  | layerGlobal {x k max} (i : S.σ) : FleetHist debug S x → (k, max) ∈ x.globals → FleetHist debug S ((LimLayer.global k).layer i x)
  /-- `poll_ready`, service.rs:65-80 -/
  | ready {x c w p sem' w'} {l r : List (FHandle S.σ)} {h : FHandle S.σ} {s' : ConcState S.σ Nat} : FleetHist debug S x → x.hs = l ++ h :: r →
      x.cells[h.cell]? = some c → ((LimSvc debug S).pollReady h.st).run (c.sem, w) = .ok (p, s') (sem', w') →
      FleetHist debug S { x.setSem h.cell c sem' with hs := l ++ { h with st := s' } :: r }
  /-- the inner `poll_ready` panics and somebody catches it -/
  | ready_panics {x c sem' i} {l r : List (FHandle S.σ)} {h : FHandle S.σ} : FleetHist debug S x → x.hs = l ++ h :: r → x.cells[h.cell]? = some c →
      (h.st.permit = true ∧ sem' = c.sem ∨ h.st.permit = false ∧ c.sem.pollAcquire h.st.sem = (true, sem')) →
      FleetHist debug S { x.setSem h.cell c sem' with hs := l ++ { h with st := ⟨i, h.st.sem, true⟩ } :: r }
  /-- `call`, service.rs:82-93 -/
  | call {x c q w sem' w'} {l r : List (FHandle S.σ)} {h : FHandle S.σ} {s' : ConcState S.σ Nat} {f : S.φ} : FleetHist debug S x → x.hs = l ++ h :: r →
      x.cells[h.cell]? = some c → ((LimSvc debug S).call h.st q).run (c.sem, w) = .ok (f, s') (sem', w') →
      FleetHist debug S { x.setSem h.cell c sem' with hs := l ++ { h with st := s' } :: r, fs := x.fs ++ [⟨h.app, h.cell, f⟩] }
  /-- the inner `call` panics and somebody catches it -/
  | call_panics {x c i} {l r : List (FHandle S.σ)} {h : FHandle S.σ} : FleetHist debug S x → x.hs = l ++ h :: r → x.cells[h.cell]? = some c →
      h.st.permit = true →
      FleetHist debug S { x.setSem h.cell c c.sem.release with hs := l ++ { h with st := ⟨i, h.st.sem, false⟩ } :: r }
  /-- a response future is polled, future.rs:38-40 -/
  | poll {x c w p sem' w'} {l r : List (FFut S.φ)} {f : FFut S.φ} {f' : S.φ} : FleetHist debug S x → x.fs = l ++ f :: r → x.cells[f.cell]? = some c →
      ((LimSvc debug S).poll f.fut).run (c.sem, w) = .ok (p, f') (sem', w') →
      FleetHist debug S { x.setSem f.cell c sem' with fs := l ++ { f with fut := f' } :: r }
  /-- the inner future panics when it is polled and somebody catches it -/
  | poll_panics {x} {l r : List (FFut S.φ)} {f : FFut S.φ} {f' : S.φ} : FleetHist debug S x → x.fs = l ++ f :: r →
      FleetHist debug S { x with fs := l ++ { f with fut := f' } :: r }
  /-- a response future is dropped with its permit, future.rs:22 -/
  | drop_future {x c} {l r : List (FFut S.φ)} {f : FFut S.φ} : FleetHist debug S x → x.fs = l ++ f :: r → x.cells[f.cell]? = some c →
      FleetHist debug S { x.setSem f.cell c c.sem.release with fs := l ++ r }
  /-- `clone`, service.rs:96-107 -/
  | clone {x c} {h : FHandle S.σ} : FleetHist debug S x → h ∈ x.hs → x.cells[h.cell]? = some c →
      FleetHist debug S { x with
        cells := x.cells.set h.cell { c with next := c.next + 1 }
        hs := x.hs ++ [{ h with st := { ((LimSvc debug S).clone h.st : ConcState S.σ Nat) with sem := c.next } }] }
  /-- a handle is dropped: its `PollSemaphore`, then its permit if it has one -/
  | drop_handle {x c} {l r : List (FHandle S.σ)} {h : FHandle S.σ} : FleetHist debug S x → x.hs = l ++ h :: r → x.cells[h.cell]? = some c →
      FleetHist debug S { x.setSem h.cell c (if h.st.permit = true then (c.sem.dropAcquire h.st.sem).release else c.sem.dropAcquire h.st.sem) with
        hs := l ++ r }

end Tower
