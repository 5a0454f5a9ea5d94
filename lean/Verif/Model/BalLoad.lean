import Verif.Model.Load

/-!
# A balancer over endpoints that track their load

The `Arc`s of the endpoints (`tower/src/load/pending_requests.rs:28`, `tower/src/load/peak_ewma.rs:47`) are the entries of a list, the first component of the world: one for every endpoint that was ever made.
An entry is not removed when all that refers to it is dropped (nobody can read it any more).
-/

namespace Tower
variable {W Req Res Err Res' K DErr BErr R : Type}

/-- Code that uses the `k`-th of the shared states. The `Arc` of `tower/src/load/pending_requests.rs:20-28`, `tower/src/load/peak_ewma.rs:44-49`. -/
def Act.atCell {α : Type} (k : Nat) (x : Act (R × W) α) : Act (List R × W) α :=
  ⟨fun w => match w.1[k]? with
    | none => .panic "no such state"
    | some r => match x.run (r, w.2) with
      | .ok a v => .ok a (w.1.set k v.1, v.2)
      | .panic m => .panic m
      | .spin => .spin⟩

/-- A service with its shared state at a place of the list; its futures refer to the same place. `tower/src/load/pending_requests.rs:20-24, 77-97`, `tower/src/load/peak_ewma.rs:44-49, 112-132`. -/
@[reducible] def inCell (S : Service (R × W) Req Res Err) : Service (List R × W) Req Res Err where
  σ := S.σ × Nat
  φ := S.φ × Nat
  pollReady s := do
    let (p, i) ← (S.pollReady s.1).atCell s.2
    pure (p, (i, s.2))
  call s q := do
    let (f, i) ← (S.call s.1 q).atCell s.2
    pure ((f, s.2), (i, s.2))
  poll f := do
    let (p, g) ← (S.poll f.1).atCell f.2
    pure (p, (g, f.2))
  clone s := (S.clone s.1, s.2)

/-- A discovery that does not use the first component of the world. The bound on the inner discovery in `tower/src/load/pending_requests.rs:118-122`. -/
@[reducible] def Discover.snd {V : Type} (A : Type) (D : Discover W K V DErr) : Discover (A × W) K V DErr where
  δ := D.δ
  poll d := (D.poll d).snd

/-- The scheduling of pending endpoints does not use it either. `tower/src/ready_cache/cache.rs:63`. -/
def Sched.outer (A : Type) (V : Sched W) : Sched (A × W) := ⟨fun n w => ((V.order n w.2).1, (w.1, (V.order n w.2).2))⟩

/-- `PendingRequests::new`, `tower/src/load/pending_requests.rs:55-61`, `PeakEwma::new`, `tower/src/load/peak_ewma.rs:93-101`: a new `Arc`, with the content `mk` makes (`mk` may read the clock). -/
def alloc {V : Type} (mk : Act W R) (v : V) : Act (List R × W) (V × Nat) := do
  let r ← (mk.snd : Act (List R × W) R)
  let w ← Act.get
  Act.modify (fun w => (w.1 ++ [r], w.2))
  pure (v, w.1.length)

/-- What a balancer over tracked endpoints is made of: how load is tracked (`T`, `ld`, `le`, `init`), when a request is complete (`C`), the endpoints, discovery, random numbers, scheduling, conversions of errors. The type parameters of `tower/src/balance/p2c/service.rs:29-42`
with those of `tower/src/load/pending_requests.rs:34-38`, `tower/src/load/peak_ewma.rs:55-61`. -/
structure TBal (W Req Res Err Res' K DErr BErr : Type) where
  T : Tracker
  C : Completion Res Res'
  M : Type
  ld : Act T.R M
  le : M → M → Bool
  init : Act W T.R
  S : Service W Req Res Err
  D : Discover W K S.σ DErr
  G : Rng
  V : Sched W
  fromErr : Err → BErr
  fromDisc : DErr → BErr

/-- `Balance` over a `PendingRequestsDiscover` or `PeakEwmaDiscover`: `tower/src/balance/p2c/service.rs:29-42` with `tower/src/load/pending_requests.rs:118-138`, `tower/src/load/peak_ewma.rs:189-214`. -/
@[reducible] def TBal.cfg (X : TBal W Req Res Err Res' K DErr BErr) : BalCfg (List X.T.R × W) Req (Res' × Option X.T.H) Err K DErr BErr where
  S := inCell (tracked X.T X.C X.S)
  D := wrapDiscover (alloc X.init) (X.D.snd (List X.T.R))
  L := ⟨X.M, fun s => (X.ld.fst : Act (X.T.R × W) X.M).atCell s.2, X.le⟩
  G := X.G
  V := X.V.outer (List X.T.R)
  fromErr := X.fromErr
  fromDisc := X.fromDisc

/-- Over `PendingRequests`, `tower/src/load/pending_requests.rs:20-24, 55-75`. -/
@[reducible] def pendingBal (C : Completion Res Res') (S : Service W Req Res Err) (D : Discover W K S.σ DErr) (G : Rng) (V : Sched W) (fromErr : Err → BErr) (fromDisc : DErr → BErr) : TBal W Req Res Err Res' K DErr BErr where
  T := pendingTracker
  C := C
  M := Nat
  ld := pendingLoad
  le a b := decide (a ≤ b)
  init := pure (1 : Nat)
  S := S
  D := D
  G := G
  V := V
  fromErr := fromErr
  fromDisc := fromDisc

/-- Over `PeakEwma`, `tower/src/load/peak_ewma.rs:44-49, 93-101, 134-153`; `clock` is `Instant::now()` when an endpoint is made, with what it will return later. `Cost` is ordered as `f64` is (`tower/src/load/peak_ewma.rs:72`). -/
@[reducible] noncomputable def ewmaBal (decayNs : ℝ) (defaultRtt : Nat) (clock : Act W (Nat × (Nat → Nat))) (C : Completion Res Res') (S : Service W Req Res Err) (D : Discover W K S.σ DErr) (G : Rng) (V : Sched W)
    (fromErr : Err → BErr) (fromDisc : DErr → BErr) : TBal W Req Res Err Res' K DErr BErr where
  T := ewmaTracker decayNs
  C := C
  M := ℝ
  ld := Ewma.load decayNs
  le a b := by classical exact decide (a ≤ b)
  init := do let c ← clock; pure (Ewma.new defaultRtt c.1 c.2)
  S := S
  D := D
  G := G
  V := V
  fromErr := fromErr
  fromDisc := fromDisc

variable [DecidableEq K]

/-- What exists: the shared states of the endpoints, the balancer, the response futures (each with the number of its call at its endpoint and whether it has returned `Ready(Ok)`), the responses with a handle in them (with the endpoint and the number of the call). For `tower/src/balance/p2c/service.rs:193-259` with
`tower/src/load/completion.rs:71-84`. -/
structure TState (X : TBal W Req Res Err Res' K DErr BErr) where
  cells : List X.T.R
  bal : Balance X.cfg
  futs : List (Nat × Bool × X.cfg.S.φ)
  outs : List (Nat × Nat × X.T.H)

/-- What happened at endpoint `t`. A log entry names the endpoint. For `tower/src/load/completion.rs:71-84`. -/
def atEndpoint (t : Nat) (log : List (Nat × LoadEv)) : List LoadEv := log.filterMap (fun e => if e.1 = t then some e.2 else none)

/-- Was a call made?. For `tower/src/load/completion.rs:71-84`. -/
def LoadEv.isCall : LoadEv → Bool
  | .called _ _ => true
  | .finished _ _ => false

/-- How many calls were made to it. For `tower/src/load/completion.rs:71-84`. -/
def callsAt (t : Nat) (log : List (Nat × LoadEv)) : Nat := (atEndpoint t log).countP LoadEv.isCall

/-- the time that will be read first at an endpoint. `Instant::now()`, `tower/src/load/peak_ewma.rs:106, 289`. -/
def stampAt (T : Tracker) (cells : List T.R) (t : Nat) : Nat := (cells[t]?.map T.stamp).getD 0

/-- Every history of a balancer over tracked endpoints: `poll_ready` and `call` of the balancer, response futures polled, and dropped at any moment, responses dropped at any moment, time passing, in any interleaving and any worlds; discovery inserts and removes endpoints meanwhile. The log says which calls were
made, and are finished, at which endpoint (see `LoadHist`). The balancer puts the response future of the endpoint into a `MapErr`, which drops it as soon as it is ready: `futs` are those of the endpoints that exist,
and that drop is a `drop_future` too. It ends when something panics. For `tower/src/balance/p2c/service.rs:193-259`, `tower/src/load/completion.rs:71-84`. -/
inductive TRun (X : TBal W Req Res Err Res' K DErr BErr) (fuel : Nat) : TState X → List (Nat × LoadEv) → Prop
  | new (d r) : TRun X fuel ⟨[], Balance.fromRng X.cfg d r, [], []⟩ []
  | ready {x log w p b' cells' w'} : TRun X fuel x log → ((balance X.cfg fuel).pollReady x.bal).run (x.cells, w) = .ok (p, b') (cells', w') → TRun X fuel { x with cells := cells', bal := b' } log
  | call {x log q w f b' cells' w'} : TRun X fuel x log → ((balance X.cfg fuel).call x.bal q).run (x.cells, w) = .ok (some f, b') (cells', w') →
      TRun X fuel { x with cells := cells', bal := b', futs := x.futs ++ [(callsAt f.2 log, false, f)] } (log ++ [(f.2, .called (callsAt f.2 log) (stampAt X.T x.cells f.2))])
  | poll {x log w p cells' w' l r n d f f'} : TRun X fuel x log → x.futs = l ++ (n, d, f) :: r → (X.cfg.S.poll f).run (x.cells, w) = .ok (p, f') (cells', w') →
      TRun X fuel
        { x with
          cells := cells'
          futs := l ++ (n, gotOk p d, f') :: r
          outs := x.outs ++ (kept p n).map (fun h => (f.2, h)) }
        (log ++ (ended p n (stampAt X.T x.cells f.2)).map (fun e => (f.2, e)))
  | drop_future {x log l r n d f cells' w w'} : TRun X fuel x log → x.futs = l ++ (n, d, f) :: r → (((X.T.dropOpt f.1.2).fst : Act (X.T.R × W) Unit).atCell f.2).run (x.cells, w) = .ok () (cells', w') →
      TRun X fuel { x with cells := cells', futs := l ++ r } (if d = true then log else log ++ [(f.2, .finished n (stampAt X.T x.cells f.2))])
  | drop_response {x log l r t n h cells' w w'} : TRun X fuel x log → x.outs = l ++ (t, n, h) :: r → (((X.T.dropH h).fst : Act (X.T.R × W) Unit).atCell t).run (x.cells, w) = .ok () (cells', w') →
      TRun X fuel { x with cells := cells', outs := l ++ r } (log ++ [(t, .finished n (stampAt X.T x.cells t))])
  | other {x log t r r'} : TRun X fuel x log → x.cells[t]? = some r → X.T.other r r' → TRun X fuel { x with cells := x.cells.set t r' } log

end Tower
