import Verif.Model.Histogram
import Verif.Model.Semaphore

/-!
# `Hedge` with its histogram

`tower/src/hedge/mod.rs:86-164, 212-266`: one `RotatingHistogram`, shared by the two `Latency` recorders, the delay policy and the select policy. It is a part of the world; a
section under its mutex is one step.
-/

namespace Tower
variable {W Req Res Err : Type}

/-- What the hedged service does, and when; calls are numbered. (For the specification; nothing in `tower/src/hedge/mod.rs:86-164` keeps such a record.) -/
inductive CallEv where
  | called (id t : Nat)
  | ok (id t : Nat)
  | err (id t : Nat)
  deriving Repr, DecidableEq

/-- The shared histogram, `Histo`, `tower/src/hedge/mod.rs:27`. `ops` (what was done with the histogram), `ev` (what the service did) and `next` (the number of the next call) only record what happens. -/
structure HistoW where
  hist : RotHist
  ops : HistLog
  ev : List CallEv
  next : Nat

/-- A service (the parameter `S` of `tower/src/hedge/mod.rs:86-101`) whose calls and their outcomes are recorded; it does not touch the histogram. -/
@[reducible] def timedSvc (now : W → Nat) (S : Service W Req Res Err) : Service (HistoW × W) Req Res Err where
  σ := S.σ
  φ := Nat × S.φ
  pollReady s := (S.pollReady s).snd
  call s r := do
    let w ← Act.get
    Act.modify (fun w => ({ w.1 with ev := w.1.ev ++ [.called w.1.next (now w.2)], next := w.1.next + 1 }, w.2))
    let (x, s') ← (S.call s r).snd
    pure ((w.1.next, x), s')
  poll x := do
    let (p, y) ← (S.poll x.2).snd
    match p with
    | .pending => pure (.pending, (x.1, y))
    | .ready (.ok v) => do
      Act.modify (fun w => ({ w.1 with ev := w.1.ev ++ [.ok x.1 (now w.2)] }, w.2))
      pure (.ready (.ok v), (x.1, y))
    | .ready (.error e) => do
      Act.modify (fun w => ({ w.1 with ev := w.1.ev ++ [.err x.1 (now w.2)] }, w.2))
      pure (.ready (.error e), (x.1, y))
  clone := S.clone

/-- The clock does not depend on the histogram: `Instant::now()` and `tokio::time::sleep` of `tower/src/hedge/delay.rs:92-98`, `tower/src/hedge/latency.rs:64-70`. -/
@[reducible] def Clock.snd (C : Clock W) : Clock (HistoW × W) where
  now w := C.now w.2
  fired d w := C.fired d w.2
  sound d w h := C.sound d w.2 h
  arm d w := (w.1, C.arm d w.2)

/-- The end of a critical section of the histogram (`self.lock().unwrap()`, `tower/src/hedge/mod.rs:212-266`): the histogram is as the operation leaves it. With a period of zero (`none`) the operation
panics; the theorems assume a positive period. -/
def putHist (o : Option RotHist) (x : Nat × HistOp) (w : HistoW × W) : HistoW × W :=
  ({ w.1 with hist := o.getD w.1.hist, ops := w.1.ops ++ [x] }, w.2)

/-- `Record for Histo`, `tower/src/hedge/mod.rs:212-219`. -/
def histoRecord (now : W → Nat) (latency : Nat) (w : HistoW × W) : HistoW × W :=
  putHist (w.1.hist.recordAt (millisUp latency) (now w.2)) (now w.2, .record (millisUp latency)) w

/-- `self.histo.lock().unwrap().read()`, `tower/src/hedge/mod.rs:246-247, 260-263`. -/
def histoRead (now : W → Nat) (w : HistoW × W) : List Nat × (HistoW × W) :=
  (((w.1.hist.readAt (now w.2)).map Prod.fst).getD [], putHist ((w.1.hist.readAt (now w.2)).map Prod.snd) (now w.2, .read) w)

/-- The parameters of `Hedge::new(service, policy, min_data_points, latency_percentile, period)`, `tower/src/hedge/mod.rs:86-101, 212-266`. `quantile` is
`value_at_quantile(latency_percentile)`, a function of the values recorded; the delay is that many milliseconds. -/
@[reducible] def histoCfg (C : Clock W) (cloneRequest : Req → W → Option Req) (canRetry : Req → W → Bool) (min : Nat) (quantile : List Nat → Nat) : HedgeCfg (HistoW × W) Req where
  clock := C.snd
  cloneRequest r w := cloneRequest r w.2
  canRetry r w := canRetry r w.2
  record := histoRecord C.now
  delay w := (quantile (histoRead C.now w).1 * 1000000, (histoRead C.now w).2)
  enough w := (decide (min ≤ (histoRead C.now w).1.length), (histoRead C.now w).2)

end Tower
