import Verif.Model.CacheDrop
import Verif.Model.Semaphore

/-!
# Naming the services that are given to a `ReadyCache` or a `Balance`

The code is generic in the service, so it may be given services that carry a name. The world gets a ledger: how many services were given (the next name), and the names of those whose destructor has run.
-/

namespace Tower
variable {W Req Res Err : Type} {K : Type} [DecidableEq K]

/-- Which services were given (those named `0, .., given - 1`) and dropped. A modelling device, for `tower/src/ready_cache/cache.rs:58-74`. -/
structure DropLog where
  given : Nat
  dropped : List Nat

/-- The service with a name. Any service, for `tower/src/ready_cache/cache.rs:58-62`. -/
@[reducible] def Service.named (S : Service W Req Res Err) : Service (DropLog × W) Req Res Err where
  σ := Nat × S.σ
  φ := S.φ
  pollReady x := do
    let r ← (S.pollReady x.2).snd
    pure (r.1, (x.1, r.2))
  call x q := do
    let r ← (S.call x.2 q).snd
    pure (r.1, (x.1, r.2))
  poll f := (S.poll f).snd
  clone x := (x.1, S.clone x.2)

/-- The destructor: it records the name. `d` is that of the service itself. A modelling device, for `tower/src/ready_cache/cache.rs:58-74`. -/
def noteDrop {σ : Type} (d : σ → W → W) (x : Nat × σ) (w : DropLog × W) : DropLog × W := ({ w.1 with dropped := w.1.dropped ++ [x.1] }, d x.2 w.2)

/-- Which futures are polled does not depend on the ledger. For `tower/src/ready_cache/cache.rs:63`. -/
@[reducible] def Sched.withLog (A : Type) (V : Sched W) : Sched (A × W) where
  order n w := ((V.order n w.2).1, (w.1, (V.order n w.2).2))

/-- What a user does to a cache, and what else happens: the `Cache` and the world. `d` is the destructor of a service. Of the methods of `tower/src/ready_cache/cache.rs:146-408`; of the
panicking `call_ready*` and of panics in a service nothing is said. -/
inductive NcHist (V : Sched W) (S : Service W Req Res Err) (d : S.σ → W → W) : Cache K S.named → DropLog × W → Prop
  | new (w : W) : NcHist V S d (Cache.empty K S.named) (⟨0, []⟩, w)
  | push {c w} (k : K) (s : S.σ) : NcHist V S d c w → NcHist V S d (c.push k (w.1.given, s)) ({ w.1 with given := w.1.given + 1 }, w.2)
  | evict {c w k r w'} : NcHist V S d c w → (c.evictD (noteDrop d) k).run w = .ok r w' → NcHist V S d r.2 w'
  | poll {c w r w'} : NcHist V S d c w → (c.pollPendingD (noteDrop d) (V.withLog DropLog)).run w = .ok r w' → NcHist V S d r.2 w'
  | check {c w i r w'} : NcHist V S d c w → (c.checkReadyIndexD (noteDrop d) i).run w = .ok r w' → NcHist V S d r.2 w'
  | check_key {c w k r w'} : NcHist V S d c w → (c.checkReadyD (noteDrop d) k).run w = .ok r w' → NcHist V S d r.2 w'
  | call {c w i q r w'} : NcHist V S d c w → (c.callReadyIndexD (noteDrop d) i q).run w = .ok r w' → NcHist V S d r.2 w'
  | call_key {c w k q r w'} : NcHist V S d c w → (c.callReadyD (noteDrop d) k q).run w = .ok r w' → NcHist V S d r.2 w'
  /-- `get_ready_mut` and the like, `tower/src/ready_cache/cache.rs:181-209`: the user does something to a ready service in place -/
  | tamper {c w i k n s t} (s' : S.σ) : NcHist V S d c w → c.ready[i]? = some (k, ((n, s), t)) → NcHist V S d { c with ready := c.ready.set i (k, ((n, s'), t)) } w
  /-- everything else: response futures are polled and dropped, time passes, other tasks run -/
  | world {c w} (w' : W) : NcHist V S d c w → NcHist V S d c (w.1, w')

/-- A discovery whose services get names as it hands them out. For `tower/src/balance/p2c/service.rs:116-126`. -/
@[reducible] def Discover.named {V DErr : Type} (D : Discover W K V DErr) : Discover (DropLog × W) K (Nat × V) DErr where
  δ := D.δ
  poll d := do
    let r ← (D.poll d).snd
    match r.1 with
    | .pending => pure (.pending, r.2)
    | .ready none => pure (.ready none, r.2)
    | .ready (some (.error e)) => pure (.ready (some (.error e)), r.2)
    | .ready (some (.ok (.remove k))) => pure (.ready (some (.ok (.remove k))), r.2)
    | .ready (some (.ok (.insert k s))) => do
      let w ← Act.get
      Act.modify (fun w => ({ w.1 with given := w.1.given + 1 }, w.2))
      pure (.ready (some (.ok (.insert k (w.1.given, s)))), r.2)

/-- A balancer over named services. Of `tower/src/balance/p2c/service.rs:29-42`. -/
@[reducible] def BalCfg.named {DErr BErr : Type} (B : BalCfg W Req Res Err K DErr BErr) : BalCfg (DropLog × W) Req Res Err K DErr BErr where
  S := B.S.named
  D := B.D.named
  L := ⟨B.L.M, fun x => (B.L.load x.2).snd, B.L.le⟩
  G := B.G
  V := B.V.withLog DropLog
  fromErr := B.fromErr
  fromDisc := B.fromDisc

/-- What a user does to a balancer (`poll_ready` and `call`, in any order), and what else happens. Of `tower/src/balance/p2c/service.rs:193-259`. -/
inductive NbHist {DErr BErr : Type} (B : BalCfg W Req Res Err K DErr BErr) (d : B.S.σ → W → W) : Balance B.named → DropLog × W → Prop
  | new (x : B.D.δ) (r : B.G.ρ) (w : W) : NbHist B d (Balance.fromRng B.named x r) (⟨0, []⟩, w)
  | ready {b w fuel r w'} : NbHist B d b w → (b.pollReadyD (noteDrop d) fuel).run w = .ok r w' → NbHist B d r.2 w'
  | call {b w q r w'} : NbHist B d b w → (b.callD (noteDrop d) q).run w = .ok r w' → NbHist B d r.2 w'
  /-- everything else: response futures are polled and dropped, time passes, other tasks run -/
  | world {b w} (w' : W) : NbHist B d b w → NbHist B d b (w.1, w')

end Tower
