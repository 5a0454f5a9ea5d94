import Verif.Model.Hedge
import Verif.Model.LimWake

/-!
# `Hedge` over `ConcurrencyLimit`

`tower/src/hedge/mod.rs:28-40` over `tower/src/limit/concurrency/service.rs`: the original request and the hedge each need a permit. The hedge is made by a `Oneshot`
(`tower/src/hedge/delay.rs:118-121`) on a clone of the limit, through an `AsyncFilter` that keeps the service that is ready, with its permit, while the policy decides.
-/

namespace Tower
variable {W Req Res Err BErr : Type}

/-- A response future of the limit (`tower/src/limit/concurrency/future.rs:14-40`) inside a `Oneshot` (`tower/src/util/oneshot.rs:97-101`): after a response it is dropped, with its permit; after an error it is not. -/
def pollOk (debug : Bool) (S : Service W Req Res Err) (f : S.φ) : Act (Sem × W) (Poll (Except Err Res) × S.φ) := do
  let (p, f') ← (LimSvc debug S).poll f
  match p with
  | .ready (.ok v) => do
    Act.modify (fun w => (w.1.release, w.2))
    pure (.ready (.ok v), f')
  | .ready (.error e) => pure (.ready (.error e), f')
  | .pending => pure (.pending, f')

/-- The limit as a `Oneshot` uses it: `tower/src/limit/concurrency/service.rs:57-107`. -/
@[reducible] def LimOk (debug : Bool) (S : Service W Req Res Err) : Service (Sem × W) Req Res Err where
  σ := ConcState S.σ Nat
  φ := S.φ
  pollReady := (LimSvc debug S).pollReady
  call := (LimSvc debug S).call
  poll := pollOk debug S
  clone := (LimSvc debug S).clone

/-- The clock does not depend on the semaphore: `tokio::time`, as in `tower/src/hedge/delay.rs:93-98`. -/
@[reducible] def Clock.withSem (A : Type) (C : Clock W) : Clock (A × W) where
  now w := C.now w.2
  fired d w := C.fired d w.2
  sound d w := C.sound d w.2
  arm d w := (w.1, C.arm d w.2)

/-- Policy and histogram do not use the semaphore: `tower/src/hedge/mod.rs:56-62`, `:212-219`, `:244-266`. -/
@[reducible] def HedgeCfg.snd (A : Type) (H : HedgeCfg W Req) : HedgeCfg (A × W) Req where
  clock := H.clock.withSem A
  cloneRequest r w := H.cloneRequest r w.2
  canRetry r w := H.canRetry r w.2
  record n w := (w.1, H.record n w.2)
  delay w := ((H.delay w.2).1, (w.1, (H.delay w.2).2))
  enough w := ((H.enough w.2).1, (w.1, (H.enough w.2).2))

/-- the second part of a `Hedge` over the limit: `Delay` of `AsyncFilter` of `Latency`, `tower/src/hedge/mod.rs:142-154` -/
abbrev HedgeB (into : Err → BErr) (H : HedgeCfg W Req) (debug : Bool) (S : Service W Req Res Err) : Service (Sem × W) Req Res BErr :=
  Delay id (H.clock.withSem Sem) (fun _ => (H.snd Sem).delay)
    (AsyncFilter id hedgePredFut (fun r w => (if (H.snd Sem).canRetry r w then some r else none, w)) (Latency into (H.clock.withSem Sem) (H.snd Sem).record (LimOk debug S)))

/-- `Hedge<ConcurrencyLimit<S>, P>`, `tower/src/hedge/mod.rs:28-32`, `:128-164`. -/
abbrev HedgeLim (into : Err → BErr) (H : HedgeCfg W Req) (debug : Bool) (S : Service W Req Res Err) : Service (Sem × W) Req Res BErr :=
  Select (H.snd Sem).selectClone (Latency into (H.clock.withSem Sem) (H.snd Sem).record (LimSvc debug S)) (HedgeB into H debug S)

/-- the state of the second future, `tower/src/hedge/delay.rs:26-52` -/
abbrev HLB (Req : Type) (S : Service W Req Res Err) := DelayFut (ConcState S.σ Nat) Req (OneshotState (ConcState S.σ Nat) Req (AsyncFilterFut (Option Req) (ConcState S.σ Nat) (Nat × S.φ)))

/-- A response future of the stack, `tower/src/hedge/select.rs:27-34`. -/
abbrev HLFut (Req : Type) (S : Service W Req Res Err) := (Nat × S.φ) × Option (HLB Req S)

/-- The handles of the limit in the second future: the one that waits for its time or for a permit, or is ready and waits for the policy. `tower/src/hedge/delay.rs:26-52`, `tower/src/util/oneshot.rs:24-36`, `tower/src/filter/future.rs:15-30`. (After
the call the handle stays in `AsyncResponseFuture`, without a permit and unused; it is left out.) -/
def HLB.handles {S : Service W Req Res Err} : HLB Req S → List (ConcState S.σ Nat)
  | .delaying _ _ s => [s]
  | .called (.notReady s _) => [s]
  | .called (.called (.check _ s)) => [s]
  | .called (.called (.waitResponse _)) => []
  | .called .done => []

/-- The response future of the limit in the second future, if the hedge was issued and has not succeeded. `tower/src/filter/future.rs:46-57`. -/
def HLB.futs {S : Service W Req Res Err} : HLB Req S → List S.φ
  | .called (.called (.waitResponse g)) => [g.2]
  | _ => []

/-- the handles in a response future of the stack, `tower/src/hedge/select.rs:27-34` -/
def hlHandles {S : Service W Req Res Err} (f : HLFut Req S) : List (ConcState S.σ Nat) := match f.2 with | none => [] | some b => b.handles

/-- the response futures of the limit in a response future of the stack: of the original request and of the hedge. `tower/src/hedge/select.rs:27-34`. -/
def hlFuts {S : Service W Req Res Err} (f : HLFut Req S) : List S.φ := f.1.2 :: (match f.2 with | none => [] | some b => b.futs)

/-- the clone that `Delay::call` makes gets the name `n`, `tower/src/hedge/delay.rs:92-98` -/
def HLB.name {S : Service W Req Res Err} (n : Nat) : HLB Req S → HLB Req S
  | .delaying d r s => .delaying d r { s with sem := n }
  | b => b

/-- What exists at a moment: the semaphore, the `Hedge`s (each has two handles of the limit), their response futures, and handles and futures of other users of the limit. `tower/src/hedge/select.rs:20-34`, `tower/src/limit/concurrency/service.rs:15-24`. -/
structure HdStack (S : Service W Req Res Err) where
  sem : Sem
  hedges : List (ConcState S.σ Nat × ConcState S.σ Nat)
  futs : List (HLFut Req S)
  hs : List (ConcState S.σ Nat)
  fs : List S.φ
  next : Nat

/-- Drop of a handle: its `PollSemaphore`, then its permit if it has one. `tower/src/limit/concurrency/service.rs:15-19`. -/
def dropConc {σ : Type} (sem : Sem) (s : ConcState σ Nat) : Sem := if s.permit = true then (sem.dropAcquire s.sem).release else sem.dropAcquire s.sem

/-- One step: of a `Hedge`, `tower/src/hedge/mod.rs:166-202`, or of another user of the limit, `tower/src/limit/concurrency/service.rs:57-107`. -/
inductive HdStep (into : Err → BErr) (H : HedgeCfg W Req) (debug : Bool) (S : Service W Req Res Err) : HdStack S → HdStack S → Prop
  /-- `Hedge::new`, hedge/mod.rs:142-143: the service is cloned for the first part -/
  | hedge {x : HdStack S} {l r : List (ConcState S.σ Nat)} {s c : ConcState S.σ Nat} : x.hs = l ++ s :: r → c = (LimSvc debug S).clone s →
      HdStep into H debug S x { x with hedges := x.hedges ++ [({ c with sem := x.next }, s)], hs := l ++ r, next := x.next + 1 }
  /-- `poll_ready`, hedge/select.rs:61-68 -/
  | ready {x : HdStack S} {l r : List (ConcState S.σ Nat × ConcState S.σ Nat)} {s s' : ConcState S.σ Nat × ConcState S.σ Nat} {p sem' w w'} : x.hedges = l ++ s :: r →
      ((HedgeLim into H debug S).pollReady s).run (x.sem, w) = .ok (p, s') (sem', w') → HdStep into H debug S x { x with sem := sem', hedges := l ++ s' :: r }
  /-- `call`, hedge/select.rs:70-80, delay.rs:92-98 -/
  | call {x : HdStack S} {l r : List (ConcState S.σ Nat × ConcState S.σ Nat)} {s s' : ConcState S.σ Nat × ConcState S.σ Nat} {f : HLFut Req S} {q sem' w w'} : x.hedges = l ++ s :: r →
      ((HedgeLim into H debug S).call s q).run (x.sem, w) = .ok (f, s') (sem', w') →
      HdStep into H debug S x { x with sem := sem', hedges := l ++ s' :: r, futs := x.futs ++ [(f.1, f.2.map (HLB.name x.next))], next := x.next + 1 }
  /-- `poll` of a response future, hedge/select.rs:92-104 -/
  | poll {x : HdStack S} {l r : List (HLFut Req S)} {f f' : HLFut Req S} {p sem' w w'} : x.futs = l ++ f :: r →
      ((HedgeLim into H debug S).poll f).run (x.sem, w) = .ok (p, f') (sem', w') → HdStep into H debug S x { x with sem := sem', futs := l ++ f' :: r }
  /-- a response future is dropped: that of the original request, then the second one -/
  | drop_future {x : HdStack S} {l r : List (HLFut Req S)} {f : HLFut Req S} : x.futs = l ++ f :: r →
      HdStep into H debug S x { x with sem := (hlHandles f).foldl dropConc ((hlFuts f).foldl (fun sem _ => sem.release) x.sem), futs := l ++ r }
  /-- a `Hedge` is dropped, hedge/select.rs:20-25 -/
  | drop_hedge {x : HdStack S} {l r : List (ConcState S.σ Nat × ConcState S.σ Nat)} {s : ConcState S.σ Nat × ConcState S.σ Nat} : x.hedges = l ++ s :: r →
      HdStep into H debug S x { x with sem := dropConc (dropConc x.sem s.1) s.2, hedges := l ++ r }
  /-- any step of another user, as in C73 -/
  | other {x : HdStack S} {sem' hs' fs' next' arr arr' e} : LimStep debug S ⟨x.sem, x.hs, x.fs, x.next⟩ arr e ⟨sem', hs', fs', next'⟩ arr' →
      HdStep into H debug S x { x with sem := sem', hs := hs', fs := fs', next := next' }

/-- All histories, from one new limit: `tower/src/limit/concurrency/service.rs:28-40`. -/
inductive HdHist (into : Err → BErr) (H : HedgeCfg W Req) (debug : Bool) (max : Nat) (S : Service W Req Res Err) : HdStack S → Prop
  | new (i : S.σ) : HdHist into H debug max S ⟨Sem.new max, [], [], [⟨i, 0, false⟩], [], 1⟩
  | step {x x'} : HdHist into H debug max S x → HdStep into H debug S x x' → HdHist into H debug max S x'

end Tower
