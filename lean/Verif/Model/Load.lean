import Verif.Model.Semaphore
import Verif.Model.Balance
import Mathlib.Analysis.SpecialFunctions.Exp

/-!
# `tower/src/load`: tracking of requests in flight, `PendingRequests`, `PeakEwma`, `Constant`

The world is `R × W`: `R` is what the handles of one service share (an `Arc`), `W` everything else. `f64` arithmetic is modelled by real numbers (no rounding).
-/

namespace Tower
variable {W Req Res Err Res' : Type}

/-- Code that uses only the first component of the world. For the `Arc`s of `tower/src/load/pending_requests.rs:28` and `tower/src/load/peak_ewma.rs:47`. -/
def Act.fst {A α : Type} (x : Act A α) : Act (A × W) α :=
  ⟨fun w => match x.run w.1 with
    | .ok a r => .ok a (r, w.2)
    | .panic m => .panic m
    | .spin => .spin⟩

/-- A kind of handle: how it is made, what its `Drop` does, and what can happen to the shared state otherwise (time passes, the load is read). `stamp` is the time that is read first. `Handle` of `tower/src/load/pending_requests.rs:51` and of `tower/src/load/peak_ewma.rs:74-79`. -/
structure Tracker where
  R : Type
  H : Type
  handle : Act R H
  dropH : H → Act R Unit
  other : R → R → Prop
  stamp : R → Nat

/-- `TrackCompletion`, `tower/src/load/completion.rs:33-39`: user code that turns a response into another one and either stores the handle in it (`keep`) or drops it. -/
structure Completion (Res Res' : Type) where
  out : Res → Res'
  keep : Res → Bool

/-- `CompleteOnResponse`, `tower/src/load/completion.rs:43-45, 88-95`. -/
def CompleteOnResponse : Completion Res Res := ⟨id, fun _ => false⟩

/-- `track_completion`; the second component is the handle stored in the response. `tower/src/load/completion.rs:38`. -/
def Completion.track (C : Completion Res Res') (T : Tracker) (h : T.H) (v : Res) : Act T.R (Res' × Option T.H) :=
  if C.keep v = true then pure (C.out v, some h) else do T.dropH h; pure (C.out v, none)

/-- `impl Service for PendingRequests`, `tower/src/load/pending_requests.rs:77-97`, `impl Service for PeakEwma`, `tower/src/load/peak_ewma.rs:112-132`, with `TrackCompletionFuture`, `tower/src/load/completion.rs:50-84`.
In `call` the handle is made before the inner service is called. -/
@[reducible] def tracked (T : Tracker) (C : Completion Res Res') (S : Service W Req Res Err) : Service (T.R × W) Req (Res' × Option T.H) Err where
  σ := S.σ
  φ := S.φ × Option T.H
  pollReady s := (S.pollReady s).snd
  call s q := do
    let h ← T.handle.fst
    let (f, s') ← (S.call s q).snd
    pure ((f, some h), s')
  poll x := do
    let (p, f') ← (S.poll x.1).snd
    match p with
    | .pending => pure (.pending, (f', x.2))
    | .ready (.error e) => pure (.ready (.error e), (f', x.2))
    | .ready (.ok v) =>
      match x.2 with
      | none => Act.panic "handle"
      | some h => do
        let o ← (C.track T h v).fst
        pure (.ready (.ok o), (f', none))
  clone := S.clone

/-! ## Histories -/

/-- A call was made; a call is finished. With the time. Of the code of `tower/src/load/completion.rs:71-84`. -/
inductive LoadEv where
  | called (n t : Nat)
  | finished (n t : Nat)
  deriving DecidableEq

/-- What exists: the shared state, the service, the response futures with the number of their call and whether they have returned `Ready(Ok)`, the responses with a handle in them; and the number of calls made. For `tower/src/load/pending_requests.rs:77-97` and `tower/src/load/peak_ewma.rs:112-132`. -/
structure LState (T : Tracker) (S : Service W Req Res Err) where
  r : T.R
  svc : S.σ
  futs : List (Nat × Bool × (S.φ × Option T.H))
  outs : List (Nat × T.H)
  calls : Nat

/-- drop of a future's handle, if it has it still. the field `handle` of `tower/src/load/completion.rs:53`. -/
def Tracker.dropOpt (T : Tracker) : Option T.H → Act T.R Unit
  | some h => T.dropH h
  | none => pure ()

/-- has the future returned `Ready(Ok)`, after a poll that returned `p`?. `tower/src/load/completion.rs:80-82`. -/
def gotOk {α E : Type} : Poll (Except E α) → Bool → Bool
  | .ready (.ok _), _ => true
  | _, d => d

/-- the response with a handle in it that was returned, if any. `tower/src/load/completion.rs:82`. -/
def kept {α H E : Type} : Poll (Except E (α × Option H)) → Nat → List (Nat × H)
  | .ready (.ok (_, some h)), n => [(n, h)]
  | _, _ => []

/-- a response without a handle was returned: the call is finished. `tower/src/load/completion.rs:82`. -/
def ended {α H E : Type} : Poll (Except E (α × Option H)) → Nat → Nat → List LoadEv
  | .ready (.ok (_, none)), n, t => [.finished n t]
  | _, _, _ => []

/-- Every history of a tracked service: any number of calls, futures polled, dropped at any moment (finished or not), responses dropped at any moment, in any interleaving. The log says which calls were made and which are finished:
a call is finished when its future returns `Ready(Ok)` with a response that does not keep the handle, when such a response, that does, is dropped, or when the future is dropped without having returned `Ready(Ok)`. For `tower/src/load/pending_requests.rs:77-97`, `tower/src/load/peak_ewma.rs:112-132` and `tower/src/load/completion.rs:71-84`. -/
inductive LoadHist (T : Tracker) (C : Completion Res Res') (S : Service W Req Res Err) (r0 : T.R) : LState T S → List LoadEv → Prop
  | new (i : S.σ) : LoadHist T C S r0 ⟨r0, i, [], [], 0⟩ []
  | ready {x log w p s' r' w'} : LoadHist T C S r0 x log → ((tracked T C S).pollReady x.svc).run (x.r, w) = .ok (p, s') (r', w') → LoadHist T C S r0 { x with r := r', svc := s' } log
  | call {x log q w f s' r' w'} : LoadHist T C S r0 x log → ((tracked T C S).call x.svc q).run (x.r, w) = .ok (f, s') (r', w') →
      LoadHist T C S r0 { x with r := r', svc := s', futs := x.futs ++ [(x.calls, false, f)], calls := x.calls + 1 } (log ++ [.called x.calls (T.stamp x.r)])
  /-- the inner `call` panics (and somebody catches it): the handle is dropped -/
  | call_panics {x log h r1 r2} (i : S.σ) : LoadHist T C S r0 x log → T.handle.run x.r = .ok h r1 → (T.dropH h).run r1 = .ok () r2 →
      LoadHist T C S r0 { x with r := r2, svc := i, calls := x.calls + 1 } (log ++ [.called x.calls (T.stamp x.r), .finished x.calls (T.stamp r1)])
  | poll {x log w p r' w' l r n d f f'} : LoadHist T C S r0 x log → x.futs = l ++ (n, d, f) :: r → ((tracked T C S).poll f).run (x.r, w) = .ok (p, f') (r', w') →
      LoadHist T C S r0
        { x with
          r := r'
          futs := l ++ (n, (gotOk p d), f') :: r
          outs := x.outs ++ kept p n }
        (log ++ ended p n (T.stamp x.r))
  | drop_future {x log l r n d f r'} : LoadHist T C S r0 x log → x.futs = l ++ (n, d, f) :: r → (T.dropOpt f.2).run x.r = .ok () r' →
      LoadHist T C S r0 { x with r := r', futs := l ++ r } (if d = true then log else log ++ [.finished n (T.stamp x.r)])
  | drop_response {x log l r n h r'} : LoadHist T C S r0 x log → x.outs = l ++ (n, h) :: r → (T.dropH h).run x.r = .ok () r' →
      LoadHist T C S r0 { x with r := r', outs := l ++ r } (log ++ [.finished n (T.stamp x.r)])
  | other {x log r'} : LoadHist T C S r0 x log → T.other x.r r' → LoadHist T C S r0 { x with r := r' } log

/-! ## PendingRequests -/

/-- `RefCount`, `Handle`, `tower/src/load/pending_requests.rs:26-28, 50-51`: the shared state is the strong count of the `Arc`. -/
@[reducible] def pendingTracker : Tracker where
  R := Nat
  H := Unit
  -- `handle`, `tower/src/load/pending_requests.rs:63-65`: `Arc::clone`
  handle := ⟨fun n => .ok () (n + 1)⟩
  dropH _ := ⟨fun n => .ok () (n - 1)⟩
  other a b := a = b
  stamp _ := 0

/-- `<PendingRequests as Load>::load`, `tower/src/load/pending_requests.rs:68-75` -/
def pendingLoad : Act Nat Nat := ⟨fun n => if n = 0 then .panic "attempt to subtract with overflow" else .ok (n - 1) n⟩

/-- The service with its load, to put into a balancer: `PendingRequests`, `tower/src/load/pending_requests.rs:20-24`. -/
abbrev PendingRequests (C : Completion Res Res') (S : Service W Req Res Err) : Service (Nat × W) Req (Res' × Option Unit) Err := tracked pendingTracker C S

/-! ## PeakEwma -/

/-- `nanos`, `tower/src/load/peak_ewma.rs:303-308`: from a duration in nanoseconds; whole seconds saturate. -/
noncomputable def nanos (d : Nat) : ℝ := ((d % 1000000000 : Nat) : ℝ) + ((min (d / 1000000000 * 1000000000) (2 ^ 64 - 1) : Nat) : ℝ)

/-- `RttEstimate`, `tower/src/load/peak_ewma.rs:82-85`, with the strong count of its `Arc` and a clock: `Instant::now()` returns `now + lag 0`, which then is the time; `lag` says how much time passes before each reading. -/
structure Ewma where
  updateAt : Nat
  rtt : ℝ
  count : Nat
  now : Nat
  lag : Nat → Nat

/-- `Instant::now()`. `tower/src/load/peak_ewma.rs:106, 223, 230, 246, 289`. -/
def Ewma.tick : Act Ewma Nat := ⟨fun e => .ok (e.now + e.lag 0) { e with now := e.now + e.lag 0, lag := fun n => e.lag (n + 1) }⟩

/-- `RttEstimate::update`, `tower/src/load/peak_ewma.rs:237-282`. The `debug_assert!`s panic. -/
noncomputable def Ewma.update (decayNs : ℝ) (sentAt recvAt : Nat) : Act Ewma ℝ :=
  if ¬ sentAt ≤ recvAt then Act.panic "recv_at after sent_at"
  else do
    let rtt := nanos (recvAt - sentAt)
    let now ← Ewma.tick
    let e ← Act.get
    if ¬ e.updateAt ≤ now then Act.panic "update_at in the future"
    else do
      let next :=
        if e.rtt < rtt then rtt
        else
          let elapsed := nanos (now - e.updateAt)
          let decay := Real.exp (-elapsed / decayNs)
          let recency := 1 - decay
          e.rtt * decay + rtt * recency
      Act.modify (fun e => { e with rtt := next, updateAt := now })
      pure next

/-- `RttEstimate::decay`, `tower/src/load/peak_ewma.rs:228-232` -/
noncomputable def Ewma.decay (decayNs : ℝ) : Act Ewma ℝ := do
  let now ← Ewma.tick
  Ewma.update decayNs now now

/-- `<PeakEwma as Load>::load`, `tower/src/load/peak_ewma.rs:134-153`. The strong count is truncated to `u32`. -/
noncomputable def Ewma.load (decayNs : ℝ) : Act Ewma ℝ := do
  let e ← Act.get
  let c := e.count % 2 ^ 32
  if c = 0 then Act.panic "attempt to subtract with overflow"
  else do
    let pending := c - 1
    let estimate ← Ewma.decay decayNs
    if 2 ^ 32 ≤ pending + 1 then Act.panic "attempt to add with overflow"
    else pure (estimate * ((pending + 1 : Nat) : ℝ))

/-- `Handle`, `tower/src/load/peak_ewma.rs:74-79, 103-109, 287-295`: it is dropped with an update; the handle's `Arc` is released after that. -/
@[reducible] noncomputable def ewmaTracker (decayNs : ℝ) : Tracker where
  R := Ewma
  H := Nat
  handle := do
    let sentAt ← Ewma.tick
    Act.modify (fun e => { e with count := e.count + 1 })
    pure sentAt
  dropH sentAt := do
    let recvAt ← Ewma.tick
    let _ ← Ewma.update decayNs sentAt recvAt
    Act.modify (fun e => { e with count := e.count - 1 })
  other a b := (∃ d lag, b = { a with now := a.now + d, lag := lag }) ∨ (∃ c, (Ewma.load decayNs).run a = .ok c b)
  stamp e := e.now + e.lag 0

/-- `PeakEwma::new`, `tower/src/load/peak_ewma.rs:93-101`, `RttEstimate::new`, `:219-225`, at time `t`. The assertions are that `decayNs` and `default_rtt` are positive. -/
noncomputable def Ewma.new (defaultRtt : Nat) (t : Nat) (lag : Nat → Nat) : Ewma := ⟨t, nanos defaultRtt, 1, t, lag⟩

/-- `PeakEwma`, `tower/src/load/peak_ewma.rs:44-49`. -/
noncomputable abbrev PeakEwma (decayNs : ℝ) (C : Completion Res Res') (S : Service W Req Res Err) : Service (Ewma × W) Req (Res' × Option Nat) Err := tracked (ewmaTracker decayNs) C S

/-! ## Constant; the wrappers of discovery -/

/-- `impl Service for Constant`, `tower/src/load/constant.rs:43-59`; the state is the inner one and the load. -/
@[reducible] def Constant (M : Type) (S : Service W Req Res Err) : Service W Req Res Err where
  σ := S.σ × M
  φ := S.φ
  pollReady s := do let (p, i) ← S.pollReady s.1; pure (p, (i, s.2))
  call s q := do let (f, i) ← S.call s.1 q; pure (f, (i, s.2))
  poll := S.poll
  clone s := (S.clone s.1, s.2)

/-- `<Constant as Load>::load`, `tower/src/load/constant.rs:35-41` -/
def Constant.load {M : Type} {S : Service W Req Res Err} (le : M → M → Bool) : LoadOf W (Constant M S).σ := ⟨M, fun s => pure s.2, le⟩

/-- `PendingRequestsDiscover`, `tower/src/load/pending_requests.rs:118-138`, `PeakEwmaDiscover`, `tower/src/load/peak_ewma.rs:189-214`, `Constant` as a discovery, `tower/src/load/constant.rs:60-80`: every inserted service is wrapped by `wrap`
(`PendingRequests::new`, `PeakEwma::new`, `Constant::new`). -/
@[reducible] def wrapDiscover {K V V' DErr : Type} (wrap : V → Act W V') (D : Discover W K V DErr) : Discover W K V' DErr where
  δ := D.δ
  poll d := do
    let (p, d') ← D.poll d
    match p with
    | .pending => pure (.pending, d')
    | .ready none => pure (.ready none, d')
    | .ready (some (.error e)) => pure (.ready (some (.error e)), d')
    | .ready (some (.ok (.remove k))) => pure (.ready (some (.ok (.remove k))), d')
    | .ready (some (.ok (.insert k v))) => do
      let v' ← wrap v
      pure (.ready (some (.ok (.insert k v'))), d')

end Tower
