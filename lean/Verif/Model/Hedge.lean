import Verif.Model.Util
import Verif.Model.Middleware

/-!
# `tower/src/hedge`: Latency, Delay, Select and their composition

The rotating histogram is shared (`Arc<Mutex<..>>`), so it lives in the world; here it is used through
`record`, `delay` and `enough`; `Verif/Model/Histogram.lean` models it.
-/

namespace Tower

variable {W : Type}

/-- `Latency`, `tower/src/hedge/latency.rs:50-89`: the future carries its start instant; only successes
are recorded. `Mutex` poisoning is not modelled. -/
def Latency {Req Res Err BErr : Type} (into : Err → BErr) (C : Clock W) (record : Nat → W → W)
    (S : Service W Req Res Err) : Service W Req Res BErr where
  σ := S.σ
  φ := Nat × S.φ
  pollReady s := do                                  -- :60-62
    let (p, s') ← S.pollReady s
    pure (p.map (mapErr into), s')
  call s r := do                                     -- :64-70
    let w ← Act.get
    let start := C.now w
    let (x, s') ← S.call s r
    pure ((start, x), s')
  poll x := do                                       -- :81-88
    let (p, y) ← S.poll x.2
    match p with
    | .pending => pure (.pending, (x.1, y))
    | .ready (.error e) => pure (.ready (.error (into e)), (x.1, y))
    | .ready (.ok r) => do
      let w ← Act.get
      Act.modify (record (C.now w - x.1))
      pure (.ready (.ok r), (x.1, y))
  clone := S.clone

/-- Future of `Delay`, `tower/src/hedge/delay.rs:26-52`. The two `Option`s are always `Some` while
delaying; they are merged into the state. -/
inductive DelayFut (S Req F : Type) where
  | delaying (deadline : Nat) (req : Req) (svc : S)
  | called (f : F)

/-- `Delay`, `tower/src/hedge/delay.rs:75-126`. Always ready; the delayed service's readiness is driven by
`Oneshot` on a clone. -/
def Delay {Req Res Err BErr : Type} (into : Err → BErr) (C : Clock W) (delay : Req → W → Nat × W)
    (S : Service W Req Res Err) : Service W Req Res BErr where
  σ := S.σ
  φ := DelayFut S.σ Req (Oneshot S).φ
  pollReady s := pure (.ready (.ok ()), s)           -- :85-90
  call s r := do                                     -- :92-98
    let d ← Act.lift (delay r)
    let w ← Act.get
    pure (.delaying (C.now w + d) r (S.clone s), s)
  poll                                               -- :108-125, loop unrolled
    | .delaying dl r s => do
      let w ← Act.get
      if C.fired dl w = true then do
        let (p, x) ← (Oneshot S).poll (.notReady s (some r))
        pure (p.map (mapErr into), .called x)
      else do
        Act.modify (C.arm dl)
        pure (.pending, .delaying dl r s)
    | .called x => do
      let (p, x') ← (Oneshot S).poll x
      pure (p.map (mapErr into), .called x')
  clone := S.clone

/-- `Select`, `tower/src/hedge/select.rs:49-105`. -/
def Select {Req Res Err : Type} (cloneReq : Req → W → Option Req × W)
    (A B : Service W Req Res Err) : Service W Req Res Err where
  σ := A.σ × B.σ
  φ := A.φ × Option B.φ
  pollReady s := do                                  -- :61-68: both are polled
    let (p, a) ← A.pollReady s.1
    let (q, b) ← B.pollReady s.2
    match p, q with
    | .ready (.ok ()), .ready (.ok ()) => pure (.ready (.ok ()), (a, b))
    | .ready (.error e), _ => pure (.ready (.error e), (a, b))
    | _, .ready (.error e) => pure (.ready (.error e), (a, b))
    | _, _ => pure (.pending, (a, b))
  call s r := do                                     -- :70-80
    let c ← Act.lift (cloneReq r)
    match c with
    | some r' => do
      let (y, b) ← B.call s.2 r'
      let (x, a) ← A.call s.1 r
      pure ((x, some y), (a, b))
    | none => do
      let (x, a) ← A.call s.1 r
      pure ((x, none), (a, s.2))
  poll x := do                                       -- :92-104
    let (p, a) ← A.poll x.1
    match p with
    | .ready r => pure (.ready r, (a, x.2))
    | .pending =>
      match x.2 with
      | none => pure (.pending, (a, none))
      | some y => do
        let (q, b) ← B.poll y
        match q with
        | .ready r => pure (.ready r, (a, some b))
        | .pending => pure (.pending, (a, some b))
  clone s := (A.clone s.1, B.clone s.2)

/-- `PolicyPredicate::check`, `tower/src/hedge/mod.rs:221-242`: ready with the request if the policy allows
a retry, else pending forever (`none`). -/
def hedgePredFut {Req BErr : Type} : Fut W (Except BErr Req) where
  φ := Option Req
  poll
    | some r => pure (.ready (.ok r), none)
    | none => pure (.pending, none)

/-- The parameters of a `Hedge`: user policy `hedge::Policy` (`tower/src/hedge/mod.rs:56-62`) and the histogram operations
(`tower/src/hedge/mod.rs:212-219`, `:244-266`). `enough` is `read().len() >= min_data_points`. -/
structure HedgeCfg (W Req : Type) where
  clock : Clock W
  cloneRequest : Req → W → Option Req
  canRetry : Req → W → Bool
  record : Nat → W → W
  delay : W → Nat × W
  enough : W → Bool × W

/-- `SelectPolicy::clone_request`, `tower/src/hedge/mod.rs:258-265`. -/
def HedgeCfg.selectClone {Req : Type} (H : HedgeCfg W Req) (r : Req) (w : W) : Option Req × W :=
  match H.cloneRequest r w with
  | none => (none, w)
  | some r' => let (e, w') := H.enough w; (if e then some r' else none, w')

/-- `Hedge`, `tower/src/hedge/mod.rs:28-32`, `:128-164`: `Select` of `Latency` and
`Delay(AsyncFilter(Latency))`. `into` is the conversion to `BoxError`, which is the identity on an error
that is already boxed. -/
def Hedge {Req Res Err BErr : Type} (into : Err → BErr) (H : HedgeCfg W Req)
    (S : Service W Req Res Err) : Service W Req Res BErr :=
  Select H.selectClone
    (Latency into H.clock H.record S)
    (Delay id H.clock (fun _ => H.delay)
      (AsyncFilter id hedgePredFut (fun r w => (if H.canRetry r w then some r else none, w))
        (Latency into H.clock H.record S)))

/-- `Hedge::new`, `tower/src/hedge/mod.rs:142-143`: the service is cloned for the first part. -/
def Hedge.new {Req Res Err : Type} (S : Service W Req Res Err) (s : S.σ) : S.σ × S.σ := (S.clone s, s)

end Tower
