import Verif.Model.ReadyCache
import Verif.Model.Rng
import Verif.Model.Layer

/-!
# `tower/src/balance/p2c/service.rs`, `make.rs`

`debug_assert!`s are modelled as panics (a debug build); it is proved that they cannot fail. The `trace!`/`debug!` output is not modelled.
-/

namespace Tower
variable {W Req Res Err : Type} {K : Type} [DecidableEq K]

/-- `Discover`, `tower/src/discover/mod.rs:54-106`: a stream of changes. -/
structure Discover (W K V DErr : Type) where
  δ : Type
  poll : δ → Act W (Poll (Option (Except DErr (Change K V))) × δ)

/-- `Load`, `tower/src/load/mod.rs:81-89`: a metric with some `<=`. -/
structure LoadOf (W σ : Type) where
  M : Type
  load : σ → Act W M
  le : M → M → Bool

/-- What a balancer is made of: endpoints, discovery, load, random numbers, the scheduling of pending endpoints, and the conversions into `BoxError`. The type parameters of `tower/src/balance/p2c/service.rs:29-42`. -/
structure BalCfg (W Req Res Err K DErr BErr : Type) where
  S : Service W Req Res Err
  D : Discover W K S.σ DErr
  L : LoadOf W S.σ
  G : Rng
  V : Sched W
  fromErr : Err → BErr
  fromDisc : DErr → BErr

variable {DErr BErr : Type}

/-- `Balance`, `tower/src/balance/p2c/service.rs:29-42`. -/
structure Balance (B : BalCfg W Req Res Err K DErr BErr) where
  disc : B.D.δ
  svcs : Cache K B.S
  idx : Option Nat
  rng : B.G.ρ

namespace Balance
variable {B : BalCfg W Req Res Err K DErr BErr}

/-- `from_rng`, `tower/src/balance/p2c/service.rs:71-81`; `new`, `:66-68`, is this with a `HasherRng`. -/
def fromRng (B : BalCfg W Req Res Err K DErr BErr) (d : B.D.δ) (r : B.G.ρ) : Balance B := ⟨d, Cache.empty K B.S, none, r⟩

/-- `len`, `tower/src/balance/p2c/service.rs:84-86`. -/
def len (b : Balance B) : Nat := b.svcs.len

/-- one change of discovery, `tower/src/balance/p2c/service.rs:116-126`; the bool of `evict` is ignored -/
def apply (c : Cache K B.S) : Change K B.S.σ → Cache K B.S
  | .remove k => (c.evict k).2
  | .insert k s => c.push k s

/-- `update_pending_from_discover`, `tower/src/balance/p2c/service.rs:106-129`, as `poll_ready` uses it (`:212`): an error, or else nothing. The first argument is fuel: a discovery
that never is pending keeps the code in this loop. -/
def update : Nat → Balance B → Act W (Except DErr Unit × Balance B)
  | 0, _ => Act.spin
  | n + 1, b => do
    let (p, d) ← B.D.poll b.disc
    match p with
    | .pending => pure (.ok (), { b with disc := d })
    | .ready none => pure (.ok (), { b with disc := d })
    | .ready (some (.error e)) => pure (.error e, { b with disc := d })
    | .ready (some (.ok ch)) => update n { b with disc := d, svcs := apply b.svcs ch }

/-- `promote_pending_to_ready`, `tower/src/balance/p2c/service.rs:131-156`; the first argument is fuel (it suffices, `promote_wpx`). -/
def promote : Nat → Balance B → Act W (Balance B)
  | 0, _ => Act.spin
  | n + 1, b => do
    let (p, c) ← b.svcs.pollPending B.V
    let b := { b with svcs := c }
    match p with
    | .ready (.ok ()) => if c.pending.length = 0 then pure b else Act.panic "pending_len"
    | .pending => if 0 < c.pending.length then pure b else Act.panic "pending_len"
    | .ready (.error _) => promote n b

/-- `ready_index_load`, `tower/src/balance/p2c/service.rs:187-190`. -/
def readyIndexLoad (b : Balance B) (i : Nat) : Act W B.L.M :=
  match b.svcs.ready[i]? with
  | none => Act.panic "invalid index"
  | some e => B.L.load e.2.1

/-- `p2c_ready_index`, `tower/src/balance/p2c/service.rs:159-184`. -/
def p2c (b : Balance B) : Act W (Option Nat × Balance B) :=
  if b.svcs.ready.length = 0 then pure (none, b)
  else if b.svcs.ready.length = 1 then pure (some 0, b)
  else
    match sampleFloyd2 B.G b.rng b.svcs.ready.length with
    | none => Act.panic "attempt to calculate the remainder with a divisor of zero"
    | some ((aidx, bidx), rng') =>
      if aidx = bidx then Act.panic "random indices must be distinct"
      else do
        let aload ← b.readyIndexLoad aidx
        let bload ← b.readyIndexLoad bidx
        pure (some (if B.L.le aload bload = true then aidx else bidx), { b with rng := rng' })

/-- the second half of the loop, `tower/src/balance/p2c/service.rs:240-248`: choose; `none` is `Pending` -/
def choose (b : Balance B) : Act W (Bool × Balance B) := do
  let (i, b) ← b.p2c
  let b := { b with idx := i }
  match i with
  | some _ => pure (true, b)
  | none => if b.svcs.ready.length = 0 then pure (false, b) else Act.panic "ready_len"

/-- the first half of the loop, `tower/src/balance/p2c/service.rs:222-238`: re-check the endpoint chosen before -/
def recheck (b : Balance B) : Act W (Bool × Balance B) :=
  match b.idx with
  | none => pure (false, b)
  | some i => do
    let (r, c) ← b.svcs.checkReadyIndex i
    match r with
    | .ok true => pure (true, { b with svcs := c, idx := some i })
    | .ok false => pure (false, { b with svcs := c, idx := none })
    | .error _ => pure (false, { b with svcs := c, idx := none })

/-- the loop of `poll_ready`, `tower/src/balance/p2c/service.rs:215-249`; the first argument is fuel (it suffices, `select_wpx`) -/
def select : Nat → Balance B → Act W (Poll (Except BErr Unit) × Balance B)
  | 0, _ => Act.spin
  | n + 1, b => do
    let (r, b) ← b.recheck
    if r = true then pure (.ready (.ok ()), b)
    else
      let (found, b) ← b.choose
      if found = true then select n b else pure (.pending, b)

/-- after discovery: `tower/src/balance/p2c/service.rs:213-249` -/
def rest (b : Balance B) : Act W (Poll (Except BErr Unit) × Balance B) := do
  let b ← promote (b.svcs.pending.length + 1) b
  select (b.svcs.ready.length + 2) b

/-- `poll_ready`, `tower/src/balance/p2c/service.rs:209-250`. -/
def pollReady (fuel : Nat) (b : Balance B) : Act W (Poll (Except BErr Unit) × Balance B) := do
  let (r, b) ← update fuel b
  match r with
  | .error e => pure (.ready (.error (B.fromDisc e)), b)
  | .ok () => b.rest

/-- `call`, `tower/src/balance/p2c/service.rs:253-258`. -/
def call (b : Balance B) (r : Req) : Act W (B.S.φ × Balance B) :=
  match b.idx with
  | none => Act.panic "called before ready"
  | some i => do
    let (f, c) ← b.svcs.callReadyIndex i r
    pure (f, { b with svcs := c, idx := none })

end Balance

/-- `impl Service for Balance`, `tower/src/balance/p2c/service.rs:193-259`; the future is `MapErr`, `:203-206`. A balancer is not `Clone`. -/
@[reducible] def balance (B : BalCfg W Req Res Err K DErr BErr) (fuel : Nat) : Service W Req Res BErr where
  σ := Balance B
  φ := Option B.S.φ
  pollReady b := b.pollReady fuel
  call b r := do
    let (f, b') ← b.call r
    pure (some f, b')
  poll := mapFut B.S.poll (fun res => pure (mapErr B.fromErr res))
  clone b := b

/-- `MakeBalance`, `tower/src/balance/p2c/make.rs:27-88`, and `MakeFuture`, `make.rs:100-117`. The maker's response is a discovery; `seed` is `HasherRng::default()`, `tower/src/util/rng.rs:76-91`
(`RandomState` takes its keys from the operating system). -/
@[reducible] def makeBalance {Tgt MErr : Type} (B : BalCfg W Req Res Err K DErr BErr) (seed : Act W B.G.ρ) (M : Service W Tgt B.D.δ MErr) : Service W Tgt (Balance B) MErr where
  σ := M.σ
  φ := M.φ
  pollReady s := M.pollReady s
  call s t := M.call s t
  poll f := do
    let (p, f') ← M.poll f
    match p with
    | .pending => pure (.pending, f')
    | .ready (.error e) => pure (.ready (.error e), f')
    | .ready (.ok d) => do
      let r ← seed
      pure (.ready (.ok (Balance.fromRng B d r)), f')
  clone s := M.clone s

end Tower
