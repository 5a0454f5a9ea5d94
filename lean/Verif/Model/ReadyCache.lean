import Verif.Core

/-!
# `tower/src/ready_cache/cache.rs`

Outside the repository and assumed here:

* `indexmap::IndexMap`: a list of entries with distinct keys. `insert` overwrites the value in place or appends; `swap_remove*` puts the last entry
  into the place of the removed one. Keys that are equal are the same (`Equivalent` lookups are lookups by equal keys).
* `futures_util::stream::FuturesUnordered`: a set of futures. `poll_next` gives `Ready(None)` if it is empty; otherwise it polls some of them, in some
  order, possibly one of them several times, until one is ready (it is removed and its output returned) or it gives up (`Pending`). Which
  futures are polled, and in which order, depends on wakeups: here it is read from the world (`Sched`) and arbitrary.

A `Cancel` cell (`tower/src/ready_cache/cache.rs:79-91`) is named by a number; the set of cells that were cancelled is part of the state. The two halves of a
`CancelPair` are kept as two names. Wakers are not modelled.
-/

namespace Tower
variable {W Req Res Err : Type} {K : Type} [DecidableEq K]

/-! ## IndexMap -/

/-- `IndexMap`. The dependency indexmap, as used in `tower/src/ready_cache/cache.rs:65, 73`. -/
abbrev IMap (K V : Type) := List (K × V)

namespace IMap
variable {V : Type}

/-- `IndexMap::get_index_of`. The dependency indexmap, as used in `tower/src/ready_cache/cache.rs:322-330`. -/
def index (m : IMap K V) (k : K) : Option Nat := m.findIdx? (fun e => e.1 = k)

/-- `IndexMap::contains_key`. The dependency indexmap, as used in `tower/src/ready_cache/cache.rs:172`. -/
def contains (m : IMap K V) (k : K) : Bool := m.any (fun e => e.1 = k)

/-- `IndexMap::insert`. The dependency indexmap, as used in `tower/src/ready_cache/cache.rs:255, 292`. -/
def insert (m : IMap K V) (k : K) (v : V) : IMap K V :=
  if m.contains k then m.map (fun e => if e.1 = k then (e.1, v) else e) else m ++ [(k, v)]

/-- `IndexMap::swap_remove_index`. The dependency indexmap, as used in `tower/src/ready_cache/cache.rs:353, 368, 396`. -/
def swapRemoveIndex (m : IMap K V) (i : Nat) : Option ((K × V) × IMap K V) :=
  match m[i]?, m.getLast? with
  | some e, some l => some (e, (m.set i l).dropLast)
  | _, _ => none

/-- `IndexMap::swap_remove` (and `swap_remove_full`). The dependency indexmap, as used in `tower/src/ready_cache/cache.rs:218, 226, 288, 306`. -/
def swapRemove (m : IMap K V) (k : K) : Option (V × IMap K V) :=
  match m.index k with
  | none => none
  | some i => (m.swapRemoveIndex i).map (fun r => (r.1.2, r.2))

/-- `IndexMap::get`. The dependency indexmap, as used in `tower/src/ready_cache/cache.rs:176-198`. -/
def get (m : IMap K V) (k : K) : Option V := (m.find? (fun e => e.1 = k)).map (·.2)

end IMap

/-! ## The cache -/

/-- `Pending`, `tower/src/ready_cache/cache.rs:103-108`: an entry of the `FuturesUnordered`; a future that has completed is no longer there. -/
structure PEnt (K σ : Type) where
  key : K
  svc : σ
  rx : Nat

/-- `ReadyCache`, `tower/src/ready_cache/cache.rs:58-74`; `cancelled` are the `Cancel` cells set to true, `nextCell` the name of the next cell. -/
structure Cache (K : Type) (S : Service W Req Res Err) where
  pending : List (PEnt K S.σ)
  txs : IMap K Nat
  ready : IMap K (S.σ × (Nat × Nat))
  cancelled : List Nat
  nextCell : Nat

/-- The output of `Pending`, `tower/src/ready_cache/cache.rs:439`, with `PendingError`, `tower/src/ready_cache/cache.rs:94-97`. -/
inductive PRes (K σ E : Type) where
  | ok (k : K) (s : σ) (rx : Nat)
  | canceled (k : K)
  | inner (k : K) (e : E)

/-- Which futures, of a number of them, a `FuturesUnordered` polls next, by position. futures-util, for `tower/src/ready_cache/cache.rs:63`. -/
structure Sched (W : Type) where
  order : Nat → W → List Nat × W

variable {S : Service W Req Res Err}

/-- `<Pending as Future>::poll`, `tower/src/ready_cache/cache.rs:441-482`; the `expect`s concern a future that has completed. -/
def PEnt.poll (S : Service W Req Res Err) (cancelled : List Nat) (e : PEnt K S.σ) : Act W (Poll (PRes K S.σ Err) × PEnt K S.σ) :=
  if e.rx ∈ cancelled then pure (.ready (.canceled e.key), e)
  else do
    let (p, s') ← S.pollReady e.svc
    match p with
    | .pending =>
      if e.rx ∈ cancelled then Act.panic "cancelation cannot be notified while polling a pending service"
      else pure (.pending, { e with svc := s' })
    | .ready (.ok ()) => pure (.ready (.ok e.key s' e.rx), { e with svc := s' })
    | .ready (.error er) => pure (.ready (.inner e.key er), { e with svc := s' })

/-- `FuturesUnordered::poll_next` with the futures polled in a given order. futures-util, for `tower/src/ready_cache/cache.rs:283`. -/
def pollNext (S : Service W Req Res Err) (cancelled : List Nat) :
    List Nat → List (PEnt K S.σ) → Act W (Poll (Option (PRes K S.σ Err)) × List (PEnt K S.σ))
  | _, [] => pure (.ready none, [])
  | [], p => pure (.pending, p)
  | i :: is, p =>
    match p[i]? with
    | none => pollNext S cancelled is p
    | some e => do
      let (r, e') ← e.poll S cancelled
      match r with
      | .pending => pollNext S cancelled is (p.set i e')
      | .ready v => pure (.ready (some v), p.eraseIdx i)

namespace Cache

/-- `ReadyCache::default`, `tower/src/ready_cache/cache.rs:118-124`. -/
def empty (K : Type) (S : Service W Req Res Err) : Cache K S := ⟨[], [], [], [], 0⟩

/-- `len`, `tower/src/ready_cache/cache.rs:151-153`. -/
def len (c : Cache K S) : Nat := c.ready.length + c.pending.length

/-- `pending_contains`, `tower/src/ready_cache/cache.rs:171-173`. -/
def pendingContains (c : Cache K S) (k : K) : Bool := c.txs.contains k

/-- `CancelTx::cancel`, `tower/src/ready_cache/cache.rs:427-430`. -/
def cancel (c : Cache K S) (t : Nat) : Cache K S := { c with cancelled := t :: c.cancelled }

/-- `evict`, `tower/src/ready_cache/cache.rs:217-229`, first part: the pending one. -/
def evictPending (c : Cache K S) (k : K) : Bool × Cache K S :=
  match c.txs.swapRemove k with
  | some (t, txs') => (true, { c with txs := txs' }.cancel t)
  | none => (false, c)

/-- `evict`, `tower/src/ready_cache/cache.rs:217-229`. -/
def evict (c : Cache K S) (k : K) : Bool × Cache K S :=
  let (canceled, c1) := c.evictPending k
  match c1.ready.swapRemove k with
  | some (_, ready') => (true, { c1 with ready := ready' })
  | none => (canceled, c1)

/-- `push_pending`, `tower/src/ready_cache/cache.rs:254-265`. -/
def pushPending (c : Cache K S) (k : K) (s : S.σ) (pair : Nat × Nat) : Cache K S :=
  let c1 : Cache K S := { c with txs := c.txs.insert k pair.1 }
  let c2 := match c.txs.get k with
    | some old => c1.cancel old
    | none => c1
  { c2 with pending := c2.pending ++ [⟨k, s, pair.2⟩] }

/-- `push`, `tower/src/ready_cache/cache.rs:249-252`, with `cancelable`, `:418-424`. -/
def push (c : Cache K S) (k : K) (s : S.σ) : Cache K S :=
  { c with nextCell := c.nextCell + 1 }.pushPending k s (c.nextCell, c.nextCell)

/-- the loop of `poll_pending`, `tower/src/ready_cache/cache.rs:281-313`; the first argument is fuel -/
def pollPendingLoop (V : Sched W) : Nat → Cache K S → Act W (Poll (Except (K × Err) Unit) × Cache K S)
  | 0, _ => Act.spin
  | n + 1, c => do
    let o ← Act.lift (V.order c.pending.length)
    let (r, p) ← pollNext S c.cancelled o c.pending
    match r with
    | .pending => pure (.pending, { c with pending := p })
    | .ready none => pure (.ready (.ok ()), { c with pending := p })
    | .ready (some (.ok k s rx)) =>
      match c.txs.swapRemove k with
      | some (tx, txs') => pollPendingLoop V n { c with pending := p, txs := txs', ready := c.ready.insert k (s, (tx, rx)) }
      | none => Act.panic "services that become ready must have a pending cancelation"
    | .ready (some (.canceled _)) => pollPendingLoop V n { c with pending := p }
    | .ready (some (.inner k e)) =>
      match c.txs.swapRemove k with
      | some (_, txs') => pure (.ready (.error (k, e)), { c with pending := p, txs := txs' })
      | none => Act.panic "services that return an error must have a pending cancelation"

/-- `poll_pending`, `tower/src/ready_cache/cache.rs:281-313`. Every round removes a pending service, which bounds the loop (`pollPending_terminates`). -/
def pollPending (V : Sched W) (c : Cache K S) : Act W (Poll (Except (K × Err) Unit) × Cache K S) :=
  pollPendingLoop V (c.pending.length + 1) c

/-- a service is moved back to the pending ones unless a newer one is there, `tower/src/ready_cache/cache.rs:356-360`, `:403-405` -/
def putBack (c : Cache K S) (k : K) (s : S.σ) (pair : Nat × Nat) : Cache K S :=
  if c.pendingContains k = true then c else c.pushPending k s pair

/-- `check_ready_index`, `tower/src/ready_cache/cache.rs:338-372`. -/
def checkReadyIndex (c : Cache K S) (i : Nat) : Act W (Except (K × Err) Bool × Cache K S) :=
  match c.ready[i]? with
  | none => pure (.ok false, c)
  | some e => do
    let (p, s') ← S.pollReady e.2.1
    -- `svc` is borrowed from the map: the entry changes in place
    let ready' : IMap K (S.σ × (Nat × Nat)) := c.ready.set i (e.1, (s', e.2.2))
    match p with
    | .ready (.ok ()) => pure (.ok true, { c with ready := ready' })
    | .pending =>
      match ready'.swapRemoveIndex i with
      | none => Act.panic "invalid ready index"
      | some ((k, (s, pair)), ready'') => pure (.ok false, { c with ready := ready'' }.putBack k s pair)
    | .ready (.error er) =>
      match ready'.swapRemoveIndex i with
      | none => Act.panic "invalid ready index"
      | some ((k, _), ready'') => pure (.error (k, er), { c with ready := ready'' })

/-- `check_ready`, `tower/src/ready_cache/cache.rs:321-330`. -/
def checkReady (c : Cache K S) (k : K) : Act W (Except (K × Err) Bool × Cache K S) :=
  match c.ready.index k with
  | some i => c.checkReadyIndex i
  | none => pure (.ok false, c)

/-- `call_ready_index`, `tower/src/ready_cache/cache.rs:393-408`. -/
def callReadyIndex (c : Cache K S) (i : Nat) (r : Req) : Act W (S.φ × Cache K S) :=
  match c.ready.swapRemoveIndex i with
  | none => Act.panic "check_ready_index was not called"
  | some ((k, (s, pair)), ready') => do
    let (f, s') ← S.call s r
    pure (f, { c with ready := ready' }.putBack k s' pair)

/-- `call_ready`, `tower/src/ready_cache/cache.rs:380-386`. -/
def callReady (c : Cache K S) (k : K) (r : Req) : Act W (S.φ × Cache K S) :=
  match c.ready.index k with
  | some i => c.callReadyIndex i r
  | none => Act.panic "check_ready was not called"

end Cache

/-- One operation of a user of the cache. `push` names the service it adds by the number of pushes before it. -/
inductive CStep (V : Sched W) (S : Service W Req Res Err) : Cache K S → Cache K S → Prop
  | push {c : Cache K S} (k : K) (s : S.σ) : CStep V S c (c.push k s)
  | evict {c : Cache K S} (k : K) : CStep V S c (c.evict k).2
  | poll {c c' : Cache K S} {w w' p} : (c.pollPending V).run w = .ok (p, c') w' → CStep V S c c'
  | check {c c' : Cache K S} {i w w' r} : (c.checkReadyIndex i).run w = .ok (r, c') w' → CStep V S c c'
  | check_key {c c' : Cache K S} {k w w' r} : (c.checkReady k).run w = .ok (r, c') w' → CStep V S c c'
  | call {c c' : Cache K S} {i r w w' f} : (c.callReadyIndex i r).run w = .ok (f, c') w' → CStep V S c c'
  | call_key {c c' : Cache K S} {k r w w' f} : (c.callReady k r).run w = .ok (f, c') w' → CStep V S c c'
  /-- `get_ready_mut`, `get_ready_index_mut`, `iter_ready_mut`, `tower/src/ready_cache/cache.rs:181-209`: the user changes a ready service -/
  | tamper {c : Cache K S} {i k s pair} (s' : S.σ) : c.ready[i]? = some (k, (s, pair)) →
      CStep V S c { c with ready := c.ready.set i (k, (s', pair)) }

/-- Any sequence of operations. Of the methods of `tower/src/ready_cache/cache.rs:146-408`. -/
inductive CRun (V : Sched W) (S : Service W Req Res Err) (c : Cache K S) : Cache K S → Prop
  | refl : CRun V S c c
  | step {c1 c2} : CRun V S c c1 → CStep V S c1 c2 → CRun V S c c2

/-- The states a cache can get into. Of the methods of `tower/src/ready_cache/cache.rs:146-408`. -/
abbrev CReach (V : Sched W) (S : Service W Req Res Err) (c : Cache K S) : Prop := CRun V S (Cache.empty K S) c

end Tower
