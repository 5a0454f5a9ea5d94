import Verif.Model.Balance

/-!
# When `ReadyCache` and `Balance` drop a service

The operations of `Model/ReadyCache.lean` and `Model/Balance.lean` once more, over the same states, with the drops of services made explicit: `drop s w` is the world `w`
after the destructor of the service `s` has run. In Rust a service is dropped when the last place that owns it lets go of it; the comments say which place this is.
With a destructor that does nothing these operations are those of the other two files (`C77_same_code`).
-/

namespace Tower
variable {W Req Res Err : Type} {K : Type} [DecidableEq K] {S : Service W Req Res Err}

/-- the destructors of several services run. The drop of a `FuturesUnordered`, an `IndexMap`, `tower/src/ready_cache/cache.rs:58-74`. -/
def dropAll {σ : Type} (drop : σ → W → W) (l : List σ) (w : W) : W := l.foldl (fun w s => drop s w) w

/-- `FuturesUnordered::poll_next` with the futures polled in a given order. A future that has completed is dropped before `poll_next` returns (futures-util `release_task`); the service is still in it
unless the future has given it away (`this.ready.take()`, `tower/src/ready_cache/cache.rs:471-475`): after a cancellation (`:446-452`) and after a failure (`:476-479`). -/
def pollNextD (S : Service W Req Res Err) (drop : S.σ → W → W) (cancelled : List Nat) :
    List Nat → List (PEnt K S.σ) → Act W (Poll (Option (PRes K S.σ Err)) × List (PEnt K S.σ))
  | _, [] => pure (.ready none, [])
  | [], p => pure (.pending, p)
  | i :: is, p =>
    match p[i]? with
    | none => pollNextD S drop cancelled is p
    | some e => do
      let (r, e') ← e.poll S cancelled
      match r with
      | .pending => pollNextD S drop cancelled is (p.set i e')
      | .ready (.ok k s rx) => pure (.ready (some (.ok k s rx)), p.eraseIdx i)
      | .ready (.canceled k) => do
        Act.modify (drop e'.svc)
        pure (.ready (some (.canceled k)), p.eraseIdx i)
      | .ready (.inner k er) => do
        Act.modify (drop e'.svc)
        pure (.ready (some (.inner k er)), p.eraseIdx i)

namespace Cache

/-- The services in the cache, pending or ready. `tower/src/ready_cache/cache.rs:58-74`. -/
def held (c : Cache K S) : List S.σ := c.pending.map (·.svc) ++ c.ready.map (·.2.1)

/-- `evict`, `tower/src/ready_cache/cache.rs:217-229`: the ready service that `swap_remove_full` returns is dropped by `.map(|_| true)`; a pending one is only marked. -/
def evictD (drop : S.σ → W → W) (c : Cache K S) (k : K) : Act W (Bool × Cache K S) :=
  let (canceled, c1) := c.evictPending k
  match c1.ready.swapRemove k with
  | some ((s, _), ready') => do
    Act.modify (drop s)
    pure (true, { c1 with ready := ready' })
  | none => pure (canceled, c1)

/-- `self.ready.insert(..)`, `tower/src/ready_cache/cache.rs:292`: the service that was there before is returned and dropped. -/
def insertReadyD (drop : S.σ → W → W) (ready : IMap K (S.σ × (Nat × Nat))) (k : K) (v : S.σ × (Nat × Nat)) : Act W (IMap K (S.σ × (Nat × Nat))) :=
  match ready.get k with
  | some old => do
    Act.modify (drop old.1)
    pure (ready.insert k v)
  | none => pure (ready.insert k v)

/-- the loop of `poll_pending`, `tower/src/ready_cache/cache.rs:281-313` -/
def pollPendingLoopD (drop : S.σ → W → W) (V : Sched W) : Nat → Cache K S → Act W (Poll (Except (K × Err) Unit) × Cache K S)
  | 0, _ => Act.spin
  | n + 1, c => do
    let o ← Act.lift (V.order c.pending.length)
    let (r, p) ← pollNextD S drop c.cancelled o c.pending
    match r with
    | .pending => pure (.pending, { c with pending := p })
    | .ready none => pure (.ready (.ok ()), { c with pending := p })
    | .ready (some (.ok k s rx)) =>
      match c.txs.swapRemove k with
      | some (tx, txs') => do
        let ready' ← insertReadyD drop c.ready k (s, (tx, rx))
        pollPendingLoopD drop V n { c with pending := p, txs := txs', ready := ready' }
      | none => Act.panic "services that become ready must have a pending cancelation"
    | .ready (some (.canceled _)) => pollPendingLoopD drop V n { c with pending := p }
    | .ready (some (.inner k e)) =>
      match c.txs.swapRemove k with
      | some (_, txs') => pure (.ready (.error (k, e)), { c with pending := p, txs := txs' })
      | none => Act.panic "services that return an error must have a pending cancelation"

/-- `poll_pending`, `tower/src/ready_cache/cache.rs:281-313`. -/
def pollPendingD (drop : S.σ → W → W) (V : Sched W) (c : Cache K S) : Act W (Poll (Except (K × Err) Unit) × Cache K S) :=
  pollPendingLoopD drop V (c.pending.length + 1) c

/-- a service is moved back to the pending ones, or it is dropped if a newer one is there, `tower/src/ready_cache/cache.rs:356-360`, `:403-405` -/
def putBackD (drop : S.σ → W → W) (c : Cache K S) (k : K) (s : S.σ) (pair : Nat × Nat) : Act W (Cache K S) :=
  if c.pendingContains k = true then do
    Act.modify (drop s)
    pure c
  else pure (c.pushPending k s pair)

/-- `check_ready_index`, `tower/src/ready_cache/cache.rs:338-372`; a service that fails is dropped at the end of `let (key, _) = ..;`, `:366-369`. -/
def checkReadyIndexD (drop : S.σ → W → W) (c : Cache K S) (i : Nat) : Act W (Except (K × Err) Bool × Cache K S) :=
  match c.ready[i]? with
  | none => pure (.ok false, c)
  | some e => do
    let (p, s') ← S.pollReady e.2.1
    let ready' : IMap K (S.σ × (Nat × Nat)) := c.ready.set i (e.1, (s', e.2.2))
    match p with
    | .ready (.ok ()) => pure (.ok true, { c with ready := ready' })
    | .pending =>
      match ready'.swapRemoveIndex i with
      | none => Act.panic "invalid ready index"
      | some ((k, (s, pair)), ready'') => do
        let c' ← { c with ready := ready'' }.putBackD drop k s pair
        pure (.ok false, c')
    | .ready (.error er) =>
      match ready'.swapRemoveIndex i with
      | none => Act.panic "invalid ready index"
      | some ((k, (s, _)), ready'') => do
        Act.modify (drop s)
        pure (.error (k, er), { c with ready := ready'' })

/-- `check_ready`, `tower/src/ready_cache/cache.rs:321-330`. -/
def checkReadyD (drop : S.σ → W → W) (c : Cache K S) (k : K) : Act W (Except (K × Err) Bool × Cache K S) :=
  match c.ready.index k with
  | some i => c.checkReadyIndexD drop i
  | none => pure (.ok false, c)

/-- `call_ready_index`, `tower/src/ready_cache/cache.rs:393-408`. -/
def callReadyIndexD (drop : S.σ → W → W) (c : Cache K S) (i : Nat) (r : Req) : Act W (S.φ × Cache K S) :=
  match c.ready.swapRemoveIndex i with
  | none => Act.panic "check_ready_index was not called"
  | some ((k, (s, pair)), ready') => do
    let (f, s') ← S.call s r
    let c' ← { c with ready := ready' }.putBackD drop k s' pair
    pure (f, c')

/-- `call_ready`, `tower/src/ready_cache/cache.rs:380-386`. -/
def callReadyD (drop : S.σ → W → W) (c : Cache K S) (k : K) (r : Req) : Act W (S.φ × Cache K S) :=
  match c.ready.index k with
  | some i => c.callReadyIndexD drop i r
  | none => Act.panic "check_ready was not called"

end Cache

namespace Balance
variable {DErr BErr : Type} {B : BalCfg W Req Res Err K DErr BErr}

/-- one change of discovery, `tower/src/balance/p2c/service.rs:116-126` -/
def applyD (drop : B.S.σ → W → W) (c : Cache K B.S) : Change K B.S.σ → Act W (Cache K B.S)
  | .remove k => do
    let r ← c.evictD drop k
    pure r.2
  | .insert k s => pure (c.push k s)

/-- `update_pending_from_discover`, `tower/src/balance/p2c/service.rs:106-129` -/
def updateD (drop : B.S.σ → W → W) : Nat → Balance B → Act W (Except DErr Unit × Balance B)
  | 0, _ => Act.spin
  | n + 1, b => do
    let (p, d) ← B.D.poll b.disc
    match p with
    | .pending => pure (.ok (), { b with disc := d })
    | .ready none => pure (.ok (), { b with disc := d })
    | .ready (some (.error e)) => pure (.error e, { b with disc := d })
    | .ready (some (.ok ch)) => do
      let c ← applyD drop b.svcs ch
      updateD drop n { b with disc := d, svcs := c }

/-- `promote_pending_to_ready`, `tower/src/balance/p2c/service.rs:131-156` -/
def promoteD (drop : B.S.σ → W → W) : Nat → Balance B → Act W (Balance B)
  | 0, _ => Act.spin
  | n + 1, b => do
    let (p, c) ← b.svcs.pollPendingD drop B.V
    let b := { b with svcs := c }
    match p with
    | .ready (.ok ()) => if c.pending.length = 0 then pure b else Act.panic "pending_len"
    | .pending => if 0 < c.pending.length then pure b else Act.panic "pending_len"
    | .ready (.error _) => promoteD drop n b

/-- the first half of the loop, `tower/src/balance/p2c/service.rs:222-238` -/
def recheckD (drop : B.S.σ → W → W) (b : Balance B) : Act W (Bool × Balance B) :=
  match b.idx with
  | none => pure (false, b)
  | some i => do
    let (r, c) ← b.svcs.checkReadyIndexD drop i
    match r with
    | .ok true => pure (true, { b with svcs := c, idx := some i })
    | .ok false => pure (false, { b with svcs := c, idx := none })
    | .error _ => pure (false, { b with svcs := c, idx := none })

/-- the loop of `poll_ready`, `tower/src/balance/p2c/service.rs:215-249` -/
def selectD (drop : B.S.σ → W → W) : Nat → Balance B → Act W (Poll (Except BErr Unit) × Balance B)
  | 0, _ => Act.spin
  | n + 1, b => do
    let (r, b) ← b.recheckD drop
    if r = true then pure (.ready (.ok ()), b)
    else
      let (found, b) ← b.choose
      if found = true then selectD drop n b else pure (.pending, b)

/-- after discovery: `tower/src/balance/p2c/service.rs:213-249` -/
def restD (drop : B.S.σ → W → W) (b : Balance B) : Act W (Poll (Except BErr Unit) × Balance B) := do
  let b ← promoteD drop (b.svcs.pending.length + 1) b
  selectD drop (b.svcs.ready.length + 2) b

/-- `poll_ready`, `tower/src/balance/p2c/service.rs:209-250`. -/
def pollReadyD (drop : B.S.σ → W → W) (fuel : Nat) (b : Balance B) : Act W (Poll (Except BErr Unit) × Balance B) := do
  let (r, b) ← updateD drop fuel b
  match r with
  | .error e => pure (.ready (.error (B.fromDisc e)), b)
  | .ok () => b.restD drop

/-- `call`, `tower/src/balance/p2c/service.rs:253-258`. -/
def callD (drop : B.S.σ → W → W) (b : Balance B) (r : Req) : Act W (B.S.φ × Balance B) :=
  match b.idx with
  | none => Act.panic "called before ready"
  | some i => do
    let (f, c) ← b.svcs.callReadyIndexD drop i r
    pure (f, { b with svcs := c, idx := none })

end Balance
end Tower
