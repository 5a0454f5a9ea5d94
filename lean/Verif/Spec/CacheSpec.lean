import Verif.Model.ReadyCache

/-!
# What a cache of services by key is

The specification of `ReadyCache`: for every key at most one service that is waiting to be ready and at most one that is ready. Every
service has a number: the number of services pushed before it.
-/

namespace Tower
variable {W Req Res Err : Type} {K : Type} [DecidableEq K]

/-- What a user can tell of a cache: the waiting and the ready service of every key, with their numbers; the number of pushes. -/
structure View (K σ : Type) where
  pend : K → Option (Nat × σ)
  rdy : K → Option (Nat × σ)
  count : Nat

namespace View
variable {σ : Type}

/-- change the entry of one key -/
def upd (f : K → Option (Nat × σ)) (k : K) (v : Option (Nat × σ)) : K → Option (Nat × σ) := fun k' => if k' = k then v else f k'

/-- nothing -/
def nil (K σ : Type) : View K σ := ⟨fun _ => none, fun _ => none, 0⟩

/-- the new service waits, in place of an older one that was waiting -/
def push (v : View K σ) (k : K) (s : σ) : View K σ := ⟨upd v.pend k (some (v.count, s)), v.rdy, v.count + 1⟩

/-- nothing is left for the key -/
def evict (v : View K σ) (k : K) : View K σ := ⟨upd v.pend k none, upd v.rdy k none, v.count⟩

/-- a ready service is taken out and, changed to `s`, waits again, unless a newer one waits already -/
def demote (v : View K σ) (k : K) (t : Nat) (s : σ) : View K σ :=
  ⟨if v.pend k = none then upd v.pend k (some (t, s)) else v.pend, upd v.rdy k none, v.count⟩

/-- the waiting service is ready, in place of an older one that was ready -/
def promote (v : View K σ) (k : K) (t : Nat) (s : σ) : View K σ := ⟨upd v.pend k none, upd v.rdy k (some (t, s)), v.count⟩

/-- a waiting service is dropped -/
def dropPend (v : View K σ) (k : K) : View K σ := ⟨upd v.pend k none, v.rdy, v.count⟩

/-- a ready service is dropped -/
def dropRdy (v : View K σ) (k : K) : View K σ := ⟨v.pend, upd v.rdy k none, v.count⟩

/-- a waiting service changes -/
def setPend (v : View K σ) (k : K) (t : Nat) (s : σ) : View K σ := ⟨upd v.pend k (some (t, s)), v.rdy, v.count⟩

/-- a ready service changes -/
def setRdy (v : View K σ) (k : K) (t : Nat) (s : σ) : View K σ := ⟨v.pend, upd v.rdy k (some (t, s)), v.count⟩

end View

/-- What polling a waiting service can do. -/
inductive PollEv (K Err : Type) where
  /-- still not ready -/
  | still (k : K) (t : Nat)
  /-- ready, and promoted -/
  | promoted (k : K) (t : Nat)
  /-- failed, and dropped -/
  | failed (k : K) (t : Nat) (e : Err)

/-- A waiting service of the view is polled in world `w`, and what it answers decides what happens to it. -/
inductive PollStep (S : Service W Req Res Err) : View K S.σ → W → PollEv K Err → View K S.σ → W → Prop
  | still {v w k t s s' w'} : v.pend k = some (t, s) → (S.pollReady s).run w = .ok (.pending, s') w' →
      PollStep S v w (.still k t) (v.setPend k t s') w'
  | promoted {v w k t s s' w'} : v.pend k = some (t, s) → (S.pollReady s).run w = .ok (.ready (.ok ()), s') w' →
      PollStep S v w (.promoted k t) (v.promote k t s') w'
  | failed {v w k t s s' w' e} : v.pend k = some (t, s) → (S.pollReady s).run w = .ok (.ready (.error e), s') w' →
      PollStep S v w (.failed k t e) (v.dropPend k) w'

/-- A sequence of such polls. Between them a scheduler, which is not a service, may change the world: `E`. -/
inductive PollSteps (S : Service W Req Res Err) (E : W → W → Prop) : View K S.σ → W → List (PollEv K Err) → View K S.σ → W → Prop
  | nil {v w} : PollSteps S E v w [] v w
  | env {v w es v1 w1 w2} : PollSteps S E v w es v1 w1 → E w1 w2 → PollSteps S E v w es v1 w2
  | snoc {v w es v1 w1 e v2 w2} : PollSteps S E v w es v1 w1 → PollStep S v1 w1 e v2 w2 → PollSteps S E v w (es ++ [e]) v2 w2

/-- One operation of a user of a cache, seen from outside. -/
inductive VStep (S : Service W Req Res Err) (E : W → W → Prop) : View K S.σ → View K S.σ → Prop
  | none {v} : VStep S E v v
  | push {v} (k s) : VStep S E v (v.push k s)
  | evict {v} (k) : VStep S E v (v.evict k)
  | polls {v v' w w' es} : PollSteps S E v w es v' w' → VStep S E v v'
  | check_ok {v k t s s' w w'} : v.rdy k = some (t, s) → (S.pollReady s).run w = .ok (.ready (.ok ()), s') w' → VStep S E v (v.setRdy k t s')
  | check_pending {v k t s s' w w'} : v.rdy k = some (t, s) → (S.pollReady s).run w = .ok (.pending, s') w' → VStep S E v (v.demote k t s')
  | check_failed {v k t s s' w w' e} : v.rdy k = some (t, s) → (S.pollReady s).run w = .ok (.ready (.error e), s') w' → VStep S E v (v.dropRdy k)
  | call {v k t s s' w w' r f} : v.rdy k = some (t, s) → (S.call s r).run w = .ok (f, s') w' → VStep S E v (v.demote k t s')
  | tamper {v k t s} (s') : v.rdy k = some (t, s) → VStep S E v (v.setRdy k t s')

/-- Service `t` is in the cache, for key `k`. -/
def View.Holds {σ : Type} (v : View K σ) (k : K) (t : Nat) : Prop := (∃ s, v.pend k = some (t, s)) ∨ (∃ s, v.rdy k = some (t, s))

/-- Service `t` is in the cache. -/
def View.Alive {σ : Type} (v : View K σ) (t : Nat) : Prop := ∃ k, v.Holds k t

/-- The key a poll concerned. -/
def PollEv.key : PollEv K Err → K
  | .still k _ => k
  | .promoted k _ => k
  | .failed k _ _ => k

/-- The number of the service that was polled. -/
def PollEv.num : PollEv K Err → Nat
  | .still _ t => t
  | .promoted _ t => t
  | .failed _ t _ => t

/-- What the code's state amounts to: a future whose cell was cancelled does not count. -/
def Cache.view {S : Service W Req Res Err} (c : Cache K S) : View K S.σ where
  pend k := (c.pending.find? (fun e => e.key = k ∧ e.rx ∉ c.cancelled)).map (fun e => (e.rx, e.svc))
  rdy k := (c.ready.get k).map (fun v => (v.2.2, v.1))
  count := c.nextCell

end Tower
