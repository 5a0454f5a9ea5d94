import Verif.Model.Load

/-!
# `PeakEwma` when handles are dropped on any threads

Response futures, and with them the handles, are sent to other threads, and `Load::load` takes `&self`. The steps of `Drop for Handle` and of `load` interleave: only what is done while the `Mutex` is locked, and an atomic operation on the count of the `Arc`, is one step.
-/

namespace Tower

/-- Where the owner of a handle is: the handle lives; `drop` has read the clock; it has updated the estimate and released the lock. `tower/src/load/peak_ewma.rs:287-295`. -/
inductive HPc where
  | live
  | looked (recvAt : Nat)
  | updated
  deriving DecidableEq

/-- What the threads did. `called n t`: call `n` was made at time `t`. `ended n rtt t`: the handle of call `n` updated the estimate at time `t` with the round trip time `rtt` (in ns). `released n`: its handle is gone.
`counted c`: a `load` has read the strong count `c`. `loaded c t cost`: a `load` that had read `c` returned `cost`, from the estimate as it was at time `t`. Of the code of `tower/src/load/peak_ewma.rs:103-109, 134-153, 287-295`. -/
inductive EwEv where
  | called (n t : Nat)
  | ended (n rtt t : Nat)
  | released (n : Nat)
  | counted (c : Nat)
  | loaded (c t : Nat) (cost : ℝ)

/-- The state: what is shared, the handles that exist with the number and the time of their call, what the `load`s that are going on have read. For `tower/src/load/peak_ewma.rs:44-49, 74-85`. -/
structure EThreads where
  e : Ewma
  handles : List (Nat × Nat × HPc)
  readers : List Nat
  calls : Nat

/-- the first line of `load`, `tower/src/load/peak_ewma.rs:138`: the number of calls in flight -/
def Ewma.pendingCount : Act Ewma Nat := do
  let e ← Act.get
  let c := e.count % 2 ^ 32
  if c = 0 then Act.panic "attempt to subtract with overflow" else pure (c - 1)

/-- the rest of `load`, `tower/src/load/peak_ewma.rs:140-152` -/
noncomputable def Ewma.loadWith (decayNs : ℝ) (pending : Nat) : Act Ewma ℝ := do
  let estimate ← Ewma.decay decayNs
  if 2 ^ 32 ≤ pending + 1 then Act.panic "attempt to add with overflow"
  else pure (estimate * ((pending + 1 : Nat) : ℝ))

/-- Every interleaving of calls, drops of handles and readings of the load, on any threads; time passes. Of `handle`, `load` and `drop` in `tower/src/load/peak_ewma.rs:103-109, 134-153, 287-295`. -/
inductive EHist (D : ℝ) (d0 t0 : Nat) : EThreads → List EwEv → Prop
  /-- `PeakEwma::new`, at time `t0`, with the default `d0` -/
  | new (lag : Nat → Nat) : EHist D d0 t0 ⟨Ewma.new d0 t0 lag, [], [], 0⟩ []
  /-- time passes -/
  | time {x log} (d : Nat) (lag : Nat → Nat) : EHist D d0 t0 x log → EHist D d0 t0 { x with e := { x.e with now := x.e.now + d, lag := lag } } log
  /-- `handle()`, in `call` -/
  | call {x log s e'} : EHist D d0 t0 x log → (ewmaTracker D).handle.run x.e = .ok s e' →
      EHist D d0 t0 { x with e := e', handles := x.handles ++ [(x.calls, s, .live)], calls := x.calls + 1 } (log ++ [.called x.calls s])
  /-- `drop`: `let recv_at = Instant::now()` -/
  | looks {x log l r n s recv e'} : EHist D d0 t0 x log → x.handles = l ++ (n, s, .live) :: r → Ewma.tick.run x.e = .ok recv e' →
      EHist D d0 t0 { x with e := e', handles := l ++ (n, s, .looked recv) :: r } log
  /-- `drop`: with the lock, `update` -/
  | updates {x log l r n s recv v e'} : EHist D d0 t0 x log → x.handles = l ++ (n, s, .looked recv) :: r → (Ewma.update D s recv).run x.e = .ok v e' →
      EHist D d0 t0 { x with e := e', handles := l ++ (n, s, .updated) :: r } (log ++ [.ended n (recv - s) e'.updateAt])
  /-- the handle's `Arc` is dropped -/
  | releases {x log l r n s} : EHist D d0 t0 x log → x.handles = l ++ (n, s, .updated) :: r →
      EHist D d0 t0 { x with e := { x.e with count := x.e.count - 1 }, handles := l ++ r } (log ++ [.released n])
  /-- `load`: the count is read -/
  | counts {x log c e'} : EHist D d0 t0 x log → Ewma.pendingCount.run x.e = .ok c e' →
      EHist D d0 t0 { x with e := e', readers := x.readers ++ [c] } (log ++ [.counted c])
  /-- `load`: with the lock, the estimate is decayed and read; and `load` returns -/
  | loads {x log l r c v e'} : EHist D d0 t0 x log → x.readers = l ++ c :: r → (Ewma.loadWith D c).run x.e = .ok v e' →
      EHist D d0 t0 { x with e := e', readers := l ++ r } (log ++ [.loaded c e'.updateAt v])

end Tower
