import Verif.Core

/-!
# `retry::budget::TpsBudget`

`tower/src/retry/budget/tps_budget.rs`. `isize` is 64 bits wide; times are nanoseconds.
-/

namespace Tower

/-- `isize::MAX`. std, for `tower/src/retry/budget/tps_budget.rs:90-91`. -/
def isizeMax : Int := 2 ^ 63 - 1

/-- `isize::MIN`. std, for `tower/src/retry/budget/tps_budget.rs:90-91`. -/
def isizeMin : Int := -(2 ^ 63)

/-- `isize::saturating_add`. `tower/src/retry/budget/tps_budget.rs:146-150`. -/
def satAdd (a b : Int) : Int := max isizeMin (min isizeMax (a + b))

/-- `isize::saturating_mul`. `tower/src/retry/budget/tps_budget.rs:90-91`. -/
def satMul (a b : Int) : Int := max isizeMin (min isizeMax (a * b))

/-- `AtomicIsize::fetch_add`: wraps around. `tower/src/retry/budget/tps_budget.rs:155, 165`. -/
def wrapAdd (a b : Int) : Int := (a + b).bmod (2 ^ 64)

/-- `TpsBudget` with its `Generation`, `tower/src/retry/budget/tps_budget.rs:26-49`. -/
structure Tps where
  index : Nat
  time : Nat
  reserve : Int
  slots : List Int
  window : Nat
  writer : Int
  depositAmount : Int
  withdrawAmount : Int
  deriving Repr

/-- `retry_percent: f32` by the case distinction of `TpsBudget::new`; `q` is the value of `(1.0 / retry_percent) as isize`
respectively `(1000.0 / retry_percent) as isize`, whatever the rounding. `tower/src/retry/budget/tps_budget.rs:77-89`. -/
inductive Percent where
  | zero
  | upToOne (q : Nat)
  | aboveOne (q : Nat)
  | outside                          -- negative, NaN or above 1000
  deriving DecidableEq, Repr

/-- The deposit and withdraw amounts of `TpsBudget::new`, `tower/src/retry/budget/tps_budget.rs:77-89`. -/
def tpsAmounts : Percent → Option (Nat × Nat)
  | .zero => some (0, 1)
  | .upToOne q => some (1, q)
  | .aboveOne q => some (1000, q)
  | .outside => none                 -- the assertions of :72-73

/-- `TpsBudget::new`, `tower/src/retry/budget/tps_budget.rs:69-112`; `none` if one of the assertions fails. `ttl` in
nanoseconds; `Duration / 10` truncates to nanoseconds. -/
def Tps.new (ttl minPerSec : Nat) (percent : Percent) (now : Nat) : Option Tps :=
  if 10 ^ 9 ≤ ttl ∧ ttl ≤ 60 * 10 ^ 9 ∧ minPerSec < 2 ^ 31 - 1 then
    match tpsAmounts percent with
    | none => none
    | some (d, w) =>
      some { index := 0, time := now, reserve := satMul (satMul minPerSec (ttl / 10 ^ 9 : Nat)) w,
             slots := List.replicate 10 0, window := ttl / 10, writer := 0, depositAmount := d, withdrawAmount := w }
  else none

/-- The `while` loop of `expire`, `tower/src/retry/budget/tps_budget.rs:128-134`; every iteration takes `window ≥ 1`
off `diff`, so `fuel = diff` is enough. Gives the index and the slots after the loop. -/
def tpsZero (window : Nat) : Nat → Nat → Nat → List Int → Nat × List Int
  | 0, _, idx, slots => (idx, slots)
  | fuel + 1, diff, idx, slots =>
    if diff > window then tpsZero window fuel (diff - window) ((idx + 1) % slots.length) (slots.set idx 0)
    else (idx, slots)

/-- `TpsBudget::expire`, `tower/src/retry/budget/tps_budget.rs:114-137`. -/
def Tps.expire (s : Tps) (now : Nat) : Tps :=
  let diff := now - s.time                                     -- saturating_duration_since
  if diff < s.window then s
  else
    let slots := s.slots.set s.index s.writer
    let r := tpsZero s.window diff diff ((s.index + 1) % slots.length) slots
    { s with writer := 0, index := r.1, slots := r.2, time := now }

/-- `TpsBudget::sum`, `tower/src/retry/budget/tps_budget.rs:139-151`. -/
def Tps.sum (s : Tps) : Int := satAdd (satAdd s.writer (s.slots.foldl satAdd 0)) s.reserve

/-- `TpsBudget::put` via `Budget::deposit`, `tower/src/retry/budget/tps_budget.rs:153-156, 174-176`. -/
def Tps.deposit (s : Tps) (now : Nat) : Tps :=
  let s := s.expire now
  { s with writer := wrapAdd s.writer s.depositAmount }

/-- `TpsBudget::try_get` via `Budget::withdraw`, `tower/src/retry/budget/tps_budget.rs:158-170, 178-180`. -/
def Tps.withdraw (s : Tps) (now : Nat) : Bool × Tps :=
  let s := s.expire now
  if s.sum ≥ s.withdrawAmount then (true, { s with writer := wrapAdd s.writer (-s.withdrawAmount) })
  else (false, s)

/-- the caller's operations, with their times. `Budget`, `tower/src/retry/budget/mod.rs:80-91`. -/
inductive BudgetOp where
  | deposit (now : Nat)
  | withdraw (now : Nat)
  deriving Repr

/-! ## Concurrent use

Every access to the shared atomics is one atomic step (`SeqCst`); `expire` runs under the mutex. -/

/-- Where a thread inside `withdraw` is. `tower/src/retry/budget/tps_budget.rs:158-170`. -/
inductive TpsPc where
  | idle
  | committing (c : Int)             -- :124: has swapped the writer out, not yet stored it; holds the lock
  | zeroing                          -- :126-137: after the store; holds the lock
  | expired                          -- :162: `expire` has returned
  | summing (acc : Int) (j : Nat)    -- :141-146: has read the writer and slots `0 .. j-1`
  | granted                          -- :165: the check succeeded, `fetch_add` not yet done
  deriving DecidableEq, Repr

/-- The shared part of the budget and the threads using it. `B` has the constant fields. `tower/src/retry/budget/tps_budget.rs:26-49`. -/
structure TpsConc where
  index : Nat
  slots : List Int
  writer : Int
  locked : Bool
  threads : List TpsPc
  deriving DecidableEq, Repr

/-- One atomic step of thread `i` of a concurrent `withdraw` (or a whole `deposit` of amount `d`, whose only shared
access apart from `expire` is one `fetch_add`). Sums are exact (see `C13`'s side condition on overflow).
`swap`, `store`, `zero` and `unlock` are the steps of an `expire` that finds the slot expired. `tower/src/retry/budget/tps_budget.rs:114-170`. -/
inductive TpsStep (reserve w d : Int) : TpsConc → Bool → TpsConc → Prop
  /-- `expire` returns at once: the slot has not expired (:119-122); needs the lock -/
  | enter {s : TpsConc} {i : Nat} : s.threads[i]? = some .idle → s.locked = false →
      TpsStep reserve w d s false { s with threads := s.threads.set i .expired }
  /-- `self.writer.swap(0)` in an expired slot (:124) -/
  | swap {s : TpsConc} {i : Nat} : s.threads[i]? = some .idle → s.locked = false →
      TpsStep reserve w d s true { s with writer := 0, locked := true, threads := s.threads.set i (.committing s.writer) }
  /-- `self.slots[gen.index].store(to_commit)` (:125) -/
  | store {s : TpsConc} {i : Nat} {c : Int} : s.threads[i]? = some (.committing c) →
      TpsStep reserve w d s true { s with slots := s.slots.set s.index c, index := (s.index + 1) % s.slots.length,
                                          threads := s.threads.set i .zeroing }
  /-- one iteration of the zeroing loop (:129-133) -/
  | zero {s : TpsConc} {i : Nat} : s.threads[i]? = some .zeroing →
      TpsStep reserve w d s true { s with slots := s.slots.set s.index 0, index := (s.index + 1) % s.slots.length }
  /-- end of `expire` (:136-137) -/
  | unlock {s : TpsConc} {i : Nat} : s.threads[i]? = some .zeroing →
      TpsStep reserve w d s true { s with locked := false, threads := s.threads.set i .expired }
  /-- `self.writer.load` (:141) -/
  | loadWriter {s : TpsConc} {i : Nat} : s.threads[i]? = some .expired →
      TpsStep reserve w d s false { s with threads := s.threads.set i (.summing s.writer 0) }
  /-- `slot.load` (:145) -/
  | loadSlot {s : TpsConc} {i j : Nat} {acc x : Int} : s.threads[i]? = some (.summing acc j) → s.slots[j]? = some x →
      TpsStep reserve w d s false { s with threads := s.threads.set i (.summing (acc + x) (j + 1)) }
  /-- `sum >= amt` holds (:165) -/
  | grant {s : TpsConc} {i : Nat} {acc : Int} : s.threads[i]? = some (.summing acc s.slots.length) → acc + reserve ≥ w →
      TpsStep reserve w d s false { s with threads := s.threads.set i .granted }
  /-- `sum >= amt` fails (:168) -/
  | deny {s : TpsConc} {i : Nat} {acc : Int} : s.threads[i]? = some (.summing acc s.slots.length) → ¬ (acc + reserve ≥ w) →
      TpsStep reserve w d s false { s with threads := s.threads.set i .idle }
  /-- `self.writer.fetch_add(-amt)` (:166) -/
  | take {s : TpsConc} {i : Nat} : s.threads[i]? = some .granted →
      TpsStep reserve w d s false { s with writer := s.writer - w, threads := s.threads.set i .idle }
  /-- `self.writer.fetch_add(amt)` of a deposit by another thread (:156) -/
  | deposit {s : TpsConc} : TpsStep reserve w d s false { s with writer := s.writer + d }

/-- Reachability; the flag says whether some slot expired on the way. For `tower/src/retry/budget/tps_budget.rs:114-170`. -/
inductive TpsSteps (reserve w d : Int) : TpsConc → Bool → TpsConc → Prop
  | refl (s : TpsConc) : TpsSteps reserve w d s false s
  | step {s s' s'' : TpsConc} {e e' : Bool} : TpsSteps reserve w d s e s' → TpsStep reserve w d s' e' s'' →
      TpsSteps reserve w d s (e || e') s''

end Tower
