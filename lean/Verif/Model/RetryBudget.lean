import Verif.Model.Middleware
import Verif.Model.Budget
import Verif.Model.Semaphore

/-!
# The documented use of a retry budget

`tower/src/retry/budget/mod.rs:33-66`: a policy that deposits on success and withdraws on failure, with the budget behind an `Arc`, so that it is shared by all clones of the
policy, all handles and all response futures. The budget is a part of the world; a call of `deposit` or `withdraw` is one step (concurrent ones: C16).
-/

namespace Tower
variable {W Req Res Err : Type}

/-- what the service under the `Retry` does, and when. Seen by the policy of `tower/src/retry/budget/mod.rs:33-66`. -/
inductive InnerEv where
  | called (t : Nat)
  | ok (t : Nat)
  | err (t : Nat)
  deriving Repr, DecidableEq

/-- The shared budget. `log` (operations and answers) and `inner` only record what happens. `Arc<TpsBudget>`, `tower/src/retry/budget/mod.rs:33-41`. -/
structure BudW where
  tps : Tps
  log : List (BudgetOp × Bool)
  inner : List InnerEv

/-- note something the service has done. Ghost state for `tower/src/retry/budget/mod.rs:33-66`. -/
def BudW.note (now : W → Nat) (e : Nat → InnerEv) : Act (BudW × W) Unit :=
  Act.modify (fun w => ({ w.1 with inner := w.1.inner ++ [e (now w.2)] }, w.2))

/-- A service, with its calls and the outcomes of its response futures recorded; it does not touch the budget. The service in the `Retry` of `tower/src/retry/mod.rs:42-45`. -/
@[reducible] def metered (now : W → Nat) (S : Service W Req Res Err) : Service (BudW × W) Req Res Err where
  σ := S.σ
  φ := S.φ
  pollReady s := (S.pollReady s).snd
  call s r := do
    let x ← (S.call s r).snd
    BudW.note now .called
    pure x
  poll f := do
    let (p, f') ← (S.poll f).snd
    match p with
    | .pending => pure (.pending, f')
    | .ready (.ok v) => do
      BudW.note now .ok
      pure (.ready (.ok v), f')
    | .ready (.error e) => do
      BudW.note now .err
      pure (.ready (.error e), f')
  clone := S.clone

/-- `Policy::retry` of the documented policy, `tower/src/retry/budget/mod.rs:45-62`. -/
def budgetRetry (now : W → Nat) (req : Req) (res : Except Err Res) (w : BudW × W) : (Option Unit × Unit × Req × Except Err Res) × (BudW × W) :=
  let t := now w.2
  match res with
  | .ok _ => ((none, (), req, res), ({ w.1 with tps := w.1.tps.deposit t, log := w.1.log ++ [(.deposit t, true)] }, w.2))
  | .error _ =>
    let (b, tps) := w.1.tps.withdraw t
    ((if b = true then some () else none, (), req, res), ({ w.1 with tps := tps, log := w.1.log ++ [(.withdraw t, b)] }, w.2))

/-- The documented policy, `tower/src/retry/budget/mod.rs:37-66`: the future is `future::Ready<()>`, every request can be cloned. -/
@[reducible] def budgetPolicy (now : W → Nat) : RetryPolicy (BudW × W) Req Res Err where
  π := Unit
  ρ := Unit
  retry _ := budgetRetry now
  cloneRequest _ r w := ((some r, ()), w)
  wait _ w := ((.ready (), ()), w)
  clone := id

/-- `Retry` with that policy. `tower/src/retry/mod.rs:71-94`, `tower/src/retry/budget/mod.rs:33-66`. -/
@[reducible] def budgetedRetry (fuel : Nat) (now : W → Nat) (S : Service W Req Res Err) : Service (BudW × W) Req Res Err :=
  Retry fuel (budgetPolicy now) (metered now S)

end Tower
