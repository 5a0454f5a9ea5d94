import Verif.Model.LimWake

/-! # The whole life of the clones of a concurrency limit -/

namespace Tower
variable {W Req Res Err : Type}

/-- The life of the clones of a `ConcurrencyLimit`, without end. At time `n` the state is `xs n`, those of `arrs n` wait for a permit, those of `wk n` were woken and not polled since; `evs n` is the next step (of anybody), or `none` if nothing happens. -/
structure LimLife (debug : Bool) (max : Nat) (S : Service W Req Res Err) (xs : Nat → Lim S) (arrs wk : Nat → List Nat) (evs : Nat → Option LimEv) : Prop where
  start : ∃ i, xs 0 = ⟨Sem.new max, [⟨i, 0, false⟩], [], 1⟩ ∧ arrs 0 = [] ∧ wk 0 = []
  step : ∀ n e, evs n = some e → LimStep debug S (xs n) (arrs n) e (xs (n + 1)) (arrs (n + 1)) ∧ wk (n + 1) = e.after (wk n)
  rest : ∀ n, evs n = none → xs (n + 1) = xs n ∧ arrs (n + 1) = arrs n ∧ wk (n + 1) = wk n

/-- What is asked of those who use them. -/
structure LimUsers {S : Service W Req Res Err} (xs : Nat → Lim S) (arrs wk : Nat → List Nat) (evs : Nat → Option LimEv) : Prop where
  /-- a handle that waits and was woken is polled, or dropped -/
  polls : ∀ nm n, nm ∈ arrs n → nm ∈ wk n → ∃ m, n ≤ m ∧ ((∃ e, evs m = some e ∧ e.polled = some nm) ∨ ∀ s ∈ (xs m).hs, s.sem ≠ nm)
  /-- a handle that has a permit is called some day, or dropped -/
  calls : ∀ n, ∀ s ∈ (xs n).hs, s.permit = true → ∃ m, n ≤ m ∧ ∀ s' ∈ (xs m).hs, s'.sem = s.sem → s'.permit = false
  /-- as long as there are response futures, one of them is dropped some day -/
  ends : ∀ n, (xs n).fs ≠ [] → ∃ m, n ≤ m ∧ (xs (m + 1)).fs.length < (xs m).fs.length

end Tower
