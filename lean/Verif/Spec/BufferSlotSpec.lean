import Verif.Spec.BufferLiveSpec

/-! # What is asked of the users of a buffer's handles -/

namespace Tower
variable {W Req Res Err : Type} {S : Service W Req Res Err}

/-- at time `n` the user of handle `nm` waits: its latest `poll_ready` returned `Pending` -/
def WaitsAt (evs : Nat → Option (BEv S)) (nm n : Nat) : Prop :=
  ∃ j, j < n ∧ evs j = some (.ready nm .pending) ∧ ∀ k, j < k → k < n → evs k ≠ some (.dropHandle nm) ∧ ∀ v, evs k ≠ some (.ready nm (.ready v))

/-- at time `n` handle `nm` is ready: its `poll_ready` returned `Ready(Ok)`, and it was not called since -/
def HasSlot (evs : Nat → Option (BEv S)) (nm n : Nat) : Prop :=
  ∃ j, j < n ∧ evs j = some (.ready nm (.ready (.ok ()))) ∧ ∀ k, j < k → k < n → evs k ≠ some (.dropHandle nm) ∧ ∀ i r, evs k ≠ some (.accept nm i r)

/-- Whoever waits for a handle polls it (or drops it) after it was woken; whoever has a ready handle calls it or drops it some day. -/
structure BufUsers {S : Service W Req Res Err} (ks : Nat → Wakers) (evs : Nat → Option (BEv S)) : Prop where
  polls : ∀ nm n, WaitsAt evs nm n → (ks n).handles nm = true → ∃ m, n ≤ m ∧ (evs m = some (.dropHandle nm) ∨ ∃ p, evs m = some (.ready nm p))
  calls : ∀ nm n, HasSlot evs nm n → ∃ m, n ≤ m ∧ (evs m = some (.dropHandle nm) ∨ ∃ i r, evs m = some (.accept nm i r))

end Tower
