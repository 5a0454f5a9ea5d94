import Verif.Model.Hedge

/-!
# `tower/src/hedge/rotating_histogram.rs`

Instants and durations are numbers of nanoseconds. An `hdrhistogram::Histogram` (auto-resizing, so that recording does not fail) is modelled
by the list of the values recorded in it since it was last cleared: `len` is the length of the list, `value_at_quantile` is not modelled (it is
a parameter of the model of the delay policy).
-/

namespace Tower

/-- `u64::MAX`. std, for `tower/src/hedge/rotating_histogram.rs:68-73`. -/
def u64Max : Nat := 2 ^ 64 - 1

/-- `nanos`, `tower/src/hedge/rotating_histogram.rs:67-73`: `as_secs().saturating_mul(10^9).saturating_add(subsec_nanos())`. -/
def nanosSat (d : Nat) : Nat := min (min (d / 1000000000 * 1000000000) u64Max + d % 1000000000) u64Max

/-- `millis`, `tower/src/hedge/mod.rs:202-210`: rounds up; `u32` arithmetic on `subsec_nanos` does not overflow. -/
def millisUp (d : Nat) : Nat := min (min (d / 1000000000 * 1000) u64Max + (d % 1000000000 + 1000000 - 1) / 1000000) u64Max

/-- `RotatingHistogram`, `tower/src/hedge/rotating_histogram.rs:11-17`. -/
structure RotHist where
  read : List Nat
  write : List Nat
  last : Nat
  period : Nat
  deriving DecidableEq, Repr

namespace RotHist

/-- `RotatingHistogram::new`, `tower/src/hedge/rotating_histogram.rs:20-29`. -/
def new (period now : Nat) : RotHist := { read := [], write := [], last := now, period }

/-- `rotate`, `tower/src/hedge/rotating_histogram.rs:55-59`. -/
def rotate (h : RotHist) : RotHist :=
  let h := { h with read := h.write, write := h.read }
  { h with write := [] }

/-- `clear`, `tower/src/hedge/rotating_histogram.rs:61-64`. -/
def clear (h : RotHist) : RotHist := { h with read := [], write := [] }

/-- `maybe_rotate`, `tower/src/hedge/rotating_histogram.rs:41-52`. `as u32` keeps the low 32 bits. `none`: division by a period of zero
panics. `period * rotations` and `last_rotation + ...` do not overflow unless durations of more than 500 years are involved; that is not
modelled. -/
def maybeRotate (h : RotHist) (now : Nat) : Option RotHist :=
  if nanosSat h.period = 0 then none
  else
    let delta := now - h.last
    let rotations := nanosSat delta / nanosSat h.period % 2 ^ 32
    let h' := if rotations ≥ 2 then h.clear else if rotations = 1 then h.rotate else h
    some { h' with last := h'.last + h'.period * rotations }

/-- `read`, `tower/src/hedge/rotating_histogram.rs:31-34`: what is in the histogram handed out. -/
def readAt (h : RotHist) (now : Nat) : Option (List Nat × RotHist) := (h.maybeRotate now).map (fun h => (h.read, h))

/-- `write().record(v)`, `tower/src/hedge/rotating_histogram.rs:36-39`, as used by `Record for Histo`, `tower/src/hedge/mod.rs:212-219`. -/
def recordAt (h : RotHist) (v now : Nat) : Option RotHist := (h.maybeRotate now).map (fun h => { h with write := h.write ++ [v] })

/-- `Hedge::new_with_mock_latencies`, `tower/src/hedge/mod.rs:118-124`: the given values are recorded in the *read* histogram, one after another
(here all at the same instant). -/
def newMock (period now : Nat) (vs : List Nat) : Option RotHist :=
  vs.foldlM (fun h v => (h.maybeRotate now).map (fun h => { h with read := h.read ++ [v] })) (new period now)

end RotHist

/-- `SelectPolicy::clone_request`, `tower/src/hedge/mod.rs:258-265`, with its histogram: the user's clone is kept only if the read histogram has at
least `min_data_points` values. (`HedgeCfg.selectClone` is the same with the histogram behind `enough`.) -/
def histoSelectClone {Req : Type} (policyClone : Option Req) (min : Nat) (h : RotHist) (now : Nat) : Option (Option Req × RotHist) :=
  match policyClone with
  | none => some (none, h)
  | some r => (h.readAt now).map (fun (vs, h') => (if vs.length ≥ min then some r else none, h'))

/-- what happens to a histogram at some instant: `write().record(v)` or `read()`, `tower/src/hedge/rotating_histogram.rs:31-39` -/
inductive HistOp where
  | record (v : Nat)
  | read
  deriving DecidableEq, Repr

/-- A timed history of the operations of `tower/src/hedge/rotating_histogram.rs:31-39`. -/
abbrev HistLog := List (Nat × HistOp)

end Tower
