import Verif.Model.BalLoad
import Verif.Model.Float

/-!
# `load::PeakEwma` in floating point

The code of `tower/src/load/peak_ewma.rs` with every operation on `f64` followed by a rounding, as IEEE 754 has it. Which rounding, and which implementation of `exp`, is a parameter; `IsF64` says what is assumed of it. Values are finite: the largest ones met are below 2⁹⁷, far from the overflow of `f64`, and no operation met has an undefined result.
-/

namespace Tower

/-- half the distance from 1 to the next `f64`: the relative error of one rounding. IEEE 754, for the arithmetic of `tower/src/load/peak_ewma.rs:237-282`. -/
noncomputable def f64U : ℝ := 1 / 2 ^ 53

/-- half of the smallest positive `f64`: the absolute error of a rounding among subnormal numbers. IEEE 754, for the arithmetic of `tower/src/load/peak_ewma.rs:237-282`. -/
noncomputable def f64Eta : ℝ := 1 / 2 ^ 1075

/-- `nanos`, `tower/src/load/peak_ewma.rs:303-308`: `f64::from(u32)` is exact, `as f64` rounds. -/
noncomputable def FloatOps.nanos (A : FloatOps) (d : Nat) : ℝ := A.rnd (((d % 1000000000 : Nat) : ℝ) + A.rnd ((min (d / 1000000000 * 1000000000) (2 ^ 64 - 1) : Nat) : ℝ))

/-- `RttEstimate::update`, `tower/src/load/peak_ewma.rs:237-282`. The `debug_assert!`s panic. -/
noncomputable def Ewma.updateF (A : FloatOps) (decayNs : ℝ) (sentAt recvAt : Nat) : Act Ewma ℝ :=
  if ¬ sentAt ≤ recvAt then Act.panic "recv_at after sent_at"
  else do
    let rtt := A.nanos (recvAt - sentAt)
    let now ← Ewma.tick
    let e ← Act.get
    if ¬ e.updateAt ≤ now then Act.panic "update_at in the future"
    else do
      let next :=
        if e.rtt < rtt then rtt
        else
          let elapsed := A.nanos (now - e.updateAt)
          let decay := A.exp (A.rnd (-elapsed / decayNs))
          let recency := A.rnd (1 - decay)
          A.rnd (A.rnd (e.rtt * decay) + A.rnd (rtt * recency))
      Act.modify (fun e => { e with rtt := next, updateAt := now })
      pure next

/-- `RttEstimate::decay`, `tower/src/load/peak_ewma.rs:228-232` -/
noncomputable def Ewma.decayF (A : FloatOps) (decayNs : ℝ) : Act Ewma ℝ := do
  let now ← Ewma.tick
  Ewma.updateF A decayNs now now

/-- `<PeakEwma as Load>::load`, `tower/src/load/peak_ewma.rs:134-153`. The strong count is truncated to `u32`. -/
noncomputable def Ewma.loadF (A : FloatOps) (decayNs : ℝ) : Act Ewma ℝ := do
  let e ← Act.get
  let c := e.count % 2 ^ 32
  if c = 0 then Act.panic "attempt to subtract with overflow"
  else do
    let pending := c - 1
    let estimate ← Ewma.decayF A decayNs
    if 2 ^ 32 ≤ pending + 1 then Act.panic "attempt to add with overflow"
    else pure (A.rnd (estimate * ((pending + 1 : Nat) : ℝ)))

/-- `Handle`, `tower/src/load/peak_ewma.rs:74-79, 103-109, 287-295`: it is dropped with an update; the handle's `Arc` is released after that. -/
@[reducible] noncomputable def ewmaTrackerF (A : FloatOps) (decayNs : ℝ) : Tracker where
  R := Ewma
  H := Nat
  handle := do
    let sentAt ← Ewma.tick
    Act.modify (fun e => { e with count := e.count + 1 })
    pure sentAt
  dropH sentAt := do
    let recvAt ← Ewma.tick
    let _ ← Ewma.updateF A decayNs sentAt recvAt
    Act.modify (fun e => { e with count := e.count - 1 })
  other a b := (∃ d lag, b = { a with now := a.now + d, lag := lag }) ∨ (∃ c, (Ewma.loadF A decayNs).run a = .ok c b)
  stamp e := e.now + e.lag 0

/-- `PeakEwma::new`, `tower/src/load/peak_ewma.rs:93-101`, `RttEstimate::new`, `:219-225`, at time `t`. The assertions are that `decayNs` and `default_rtt` are positive. -/
noncomputable def Ewma.newF (A : FloatOps) (defaultRtt : Nat) (t : Nat) (lag : Nat → Nat) : Ewma := ⟨t, A.nanos defaultRtt, 1, t, lag⟩

/-- `Balance` over `PeakEwma`, `tower/src/load/peak_ewma.rs:44-49, 93-101, 134-153`, as `ewmaBal` of `Model/BalLoad.lean`. `Cost` is ordered as `f64` is (`tower/src/load/peak_ewma.rs:72`); no cost is NaN. -/
@[reducible] noncomputable def ewmaBalF {W Req Res Err Res' K DErr BErr : Type} (A : FloatOps) (decayNs : ℝ) (defaultRtt : Nat) (clock : Act W (Nat × (Nat → Nat))) (C : Completion Res Res') (S : Service W Req Res Err)
    (D : Discover W K S.σ DErr) (G : Rng) (V : Sched W) (fromErr : Err → BErr) (fromDisc : DErr → BErr) : TBal W Req Res Err Res' K DErr BErr where
  T := ewmaTrackerF A decayNs
  C := C
  M := ℝ
  ld := Ewma.loadF A decayNs
  le a b := by classical exact decide (a ≤ b)
  init := do let c ← clock; pure (Ewma.newF A defaultRtt c.1 c.2)
  S := S
  D := D
  G := G
  V := V
  fromErr := fromErr
  fromDisc := fromDisc

/-- exact arithmetic. The idealisation in `Model/Load.lean` of `tower/src/load/peak_ewma.rs:237-282`. -/
noncomputable def exactOps : FloatOps := ⟨id, Real.exp⟩

end Tower
