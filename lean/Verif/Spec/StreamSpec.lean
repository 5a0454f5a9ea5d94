import Verif.Spec.AlikeSpec

/-! # What can be seen of a stream -/

namespace Tower
variable {W : Type}

/-- a stream that is polled in the worlds `ws`: all results, with the worlds after them, up to a panic -/
def streamLook {σ α : Type} (poll : σ → Act W (Poll (Option α) × σ)) : σ → List W → List (Out W (Poll (Option α)))
  | _, [] => []
  | s, w :: ws =>
    ((poll s).run w).void Prod.fst ::
    match (poll s).run w with
    | .ok (_, s') _ => streamLook poll s' ws
    | _ => []

end Tower
