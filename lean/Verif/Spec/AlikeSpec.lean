import Verif.Contract
import Verif.Spec.Trace
import Verif.Model.Chain

/-!
# What a lawful user can see of a service

`look` runs the operations of a user that obeys the contract of `tower-service/src/lib.rs:322-352` and records everything the user can see: every result of
`poll_ready`, `call` and of polling a response future, with the world as it is afterwards, panics included. Two services are the same to lawful users if what is
recorded is the same for every sequence of operations.
-/

namespace Tower
variable {W : Type}

/-- Polling one future, in the worlds given. It is not polled again once it is finished (`none`). -/
def Fut.look {α : Type} (F : Fut W α) : Option F.φ → List W → List (Option (Out W (Poll α)))
  | _, [] => []
  | none, _ :: ws => none :: F.look none ws
  | some f, w :: ws =>
    some (((F.poll f).run w).void Prod.fst) ::
    match (F.poll f).run w with
    | .ok (.pending, f') _ => F.look (some f') ws
    | .ok (.ready _, _) _ => F.look none ws
    | _ => []

/-- futures that nobody can tell apart by polling them -/
def Fut.SameAs {α : Type} (F G : Fut W α) (f : F.φ) (g : G.φ) : Prop := ∀ ws, F.look (some f) ws = G.look (some g) ws

/-- Run the operations of a user that holds the handles and futures of `x` and record what it sees. An operation that the contract does not allow (a call without readiness, any use of a
handle that failed, a poll of a finished future) is left out (`nothing`). A panic ends the run. -/
def look {Req Res Err : Type} (S : Service W Req Res Err) (x : Sess S) : List (Op W Req) → List (Obs W Res Err)
  | [] => []
  | .ready h w :: ops =>
    match x.hs[h]? with
    | some (s, .idle) | some (s, .ready) =>
      .ready (((S.pollReady s).run w).void Prod.fst) ::
      match (S.pollReady s).run w with
      | .ok (.ready (.ok ()), s') _ => look S { x with hs := x.hs.set h (s', .ready) } ops
      | .ok (.ready (.error _), s') _ => look S { x with hs := x.hs.set h (s', .failed) } ops
      | .ok (.pending, s') _ => look S { x with hs := x.hs.set h (s', .idle) } ops
      | _ => []
    | _ => .nothing :: look S x ops
  | .call h r w :: ops =>
    match x.hs[h]? with
    | some (s, .ready) =>
      .call (((S.call s r).run w).void (fun _ => ())) ::
      match (S.call s r).run w with
      | .ok (f, s') _ => look S ⟨x.hs.set h (s', .idle), x.fs ++ [some f]⟩ ops
      | _ => []
    | _ => .nothing :: look S x ops
  | .poll i w :: ops =>
    match x.fs[i]? with
    | some (some f) =>
      .poll (((S.poll f).run w).void Prod.fst) ::
      match (S.poll f).run w with
      | .ok (.pending, f') _ => look S { x with fs := x.fs.set i (some f') } ops
      | .ok (.ready _, _) _ => look S { x with fs := x.fs.set i none } ops
      | _ => []
    | _ => .nothing :: look S x ops
  | .clone h :: ops =>
    match x.hs[h]? with
    | some (s, .idle) | some (s, .ready) => .cloned :: look S { x with hs := x.hs ++ [(S.clone s, .idle)] } ops
    | _ => .nothing :: look S x ops

/-- **No lawful user can tell the services apart**: made in the same world, they show the same for all sequences of operations in all worlds. (For services that are not `Clone` the model's `clone`
is the identity.) -/
def Site.SameAs {t : Ty} (x y : Site W t) : Prop :=
  x.2 = y.2 ∧ ∀ ops, look x.1.S ⟨[(x.1.s, .idle)], []⟩ ops = look y.1.S ⟨[(y.1.s, .idle)], []⟩ ops

end Tower
