import Verif.Core

/-!
# Observing services and futures

Two specification devices, independent of any middleware:

* `trace`: everything a user can observe of a service (results of every `poll_ready`, `call`, future poll
  and `clone`, with every effect on the world) for an arbitrary sequence of operations, obeying the contract
  or not. Equality of traces for all sequences is observational equivalence.
* `Fut.drive`: what becomes of one future when it is polled in a given sequence of worlds.
-/

namespace Tower

variable {W : Type}

/-- Operations of a user; `w` is the world the environment provides for that operation. -/
inductive UOp (W Req : Type) where
  | ready (h : Nat) (w : W)
  | call (h : Nat) (r : Req) (w : W)
  | poll (f : Nat) (w : W)
  | clone (h : Nat)

/-- What a user sees: outcome (with the world as changed), or that the operation names nothing. -/
inductive Obs (W Res Err : Type) where
  | ready (o : Out W (Poll (Except Err Unit)))
  | call (o : Out W Unit)
  | poll (o : Out W (Poll (Except Err Res)))
  | cloned
  | nothing

/-- The handles and (unfinished) futures a user holds. -/
structure Held {Req Res Err : Type} (S : Service W Req Res Err) where
  hs : List S.σ
  fs : List (Option S.φ)

/-- forget the first component's state -/
def Out.void {α β : Type} (f : α → β) : Out W α → Out W β
  | .ok a w => .ok (f a) w
  | .panic m => .panic m
  | .spin => .spin

/-- Run user operations and record the observations. A panic ends the run. A finished future is gone. -/
def trace {Req Res Err : Type} (S : Service W Req Res Err) (x : Held S) : List (UOp W Req) → List (Obs W Res Err)
  | [] => []
  | .ready h w :: ops =>
    match x.hs[h]? with
    | none => .nothing :: trace S x ops
    | some s =>
      .ready (((S.pollReady s).run w).void Prod.fst) ::
      match (S.pollReady s).run w with
      | .ok (_, s') _ => trace S { x with hs := x.hs.set h s' } ops
      | _ => []
  | .call h r w :: ops =>
    match x.hs[h]? with
    | none => .nothing :: trace S x ops
    | some s =>
      .call (((S.call s r).run w).void (fun _ => ())) ::
      match (S.call s r).run w with
      | .ok (f, s') _ => trace S ⟨x.hs.set h s', x.fs ++ [some f]⟩ ops
      | _ => []
  | .poll i w :: ops =>
    match x.fs[i]? with
    | some (some f) =>
      .poll (((S.poll f).run w).void Prod.fst) ::
      match (S.poll f).run w with
      | .ok (.pending, f') _ => trace S { x with fs := x.fs.set i (some f') } ops
      | .ok (.ready _, _) _ => trace S { x with fs := x.fs.set i none } ops
      | _ => []
    | _ => .nothing :: trace S x ops
  | .clone h :: ops =>
    match x.hs[h]? with
    | none => .nothing :: trace S x ops
    | some s => .cloned :: trace S { x with hs := x.hs ++ [S.clone s] } ops

/-- Rewrite a request (with effects) before it is passed on. -/
def UOp.mapReq {R1 R2 : Type} (f : R2 → W → R1 × W) : UOp W R2 → UOp W R1
  | .ready h w => .ready h w
  | .call h r w => .call h (f r w).1 (f r w).2
  | .poll i w => .poll i w
  | .clone h => .clone h

/-- Apply an effectful function to the value that code returns. -/
def Out.mapW {α β : Type} (f : α → W → β × W) : Out W α → Out W β
  | .ok a w => .ok (f a w).1 (f a w).2
  | .panic m => .panic m
  | .spin => .spin

/-- Apply an effectful function to the content of `Poll::Ready`. -/
def Poll.mapW {α β : Type} (f : α → W → β × W) : Poll α → W → Poll β × W
  | .pending, w => (.pending, w)
  | .ready a, w => (.ready (f a w).1, (f a w).2)

/-- Rewrite observations: `fe` on readiness results, `fr` on responses. -/
def Obs.map {A1 A2 E1 E2 : Type} (fe : Except E1 Unit → W → Except E2 Unit × W)
    (fr : Except E1 A1 → W → Except E2 A2 × W) : Obs W A1 E1 → Obs W A2 E2
  | .ready o => .ready (o.mapW (Poll.mapW fe))
  | .call o => .call o
  | .poll o => .poll (o.mapW (Poll.mapW fr))
  | .cloned => .cloned
  | .nothing => .nothing

/-- no rewriting -/
def keep {A : Type} (a : A) (w : W) : A × W := (a, w)

/-- apply a pure function to the error of a result -/
def onErr {A E1 E2 : Type} (f : E1 → E2) (r : Except E1 A) (w : W) : Except E2 A × W := (mapErr f r, w)

/-- apply an effectful function to the value of a result -/
def onOkW {A B E : Type} (f : A → W → B × W) : Except E A → W → Except E B × W
  | .ok a, w => (.ok (f a w).1, (f a w).2)
  | .error e, w => (.error e, w)

/-- apply an effectful function to the error of a result -/
def onErrW {A E1 E2 : Type} (f : E1 → W → E2 × W) : Except E1 A → W → Except E2 A × W
  | .ok a, w => (.ok a, w)
  | .error e, w => (.error (f e w).1, (f e w).2)

/-! ## Futures -/

/-- What became of a future: finished with `a`, in world `w`, with schedule `rest` left over; or it was
pending at every poll; or its code panicked (or ran out of the fuel of its model). -/
inductive Drive (W α : Type) where
  | done (a : α) (w : W) (rest : List W)
  | pending
  | panic
  | spin

/-- Poll a future in the given worlds until it is ready. -/
def Fut.drive {α : Type} (F : Fut W α) : F.φ → List W → Drive W α
  | _, [] => .pending
  | f, w :: ws =>
    match (F.poll f).run w with
    | .panic _ => .panic
    | .spin => .spin
    | .ok (.pending, f') _ => F.drive f' ws
    | .ok (.ready a, _) w' => .done a w' ws

/-- Continue after a future is done, in the same poll. -/
def Drive.andThen {α β : Type} (d : Drive W α) (k : α → W → List W → Drive W β) : Drive W β :=
  match d with
  | .done a w rest => k a w rest
  | .pending => .pending
  | .panic => .panic
  | .spin => .spin

/-- Run synchronous code after a future is done, in the same poll. -/
def Act.driveIn {α β : Type} (x : Act W α) (w : W) (k : α → W → Drive W β) : Drive W β :=
  match x.run w with
  | .ok a w' => k a w'
  | .panic _ => .panic
  | .spin => .spin

/-- The response future of a service, as a future. -/
def Service.futOf {Req Res Err : Type} (S : Service W Req Res Err) : Fut W (Except Err Res) := ⟨S.φ, S.poll⟩

/-- Waiting for `poll_ready`, as a future that gives the (ready) service back. -/
def Service.readyFut {Req Res Err : Type} (S : Service W Req Res Err) : Fut W (Except Err S.σ) where
  φ := S.σ
  poll s := do
    let (p, s') ← S.pollReady s
    match p with
    | .pending => pure (.pending, s')
    | .ready (.ok ()) => pure (.ready (.ok s'), s')
    | .ready (.error e) => pure (.ready (.error e), s')

end Tower

namespace Tower
variable {W : Type}

/-- Change the value with which a future finished. -/
def Drive.map {α β : Type} (f : α → β) : Drive W α → Drive W β
  | .done a w rest => .done (f a) w rest
  | .pending => .pending
  | .panic => .panic
  | .spin => .spin

/-- `f.pendings ws = some (f', posts)`: polled in the worlds `ws` the future `f` is pending every time; it
is then `f'`, and `posts` are the worlds as they were right after each of these polls. -/
def Fut.pendings {α : Type} (F : Fut W α) : F.φ → List W → Option (F.φ × List W)
  | f, [] => some (f, [])
  | f, w :: ws =>
    match (F.poll f).run w with
    | .ok (.pending, f') w' => (F.pendings f' ws).map (fun x => (x.1, w' :: x.2))
    | _ => none

/-- A quantity of the world, e.g. a counter of the calls some service received. `work` is by how much
the polls of `f` in the worlds `ws` (until it is ready) changed it in total; what others do to the world
between the polls does not count. -/
def Fut.work {α : Type} (ν : W → Int) (F : Fut W α) : F.φ → List W → Int
  | _, [] => 0
  | f, w :: ws =>
    match (F.poll f).run w with
    | .ok (.pending, f') w' => (ν w' - ν w) + F.work ν f' ws
    | .ok (.ready _, _) w' => ν w' - ν w
    | _ => 0

/-- Running `x` changes the quantity `ν` by exactly `k`. -/
def Costs {α : Type} (ν : W → Int) (x : Act W α) (k : Int) : Prop :=
  ∀ w a w', x.run w = .ok a w' → ν w' = ν w + k

/-- `ν` counts the calls that `S` receives: `call` adds one, nothing else in `S` changes it. -/
structure CountsCalls {Req Res Err : Type} (ν : W → Int) (S : Service W Req Res Err) : Prop where
  ready : ∀ s, Costs ν (S.pollReady s) 0
  call : ∀ s r, Costs ν (S.call s r) 1
  poll : ∀ f, Costs ν (S.poll f) 0

end Tower
