import Verif.Model.Util

/-!
# Layers, `ServiceBuilder`, `ServiceList`, `Shared`, `IntoService`

`tower-layer/src/*`, `tower/src/builder/mod.rs`, `tower/src/discover/list.rs`, `tower/src/make/*`.
-/

namespace Tower
universe u

/-- The implementations of `Layer` that tower-layer and tower provide, as expressions: a layer takes a service of type `α` to one of type
`β`. `fn` stands for every layer that is given by a function of the inner service: `LayerFn` (`tower-layer/src/layer_fn.rs:63-73`) and the
`XLayer` types, whose `layer` is `X::new(service, ...)`. -/
inductive LayerExpr : Type u → Type u → Type (u + 1) where
  | identity {α : Type u} : LayerExpr α α                                                        -- tower-layer/src/identity.rs
  | fn {α β : Type u} (f : α → β) : LayerExpr α β
  | stack {α β γ : Type u} (inner : LayerExpr α β) (outer : LayerExpr β γ) : LayerExpr α γ       -- tower-layer/src/stack.rs:6-16

/-- `Layer::layer`: `identity.rs:31-37`, `layer_fn.rs:70-72`, `stack.rs:18-30`. `&T` (`tower-layer/src/lib.rs:103-112`) forwards. -/
def LayerExpr.layer : {α β : Type u} → LayerExpr α β → α → β
  | _, _, .identity, s => s
  | _, _, .fn f, s => f s
  | _, _, .stack inner outer, s =>
    let i := inner.layer s
    outer.layer i

/-- `option_layer`, `tower/src/util/mod.rs:1067-1073`, and `Either as Layer`, `tower/src/util/either.rs:90-103`: the result is `Either` of the
wrapped and the bare service. -/
def optionLayer {α β : Type u} (l : Option (LayerExpr α β)) : LayerExpr α (β ⊕ α) :=
  match l with
  | some l => .fn (fun s => .inl (l.layer s))
  | none => .fn (fun s => .inr ((LayerExpr.identity).layer s))

/-- `ServiceBuilder<L>`, `tower/src/builder/mod.rs:106-108`: accepts a service of type `α` and gives one of type `γ`. -/
structure ServiceBuilder (α γ : Type u) where
  inner : LayerExpr α γ

/-- `ServiceBuilder::new`, `tower/src/builder/mod.rs:118-122`. -/
def ServiceBuilder.new {α : Type u} : ServiceBuilder α α := ⟨.identity⟩

/-- `ServiceBuilder::layer`, `tower/src/builder/mod.rs:132-136`: `Stack::new(layer, self.layer)`. All the convenience methods (`buffer`,
`timeout`, `map_request`, ...) are `self.layer(XLayer::new(..))`. -/
def ServiceBuilder.layer {α β γ : Type u} (b : ServiceBuilder β γ) (l : LayerExpr α β) : ServiceBuilder α γ := ⟨.stack l b.inner⟩

/-- `ServiceBuilder::service`, `tower/src/builder/mod.rs:489-494`, and its `Layer` impl at the end of the file. -/
def ServiceBuilder.service {α γ : Type u} (b : ServiceBuilder α γ) (s : α) : γ := b.inner.layer s

/-- A sequence of layers `l1, l2, ..., ln` with matching types, as written in a tuple or added to a builder one after another. For `tower-layer/src/tuple.rs:3-330` and `tower/src/builder/mod.rs:104-140`. -/
inductive Layers : Type u → Type u → Type (u + 1) where
  | nil {α : Type u} : Layers α α
  | cons {α β γ : Type u} (l : LayerExpr β γ) (rest : Layers α β) : Layers α γ

/-- `builder.layer(l1).layer(l2)...layer(ln)`. `ServiceBuilder::layer`, `tower/src/builder/mod.rs:131-135`. -/
def ServiceBuilder.layers {α β γ : Type u} (b : ServiceBuilder β γ) : Layers α β → ServiceBuilder α γ
  | .nil => b
  | .cons l rest => (b.layer l).layers rest

/-- `Layer` for tuples, `tower-layer/src/tuple.rs`: `()`, `(l1,)`, and `l1.layer((l2, ..).layer(s))` (written out there up to 16). `tower-layer/src/tuple.rs:3-330`. -/
def Layers.tupleLayer : {α γ : Type u} → Layers α γ → α → γ
  | _, _, .nil, s => s
  | _, _, .cons l .nil, s => l.layer s
  | _, _, .cons l (.cons l' rest), s => l.layer ((Layers.cons l' rest).tupleLayer s)

/-! ## discover -/

/-- `Change`, `tower/src/discover/mod.rs:101-106`. -/
inductive Change (K V : Type) where
  | insert (k : K) (v : V)
  | remove (k : K)
  deriving DecidableEq, Repr

/-- `ServiceList`, `tower/src/discover/list.rs:18-23`: an enumerated iterator. -/
structure ServiceList (V : Type) where
  next : Nat
  rest : List V

/-- `ServiceList::new`, `tower/src/discover/list.rs:31-38`. -/
def ServiceList.new {V : Type} (services : List V) : ServiceList V := ⟨0, services⟩

/-- `ServiceList::poll_next`, `tower/src/discover/list.rs:47-52`; it is never pending and never an error. -/
def ServiceList.pollNext {V : Type} (x : ServiceList V) : Poll (Option (Change Nat V)) × ServiceList V :=
  match x.rest with
  | s :: rest => (.ready (some (.insert x.next s)), ⟨x.next + 1, rest⟩)
  | [] => (.ready none, x)

/-! ## make -/

/-- `Shared`, `tower/src/make/make_service/shared.rs:71-99`: the future is `Ready`, which panics if polled again. -/
def Shared {W Tgt : Type} (V : Type) (cloneV : V → V) (E : Type) : Service W Tgt V E where
  σ := V
  φ := Option V
  pollReady s := pure (.ready (.ok ()), s)
  call s _ := pure (some (cloneV s), s)
  poll
    | some v => pure (.ready (.ok v), none)
    | none => Act.panic "Ready polled after completion"
  clone := cloneV

/-- `IntoService` and `AsService`, `tower/src/make/make_service.rs:125-213`, over `MakeService` for every `M: Service`
(`make_service.rs:98-116`): every method forwards. -/
def IntoService {W Tgt Res Err : Type} (M : Service W Tgt Res Err) : Service W Tgt Res Err where
  σ := M.σ
  φ := M.φ
  pollReady s := M.pollReady s
  call s t := M.call s t
  poll := M.poll
  clone := M.clone

end Tower
