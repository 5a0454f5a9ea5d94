import Verif.Model.Layer

/-! # C51: layers, C54: ServiceList, C57: make adapters -/

set_option linter.unusedSimpArgs false

namespace Tower
universe u

/-! ## Specification -/

/-- `l1(l2(...(ln(s))))` -/
def Layers.nest : {α γ : Type u} → Layers α γ → α → γ
  | _, _, .nil, s => s
  | _, _, .cons l rest, s => l.layer (rest.nest s)

/-- concatenation of sequences of layers -/
def Layers.append : {α β γ : Type u} → Layers β γ → Layers α β → Layers α γ
  | _, _, _, .nil, m => m
  | _, _, _, .cons l rest, m => .cons l (rest.append m)

/-! ## Theorems -/

theorem ServiceBuilder.layers_service {α β γ : Type u} (ls : Layers α β) (b : ServiceBuilder β γ) (s : α) :
    (b.layers ls).service s = b.service (ls.nest s) := by
  induction ls with
  | nil => simp [ServiceBuilder.layers, Layers.nest]
  | cons l rest ih =>
    simp only [ServiceBuilder.layers, Layers.nest]
    rw [ih]
    rfl

/-- **C51.** A builder to which `l1, ..., ln` were added in this order wraps a service as `l1(l2(...ln(s)))`: the first layer added is
outermost. -/
theorem C51_builder {α γ : Type u} (ls : Layers α γ) (s : α) : (ServiceBuilder.new.layers ls).service s = ls.nest s :=
  ServiceBuilder.layers_service ls .new s

/-- **C51, tuples.** A tuple of layers, and the sequence of its components, do the same. -/
theorem C51_tuple {α γ : Type u} (ls : Layers α γ) (s : α) : ls.tupleLayer s = ls.nest s := by
  induction ls with
  | nil => simp [Layers.tupleLayer, Layers.nest]
  | cons l rest ih =>
    cases rest with
    | nil => simp [Layers.tupleLayer, Layers.nest]
    | cons l' rest' => simp only [Layers.tupleLayer]; rw [ih]; simp only [Layers.nest]

/-- **C51, Stack.** `Stack::new(inner, outer)` wraps in `inner` first. -/
theorem C51_stack {α β γ : Type u} (i : LayerExpr α β) (o : LayerExpr β γ) (s : α) : (LayerExpr.stack i o).layer s = o.layer (i.layer s) := rfl

/-- **C51, associative.** How stacks are nested does not matter. -/
theorem C51_assoc {α β γ δ : Type u} (a : LayerExpr α β) (b : LayerExpr β γ) (c : LayerExpr γ δ) (s : α) :
    (LayerExpr.stack (.stack a b) c).layer s = (LayerExpr.stack a (.stack b c)).layer s := rfl

/-- **C51, neutral.** `Identity`, `()` and an empty builder change nothing, on either side. -/
theorem C51_identity {α β : Type u} (l : LayerExpr α β) (s : α) :
    (LayerExpr.identity : LayerExpr α α).layer s = s ∧ (LayerExpr.stack .identity l).layer s = l.layer s ∧
    (LayerExpr.stack l .identity).layer s = l.layer s ∧ (ServiceBuilder.new : ServiceBuilder α α).service s = s ∧
    (Layers.nil : Layers α α).tupleLayer s = s := ⟨rfl, rfl, rfl, rfl, by simp [Layers.tupleLayer]⟩

/-- **C51, composing builders.** A builder used as a layer of another builder is the same as adding all its layers. -/
theorem C51_compose {α β γ : Type u} (ls : Layers β γ) (ms : Layers α β) (s : α) :
    ((ServiceBuilder.new.layers ls).layer (ServiceBuilder.new.layers ms).inner).service s =
      (ServiceBuilder.new.layers (ls.append ms)).service s := by
  have h1 : ((ServiceBuilder.new.layers ls).layer (ServiceBuilder.new.layers ms).inner).service s =
    (ServiceBuilder.new.layers ls).service ((ServiceBuilder.new.layers ms).service s) := rfl
  rw [h1, C51_builder, C51_builder, C51_builder]
  induction ls with
  | nil => simp only [Layers.nest, Layers.append]
  | cons l rest ih => simp only [Layers.nest, Layers.append]; rw [ih]; rfl

/-- **C51, option_layer.** `Some(l)` wraps, `None` leaves the service as it is. -/
theorem C51_option {α β : Type u} (l : LayerExpr α β) (s : α) :
    (optionLayer (some l)).layer s = .inl (l.layer s) ∧ (optionLayer (none : Option (LayerExpr α β))).layer s = .inr s := ⟨rfl, rfl⟩

/-! ### Who sees a request first -/

/-- a layer that notes its tag on each request it passes on; a service answers with the tags noted on the way to it -/
def tagLayer (t : Nat) : LayerExpr (List Nat → List Nat) (List Nat → List Nat) := .fn (fun s seen => s (seen ++ [t]))

/-- `l1 ... ln` -/
def tagLayers : List Nat → Layers (List Nat → List Nat) (List Nat → List Nat)
  | [] => .nil
  | t :: ts => .cons (tagLayer t) (tagLayers ts)

/-- **C51, order of requests.** Through a builder with layers `t1, ..., tn` a request passes `t1` first, then `t2`, ..., and the service last. -/
theorem C51_order (ts : List Nat) : (ServiceBuilder.new.layers (tagLayers ts)).service (fun seen => seen) [] = ts := by
  have key : ∀ (ts pre : List Nat), (tagLayers ts).nest (fun seen => seen) pre = pre ++ ts := by
    intro ts
    induction ts with
    | nil => intro pre; simp [tagLayers, Layers.nest]
    | cons t ts ih =>
      intro pre
      have := ih (pre ++ [t])
      simp only [tagLayers, Layers.nest]
      show (tagLayers ts).nest (fun seen => seen) (pre ++ [t]) = _
      rw [this]; simp
  rw [C51_builder, key]; rfl

/-- two real middlewares: `ServiceBuilder::new().map_request(f).map_request(g)` applies `f` before `g` -/
example {W Req Res Err : Type} (f g : Req → W → Req × W) (S : Service W Req Res Err) :
    (ServiceBuilder.new.layers (.cons (.fn (MapRequest f)) (.cons (.fn (MapRequest g)) .nil))).service S = MapRequest f (MapRequest g S) := rfl

/-! ## C54 -/

/-- poll `n` times -/
def ServiceList.polls {V : Type} : Nat → ServiceList V → List (Poll (Option (Change Nat V)))
  | 0, _ => []
  | n + 1, x => x.pollNext.1 :: ServiceList.polls n x.pollNext.2

/-- **C54.** The `i`-th poll yields `Insert(i, services[i])`, and every poll after the last service yields the end of the stream: for every list
of services and however often it is polled. -/
theorem C54_inserts {V : Type} (services : List V) (n i : Nat) (hi : i < n) :
    ((ServiceList.new services).polls n)[i]? = some (.ready ((services[i]?).map (fun s => Change.insert i s))) := by
  have key : ∀ (n i k : Nat) (l : List V), i < n →
      (ServiceList.polls n ⟨k, l⟩)[i]? = some (.ready ((l[i]?).map (fun s => Change.insert (k + i) s))) := by
    intro n
    induction n with
    | zero => intro i k l h; omega
    | succ n ih =>
      intro i k l h
      cases i with
      | zero => cases l <;> rfl
      | succ i =>
        simp only [ServiceList.polls, List.getElem?_cons_succ]
        cases l with
        | nil => simp only [ServiceList.pollNext]; rw [ih i k [] (by omega)]; simp
        | cons s l =>
          simp only [ServiceList.pollNext]
          rw [ih i (k + 1) l (by omega)]
          simp [Nat.add_assoc, Nat.add_comm 1 i]
  have := key n i 0 services hi
  simpa [ServiceList.new] using this

/-! ## C57 -/

/-- **C57, Shared.** `poll_ready` is always `Ready(Ok)` and does not change the service; each call yields a clone of it at the first poll. -/
theorem C57_shared {W Tgt V E : Type} (cl : V → V) (v : V) (t : Tgt) (w : W) :
    let S : Service W Tgt V E := Shared V cl E
    (S.pollReady v).run w = .ok (.ready (.ok ()), v) w ∧
    ∃ f, (S.call v t).run w = .ok (f, v) w ∧ ∀ w', (S.poll f).run w' = .ok (.ready (.ok (cl v)), none) w' :=
  ⟨rfl, some (cl v), rfl, fun _ => rfl⟩

/-- **C57, forwarding.** `IntoService` and `AsService` behave as the maker itself. -/
theorem C57_into {W Tgt Res Err : Type} (M : Service W Tgt Res Err) : IntoService M = M := rfl

end Tower
