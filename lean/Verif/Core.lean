/-!
# Core vocabulary: polls, effectful code, services

Models `std::task::Poll`, the `Service` trait of `tower-service/src/lib.rs:311-356`, and the way a
Rust function body that takes `&mut self` runs inside an environment.
-/

namespace Tower

/-- `std::task::Poll` (used by `tower-service/src/lib.rs:340`). -/
inductive Poll (α : Type) where
  | pending
  | ready (a : α)
  deriving DecidableEq, Repr

/-- `Poll::map`. std, as in `tower/src/util/optional/mod.rs:47`. -/
def Poll.map {α β : Type} (f : α → β) : Poll α → Poll β
  | .pending => .pending
  | .ready a => .ready (f a)

/-- `Result::map_err` (also `Into::into` on the error). std, as in `tower/src/util/map_err.rs:70-75`. -/
def mapErr {α E E' : Type} (f : E → E') : Except E α → Except E' α
  | .ok a => .ok a
  | .error e => .error (f e)

/-- `Result::map`. std, as in `tower/src/util/map_response.rs:70-75`. -/
def mapOk {α β E : Type} (f : α → β) : Except E α → Except E β
  | .ok a => .ok (f a)
  | .error e => .error e

/-- Result of running a piece of Rust code in world `W`: it returns a value (and the changed world),
panics, or is still inside a `loop` when the fuel given to the model is used up. E.g. of `tower-service/src/lib.rs:340-355`. -/
inductive Out (W α : Type) where
  | ok (a : α) (w : W)
  | panic (msg : String)
  | spin
  deriving Repr

/-- A Rust function body. `W` is everything outside the receiver: clock, wakers, shared memory, peers. E.g. of `tower-service/src/lib.rs:340-355`. -/
structure Act (W α : Type) where
  run : W → Out W α

namespace Act
variable {W α β : Type}

/-- run `x`, then `f` on its result, in the world `x` left behind: sequencing of statements, in every function body, e.g. `tower/src/retry/future.rs:72-116` -/
def andThen (x : Act W α) (f : α → Act W β) (w : W) : Out W β :=
  match x.run w with
  | .ok a w' => (f a).run w'
  | .panic m => .panic m
  | .spin => .spin

instance : Monad (Act W) where
  pure a := ⟨fun w => .ok a w⟩
  bind x f := ⟨andThen x f⟩

/-- `panic!`, failed `assert!`/`expect`, e.g. `tower/src/limit/concurrency/service.rs:84-88`. -/
def panic (m : String) : Act W α := ⟨fun _ => .panic m⟩

/-- fuel exhausted in a `loop`, e.g. of `tower/src/retry/future.rs:72-116`. -/
def spin : Act W α := ⟨fun _ => .spin⟩

/-- read the world, e.g. the clock in `tower/src/limit/rate/service.rs:73-96` -/
def get : Act W W := ⟨fun w => .ok w w⟩

/-- change the world, e.g. a shared counter in `tower/src/load/pending_requests.rs:74-108` -/
def modify (f : W → W) : Act W Unit := ⟨fun w => .ok () (f w)⟩

/-- run a total effectful closure (user code that does not panic), e.g. the predicate of `tower/src/filter/mod.rs:100-120` -/
def lift (f : W → α × W) : Act W α := ⟨fun w => .ok (f w).1 (f w).2⟩

@[simp] theorem run_lift (f : W → α × W) (w : W) : (Act.lift f).run w = .ok (f w).1 (f w).2 := rfl
@[simp] theorem run_pure (a : α) (w : W) : (Pure.pure a : Act W α).run w = .ok a w := rfl
@[simp] theorem run_get (w : W) : (Act.get : Act W W).run w = .ok w w := rfl
@[simp] theorem run_modify (f : W → W) (w : W) : (Act.modify f : Act W Unit).run w = .ok () (f w) := rfl
@[simp] theorem run_panic (m : String) (w : W) : (Act.panic m : Act W α).run w = .panic m := rfl
@[simp] theorem run_spin (w : W) : (Act.spin : Act W α).run w = .spin := rfl
theorem run_bind (x : Act W α) (f : α → Act W β) (w : W) :
    (x >>= f).run w = match x.run w with
      | .ok a w' => (f a).run w'
      | .panic m => .panic m
      | .spin => .spin := rfl

theorem run_bind_ok {x : Act W α} {f : α → Act W β} {w w' : W} {a : α}
    (h : x.run w = .ok a w') : (x >>= f).run w = (f a).run w' := by simp [run_bind, h]

theorem run_bind_eq_ok {x : Act W α} {f : α → Act W β} {w w' : W} {b : β} :
    (x >>= f).run w = .ok b w' ↔ ∃ a w1, x.run w = .ok a w1 ∧ (f a).run w1 = .ok b w' := by
  rw [run_bind]
  cases hx : x.run w with
  | ok a w1 => exact ⟨fun h => ⟨a, w1, rfl, h⟩, by rintro ⟨a1, w2, h1, h2⟩; cases h1; exact h2⟩
  | panic m => simp
  | spin => simp

theorem ext' {x y : Act W α} (h : ∀ w, x.run w = y.run w) : x = y := by
  cases x; cases y; congr; funext w; exact h w

instance : LawfulMonad (Act W) := LawfulMonad.mk'
  (id_map := by
    intro α x; apply ext'; intro w
    show (x >>= fun a => Pure.pure (id a)).run w = _
    rw [run_bind]; cases h : x.run w <;> simp)
  (pure_bind := by intros; rfl)
  (bind_assoc := by
    intro α β γ x f g; apply ext'; intro w
    simp only [run_bind]; cases x.run w <;> rfl)

/-- Weakest precondition for partial correctness *without panics*: if the code returns, the
postcondition holds; a panic falsifies it; fuel exhaustion is allowed. Models nothing in /repo: used to state theorems on bodies like `tower-service/src/lib.rs:340-355`. -/
def wp (x : Act W α) (Q : α → W → Prop) (w : W) : Prop :=
  match x.run w with
  | .ok a w' => Q a w'
  | .panic _ => False
  | .spin => True

@[simp] theorem wp_pure (a : α) (Q : α → W → Prop) (w : W) :
    wp (Pure.pure a : Act W α) Q w = Q a w := rfl

@[simp] theorem wp_bind (x : Act W α) (f : α → Act W β) (Q : β → W → Prop) (w : W) :
    wp (x >>= f) Q w = wp x (fun a w' => wp (f a) Q w') w := by
  unfold wp; rw [run_bind]
  cases x.run w <;> rfl

@[simp] theorem wp_map (x : Act W α) (f : α → β) (Q : β → W → Prop) (w : W) :
    wp (f <$> x) Q w = wp x (fun a w' => Q (f a) w') w := by
  rw [← bind_pure_comp, wp_bind]; rfl

@[simp] theorem wp_panic (m : String) (Q : α → W → Prop) (w : W) :
    wp (Act.panic m : Act W α) Q w = False := rfl

@[simp] theorem wp_spin (Q : α → W → Prop) (w : W) : wp (Act.spin : Act W α) Q w = True := rfl

@[simp] theorem wp_lift (f : W → α × W) (Q : α → W → Prop) (w : W) :
    wp (Act.lift f) Q w = Q (f w).1 (f w).2 := rfl

@[simp] theorem wp_get (Q : W → W → Prop) (w : W) : wp (Act.get : Act W W) Q w = Q w w := rfl

@[simp] theorem wp_modify (f : W → W) (Q : Unit → W → Prop) (w : W) :
    wp (Act.modify f) Q w = Q () (f w) := rfl

theorem wp_mono {x : Act W α} {Q Q' : α → W → Prop} {w : W}
    (h : wp x Q w) (hq : ∀ a w', Q a w' → Q' a w') : wp x Q' w := by
  unfold wp at *
  cases hx : x.run w <;> simp_all

theorem wp_and {x : Act W α} {Q Q' : α → W → Prop} {w : W} (h : wp x Q w) (h' : wp x Q' w) :
    wp x (fun a w' => Q a w' ∧ Q' a w') w := by
  unfold wp at *
  cases hx : x.run w <;> simp_all

theorem wp_ok {x : Act W α} {Q : α → W → Prop} {w w' : W} {a : α} (h : wp x Q w)
    (hx : x.run w = .ok a w') : Q a w' := by simpa [wp, hx] using h

end Act

/-- The `Service` trait, `tower-service/src/lib.rs:311-356`.
`σ` is the implementing type, `φ` its associated `Future` type; `&mut self` methods return the new
state. `poll` is `Future::poll` of the associated future. `clone` is `Clone::clone` for services that
are `Clone` (it is not used for others). `Context` (the waker) is not modelled. -/
structure Service (W Req Res Err : Type) where
  σ : Type
  φ : Type
  pollReady : σ → Act W (Poll (Except Err Unit) × σ)
  call : σ → Req → Act W (φ × σ)
  poll : φ → Act W (Poll (Except Err Res) × φ)
  clone : σ → σ

/-- A plain `Future` with output `α` (policy futures, connect futures, predicate futures ...), e.g. `tower/src/retry/policy.rs:44-92`, `tower/src/filter/predicate.rs:6-20`. -/
structure Fut (W α : Type) where
  φ : Type
  poll : φ → Act W (Poll α × φ)

/-- A future inside futures-util's `Map`, `MapOk`, `MapErr` or `ErrInto`, as used in `tower/src/util/map_response.rs:36-41`, `tower/src/filter/future.rs:31-40`, `tower/src/spawn_ready/future.rs:5-8` and
`tower/src/balance/p2c/service.rs:203-206`: when the inner future is ready it is dropped, then the closure is applied to its output. `none` is `Map::Complete`. -/
def mapFut {W φ A B : Type} (poll : φ → Act W (Poll A × φ)) (f : A → Act W B) : Option φ → Act W (Poll B × Option φ)
  | some x => do
    let (p, x') ← poll x
    match p with
    | .pending => pure (.pending, some x')
    | .ready a => do
      let b ← f a
      pure (.ready b, none)
  | none => Act.panic "Map must not be polled after it returned `Poll::Ready`"

/-- What a model may know of time: `now` is `Instant::now()` (nanoseconds); `fired d w` says whether a
`tokio::time::Sleep` with deadline `d` reports completion when polled in world `w`. The assumption on
tokio: a sleep never fires early. It may fire arbitrarily late. `arm d w` is the world after a `Sleep` that has
not fired was polled: the task's waker is registered with the timer. Used in `tower/src/timeout/future.rs:33-55`, `tower/src/limit/rate/service.rs:66-130`. -/
structure Clock (W : Type) where
  now : W → Nat
  fired : Nat → W → Bool
  sound : ∀ d w, fired d w = true → d ≤ now w
  arm : Nat → W → W := fun _ w => w

namespace Act

theorem wp_mapFut {W φ A B : Type} (poll : φ → Act W (Poll A × φ)) (f : A → Act W B) (x : φ) (Q : Poll B × Option φ → W → Prop) (w : W) :
    wp (mapFut poll f (some x)) Q w = wp (poll x) (fun r w' => match r.1 with | .pending => Q (.pending, some r.2) w' | .ready a => wp (f a) (fun b => Q (.ready b, none)) w') w := by
  simp only [mapFut, wp_bind]
  congr 1
  funext r w'
  cases r.1 <;> simp

end Act

end Tower
