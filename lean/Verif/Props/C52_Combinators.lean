import Verif.Model.Util
import Verif.Spec.Trace

/-!
# C52, C56: combinators, Either, Optional, boxing

Observational (trace) equations for every sequence of operations, with effectful closures.
-/

set_option linter.unusedSimpArgs false

namespace Tower

open Act

variable {W : Type}

/-! ## The proof device: a functional simulation -/

/-- `T` in state `σmap s` behaves as `S` in state `s`, up to rewriting of requests and results. -/
structure Morph {R1 A1 E1 R2 A2 E2 : Type} (S : Service W R1 A1 E1) (T : Service W R2 A2 E2)
    (req : R2 → W → R1 × W) (fe : Except E1 Unit → W → Except E2 Unit × W)
    (fr : Except E1 A1 → W → Except E2 A2 × W) where
  σmap : S.σ → T.σ
  φmap : S.φ → T.φ
  ready_eq : ∀ s w, (T.pollReady (σmap s)).run w =
    ((S.pollReady s).run w).mapW (fun x w => (((Poll.mapW fe x.1 w).1, σmap x.2), (Poll.mapW fe x.1 w).2))
  call_eq : ∀ s r w, (T.call (σmap s) r).run w =
    ((S.call s (req r w).1).run (req r w).2).void (fun x => (φmap x.1, σmap x.2))
  poll_eq : ∀ f w, ∃ d : S.φ → T.φ, (T.poll (φmap f)).run w =
    ((S.poll f).run w).mapW (fun x w => (((Poll.mapW fr x.1 w).1,
      match x.1 with | .pending => φmap x.2 | .ready _ => d x.2), (Poll.mapW fr x.1 w).2))
  clone_eq : ∀ s, T.clone (σmap s) = σmap (S.clone s)

theorem Morph.trace_eq {R1 A1 E1 R2 A2 E2 : Type} {S : Service W R1 A1 E1} {T : Service W R2 A2 E2}
    {req : R2 → W → R1 × W} {fe : Except E1 Unit → W → Except E2 Unit × W}
    {fr : Except E1 A1 → W → Except E2 A2 × W} (M : Morph S T req fe fr) (ops : List (UOp W R2)) :
    ∀ x : Held S, trace T ⟨x.hs.map M.σmap, x.fs.map (Option.map M.φmap)⟩ ops =
      (trace S x (ops.map (UOp.mapReq req))).map (Obs.map fe fr) := by
  induction ops with
  | nil => intro x; rfl
  | cons op ops ih =>
    intro x
    cases op with
    | ready h w =>
      simp only [trace, List.map_cons, UOp.mapReq, List.getElem?_map]
      cases hx : x.hs[h]? with
      | none => simpa [Obs.map] using ih x
      | some s =>
        simp only [Option.map_some, M.ready_eq]
        cases hr : (S.pollReady s).run w with
        | panic m => rfl
        | spin => rfl
        | ok y w' =>
          have := ih { x with hs := x.hs.set h y.2 }
          simp only [List.map_set] at this
          simp only [Out.mapW, Out.void, List.map_cons, Obs.map, ← this]
    | call h r w =>
      simp only [trace, List.map_cons, UOp.mapReq, List.getElem?_map]
      cases hx : x.hs[h]? with
      | none => simpa [Obs.map] using ih x
      | some s =>
        simp only [Option.map_some, M.call_eq]
        cases hr : (S.call s (req r w).1).run (req r w).2 with
        | panic m => rfl
        | spin => rfl
        | ok y w' =>
          have := ih ⟨x.hs.set h y.2, x.fs ++ [some y.1]⟩
          simp only [List.map_set, List.map_append, List.map_cons, List.map_nil, Option.map_some] at this
          simp only [Out.void, List.map_cons, Obs.map, ← this]
    | poll i w =>
      simp only [trace, List.map_cons, UOp.mapReq, List.getElem?_map]
      cases hx : x.fs[i]? with
      | none => simpa [Obs.map] using ih x
      | some o =>
        cases o with
        | none => simpa [Obs.map] using ih x
        | some f =>
          obtain ⟨d, hd⟩ := M.poll_eq f w
          simp only [Option.map_some, hd]
          cases hr : (S.poll f).run w with
          | panic m => rfl
          | spin => rfl
          | ok y w' =>
            obtain ⟨p, f'⟩ := y
            cases p with
            | pending =>
              have := ih { x with fs := x.fs.set i (some f') }
              simp only [List.map_set, Option.map_some] at this
              simp only [Out.mapW, Poll.mapW, Out.void, List.map_cons, Obs.map, ← this]
            | ready a =>
              have := ih { x with fs := x.fs.set i none }
              simp only [List.map_set, Option.map_none] at this
              simp only [Out.mapW, Poll.mapW, Out.void, List.map_cons, Obs.map, ← this]
    | clone h =>
      simp only [trace, List.map_cons, UOp.mapReq, List.getElem?_map]
      cases hx : x.hs[h]? with
      | none => simpa [Obs.map] using ih x
      | some s =>
        have := ih { x with hs := x.hs ++ [S.clone s] }
        simp only [List.map_append, List.map_cons, List.map_nil] at this
        simp only [Option.map_some, List.map_cons, Obs.map, M.clone_eq, ← this]

/-- from one fresh handle -/
def fresh {Req Res Err : Type} {S : Service W Req Res Err} (s : S.σ) : Held S := ⟨[s], []⟩

@[simp] theorem Poll.mapW_keep {α : Type} (p : Poll α) (w : W) : Poll.mapW (keep (W := W)) p w = (p, w) := by
  cases p <;> rfl

@[simp] theorem Poll.mapW_onErr {α E1 E2 : Type} (f : E1 → E2) (p : Poll (Except E1 α)) (w : W) :
    Poll.mapW (onErr f) p w = (p.map (mapErr f), w) := by cases p <;> rfl

section
variable {R1 R2 A1 A2 E1 E2 : Type}

/-- **C52 (map_request).** Using `MapRequest f S` is using `S` with every request replaced by `f`'s result
(its effects happen just before the inner call); nothing else changes. -/
theorem C52_map_request (f : R2 → W → R1 × W) (S : Service W R1 A1 E1) (s : S.σ) (ops : List (UOp W R2)) :
    trace (MapRequest f S) (fresh s) ops =
      (trace S (fresh s) (ops.map (UOp.mapReq f))).map (Obs.map keep keep) :=
  Morph.trace_eq (T := MapRequest f S) (S := S) (req := f) (fe := keep) (fr := keep)
    { σmap := id, φmap := id
      ready_eq := by
        intro s w
        simp only [MapRequest, Poll.mapW_keep, id]
        cases (S.pollReady s).run w <;> rfl
      call_eq := by
        intro s r w
        simp only [MapRequest, run_bind, run_lift, id]
        cases (S.call s (f r w).1).run (f r w).2 <;> rfl
      poll_eq := by
        intro x w
        refine ⟨id, ?_⟩
        simp only [MapRequest, Poll.mapW_keep, id]
        cases (S.poll x).run w with
        | ok a w' => obtain ⟨p, y⟩ := a; cases p <;> rfl
        | _ => rfl
      clone_eq := fun _ => rfl } ops (fresh s)

/-- **C52 (map_response).** `f` is applied to each successful response, at the poll at which it arrives. -/
theorem C52_map_response (f : A1 → W → A2 × W) (S : Service W R1 A1 E1) (s : S.σ) (ops : List (UOp W R1)) :
    trace (MapResponse f S) (fresh s) ops =
      (trace S (fresh s) (ops.map (UOp.mapReq keep))).map (Obs.map keep (onOkW f)) :=
  Morph.trace_eq (T := MapResponse f S) (S := S) (req := keep) (fe := keep) (fr := onOkW f)
    { σmap := id, φmap := some
      ready_eq := by
        intro s w
        simp only [MapResponse, Poll.mapW_keep, id]
        cases (S.pollReady s).run w <;> rfl
      call_eq := by
        intro s r w
        simp only [MapResponse, run_bind, keep, id]
        cases (S.call s r).run w <;> rfl
      poll_eq := by
        intro x w
        refine ⟨fun _ => none, ?_⟩
        simp only [MapResponse, mapFut, run_bind, id]
        cases (S.poll x).run w with
        | ok a w' =>
          obtain ⟨p, y⟩ := a
          cases p with
          | pending => rfl
          | ready r => cases r <;> rfl
        | _ => rfl
      clone_eq := fun _ => rfl } ops (fresh s)

/-- **C52 (map_err).** `f` is applied to each error, of `poll_ready` and of responses. -/
theorem C52_map_err (f : E1 → W → E2 × W) (S : Service W R1 A1 E1) (s : S.σ) (ops : List (UOp W R1)) :
    trace (MapErr f S) (fresh s) ops =
      (trace S (fresh s) (ops.map (UOp.mapReq keep))).map (Obs.map (onErrW f) (onErrW f)) :=
  Morph.trace_eq (T := MapErr f S) (S := S) (req := keep) (fe := onErrW f) (fr := onErrW f)
    { σmap := id, φmap := some
      ready_eq := by
        intro s w
        simp only [MapErr, run_bind, id]
        cases (S.pollReady s).run w with
        | ok a w' =>
          obtain ⟨p, y⟩ := a
          cases p with
          | pending => rfl
          | ready r => cases r <;> rfl
        | _ => rfl
      call_eq := by
        intro s r w
        simp only [MapErr, run_bind, keep, id]
        cases (S.call s r).run w <;> rfl
      poll_eq := by
        intro x w
        refine ⟨fun _ => none, ?_⟩
        simp only [MapErr, mapFut, run_bind, id]
        cases (S.poll x).run w with
        | ok a w' =>
          obtain ⟨p, y⟩ := a
          cases p with
          | pending => rfl
          | ready r => cases r <;> rfl
        | _ => rfl
      clone_eq := fun _ => rfl } ops (fresh s)

/-- **C52 (map_result).** `f` is applied to each response result; readiness errors are only converted. -/
theorem C52_map_result (into : E1 → E2) (f : Except E1 A1 → W → Except E2 A2 × W) (S : Service W R1 A1 E1)
    (s : S.σ) (ops : List (UOp W R1)) :
    trace (MapResult into f S) (fresh s) ops =
      (trace S (fresh s) (ops.map (UOp.mapReq keep))).map (Obs.map (onErr into) f) :=
  Morph.trace_eq (T := MapResult into f S) (S := S) (req := keep) (fe := onErr into) (fr := f)
    { σmap := id, φmap := some
      ready_eq := by
        intro s w
        simp only [MapResult, run_bind, id, Poll.mapW_onErr]
        cases (S.pollReady s).run w <;> rfl
      call_eq := by
        intro s r w
        simp only [MapResult, run_bind, keep, id]
        cases (S.call s r).run w <;> rfl
      poll_eq := by
        intro x w
        refine ⟨fun _ => none, ?_⟩
        simp only [MapResult, mapFut, run_bind, id]
        cases (S.poll x).run w with
        | ok a w' => obtain ⟨p, y⟩ := a; cases p <;> rfl
        | _ => rfl
      clone_eq := fun _ => rfl } ops (fresh s)

theorem mapFut_again {φ A B : Type} {poll : φ → Act W (Poll A × φ)} {f : A → Act W B} {x y : Option φ} {w w' : W} {b : B} (h : (mapFut poll f x).run w = .ok (.ready b, y) w') (w2 : W) :
    (mapFut poll f y).run w2 = .panic "Map must not be polled after it returned `Poll::Ready`" := by
  cases x with
  | none => cases h
  | some x =>
    obtain ⟨⟨p, x'⟩, w1, _, h⟩ := run_bind_eq_ok.1 h
    cases p with
    | pending => exact absurd (congrArg Prod.fst (Out.ok.inj h).1) (by simp)
    | ready a =>
      obtain ⟨b', w2, _, h⟩ := run_bind_eq_ok.1 h
      cases h; rfl

/-- **C52 (once).** The response futures of `map_response`, `map_err` and `map_result` run the closure at most once: polled again after they were ready they panic (and the inner future, which may have been ready once only, is not polled). -/
theorem C52_map_again (S : Service W R1 A1 E1) (fr : A1 → W → A2 × W) (fe : E1 → W → E2 × W) (into : E1 → E2) (f : Except E1 A1 → W → Except E2 A2 × W) (w w' : W) :
    (∀ x y b, ((MapResponse fr S).poll x).run w = .ok (.ready b, y) w' → ∀ w2, ∃ m, ((MapResponse fr S).poll y).run w2 = .panic m) ∧
    (∀ x y b, ((MapErr fe S).poll x).run w = .ok (.ready b, y) w' → ∀ w2, ∃ m, ((MapErr fe S).poll y).run w2 = .panic m) ∧
    (∀ x y b, ((MapResult into f S).poll x).run w = .ok (.ready b, y) w' → ∀ w2, ∃ m, ((MapResult into f S).poll y).run w2 = .panic m) :=
  ⟨fun _ _ _ h w2 => ⟨_, mapFut_again h w2⟩, fun _ _ _ h w2 => ⟨_, mapFut_again h w2⟩, fun _ _ _ h w2 => ⟨_, mapFut_again h w2⟩⟩

/-- Readiness of `then`/`and_then`/`map_future` is that of the inner service, errors converted; a call is
exactly one inner call. -/
structure SameUpToFuture (into : E1 → E2) {R : Type} (S : Service W R A1 E1) (T : Service W R A2 E2)
    (σmap : S.σ → T.σ) (mk : S.φ → W → T.φ × W) : Prop where
  ready : ∀ s w, (T.pollReady (σmap s)).run w =
    ((S.pollReady s).run w).void (fun x => (x.1.map (mapErr into), σmap x.2))
  call : ∀ s r w, (T.call (σmap s) r).run w =
    ((S.call s r).run w).mapW (fun x w => (((mk x.1 w).1, σmap x.2), (mk x.1 w).2))
  clone : ∀ s, T.clone (σmap s) = σmap (S.clone s)

/-- **C52 (map_future).** -/
theorem C52_map_future (into : E1 → E2) (S : Service W R1 A1 E1) (G : Fut W (Except E2 A2))
    (f : S.φ → W → G.φ × W) :
    SameUpToFuture into S (MapFuture into S G f) id f ∧
    ∀ g ws, (MapFuture into S G f).futOf.drive g ws = G.drive g ws := by
  refine ⟨⟨?_, ?_, fun _ => rfl⟩, ?_⟩
  · intro s w
    simp only [MapFuture, run_bind, id]
    cases (S.pollReady s).run w <;> rfl
  · intro s r w
    simp only [MapFuture, run_bind, id]
    cases (S.call s r).run w <;> rfl
  · intro g ws; rfl

theorem drive_second (into : E1 → E2) (S : Service W R1 A1 E1) (G : Fut W (Except E2 A2))
    (f : Except E1 A1 → W → G.φ × W) (g : G.φ) (ws : List W) :
    (Then into S G f).futOf.drive (.second g) ws = G.drive g ws := by
  induction ws generalizing g with
  | nil => rfl
  | cons w ws ih =>
    simp only [Fut.drive, Service.futOf, Then, pollSecond, run_bind]
    cases (G.poll g).run w with
    | panic m => rfl
    | spin => rfl
    | ok a w' =>
      obtain ⟨p, g'⟩ := a
      cases p with
      | pending => exact ih g'
      | ready r => rfl

/-- **C52 (then).** The outcome: the inner outcome is passed to `f`, whose future is polled in the same
poll, and its outcome is the outcome. -/
theorem C52_then (into : E1 → E2) (S : Service W R1 A1 E1) (G : Fut W (Except E2 A2))
    (f : Except E1 A1 → W → G.φ × W) :
    SameUpToFuture into S (Then into S G f) id (fun x w => (.first x, w)) ∧
    ∀ x ws, (Then into S G f).futOf.drive (.first x) ws =
      (S.futOf.drive x ws).andThen (fun res w rest => G.drive (f res w).1 ((f res w).2 :: rest)) := by
  refine ⟨⟨?_, ?_, fun _ => rfl⟩, ?_⟩
  · intro s w
    simp only [Then, run_bind, id]
    cases (S.pollReady s).run w <;> rfl
  · intro s r w
    simp only [Then, run_bind, id]
    cases (S.call s r).run w <;> rfl
  · intro x ws
    induction ws generalizing x with
    | nil => rfl
    | cons w ws ih =>
      simp only [Fut.drive, Service.futOf, Then, run_bind]
      cases (S.poll x).run w with
      | panic m => rfl
      | spin => rfl
      | ok a w' =>
        obtain ⟨p, x'⟩ := a
        cases p with
        | pending => exact ih x'
        | ready r =>
          simp only [run_bind, run_lift, pollSecond, Drive.andThen, Fut.drive]
          cases hg : (G.poll (f r w').1).run (f r w').2 with
          | panic m => rfl
          | spin => rfl
          | ok b w'' =>
            obtain ⟨q, g'⟩ := b
            cases q with
            | pending => exact drive_second into S G f g' ws
            | ready r => rfl

theorem drive_second' (into : E1 → E2) (S : Service W R1 A1 E1) (G : Fut W (Except E2 A2))
    (f : A1 → W → G.φ × W) (g : G.φ) (ws : List W) :
    (AndThen into S G f).futOf.drive (.second g) ws = G.drive g ws := by
  induction ws generalizing g with
  | nil => rfl
  | cons w ws ih =>
    simp only [Fut.drive, Service.futOf, AndThen, pollSecond, run_bind]
    cases (G.poll g).run w with
    | panic m => rfl
    | spin => rfl
    | ok a w' =>
      obtain ⟨p, g'⟩ := a
      cases p with
      | pending => exact ih g'
      | ready r => rfl

/-- **C52 (and_then).** As `then`, but `f` runs on success only; an error is converted and returned. -/
theorem C52_and_then (into : E1 → E2) (S : Service W R1 A1 E1) (G : Fut W (Except E2 A2))
    (f : A1 → W → G.φ × W) :
    SameUpToFuture into S (AndThen into S G f) id (fun x w => (.first x, w)) ∧
    ∀ x ws, (AndThen into S G f).futOf.drive (.first x) ws =
      (S.futOf.drive x ws).andThen (fun res w rest =>
        match res with
        | .ok a => G.drive (f a w).1 ((f a w).2 :: rest)
        | .error e => .done (.error (into e)) w rest) := by
  refine ⟨⟨?_, ?_, fun _ => rfl⟩, ?_⟩
  · intro s w
    simp only [AndThen, run_bind, id]
    cases (S.pollReady s).run w <;> rfl
  · intro s r w
    simp only [AndThen, run_bind, id]
    cases (S.call s r).run w <;> rfl
  · intro x ws
    induction ws generalizing x with
    | nil => rfl
    | cons w ws ih =>
      simp only [Fut.drive, Service.futOf, AndThen, run_bind]
      cases (S.poll x).run w with
      | panic m => rfl
      | spin => rfl
      | ok a w' =>
        obtain ⟨p, x'⟩ := a
        cases p with
        | pending => exact ih x'
        | ready r =>
          cases r with
          | error e => rfl
          | ok r =>
            simp only [run_bind, run_lift, pollSecond, Drive.andThen, Fut.drive]
            cases hg : (G.poll (f r w').1).run (f r w').2 with
            | panic m => rfl
            | spin => rfl
            | ok b w'' =>
              obtain ⟨q, g'⟩ := b
              cases q with
              | pending => exact drive_second' into S G f g' ws
              | ready r => rfl

theorem pollSecond_over {A Out : Type} {G : Fut W Out} {g : G.φ} {w w' r x'} (h : (pollSecond (A := A) G g).run w = .ok (.ready r, x') w') : x' = .done := by
  obtain ⟨⟨q, g'⟩, w1, _, h2⟩ := run_bind_eq_ok.1 h
  cases q with
  | pending => cases h2
  | ready o => cases h2; rfl

/-- **C52 (then, and_then), at the end.** Once such a future has completed it runs nothing of the user's again: polling it once more panics at once. -/
theorem C52_over (into : E1 → E2) (S : Service W R1 A1 E1) (G : Fut W (Except E2 A2)) (f : A1 → W → G.φ × W) (f' : Except E1 A1 → W → G.φ × W) :
    (∀ x x' r w w' w2, ((AndThen into S G f).poll x).run w = .ok (.ready r, x') w' → ∃ m, ((AndThen into S G f).poll x').run w2 = .panic m) ∧
    (∀ x x' r w w' w2, ((Then into S G f').poll x).run w = .ok (.ready r, x') w' → ∃ m, ((Then into S G f').poll x').run w2 = .panic m) := by
  constructor
  · intro x x' r w w' w2 h
    suffices hx : x' = .done by subst hx; exact ⟨_, rfl⟩
    match x, h with
    | .done, h => cases h
    | .second g, h => exact pollSecond_over h
    | .first y, h =>
      obtain ⟨⟨q, y'⟩, w1, _, h2⟩ := run_bind_eq_ok.1 h
      match q, h2 with
      | .pending, h2 => cases h2
      | .ready (.error e), h2 => cases h2; rfl
      | .ready (.ok a), h2 =>
        obtain ⟨g, w3, _, h3⟩ := run_bind_eq_ok.1 h2
        exact pollSecond_over h3
  · intro x x' r w w' w2 h
    suffices hx : x' = .done by subst hx; exact ⟨_, rfl⟩
    match x, h with
    | .done, h => cases h
    | .second g, h => exact pollSecond_over h
    | .first y, h =>
      obtain ⟨⟨q, y'⟩, w1, _, h2⟩ := run_bind_eq_ok.1 h
      match q, h2 with
      | .pending, h2 => cases h2
      | .ready a, h2 =>
        obtain ⟨g, w3, _, h3⟩ := run_bind_eq_ok.1 h2
        exact pollSecond_over h3

/-- **C52 (service_fn).** It is always ready, a call runs the closure on the request at once and answers with the future made by it. -/
theorem C52_service_fn (F : Fut W (Except E1 A1)) (f : R1 → W → F.φ × W) :
    (∀ s w, ((ServiceFn F f).pollReady s).run w = .ok (.ready (.ok ()), s) w) ∧
    (∀ s r w, ((ServiceFn F f).call s r).run w = .ok ((f r w).1, s) (f r w).2) ∧
    (∀ x ws, (ServiceFn F f).futOf.drive x ws = F.drive x ws) :=
  ⟨fun _ _ => rfl, fun _ _ _ => rfl, fun _ _ => rfl⟩

/-! ## C56 -/

/-- **C56 (Either, left).** -/
theorem C56_either_left (A B : Service W R1 A1 E1) (a : A.σ) (ops : List (UOp W R1)) :
    trace (Either A B) (fresh (S := Either A B) (.inl a)) ops =
      (trace A (fresh a) (ops.map (UOp.mapReq keep))).map (Obs.map keep keep) :=
  Morph.trace_eq (T := Either A B) (S := A) (req := keep) (fe := keep) (fr := keep)
    { σmap := .inl, φmap := .inl
      ready_eq := by
        intro s w
        simp only [Either, run_bind, Poll.mapW_keep]
        cases (A.pollReady s).run w <;> rfl
      call_eq := by
        intro s r w
        simp only [Either, run_bind, keep]
        cases (A.call s r).run w <;> rfl
      poll_eq := by
        intro x w
        refine ⟨.inl, ?_⟩
        simp only [Either, run_bind, Poll.mapW_keep]
        cases (A.poll x).run w with
        | ok a w' => obtain ⟨p, y⟩ := a; cases p <;> rfl
        | _ => rfl
      clone_eq := fun _ => rfl } ops (fresh a)

/-- **C56 (Either, right).** -/
theorem C56_either_right (A B : Service W R1 A1 E1) (b : B.σ) (ops : List (UOp W R1)) :
    trace (Either A B) (fresh (S := Either A B) (.inr b)) ops =
      (trace B (fresh b) (ops.map (UOp.mapReq keep))).map (Obs.map keep keep) :=
  Morph.trace_eq (T := Either A B) (S := B) (req := keep) (fe := keep) (fr := keep)
    { σmap := .inr, φmap := .inr
      ready_eq := by
        intro s w
        simp only [Either, run_bind, Poll.mapW_keep]
        cases (B.pollReady s).run w <;> rfl
      call_eq := by
        intro s r w
        simp only [Either, run_bind, keep]
        cases (B.call s r).run w <;> rfl
      poll_eq := by
        intro x w
        refine ⟨.inr, ?_⟩
        simp only [Either, run_bind, Poll.mapW_keep]
        cases (B.poll x).run w with
        | ok a w' => obtain ⟨p, y⟩ := a; cases p <;> rfl
        | _ => rfl
      clone_eq := fun _ => rfl } ops (fresh b)

/-- **C56 (Optional, some).** -/
theorem C56_optional_some (S : Service W R1 A1 E1) (s : S.σ) (ops : List (UOp W R1)) :
    trace (Optional S) (fresh (S := Optional S) (some s)) ops =
      (trace S (fresh s) (ops.map (UOp.mapReq keep))).map (Obs.map (onErr .inner) (onErr .inner)) :=
  Morph.trace_eq (T := Optional S) (S := S) (req := keep) (fe := onErr .inner) (fr := onErr .inner)
    { σmap := some, φmap := some
      ready_eq := by
        intro s w
        simp only [Optional, run_bind, Poll.mapW_onErr]
        cases (S.pollReady s).run w <;> rfl
      call_eq := by
        intro s r w
        simp only [Optional, run_bind, keep]
        cases (S.call s r).run w <;> rfl
      poll_eq := by
        intro x w
        refine ⟨some, ?_⟩
        simp only [Optional, run_bind, Poll.mapW_onErr]
        cases (S.poll x).run w with
        | ok a w' => obtain ⟨p, y⟩ := a; cases p <;> rfl
        | _ => rfl
      clone_eq := fun _ => rfl } ops (fresh s)

/-- **C56 (Optional, none).** Always ready, touches nothing; every call answers with the `None` error at
the first poll. -/
theorem C56_optional_none (S : Service W R1 A1 E1) :
    (∀ w, ((Optional S).pollReady none).run w = .ok (.ready (.ok ()), none) w) ∧
    (∀ r w, ∃ x, ((Optional S).call none r).run w = .ok (x, none) w ∧
      ∀ w' ws, (Optional S).futOf.drive x (w' :: ws) = .done (.error .none) w' ws) :=
  ⟨fun _ => rfl, fun _ _ => ⟨none, rfl, fun _ _ => rfl⟩⟩

/-- **C56 (boxed services).** -/
theorem C56_boxed (S : Service W R1 A1 E1) (s : S.σ) (ops : List (UOp W R1)) :
    trace (BoxService S) (fresh (S := BoxService S) ⟨s⟩) ops =
      (trace S (fresh s) (ops.map (UOp.mapReq keep))).map (Obs.map keep keep) :=
  Morph.trace_eq (T := BoxService S) (S := S) (req := keep) (fe := keep) (fr := keep)
    { σmap := Boxed.mk, φmap := Boxed.mk
      ready_eq := by
        intro s w
        simp only [BoxService, run_bind, Poll.mapW_keep]
        cases (S.pollReady s).run w <;> rfl
      call_eq := by
        intro s r w
        simp only [BoxService, run_bind, keep]
        cases (S.call s r).run w <;> rfl
      poll_eq := by
        intro x w
        refine ⟨Boxed.mk, ?_⟩
        simp only [BoxService, run_bind, Poll.mapW_keep]
        cases (S.poll x).run w with
        | ok a w' => obtain ⟨p, y⟩ := a; cases p <;> rfl
        | _ => rfl
      clone_eq := fun _ => rfl } ops (fresh s)

/-- The rewriting with `keep` is no rewriting, so the equations above with `keep` are equalities of
traces. -/
theorem map_keep (l : List (Obs W A1 E1)) : l.map (Obs.map keep keep) = l := by
  have : ∀ o : Obs W A1 E1, Obs.map keep keep o = o := by
    intro o
    cases o with
    | ready o => cases o <;> simp [Obs.map, Out.mapW]
    | poll o => cases o <;> simp [Obs.map, Out.mapW]
    | _ => rfl
  rw [List.map_congr_left (g := id) (fun o _ => this o), List.map_id]

theorem mapReq_keep (l : List (UOp W R1)) : l.map (UOp.mapReq keep) = l := by
  have : ∀ o : UOp W R1, UOp.mapReq keep o = o := by intro o; cases o <;> rfl
  rw [List.map_congr_left (g := id) (fun o _ => this o), List.map_id]

/-- **C56**, said without rewriting: boxing and `Either` do not change any trace. -/
theorem C56_transparent (A B : Service W R1 A1 E1) (a : A.σ) (b : B.σ) (ops : List (UOp W R1)) :
    trace (BoxService A) (fresh (S := BoxService A) ⟨a⟩) ops = trace A (fresh a) ops ∧
    trace (Either A B) (fresh (S := Either A B) (.inl a)) ops = trace A (fresh a) ops ∧
    trace (Either A B) (fresh (S := Either A B) (.inr b)) ops = trace B (fresh b) ops := by
  rw [C56_boxed, C56_either_left, C56_either_right]
  simp only [map_keep, mapReq_keep, and_self]

end

/-! ## A concrete case -/

namespace Demo52

/-- counts calls in the world, doubles -/
def dbl : Service Nat Nat Nat String where
  σ := Unit
  φ := Nat
  pollReady _ := pure (.ready (.ok ()), ())
  call _ r := do Act.modify (· + 1); pure (2 * r, ())
  poll r := ⟨fun w => .ok (if w % 2 = 0 then .pending else .ready (.ok r), r) w⟩
  clone := id

/-- request 3 is doubled by `f`, doubled by `dbl`; pending in an even world, ready in an odd one -/
example : trace (MapRequest (fun r w => (2 * r, w)) dbl) (fresh (S := MapRequest _ dbl) ())
    [.ready 0 5, .call 0 3 5, .poll 0 6, .poll 0 7] =
    [.ready (.ok (.ready (.ok ())) 5), .call (.ok () 6), .poll (.ok .pending 6), .poll (.ok (.ready (.ok 12)) 7)] := rfl

/-- `map_response`, ready in an odd world: the inner future is dropped, and polled once more the future panics -/
example : ((MapResponse (fun r w => (r + 1, w + 1)) dbl).poll (some (4 : Nat))).run 7 = .ok (.ready (.ok 5), none) 8 := rfl
example : ∃ m, ((MapResponse (fun r w => (r + 1, w + 1)) dbl).poll none).run 8 = .panic m :=
  (C52_map_again dbl (fun r w => (r + 1, w + 1)) (fun e w => (e, w)) id (fun r w => (r, w)) 7 8).1 (some (4 : Nat)) none (.ok 5) rfl 8

end Demo52

end Tower
