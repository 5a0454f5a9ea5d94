import Verif.Props.C52_Combinators
import Verif.Model.Middleware

/-! # C50 Oneshot, C53 FutureService, C46 Filter, C47 AsyncFilter -/

set_option linter.unusedSimpArgs false

namespace Tower
open Act
variable {W Req Res Err : Type}

theorem oneshot_drive_called (S : Service W Req Res Err) (x : S.φ) (ws : List W) :
    (Oneshot S).drive (.called x) ws = S.futOf.drive x ws := by
  induction ws generalizing x with
  | nil => rfl
  | cons w ws ih =>
    simp only [Fut.drive, Oneshot, Service.futOf, run_bind]
    cases (S.poll x).run w with
    | panic m => rfl
    | spin => rfl
    | ok a w' =>
      obtain ⟨p, y⟩ := a
      match p with
      | .pending => exact ih y
      | .ready (.ok r) => rfl
      | .ready (.error r) => rfl

/-- **C50 (Oneshot).** On every schedule: first wait for readiness; a readiness error is the outcome, without
a call; once ready, exactly one `call` with the given request in that same poll, then the outcome is that of
the response future. -/
theorem C50_oneshot (S : Service W Req Res Err) (s : S.σ) (r : Req) (ws : List W) :
    (Oneshot S).drive (.notReady s (some r)) ws =
      (S.readyFut.drive s ws).andThen (fun res w rest =>
        match res with
        | .error e => .done (.error e) w rest
        | .ok s' => (S.call s' r).driveIn w (fun x w' => S.futOf.drive x.1 (w' :: rest))) := by
  induction ws generalizing s with
  | nil => rfl
  | cons w ws ih =>
    simp only [Fut.drive, Oneshot, Service.readyFut, run_bind]
    cases (S.pollReady s).run w with
    | panic m => rfl
    | spin => rfl
    | ok a w' =>
      obtain ⟨p, y⟩ := a
      match p with
      | .pending => exact ih y
      | .ready (.error r) => rfl
      | .ready (.ok ()) =>
        simp only [run_bind, run_pure, Drive.andThen, Act.driveIn]
        cases (S.call y r).run w' with
        | panic m => rfl
        | spin => rfl
        | ok b w'' =>
          obtain ⟨f, z⟩ := b
          simp only [Fut.drive, Service.futOf]
          cases (S.poll f).run w'' with
          | panic m => rfl
          | spin => rfl
          | ok c w3 =>
            obtain ⟨q, g⟩ := c
            match q with
            | .pending => exact oneshot_drive_called S g ws
            | .ready (.ok r) => rfl
            | .ready (.error r) => rfl

/-- **C50 (ReadyOneshot).** It finishes exactly when `poll_ready` does, and gives the service back. -/
theorem C50_ready_oneshot (S : Service W Req Res Err) (s : S.σ) (ws : List W) :
    (ReadyOneshot S).drive (some s) ws = S.readyFut.drive s ws := by
  induction ws generalizing s with
  | nil => rfl
  | cons w ws ih =>
    simp only [Fut.drive, ReadyOneshot, Service.readyFut, run_bind]
    cases (S.pollReady s).run w with
    | panic m => rfl
    | spin => rfl
    | ok a w' =>
      obtain ⟨p, y⟩ := a
      match p with
      | .pending => exact ih y
      | .ready (.error r) => rfl
      | .ready (.ok ()) => rfl

/-- the amount of `ν`-work that is done when `d` is the outcome -/
theorem work_oneshot_called (ν : W → Int) (S : Service W Req Res Err) (hν : CountsCalls ν S) (x : S.φ)
    (ws : List W) : (Oneshot S).work ν (.called x) ws = 0 := by
  induction ws generalizing x with
  | nil => rfl
  | cons w ws ih =>
    simp only [Fut.work, Oneshot, run_bind]
    cases hp : (S.poll x).run w with
    | panic m => rfl
    | spin => rfl
    | ok a w' =>
      have := hν.poll x w _ _ hp
      obtain ⟨p, y⟩ := a
      match p with
      | .pending =>
        have hi := ih y
        show ν w' - ν w + (Oneshot S).work ν (.called y) ws = 0
        rw [hi]; omega
      | .ready (.ok r) => simp only [run_pure]; omega
      | .ready (.error r) => simp only [run_pure]; omega

/-- **C50 (exactly once).** Whatever the schedule, a Oneshot calls its service at most once, and if it ended
in a response then exactly once. -/
theorem C50_called_once (ν : W → Int) (S : Service W Req Res Err) (hν : CountsCalls ν S) (s : S.σ) (r : Req)
    (ws : List W) :
    ((Oneshot S).work ν (.notReady s (some r)) ws = 0 ∨ (Oneshot S).work ν (.notReady s (some r)) ws = 1) ∧
    (∀ a w rest, (Oneshot S).drive (.notReady s (some r)) ws = .done (.ok a) w rest →
      (Oneshot S).work ν (.notReady s (some r)) ws = 1) := by
  induction ws generalizing s with
  | nil => exact ⟨.inl rfl, by simp [Fut.drive]⟩
  | cons w ws ih =>
    simp only [Fut.work, Fut.drive, Oneshot, run_bind]
    cases hp : (S.pollReady s).run w with
    | panic m => simp
    | spin => simp
    | ok a w' =>
      have h1 := hν.ready s w _ _ hp
      obtain ⟨p, y⟩ := a
      match p with
      | .pending =>
        obtain ⟨h2, h3⟩ := ih y
        simp only [run_pure]
        have e : ν w' - ν w + (Oneshot S).work ν (.notReady y (some r)) ws =
          (Oneshot S).work ν (.notReady y (some r)) ws := by omega
        refine ⟨?_, fun a w rest h => ?_⟩
        · rcases h2 with h2 | h2
          · exact .inl (e.trans h2)
          · exact .inr (e.trans h2)
        · exact e.trans (h3 a w rest h)
      | .ready (.error e) =>
        simp only [run_pure]
        exact ⟨.inl (by omega), by simp⟩
      | .ready (.ok ()) =>
        simp only [run_bind]
        cases hc : (S.call y r).run w' with
        | panic m => simp
        | spin => simp
        | ok b w2 =>
          have h2 := hν.call y r w' _ _ hc
          obtain ⟨f, z⟩ := b
          simp only
          cases hq : (S.poll f).run w2 with
          | panic m => simp
          | spin => simp
          | ok c w3 =>
            have h3 := hν.poll f w2 _ _ hq
            obtain ⟨q, g⟩ := c
            match q with
            | .pending =>
              simp only [run_pure]
              have h4 := work_oneshot_called ν S hν g ws
              have e : ν w3 - ν w + (Oneshot S).work ν (.called g) ws = 1 := by omega
              exact ⟨.inr e, fun _ _ _ _ => e⟩
            | .ready (.ok a) =>
              simp only [run_pure]
              exact ⟨.inr (by omega), fun _ _ _ _ => by omega⟩
            | .ready (.error a) =>
              simp only [run_pure]
              exact ⟨.inr (by omega), fun _ _ _ _ => by omega⟩

/-! ## C53 -/

/-- **C53 (before).** Waiting for a `FutureService`: it is pending as long as its future is, fails with the
future's error, and as soon as the future yields a service that service's own readiness decides (it is
polled in the same poll); the future is not polled again. -/
theorem C53_ready (S : Service W Req Res Err) (F : Fut W (Except Err S.σ)) (fclone : F.φ → F.φ) (f : F.φ)
    (ws : List W) :
    (FutureService S F fclone).readyFut.drive (.future f) ws =
      (F.drive f ws).andThen (fun res w rest =>
        match res with
        | .error e => .done (.error e) w rest
        | .ok s => (S.readyFut.drive s (w :: rest)).map (mapOk .service)) := by
  have after : ∀ ws s, (FutureService S F fclone).readyFut.drive (.service s) ws =
      (S.readyFut.drive s ws).map (mapOk .service) := by
    intro ws
    induction ws with
    | nil => intro s; rfl
    | cons w ws ih =>
      intro s
      simp only [Fut.drive, FutureService, Service.readyFut, run_bind]
      cases (S.pollReady s).run w with
      | panic m => rfl
      | spin => rfl
      | ok a w' =>
        obtain ⟨p, y⟩ := a
        match p with
        | .pending => exact ih y
        | .ready (.error r) => rfl
        | .ready (.ok ()) => rfl
  induction ws generalizing f with
  | nil => rfl
  | cons w ws ih =>
    simp only [Fut.drive, FutureService, Service.readyFut, run_bind]
    cases (F.poll f).run w with
    | panic m => rfl
    | spin => rfl
    | ok a w' =>
      obtain ⟨p, y⟩ := a
      match p with
      | .pending => exact ih y
      | .ready (.error e) => rfl
      | .ready (.ok s) =>
        simp only [run_bind, Drive.andThen, Fut.drive]
        cases (S.pollReady s).run w' with
        | panic m => rfl
        | spin => rfl
        | ok b w2 =>
          obtain ⟨q, z⟩ := b
          match q with
          | .pending => exact after ws z
          | .ready (.error r) => rfl
          | .ready (.ok ()) => rfl

/-- **C53 (after).** Once its future has yielded `s`, a `FutureService` is indistinguishable from `s`. -/
theorem C53_then_is_service (S : Service W Req Res Err) (F : Fut W (Except Err S.σ)) (fclone : F.φ → F.φ)
    (s : S.σ) (ops : List (UOp W Req)) :
    trace (FutureService S F fclone) (fresh (S := FutureService S F fclone) (.service s)) ops =
      trace S (fresh s) ops := by
  have := Morph.trace_eq (T := FutureService S F fclone) (S := S) (req := keep) (fe := keep) (fr := keep)
    { σmap := .service, φmap := id
      ready_eq := by
        intro s w
        simp only [FutureService, run_bind, Poll.mapW_keep]
        cases (S.pollReady s).run w <;> rfl
      call_eq := by
        intro s r w
        simp only [FutureService, run_bind, keep]
        cases (S.call s r).run w <;> rfl
      poll_eq := by
        intro x w
        refine ⟨id, ?_⟩
        simp only [FutureService, Poll.mapW_keep, id]
        cases (S.poll x).run w with
        | ok a w' => obtain ⟨p, y⟩ := a; cases p <;> rfl
        | _ => rfl
      clone_eq := fun _ => rfl } ops (fresh s)
  rw [map_keep, mapReq_keep] at this
  exact this

/-- **C53 (after an error).** A future that fails leaves the service waiting for that same future, as it is now: polling the service again polls the future again, from where it was left (a fused one may be polled again, others may panic), and never starts over. -/
theorem C53_error (S : Service W Req Res Err) (F : Fut W (Except Err S.σ)) (fclone : F.φ → F.φ) {f f' : F.φ} {e : Err} {w w' : W}
    (h : (F.poll f).run w = .ok (.ready (.error e), f') w') (ws : List W) :
    ∃ s, ((FutureService S F fclone).pollReady (.future f)).run w = .ok (.ready (.error e), s) w' ∧
      (FutureService S F fclone).readyFut.drive s ws =
        (F.drive f' ws).andThen (fun res w rest =>
          match res with
          | .error e => .done (.error e) w rest
          | .ok s => (S.readyFut.drive s (w :: rest)).map (mapOk .service)) := by
  refine ⟨.future f', ?_, C53_ready S F fclone f' ws⟩
  simp only [FutureService, run_bind, h]
  rfl

/-- **C53 (misuse).** Calling it before its future resolved panics. -/
theorem C53_call_early (S : Service W Req Res Err) (F : Fut W (Except Err S.σ)) (fclone : F.φ → F.φ)
    (f : F.φ) (r : Req) (w : W) :
    ∃ m, ((FutureService S F fclone).call (.future f) r).run w = .panic m := ⟨_, rfl⟩

/-! ## C46 -/

theorem filter_drive {R1 BErr : Type} (into : Err → BErr) (check : R1 → W → Except BErr Req × W)
    (S : Service W Req Res Err) (x : S.φ) (ws : List W) :
    (Filter into check S).futOf.drive (.inr (some x)) ws = (S.futOf.drive x ws).map (mapErr into) := by
  induction ws generalizing x with
  | nil => rfl
  | cons w ws ih =>
    simp only [Fut.drive, Filter, Service.futOf, mapFut, run_bind]
    cases (S.poll x).run w with
    | panic m => rfl
    | spin => rfl
    | ok a w' =>
      obtain ⟨p, y⟩ := a
      match p with
      | .pending => exact ih y
      | .ready (.ok r) => rfl
      | .ready (.error r) => rfl

/-- **C46 (readiness).** A filter is ready, pending or failed exactly when the inner service is; polling it polls the inner service once. -/
theorem C46_ready {R1 BErr : Type} (into : Err → BErr) (check : R1 → W → Except BErr Req × W)
    (S : Service W Req Res Err) (s : S.σ) (w : W) :
    ((Filter into check S).pollReady s).run w = ((S.pollReady s).run w).void (fun x => (x.1.map (mapErr into), x.2)) := by
  simp only [Filter, run_bind]
  cases (S.pollReady s).run w <;> rfl

/-- **C46 (accepted).** If the predicate accepts request `r`, giving `r'`, the call is exactly the inner
call with `r'` and its outcome is the inner outcome (error converted). -/
theorem C46_accept {R1 BErr : Type} (into : Err → BErr) (check : R1 → W → Except BErr Req × W)
    (S : Service W Req Res Err) (s : S.σ) (r : R1) (w w1 : W) (r' : Req) (hc : check r w = (.ok r', w1)) :
    ((Filter into check S).call s r).run w = ((S.call s r').run w1).void (fun x => (.inr (some x.1), x.2)) ∧
    ∀ x ws, (Filter into check S).futOf.drive (.inr (some x)) ws = (S.futOf.drive x ws).map (mapErr into) := by
  refine ⟨?_, filter_drive into check S⟩
  simp only [Filter, run_bind, run_lift, hc]
  cases (S.call s r').run w1 <;> rfl

/-- **C46 (rejected).** If the predicate rejects, the inner service is untouched (its state is the same and
no code of it runs), and the future yields the predicate's error at its first poll. -/
theorem C46_reject {R1 BErr : Type} (into : Err → BErr) (check : R1 → W → Except BErr Req × W)
    (S : Service W Req Res Err) (s : S.σ) (r : R1) (w w1 : W) (e : BErr) (hc : check r w = (.error e, w1)) :
    ∃ x, ((Filter into check S).call s r).run w = .ok (x, s) w1 ∧
      ∀ w' ws, (Filter into check S).futOf.drive x (w' :: ws) = .done (.error e) w' ws := by
  refine ⟨.inl (some e), ?_, fun _ _ => rfl⟩
  simp [Filter, run_bind, hc]

/-! ## C47 -/

theorem asyncFilter_drive_wait {R1 BErr : Type} (into : Err → BErr) (P : Fut W (Except BErr Req))
    (check : R1 → W → P.φ × W) (S : Service W Req Res Err) (x : S.φ) (ws : List W) :
    (AsyncFilter into P check S).futOf.drive (.waitResponse x) ws = (S.futOf.drive x ws).map (mapErr into) := by
  induction ws generalizing x with
  | nil => rfl
  | cons w ws ih =>
    simp only [Fut.drive, AsyncFilter, Service.futOf, run_bind]
    cases (S.poll x).run w with
    | panic m => rfl
    | spin => rfl
    | ok a w' =>
      obtain ⟨p, y⟩ := a
      match p with
      | .pending => exact ih y
      | .ready (.ok r) => rfl
      | .ready (.error r) => rfl

/-- **C47 (call).** `call` moves the very inner service that was polled ready into the response future and
keeps a fresh clone; the inner service is not called yet. -/
theorem C47_call {R1 BErr : Type} (into : Err → BErr) (P : Fut W (Except BErr Req))
    (check : R1 → W → P.φ × W) (S : Service W Req Res Err) (s : S.σ) (r : R1) (w : W) :
    ((AsyncFilter into P check S).call s r).run w =
      .ok (.check (check r w).1 s, S.clone s) (check r w).2 := rfl

/-- **C47 (outcome).** On every schedule: wait for the predicate; if it rejects, that error is the outcome and
the inner service is never called; if it accepts with `r`, that instance is called exactly once with `r`, in
the same poll, and its outcome is the outcome. -/
theorem C47_outcome {R1 BErr : Type} (into : Err → BErr) (P : Fut W (Except BErr Req))
    (check : R1 → W → P.φ × W) (S : Service W Req Res Err) (c : P.φ) (s : S.σ) (ws : List W) :
    (AsyncFilter into P check S).futOf.drive (.check c s) ws =
      (P.drive c ws).andThen (fun res w rest =>
        match res with
        | .error e => .done (.error e) w rest
        | .ok r => (S.call s r).driveIn w (fun x w' => (S.futOf.drive x.1 (w' :: rest)).map (mapErr into))) := by
  induction ws generalizing c with
  | nil => rfl
  | cons w ws ih =>
    simp only [Fut.drive, AsyncFilter, Service.futOf, run_bind]
    cases (P.poll c).run w with
    | panic m => rfl
    | spin => rfl
    | ok a w' =>
      obtain ⟨p, y⟩ := a
      match p with
      | .pending => exact ih y
      | .ready (.error r) => rfl
      | .ready (.ok r) =>
        simp only [run_bind, Drive.andThen, Act.driveIn]
        cases (S.call s r).run w' with
        | panic m => rfl
        | spin => rfl
        | ok b w'' =>
          obtain ⟨f, z⟩ := b
          simp only [Fut.drive]
          cases (S.poll f).run w'' with
          | panic m => rfl
          | spin => rfl
          | ok c w3 =>
            obtain ⟨q, g⟩ := c
            match q with
            | .pending => exact asyncFilter_drive_wait into P check S g ws
            | .ready (.ok r) => rfl
            | .ready (.error r) => rfl

/-- **C50 (polled after an error).** A `ReadyOneshot` whose service failed keeps the service, as its `poll_ready` left it: polling it again asks that service again. Once it gave the service back it has none, and another poll panics. -/
theorem C50_ready_oneshot_again (S : Service W Req Res Err) (s : S.σ) (w : W) :
    (∀ e x w', ((ReadyOneshot S).poll (some s)).run w = .ok (.ready (.error e), x) w' → ∃ s', (S.pollReady s).run w = .ok (.ready (.error e), s') w' ∧ x = some s') ∧
    (∀ s' x w', ((ReadyOneshot S).poll (some s)).run w = .ok (.ready (.ok s'), x) w' → ∀ w2, ((ReadyOneshot S).poll x).run w2 = .panic "poll after Poll::Ready") := by
  constructor
  · intro e x w' h
    simp only [ReadyOneshot, run_bind] at h
    cases hp : (S.pollReady s).run w with
    | panic m => simp [hp] at h
    | spin => simp [hp] at h
    | ok a w1 =>
      obtain ⟨p, y⟩ := a
      rw [hp] at h
      match p, h with
      | .pending, h => exact absurd (congrArg Prod.fst (Out.ok.inj h).1) (by simp)
      | .ready (.ok ()), h => exact absurd (congrArg Prod.fst (Out.ok.inj h).1) (by simp)
      | .ready (.error e'), h =>
        simp only [run_pure, Out.ok.injEq, Prod.mk.injEq, Poll.ready.injEq, Except.error.injEq] at h
        obtain ⟨⟨rfl, rfl⟩, rfl⟩ := h
        exact ⟨y, rfl, rfl⟩
  · intro s' x w' h w2
    simp only [ReadyOneshot, run_bind] at h
    cases hp : (S.pollReady s).run w with
    | panic m => simp [hp] at h
    | spin => simp [hp] at h
    | ok a w1 =>
      obtain ⟨p, y⟩ := a
      rw [hp] at h
      match p, h with
      | .pending, h => exact absurd (congrArg Prod.fst (Out.ok.inj h).1) (by simp)
      | .ready (.error e'), h => exact absurd (congrArg Prod.fst (Out.ok.inj h).1) (by simp)
      | .ready (.ok ()), h =>
        simp only [run_pure, Out.ok.injEq, Prod.mk.injEq] at h
        obtain ⟨⟨-, rfl⟩, rfl⟩ := h
        rfl

/-- the `ν`-work done by polling the future in each of the given worlds, whatever the polls return: also after it has finished. Specification. -/
def Fut.workAll {α : Type} (ν : W → Int) (F : Fut W α) : F.φ → List W → Int
  | _, [] => 0
  | x, w :: ws =>
    match (F.poll x).run w with
    | .ok (_, x') w' => ν w' - ν w + F.workAll ν x' ws
    | _ => 0

theorem workAll_oneshot_called (ν : W → Int) (S : Service W Req Res Err) (hν : CountsCalls ν S) (ws : List W) :
    (∀ x, (Oneshot S).workAll ν (.called x) ws = 0) ∧ (Oneshot S).workAll ν .done ws = 0 := by
  induction ws with
  | nil => exact ⟨fun _ => rfl, rfl⟩
  | cons w ws ih =>
    refine ⟨fun x => ?_, rfl⟩
    simp only [Fut.workAll, Oneshot, run_bind]
    cases hp : (S.poll x).run w with
    | panic m => rfl
    | spin => rfl
    | ok a w' =>
      have := hν.poll x w _ _ hp
      obtain ⟨p, y⟩ := a
      match p with
      | .pending =>
        show ν w' - ν w + (Oneshot S).workAll ν (.called y) ws = 0
        rw [ih.1 y]; omega
      | .ready (.ok r) =>
        show ν w' - ν w + (Oneshot S).workAll ν .done ws = 0
        rw [ih.2]; omega
      | .ready (.error r) =>
        show ν w' - ν w + (Oneshot S).workAll ν (.called y) ws = 0
        rw [ih.1 y]; omega

/-- **C50 (never twice).** However often a Oneshot is polled, also after it has returned an outcome, it calls its service at most once. -/
theorem C50_never_twice (ν : W → Int) (S : Service W Req Res Err) (hν : CountsCalls ν S) (s : S.σ) (r : Req) (ws : List W) :
    (Oneshot S).workAll ν (.notReady s (some r)) ws = 0 ∨ (Oneshot S).workAll ν (.notReady s (some r)) ws = 1 := by
  induction ws generalizing s with
  | nil => exact .inl rfl
  | cons w ws ih =>
    simp only [Fut.workAll, Oneshot, run_bind]
    cases hp : (S.pollReady s).run w with
    | panic m => exact .inl rfl
    | spin => exact .inl rfl
    | ok a w1 =>
      have h0 := hν.ready s w _ _ hp
      obtain ⟨p, y⟩ := a
      match p with
      | .pending =>
        show ν w1 - ν w + (Oneshot S).workAll ν (.notReady y (some r)) ws = 0 ∨ ν w1 - ν w + (Oneshot S).workAll ν (.notReady y (some r)) ws = 1
        rcases ih y with h | h <;> omega
      | .ready (.error e) =>
        show ν w1 - ν w + (Oneshot S).workAll ν (.notReady y (some r)) ws = 0 ∨ ν w1 - ν w + (Oneshot S).workAll ν (.notReady y (some r)) ws = 1
        rcases ih y with h | h <;> omega
      | .ready (.ok ()) =>
        simp only [run_bind]
        cases hc : (S.call y r).run w1 with
        | panic m => exact .inl rfl
        | spin => exact .inl rfl
        | ok b w2 =>
          have h1 := hν.call y r w1 _ _ hc
          obtain ⟨f, z⟩ := b
          simp only []
          cases hq : (S.poll f).run w2 with
          | panic m => exact .inl rfl
          | spin => exact .inl rfl
          | ok c w3 =>
            have h2 := hν.poll f w2 _ _ hq
            obtain ⟨q, g⟩ := c
            have hw := workAll_oneshot_called ν S hν ws
            right
            match q with
            | .pending =>
              show ν w3 - ν w + (Oneshot S).workAll ν (.called g) ws = 1
              rw [hw.1 g]; omega
            | .ready (.ok r) =>
              show ν w3 - ν w + (Oneshot S).workAll ν .done ws = 1
              rw [hw.2]; omega
            | .ready (.error r) =>
              show ν w3 - ν w + (Oneshot S).workAll ν (.called g) ws = 1
              rw [hw.1 g]; omega

/-! ## Concrete cases -/

namespace Demo50
open Demo52

/-- a service that is ready in worlds ≥ 3 and counts its calls in the world (ν = world) -/
def cnt : Service (Nat × Nat) Nat Nat String where
  σ := Unit
  φ := Nat
  pollReady _ := ⟨fun w => .ok (if w.1 ≥ 3 then .ready (.ok ()) else .pending, ()) w⟩
  call _ r := do Act.modify (fun w => (w.1, w.2 + 1)); pure (2 * r, ())
  poll r := ⟨fun w => .ok (if w.1 ≥ 5 then .ready (.ok r) else .pending, r) w⟩
  clone := id

theorem cnt_counts : CountsCalls (fun w : Nat × Nat => (w.2 : Int)) cnt where
  ready := by intro s w a w' h; injection h with _ h2; subst h2; simp
  call := by intro s r w a w' h; injection h with _ h2; subst h2; simp
  poll := by intro s w a w' h; injection h with _ h2; subst h2; simp

example : (Oneshot cnt).drive (.notReady () (some (4 : Nat))) [(1, 0), (3, 0), (5, 9)] =
    .done (.ok (8 : Nat)) (5, 9) [] := rfl
example : (Oneshot cnt).work (fun w => (w.2 : Int)) (.notReady () (some (4 : Nat))) [(1, 0), (3, 0), (5, 9)] = 1 := rfl

example : (Oneshot cnt).workAll (fun w => (w.2 : Int)) (.notReady () (some (4 : Nat))) [(1, 0), (3, 0), (5, 9), (6, 9), (7, 9)] = 1 := rfl
/-- a service whose readiness fails in world 0 -/
def flaky : Service Nat Nat Nat String where
  σ := Nat
  φ := Nat
  pollReady s := ⟨fun w => .ok (if w = 0 then .ready (.error "no") else .ready (.ok ()), s + 1) w⟩
  call s r := pure (r, s)
  poll r := pure (.ready (.ok r), r)
  clone := id
example : ((ReadyOneshot flaky).poll (some (4 : Nat))).run (0 : Nat) = .ok (.ready (.error "no"), some (5 : Nat)) (0 : Nat) := rfl
example : ((ReadyOneshot flaky).poll (some (5 : Nat))).run (1 : Nat) = .ok (.ready (.ok (6 : Nat)), none) (1 : Nat) := rfl

/-- a predicate that accepts even requests, halved -/
def half (r : Nat) (w : Nat × Nat) : Except String Nat × (Nat × Nat) :=
  (if r % 2 = 0 then .ok (r / 2) else .error "odd", w)
example : ((Filter id half cnt).call () (4 : Nat)).run (9, 0) = .ok (.inr (some (4 : Nat)), ()) (9, 1) := rfl
example : ((Filter id half cnt).call () (5 : Nat)).run (9, 0) = .ok (.inl (some "odd"), ()) (9, 0) := rfl
end Demo50

end Tower
