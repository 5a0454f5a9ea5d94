import Verif.Props.C01_Contract
import Verif.Spec.Trace

/-! # C44: SpawnReady -/

set_option linter.unusedSimpArgs false

namespace Tower
open Act
variable {W Req Res Err : Type}

/-- **C44 (ready in its hands).** When `poll_ready` returns `Ready(Ok)` the inner service is held by SpawnReady
itself (not by the background task) and the last thing that happened to it is that its own `poll_ready`
returned `Ready(Ok)`, in this very call. -/
theorem C44_ready (R : Runtime W) (S : Service W Req Res Err) (n : Nat) (x x' : SpawnState S.σ Err) (w w' : W)
    (h : ((SpawnReady n R S).pollReady x).run w = .ok (.ready (.ok ()), x') w') :
    ∃ s s' w0, x' = .service (some s') ∧ (S.pollReady s).run w0 = .ok (.ready (.ok ()), s') w' := by
  simp only [SpawnReady] at h
  induction n generalizing x w with
  | zero => simp [spawnPoll] at h
  | succ n ih =>
    match x with
    | .service none => simp [spawnPoll] at h
    | .service (some s) =>
      simp only [spawnPoll, run_bind] at h
      cases hp : (S.pollReady s).run w with
      | panic m => simp [hp] at h
      | spin => simp [hp] at h
      | ok a v =>
        obtain ⟨p, s'⟩ := a
        match p with
        | .pending => simp only [hp] at h; exact ih _ _ h
        | .ready (.ok ()) =>
          simp only [hp, run_pure] at h
          cases h
          exact ⟨s, s', w, rfl, hp⟩
        | .ready (.error e) => simp [hp, mapErr] at h
    | .future t =>
      simp only [spawnPoll, run_bind, run_get] at h
      split at h
      · simp only [run_bind, run_modify, run_pure] at h; cases h
      · simp at h
      · simp at h
      · simp at h
      · exact ih _ _ h

/-- `Polled S e`: some `poll_ready` of the inner service returned the error `e`. -/
def Polled (S : Service W Req Res Err) (e : Err) : Prop :=
  ∃ s s' w w', (S.pollReady s).run w = .ok (.ready (.error e), s') w'

theorem runTask_error (S : Service W Req Res Err) (ws : List W) (t : TaskSt S.σ Err) (e : Err)
    (ht : t = .done (.error e) → Polled S e) (h : runTask S ws t = .done (.error e)) : Polled S e := by
  induction ws generalizing t with
  | nil => exact ht (by simpa [runTask] using h)
  | cons w ws ih =>
    match t with
    | .done r => exact ht (by simpa [runTask] using h)
    | .failed => simp [runTask] at h
    | .taken => simp [runTask] at h
    | .running s =>
      unfold runTask at h
      split at h
      · cases h
      · cases h
      · exact ih _ (by simp) h
      · cases h
      · rename_i e' s' w' heq
        cases h
        exact ⟨_, _, _, _, heq⟩

/-- All histories of a SpawnReady handle. -/
inductive SpawnHist (n : Nat) (R : Runtime W) (S : Service W Req Res Err) : SpawnState S.σ Err → Prop
  | new (s : S.σ) : SpawnHist n R S (.service (some s))
  | ready {x x' p w w'} : SpawnHist n R S x →
      ((SpawnReady n R S).pollReady x).run w = .ok (p, x') w' → SpawnHist n R S x'
  | call {x x' r f w w'} : SpawnHist n R S x →
      ((SpawnReady n R S).call x r).run w = .ok (f, x') w' → SpawnHist n R S x'

theorem spawnPoll_error (R : Runtime W) (S : Service W Req Res Err) (n : Nat) (x x' : SpawnState S.σ Err)
    (w w' : W) (p : Poll (Except (SpawnErr Err) Unit))
    (hx : ∀ e, x = .future (.done (.error e)) → Polled S e)
    (h : (spawnPoll R S n x).run w = .ok (p, x') w') :
    (∀ e, x' = .future (.done (.error e)) → Polled S e) ∧
    (∀ e, p = .ready (.error (.inner e)) → Polled S e) := by
  induction n generalizing x w with
  | zero => simp [spawnPoll] at h
  | succ n ih =>
    match x with
    | .service none => simp [spawnPoll] at h
    | .service (some s) =>
      simp only [spawnPoll, run_bind] at h
      cases hp : (S.pollReady s).run w with
      | panic m => simp [hp] at h
      | spin => simp [hp] at h
      | ok a v =>
        obtain ⟨q, s'⟩ := a
        match q with
        | .pending => simp only [hp] at h; exact ih _ _ (by simp) h
        | .ready (.ok ()) =>
          simp only [hp, run_pure] at h
          cases h
          exact ⟨by simp, by simp [mapErr]⟩
        | .ready (.error e) =>
          simp only [hp, run_pure] at h
          cases h
          exact ⟨by simp, by simp only [mapErr]; rintro e' he; cases he; exact ⟨_, _, _, _, hp⟩⟩
    | .future t =>
      simp only [spawnPoll, run_bind, run_get] at h
      have key : ∀ e, taskAt R S w t = .done (.error e) → Polled S e := fun e he =>
        runTask_error S (R.sched w) t e (fun ht => hx e (by rw [ht])) (by
          unfold taskAt at he
          split at he
          · split at he <;> cases he
          · exact he)
      split at h
      · cases h; exact ⟨by simp, by simp⟩
      · cases h; exact ⟨by simp, by simp⟩
      · cases h
      · rename_i e heq
        cases h
        exact ⟨by simp, fun e' he => by cases he; exact key _ heq⟩
      · exact ih _ _ (by simp) h

/-- **C44 (errors).** In every history, an (inner) error that `poll_ready` reports is one that the inner
service's `poll_ready` returned, locally or in the background task. -/
theorem C44_error (n : Nat) (R : Runtime W) (S : Service W Req Res Err) (x x' : SpawnState S.σ Err)
    (hx : SpawnHist n R S x) (w w' : W) (e : Err)
    (h : ((SpawnReady n R S).pollReady x).run w = .ok (.ready (.error (.inner e)), x') w') : Polled S e := by
  have inv : ∀ y, SpawnHist n R S y → ∀ e, y = .future (.done (.error e)) → Polled S e := by
    intro y hy
    induction hy with
    | new s => simp
    | ready _ h ih => exact (spawnPoll_error R S n _ _ _ _ _ ih h).1
    | @call y y' r f w w' _ h ih =>
      intro e he
      match y with
      | .service (some s) =>
        simp only [SpawnReady, run_bind] at h
        cases hc : (S.call s r).run w with
        | panic m => simp [hc] at h
        | spin => simp [hc] at h
        | ok a v =>
          simp only [hc, run_pure] at h
          cases h; simp at he
      | .service none => simp [SpawnReady] at h
      | .future t => simp [SpawnReady] at h
  exact (spawnPoll_error R S n _ _ _ _ _ (inv x hx) h).2 e rfl

/-- **C44 (transparent calls).** After `Ready(Ok)`, a call is exactly the inner call, and the response future yields what the inner one yields, in the same polls (errors converted). -/
theorem C44_call (n : Nat) (R : Runtime W) (S : Service W Req Res Err) (s : S.σ) (r : Req) (w : W) :
    ((SpawnReady n R S).call (.service (some s)) r).run w =
      ((S.call s r).run w).void (fun x => (some x.1, .service (some x.2))) ∧
    ∀ x ws, (SpawnReady n R S).futOf.drive (some x) ws = (S.futOf.drive x ws).map (mapErr .inner) := by
  refine ⟨?_, fun x ws => ?_⟩
  · simp only [SpawnReady, run_bind]
    cases (S.call s r).run w <;> rfl
  induction ws generalizing x with
  | nil => rfl
  | cons w ws ih =>
    simp only [Fut.drive, SpawnReady, Service.futOf, mapFut, run_bind]
    cases (S.poll x).run w with
    | panic m => rfl
    | spin => rfl
    | ok a w' =>
      obtain ⟨p, y⟩ := a
      match p with
      | .pending => exact ih y
      | .ready (.ok r) => rfl
      | .ready (.error r) => rfl

theorem runTask_drive (S : Service W Req Res Err) : ∀ (ws : List W) (s : S.σ), match S.readyFut.drive s ws with
    | .done (.ok s') _ _ => runTask S ws (.running s) = .done (.ok s')
    | .done (.error e) _ _ => runTask S ws (.running s) = .done (.error e)
    | .panic => runTask S ws (.running s) = .failed
    | .pending => ∃ s', runTask S ws (.running s) = .running s'
    | .spin => True := by
  intro ws
  induction ws with
  | nil => intro s; exact ⟨s, rfl⟩
  | cons w ws ih =>
    intro s
    cases h : (S.pollReady s).run w with
    | panic m => simp [Fut.drive, Service.readyFut, run_bind, h, runTask]
    | spin => simp [Fut.drive, Service.readyFut, run_bind, h]
    | ok x w' =>
      obtain ⟨p, s'⟩ := x
      match p, h with
      | .pending, h => simpa [Fut.drive, Service.readyFut, run_bind, h, runTask] using ih s'
      | .ready (.ok ()), h => simp [Fut.drive, Service.readyFut, run_bind, h, runTask]
      | .ready (.error e), h => simp [Fut.drive, Service.readyFut, run_bind, h, runTask]

/-- **C44 (background progress).** While the service is in the task, `poll_ready` shows what the task, polled by the runtime in any worlds without the caller, has come to: if it made the service ready, the
service comes back and is polled in the caller's hands; if it failed, that error is reported; if the inner `poll_ready` panicked, or the runtime cancelled the task before it was done, the failure of the task is;
otherwise `poll_ready` is pending, and the waker is registered. -/
theorem C44_background (n : Nat) (R : Runtime W) (S : Service W Req Res Err) (s : S.σ) (w : W) :
    let out := ((SpawnReady (n + 2) R S).pollReady (.future (.running s))).run w
    (∀ s' v rest, S.readyFut.drive s (R.sched w) = .done (.ok s') v rest →
      (∀ r s'' w', (S.pollReady s').run w = .ok (.ready r, s'') w' → out = .ok (.ready (mapErr .inner r), .service (some s'')) w')) ∧
    (∀ e v rest, S.readyFut.drive s (R.sched w) = .done (.error e) v rest → ∃ x, out = .ok (.ready (.error (.inner e)), x) w) ∧
    (S.readyFut.drive s (R.sched w) = .panic → ∃ x, out = .ok (.ready (.error .join), x) w) ∧
    (S.readyFut.drive s (R.sched w) = .pending →
      (R.killed w = true → ∃ x, out = .ok (.ready (.error .join), x) w) ∧ (R.killed w = false → ∃ s', out = .ok (.pending, .future (.running s')) (R.arm w))) := by
  have h := runTask_drive S (R.sched w) s
  refine ⟨fun s' v rest hd r s'' w' hp => ?_, fun e v rest hd => ?_, fun hd => ?_, fun hd => ?_⟩
  · rw [hd] at h
    simp only at h
    simp [SpawnReady, spawnPoll, taskAt, run_bind, h, hp]
  · rw [hd] at h
    simp only at h
    simp [SpawnReady, spawnPoll, taskAt, run_bind, h]
  · rw [hd] at h
    simp only at h
    simp [SpawnReady, spawnPoll, taskAt, run_bind, h]
  · rw [hd] at h
    obtain ⟨s', h⟩ := h
    refine ⟨fun hk => ?_, fun hk => ⟨s', ?_⟩⟩
    · simp [SpawnReady, spawnPoll, taskAt, run_bind, h, hk]
    · simp only [SpawnReady, spawnPoll, taskAt, run_bind, run_get, hk, h, run_modify, run_pure, Bool.false_eq_true, if_false]

/-- **C44 (a failure is final).** If a `poll_ready` that found the service in the background task, or moved it there, returns an error, the service is lost: from then on every `poll_ready` and every `call` panics. -/
theorem C44_failure_final (n : Nat) (R : Runtime W) (S : Service W Req Res Err) (x x' : SpawnState S.σ Err) (w w' : W) (e : SpawnErr Err)
    (h : ((SpawnReady n R S).pollReady x).run w = .ok (.ready (.error e), x') w') :
    (∃ s s' w0 e', x' = .service (some s') ∧ e = .inner e' ∧ (S.pollReady s).run w0 = .ok (.ready (.error e'), s') w') ∨
    (∀ k v, (∃ m, ((SpawnReady (k + 1) R S).pollReady x').run v = .panic m) ∧ ∀ r, ∃ m, ((SpawnReady k R S).call x' r).run v = .panic m) := by
  simp only [SpawnReady] at h
  induction n generalizing x w with
  | zero => simp [spawnPoll] at h
  | succ n ih =>
    have fin : ∀ k v, (∃ m, ((SpawnReady (k + 1) R S).pollReady (.future .taken)).run v = .panic m) ∧ ∀ r, ∃ m, ((SpawnReady k R S).call (.future .taken) r).run v = .panic m := by
      intro k v
      refine ⟨⟨"JoinHandle polled after completion", ?_⟩, fun r => ⟨_, rfl⟩⟩
      have : runTask S (R.sched v) .taken = .taken := by cases R.sched v <;> rfl
      simp [SpawnReady, spawnPoll, taskAt, this, run_bind]
    match x with
    | .service none => simp [spawnPoll] at h
    | .service (some s) =>
      simp only [spawnPoll, run_bind] at h
      cases hp : (S.pollReady s).run w with
      | panic m => simp [hp] at h
      | spin => simp [hp] at h
      | ok a v =>
        obtain ⟨p, s'⟩ := a
        match p with
        | .pending => simp only [hp] at h; exact ih _ _ h
        | .ready (.ok ()) => simp [hp, mapErr] at h
        | .ready (.error e) =>
          simp only [hp, run_pure] at h
          cases h
          exact .inl ⟨s, s', w, e, rfl, rfl, hp⟩
    | .future t =>
      simp only [spawnPoll, run_bind, run_get] at h
      split at h
      · simp only [run_bind, run_modify, run_pure] at h; cases h
      · cases h; exact .inr fin
      · simp at h
      · cases h; exact .inr fin
      · exact ih _ _ h

namespace Demo44
open Demo
/-- echo is pending in world 0 and then moves into the task -/
example : SpawnHist 3 { sched := fun _ => [], killed := fun _ => false } echo (.future (.running ())) :=
  .ready (w := 0) (w' := 0) (p := .pending) (.new ()) rfl
/-- the task saw world 1: the service comes back ready -/
example : ((SpawnReady 3 { sched := fun _ => [1], killed := fun _ => false } echo).pollReady (.future (.running ()))).run 2 =
    .ok (.ready (.ok ()), .service (some ())) 2 := rfl
/-- the runtime cancelled the task: the failure is reported, and after that `poll_ready` panics -/
example : (∀ k v, (∃ m, ((SpawnReady (k + 1) { sched := fun _ => [], killed := fun _ => true } echo).pollReady (.future .taken)).run v = .panic m) ∧
    ∀ r, ∃ m, ((SpawnReady k { sched := fun _ => [], killed := fun _ => true } echo).call (.future .taken) r).run v = .panic m) :=
  (C44_failure_final 3 { sched := fun _ => [], killed := fun _ => true } echo (.future (.running ())) (.future .taken) 0 0 .join rfl).resolve_left (by rintro ⟨_, _, _, _, h, _⟩; cases h)
end Demo44

end Tower
