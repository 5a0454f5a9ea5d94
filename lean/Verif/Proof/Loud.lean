import Verif.Proof.Safety2
import Verif.Spec.WatchSpec

/-! # The background task of `SpawnReady` does not panic -/

set_option linter.unusedSimpArgs false

namespace Tower
open Act
variable {W Req Res Err : Type} {good : Res → Prop}

theorem wp_of_run_eq {α : Type} {x y : Act W α} {w : W} {Q : α → W → Prop} (h : x.run w = y.run w) (hy : wp y Q w) : wp x Q w := by
  unfold wp at hy ⊢
  rw [h]
  exact hy

theorem taskPanics_false {S : Service W Req Res Err} {cfg : Cfg} (I : SafeInv cfg good S) (ws : List W)
    (t : TaskSt S.σ Err) (h : SpawnInv I .idle (.future t)) : taskPanics S ws t = false := by
  induction ws generalizing t with
  | nil => simp [taskPanics]
  | cons w ws ih =>
    match t, h with
    | .running s, h =>
      have hs := I.ready_ok s .idle w h.2 (by simp)
      unfold wp at hs
      unfold taskPanics
      split <;> (rename_i heq; simp only [heq] at hs)
      · exact ih _ ⟨rfl, hs.1⟩
      · rfl
    | .done r, h => rfl
    | .failed, h => rfl
    | .taken, h => rfl

/-- over a service that keeps the contract, passing panics on makes no difference -/
theorem loudPoll_eq {S : Service W Req Res Err} {cfg : Cfg} (I : SafeInv cfg good S) (R : Runtime W)
    (n : Nat) (m : Mode) (x : SpawnState S.σ Err) (hx : SpawnInv I m x) (w : W) :
    (loudPoll R S n x).run w = (spawnPoll R S n x).run w := by
  induction n generalizing x w m with
  | zero => rfl
  | succ n ih =>
    match x, hx with
    | .service (some s), ⟨m', hm', hs, hr⟩ =>
      have h := I.ready_ok s m' w hs hm'
      unfold wp at h
      simp only [loudPoll, spawnPoll, run_bind]
      cases hp : (S.pollReady s).run w with
      | panic msg => simp only
      | spin => simp only
      | ok a w' =>
        obtain ⟨p, s'⟩ := a
        simp only [hp] at h ⊢
        match p, h with
        | .ready r, _ => rfl
        | .pending, h => exact ih .idle (.future (.running s')) ⟨rfl, h.1⟩ w'
    | .service none, hx => exact hx.elim
    | .future t, hx =>
      have hmi : m = .idle := by
        cases t with
        | running s => exact hx.1
        | failed => exact hx
        | taken => exact hx.elim
        | done r => cases r with
          | ok s => exact hx.1
          | error e => exact hx
      subst hmi
      simp only [loudPoll, spawnPoll, run_bind, run_get, taskPanics_false I (R.sched w) t hx, Bool.false_eq_true, if_false]
      have := taskAt_inv I R w t hx
      generalize taskAt R S w t = t' at this ⊢
      match t', this with
      | .running s, _ => rfl
      | .failed, _ => rfl
      | .taken, this => exact this.elim
      | .done (.error e), _ => rfl
      | .done (.ok s), this => exact ih .idle (.service (some s)) ⟨.ready, by simp, this.2, by simp⟩ w

theorem SpawnReadyLoud.safe {c st : Bool} (fuel : Nat) (R : Runtime W) {S : Service W Req Res Err} {s : S.σ}
    (h : SafeG ⟨c, st⟩ good S s) :
    SafeG ⟨false, st⟩ good (SpawnReadyLoud fuel R S) (.service (some s)) := by
  obtain ⟨I, hI⟩ := h.inv
  exact SafeInv.safe (cfg := ⟨false, st⟩) (S := SpawnReadyLoud fuel R S)
    { H := fun x m => SpawnInv I m x
      F := MapF I.F
      ready_ok := by
        intro x m w hx hm
        have h0 := spawnPoll_wp I R fuel m x hx w
        have he := loudPoll_eq I R fuel m x hx w
        refine wp_mono (wp_of_run_eq he h0) ?_
        rintro ⟨p, x'⟩ w' h
        match p, h with
        | .ready (.ok ()), h => exact h
        | .ready (.error e), _ => trivial
        | .pending, h => exact h
      call_ok := by
        intro x r w hx
        match x, hx with
        | .service (some s), ⟨m', hm', hs, hr⟩ =>
          have := hr rfl
          subst this
          simp only [SpawnReadyLoud, SpawnReady, wp_bind]
          refine wp_mono (I.call_ok s r w hs) ?_
          rintro ⟨f, s'⟩ w' h
          exact ⟨⟨f, rfl, h.1⟩, .idle, by simp, h.2, by simp⟩
        | .service none, hx => exact hx.elim
        | .future (.running s), hx => exact absurd hx.1 (by simp)
        | .future (.done (.ok s)), hx => exact absurd hx.1 (by simp)
        | .future (.done (.error s)), hx => cases hx
        | .future .failed, hx => cases hx
        | .future .taken, hx => exact hx.elim
      poll_ok := by
        intro x w hx
        refine mapFut_post hx I.poll_ok ?_
        rintro (e | r) w' h r' hr'
        · cases hr'
        · cases hr'; exact h r rfl
      clone_ok := by intro hc; exact absurd hc (by simp) }
    ⟨.idle, by simp, hI, by simp⟩

end Tower
