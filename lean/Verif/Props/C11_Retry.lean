import Verif.Model.Middleware
import Verif.Spec.Trace

/-! # C11, C12: Retry -/

set_option linter.unusedSimpArgs false

namespace Tower
open Act
variable {W Req Res Err : Type}

/-! ## Specification -/

/-- The policy's future. -/
def RetryPolicy.waitFut (P : RetryPolicy W Req Res Err) : Fut W Unit := ⟨P.ρ, fun r => Act.lift (P.wait r)⟩

/-- What a retried request may do, in terms of futures driven on a schedule (`ws`: the worlds of the polls
still to come, the first one being the current poll). `RetryRun P S x ws k res w rest`: from state `x`, the
request completes with `res`, in world `w` with schedule `rest` left, after `k` further attempts. -/
inductive RetryRun (P : RetryPolicy W Req Res Err) (S : Service W Req Res Err) :
    RetryFut Req P.π S.σ S.φ P.ρ → List W → Nat → Except Err Res → W → List W → Prop
  /-- the request could not be cloned: the attempt's result is final, the policy is not asked -/
  | final_uncloned {rt f ws res w rest} : S.futOf.drive f ws = .done res w rest →
      RetryRun P S ⟨none, rt, .called f⟩ ws 0 res w rest
  /-- the policy declines to retry: the attempt's result (as the policy left it) is final -/
  | final_declined {req π s f ws res w rest π' req' res' w'} : S.futOf.drive f ws = .done res w rest →
      P.retry π req res w = ((none, π', req', res'), w') →
      RetryRun P S ⟨some req, ⟨π, s⟩, .called f⟩ ws 0 res' w' rest
  /-- the policy approves: its future is waited for -/
  | approved {req π s f ws res w1 rest1 ρ π' req' res' w2 k out w rest} :
      S.futOf.drive f ws = .done res w1 rest1 →
      P.retry π req res w1 = ((some ρ, π', req', res'), w2) →
      RetryRun P S ⟨some req', ⟨π', s⟩, .waiting ρ⟩ (w2 :: rest1) k out w rest →
      RetryRun P S ⟨some req, ⟨π, s⟩, .called f⟩ ws k out w rest
  | waited {req rt ρ ws w1 rest1 k out w rest} : P.waitFut.drive ρ ws = .done () w1 rest1 →
      RetryRun P S ⟨req, rt, .retrying⟩ (w1 :: rest1) k out w rest →
      RetryRun P S ⟨req, rt, .waiting ρ⟩ ws k out w rest
  /-- waiting for readiness fails: that error is final, there is no attempt -/
  | not_ready {req π s ws e w rest} : S.readyFut.drive s ws = .done (.error e) w rest →
      RetryRun P S ⟨req, ⟨π, s⟩, .retrying⟩ ws 0 (.error e) w rest
  /-- the service became ready: exactly one call, with the saved request, on that ready instance -/
  | attempt {req π s ws s' w1 rest1 o π' w2 f s'' w3 k out w rest} :
      S.readyFut.drive s ws = .done (.ok s') w1 rest1 →
      P.cloneRequest π req w1 = ((o, π'), w2) →
      (S.call s' req).run w2 = .ok (f, s'') w3 →
      RetryRun P S ⟨o, ⟨π', s''⟩, .called f⟩ (w3 :: rest1) k out w rest →
      RetryRun P S ⟨some req, ⟨π, s⟩, .retrying⟩ ws (k + 1) out w rest

/-! ## Proofs -/

section
variable {P : RetryPolicy W Req Res Err} {S : Service W Req Res Err}

/-- one pending step of the sub-future in front -/
theorem RetryRun.step_called {req rt f f' w w' ws k out v rest}
    (hp : (S.poll f).run w = .ok (.pending, f') w')
    (h : RetryRun P S ⟨req, rt, .called f'⟩ ws k out v rest) :
    RetryRun P S ⟨req, rt, .called f⟩ (w :: ws) k out v rest := by
  have e : S.futOf.drive f (w :: ws) = S.futOf.drive f' ws := by simp [Fut.drive, Service.futOf, hp]
  cases h with
  | final_uncloned h => exact .final_uncloned (e.trans h)
  | final_declined h h2 => exact .final_declined (e.trans h) h2
  | approved h h2 h3 => exact .approved (e.trans h) h2 h3

theorem RetryRun.step_waiting {req rt r r' w w' ws k out v rest}
    (hp : P.wait r w = ((.pending, r'), w'))
    (h : RetryRun P S ⟨req, rt, .waiting r'⟩ ws k out v rest) :
    RetryRun P S ⟨req, rt, .waiting r⟩ (w :: ws) k out v rest := by
  have e : P.waitFut.drive r (w :: ws) = P.waitFut.drive r' ws := by
    simp [Fut.drive, RetryPolicy.waitFut, hp]
  cases h with
  | waited h h2 => exact .waited (e.trans h) h2

theorem RetryRun.step_retrying {req π s s' w w' ws k out v rest}
    (hp : (S.pollReady s).run w = .ok (.pending, s') w')
    (h : RetryRun P S ⟨req, ⟨π, s'⟩, .retrying⟩ ws k out v rest) :
    RetryRun P S ⟨req, ⟨π, s⟩, .retrying⟩ (w :: ws) k out v rest := by
  have e : S.readyFut.drive s (w :: ws) = S.readyFut.drive s' ws := by
    simp [Fut.drive, Service.readyFut, run_bind, hp]
  cases h with
  | not_ready h => exact .not_ready (e.trans h)
  | attempt h h2 h3 h4 => exact .attempt (e.trans h) h2 h3 h4

/-- One poll of the Retry future. -/
theorem retryPoll_run (n : Nat) (x x' : RetryFut Req P.π S.σ S.φ P.ρ) (w w' : W) (p : Poll (Except Err Res))
    (ws : List W)
    (h : (retryPoll P S n x).run w = .ok (p, x') w') :
    (∀ res, p = .ready res → ∃ k, RetryRun P S x (w :: ws) k res w' ws) ∧
    (p = .pending → ∀ k out v rest, RetryRun P S x' ws k out v rest →
      ∃ k, RetryRun P S x (w :: ws) k out v rest) := by
  induction n generalizing x w with
  | zero => simp [retryPoll] at h
  | succ n ih =>
    obtain ⟨request, ⟨π, s⟩, st⟩ := x
    cases st with
    | called f =>
      simp only [retryPoll, retryStep, run_bind] at h
      cases hp : (S.poll f).run w with
      | panic m => simp [hp] at h
      | spin => simp [hp] at h
      | ok a w1 =>
        obtain ⟨q, f'⟩ := a
        cases q with
        | pending =>
          simp only [hp, run_pure] at h
          cases h
          exact ⟨by simp, fun _ k out v rest hr => ⟨k, hr.step_called hp⟩⟩
        | ready result =>
          have hd : S.futOf.drive f (w :: ws) = .done result w1 ws := by
            simp [Fut.drive, Service.futOf, hp]
          cases request with
          | none =>
            simp only [hp, run_pure] at h
            cases h
            refine ⟨fun res hres => ?_, by simp⟩
            cases hres
            exact ⟨0, .final_uncloned hd⟩
          | some req =>
            simp only [hp, run_bind, run_lift] at h
            rcases hret : P.retry π req result w1 with ⟨⟨o, π', req', result'⟩, w2⟩
            simp only [hret] at h
            cases o with
            | none =>
              simp only [run_pure] at h
              cases h
              refine ⟨fun res hres => ?_, by simp⟩
              cases hres
              exact ⟨0, .final_declined hd hret⟩
            | some ρ =>
              simp only [run_pure] at h
              have := ih _ _ h
              refine ⟨fun res hres => ?_, fun hpend k out v rest hr => ?_⟩
              · obtain ⟨k, hk⟩ := this.1 res hres
                exact ⟨k, .approved hd hret hk⟩
              · obtain ⟨k, hk⟩ := this.2 hpend k out v rest hr
                exact ⟨k, .approved hd hret hk⟩
    | waiting r =>
      simp only [retryPoll, retryStep, run_bind, run_lift] at h
      rcases hw : P.wait r w with ⟨⟨q, r'⟩, w1⟩
      simp only [hw] at h
      cases q with
      | pending =>
        simp only [run_pure] at h
        cases h
        exact ⟨by simp, fun _ k out v rest hr => ⟨k, hr.step_waiting hw⟩⟩
      | ready u =>
        simp only [run_pure] at h
        have hd : P.waitFut.drive r (w :: ws) = .done () w1 ws := by
          simp [Fut.drive, RetryPolicy.waitFut, hw]
        have := ih _ _ h
        refine ⟨fun res hres => ?_, fun hpend k out v rest hr => ?_⟩
        · obtain ⟨k, hk⟩ := this.1 res hres
          exact ⟨k, .waited hd hk⟩
        · obtain ⟨k, hk⟩ := this.2 hpend k out v rest hr
          exact ⟨k, .waited hd hk⟩
    | retrying =>
      simp only [retryPoll, retryStep, run_bind] at h
      cases hp : (S.pollReady s).run w with
      | panic m => simp [hp] at h
      | spin => simp [hp] at h
      | ok a w1 =>
        obtain ⟨q, s'⟩ := a
        match q with
        | .pending =>
          simp only [hp, run_pure] at h
          cases h
          exact ⟨by simp, fun _ k out v rest hr => ⟨k, hr.step_retrying hp⟩⟩
        | .ready (.error e) =>
          simp only [hp, run_pure] at h
          cases h
          refine ⟨fun res hres => ?_, by simp⟩
          cases hres
          exact ⟨0, .not_ready (by simp [Fut.drive, Service.readyFut, run_bind, hp])⟩
        | .ready (.ok ()) =>
          have hd : S.readyFut.drive s (w :: ws) = .done (.ok s') w1 ws := by
            simp [Fut.drive, Service.readyFut, run_bind, hp]
          cases request with
          | none => simp [hp] at h
          | some req =>
            simp only [hp, run_bind, run_lift] at h
            rcases hcl : P.cloneRequest π req w1 with ⟨⟨o, π'⟩, w2⟩
            simp only [hcl] at h
            cases hc : (S.call s' req).run w2 with
            | panic m => simp [hc] at h
            | spin => simp [hc] at h
            | ok b w3 =>
              obtain ⟨f, s''⟩ := b
              simp only [hc, run_pure] at h
              have := ih _ _ h
              refine ⟨fun res hres => ?_, fun hpend k out v rest hr => ?_⟩
              · obtain ⟨k, hk⟩ := this.1 res hres
                exact ⟨k + 1, .attempt hd hcl hc hk⟩
              · obtain ⟨k, hk⟩ := this.2 hpend k out v rest hr
                exact ⟨k + 1, .attempt hd hcl hc hk⟩

/-- **C11, C12 (soundness).** Whatever completes, completes by a run of the specification. -/
theorem C11_run (fuel : Nat) (x : RetryFut Req P.π S.σ S.φ P.ρ) (ws : List W) (res : Except Err Res) (w : W)
    (rest : List W) (h : (Retry fuel P S).futOf.drive x ws = .done res w rest) :
    ∃ k, RetryRun P S x ws k res w rest := by
  induction ws generalizing x with
  | nil => simp [Fut.drive] at h
  | cons v ws ih =>
    simp only [Fut.drive, Service.futOf, Retry] at h
    cases hp : (retryPoll P S fuel x).run v with
    | panic m => simp [hp] at h
    | spin => simp [hp] at h
    | ok a w1 =>
      obtain ⟨q, x'⟩ := a
      cases q with
      | pending =>
        simp only [hp] at h
        obtain ⟨k, hk⟩ := ih x' h
        exact (retryPoll_run fuel x x' v w1 _ ws hp).2 rfl _ _ _ _ hk
      | ready r =>
        simp only [hp] at h
        cases h
        exact (retryPoll_run fuel x x' v _ _ _ hp).1 _ rfl

/-! ### More fuel changes nothing, and enough fuel suffices -/

theorem retryPoll_mono (n : Nat) (x : RetryFut Req P.π S.σ S.φ P.ρ) (w : W)
    (h : (retryPoll P S n x).run w ≠ .spin) : (retryPoll P S (n + 1) x).run w = (retryPoll P S n x).run w := by
  induction n generalizing x w with
  | zero => simp [retryPoll] at h
  | succ n ih =>
    rw [retryPoll, run_bind]
    conv => rhs; rw [retryPoll, run_bind]
    rw [retryPoll, run_bind] at h
    cases hs : (retryStep P S x).run w with
    | panic m => rfl
    | spin => rfl
    | ok a w' =>
      cases a with
      | inl out => rfl
      | inr x' =>
        simp only [hs] at h ⊢
        exact ih x' w' h

theorem retryDrive_mono (n : Nat) (x : RetryFut Req P.π S.σ S.φ P.ρ) (ws : List W) (res : Except Err Res) (w : W)
    (rest : List W) (h : (Retry n P S).futOf.drive x ws = .done res w rest) :
    (Retry (n + 1) P S).futOf.drive x ws = .done res w rest := by
  induction ws generalizing x with
  | nil => exact h
  | cons v ws ih =>
    have hm := retryPoll_mono (P := P) (S := S) n x v
    simp only [Fut.drive, Service.futOf, Retry] at h ih ⊢
    cases hp : (retryPoll P S n x).run v with
    | panic m => simp [hp] at h
    | spin => simp [hp] at h
    | ok a w' =>
      rw [hm (by simp [hp]), hp]
      obtain ⟨q, x'⟩ := a
      simp only [hp] at h
      cases q with
      | pending => exact ih x' h
      | ready r => exact h

theorem retryDrive_le {n m : Nat} (hnm : n ≤ m) {x : RetryFut Req P.π S.σ S.φ P.ρ} {ws : List W}
    {res : Except Err Res} {w : W} {rest : List W} (h : (Retry n P S).futOf.drive x ws = .done res w rest) :
    (Retry m P S).futOf.drive x ws = .done res w rest := by
  induction hnm with
  | refl => exact h
  | step _ ih => exact retryDrive_mono _ _ _ _ _ _ ih

/-- Continue in the same poll: if one loop iteration at `w` leads to `x'` in `w'`, then the drive from `x'`
starting in `w'` is the drive from `x` starting in `w`. -/
theorem retryDrive_iter {n : Nat} {x x' : RetryFut Req P.π S.σ S.φ P.ρ} {w w' : W} {ws : List W}
    {res : Except Err Res} {v : W} {rest : List W}
    (hs : (retryStep P S x).run w = .ok (.inr x') w')
    (h : (Retry n P S).futOf.drive x' (w' :: ws) = .done res v rest) :
    (Retry (n + 1) P S).futOf.drive x (w :: ws) = .done res v rest := by
  have h1 := retryDrive_mono _ _ _ _ _ _ h
  simp only [Fut.drive, Service.futOf, Retry] at h h1 ⊢
  rw [retryPoll, run_bind, hs]
  simp only
  cases hp : (retryPoll P S n x').run w' with
  | panic m => simp [hp] at h
  | spin => simp [hp] at h
  | ok a w2 =>
    rw [retryPoll_mono n x' w' (by simp [hp]), hp] at h1
    exact h1

theorem retryDrive_pend {n : Nat} {x x' : RetryFut Req P.π S.σ S.φ P.ρ} {w w' : W} {ws : List W}
    {res : Except Err Res} {v : W} {rest : List W}
    (hs : (retryStep P S x).run w = .ok (.inl (.pending, x')) w')
    (h : (Retry (n + 1) P S).futOf.drive x' ws = .done res v rest) :
    (Retry (n + 1) P S).futOf.drive x (w :: ws) = .done res v rest := by
  simp only [Fut.drive, Service.futOf, Retry] at h ⊢
  rw [retryPoll, run_bind, hs]
  exact h

theorem retryDrive_done {n : Nat} {x x' : RetryFut Req P.π S.σ S.φ P.ρ} {w w' : W} {ws : List W}
    {res : Except Err Res} 
    (hs : (retryStep P S x).run w = .ok (.inl (.ready res, x')) w') :
    (Retry (n + 1) P S).futOf.drive x (w :: ws) = .done res w' ws := by
  simp only [Fut.drive, Service.futOf, Retry]
  rw [retryPoll, run_bind, hs]
  rfl

/-- wait for the response of an attempt, then go on with `K` -/
theorem retryDrive_called {n : Nat} {req : Option Req} {rt : RetryState P.π S.σ} {f : S.φ} {ws : List W}
    {r : Except Err Res} {w1 : W} {rest1 : List W} (hd : S.futOf.drive f ws = .done r w1 rest1)
    {res : Except Err Res} {v : W} {rest : List W}
    (K : ∀ f f' w, (S.poll f).run w = .ok (.ready r, f') w1 →
      (Retry (n + 1) P S).futOf.drive ⟨req, rt, .called f⟩ (w :: rest1) = .done res v rest) :
    (Retry (n + 1) P S).futOf.drive ⟨req, rt, .called f⟩ ws = .done res v rest := by
  induction ws generalizing f with
  | nil => simp [Fut.drive] at hd
  | cons w ws ih =>
    simp only [Fut.drive, Service.futOf] at hd
    cases hp : (S.poll f).run w with
    | panic m => simp [hp] at hd
    | spin => simp [hp] at hd
    | ok a w' =>
      obtain ⟨q, f'⟩ := a
      cases q with
      | pending =>
        simp only [hp] at hd
        exact retryDrive_pend (x' := ⟨req, rt, .called f'⟩) (w' := w') (by simp [retryStep, run_bind, hp]) (ih hd)
      | ready r' =>
        simp only [hp] at hd
        cases hd
        exact K _ _ _ hp

theorem retryDrive_waiting {n : Nat} {req : Option Req} {rt : RetryState P.π S.σ} {f : P.ρ} {ws : List W}
    {w1 : W} {rest1 : List W} (hd : P.waitFut.drive f ws = .done () w1 rest1)
    {res : Except Err Res} {v : W} {rest : List W}
    (K : (Retry n P S).futOf.drive ⟨req, rt, .retrying⟩ (w1 :: rest1) = .done res v rest) :
    (Retry (n + 1) P S).futOf.drive ⟨req, rt, .waiting f⟩ ws = .done res v rest := by
  induction ws generalizing f with
  | nil => simp [Fut.drive] at hd
  | cons w ws ih =>
    simp only [Fut.drive, RetryPolicy.waitFut, run_lift] at hd
    rcases hp : P.wait f w with ⟨⟨q, f'⟩, w'⟩
    simp only [hp] at hd
    cases q with
    | pending =>
      exact retryDrive_pend (x' := ⟨req, rt, .waiting f'⟩) (w' := w') (by simp [retryStep, run_bind, hp]) (ih hd)
    | ready r' =>
      cases hd
      exact retryDrive_iter (x' := ⟨req, rt, .retrying⟩) (w' := w1) (by simp [retryStep, run_bind, hp]) K

theorem retryDrive_retrying {n : Nat} {req : Option Req} {π : P.π} {s : S.σ} {ws : List W}
    {r : Except Err S.σ} {w1 : W} {rest1 : List W} (hd : S.readyFut.drive s ws = .done r w1 rest1)
    {res : Except Err Res} {v : W} {rest : List W}
    (Ke : ∀ s e s' w, r = .error e → (S.pollReady s).run w = .ok (.ready (.error e), s') w1 →
      (Retry (n + 1) P S).futOf.drive ⟨req, ⟨π, s⟩, .retrying⟩ (w :: rest1) = .done res v rest)
    (K : ∀ s s' w, r = .ok s' → (S.pollReady s).run w = .ok (.ready (.ok ()), s') w1 →
      (Retry (n + 1) P S).futOf.drive ⟨req, ⟨π, s⟩, .retrying⟩ (w :: rest1) = .done res v rest) :
    (Retry (n + 1) P S).futOf.drive ⟨req, ⟨π, s⟩, .retrying⟩ ws = .done res v rest := by
  induction ws generalizing s with
  | nil => simp [Fut.drive] at hd
  | cons w ws ih =>
    simp only [Fut.drive, Service.readyFut, run_bind] at hd
    cases hp : (S.pollReady s).run w with
    | panic m => simp [hp] at hd
    | spin => simp [hp] at hd
    | ok a w' =>
      obtain ⟨q, s'⟩ := a
      match q with
      | .pending =>
        simp only [hp, run_pure] at hd
        exact retryDrive_pend (x' := ⟨req, ⟨π, s'⟩, .retrying⟩) (w' := w') (by simp [retryStep, run_bind, hp]) (ih hd)
      | .ready (.error e) =>
        simp only [hp, run_pure] at hd
        cases hd
        exact Ke _ _ _ _ rfl hp
      | .ready (.ok ()) =>
        simp only [hp, run_pure] at hd
        cases hd
        exact K _ _ _ rfl hp

/-- **C11, C12 (completeness).** Every run of the specification is what the code does (given enough fuel for
the loop that the model bounds). Together with `C11_run` the specification is exact. -/
theorem C11_run_complete {x : RetryFut Req P.π S.σ S.φ P.ρ} {ws : List W} {k : Nat} {res : Except Err Res}
    {w : W} {rest : List W} (h : RetryRun P S x ws k res w rest) :
    ∃ N, ∀ fuel ≥ N, (Retry fuel P S).futOf.drive x ws = .done res w rest := by
  suffices ∃ N, (Retry N P S).futOf.drive x ws = .done res w rest by
    obtain ⟨N, hN⟩ := this
    exact ⟨N, fun fuel hf => retryDrive_le hf hN⟩
  induction h with
  | final_uncloned hd =>
    refine ⟨1, retryDrive_called hd fun f f' w hp => ?_⟩
    exact retryDrive_done (by simp only [retryStep, run_bind, run_lift, hp, run_pure]; rfl)
  | final_declined hd hr =>
    refine ⟨1, retryDrive_called hd fun f f' w hp => ?_⟩
    exact retryDrive_done (by simp only [retryStep, run_bind, run_lift, hp, hr, run_pure]; rfl)
  | approved hd hr _ ih =>
    obtain ⟨N, hN⟩ := ih
    refine ⟨N + 1, retryDrive_called hd fun f f' w hp => ?_⟩
    exact retryDrive_iter (by simp only [retryStep, run_bind, run_lift, hp, hr, run_pure]) hN
  | waited hd _ ih =>
    obtain ⟨N, hN⟩ := ih
    exact ⟨N + 1, retryDrive_waiting hd hN⟩
  | not_ready hd =>
    refine ⟨1, retryDrive_retrying hd (fun s e s' w he hp => ?_) (fun s s' w he _ => by cases he)⟩
    cases he
    exact retryDrive_done (by simp only [retryStep, run_bind, run_lift, hp, run_pure]; rfl)
  | attempt hd hcl hc _ ih =>
    obtain ⟨N, hN⟩ := ih
    refine ⟨N + 1, retryDrive_retrying hd (fun s e s' w he _ => by cases he) (fun s s' w he hp => ?_)⟩
    cases he
    exact retryDrive_iter (by simp only [retryStep, run_bind, run_lift, hp, hcl, hc, run_pure]) hN

/-! ## Corollaries in the words of the properties -/

/-- **C12 (uncloneable requests are never retried).** If the request could not be cloned, the outcome is that
of the first and only attempt, on every schedule. -/
theorem C12_uncloned (fuel : Nat) (rt : RetryState P.π S.σ) (f : S.φ) (ws : List W) (res : Except Err Res) (w : W)
    (rest : List W) (h : (Retry fuel P S).futOf.drive ⟨none, rt, .called f⟩ ws = .done res w rest) :
    S.futOf.drive f ws = .done res w rest := by
  obtain ⟨k, hk⟩ := C11_run fuel _ ws res w rest h
  cases hk with
  | final_uncloned h => exact h

/-- **C12 (a retry waits for readiness).** From the moment a retry is due: the request completes either with
the error of the inner `poll_ready`, or after the inner service became ready, was called once with the saved
request, and that attempt (and what follows) completed. -/
theorem C12_readiness (fuel : Nat) (req : Req) (π : P.π) (s : S.σ) (ws : List W) (res : Except Err Res)
    (w : W) (rest : List W)
    (h : (Retry fuel P S).futOf.drive ⟨some req, ⟨π, s⟩, .retrying⟩ ws = .done res w rest) :
    (∃ e, res = .error e ∧ S.readyFut.drive s ws = .done (.error e) w rest) ∨
    (∃ s' w1 rest1 w2 f s'' w3 x, S.readyFut.drive s ws = .done (.ok s') w1 rest1 ∧
      (S.call s' req).run w2 = .ok (f, s'') w3 ∧ x.st = .called f ∧ x.retry.service = s'' ∧
      ∃ k, RetryRun P S x (w3 :: rest1) k res w rest) := by
  obtain ⟨k, hk⟩ := C11_run fuel _ ws res w rest h
  cases hk with
  | not_ready h => exact .inl ⟨_, rfl, h⟩
  | attempt h1 h2 h3 h4 => exact .inr ⟨_, _, _, _, _, _, _, _, h1, h3, rfl, rfl, _, h4⟩

/-- `call` makes exactly one inner call, with the request itself, and saves what the policy cloned. -/
theorem C11_call (fuel : Nat) (s : RetryState P.π S.σ) (r : Req) (w : W) :
    ((Retry fuel P S).call s r).run w =
      ((S.call s.service r).run (P.cloneRequest s.policy r w).2).void (fun x =>
        (⟨(P.cloneRequest s.policy r w).1.1, ⟨P.clone (P.cloneRequest s.policy r w).1.2, S.clone x.2⟩, .called x.1⟩,
         ⟨(P.cloneRequest s.policy r w).1.2, x.2⟩)) := by
  simp only [Retry, run_bind, run_lift]
  cases (S.call s.service r).run (P.cloneRequest s.policy r w).2 <;> rfl

/-! ### Counting attempts and approvals -/

/-- `ν` counts the calls the inner service receives and `μ` the retries the policy approves. -/
structure RetryCounts (ν μ : W → Int) (P : RetryPolicy W Req Res Err) (S : Service W Req Res Err) : Prop where
  calls : CountsCalls ν S
  ready : ∀ s, Costs μ (S.pollReady s) 0
  call : ∀ s r, Costs μ (S.call s r) 0
  poll : ∀ f, Costs μ (S.poll f) 0
  retry : ∀ π req res w, ν (P.retry π req res w).2 = ν w ∧
    μ (P.retry π req res w).2 = μ w + (if (P.retry π req res w).1.1.isSome then 1 else 0)
  clone : ∀ π req w, ν (P.cloneRequest π req w).2 = ν w ∧ μ (P.cloneRequest π req w).2 = μ w
  wait : ∀ r w, ν (P.wait r w).2 = ν w ∧ μ (P.wait r w).2 = μ w

/-- an approved retry that has not been attempted yet -/
def RetrySt.owed {F R : Type} : RetrySt F R → Int
  | .called _ => 0
  | .waiting _ => 1
  | .retrying => 1

variable {ν μ : W → Int}

theorem retryStep_count (hc : RetryCounts ν μ P S) (x : RetryFut Req P.π S.σ S.φ P.ρ) (w w' : W)
    (r : (Poll (Except Err Res) × RetryFut Req P.π S.σ S.φ P.ρ) ⊕ RetryFut Req P.π S.σ S.φ P.ρ)
    (h : (retryStep P S x).run w = .ok r w') :
    (∀ x', r = .inr x' → ν w' - ν w + x'.st.owed = μ w' - μ w + x.st.owed) ∧
    (∀ p x', r = .inl (p, x') → ν w' - ν w + x'.st.owed = μ w' - μ w + x.st.owed ∧
      (∀ a, p = .ready (.ok a) → x'.st.owed = 0)) := by
  obtain ⟨request, ⟨π, s⟩, st⟩ := x
  cases st with
  | called f =>
    simp only [retryStep, run_bind] at h
    cases hp : (S.poll f).run w with
    | panic m => simp [hp] at h
    | spin => simp [hp] at h
    | ok a w1 =>
      have h1 := hc.calls.poll f _ _ _ hp
      have h2 := hc.poll f _ _ _ hp
      obtain ⟨q, f'⟩ := a
      cases q with
      | pending =>
        simp only [hp, run_pure] at h
        cases h
        exact ⟨by simp, fun p x' he => by cases he; exact ⟨by simp only [RetrySt.owed]; omega, by simp⟩⟩
      | ready result =>
        cases request with
        | none =>
          simp only [hp, run_pure] at h
          cases h
          exact ⟨by simp, fun p x' he => by cases he; exact ⟨by simp only [RetrySt.owed]; omega, fun _ _ => rfl⟩⟩
        | some req =>
          simp only [hp, run_bind, run_lift] at h
          have h3 := hc.retry π req result w1
          rcases hret : P.retry π req result w1 with ⟨⟨o, π', req', result'⟩, w2⟩
          simp only [hret] at h h3
          cases o with
          | none =>
            simp only [run_pure] at h
            cases h
            refine ⟨by simp, fun p x' he => ?_⟩
            cases he
            refine ⟨?_, fun _ _ => rfl⟩
            simp at h3
            simp only [RetrySt.owed]
            omega
          | some ρ =>
            simp only [run_pure] at h
            cases h
            refine ⟨fun x' he => by
              cases he; simp at h3; simp only [RetrySt.owed]; omega, by simp⟩
  | waiting r' =>
    simp only [retryStep, run_bind, run_lift] at h
    have h3 := hc.wait r' w
    rcases hw : P.wait r' w with ⟨⟨q, r''⟩, w1⟩
    simp only [hw] at h h3
    cases q with
    | pending =>
      simp only [run_pure] at h
      cases h
      exact ⟨by simp, fun p x' he => by cases he; exact ⟨by simp only [RetrySt.owed]; omega, by simp⟩⟩
    | ready u =>
      simp only [run_pure] at h
      cases h
      exact ⟨fun x' he => by cases he; simp only [RetrySt.owed]; omega, by simp⟩
  | retrying =>
    simp only [retryStep, run_bind] at h
    cases hp : (S.pollReady s).run w with
    | panic m => simp [hp] at h
    | spin => simp [hp] at h
    | ok a w1 =>
      have h1 := hc.calls.ready s _ _ _ hp
      have h2 := hc.ready s _ _ _ hp
      obtain ⟨q, s'⟩ := a
      match q with
      | .pending =>
        simp only [hp, run_pure] at h
        cases h
        exact ⟨by simp, fun p x' he => by cases he; exact ⟨by simp only [RetrySt.owed]; omega, by simp⟩⟩
      | .ready (.error e) =>
        simp only [hp, run_pure] at h
        cases h
        exact ⟨by simp, fun p x' he => by cases he; exact ⟨by simp only [RetrySt.owed]; omega, by simp⟩⟩
      | .ready (.ok ()) =>
        cases request with
        | none => simp [hp] at h
        | some req =>
          simp only [hp, run_bind, run_lift] at h
          have h3 := hc.clone π req w1
          rcases hcl : P.cloneRequest π req w1 with ⟨⟨o, π'⟩, w2⟩
          simp only [hcl] at h h3
          cases hcall : (S.call s' req).run w2 with
          | panic m => simp [hcall] at h
          | spin => simp [hcall] at h
          | ok b w3 =>
            have h4 := hc.calls.call s' req _ _ _ hcall
            have h5 := hc.call s' req _ _ _ hcall
            obtain ⟨f, s''⟩ := b
            simp only [hcall, run_pure] at h
            cases h
            exact ⟨fun x' he => by cases he; simp only [RetrySt.owed]; omega, by simp⟩

theorem retryPoll_count (hc : RetryCounts ν μ P S) (n : Nat) (x x' : RetryFut Req P.π S.σ S.φ P.ρ) (w w' : W)
    (p : Poll (Except Err Res)) (h : (retryPoll P S n x).run w = .ok (p, x') w') :
    ν w' - ν w + x'.st.owed = μ w' - μ w + x.st.owed ∧ (∀ a, p = .ready (.ok a) → x'.st.owed = 0) := by
  induction n generalizing x w with
  | zero => simp [retryPoll] at h
  | succ n ih =>
    rw [retryPoll, run_bind] at h
    cases hs : (retryStep P S x).run w with
    | panic m => simp [hs] at h
    | spin => simp [hs] at h
    | ok r w1 =>
      have h1 := retryStep_count hc x w w1 r hs
      cases r with
      | inl out =>
        simp only [hs, run_pure] at h
        cases h
        exact h1.2 _ _ rfl
      | inr y =>
        simp only [hs] at h
        have h2 := ih _ _ h
        have h3 := h1.1 _ rfl
        exact ⟨by omega, h2.2⟩

theorem owed_01 {F R : Type} (st : RetrySt F R) : st.owed = 0 ∨ st.owed = 1 := by
  cases st <;> simp [RetrySt.owed]

/-- **C11 (attempts = 1 + approved retries).** For the future of one request (which has already made its
first attempt in `call`, see `C11_call`), on every schedule and at every moment: the further attempts are as
many as the retries the policy approved, or one less while (or because, if readiness failed) the last approved
one has not been made; with a response, exactly as many. -/
theorem C11_attempts (hc : RetryCounts ν μ P S) (fuel : Nat) (req : Option Req) (rt : RetryState P.π S.σ)
    (f : S.φ) (ws : List W) :
    let calls := (Retry fuel P S).futOf.work ν ⟨req, rt, .called f⟩ ws
    let approved := (Retry fuel P S).futOf.work μ ⟨req, rt, .called f⟩ ws
    (calls = approved ∨ calls = approved - 1) ∧
    (∀ a w rest, (Retry fuel P S).futOf.drive ⟨req, rt, .called f⟩ ws = .done (.ok a) w rest →
      calls = approved) := by
  suffices H : ∀ (x : RetryFut Req P.π S.σ S.φ P.ρ) (ws : List W),
      (∃ o : Int, (o = 0 ∨ o = 1) ∧ (Retry fuel P S).futOf.work ν x ws + o =
        (Retry fuel P S).futOf.work μ x ws + x.st.owed) ∧
      (∀ a w rest, (Retry fuel P S).futOf.drive x ws = .done (.ok a) w rest →
        (Retry fuel P S).futOf.work ν x ws = (Retry fuel P S).futOf.work μ x ws + x.st.owed) by
    obtain ⟨⟨o, ho, h1⟩, h2⟩ := H ⟨req, rt, .called f⟩ ws
    simp only [RetrySt.owed] at h1 h2
    refine ⟨?_, fun a w rest h => by have := h2 a w rest h; omega⟩
    omega
  intro x ws
  induction ws generalizing x with
  | nil => exact ⟨⟨_, owed_01 x.st, by simp [Fut.work]⟩, by simp [Fut.drive]⟩
  | cons w ws ih =>
    cases hp : ((Retry fuel P S).futOf.poll x).run w with
    | panic m =>
      refine ⟨⟨_, owed_01 x.st, by simp [Fut.work, hp]⟩, by simp [Fut.drive, hp]⟩
    | spin => 
      refine ⟨⟨_, owed_01 x.st, by simp [Fut.work, hp]⟩, by simp [Fut.drive, hp]⟩
    | ok a w' =>
      obtain ⟨p, x'⟩ := a
      have h1 := retryPoll_count hc fuel x x' w w' p hp
      cases p with
      | pending =>
        obtain ⟨⟨o, ho, h2⟩, h3⟩ := ih x'
        refine ⟨⟨o, ho, ?_⟩, fun a v rest h => ?_⟩
        · simp only [Fut.work, hp]; omega
        · simp only [Fut.drive, hp] at h
          have := h3 a v rest h
          simp only [Fut.work, hp]; omega
      | ready r =>
        refine ⟨⟨_, owed_01 x'.st, ?_⟩, fun a v rest h => ?_⟩
        · simp only [Fut.work, hp]; exact h1.1
        · simp only [Fut.drive, hp] at h
          cases h
          have := h1.2 a rfl
          simp only [Fut.work, hp]; omega

end

/-! ## A concrete case -/

namespace Demo11

/-- World: (calls, approvals). The service fails until its third call. -/
abbrev WC := Nat × Nat

def flaky : Service WC Nat Nat Nat where
  σ := Unit
  φ := Nat
  pollReady _ := pure (.ready (.ok ()), ())
  call _ r := ⟨fun w => .ok (r, ()) (w.1 + 1, w.2)⟩
  poll r := ⟨fun w => .ok (.ready (if w.1 < 3 then .error w.1 else .ok r), r) w⟩
  clone := id

/-- Retry errors, at most `π` times. -/
def upTo : RetryPolicy WC Nat Nat Nat where
  π := Nat
  ρ := Unit
  retry π r res w :=
    match res with
    | .ok _ => ((none, π, r, res), w)
    | .error _ => if π > 0 then ((some (), π - 1, r, res), (w.1, w.2 + 1)) else ((none, π, r, res), w)
  cloneRequest π r w := ((some r, π), w)
  wait _ w := ((.ready (), ()), w)
  clone := id

theorem counts : RetryCounts (fun w : WC => (w.1 : Int)) (fun w : WC => (w.2 : Int)) upTo flaky where
  calls := {
    ready := by intro s w a w' h; injection h with _ h2; subst h2; simp
    call := by intro s r w a w' h; injection h with _ h2; subst h2; simp
    poll := by intro s w a w' h; injection h with _ h2; subst h2; simp }
  ready := by intro s w a w' h; injection h with _ h2; subst h2; simp
  call := by intro s r w a w' h; injection h with _ h2; subst h2; simp
  poll := by intro s w a w' h; injection h with _ h2; subst h2; simp
  retry := by
    intro π req res w
    cases res with
    | ok r => simp [upTo]
    | error e =>
      change Nat at π
      by_cases h : π > 0 <;> simp [upTo, h]
  clone := by intros; simp [upTo]
  wait := by intros; simp [upTo]

/-- two retries approved, two further attempts, then success: all in one poll -/
example : (Retry 9 upTo flaky).futOf.drive ⟨some (7 : Nat), ⟨(5 : Nat), ()⟩, .called (7 : Nat)⟩ [(1, 0)] =
    .done (.ok 7) (3, 2) [] := rfl
/-- only one retry allowed: the last error is the outcome -/
example : (Retry 9 upTo flaky).futOf.drive ⟨some (7 : Nat), ⟨(1 : Nat), ()⟩, .called (7 : Nat)⟩ [(1, 0)] =
    .done (.error 2) (2, 1) [] := rfl
end Demo11

end Tower
