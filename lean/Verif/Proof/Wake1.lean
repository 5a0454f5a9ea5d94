import Verif.Spec.WakeSpec
import Verif.Model.Hedge
import Verif.Model.Layer
import Verif.Model.Load
import Verif.Model.Balance
import Verif.Model.CallAll

set_option linter.unusedSimpArgs false
set_option linter.unusedSectionVars false

namespace Tower
open Act
variable {W Req Res Err α β γ δ : Type} {reg : W → Nat}

/-! ## Calculus -/

theorem Calm.pure (a : α) : Calm reg (Pure.pure a : Act W α) := by
  intro w b w' h; cases h; exact Nat.le_refl _
theorem Calm.get : Calm reg (Act.get : Act W W) := by
  intro w b w' h; cases h; exact Nat.le_refl _
theorem Calm.panic (m : String) : Calm reg (Act.panic m : Act W α) := by
  intro w b w' h; cases h
theorem Calm.spin : Calm reg (Act.spin : Act W α) := by
  intro w b w' h; cases h
theorem Calm.lift {f : W → α × W} (hf : ∀ w, reg w ≤ reg (f w).2) : Calm reg (Act.lift f) := by
  intro w b w' h; cases h; exact hf w
theorem Calm.modify {f : W → W} (hf : ∀ w, reg w ≤ reg (f w)) : Calm reg (Act.modify f) := by
  intro w b w' h; cases h; exact hf w
theorem Calm.bind {x : Act W α} {k : α → Act W β} (hx : Calm reg x) (hk : ∀ a, Calm reg (k a)) : Calm reg (x >>= k) := by
  intro w b w' h
  obtain ⟨a, w1, h1, h2⟩ := run_bind_eq_ok.1 h
  exact Nat.le_trans (hx _ _ _ h1) (hk _ _ _ _ h2)
theorem Calm.ite {c : Prop} [Decidable c] {x y : Act W α} (hx : Calm reg x) (hy : Calm reg y) : Calm reg (if c then x else y) := by
  split <;> assumption

theorem Wakes.calm {x : Act W (Poll α × β)} (h : Wakes reg x) : Calm reg x := fun w ⟨_, _⟩ w' hr => (h w _ _ w' hr).1
theorem Wakes.ready (a : α) (b : β) : Wakes reg (Pure.pure (.ready a, b) : Act W (Poll α × β)) := by
  intro w p b w' h; cases h; exact ⟨Nat.le_refl _, fun h => by cases h⟩
theorem Wakes.panic (m : String) : Wakes reg (Act.panic m : Act W (Poll α × β)) := by
  intro w p b w' h; cases h
theorem Wakes.spin : Wakes reg (Act.spin : Act W (Poll α × β)) := by
  intro w p b w' h; cases h
theorem Wakes.armed {f : W → W} (hf : ∀ w, reg w < reg (f w)) (b : β) :
    Wakes reg (do Act.modify f; Pure.pure (.pending, b) : Act W (Poll α × β)) := by
  intro w p b w' h; cases h; exact ⟨Nat.le_of_lt (hf w), fun _ => hf w⟩
theorem Wakes.ite {c : Prop} [Decidable c] {x y : Act W (Poll α × β)} (hx : Wakes reg x) (hy : Wakes reg y) : Wakes reg (if c then x else y) := by
  split <;> assumption
/-- first something that does not matter, then a poll -/
theorem Wakes.after {x : Act W γ} {k : γ → Act W (Poll α × β)} (hx : Calm reg x) (hk : ∀ a, Wakes reg (k a)) : Wakes reg (x >>= k) := by
  intro w p b w' h
  obtain ⟨a, w1, h1, h2⟩ := run_bind_eq_ok.1 h
  have := hx _ _ _ h1
  have := hk _ _ _ _ _ h2
  exact ⟨by omega, fun h => by have := this.2 h; omega⟩
/-- first a poll: if it is pending the rest does not matter -/
theorem Wakes.bind {x : Act W (Poll γ × δ)} {k : Poll γ × δ → Act W (Poll α × β)} (hx : Wakes reg x) (hp : ∀ b, Calm reg (k (.pending, b)))
    (hk : ∀ a b, Wakes reg (k (.ready a, b))) : Wakes reg (x >>= k) := by
  intro w p b w' h
  obtain ⟨⟨q, c⟩, w1, h1, h2⟩ := run_bind_eq_ok.1 h
  have h3 := hx _ _ _ _ h1
  cases q with
  | pending =>
    have := hp _ _ _ _ h2
    have := h3.2 rfl
    exact ⟨by omega, fun _ => by omega⟩
  | ready a =>
    have := hk _ _ _ _ _ _ h2
    exact ⟨by omega, fun h => by have := this.2 h; omega⟩
/-- a poll the result of which is changed, but not from `Ready` to `Pending` -/
theorem Wakes.map {x : Act W (Poll γ × δ)} (hx : Wakes reg x) (g : γ → α) (f : δ → β) : Wakes reg (do let (p, s) ← x; Pure.pure (p.map g, f s)) :=
  hx.bind (fun _ => Calm.pure _) (fun _ _ => Wakes.ready _ _)
theorem Wakes.thru {x : Act W (Poll α × δ)} (hx : Wakes reg x) (f : δ → β) : Wakes reg (do let (p, s) ← x; Pure.pure (p, f s)) :=
  hx.bind (fun _ => Calm.pure _) (fun _ _ => Wakes.ready _ _)

theorem FutWakeful.poll {F : Fut W α} (h : FutWakeful reg F) (x : F.φ) : Wakes reg (F.poll x) := h x

/-! ## util -/

theorem MapRequest.wakeful {R1 : Type} {f : R1 → W → Req × W} {S : Service W Req Res Err} (hf : CalmFn reg f) (h : Wakeful reg S) : Wakeful reg (MapRequest f S) where
  ready := h.ready
  call s r := (Calm.lift (hf r)).bind (fun _ => h.call _ _)
  poll := h.poll

/-- a future inside a `Map` -/
theorem Wakes.mapFut {φ α β : Type} {poll : φ → Act W (Poll α × φ)} {f : α → Act W β} (h : ∀ x, Wakes reg (poll x)) (hf : ∀ a, Calm reg (f a)) : ∀ o, Wakes reg (mapFut poll f o)
  | some x => (h x).bind (fun _ => Calm.pure _) (fun a _ => Wakes.after (hf a) (fun _ => Wakes.ready _ _))
  | none => Wakes.panic _

theorem MapResponse.wakeful {R2 : Type} {f : Res → W → R2 × W} {S : Service W Req Res Err} (hf : CalmFn reg f) (h : Wakeful reg S) : Wakeful reg (MapResponse f S) where
  ready := h.ready
  call s r := (h.call s r).bind (fun _ => Calm.pure _)
  poll := Wakes.mapFut h.poll (by
    rintro (e | r)
    · exact Calm.pure _
    · exact (Calm.lift (hf r)).bind (fun _ => Calm.pure _))

theorem MapErr.wakeful {E2 : Type} {f : Err → W → E2 × W} {S : Service W Req Res Err} (hf : CalmFn reg f) (h : Wakeful reg S) : Wakeful reg (MapErr f S) where
  ready s := by
    refine (h.ready s).bind (fun _ => Calm.pure _) ?_
    rintro (e | r) b
    · exact Wakes.after (Calm.lift (hf e)) (fun _ => Wakes.ready _ _)
    · exact Wakes.ready _ _
  call s r := (h.call s r).bind (fun _ => Calm.pure _)
  poll := Wakes.mapFut h.poll (by
    rintro (e | r)
    · exact (Calm.lift (hf e)).bind (fun _ => Calm.pure _)
    · exact Calm.pure _)

theorem MapResult.wakeful {R2 E2 : Type} {into : Err → E2} {f : Except Err Res → W → Except E2 R2 × W} {S : Service W Req Res Err} (hf : CalmFn reg f) (h : Wakeful reg S) :
    Wakeful reg (MapResult into f S) where
  ready s := (h.ready s).map _ id
  call s r := (h.call s r).bind (fun _ => Calm.pure _)
  poll := Wakes.mapFut h.poll (fun r => Calm.lift (hf r))

theorem MapFuture.wakeful {R2 E2 : Type} {into : Err → E2} {S : Service W Req Res Err} {G : Fut W (Except E2 R2)} {f : S.φ → W → G.φ × W} (hf : CalmFn reg f) (hG : FutWakeful reg G)
    (h : Wakeful reg S) : Wakeful reg (MapFuture into S G f) where
  ready s := (h.ready s).map _ id
  call s r := (h.call s r).bind (fun x => (Calm.lift (hf x.1)).bind (fun _ => Calm.pure _))
  poll := hG

theorem pollSecond.wakes {A Out : Type} {G : Fut W Out} (hG : FutWakeful reg G) (g : G.φ) : Wakes reg (pollSecond (A := A) G g) :=
  (hG g).bind (fun _ => Calm.pure _) (fun _ _ => Wakes.ready _ _)

theorem Then.wakeful {R2 E2 : Type} {into : Err → E2} {S : Service W Req Res Err} {G : Fut W (Except E2 R2)} {f : Except Err Res → W → G.φ × W} (hf : CalmFn reg f) (hG : FutWakeful reg G)
    (h : Wakeful reg S) : Wakeful reg (Then into S G f) where
  ready s := (h.ready s).map _ id
  call s r := (h.call s r).bind (fun _ => Calm.pure _)
  poll
    | .first x => (h.poll x).bind (fun _ => Calm.pure _) (fun r _ => Wakes.after (Calm.lift (hf r)) (fun _ => pollSecond.wakes hG _))
    | .second _ => pollSecond.wakes hG _
    | .done => Wakes.panic _

theorem AndThen.wakeful {R2 E2 : Type} {into : Err → E2} {S : Service W Req Res Err} {G : Fut W (Except E2 R2)} {f : Res → W → G.φ × W} (hf : CalmFn reg f) (hG : FutWakeful reg G)
    (h : Wakeful reg S) : Wakeful reg (AndThen into S G f) where
  ready s := (h.ready s).map _ id
  call s r := (h.call s r).bind (fun _ => Calm.pure _)
  poll
    | .first x => by
      refine (h.poll x).bind (fun _ => Calm.pure _) ?_
      rintro (e | r) b
      · exact Wakes.ready _ _
      · exact Wakes.after (Calm.lift (hf r)) (fun _ => pollSecond.wakes hG _)
    | .second _ => pollSecond.wakes hG _
    | .done => Wakes.panic _

theorem Either.wakeful {A B : Service W Req Res Err} (hA : Wakeful reg A) (hB : Wakeful reg B) : Wakeful reg (Either A B) where
  ready
    | .inl a => (hA.ready a).thru _
    | .inr b => (hB.ready b).thru _
  call
    | .inl a, r => (hA.call a r).bind (fun _ => Calm.pure _)
    | .inr b, r => (hB.call b r).bind (fun _ => Calm.pure _)
  poll
    | .inl x => (hA.poll x).thru _
    | .inr x => (hB.poll x).thru _

theorem Optional.wakeful {S : Service W Req Res Err} (h : Wakeful reg S) : Wakeful reg (Optional S) where
  ready
    | some s => (h.ready s).map _ _
    | none => Wakes.ready _ _
  call
    | some s, r => (h.call s r).bind (fun _ => Calm.pure _)
    | none, _ => Calm.pure _
  poll
    | some x => (h.poll x).map _ _
    | none => Wakes.ready _ _

theorem ServiceFn.wakeful {F : Fut W (Except Err Res)} {f : Req → W → F.φ × W} (hf : CalmFn reg f) (hF : FutWakeful reg F) : Wakeful reg (ServiceFn F f) where
  ready _ := Wakes.ready _ _
  call _ r := (Calm.lift (hf r)).bind (fun _ => Calm.pure _)
  poll := hF

theorem FutureService.wakeful {S : Service W Req Res Err} {F : Fut W (Except Err S.σ)} {fc : F.φ → F.φ} (hF : FutWakeful reg F) (h : Wakeful reg S) : Wakeful reg (FutureService S F fc) where
  ready
    | .future f => by
      refine (hF f).bind (fun _ => Calm.pure _) ?_
      rintro (e | s) b
      · exact Wakes.ready _ _
      · exact (h.ready s).thru _
    | .service s => (h.ready s).thru _
  call
    | .service s, r => (h.call s r).bind (fun _ => Calm.pure _)
    | .future _, _ => Calm.panic _
  poll := h.poll

theorem BoxService.wakeful {S : Service W Req Res Err} (h : Wakeful reg S) : Wakeful reg (BoxService S) where
  ready b := (h.ready b.val).thru _
  call b r := (h.call b.val r).bind (fun _ => Calm.pure _)
  poll x := (h.poll x.val).thru _

theorem Oneshot.wakeful {S : Service W Req Res Err} (h : Wakeful reg S) : FutWakeful reg (Oneshot S)
  | .notReady s req => by
    refine (h.ready s).bind (fun _ => Calm.pure _) ?_
    rintro (e | ⟨⟩) b
    · exact Wakes.ready _ _
    · cases req with
      | none => exact Wakes.panic _
      | some r =>
        refine Wakes.after (h.call _ _) ?_
        rintro ⟨x, s'⟩
        refine (h.poll x).bind (fun _ => Calm.pure _) ?_
        rintro (e | r) b <;> exact Wakes.ready _ _
  | .called x => by
    refine (h.poll x).bind (fun _ => Calm.pure _) ?_
    rintro (e | r) b <;> exact Wakes.ready _ _
  | .done => Wakes.panic _

theorem ReadyOneshot.wakeful {S : Service W Req Res Err} (h : Wakeful reg S) : FutWakeful reg (ReadyOneshot S)
  | none => Wakes.panic _
  | some s => by
    refine (h.ready s).bind (fun _ => Calm.pure _) ?_
    rintro (e | ⟨⟩) b <;> exact Wakes.ready _ _

/-! ## middleware -/

theorem Timeout.wakeful {C : Clock W} {d : Nat} {S : Service W Req Res Err} (hC : ClockWakes reg C) (h : Wakeful reg S) : Wakeful reg (Timeout C d S) where
  ready s := (h.ready s).map _ id
  call s r := (h.call s r).bind (fun _ => Calm.get.bind (fun _ => Calm.pure _))
  poll x := by
    refine (h.poll x.1).bind (fun _ => ?_) (fun _ _ => Wakes.ready _ _)
    refine Calm.get.bind (fun w => Calm.ite (Calm.pure _) (Wakes.armed (hC _) _).calm)

theorem LoadShed.wakeful {S : Service W Req Res Err} (h : Wakeful reg S) : Wakeful reg (LoadShed S) where
  ready s := by
    refine Wakes.after (h.ready s.inner).calm ?_
    rintro ⟨_ | (e | ⟨⟩), b⟩ <;> exact Wakes.ready _ _
  call s r := Calm.ite ((h.call s.inner r).bind (fun _ => Calm.pure _)) (Calm.pure _)
  poll
    | some x => (h.poll x).map _ _
    | none => Wakes.ready _ _

theorem RateLimit.wakeful {C : Clock W} {R : Rate} {S : Service W Req Res Err} (hC : ClockWakes reg C) (h : Wakeful reg S) : Wakeful reg (RateLimit C R S) where
  ready
    | ⟨i, .ready _ _, sl⟩ => (h.ready i).bind (fun _ => Calm.pure _) (fun _ _ => Wakes.ready _ _)
    | ⟨i, .limited, sl⟩ => Wakes.after Calm.get (fun w => Wakes.ite (Wakes.after Calm.get (fun w' => (h.ready _).bind (fun _ => Calm.pure _) (fun _ _ => Wakes.ready _ _))) (Wakes.armed (hC _) _))
  call s r := by
    refine Calm.get.bind (fun w => ?_)
    cases rateTake R (C.now w) s.st s.sleep with
    | none => exact Calm.panic _
    | some x => exact (h.call _ _).bind (fun _ => Calm.pure _)
  poll := h.poll

/-- `poll_acquire` registers the waker when it is pending -/
def SemWakes (reg : W → Nat) (V : SemView W) : Prop :=
  ∀ a w, reg w ≤ reg (V.pollAcquire a w).2 ∧ ((V.pollAcquire a w).1.1 = .pending → reg w < reg (V.pollAcquire a w).2)

theorem ConcurrencyLimit.wakeful {d : Bool} {V : SemView W} {S : Service W Req Res Err} (hV : SemWakes reg V) (h : Wakeful reg S) : Wakeful reg (ConcurrencyLimit d V S) where
  ready s := by
    refine Wakes.ite ((h.ready _).bind (fun _ => Calm.pure _) (fun _ _ => Wakes.ready _ _)) ?_
    refine Wakes.bind (x := Act.lift (V.pollAcquire s.sem)) ?_ (fun _ => Calm.pure _) (fun got a => Wakes.ite (Wakes.panic _) ((h.ready _).bind (fun _ => Calm.pure _) (fun _ _ => Wakes.ready _ _)))
    intro w p b w' hr
    simp only [run_lift, Out.ok.injEq] at hr
    obtain ⟨h1, h2⟩ := hr
    have := hV s.sem w
    rw [h1, h2] at this
    exact this
  call s r := Calm.ite ((h.call _ _).bind (fun _ => Calm.pure _)) (Calm.panic _)
  poll := h.poll

theorem Filter.wakeful {R1 BErr : Type} {into : Err → BErr} {check : R1 → W → Except BErr Req × W} {S : Service W Req Res Err} (hc : CalmFn reg check) (h : Wakeful reg S) :
    Wakeful reg (Filter into check S) where
  ready s := (h.ready s).map _ id
  call s r := by
    refine (Calm.lift (hc r)).bind ?_
    rintro (e | r')
    · exact Calm.pure _
    · exact (h.call _ _).bind (fun _ => Calm.pure _)
  poll
    | .inl (some e) => Wakes.ready _ _
    | .inl none => Wakes.panic _
    | .inr x => (Wakes.mapFut h.poll (fun _ => Calm.pure _) x).thru _

theorem AsyncFilter.wakeful {R1 BErr : Type} {into : Err → BErr} {P : Fut W (Except BErr Req)} {check : R1 → W → P.φ × W} {S : Service W Req Res Err} (hc : CalmFn reg check)
    (hP : FutWakeful reg P) (h : Wakeful reg S) : Wakeful reg (AsyncFilter into P check S) where
  ready s := (h.ready s).map _ id
  call s r := (Calm.lift (hc r)).bind (fun _ => Calm.pure _)
  poll
    | .check c s => by
      refine (hP c).bind (fun _ => Calm.pure _) ?_
      rintro (e | r) b
      · exact Wakes.ready _ _
      · exact Wakes.after (h.call _ _) (fun x => (h.poll _).map _ _)
    | .waitResponse x => (h.poll x).map _ _

/-- the policy: closures that take no registration back, futures that register when they are pending -/
structure PolicyWakes (reg : W → Nat) (P : RetryPolicy W Req Res Err) : Prop where
  retry : ∀ π q r w, reg w ≤ reg (P.retry π q r w).2
  clone : ∀ π q w, reg w ≤ reg (P.cloneRequest π q w).2
  wait : ∀ x w, reg w ≤ reg (P.wait x w).2 ∧ ((P.wait x w).1.1 = .pending → reg w < reg (P.wait x w).2)

/-- one round of a loop -/
def WakesLoop (reg : W → Nat) {γ : Type} (x : Act W ((Poll α × β) ⊕ γ)) : Prop :=
  ∀ w r w', x.run w = .ok r w' → reg w ≤ reg w' ∧ (∀ b, r = .inl (.pending, b) → reg w < reg w')

theorem WakesLoop.of {γ : Type} {x : Act W ((Poll α × β) ⊕ γ)} (h : Calm reg x) (h2 : ∀ w b w', x.run w = .ok (.inl (.pending, b)) w' → reg w < reg w') : WakesLoop reg x :=
  fun w r w' hr => ⟨h _ _ _ hr, fun b hb => by subst hb; exact h2 _ _ _ hr⟩

theorem WakesLoop.after {γ ι : Type} {x : Act W ι} {k : ι → Act W ((Poll α × β) ⊕ γ)} (hx : Calm reg x) (hk : ∀ a, WakesLoop reg (k a)) : WakesLoop reg (x >>= k) := by
  intro w r w' h
  obtain ⟨a, w1, h1, h2⟩ := run_bind_eq_ok.1 h
  have := hx _ _ _ h1
  have := hk _ _ _ _ h2
  exact ⟨by omega, fun b hb => by have := this.2 b hb; omega⟩

theorem WakesLoop.bind {γ ι κ : Type} {x : Act W (Poll ι × κ)} {k : Poll ι × κ → Act W ((Poll α × β) ⊕ γ)} (hx : Wakes reg x) (hp : ∀ b, Calm reg (k (.pending, b)))
    (hk : ∀ a b, WakesLoop reg (k (.ready a, b))) : WakesLoop reg (x >>= k) := by
  intro w r w' h
  obtain ⟨⟨q, c⟩, w1, h1, h2⟩ := run_bind_eq_ok.1 h
  have h3 := hx _ _ _ _ h1
  cases q with
  | pending =>
    have := hp _ _ _ _ h2
    have := h3.2 rfl
    exact ⟨by omega, fun _ _ => by omega⟩
  | ready a =>
    have := hk _ _ _ _ _ h2
    exact ⟨by omega, fun b hb => by have := this.2 b hb; omega⟩

theorem WakesLoop.next {γ : Type} (c : γ) : WakesLoop reg (Pure.pure (.inr c) : Act W ((Poll α × β) ⊕ γ)) := by
  intro w r w' h; cases h; exact ⟨Nat.le_refl _, fun b hb => by cases hb⟩
theorem WakesLoop.stop {γ : Type} (a : α) (b : β) : WakesLoop reg (Pure.pure (.inl (.ready a, b)) : Act W ((Poll α × β) ⊕ γ)) := by
  intro w r w' h; cases h; exact ⟨Nat.le_refl _, fun b hb => by cases hb⟩
theorem WakesLoop.panic {γ : Type} (m : String) : WakesLoop reg (Act.panic m : Act W ((Poll α × β) ⊕ γ)) := by
  intro w r w' h; cases h

theorem retryStep.wakes {P : RetryPolicy W Req Res Err} {S : Service W Req Res Err} (hP : PolicyWakes reg P) (h : Wakeful reg S) (x : RetryFut Req P.π S.σ S.φ P.ρ) : WakesLoop reg (retryStep P S x) := by
  obtain ⟨request, retry, st⟩ := x
  cases st with
  | called f =>
    refine WakesLoop.bind (h.poll f) (fun _ => Calm.pure _) (fun res f' => ?_)
    cases request with
    | none => exact WakesLoop.stop _ _
    | some req =>
      refine WakesLoop.after (Calm.lift (hP.retry _ _ _)) ?_
      rintro ⟨_ | ρ, π', req', res'⟩
      · exact WakesLoop.stop _ _
      · exact WakesLoop.next _
  | waiting r =>
    refine WakesLoop.bind (x := Act.lift (P.wait r)) ?_ (fun _ => Calm.pure _) (fun _ _ => WakesLoop.next _)
    intro w p b w' hr
    simp only [run_lift, Out.ok.injEq] at hr
    obtain ⟨h1, h2⟩ := hr
    have := hP.wait r w
    rw [h1, h2] at this
    exact this
  | retrying =>
    refine WakesLoop.bind (h.ready _) (fun _ => Calm.pure _) ?_
    rintro (e | ⟨⟩) s'
    · exact WakesLoop.stop _ _
    · cases request with
      | none => exact WakesLoop.panic _
      | some req => exact WakesLoop.after (Calm.lift (hP.clone _ _)) (fun a => WakesLoop.after (h.call _ _) (fun _ => WakesLoop.next _))

theorem retryPoll.wakes {P : RetryPolicy W Req Res Err} {S : Service W Req Res Err} (hP : PolicyWakes reg P) (h : Wakeful reg S) (n : Nat) : ∀ x, Wakes reg (retryPoll P S n x) := by
  induction n with
  | zero => exact fun _ => Wakes.spin
  | succ n ih =>
    intro x w p b w' hr
    obtain ⟨r, w1, h1, h2⟩ := run_bind_eq_ok.1 hr
    have h3 := retryStep.wakes hP h x _ _ _ h1
    cases r with
    | inl out =>
      cases h2
      exact ⟨h3.1, fun hp => h3.2 b (by rw [← hp])⟩
    | inr x' =>
      have := ih _ _ _ _ _ h2
      exact ⟨by omega, fun hp => by have := this.2 hp; omega⟩

theorem Retry.wakeful {n : Nat} {P : RetryPolicy W Req Res Err} {S : Service W Req Res Err} (hP : PolicyWakes reg P) (h : Wakeful reg S) : Wakeful reg (Retry n P S) where
  ready s := (h.ready _).thru _
  call s r := (Calm.lift (hP.clone _ _)).bind (fun _ => (h.call _ _).bind (fun _ => Calm.pure _))
  poll := retryPoll.wakes hP h n

theorem steerPoll.wakes {S : Service W Req Res Err} (h : Wakeful reg S) (l : List Nat) : ∀ ss, Wakes reg (steerPoll S ss l) := by
  induction l with
  | nil => exact fun _ => Wakes.ready _ _
  | cons i rest ih =>
    intro ss
    unfold steerPoll
    split
    · exact Wakes.panic _
    · refine (h.ready _).bind (fun _ => Calm.pure _) ?_
      rintro (e | ⟨⟩) b
      · exact Wakes.ready _ _
      · exact ih _

theorem Steer.wakeful {S : Service W Req Res Err} {pick : Req → List S.σ → W → Nat × W} (hp : ∀ r ss w, reg w ≤ reg (pick r ss w).2) (h : Wakeful reg S) : Wakeful reg (Steer S pick) where
  ready s := steerPoll.wakes h _ _
  call s r := by
    refine Calm.ite ((Calm.lift (hp _ _)).bind (fun i => ?_)) (Calm.panic _)
    split
    · exact Calm.panic _
    · exact (h.call _ _).bind (fun _ => Calm.pure _)
  poll := h.poll

theorem reconPoll.wakes {Tgt E1 E2 : Type} {S : Service W Req Res E2} {M : Service W Tgt S.σ E1} {t : Tgt} (hM : Wakeful reg M) (h : Wakeful reg S) (n : Nat) : ∀ x, Wakes reg (reconPoll S M t n x) := by
  induction n with
  | zero => exact fun _ => Wakes.spin
  | succ n ih =>
    rintro ⟨mk, st, err⟩
    cases st with
    | idle =>
      refine (hM.ready mk).bind (fun _ => Calm.pure _) ?_
      rintro (e | ⟨⟩) b
      · exact Wakes.ready _ _
      · exact Wakes.after (hM.call _ _) (fun _ => ih _)
    | connecting f =>
      refine (hM.poll f).bind (fun _ => Calm.pure _) ?_
      rintro (e | s) b
      · exact Wakes.ready _ _
      · exact ih _
    | connected s =>
      refine (h.ready s).bind (fun _ => Calm.pure _) ?_
      rintro (e | ⟨⟩) b
      · exact ih _
      · exact Wakes.ready _ _

theorem Reconnect.wakeful {Tgt E1 E2 : Type} {n : Nat} {S : Service W Req Res E2} {M : Service W Tgt S.σ E1} {t : Tgt} (hM : Wakeful reg M) (h : Wakeful reg S) : Wakeful reg (Reconnect n S M t) where
  ready := reconPoll.wakes hM h n
  call
    | ⟨_, _, some _⟩, _ => Calm.pure _
    | ⟨_, .connected _, none⟩, _ => (h.call _ _).bind (fun _ => Calm.pure _)
    | ⟨_, .idle, none⟩, _ => Calm.panic _
    | ⟨_, .connecting _, none⟩, _ => Calm.panic _
  poll
    | .inl f => (h.poll f).map _ _
    | .inr (some e) => Wakes.ready _ _
    | .inr none => Wakes.panic _

theorem spawnPoll.wakes {R : Runtime W} {S : Service W Req Res Err} (hR : ∀ w, reg w < reg (R.arm w)) (h : Wakeful reg S) (n : Nat) : ∀ x, Wakes reg (spawnPoll R S n x) := by
  induction n with
  | zero => exact fun _ => Wakes.spin
  | succ n ih =>
    rintro ((_ | s) | t)
    · exact Wakes.panic _
    · refine Wakes.after (h.ready s).calm ?_
      rintro ⟨_ | r, b⟩
      · exact ih _
      · exact Wakes.ready _ _
    · refine Wakes.after Calm.get (fun w => ?_)
      split
      · exact Wakes.armed hR _
      · exact Wakes.ready _ _
      · exact Wakes.panic _
      · exact Wakes.ready _ _
      · exact ih _

theorem SpawnReady.wakeful {n : Nat} {R : Runtime W} {S : Service W Req Res Err} (hR : ∀ w, reg w < reg (R.arm w)) (h : Wakeful reg S) : Wakeful reg (SpawnReady n R S) where
  ready := spawnPoll.wakes hR h n
  call
    | .service (some _), _ => (h.call _ _).bind (fun _ => Calm.pure _)
    | .service none, _ => Calm.panic _
    | .future _, _ => Calm.panic _
  poll := Wakes.mapFut h.poll (fun _ => Calm.pure _)

/-! ## hedge -/

theorem Latency.wakeful {BErr : Type} {into : Err → BErr} {C : Clock W} {record : Nat → W → W} {S : Service W Req Res Err} (hr : ∀ d w, reg w ≤ reg (record d w)) (h : Wakeful reg S) :
    Wakeful reg (Latency into C record S) where
  ready s := (h.ready s).map _ id
  call s r := Calm.get.bind (fun _ => (h.call _ _).bind (fun _ => Calm.pure _))
  poll x := by
    refine (h.poll x.2).bind (fun _ => Calm.pure _) ?_
    rintro (e | r) b
    · exact Wakes.ready _ _
    · exact Wakes.after Calm.get (fun _ => Wakes.after (Calm.modify (hr _)) (fun _ => Wakes.ready _ _))

theorem Delay.wakeful {BErr : Type} {into : Err → BErr} {C : Clock W} {delay : Req → W → Nat × W} {S : Service W Req Res Err} (hC : ClockWakes reg C) (hd : CalmFn reg delay) (h : Wakeful reg S) :
    Wakeful reg (Delay into C delay S) where
  ready _ := Wakes.ready _ _
  call s r := (Calm.lift (hd r)).bind (fun _ => Calm.get.bind (fun _ => Calm.pure _))
  poll
    | .delaying dl r s => Wakes.after Calm.get (fun _ => Wakes.ite ((Oneshot.wakeful h _).map _ _) (Wakes.armed (hC _) _))
    | .called x => (Oneshot.wakeful h x).map _ _

/-- a service that takes no registration back -/
structure Quiet (reg : W → Nat) (S : Service W Req Res Err) : Prop where
  ready : ∀ s, Calm reg (S.pollReady s)
  call : ∀ s r, Calm reg (S.call s r)
  poll : ∀ f, Calm reg (S.poll f)

theorem Wakeful.quiet {S : Service W Req Res Err} (h : Wakeful reg S) : Quiet reg S := ⟨fun s => (h.ready s).calm, h.call, fun f => (h.poll f).calm⟩

theorem Oneshot.quiet {S : Service W Req Res Err} (h : Quiet reg S) (x : (Oneshot S).φ) : Calm reg ((Oneshot S).poll x) := by
  match x with
  | .notReady s req =>
    refine (h.ready s).bind ?_
    rintro ⟨_ | (e | ⟨⟩), b⟩
    · exact Calm.pure _
    · exact Calm.pure _
    · cases req with
      | none => exact Calm.panic _
      | some r =>
        refine (h.call _ _).bind ?_
        rintro ⟨x, s'⟩
        refine (h.poll x).bind ?_
        rintro ⟨_ | (e | r), b⟩ <;> exact Calm.pure _
  | .called x =>
    refine (h.poll x).bind ?_
    rintro ⟨_ | (e | r), b⟩ <;> exact Calm.pure _
  | .done => exact Calm.panic _

theorem Delay.quiet {BErr : Type} {into : Err → BErr} {C : Clock W} {delay : Req → W → Nat × W} {S : Service W Req Res Err} (hC : ClockWakes reg C) (hd : CalmFn reg delay) (h : Quiet reg S) :
    Quiet reg (Delay into C delay S) where
  ready _ := Calm.pure _
  call s r := (Calm.lift (hd r)).bind (fun _ => Calm.get.bind (fun _ => Calm.pure _))
  poll
    | .delaying dl r s => Calm.get.bind (fun _ => Calm.ite ((Oneshot.quiet h _).bind (fun _ => Calm.pure _)) ((Calm.modify (fun w => Nat.le_of_lt (hC _ w))).bind (fun _ => Calm.pure _)))
    | .called x => (Oneshot.quiet h x).bind (fun _ => Calm.pure _)

theorem AsyncFilter.quiet {R1 BErr : Type} {into : Err → BErr} {P : Fut W (Except BErr Req)} {check : R1 → W → P.φ × W} {S : Service W Req Res Err} (hc : CalmFn reg check)
    (hP : ∀ x, Calm reg (P.poll x)) (h : Quiet reg S) : Quiet reg (AsyncFilter into P check S) where
  ready s := (h.ready s).bind (fun _ => Calm.pure _)
  call s r := (Calm.lift (hc r)).bind (fun _ => Calm.pure _)
  poll
    | .check c s => by
      refine (hP c).bind ?_
      rintro ⟨_ | (e | r), b⟩
      · exact Calm.pure _
      · exact Calm.pure _
      · exact (h.call _ _).bind (fun _ => (h.poll _).bind (fun _ => Calm.pure _))
    | .waitResponse x => (h.poll x).bind (fun _ => Calm.pure _)

/-- The second part need not register anything in its response futures: the first part does. -/
theorem Select.wakeful {cl : Req → W → Option Req × W} {A B : Service W Req Res Err} (hcl : CalmFn reg cl) (hA : Wakeful reg A) (hB : ∀ s, Wakes reg (B.pollReady s)) (hB' : Quiet reg B) :
    Wakeful reg (Select cl A B) where
  ready s := by
    intro w p b w' hr
    obtain ⟨⟨pa, a⟩, w1, h1, h2⟩ := run_bind_eq_ok.1 hr
    obtain ⟨⟨pb, b'⟩, w2, h3, h4⟩ := run_bind_eq_ok.1 h2
    have k1 := hA.ready _ _ _ _ _ h1
    have k2 := hB _ _ _ _ _ h3
    have key : w' = w2 ∧ (p = .pending → pa = .pending ∨ pb = .pending) := by
      match pa, pb, h4 with
      | .pending, .pending, h => cases h; simp
      | .pending, .ready (.ok ()), h => cases h; simp
      | .pending, .ready (.error e), h => cases h; simp
      | .ready (.ok ()), .pending, h => cases h; simp
      | .ready (.ok ()), .ready (.ok ()), h => cases h; simp
      | .ready (.ok ()), .ready (.error e), h => cases h; simp
      | .ready (.error e), .pending, h => cases h; simp
      | .ready (.error e), .ready (.ok ()), h => cases h; simp
      | .ready (.error e), .ready (.error e'), h => cases h; simp
    obtain ⟨rfl, key⟩ := key
    refine ⟨by omega, fun hp => ?_⟩
    rcases key hp with h | h
    · have := k1.2 h; omega
    · have := k2.2 h; omega
  call s r := by
    refine (Calm.lift (hcl r)).bind ?_
    rintro (_ | r')
    · exact (hA.call _ _).bind (fun _ => Calm.pure _)
    · exact (hB'.call _ _).bind (fun _ => (hA.call _ _).bind (fun _ => Calm.pure _))
  poll x := by
    refine (hA.poll x.1).bind (fun a => ?_) (fun _ _ => Wakes.ready _ _)
    rcases x with ⟨xa, _ | y⟩
    · exact Calm.pure _
    · refine (hB'.poll y).bind ?_
      rintro ⟨_ | r, b⟩ <;> exact Calm.pure _

structure HedgeWakes (reg : W → Nat) (H : HedgeCfg W Req) : Prop where
  clock : ClockWakes reg H.clock
  record : ∀ d w, reg w ≤ reg (H.record d w)
  delay : ∀ w, reg w ≤ reg (H.delay w).2
  enough : ∀ w, reg w ≤ reg (H.enough w).2

theorem Hedge.wakeful {BErr : Type} {into : Err → BErr} {H : HedgeCfg W Req} {S : Service W Req Res Err} (hH : HedgeWakes reg H) (h : Wakeful reg S) : Wakeful reg (Hedge into H S) := by
  have hL := Latency.wakeful (into := into) (C := H.clock) hH.record h
  refine Select.wakeful ?_ hL (fun _ => Wakes.ready _ _) ?_
  · intro r w
    unfold HedgeCfg.selectClone
    split
    · exact Nat.le_refl _
    · exact hH.enough w
  · refine Delay.quiet hH.clock (fun _ w => hH.delay w) (AsyncFilter.quiet (fun _ _ => Nat.le_refl _) ?_ hL.quiet)
    rintro (_ | r) <;> exact Calm.pure _

/-! ## load, make -/

theorem Constant.wakeful {M : Type} {S : Service W Req Res Err} (h : Wakeful reg S) : Wakeful reg (Constant M S) where
  ready s := (h.ready s.1).bind (fun _ => Calm.pure _) (fun _ _ => Wakes.ready _ _)
  call s r := (h.call _ _).bind (fun _ => Calm.pure _)
  poll := h.poll

theorem IntoService.wakeful {S : Service W Req Res Err} (h : Wakeful reg S) : Wakeful reg (IntoService S) := ⟨h.ready, h.call, h.poll⟩

theorem Shared.wakeful {Tgt V E : Type} {c : V → V} : Wakeful reg (Shared (W := W) (Tgt := Tgt) V c E) where
  ready _ := Wakes.ready _ _
  call _ _ := Calm.pure _
  poll
    | some _ => Wakes.ready _ _
    | none => Wakes.panic _

theorem Calm.snd {A : Type} {x : Act W α} (h : Calm reg x) : Calm (fun w : A × W => reg w.2) x.snd := by
  rintro ⟨a, w⟩ r ⟨a', w'⟩ hr
  simp only [Act.snd] at hr
  split at hr
  · rename_i hx; cases hr; exact h _ _ _ hx
  · cases hr
  · cases hr
theorem Calm.fst {A : Type} {x : Act A α} : Calm (fun w : A × W => reg w.2) x.fst := by
  rintro ⟨a, w⟩ r ⟨a', w'⟩ hr
  simp only [Act.fst] at hr
  split at hr
  · cases hr; exact Nat.le_refl _
  · cases hr
  · cases hr
theorem Wakes.snd {A : Type} {x : Act W (Poll α × β)} (h : Wakes reg x) : Wakes (fun w : A × W => reg w.2) x.snd := by
  rintro ⟨a, w⟩ p b ⟨a', w'⟩ hr
  simp only [Act.snd] at hr
  split at hr
  · rename_i hx; cases hr; exact h _ _ _ _ hx
  · cases hr
  · cases hr

/-- `PendingRequests` and `PeakEwma` -/
theorem tracked.wakeful {Res' : Type} {T : Tracker} {C : Completion Res Res'} {S : Service W Req Res Err} (h : Wakeful reg S) :
    Wakeful (fun w : T.R × W => reg w.2) (tracked T C S) where
  ready s := (h.ready s).snd
  call s r := Calm.fst.bind (fun _ => (h.call _ _).snd.bind (fun _ => Calm.pure _))
  poll x := by
    refine (h.poll x.1).snd.bind (fun _ => Calm.pure _) ?_
    rintro (e | v) f'
    · exact Wakes.ready _ _
    · rcases x with ⟨f, _ | hd⟩
      · exact Wakes.panic _
      · exact Wakes.after Calm.fst (fun _ => Wakes.ready _ _)

/-! ## balance -/

section
variable {K DErr BErr : Type} [DecidableEq K] {B : BalCfg W Req Res Err K DErr BErr}

/-- The discovery registers the waker when it is pending, the set of pending endpoints (`FuturesUnordered`) does when it is not empty; the reading of loads takes no registration back. -/
structure BalWakes (reg : W → Nat) (B : BalCfg W Req Res Err K DErr BErr) : Prop where
  disc : ∀ d, Wakes reg (B.D.poll d)
  order : ∀ n w, reg w ≤ reg (B.V.order n w).2
  order_some : ∀ n w, 0 < n → reg w < reg (B.V.order n w).2
  load : ∀ s, Calm reg (B.L.load s)

theorem pollNext.calm {S : Service W Req Res Err} (h : Wakeful reg S) (cc : List Nat) (is : List Nat) : ∀ p : List (PEnt K S.σ), Calm reg (pollNext S cc is p) := by
  induction is with
  | nil =>
    rintro (_ | ⟨e, p⟩)
    · exact Calm.pure _
    · exact Calm.pure _
  | cons i is ih =>
    rintro (_ | ⟨e, p⟩)
    · exact Calm.pure _
    · rw [pollNext]
      · split
        · exact ih _
        · rename_i e' _
          refine Calm.bind (x := PEnt.poll S cc e') ?_ ?_
          · refine Calm.ite (Calm.pure _) ((h.ready _).calm.bind ?_)
            rintro ⟨_ | (e | ⟨⟩), b⟩
            · exact Calm.ite (Calm.panic _) (Calm.pure _)
            · exact Calm.pure _
            · exact Calm.pure _
          · rintro ⟨_ | v, e''⟩
            · exact ih _
            · exact Calm.pure _
      · simp

theorem pollPendingLoop.calm {S : Service W Req Res Err} {V : Sched W} (hV : ∀ n w, reg w ≤ reg (V.order n w).2) (h : Wakeful reg S) (n : Nat) :
    ∀ c : Cache K S, Calm reg (Cache.pollPendingLoop V n c) := by
  induction n with
  | zero => exact fun _ => Calm.spin
  | succ n ih =>
    intro c
    refine (Calm.lift (hV _)).bind (fun o => (pollNext.calm h _ _ _).bind ?_)
    rintro ⟨_ | (_ | (⟨k, s, rx⟩ | k | ⟨k, e⟩)), p⟩
    · exact Calm.pure _
    · exact Calm.pure _
    · dsimp only
      split
      · exact ih _
      · exact Calm.panic _
    · exact ih _
    · dsimp only
      split
      · exact Calm.pure _
      · exact Calm.panic _

theorem pollNext_pending {S : Service W Req Res Err} {cc is : List Nat} {p p' : List (PEnt K S.σ)} {w w' : W} (h : (pollNext S cc is p).run w = .ok (.pending, p') w') : 0 < p.length := by
  cases p with
  | nil => cases is <;> cases h
  | cons => simp

theorem pollPendingLoop.pending_wakes {S : Service W Req Res Err} {V : Sched W} (hV : ∀ n w, reg w ≤ reg (V.order n w).2) (hV' : ∀ n w, 0 < n → reg w < reg (V.order n w).2) (h : Wakeful reg S) (n : Nat) :
    ∀ (c : Cache K S) w c' w', (Cache.pollPendingLoop V n c).run w = .ok (.pending, c') w' → reg w < reg w' := by
  induction n with
  | zero => intro c w c' w' h; cases h
  | succ n ih =>
    intro c w c' w' hr
    obtain ⟨o, w1, h1, h2⟩ := run_bind_eq_ok.1 hr
    obtain ⟨⟨r, p⟩, w2, h3, h4⟩ := run_bind_eq_ok.1 h2
    have k1 : reg w ≤ reg w1 := Calm.lift (hV _) _ _ _ h1
    have k2 := pollNext.calm h _ _ _ _ _ _ h3
    match r, h3, h4 with
    | .pending, h3, h4 =>
      cases h4
      have := pollNext_pending h3
      cases h1
      have := hV' _ w this
      omega
    | .ready none, h3, h4 => cases h4
    | .ready (some (.ok k s rx)), h3, h4 =>
      dsimp only at h4
      split at h4
      · have := ih _ _ _ _ h4; omega
      · cases h4
    | .ready (some (.canceled k)), h3, h4 => have := ih _ _ _ _ h4; omega
    | .ready (some (.inner k e)), h3, h4 =>
      dsimp only at h4
      split at h4 <;> cases h4

theorem promote.wakes (hB : BalWakes reg B) (h : Wakeful reg B.S) (n : Nat) :
    ∀ (b : Balance B) w b' w', (Balance.promote n b).run w = .ok b' w' → reg w ≤ reg w' ∧ (0 < b'.svcs.pending.length → reg w < reg w') := by
  induction n with
  | zero => intro b w b' w' h; cases h
  | succ n ih =>
    intro b w b' w' hr
    obtain ⟨⟨r, c⟩, w1, h1, h2⟩ := run_bind_eq_ok.1 hr
    have k1 := pollPendingLoop.calm hB.order h _ _ _ _ _ h1
    match r, h1, h2 with
    | .pending, h1, h2 =>
      dsimp only at h2
      split at h2
      · cases h2
        have := pollPendingLoop.pending_wakes hB.order hB.order_some h _ _ _ _ _ h1
        exact ⟨k1, fun _ => this⟩
      · cases h2
    | .ready (.ok ()), h1, h2 =>
      dsimp only at h2
      split at h2
      · rename_i he; cases h2; exact ⟨k1, fun h => by simp only at h; omega⟩
      · cases h2
    | .ready (.error e), h1, h2 =>
      have := ih _ _ _ _ h2
      exact ⟨by omega, fun h => by have := this.2 h; omega⟩

theorem readyIndexLoad.calm (hB : BalWakes reg B) (b : Balance B) (i : Nat) : Calm reg (b.readyIndexLoad i) := by
  unfold Balance.readyIndexLoad
  split
  · exact Calm.panic _
  · exact hB.load _

theorem p2c.calm (hB : BalWakes reg B) (b : Balance B) : Calm reg b.p2c := by
  refine Calm.ite (Calm.pure _) (Calm.ite (Calm.pure _) ?_)
  split
  · exact Calm.panic _
  · exact Calm.ite (Calm.panic _) ((readyIndexLoad.calm hB _ _).bind (fun _ => (readyIndexLoad.calm hB _ _).bind (fun _ => Calm.pure _)))

theorem checkReadyIndex.calm {S : Service W Req Res Err} (h : Wakeful reg S) (c : Cache K S) (i : Nat) : Calm reg (c.checkReadyIndex i) := by
  unfold Cache.checkReadyIndex
  split
  · exact Calm.pure _
  · refine (h.ready _).calm.bind ?_
    rintro ⟨_ | (e | ⟨⟩), s'⟩
    · dsimp only
      split
      · exact Calm.panic _
      · exact Calm.pure _
    · dsimp only
      split
      · exact Calm.panic _
      · exact Calm.pure _
    · exact Calm.pure _

theorem checkReadyIndex.wakes {S : Service W Req Res Err} (h : Wakeful reg S) {c : Cache K S} {i : Nat} {w r c' w'} (hr : (c.checkReadyIndex i).run w = .ok (r, c') w') :
    reg w < reg w' ∨ c'.pending = c.pending := by
  unfold Cache.checkReadyIndex at hr
  split at hr
  · cases hr; exact .inr rfl
  · obtain ⟨⟨p, s'⟩, w1, h1, h2⟩ := run_bind_eq_ok.1 hr
    have k := h.ready _ _ _ _ _ h1
    match p, h2 with
    | .pending, h2 =>
      dsimp only at h2
      split at h2
      · cases h2
      · cases h2; exact .inl (k.2 rfl)
    | .ready (.ok ()), h2 => cases h2; exact .inr rfl
    | .ready (.error e), h2 =>
      dsimp only at h2
      split at h2
      · cases h2
      · cases h2; exact .inr rfl

theorem p2c.svcs {b b' : Balance B} {i w w'} (hr : b.p2c.run w = .ok (i, b') w') : b'.svcs = b.svcs := by
  unfold Balance.p2c at hr
  split at hr
  · cases hr; rfl
  · split at hr
    · cases hr; rfl
    · split at hr
      · cases hr
      · split at hr
        · cases hr
        · obtain ⟨_, w1, _, h2⟩ := run_bind_eq_ok.1 hr
          obtain ⟨_, w2, _, h3⟩ := run_bind_eq_ok.1 h2
          cases h3; rfl

theorem choose.calm (hB : BalWakes reg B) (b : Balance B) : Calm reg b.choose := by
  refine (p2c.calm hB _).bind ?_
  rintro ⟨_ | i, b⟩
  · exact Calm.ite (Calm.pure _) (Calm.panic _)
  · exact Calm.pure _

theorem choose.svcs {b b' : Balance B} {i w w'} (hr : b.choose.run w = .ok (i, b') w') : b'.svcs = b.svcs ∧ (i = false → b'.svcs.ready = []) := by
  obtain ⟨⟨j, b1⟩, w1, h1, h2⟩ := run_bind_eq_ok.1 hr
  have k := p2c.svcs h1
  match j, h2 with
  | some j, h2 => cases h2; exact ⟨k, fun h => by cases h⟩
  | none, h2 =>
    dsimp only at h2
    split at h2
    · rename_i hl; cases h2; exact ⟨k, fun _ => List.length_eq_zero_iff.1 hl⟩
    · cases h2

theorem recheck.wakes (h : Wakeful reg B.S) {b b' : Balance B} {r w w'} (hr : b.recheck.run w = .ok (r, b') w') :
    reg w ≤ reg w' ∧ (reg w < reg w' ∨ b'.svcs.pending = b.svcs.pending) := by
  unfold Balance.recheck at hr
  split at hr
  · cases hr; exact ⟨Nat.le_refl _, .inr rfl⟩
  · obtain ⟨⟨q, c⟩, w1, h1, h2⟩ := run_bind_eq_ok.1 hr
    have k := checkReadyIndex.wakes h h1
    have k1 := checkReadyIndex.calm h _ _ _ _ _ h1
    match q, h2 with
    | .ok true, h2 => cases h2; exact ⟨k1, k⟩
    | .ok false, h2 => cases h2; exact ⟨k1, k⟩
    | .error e, h2 => cases h2; exact ⟨k1, k⟩

theorem select.wakes (hB : BalWakes reg B) (h : Wakeful reg B.S) (n : Nat) :
    ∀ (b : Balance B) w p b' w', (Balance.select n b).run w = .ok (p, b') w' →
      reg w ≤ reg w' ∧ (p = .pending → reg w < reg w' ∨ b'.svcs.pending = b.svcs.pending ∧ b'.svcs.ready = []) := by
  induction n with
  | zero => intro b w p b' w' h; cases h
  | succ n ih =>
    intro b w p b' w' hr
    obtain ⟨⟨r, b1⟩, w1, h1, h2⟩ := run_bind_eq_ok.1 hr
    have k1 := recheck.wakes h h1
    dsimp only at h2
    split at h2
    · cases h2; exact ⟨k1.1, fun h => by cases h⟩
    · obtain ⟨⟨f, b2⟩, w2, h3, h4⟩ := run_bind_eq_ok.1 h2
      have k2 := choose.calm hB _ _ _ _ h3
      have k3 := choose.svcs h3
      dsimp only at h4
      split at h4
      · have k4 := ih _ _ _ _ _ h4
        refine ⟨by omega, fun hp => ?_⟩
        rcases k4.2 hp with h5 | h5
        · left; omega
        · rcases k1.2 with h6 | h6
          · left; omega
          · right; rw [h5.1, k3.1, h6]; exact ⟨rfl, h5.2⟩
      · rename_i hf
        cases h4
        refine ⟨by omega, fun _ => ?_⟩
        rcases k1.2 with h6 | h6
        · left; omega
        · right; rw [k3.1, h6]
          exact ⟨rfl, by rw [← k3.1]; exact k3.2 (by simpa using hf)⟩

theorem update.wakes (hB : BalWakes reg B) (n : Nat) : ∀ (b : Balance B) (w : W) r b' w', (Balance.update n b).run w = .ok (r, b') w' →
    reg w ≤ reg w' ∧ (r = .ok () → reg w < reg w' ∨ ∃ d w1 d', (B.D.poll d).run w1 = .ok (.ready none, d') w') := by
  induction n with
  | zero => intro b w r b' w' h; cases h
  | succ n ih =>
    intro b w r b' w' h
    obtain ⟨⟨p, d⟩, w1, h1, h2⟩ := run_bind_eq_ok.1 h
    have k := hB.disc _ _ _ _ _ h1
    match p, h1, h2 with
    | .pending, h1, h2 => cases h2; exact ⟨k.1, fun _ => .inl (k.2 rfl)⟩
    | .ready none, h1, h2 => cases h2; exact ⟨k.1, fun _ => .inr ⟨_, _, _, h1⟩⟩
    | .ready (some (.error e)), h1, h2 => cases h2; exact ⟨k.1, fun h => by cases h⟩
    | .ready (some (.ok ch)), h1, h2 =>
      have := ih _ _ _ _ _ h2
      exact ⟨by omega, fun h => by rcases this.2 h with h3 | h3; exacts [.inl (by omega), .inr h3]⟩

/-- a `Pending` balancer registered the waker, or discovery said that it has ended and there is no endpoint -/
theorem balance.wakes {n : Nat} (hB : BalWakes reg B) (h : Wakeful reg B.S) {b b' : Balance B} {w p w'} (hr : (b.pollReady n).run w = .ok (p, b') w') :
    reg w ≤ reg w' ∧ (p = .pending → reg w < reg w' ∨ b'.len = 0 ∧ ∃ d w1 d' w2, (B.D.poll d).run w1 = .ok (.ready none, d') w2) := by
  obtain ⟨⟨r, b1⟩, w1, h1, h2⟩ := run_bind_eq_ok.1 hr
  have k := update.wakes hB _ _ _ _ _ _ h1
  cases r with
  | error e => cases h2; exact ⟨k.1, fun h => by cases h⟩
  | ok u =>
    obtain ⟨b2, w2, h3, h4⟩ := run_bind_eq_ok.1 h2
    have k2 := promote.wakes hB h _ _ _ _ _ h3
    have k3 := select.wakes hB h _ _ _ _ _ _ h4
    refine ⟨by omega, fun hp => ?_⟩
    rcases k.2 rfl with h5 | ⟨d, w3, d', h5⟩
    · left; omega
    · by_cases h6 : 0 < b2.svcs.pending.length
      · have := k2.2 h6; left; omega
      · rcases k3.2 hp with h7 | h7
        · left; omega
        · right
          refine ⟨?_, d, w3, d', w1, h5⟩
          simp only [Balance.len, Cache.len, h7.1, h7.2, List.length_nil]; omega

theorem balance.wakeful {n : Nat} (hB : BalWakes reg B) (hE : ∀ d w d' w', (B.D.poll d).run w ≠ .ok (.ready none, d') w') (h : Wakeful reg B.S) : Wakeful reg (balance B n) where
  ready b := by
    intro w p b' w' hr
    have k := balance.wakes hB h hr
    refine ⟨k.1, fun hp => ?_⟩
    rcases k.2 hp with h1 | ⟨_, d, w1, d', w2, h1⟩
    · exact h1
    · exact absurd h1 (hE _ _ _ _)
  call b r := by
    refine Calm.bind ?_ (fun _ => Calm.pure _)
    unfold Balance.call
    split
    · exact Calm.panic _
    · refine Calm.bind ?_ (fun _ => Calm.pure _)
      unfold Cache.callReadyIndex
      split
      · exact Calm.panic _
      · exact (h.call _ _).bind (fun _ => Calm.pure _)
  poll := Wakes.mapFut h.poll (fun _ => Calm.pure _)

theorem makeBalance.wakeful {Tgt MErr : Type} {seed : Act W B.G.ρ} {M : Service W Tgt B.D.δ MErr} (hs : Calm reg seed) (h : Wakeful reg M) : Wakeful reg (makeBalance B seed M) where
  ready s := h.ready s
  call s t := h.call s t
  poll f := by
    refine (h.poll f).bind (fun _ => Calm.pure _) ?_
    rintro (e | d) f'
    · exact Wakes.ready _ _
    · exact Wakes.after hs (fun _ => Wakes.ready _ _)
end

/-! ## CallAll -/

/-- the queue registers the waker when it is pending, and says `Ready(None)` only when it is empty -/
structure QueueWakes (reg : W → Nat) {φ : Type} (D : DriveQ W φ α) (ok : D.Q → Prop) : Prop where
  empty : ok D.empty
  push : ∀ q f, ok q → ok (D.push q f)
  poll : ∀ q, Wakes reg (D.poll q)
  keep : ∀ q w p q' w', ok q → (D.poll q).run w = .ok (p, q') w' → ok q'
  none : ∀ q w q' w', ok q → (D.poll q).run w = .ok (.ready none, q') w' → D.isEmpty q' = true

section
variable {S : Service W Req Res Err} {R : ReqStream W Req} {D : DriveQ W S.φ (Except Err Res)} {ok : D.Q → Prop}

theorem CallAll.wakes (hD : QueueWakes reg D ok) (hR : ∀ t, Wakes reg (R.poll t)) (h : Wakeful reg S) (n : Nat) :
    ∀ (c : CallAll S R D) (w : W) p c' w', ok c.queue → (CallAll.pollNext n c).run w = .ok (p, c') w' → reg w ≤ reg w' ∧ (p = .pending → reg w < reg w') ∧ ok c'.queue := by
  induction n with
  | zero => intro c w p c' w' _ hr; cases hr
  | succ n ih =>
    -- a request is at hand
    have issue : ∀ (c : CallAll S R D) (w : W) p c' w', ok c.queue → (CallAll.issue (CallAll.pollNext n) c).run w = .ok (p, c') w' →
        reg w ≤ reg w' ∧ (p = .pending → reg w < reg w') ∧ ok c'.queue := by
      intro c w p c' w' hk hr
      obtain ⟨sv, st, q, eof, cu⟩ := c
      cases sv with
      | none => cases hr
      | some s =>
        obtain ⟨⟨r, s'⟩, w1, h1, h2⟩ := run_bind_eq_ok.1 hr
        have k := h.ready _ _ _ _ _ h1
        match r, h2 with
        | .pending, h2 => cases h2; exact ⟨k.1, fun _ => k.2 rfl, hk⟩
        | .ready (.error e), h2 => cases h2; exact ⟨k.1, (fun h => by cases h), hk⟩
        | .ready (.ok ()), h2 =>
          cases cu with
          | none => cases h2
          | some u =>
            obtain ⟨⟨f, s''⟩, w2, h3, h4⟩ := run_bind_eq_ok.1 h2
            have := h.call _ _ _ _ _ h3
            have := ih _ _ _ _ _ (hD.push _ _ hk) h4
            exact ⟨by omega, fun hp => by have := this.2.1 hp; omega, this.2.2⟩
    have fetch : ∀ (c : CallAll S R D) (w : W) p c' w', ok c.queue → (CallAll.fetch (CallAll.pollNext n) c).run w = .ok (p, c') w' →
        reg w ≤ reg w' ∧ (p = .pending → reg w < reg w' ∨ D.isEmpty c.queue = false) ∧ ok c'.queue := by
      intro c w p c' w' hk hr
      obtain ⟨sv, st, q, eof, cu⟩ := c
      cases eof with
      | true =>
        simp only [CallAll.fetch, if_true] at hr
        split at hr
        · cases hr; exact ⟨Nat.le_refl _, (fun h => by cases h), hk⟩
        · rename_i he; cases hr; exact ⟨Nat.le_refl _, fun _ => Or.inr (by simpa using he), hk⟩
      | false =>
        cases cu with
        | some u =>
          have := issue _ _ _ _ _ hk hr
          exact ⟨this.1, fun hp => Or.inl (this.2.1 hp), this.2.2⟩
        | none =>
          obtain ⟨⟨r, t'⟩, w1, h1, h2⟩ := run_bind_eq_ok.1 hr
          have k := hR _ _ _ _ _ h1
          match r, h2 with
          | .pending, h2 => cases h2; exact ⟨k.1, fun _ => Or.inl (k.2 rfl), hk⟩
          | .ready none, h2 =>
            have := ih { service := sv, stream := t', queue := q, eof := true, curr := none } _ _ _ _ hk h2
            exact ⟨by omega, fun hp => Or.inl (by have := this.2.1 hp; omega), this.2.2⟩
          | .ready (some u), h2 =>
            have := issue { service := sv, stream := t', queue := q, eof := false, curr := some u } _ _ _ _ hk h2
            exact ⟨by omega, fun hp => Or.inl (by have := this.2.1 hp; omega), this.2.2⟩
    intro c w p c' w' hk hr
    obtain ⟨⟨r, q⟩, w1, h1, h2⟩ := run_bind_eq_ok.1 hr
    have k := hD.poll _ _ _ _ _ h1
    have hk' := hD.keep _ _ _ _ _ hk h1
    match r, h1, h2 with
    | .pending, h1, h2 =>
      have := fetch _ _ _ _ _ hk' h2
      have := k.2 rfl
      exact ⟨by omega, fun _ => by omega, by tauto⟩
    | .ready none, h1, h2 =>
      have h3 := fetch _ _ _ _ _ hk' h2
      refine ⟨by omega, fun hp => ?_, h3.2.2⟩
      rcases h3.2.1 hp with h4 | h4
      · omega
      · have := hD.none _ _ _ _ hk h1; simp only at h4; rw [this] at h4; cases h4
    | .ready (some (.error e)), h1, h2 => cases h2; exact ⟨k.1, (fun h => by cases h), hk'⟩
    | .ready (some (.ok v)), h1, h2 => cases h2; exact ⟨k.1, (fun h => by cases h), hk'⟩

theorem pollSome.calm {φ : Type} {poll : φ → Act W (Poll α × φ)} (h : ∀ f, Calm reg (poll f)) (is : List Nat) : ∀ p : List φ, Calm reg (pollSome poll is p) := by
  induction is with
  | nil =>
    rintro (_ | ⟨e, p⟩)
    · exact Calm.pure _
    · exact Calm.pure _
  | cons i is ih =>
    rintro (_ | ⟨e, p⟩)
    · exact Calm.pure _
    · rw [pollSome]
      · split
        · exact ih _
        · refine (h _).bind ?_
          rintro ⟨_ | v, e''⟩
          · exact ih _
          · exact Calm.pure _
      · simp

theorem pollSome.none {φ : Type} {poll : φ → Act W (Poll α × φ)} (is : List Nat) : ∀ (p : List φ) w q w', (pollSome poll is p).run w = .ok (.ready none, q) w' → p = [] ∧ q = [] := by
  induction is with
  | nil =>
    rintro (_ | ⟨e, p⟩) w q w' h
    · cases h; exact ⟨rfl, rfl⟩
    · cases h
  | cons i is ih =>
    rintro (_ | ⟨e, p⟩) w q w' h
    · cases h; exact ⟨rfl, rfl⟩
    · rw [pollSome] at h
      · split at h
        · exact absurd (ih _ _ _ _ h).1 (by simp)
        · rename_i f _
          obtain ⟨⟨r, f'⟩, w1, h1, h2⟩ := run_bind_eq_ok.1 h
          cases r with
          | pending =>
            have := (ih _ _ _ _ h2).1
            rw [← List.length_eq_zero_iff] at this
            simp at this
          | ready v => cases h2
      · simp

theorem pollSome_pending {φ : Type} {poll : φ → Act W (Poll α × φ)} {is : List Nat} {p p' : List φ} {w w' : W} (h : (pollSome poll is p).run w = .ok (.pending, p') w') : 0 < p.length := by
  cases p with
  | nil => cases is <;> cases h
  | cons => simp

/-- `FuturesUnordered` registers the waker of the task first of all -/
theorem unorderedQ.wakes {φ : Type} {V : Sched W} {poll : φ → Act W (Poll α × φ)} (hV : ∀ n w, reg w ≤ reg (V.order n w).2) (hV' : ∀ n w, 0 < n → reg w < reg (V.order n w).2)
    (h : ∀ f, Calm reg (poll f)) : QueueWakes reg (unorderedQ V poll) (fun _ => True) where
  empty := trivial
  push _ _ _ := trivial
  poll q := by
    intro w p q' w' hr
    obtain ⟨o, w1, h1, h2⟩ := run_bind_eq_ok.1 hr
    cases h1
    have := pollSome.calm h _ _ _ _ _ h2
    have := hV q.length w
    refine ⟨by omega, fun hp => ?_⟩
    subst hp
    have := hV' q.length w (pollSome_pending h2)
    omega
  keep _ _ _ _ _ _ _ := trivial
  none q w q' w' _ hr := by
    obtain ⟨o, w1, h1, h2⟩ := run_bind_eq_ok.1 hr
    have := (pollSome.none _ _ _ _ _ h2).2
    subst this
    rfl

theorem pollIdx.calm {φ : Type} {poll : φ → Act W (Poll α × φ)} (h : ∀ f, Calm reg (poll f)) (x : Nat × φ) : Calm reg (pollIdx poll x) := (h _).bind (fun _ => Calm.pure _)

theorem pollIdx_keys {φ : Type} {poll : φ → Act W (Poll α × φ)} (is : List Nat) : ∀ (p : List (Nat × φ)) w r q w', (pollSome (pollIdx poll) is p).run w = .ok (r, q) w' →
    (r = .pending ∧ q.map Prod.fst = p.map Prod.fst) ∨ (r = .ready none ∧ p = [] ∧ q = []) ∨
      ∃ i v j, r = .ready (some (i, v)) ∧ (p.map Prod.fst)[j]? = some i ∧ q.map Prod.fst = (p.map Prod.fst).eraseIdx j := by
  induction is with
  | nil =>
    rintro (_ | ⟨e, p⟩) w r q w' h
    · cases h; exact .inr (.inl ⟨rfl, rfl, rfl⟩)
    · cases h; exact .inl ⟨rfl, rfl⟩
  | cons i is ih =>
    rintro (_ | ⟨e, p⟩) w r q w' h
    · cases h; exact .inr (.inl ⟨rfl, rfl, rfl⟩)
    · rw [pollSome] at h
      · split at h
        · exact ih _ _ _ _ _ h
        · rename_i f hf
          obtain ⟨⟨r', f'⟩, w1, h1, h2⟩ := run_bind_eq_ok.1 h
          obtain ⟨⟨r0, g⟩, w0, h3, h4⟩ := run_bind_eq_ok.1 h1
          have hk : ((e :: p).map Prod.fst)[i]? = some f.1 := by rw [List.getElem?_map, hf]; rfl
          cases r0 with
          | pending =>
            cases h4
            have key : (((e :: p).set i (f.1, g)).map Prod.fst) = (e :: p).map Prod.fst := by
              rw [List.map_set]
              obtain ⟨hi, he⟩ := List.getElem?_eq_some_iff.1 hk
              conv_lhs => rw [← he]
              exact List.set_getElem_self hi
            rcases ih _ _ _ _ _ h2 with ⟨rfl, h5⟩ | ⟨rfl, h5, _⟩ | ⟨a, v, j, rfl, h5, h6⟩
            · exact .inl ⟨rfl, by rw [h5, key]⟩
            · rw [← List.length_eq_zero_iff] at h5; simp at h5
            · rw [key] at h5 h6; exact .inr (.inr ⟨a, v, j, rfl, h5, h6⟩)
          | ready v =>
            cases h4
            cases h2
            refine .inr (.inr ⟨f.1, v, i, rfl, hk, ?_⟩)
            rw [List.eraseIdx_map]
      · simp

/-- the outputs that are out and the futures that run are those that have been pushed and not been yielded -/
def OrdOk {φ : Type} (q : OrdQ φ α) : Prop :=
  q.nextOut ≤ q.nextIn ∧ (q.run.map Prod.fst ++ q.done.map Prod.fst).Perm (List.range' q.nextOut (q.nextIn - q.nextOut))

theorem ordPerm_move {a b l : List Nat} {j i : Nat} (h : (a ++ b).Perm l) (hj : a[j]? = some i) : (i :: (a.eraseIdx j ++ b)).Perm l := by
  obtain ⟨hj', rfl⟩ := List.getElem?_eq_some_iff.1 hj
  exact ((List.getElem_cons_eraseIdx_perm hj').append_right b).trans h

theorem OrdOk.next {n m : Nat} {l : List Nat} (hle : n ≤ m) (h : (n :: l).Perm (List.range' n (m - n))) : n + 1 ≤ m ∧ l.Perm (List.range' (n + 1) (m - (n + 1))) := by
  have hl := h.length_eq
  simp only [List.length_cons, List.length_range'] at hl
  have e : m - n = (m - (n + 1)) + 1 := by omega
  rw [e, List.range'_succ] at h
  exact ⟨by omega, (List.perm_cons _).1 h⟩

theorem ordLoop.good {φ : Type} {V : Sched W} {poll : φ → Act W (Poll α × φ)} (hV : ∀ n w, reg w ≤ reg (V.order n w).2) (hV' : ∀ n w, 0 < n → reg w < reg (V.order n w).2)
    (h : ∀ f, Calm reg (poll f)) (m : Nat) : ∀ (q : OrdQ φ α) w p q' w', OrdOk q → (∀ e ∈ q.done, e.1 ≠ q.nextOut) → (OrdQ.loop V poll m q).run w = .ok (p, q') w' →
      reg w ≤ reg w' ∧ (p = .pending → reg w < reg w') ∧ OrdOk q' ∧ (p = .ready none → q'.run = [] ∧ q'.done = []) := by
  induction m with
  | zero => intro q w p q' w' _ _ h; cases h
  | succ m ih =>
    intro q w p q' w' hok hne hr
    obtain ⟨o, w1, h1, h2⟩ := run_bind_eq_ok.1 hr
    obtain ⟨⟨r, l⟩, w2, h3, h4⟩ := run_bind_eq_ok.1 h2
    cases h1
    have k1 := pollSome.calm (pollIdx.calm h) _ _ _ _ _ h3
    have k0 := hV q.run.length w
    rcases pollIdx_keys _ _ _ _ _ _ h3 with ⟨rfl, h5⟩ | ⟨rfl, h5, h6⟩ | ⟨i, v, j, rfl, h5, h6⟩
    · cases h4
      have := hV' _ w (pollSome_pending h3)
      exact ⟨by omega, fun _ => by omega, ⟨hok.1, by simpa only [h5] using hok.2⟩, (fun h => by cases h)⟩
    · cases h4
      refine ⟨by omega, (fun h => by cases h), ⟨hok.1, ?_⟩, fun _ => ⟨h6, ?_⟩⟩
      · have hp := hok.2
        rw [h5] at hp
        simpa only [h6] using hp
      · have hp := hok.2
        rw [h5] at hp
        simp only [List.map_nil, List.nil_append] at hp
        rcases Nat.eq_zero_or_pos (q.nextIn - q.nextOut) with h7 | h7
        · rw [h7] at hp
          have := hp.length_eq
          simp only [List.length_map, List.range'_zero, List.length_nil, List.length_eq_zero_iff] at this
          exact this
        · exfalso
          have : q.nextOut ∈ q.done.map Prod.fst := hp.mem_iff.2 (by rw [List.mem_range']; exact ⟨0, h7, rfl⟩)
          obtain ⟨e, he, h8⟩ := List.mem_map.1 this
          exact hne e he h8
    · dsimp only at h4
      have hp := ordPerm_move hok.2 h5
      rw [← h6] at hp
      split at h4
      · rename_i hi
        subst hi
        cases h4
        exact ⟨by omega, (fun h => by cases h), OrdOk.next hok.1 hp, (fun h => by cases h)⟩
      · rename_i hi
        have k2 := ih { q with run := l, done := q.done ++ [(i, v)] } _ _ _ _ ⟨hok.1, ?_⟩ ?_ h4
        · exact ⟨by omega, (fun hp => by have := k2.2.1 hp; omega), k2.2.2⟩
        · refine List.Perm.trans ?_ hp
          simp only [List.map_append, List.map_cons, List.map_nil, ← List.append_assoc]
          exact List.perm_append_singleton _ _
        · intro e he
          rcases List.mem_append.1 he with he | he
          · exact hne e he
          · simp only [List.mem_singleton] at he
            subst he
            exact hi

/-- `FuturesOrdered` -/
theorem orderedQ.wakes {φ : Type} {V : Sched W} {poll : φ → Act W (Poll α × φ)} (hV : ∀ n w, reg w ≤ reg (V.order n w).2) (hV' : ∀ n w, 0 < n → reg w < reg (V.order n w).2)
    (h : ∀ f, Calm reg (poll f)) : QueueWakes reg (orderedQ V poll) OrdOk := by
  have main : ∀ (q : OrdQ φ α) w p q' w', ((orderedQ V poll).poll q).run w = .ok (p, q') w' →
      (∃ v, p = .ready (some v) ∧ q'= { q with done := q.done.eraseP (fun e => e.1 == q.nextOut), nextOut := q.nextOut + 1 } ∧ w' = w ∧ ∃ e ∈ q.done, e.1 = q.nextOut) ∨
      ((∀ e ∈ q.done, e.1 ≠ q.nextOut) ∧ (OrdQ.loop V poll (q.run.length + 1) q).run w = .ok (p, q') w') := by
    intro q w p q' w' hr
    simp only [orderedQ] at hr
    split at hr
    · rename_i e he
      cases hr
      exact .inl ⟨_, rfl, rfl, rfl, e, List.mem_of_find?_eq_some he, by simpa using List.find?_some he⟩
    · rename_i he
      exact .inr ⟨by simpa using List.find?_eq_none.1 he, hr⟩
  have wk : ∀ (m : Nat) (q : OrdQ φ α) w p q' w', (OrdQ.loop V poll m q).run w = .ok (p, q') w' → reg w ≤ reg w' ∧ (p = .pending → reg w < reg w') := by
    intro m
    induction m with
    | zero => intro q w p q' w' h; cases h
    | succ m ih =>
      intro q w p q' w' hr
      obtain ⟨o, w1, h1, h2⟩ := run_bind_eq_ok.1 hr
      obtain ⟨⟨r, l⟩, w2, h3, h4⟩ := run_bind_eq_ok.1 h2
      cases h1
      have k1 := pollSome.calm (pollIdx.calm h) _ _ _ _ _ h3
      have k0 := hV q.run.length w
      match r, h3, h4 with
      | .pending, h3, h4 =>
        cases h4
        have := hV' _ w (pollSome_pending h3)
        exact ⟨by omega, fun _ => by omega⟩
      | .ready none, h3, h4 => cases h4; exact ⟨by omega, (fun h => by cases h)⟩
      | .ready (some (i, v)), h3, h4 =>
        dsimp only at h4
        split at h4
        · cases h4; exact ⟨by omega, (fun h => by cases h)⟩
        · have := ih _ _ _ _ _ h4
          exact ⟨by omega, fun h => by have := this.2 h; omega⟩
  refine ⟨⟨Nat.le_refl _, List.Perm.refl _⟩, ?_, ?_, ?_, ?_⟩
  · rintro q f ⟨h1, h2⟩
    refine ⟨Nat.le_succ_of_le h1, ?_⟩
    show ((q.run ++ [(q.nextIn, f)]).map Prod.fst ++ q.done.map Prod.fst).Perm (List.range' q.nextOut (q.nextIn + 1 - q.nextOut))
    have e : q.nextIn + 1 - q.nextOut = (q.nextIn - q.nextOut) + 1 := by omega
    rw [e, List.range'_concat, List.map_append]
    have e2 : q.nextOut + 1 * (q.nextIn - q.nextOut) = q.nextIn := by omega
    rw [e2]
    simp only [List.map_cons, List.map_nil, List.append_assoc]
    refine List.Perm.trans ?_ (h2.append_right _)
    rw [List.append_assoc]
    exact List.Perm.append_left _ List.perm_append_comm
  · intro q w p q' w' hr
    rcases main _ _ _ _ _ hr with ⟨v, rfl, _, rfl, _⟩ | ⟨_, h2⟩
    · exact ⟨Nat.le_refl _, (fun h => by cases h)⟩
    · exact wk _ _ _ _ _ _ h2
  · intro q w p q' w' hok hr
    rcases main _ _ _ _ _ hr with ⟨v, rfl, rfl, rfl, e, he, h3⟩ | ⟨h1, h2⟩
    · have hp : (q.nextOut :: (q.run.map Prod.fst ++ (q.done.eraseP (fun e => e.1 == q.nextOut)).map Prod.fst)).Perm (List.range' q.nextOut (q.nextIn - q.nextOut)) := by
        refine List.Perm.trans ?_ hok.2
        refine List.Perm.trans List.perm_middle.symm (List.Perm.append_left _ ?_)
        obtain ⟨a, l1, l2, _, h5, h6, h7⟩ := List.exists_of_eraseP (p := fun e => e.1 == q.nextOut) he (by simpa using h3)
        rw [h7, h6]
        have h5 : a.1 = q.nextOut := by simpa using h5
        simp only [List.map_append, List.map_cons, h5]
        exact List.perm_middle.symm
      exact OrdOk.next hok.1 hp
    · exact (ordLoop.good hV hV' h _ _ _ _ _ _ hok h1 h2).2.2.1
  · intro q w q' w' hok hr
    rcases main _ _ _ _ _ hr with ⟨v, h0, _⟩ | ⟨h1, h2⟩
    · cases h0
    · have := (ordLoop.good hV hV' h _ _ _ _ _ _ hok h1 h2).2.2.2 rfl
      show (q'.run.isEmpty && q'.done.isEmpty) = true
      rw [this.1, this.2]; rfl
end

end Tower
