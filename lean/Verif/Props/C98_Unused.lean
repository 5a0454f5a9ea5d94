import Verif.Props.C88_Laws
import Verif.Model.Load

/-! # C98: a middleware whose trigger never fires is not noticed -/

namespace Tower
open Act
variable {W : Type}

/-! ## Specification -/

/-- timers never fire, and to wait for one changes nothing -/
def Clock.Frozen (C : Clock W) : Prop := ∀ d w, C.fired d w = false ∧ C.arm d w = w

/-- `poll_ready` never returns `Pending` -/
def Service.NeverPending {Q R E : Type} (S : Service W Q R E) : Prop :=
  ∀ s w s' w', (S.pollReady s).run w ≠ .ok (.pending, s') w'

/-- once it has been found ready, to ask again gives the same answer and changes nothing -/
def Service.Settles {Q R E : Type} (S : Service W Q R E) : Prop :=
  ∀ s w s' w', (S.pollReady s).run w = .ok (.ready (.ok ()), s') w' → ∀ v, (S.pollReady s').run v = .ok (.ready (.ok ()), s') v

/-- a semaphore that always has a permit; that it is taken changes nothing else -/
def SemView.Plenty (V : SemView W) : Prop := ∀ a w, (V.pollAcquire a w).1.1 = .ready true ∧ (V.pollAcquire a w).2 = w

def Op.isCall {W Q : Type} : Op W Q → Bool
  | .call .. => true
  | _ => false

def Op.isClone {W Q : Type} : Op W Q → Bool
  | .clone .. => true
  | _ => false

/-! ## Theorems -/

theorem Act.Rel.upon {α β γ : Type} {r : β → γ → Prop} {P : α → Prop} {x : Act W α} {f : α → Act W β} {g : α → Act W γ}
    (hx : ∀ w a w', x.run w = .ok a w' → P a) (h : ∀ a, P a → Rel r (f a) (g a)) : Rel r (x >>= f) (x >>= g) := by
  intro w
  rw [run_bind, run_bind]
  have hw := hx w
  cases hr : x.run w with
  | ok a w' => exact h a (hw a w' hr) w'
  | panic m => exact Eq.refl m
  | spin => exact trivial

/-- **C98, timeout.** If the timer does not fire, `Timeout` only wraps the errors. -/
theorem C98_timeout (x : Site W ⟨Q, R, E⟩) (C : Clock W) (d : Nat) (hC : C.Frozen) :
    (x.timeout C d).SameAs (x.mapErr (fun e w => (TimeoutErr.inner e, w))) := by
  refine Site.sameAs_of (x := x.timeout C d) (y := x.mapErr (fun e w => (TimeoutErr.inner e, w))) (rs := fun _ => Eq)
      (rf := fun (a : x.1.S.φ × Nat) (b : Option x.1.S.φ) => b = some a.1) rfl
      { ready := ?_, call := ?_, poll := ?_, clone := ?_ } rfl
  · rintro b s _ ⟨⟩
    refine Rel.both ?_
    rintro ⟨p, s'⟩
    match p with
    | .pending => exact Rel.pure ⟨rfl, fun _ => rfl, fun _ => rfl⟩
    | .ready (.ok ()) => exact Rel.pure ⟨rfl, fun _ => rfl, fun _ => rfl⟩
    | .ready (.error e) => exact fun w => ⟨⟨rfl, fun _ => rfl, fun _ => rfl⟩, rfl⟩
  · rintro s _ r ⟨⟩
    exact Rel.both fun a => fun w => ⟨⟨rfl, rfl⟩, rfl⟩
  · rintro ⟨y, n⟩ _ ⟨⟩
    refine Rel.both ?_
    rintro ⟨p, f'⟩
    match p with
    | .ready (.ok v) => exact fun w => ⟨⟨rfl, by intro h; cases h⟩, rfl⟩
    | .ready (.error v) => exact fun w => ⟨⟨rfl, by intro h; cases h⟩, rfl⟩
    | .pending =>
      intro w
      obtain ⟨h1, h2⟩ := hC n w
      simp only [run_bind, run_get, h1, Bool.false_eq_true, if_false, run_modify, run_pure, h2]
      exact ⟨⟨rfl, fun _ => rfl⟩, rfl⟩
  · rintro b s _ ⟨⟩; rfl

/-- **C98, load_shed.** Over a service that is never found pending, `LoadShed` only wraps the errors. -/
theorem C98_load_shed (x : Site W ⟨Q, R, E⟩) (hS : x.1.S.NeverPending) :
    x.loadShed.SameAs (x.mapErr (fun e w => (ShedErr.inner e, w))) := by
  refine Site.sameAs_of (x := x.loadShed) (y := x.mapErr (fun e w => (ShedErr.inner e, w)))
      (rs := fun b (s : ShedState x.1.S.σ) (t : x.1.S.σ) => s.inner = t ∧ (b = true → s.isReady = true))
      (rf := fun (a : Option x.1.S.φ) (b : Option x.1.S.φ) => ∃ y, a = some y ∧ b = some y) rfl
      { ready := ?_, call := ?_, poll := ?_, clone := ?_ } ⟨rfl, by intro h; cases h⟩
  · rintro b ⟨s, m⟩ _ ⟨rfl, _⟩
    refine Rel.upon (P := fun a => a.1 ≠ .pending) ?_ ?_
    · rintro w ⟨p, s'⟩ w' hr hp
      dsimp only at hp; subst hp
      exact hS s w s' w' hr
    · rintro ⟨p, s'⟩ hp
      match p with
      | .pending => exact absurd rfl hp
      | .ready (.ok ()) => exact fun w => ⟨⟨rfl, (fun _ => ⟨rfl, fun _ => rfl⟩), by intro h; cases h⟩, rfl⟩
      | .ready (.error e) => exact fun w => ⟨⟨rfl, (by intro h; cases h), by intro h; cases h⟩, rfl⟩
  · rintro ⟨s, m⟩ _ r ⟨rfl, h⟩
    have := h rfl
    dsimp only at this; subst this
    exact Rel.both fun a => Rel.pure ⟨⟨_, rfl, rfl⟩, rfl, by intro h; cases h⟩
  · rintro _ _ ⟨y, rfl, rfl⟩
    refine Rel.both ?_
    rintro ⟨p, f'⟩
    match p with
    | .pending => exact Rel.pure ⟨rfl, fun _ => ⟨_, rfl, rfl⟩⟩
    | .ready (.ok v) => exact fun w => ⟨⟨rfl, by intro h; cases h⟩, rfl⟩
    | .ready (.error e) => exact fun w => ⟨⟨rfl, by intro h; cases h⟩, rfl⟩
  · rintro b ⟨s, m⟩ _ ⟨rfl, h⟩; exact ⟨rfl, by intro h; cases h⟩

/-- **C98, concurrency_limit.** A limit whose semaphore always has a permit is not noticed. -/
theorem C98_concurrency_limit (x : Site W t) (debug : Bool) (V : SemView W) (hV : V.Plenty) (a : V.α) :
    Site.SameAs (t := t) (⟨ConcurrencyLimit debug V x.1.S, ⟨x.1.s, a, false⟩⟩, x.2) x := by
  refine Site.sameAs_of (x := (⟨ConcurrencyLimit debug V x.1.S, ⟨x.1.s, a, false⟩⟩, x.2)) (y := x)
      (rs := fun b (s : ConcState x.1.S.σ V.α) (t : x.1.S.σ) => s.inner = t ∧ (b = true → s.permit = true)) (rf := Eq) rfl
      { ready := ?_, call := ?_, poll := ?_, clone := ?_ } ⟨rfl, by intro h; cases h⟩
  · rintro b ⟨s, a, m⟩ _ ⟨rfl, _⟩
    cases m with
    | true => exact Rel.left fun a => Rel.pure ⟨rfl, fun _ => ⟨rfl, fun _ => rfl⟩, fun _ => ⟨rfl, by intro h; cases h⟩⟩
    | false =>
      intro w
      obtain ⟨h1, h2⟩ := hV a w
      have h3 := (Rel.left (x := x.1.S.pollReady s) (r := ReadyRel fun b (s : ConcState x.1.S.σ V.α) (t : x.1.S.σ) => s.inner = t ∧ (b = true → s.permit = true))
        (f := fun c => pure (c.1, ⟨c.2, (V.pollAcquire a w).1.2, true⟩))
        fun c => Rel.pure ⟨rfl, fun _ => ⟨rfl, fun _ => rfl⟩, fun _ => ⟨rfl, by intro h; cases h⟩⟩) w
      have e : ((ConcurrencyLimit debug V x.1.S).pollReady ⟨s, a, false⟩).run w =
          (x.1.S.pollReady s >>= fun c => pure (c.1, (⟨c.2, (V.pollAcquire a w).1.2, true⟩ : ConcState x.1.S.σ V.α))).run w := by
        simp only [ConcurrencyLimit, Bool.false_eq_true, if_false, run_bind, run_lift, h1, h2, Bool.not_true, Bool.and_false]
      rw [e]
      exact h3
  · rintro ⟨s, a, m⟩ _ r ⟨rfl, h⟩
    have := h rfl
    dsimp only at this; subst this
    exact Rel.left fun c => Rel.pure ⟨rfl, rfl, by intro h; cases h⟩
  · rintro s _ ⟨⟩; exact Rel.refl' fun _ => ⟨rfl, fun _ => rfl⟩
  · rintro b ⟨s, a, m⟩ _ ⟨rfl, _⟩; exact ⟨rfl, by intro h; cases h⟩

/-- **C98, either, optional, constant load.** `Either` is the service it holds, on either side; `Optional` with a service only wraps the errors; `Constant` is its service. -/
theorem C98_either (x : Site W t) (O : Service W t.Req t.Res t.Err) :
    Site.SameAs (t := t) (⟨Either x.1.S O, .inl x.1.s⟩, x.2) x ∧ Site.SameAs (t := t) (⟨Either O x.1.S, .inr x.1.s⟩, x.2) x := by
  constructor
  · refine Site.sameAs_of (x := (⟨Either x.1.S O, .inl x.1.s⟩, x.2)) (y := x) (rs := fun _ (b : x.1.S.σ ⊕ O.σ) s => b = .inl s) (rf := fun (b : x.1.S.φ ⊕ O.φ) f => b = .inl f) rfl ?_ rfl
    exact {
      ready := by rintro b _ s ⟨⟩; exact Rel.left fun a => Rel.pure ⟨rfl, fun _ => rfl, fun _ => rfl⟩
      call := by rintro _ s r ⟨⟩; exact Rel.left fun a => Rel.pure ⟨rfl, rfl⟩
      poll := by rintro _ s ⟨⟩; exact Rel.left fun a => Rel.pure ⟨rfl, fun _ => rfl⟩
      clone := by rintro b _ s ⟨⟩; rfl }
  · refine Site.sameAs_of (x := (⟨Either O x.1.S, .inr x.1.s⟩, x.2)) (y := x) (rs := fun _ (b : O.σ ⊕ x.1.S.σ) s => b = .inr s) (rf := fun (b : O.φ ⊕ x.1.S.φ) f => b = .inr f) rfl ?_ rfl
    exact {
      ready := by rintro b _ s ⟨⟩; exact Rel.left fun a => Rel.pure ⟨rfl, fun _ => rfl, fun _ => rfl⟩
      call := by rintro _ s r ⟨⟩; exact Rel.left fun a => Rel.pure ⟨rfl, rfl⟩
      poll := by rintro _ s ⟨⟩; exact Rel.left fun a => Rel.pure ⟨rfl, fun _ => rfl⟩
      clone := by rintro b _ s ⟨⟩; rfl }

theorem C98_optional (x : Site W ⟨Q, R, E⟩) :
    Site.SameAs (t := ⟨Q, R, OptErr E⟩) (⟨Optional x.1.S, some x.1.s⟩, x.2) (x.mapErr (fun e w => (OptErr.inner e, w))) := by
  refine Site.sameAs_of (t := ⟨Q, R, OptErr E⟩) (x := (⟨Optional x.1.S, some x.1.s⟩, x.2)) (y := x.mapErr (fun e w => (OptErr.inner e, w)))
      (rs := fun _ (a : Option x.1.S.σ) (b : x.1.S.σ) => a = some b) (rf := fun (a b : Option x.1.S.φ) => ∃ y, a = some y ∧ b = some y) rfl
      { ready := ?_, call := ?_, poll := ?_, clone := ?_ } rfl
  · rintro b _ s ⟨⟩
    refine Rel.both ?_
    rintro ⟨p, s'⟩
    match p with
    | .pending => exact Rel.pure ⟨rfl, fun _ => rfl, fun _ => rfl⟩
    | .ready (.ok ()) => exact Rel.pure ⟨rfl, fun _ => rfl, fun _ => rfl⟩
    | .ready (.error e) => exact fun w => ⟨⟨rfl, fun _ => rfl, fun _ => rfl⟩, rfl⟩
  · rintro _ s r ⟨⟩
    exact Rel.both fun a => Rel.pure ⟨⟨_, rfl, rfl⟩, rfl⟩
  · rintro _ _ ⟨y, rfl, rfl⟩
    refine Rel.both ?_
    rintro ⟨p, f'⟩
    match p with
    | .pending => exact Rel.pure ⟨rfl, fun _ => ⟨_, rfl, rfl⟩⟩
    | .ready (.ok v) => exact fun w => ⟨⟨rfl, by intro h; cases h⟩, rfl⟩
    | .ready (.error e) => exact fun w => ⟨⟨rfl, by intro h; cases h⟩, rfl⟩
  · rintro b _ s ⟨⟩; rfl

theorem C98_constant {M : Type} (x : Site W ⟨Q, R, E⟩) (m : M) : Site.SameAs (t := ⟨Q, R, E⟩) (⟨Constant M x.1.S, (x.1.s, m)⟩, x.2) x := by
  refine Site.sameAs_of (t := ⟨Q, R, E⟩) (x := (⟨Constant M x.1.S, (x.1.s, m)⟩, x.2)) (y := x) (rs := fun _ (a : x.1.S.σ × M) b => a.1 = b) (rf := Eq) rfl ?_ rfl
  exact {
    ready := by rintro b s _ ⟨⟩; exact Rel.left fun a => Rel.pure ⟨rfl, fun _ => rfl, fun _ => rfl⟩
    call := by rintro s _ r ⟨⟩; exact Rel.left fun a => Rel.pure ⟨rfl, rfl⟩
    poll := by rintro s _ ⟨⟩; exact Rel.refl' fun _ => ⟨rfl, fun _ => rfl⟩
    clone := by rintro b s _ ⟨⟩; rfl }

/-- **C98, steer.** `Steer` over one service that settles is that service (if it is not cloned: a clone of a `Steer` does not ask the cloned service, C03). -/
theorem C98_steer (x : Site W t) (hS : x.1.S.Settles) (hc : ∀ s, x.1.S.clone s = s) :
    Site.SameAs (t := t) (⟨Steer x.1.S (fun _ _ w => (0, w)), Steer.new [x.1.s]⟩, x.2) x := by
  have hready : ∀ (s : x.1.S.σ), Rel (ReadyRel fun (b : Bool) (a : SteerState x.1.S.σ) (s : x.1.S.σ) => a.services = [s] ∧
      ((b = false ∧ a.notReady = [0]) ∨ (a.notReady = [] ∧ ∀ v, (x.1.S.pollReady s).run v = .ok (.ready (.ok ()), s) v)))
      (steerPoll x.1.S [s] [0]) (x.1.S.pollReady s) := by
    intro s w
    simp only [steerPoll, List.getElem?_cons_zero, run_bind]
    have hset := hS s w
    cases hr : (x.1.S.pollReady s).run w with
    | ok a w' =>
      obtain ⟨p, s'⟩ := a
      match p with
      | .pending => exact ⟨⟨rfl, (by intro h; cases h), fun _ => ⟨rfl, .inl ⟨rfl, rfl⟩⟩⟩, rfl⟩
      | .ready (.ok ()) => exact ⟨⟨rfl, (fun _ => ⟨rfl, .inr ⟨rfl, hset s' w' hr⟩⟩), by intro h; cases h⟩, rfl⟩
      | .ready (.error e) => exact ⟨⟨rfl, (by intro h; cases h), by intro h; cases h⟩, rfl⟩
    | panic => exact rfl
    | spin => exact trivial
  refine Site.sameAs_of (x := (⟨Steer x.1.S (fun _ _ w => (0, w)), Steer.new [x.1.s]⟩, x.2)) (y := x)
      (rs := fun (b : Bool) (a : SteerState x.1.S.σ) (s : x.1.S.σ) => a.services = [s] ∧
        ((b = false ∧ a.notReady = [0]) ∨ (a.notReady = [] ∧ ∀ v, (x.1.S.pollReady s).run v = .ok (.ready (.ok ()), s) v)))
      (rf := Eq) rfl { ready := ?_, call := ?_, poll := ?_, clone := ?_ } ⟨rfl, .inl ⟨rfl, rfl⟩⟩
  · rintro b ⟨l, n⟩ s ⟨h1, h2⟩
    dsimp only at h1 h2; subst h1
    rcases h2 with ⟨_, rfl⟩ | ⟨rfl, h2⟩
    · exact hready s
    · intro w
      rw [h2 w]
      exact ⟨⟨rfl, (fun _ => ⟨rfl, .inr ⟨rfl, h2⟩⟩), by intro h; cases h⟩, rfl⟩
  · rintro ⟨l, n⟩ s r ⟨h1, h2⟩
    dsimp only at h1 h2; subst h1
    rcases h2 with ⟨h, _⟩ | ⟨rfl, _⟩
    · cases h
    · exact Rel.left (x := x.1.S.call s r) (f := fun a => pure (a.1, (⟨[a.2], [0]⟩ : SteerState x.1.S.σ))) fun a => Rel.pure ⟨rfl, rfl, .inl ⟨rfl, rfl⟩⟩
  · rintro s _ ⟨⟩; exact Rel.refl' fun _ => ⟨rfl, fun _ => rfl⟩
  · rintro b ⟨l, n⟩ s ⟨h1, h2⟩
    dsimp only at h1 h2; subst h1
    refine ⟨by show List.map _ _ = _; simp [hc], ?_⟩
    rw [hc s]
    rcases h2 with ⟨_, h2⟩ | h2
    · exact .inl ⟨rfl, h2⟩
    · exact .inr h2

/-! ### Rate limit -/

theorem look_poll_nothing {S : Service W Q T E} {x : Sess S} {i : Nat} {w : W} {ops : List (Op W Q)} (h : x.fs[i]? = none ∨ x.fs[i]? = some none) :
    look S x (.poll i w :: ops) = .nothing :: look S x ops := by
  rcases h with h | h <;> simp only [look, h]

theorem look_poll_some {S : Service W Q T E} {x : Sess S} {i : Nat} {w : W} {ops : List (Op W Q)} {f : S.φ} (h : x.fs[i]? = some (some f)) :
    look S x (.poll i w :: ops) = .poll (((S.poll f).run w).void Prod.fst) ::
      match (S.poll f).run w with
      | .ok (.pending, f') _ => look S { x with fs := x.fs.set i (some f') } ops
      | .ok (.ready _, _) _ => look S { x with fs := x.fs.set i none } ops
      | _ => [] := by
  simp only [look, h]; rfl

theorem rate_ready (C : Clock W) (R : Rate) {S : Service W Q T E} (s : S.σ) (u k n : Nat) (w : W) : ((RateLimit C R S).pollReady ⟨s, .ready u k, n⟩).run w =
    match (S.pollReady s).run w with | .ok (p, i) w' => .ok (p, ⟨i, .ready u k, n⟩) w' | .panic m => .panic m | .spin => .spin := by
  have : (RateLimit C R S).pollReady ⟨s, .ready u k, n⟩ = S.pollReady s >>= fun a => pure (a.1, ⟨a.2, .ready u k, n⟩) := rfl
  rw [this, run_bind]
  cases (S.pollReady s).run w <;> rfl

theorem rate_quiet (C : Clock W) (R : Rate) {S : Service W Q T E} (ops : List (Op W Q)) :
    ∀ (s : S.σ) (u k n : Nat) (m : Mode) (fs : List (Option S.φ)), (ops.countP Op.isCall < k) → ops.countP Op.isCall < R.num → (∀ op ∈ ops, op.isClone = false) →
      look (RateLimit C R S) ⟨[(⟨s, .ready u k, n⟩, m)], fs⟩ ops = look S ⟨[(s, m)], fs⟩ ops := by
  induction ops with
  | nil => intros; rfl
  | cons op ops ih =>
    intro s u k n m fs hk hR hc
    have hc' : ∀ op ∈ ops, op.isClone = false := fun o ho => hc o (List.mem_cons_of_mem _ ho)
    have hle : ops.countP Op.isCall ≤ (op :: ops).countP Op.isCall := by rw [List.countP_cons]; omega
    have hk' := Nat.lt_of_le_of_lt hle hk
    have hR' := Nat.lt_of_le_of_lt hle hR
    cases op with
    | clone h => exact absurd (hc _ List.mem_cons_self) (by simp [Op.isClone])
    | poll i w =>
      match hf : fs[i]? with
      | none => exact (look_poll_nothing (S := RateLimit C R S) (x := ⟨[(⟨s, .ready u k, n⟩, m)], fs⟩) (.inl hf)).trans <|
                  ((congrArg (List.cons _) (ih s u k n m fs hk' hR' hc')).trans (look_poll_nothing (S := S) (x := ⟨[(s, m)], fs⟩) (.inl hf)).symm)
      | some none => exact (look_poll_nothing (S := RateLimit C R S) (x := ⟨[(⟨s, .ready u k, n⟩, m)], fs⟩) (.inr hf)).trans <|
                  ((congrArg (List.cons _) (ih s u k n m fs hk' hR' hc')).trans (look_poll_nothing (S := S) (x := ⟨[(s, m)], fs⟩) (.inr hf)).symm)
      | some (some f) =>
        refine (look_poll_some (S := RateLimit C R S) (x := ⟨[(⟨s, .ready u k, n⟩, m)], fs⟩) hf).trans
          (Eq.trans (congrArg (List.cons _) ?_) (look_poll_some (S := S) (x := ⟨[(s, m)], fs⟩) hf).symm)
        have e : ((RateLimit C R S).poll f).run w = (S.poll f).run w := rfl
        rw [e]
        cases hr : (S.poll f).run w with
        | ok a w' =>
          obtain ⟨p, f'⟩ := a
          cases p with
          | pending => exact ih s u k n m _ hk' hR' hc'
          | ready v => exact ih s u k n m _ hk' hR' hc'
        | panic => rfl
        | spin => rfl
    | ready h w =>
      cases h with
      | succ h => simp only [look, List.getElem?_cons_succ, List.getElem?_nil]; exact congrArg (List.cons _) (ih s u k n m fs hk' hR' hc')
      | zero =>
        cases m with
        | failed => simp only [look, List.getElem?_cons_zero]; exact congrArg (List.cons _) (ih s u k n _ fs hk' hR' hc')
        | _ =>
          simp only [look, List.getElem?_cons_zero]
          rw [rate_ready]
          cases hr : (S.pollReady s).run w with
          | ok a w' =>
            obtain ⟨p, s'⟩ := a
            match p with
            | .pending => exact congrArg (List.cons _) (ih s' u k n _ fs hk' hR' hc')
            | .ready (.ok ()) => exact congrArg (List.cons _) (ih s' u k n _ fs hk' hR' hc')
            | .ready (.error er) => exact congrArg (List.cons _) (ih s' u k n _ fs hk' hR' hc')
          | panic => rfl
          | spin => rfl
    | call h r w =>
      cases h with
      | succ h => simp only [look, List.getElem?_cons_succ, List.getElem?_nil]; exact congrArg (List.cons _) (ih s u k n m fs hk' hR' hc')
      | zero =>
        cases m with
        | ready =>
          have hcnt : (Op.call 0 r w :: ops).countP Op.isCall = ops.countP Op.isCall + 1 := by simp [List.countP_cons, Op.isCall]
          rw [hcnt] at hk hR
          obtain ⟨u', k', hk2, ht⟩ : ∃ u' k', ops.countP Op.isCall < k' ∧ rateTake R (C.now w) (.ready u k) n = some (.ready u' k', n) := by
            by_cases hn : C.now w ≥ u
            · exact ⟨C.now w + R.per, R.num - 1, by omega, by simp only [rateTake, if_pos hn]; rw [if_pos (by omega)]⟩
            · exact ⟨u, k - 1, by omega, by simp only [rateTake, if_neg hn]; rw [if_pos (by omega)]⟩
          have e : ((RateLimit C R S).call ⟨s, .ready u k, n⟩ r).run w =
              match (S.call s r).run w with | .ok (f, i) w' => .ok (f, ⟨i, .ready u' k', n⟩) w' | .panic m => .panic m | .spin => .spin := by
            simp only [RateLimit, run_bind, run_get, ht]
            cases (S.call s r).run w <;> rfl
          simp only [look, List.getElem?_cons_zero]
          rw [e]
          cases hr : (S.call s r).run w with
          | ok a w' => exact congrArg (List.cons _) (ih a.2 u' k' n _ _ hk2 (by omega) hc')
          | panic => rfl
          | spin => rfl
        | _ => simp only [look, List.getElem?_cons_zero]; exact congrArg (List.cons _) (ih s u k n _ fs hk' hR' hc')

/-- **C98, rate_limit.** A user that makes fewer calls than one period allows does not notice the rate limit (which is not `Clone`), whenever it makes them and whatever the clock does. -/
theorem C98_rate_limit (x : Site W t) (C : Clock W) (R : Rate) (ops : List (Op W t.Req)) (hn : ops.countP Op.isCall < R.num) (hc : ∀ op ∈ ops, op.isClone = false) :
    look (x.rateLimit C R).1.S ⟨[((x.rateLimit C R).1.s, .idle)], []⟩ ops = look x.1.S ⟨[(x.1.s, .idle)], []⟩ ops :=
  rate_quiet C R ops x.1.s _ R.num _ _ [] hn hn hc

namespace Demo98

/-- the number of the world is the time; a request is answered with its double, counted in time; requests above 9 fail -/
@[reducible] def dbl : Service Nat Nat Nat String where
  σ := Nat
  φ := Nat
  pollReady s := pure (.ready (.ok ()), s)
  call s q := pure (q, s + 1)
  poll q := do
    let t ← Act.get
    if q > 9 then pure (.ready (.error "no"), q) else if t ≤ q then pure (.pending, q) else pure (.ready (.ok (2 * q)), q)
  clone := id

def site : Site Nat ⟨Nat, Nat, String⟩ := (⟨dbl, 0⟩, 5)

/-- a clock that stands still -/
def still : Clock Nat := ⟨fun _ => 0, fun _ _ => false, (by intro d w h; cases h), fun _ w => w⟩
/-- the time of the world -/
def ticking : Clock Nat := ⟨fun w => w, fun d w => decide (d ≤ w), (by intro d w h; exact of_decide_eq_true h), fun _ w => w⟩

theorem still_frozen : still.Frozen := fun _ _ => ⟨rfl, rfl⟩
theorem never_pending : site.1.S.NeverPending := by intro s w s' w' h; cases h
theorem settles : site.1.S.Settles := by
  intro s w s' w' _ v
  rfl

/-- the hypotheses of `C98_timeout`, `C98_load_shed` and `C98_steer` are met -/
theorem all_three : (site.timeout still 3).SameAs (site.mapErr (fun e w => (TimeoutErr.inner e, w))) ∧ site.loadShed.SameAs (site.mapErr (fun e w => (ShedErr.inner e, w))) ∧
    Site.SameAs (t := ⟨Nat, Nat, String⟩) (⟨Steer site.1.S (fun _ _ w => (0, w)), Steer.new [site.1.s]⟩, site.2) site :=
  ⟨C98_timeout site still 3 still_frozen, C98_load_shed site never_pending, C98_steer (t := ⟨Nat, Nat, String⟩) site settles (fun _ => rfl)⟩

/-- a semaphore without end, and one without permits -/
def plenty : SemView Nat := ⟨Unit, fun _ w => ((.ready true, ()), w), id⟩
def nothing : SemView Nat := ⟨Unit, fun _ w => ((.pending, ()), w), id⟩

example : Site.SameAs (t := ⟨Nat, Nat, String⟩) (⟨ConcurrencyLimit true plenty site.1.S, ⟨site.1.s, (), false⟩⟩, site.2) site :=
  C98_concurrency_limit (t := ⟨Nat, Nat, String⟩) site true plenty (fun _ _ => ⟨rfl, rfl⟩) ()

/-- without permits the limit is noticed -/
example : look (ConcurrencyLimit true nothing site.1.S) ⟨[(⟨site.1.s, (), false⟩, .idle)], []⟩ [.ready 0 0] ≠ look site.1.S ⟨[(site.1.s, .idle)], []⟩ [.ready 0 0] := by
  intro h
  injection h with h _
  injection h with h
  injection h with h _
  cases h

/-- a request, answered late, and a second one that fails -/
def twice : List (Op Nat Nat) := [.ready 0 5, .call 0 7 6, .poll 0 6, .ready 0 7, .call 0 12 7, .poll 1 7, .poll 0 8, .ready 0 9]

def limited (num : Nat) := (site.rateLimit ticking ⟨num, 100⟩)

/-- with three requests per period this user does not notice, by the theorem ... -/
theorem unnoticed : look (limited 3).1.S ⟨[((limited 3).1.s, .idle)], []⟩ twice = look site.1.S ⟨[(site.1.s, .idle)], []⟩ twice :=
  C98_rate_limit (t := ⟨Nat, Nat, String⟩) site ticking ⟨3, 100⟩ twice (by decide) (by decide)

/-- what it sees -/
theorem seen : look site.1.S ⟨[(site.1.s, .idle)], []⟩ twice =
    [.ready (.ok (.ready (.ok ())) 5), .call (.ok () 6), .poll (.ok .pending 6), .ready (.ok (.ready (.ok ())) 7), .call (.ok () 7), .poll (.ok (.ready (.error "no")) 7),
      .poll (.ok (.ready (.ok 14)) 8), .ready (.ok (.ready (.ok ())) 9)] := rfl

/-- ... but with two it is: the last `poll_ready` is `Pending` -/
theorem noticed : (look (limited 2).1.S ⟨[((limited 2).1.s, .idle)], []⟩ twice).getLast? = some (.ready (.ok .pending 9)) := rfl

/-- a timer that does fire is noticed -/
theorem fires : look (site.timeout ticking 3).1.S ⟨[((site.timeout ticking 3).1.s, .idle)], []⟩ [.ready 0 0, .call 0 7 0, .poll 0 4] =
    [.ready (.ok (.ready (.ok ())) 0), .call (.ok () 0), .poll (.ok (.ready (.error .elapsed)) 4)] := rfl

end Demo98

end Tower
