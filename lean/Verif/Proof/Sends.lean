import Verif.Spec.SendsSpec
import Verif.Proof.Answers
import Verif.Model.Layer

/-! # How much is sent: closure under the middleware -/

set_option linter.unusedSimpArgs false
set_option linter.unusedVariables false

namespace Tower
open Act

variable {W Req Req' Res Res' Err Err' : Type} {μ : W → Nat}

theorem Silent.g {α : Type} {x : Act W α} (h : Silent μ x) (w : W) : x.gives (fun _ w' => μ w' ≤ μ w) w := gives_iff.2 fun a w' hr => h w a w' hr
theorem Silent.of {α : Type} {x : Act W α} (h : ∀ w, x.gives (fun _ w' => μ w' ≤ μ w) w) : Silent μ x := fun w a w' hr => gives_iff.1 (h w) a w' hr

section
variable {S : Service W Req Res Err} {v : Req → Nat} {pot : S.φ → Nat}

theorem SendsW.gr (h : SendsW μ v S pot) (s : S.σ) (w : W) : (S.pollReady s).gives (fun _ w' => μ w' ≤ μ w) w := gives_iff.2 fun _ _ hr => h.ready _ _ _ _ _ hr
theorem SendsW.gc (h : SendsW μ v S pot) (s : S.σ) (q : Req) (w : W) : (S.call s q).gives (fun a w' => μ w' + pot a.1 ≤ μ w + v q) w := gives_iff.2 fun _ _ hr => h.call _ _ _ _ _ _ hr
theorem SendsW.gp (h : SendsW μ v S pot) (f : S.φ) (w : W) : (S.poll f).gives (fun a w' => μ w' + pot a.2 ≤ μ w + pot f) w := gives_iff.2 fun _ _ hr => h.poll _ _ _ _ _ hr

theorem SendsW.of (h1 : ∀ s w, (S.pollReady s).gives (fun _ w' => μ w' ≤ μ w) w) (h2 : ∀ s q w, (S.call s q).gives (fun a w' => μ w' + pot a.1 ≤ μ w + v q) w)
    (h3 : ∀ f w, (S.poll f).gives (fun a w' => μ w' + pot a.2 ≤ μ w + pot f) w) : SendsW μ v S pot where
  ready s w p s' w' hr := gives_iff.1 (h1 s w) _ _ hr
  call s q w f s' w' hr := gives_iff.1 (h2 s q w) _ _ hr
  poll f w p f' w' hr := gives_iff.1 (h3 f w) _ _ hr

theorem Sends.mono {v' : Req → Nat} (h : Sends μ v S) (hv : ∀ q, v q ≤ v' q) : Sends μ v' S := by
  obtain ⟨pot, h⟩ := h
  refine ⟨pot, h.ready, fun s q w f s' w' hr => ?_, h.poll⟩
  have := h.call s q w f s' w' hr
  have := hv q
  omega

/-- a future that is gone sends nothing -/
def potOpt (pot : S.φ → Nat) : Option S.φ → Nat
  | none => 0
  | some f => pot f

theorem sends_ready_map {β : Type} (h : SendsW μ v S pot) (g : Poll (Except Err Unit) → β) (s : S.σ) (w : W) :
    ((do let (p, s') ← S.pollReady s; pure (g p, s')) : Act W (β × S.σ)).gives (fun _ w' => μ w' ≤ μ w) w := by
  simp only [wpx_bind, wpx_pure]
  exact h.gr s w

theorem sends_mapFut (h : SendsW μ v S pot) {B : Type} {g : Except Err Res → Act W B} (hg : ∀ r, Silent μ (g r)) (x : Option S.φ) (w : W) :
    (mapFut S.poll g x).gives (fun a w' => μ w' + potOpt pot a.2 ≤ μ w + potOpt pot x) w := by
  cases x with
  | none => exact True.intro
  | some f =>
    simp only [mapFut, wpx_bind]
    refine wpx_mono (h.gp f w) fun a w' ha => ?_
    obtain ⟨p, f'⟩ := a
    cases p with
    | pending => exact ha
    | ready r =>
      simp only [wpx_bind, wpx_pure]
      refine wpx_mono ((hg r).g w') fun b w2 hb => ?_
      simp only [potOpt] at *
      omega

theorem sends_call_some (h : SendsW μ v S pot) (s : S.σ) (q : Req) (w : W) :
    ((do let (x, s') ← S.call s q; pure (some x, s')) : Act W (Option S.φ × S.σ)).gives (fun a w' => μ w' + potOpt pot a.1 ≤ μ w + v q) w := by
  simp only [wpx_bind, wpx_pure]
  exact h.gc s q w

theorem MapRequest.sends {f : Req' → W → Req × W} {v' : Req' → Nat} (hf : ∀ q w, v (f q w).1 ≤ v' q) (hq : ∀ q, SilentFn μ (f q)) (h : Sends μ v S) : Sends μ v' (MapRequest f S) := by
  obtain ⟨pot, h⟩ := h
  refine ⟨pot, .of h.gr (fun s q w => ?_) h.gp⟩
  simp only [MapRequest, wpx_bind, wpx_lift]
  refine wpx_mono (h.gc s _ _) fun a w' ha => ?_
  have := hf q w
  have := hq q w
  omega

theorem MapResponse.sends {f : Res → W → Res' × W} (hf : ∀ r, SilentFn μ (f r)) (h : Sends μ v S) : Sends μ v (MapResponse f S) := by
  obtain ⟨pot, h⟩ := h
  refine ⟨potOpt pot, .of h.gr (sends_call_some h) (sends_mapFut h fun r => .of fun w => ?_)⟩
  cases r with
  | ok x => exact hf x w
  | error e => exact Nat.le_refl _

theorem MapErr.sends {f : Err → W → Err' × W} (hf : ∀ e, SilentFn μ (f e)) (h : Sends μ v S) : Sends μ v (MapErr f S) := by
  obtain ⟨pot, h⟩ := h
  refine ⟨potOpt pot, .of (fun s w => ?_) (sends_call_some h) (sends_mapFut h fun r => .of fun w => ?_)⟩
  · simp only [MapErr, wpx_bind]
    refine wpx_mono (h.gr s w) fun a w' ha => ?_
    obtain ⟨p, s'⟩ := a
    match p, ha with
    | .pending, ha => exact ha
    | .ready (.ok ()), ha => exact ha
    | .ready (.error e0), ha => exact Nat.le_trans (hf e0 w') ha
  · cases r with
    | ok x => exact Nat.le_refl _
    | error e => exact hf e w

theorem MapResult.sends {into : Err → Err'} {f : Except Err Res → W → Except Err' Res' × W} (hf : ∀ r, SilentFn μ (f r)) (h : Sends μ v S) : Sends μ v (MapResult into f S) := by
  obtain ⟨pot, h⟩ := h
  exact ⟨potOpt pot, .of (sends_ready_map h _) (sends_call_some h) (sends_mapFut h fun r => .of fun w => hf r w)⟩

/-- of a first future, then a second one -/
def potStage (pot : S.φ → Nat) {G : Type} : TwoStage S.φ G → Nat
  | .first x => pot x
  | .second _ => 0
  | .done => 0

theorem sends_pollSecond {Out : Type} {G : Fut W Out} (hG : ∀ g, Silent μ (G.poll g)) (g : G.φ) (w : W) :
    (pollSecond (A := S.φ) G g).gives (fun a w' => μ w' + potStage pot a.2 ≤ μ w) w := by
  simp only [pollSecond, wpx_bind]
  refine wpx_mono ((hG g).g w) fun a w' ha => ?_
  obtain ⟨p, g'⟩ := a
  cases p with
  | pending => exact ha
  | ready v => exact ha

theorem Then.sends {into : Err → Err'} {G : Fut W (Except Err' Res')} {f : Except Err Res → W → G.φ × W} (hG : ∀ g, Silent μ (G.poll g)) (hf : ∀ r, SilentFn μ (f r)) (h : Sends μ v S) :
    Sends μ v (Then into S G f) := by
  obtain ⟨pot, h⟩ := h
  refine ⟨potStage pot, .of (sends_ready_map h _) (fun s q w => ?_) (fun x w => ?_)⟩
  · simp only [Then, wpx_bind, wpx_pure]
    exact h.gc s q w
  · cases x with
    | first x =>
      simp only [Then, wpx_bind]
      refine wpx_mono (h.gp x w) fun a w' ha => ?_
      obtain ⟨p, x'⟩ := a
      cases p with
      | pending => exact ha
      | ready res =>
        simp only [wpx_bind, wpx_lift]
        refine wpx_mono (sends_pollSecond (pot := pot) hG _ _) fun b w2 hb => ?_
        have h2 := hf res w'
        have ha' : μ w' + pot x' ≤ μ w + pot x := ha
        show _ ≤ μ w + pot x
        omega
    | second g => exact wpx_mono (sends_pollSecond hG g w) fun b w2 hb => hb
    | done => exact True.intro

theorem AndThen.sends {into : Err → Err'} {G : Fut W (Except Err' Res')} {f : Res → W → G.φ × W} (hG : ∀ g, Silent μ (G.poll g)) (hf : ∀ r, SilentFn μ (f r)) (h : Sends μ v S) :
    Sends μ v (AndThen into S G f) := by
  obtain ⟨pot, h⟩ := h
  refine ⟨potStage pot, .of (sends_ready_map h _) (fun s q w => ?_) (fun x w => ?_)⟩
  · simp only [AndThen, wpx_bind, wpx_pure]
    exact h.gc s q w
  · cases x with
    | first x =>
      simp only [AndThen, wpx_bind]
      refine wpx_mono (h.gp x w) fun a w' ha => ?_
      obtain ⟨p, x'⟩ := a
      match p, ha with
      | .pending, ha => exact ha
      | .ready (.error e), ha => simp only [potStage, wpx_pure] at *; omega
      | .ready (.ok r), ha =>
        simp only [wpx_bind, wpx_lift]
        refine wpx_mono (sends_pollSecond (pot := pot) hG _ _) fun b w2 hb => ?_
        have h2 := hf r w'
        have ha' : μ w' + pot x' ≤ μ w + pot x := ha
        show _ ≤ μ w + pot x
        omega
    | second g => exact wpx_mono (sends_pollSecond hG g w) fun b w2 hb => hb
    | done => exact True.intro

theorem SilentSvc.sends (h : SilentSvc μ S) : Sends μ (fun _ => 0) S :=
  ⟨fun _ => 0, fun s w p s' w' hr => h.ready s w _ w' hr, fun s q w f s' w' hr => h.call s q w _ w' hr, fun f w p f' w' hr => Nat.add_le_add_right (h.poll f w _ w' hr) 0⟩

theorem ServiceFn.sends {F : Fut W (Except Err Res)} {f : Req → W → F.φ × W} (hF : ∀ g, Silent μ (F.poll g)) (hf : ∀ q, SilentFn μ (f q)) : Sends μ (fun _ => 0) (ServiceFn F f) :=
  SilentSvc.sends ⟨fun s => .of fun w => Nat.le_refl _, fun s q => .of fun w => hf q w, hF⟩

end

theorem Either.sends {S T : Service W Req Res Err} {v : Req → Nat} (ha : Sends μ v S) (hb : Sends μ v T) : Sends μ v (Either S T) := by
  obtain ⟨pot, ha⟩ := ha
  obtain ⟨pot', hb⟩ := hb
  refine ⟨fun x => match x with | .inl x => pot x | .inr x => pot' x, .of (fun s w => ?_) (fun s q w => ?_) (fun x w => ?_)⟩
  · cases s with
    | inl s => simp only [Either, wpx_bind, wpx_pure]; exact ha.gr s w
    | inr s => simp only [Either, wpx_bind, wpx_pure]; exact hb.gr s w
  · cases s with
    | inl s => simp only [Either, wpx_bind, wpx_pure]; exact ha.gc s q w
    | inr s => simp only [Either, wpx_bind, wpx_pure]; exact hb.gc s q w
  · cases x with
    | inl x => simp only [Either, wpx_bind, wpx_pure]; exact ha.gp x w
    | inr x => simp only [Either, wpx_bind, wpx_pure]; exact hb.gp x w

section
variable {S : Service W Req Res Err} {v : Req → Nat}

theorem Optional.sends (h : Sends μ v S) : Sends μ v (Optional S) := by
  obtain ⟨pot, h⟩ := h
  refine ⟨potOpt pot, .of (fun s w => ?_) (fun s q w => ?_) (fun x w => ?_)⟩
  · cases s with
    | none => exact Nat.le_refl _
    | some s => simp only [Optional, wpx_bind, wpx_pure]; exact h.gr s w
  · cases s with
    | none => exact Nat.le_add_right _ _
    | some s => simp only [Optional, wpx_bind, wpx_pure]; exact h.gc s q w
  · cases x with
    | none => exact Nat.le_refl _
    | some x => simp only [Optional, wpx_bind, wpx_pure]; exact h.gp x w

theorem FutureService.sends {F : Fut W (Except Err S.σ)} {fc : F.φ → F.φ} (hF : ∀ g, Silent μ (F.poll g)) (h : Sends μ v S) : Sends μ v (FutureService S F fc) := by
  obtain ⟨pot, h⟩ := h
  refine ⟨pot, .of (fun s w => ?_) (fun s q w => ?_) h.gp⟩
  · cases s with
    | service s => simp only [FutureService, wpx_bind, wpx_pure]; exact h.gr s w
    | future g =>
      simp only [FutureService, wpx_bind]
      refine wpx_mono ((hF g).g w) fun a w' ha => ?_
      obtain ⟨p, g'⟩ := a
      match p with
      | .pending => exact ha
      | .ready (.error e0) => exact ha
      | .ready (.ok s) =>
        simp only [wpx_bind, wpx_pure]
        exact wpx_mono (h.gr s w') fun a _ hb => Nat.le_trans hb ha
  · cases s with
    | future g => exact True.intro
    | service s => simp only [FutureService, wpx_bind, wpx_pure]; exact h.gc s q w

theorem BoxService.sends (h : Sends μ v S) : Sends μ v (BoxService S) := by
  obtain ⟨pot, h⟩ := h
  refine ⟨fun x => pot x.val, .of (fun s w => ?_) (fun s q w => ?_) (fun x w => ?_)⟩
  · simp only [BoxService, wpx_bind, wpx_pure]; exact h.gr s.val w
  · simp only [BoxService, wpx_bind, wpx_pure]; exact h.gc s.val q w
  · simp only [BoxService, wpx_bind, wpx_pure]; exact h.gp x.val w

theorem Timeout.sends {C : Clock W} {d : Nat} (hC : ∀ t w, μ (C.arm t w) ≤ μ w) (h : Sends μ v S) : Sends μ v (Timeout C d S) := by
  obtain ⟨pot, h⟩ := h
  refine ⟨fun x => pot x.1, .of (sends_ready_map h _) (fun s q w => ?_) (fun x w => ?_)⟩
  · simp only [Timeout, wpx_bind, wpx_pure]
    exact wpx_mono (h.gc s q w) fun a w' ha => ha
  · simp only [Timeout, wpx_bind]
    refine wpx_mono (h.gp x.1 w) fun a w' ha => ?_
    obtain ⟨p, y⟩ := a
    cases p with
    | ready v => exact ha
    | pending =>
      simp only [wpx_bind]
      show wpx _ _ (if C.fired x.2 w' = true then _ else _) _ w'
      split
      · exact ha
      · exact Nat.le_trans (Nat.add_le_add_right (hC _ _) _) ha

theorem LoadShed.sends (h : Sends μ v S) : Sends μ v (LoadShed S) := by
  obtain ⟨pot, h⟩ := h
  refine ⟨potOpt pot, .of (fun s w => ?_) (fun s q w => ?_) (fun x w => ?_)⟩
  · simp only [LoadShed, wpx_bind]
    refine wpx_mono (h.gr s.inner w) fun a w' ha => ?_
    obtain ⟨p, s'⟩ := a
    match p, ha with
    | .pending, ha => exact ha
    | .ready (.ok ()), ha => exact ha
    | .ready (.error e0), ha => exact ha
  · simp only [LoadShed]
    split
    · simp only [wpx_bind, wpx_pure]; exact h.gc s.inner q w
    · exact Nat.le_add_right _ _
  · cases x with
    | none => exact Nat.le_refl _
    | some x => simp only [LoadShed, wpx_bind, wpx_pure]; exact h.gp x w

theorem RateLimit.sends {C : Clock W} {R : Rate} (hC : ∀ t w, μ (C.arm t w) ≤ μ w) (h : Sends μ v S) : Sends μ v (RateLimit C R S) := by
  obtain ⟨pot, h⟩ := h
  refine ⟨pot, .of (fun s w => ?_) (fun s q w => ?_) h.gp⟩
  · simp only [RateLimit]
    split
    · simp only [wpx_bind, wpx_pure]; exact h.gr s.inner w
    · simp only [wpx_bind]
      show wpx _ _ (if C.fired s.sleep w = true then _ else _) _ w
      split
      · simp only [wpx_bind, wpx_pure]; exact h.gr s.inner w
      · exact hC _ _
  · simp only [RateLimit, wpx_bind]
    show wpx _ _ (match rateTake R (C.now w) s.st s.sleep with | none => _ | some (st, sleep) => _) _ w
    split
    · exact True.intro
    · simp only [wpx_bind, wpx_pure]; exact h.gc s.inner q w

theorem ConcurrencyLimit.sends {debug : Bool} {V : SemView W} (hV : ∀ a, SilentFn μ (V.pollAcquire a)) (h : Sends μ v S) : Sends μ v (ConcurrencyLimit debug V S) := by
  obtain ⟨pot, h⟩ := h
  refine ⟨pot, .of (fun s w => ?_) (fun s q w => ?_) h.gp⟩
  · simp only [ConcurrencyLimit]
    split
    · simp only [wpx_bind, wpx_pure]; exact h.gr s.inner w
    · simp only [wpx_bind, wpx_lift]
      have := hV s.sem w
      split
      · exact this
      · split
        · exact True.intro
        · simp only [wpx_bind, wpx_pure]; exact wpx_mono (h.gr s.inner _) fun a _ ha => Nat.le_trans ha this
  · simp only [ConcurrencyLimit]
    split
    · simp only [wpx_bind, wpx_pure]; exact h.gc s.inner q w
    · exact True.intro

/-- of a filter's future -/
def potFilter {S : Service W Req Res Err} {B : Type} (pot : S.φ → Nat) : Option B ⊕ Option S.φ → Nat
  | .inl _ => 0
  | .inr o => potOpt pot o

theorem Filter.sends {into : Err → Err'} {check : Req' → W → Except Err' Req × W} {v' : Req' → Nat} (hv : ∀ q w q', (check q w).1 = .ok q' → v q' ≤ v' q) (hc : ∀ q, SilentFn μ (check q))
    (h : Sends μ v S) : Sends μ v' (Filter into check S) := by
  obtain ⟨pot, h⟩ := h
  refine ⟨potFilter pot, .of (sends_ready_map h _) (fun s q w => ?_) (fun x w => ?_)⟩
  · simp only [Filter, wpx_bind, wpx_lift]
    have h1 := hc q w
    split
    · rename_i q' hq
      have h2 := hv q w q' hq
      simp only [wpx_bind, wpx_pure]
      refine wpx_mono (h.gc s q' _) fun a _ ha => ?_
      simp only [potFilter, potOpt]
      omega
    · show μ _ + 0 ≤ _
      omega
  · match x with
    | .inl none => exact True.intro
    | .inl (some e) => exact Nat.le_refl _
    | .inr o =>
      simp only [Filter, wpx_bind, wpx_pure]
      exact wpx_mono (sends_mapFut h (fun r => .of fun w => Nat.le_refl _) o w) fun a _ ha => ha

/-- of an asynchronous filter's future: a check may send its request later -/
def potAsync {C : Type} (pc : C → Nat) (pot : S.φ → Nat) : AsyncFilterFut C S.σ S.φ → Nat
  | .check c _ => pc c
  | .waitResponse y => pot y

theorem AsyncFilter.sends {into : Err → Err'} {P : Fut W (Except Err' Req)} {check : Req' → W → P.φ × W} {v' : Req' → Nat} (pc : P.φ → Nat) (hv : ∀ q w, pc (check q w).1 ≤ v' q)
    (hp : ∀ c w p c' w', (P.poll c).run w = .ok (p, c') w' → pc c' ≤ pc c ∧ μ w' ≤ μ w ∧ ∀ q, p = .ready (.ok q) → v q ≤ pc c) (hc : ∀ q, SilentFn μ (check q))
    (h : Sends μ v S) : Sends μ v' (AsyncFilter into P check S) := by
  obtain ⟨pot, h⟩ := h
  have wait : ∀ (y : S.φ) (w : W), ((AsyncFilter into P check S).poll (.waitResponse y)).gives (fun a w' => μ w' + potAsync pc pot a.2 ≤ μ w + pot y) w := by
    intro y w
    simp only [AsyncFilter, wpx_bind, wpx_pure]
    exact h.gp y w
  refine ⟨potAsync pc pot, .of (sends_ready_map h _) (fun s q w => ?_) (fun x w => ?_)⟩
  · simp only [AsyncFilter, wpx_bind, wpx_lift, wpx_pure]
    have h1 := hv q w
    have h2 := hc q w
    simp only [potAsync]
    omega
  · cases x with
    | waitResponse y => exact wait y w
    | check c s =>
      simp only [AsyncFilter, wpx_bind]
      refine gives_iff.2 fun a w' hr => ?_
      obtain ⟨p, c'⟩ := a
      obtain ⟨h1, h2, h3⟩ := hp _ _ _ _ _ hr
      match p, h3 with
      | .pending, h3 => simp only [wpx_pure, potAsync]; omega
      | .ready (.error e), h3 => simp only [wpx_pure, potAsync]; omega
      | .ready (.ok q), h3 =>
        simp only [wpx_bind]
        refine wpx_mono (h.gc s q w') fun a w2 h4 => ?_
        have h6 := wpx_mono (Q' := fun b w3 => μ w3 + potAsync pc pot b.2 ≤ μ w + pc c) (wait a.1 w2) fun b w3 h5 => (by
          have := h3 q rfl
          omega)
        simp only [AsyncFilter, wpx_bind] at h6
        exact h6

theorem sends_steerPoll {pot : S.φ → Nat} (h : SendsW μ v S pot) : ∀ (l : List Nat) (ss : List S.σ) (w : W), (steerPoll S ss l).gives (fun _ w' => μ w' ≤ μ w) w
  | [], ss, w => Nat.le_refl _
  | i :: l, ss, w => by
    unfold steerPoll
    split
    · exact True.intro
    · simp only [wpx_bind]
      refine wpx_mono (h.gr _ w) fun a w' ha => ?_
      obtain ⟨p, s'⟩ := a
      match p with
      | .pending => exact ha
      | .ready (.error e0) => exact ha
      | .ready (.ok ()) => exact wpx_mono (sends_steerPoll h l _ w') fun _ _ hb => Nat.le_trans hb ha

theorem Steer.sends {pick : Req → List S.σ → W → Nat × W} (hp : ∀ q ss, SilentFn μ (pick q ss)) (h : Sends μ v S) : Sends μ v (Steer S pick) := by
  obtain ⟨pot, h⟩ := h
  refine ⟨pot, .of (fun s w => sends_steerPoll h _ _ w) (fun s q w => ?_) h.gp⟩
  simp only [Steer]
  split
  · simp only [wpx_bind, wpx_lift]
    have := hp q s.services w
    split
    · exact True.intro
    · simp only [wpx_bind, wpx_pure]
      refine wpx_mono (h.gc _ q _) fun a _ ha => ?_
      omega
  · exact True.intro

theorem Latency.sends {into : Err → Err'} {C : Clock W} {record : Nat → W → W} (hR : ∀ t w, μ (record t w) ≤ μ w) (h : Sends μ v S) : Sends μ v (Latency into C record S) := by
  obtain ⟨pot, h⟩ := h
  refine ⟨fun x => pot x.2, .of (sends_ready_map h _) (fun s q w => ?_) (fun x w => ?_)⟩
  · simp only [Latency, wpx_bind, wpx_pure]
    rw [show wpx (fun _ => True) True (Act.get : Act W W) _ w = _ from gives_get]
    exact wpx_mono (h.gc s q w) fun a _ ha => ha
  · simp only [Latency, wpx_bind]
    refine wpx_mono (h.gp x.2 w) fun a w' ha => ?_
    obtain ⟨p, y⟩ := a
    match p, ha with
    | .pending, ha => exact ha
    | .ready (.error e), ha => exact ha
    | .ready (.ok v), ha => exact Nat.le_trans (Nat.add_le_add_right (hR _ _) _) ha

/-- of a oneshot -/
def potOneshot (v : Req → Nat) (pot : S.φ → Nat) : OneshotState S.σ Req S.φ → Nat
  | .notReady _ (some q) => v q
  | .notReady _ none => 0
  | .called f => pot f
  | .done => 0

theorem sends_called {pot : S.φ → Nat} (h : SendsW μ v S pot) (f : S.φ) (w : W) : ((Oneshot S).poll (.called f)).gives (fun a w' => μ w' + potOneshot v pot a.2 ≤ μ w + pot f) w := by
  simp only [Oneshot, wpx_bind]
  refine wpx_mono (h.gp f w) fun a w' ha => ?_
  obtain ⟨p, f'⟩ := a
  match p, ha with
  | .pending, ha => exact ha
  | .ready (.error e), ha => simp only [wpx_pure, potOneshot] at *; omega
  | .ready (.ok x), ha => simp only [wpx_pure, potOneshot] at *; omega

theorem Oneshot.sends {pot : S.φ → Nat} (h : SendsW μ v S pot) (x : OneshotState S.σ Req S.φ) (w : W) :
    ((Oneshot S).poll x).gives (fun a w' => μ w' + potOneshot v pot a.2 ≤ μ w + potOneshot v pot x) w := by
  cases x with
  | done => exact True.intro
  | called f => exact sends_called h f w
  | notReady s o =>
    simp only [Oneshot, wpx_bind]
    refine wpx_mono (h.gr s w) fun a w' ha => ?_
    obtain ⟨p, s'⟩ := a
    match p, ha with
    | .pending, ha =>
      have ha' : μ w' ≤ μ w := ha
      cases o with
      | none => exact Nat.add_le_add_right ha' _
      | some q => exact Nat.add_le_add_right ha' _
    | .ready (.error e), ha =>
      have ha' : μ w' ≤ μ w := ha
      cases o with
      | none => exact Nat.add_le_add_right ha' _
      | some q => exact Nat.add_le_add_right ha' _
    | .ready (.ok ()), ha =>
      cases o with
      | none => exact True.intro
      | some q0 =>
        simp only [wpx_bind]
        refine wpx_mono (h.gc s' q0 w') fun a w2 h2 => ?_
        have ha' : μ w' ≤ μ w := ha
        have h6 := wpx_mono (Q' := fun b w3 => μ w3 + potOneshot v pot b.2 ≤ μ w + v q0) (sends_called h a.1 w2) fun b w3 h3 => (by omega)
        simp only [Oneshot, wpx_bind] at h6
        exact h6

/-- of a delayed future -/
def potDelay (v : Req → Nat) (pot : S.φ → Nat) : DelayFut S.σ Req (Oneshot S).φ → Nat
  | .delaying _ r _ => v r
  | .called x => potOneshot v pot x

theorem Delay.sends {into : Err → Err'} {C : Clock W} {delay : Req → W → Nat × W} (hC : ∀ t w, μ (C.arm t w) ≤ μ w) (hd : ∀ q, SilentFn μ (delay q)) (h : Sends μ v S) :
    Sends μ v (Delay into C delay S) := by
  obtain ⟨pot, h⟩ := h
  have key : ∀ (x : OneshotState S.σ Req S.φ) (w : W), ((Delay into C delay S).poll (.called x)).gives (fun a w' => μ w' + potDelay v pot a.2 ≤ μ w + potOneshot v pot x) w := by
    intro x w
    simp only [Delay, wpx_bind, wpx_pure]
    exact Oneshot.sends h x w
  refine ⟨potDelay v pot, .of (fun s w => Nat.le_refl _) (fun s q w => ?_) (fun x w => ?_)⟩
  · exact Nat.add_le_add_right (hd q w) _
  · cases x with
    | called x => exact key x w
    | delaying dl r s =>
      simp only [Delay, wpx_bind]
      show wpx _ _ (if C.fired dl w = true then _ else _) _ w
      split
      · have := key (.notReady s (some r)) w
        simp only [Delay, wpx_bind] at this
        simp only [wpx_bind]
        exact this
      · exact Nat.add_le_add_right (hC _ _) _

theorem Select.sends {cr : Req → W → Option Req × W} {T : Service W Req Res Err} {v' v2 : Req → Nat} (hq : ∀ q, SilentFn μ (cr q)) (hv : ∀ q, v q ≤ v2 q)
    (hc : ∀ q w q', (cr q w).1 = some q' → v q + v' q' ≤ v2 q) (ha : Sends μ v S) (hb : Sends μ v' T) : Sends μ v2 (Select cr S T) := by
  obtain ⟨pot, ha⟩ := ha
  obtain ⟨pot', hb⟩ := hb
  refine ⟨fun x => pot x.1 + potOpt pot' x.2, .of (fun s w => ?_) (fun s q w => ?_) (fun x w => ?_)⟩
  · simp only [Select, wpx_bind]
    refine wpx_mono (ha.gr s.1 w) fun a w1 h1 => wpx_mono (hb.gr s.2 w1) fun b w2 h2 => ?_
    obtain ⟨p, a⟩ := a
    obtain ⟨p', b⟩ := b
    have h3 := Nat.le_trans h2 h1
    match p, p' with
    | .ready (.ok ()), .ready (.ok ()) => exact h3
    | .ready (.error e0), _ => exact h3
    | .ready (.ok ()), .ready (.error e0) => exact h3
    | .pending, .ready (.error e0) => exact h3
    | .pending, .pending => exact h3
    | .pending, .ready (.ok ()) => exact h3
    | .ready (.ok ()), .pending => exact h3
  · simp only [Select, wpx_bind, wpx_lift]
    have h0 := hq q w
    split
    · rename_i q' hc'
      have h3 := hc q w q' hc'
      simp only [wpx_bind, wpx_pure]
      refine wpx_mono (hb.gc s.2 q' _) fun b w1 h1 => wpx_mono (ha.gc s.1 q w1) fun a w2 h2 => ?_
      simp only [potOpt]
      omega
    · simp only [wpx_bind, wpx_pure]
      have h3 := hv q
      refine wpx_mono (ha.gc s.1 q _) fun a w2 h2 => ?_
      simp only [potOpt]
      omega
  · obtain ⟨x, o⟩ := x
    simp only [Select, wpx_bind]
    refine wpx_mono (ha.gp x w) fun a w1 h1 => ?_
    obtain ⟨p, a⟩ := a
    cases p with
    | ready r0 => simp only [wpx_pure] at *; omega
    | pending =>
      cases o with
      | none => simp only [wpx_pure] at *; omega
      | some y =>
        simp only [wpx_bind]
        refine wpx_mono (hb.gp y w1) fun b w2 h2 => ?_
        obtain ⟨p, b⟩ := b
        cases p with
        | ready r0 => simp only [wpx_pure, potOpt] at *; omega
        | pending => simp only [wpx_pure, potOpt] at *; omega

/-- of the predicate of a hedge -/
def potPred (v : Req → Nat) : Option Req → Nat
  | some q => v q
  | none => 0

theorem Hedge.sends {into : Err → Err'} {H : HedgeCfg W Req} (hC : ∀ t w, μ (H.clock.arm t w) ≤ μ w) (hR : ∀ t w, μ (H.record t w) ≤ μ w) (hD : SilentFn μ H.delay) (hE : SilentFn μ H.enough)
    {v' : Req → Nat} (hv : ∀ q, v q ≤ v' q) (hc : ∀ q w q', H.cloneRequest q w = some q' → v q + v q' ≤ v' q) (h : Sends μ v S) : Sends μ v' (Hedge into H S) := by
  have h1 : Sends μ v (Latency into H.clock H.record S) := Latency.sends hR h
  have hq : ∀ q, SilentFn μ (H.selectClone q) := by
    intro q w
    unfold HedgeCfg.selectClone
    split
    · exact Nat.le_refl _
    · exact hE w
  refine Select.sends hq hv (fun q w q' hs => ?_) h1 (Delay.sends hC (fun _ => hD) (AsyncFilter.sends (v' := v) (potPred v) (fun q w => ?_) (fun c w p c' w' hr => ?_) (fun q w => Nat.le_refl _) h1))
  · unfold HedgeCfg.selectClone at hs
    split at hs
    · cases hs
    · rename_i q1 h1
      dsimp only at hs
      split at hs
      · cases hs; exact hc q w _ h1
      · cases hs
  · show potPred v (if H.canRetry q w = true then some q else none) ≤ v q
    by_cases hr : H.canRetry q w = true
    · rw [if_pos hr]; exact Nat.le_refl _
    · rw [if_neg hr]; exact Nat.zero_le _
  · cases c with
    | none =>
      have hr' : (Out.ok ((Poll.pending : Poll (Except Err' Req)), (none : Option Req)) w : Out W _) = .ok (p, c') w' := hr
      cases hr'
      exact ⟨Nat.le_refl _, Nat.le_refl _, fun q hq => by cases hq⟩
    | some q =>
      have hr' : (Out.ok ((Poll.ready (.ok q) : Poll (Except Err' Req)), (none : Option Req)) w : Out W _) = .ok (p, c') w' := hr
      cases hr'
      exact ⟨Nat.zero_le _, Nat.le_refl _, fun q' hq => by cases hq; exact Nat.le_refl _⟩

theorem Constant.sends {M : Type} (h : Sends μ v S) : Sends μ v (Constant M S) := by
  obtain ⟨pot, h⟩ := h
  refine ⟨pot, .of (fun s w => ?_) (fun s q w => ?_) h.gp⟩
  · simp only [wpx_bind, wpx_pure]; exact h.gr s.1 w
  · simp only [wpx_bind, wpx_pure]; exact h.gc s.1 q w

theorem tracked.sends {T : Tracker} {C : Completion Res Res'} (h : Sends μ v S) : Sends (fun w => μ w.2) v (tracked T C S) := by
  obtain ⟨pot, h⟩ := h
  refine ⟨fun x => pot x.1, .of (fun s w => ?_) (fun s q w => ?_) (fun x w => ?_)⟩
  · show wpx _ _ ((S.pollReady s).snd) _ w
    rw [gives_snd]
    exact h.gr s w.2
  · simp only [wpx_bind]
    rw [gives_fst]
    refine gives_iff.2 fun a v _ => ?_
    rw [gives_snd]
    exact wpx_mono (h.gc s q w.2) fun a _ ha => ha
  · simp only [wpx_bind]
    rw [gives_snd]
    refine wpx_mono (h.gp x.1 w.2) fun a w' ha => ?_
    obtain ⟨p, f'⟩ := a
    match p, ha with
    | .pending, ha => exact ha
    | .ready (.error e), ha => exact ha
    | .ready (.ok v), ha =>
      dsimp only
      split
      · exact True.intro
      · simp only [wpx_bind]
        rw [gives_fst]
        exact gives_iff.2 fun o _ _ => ha

theorem IntoService.sends (h : Sends μ v S) : Sends μ v (IntoService S) := by
  obtain ⟨pot, h⟩ := h
  exact ⟨pot, .of h.gr h.gc h.gp⟩

end
end Tower
