import Verif.Spec.AnswersSpec
import Verif.Proof.Wpx

/-! # What a response future answers: closure under the middleware -/

set_option linter.unusedSimpArgs false

namespace Tower
open Act

variable {W Req Req' Res Res' Err Err' : Type}

/-- whatever the code returns has `Q` -/
abbrev Act.gives {α : Type} (x : Act W α) (Q : α → W → Prop) (w : W) : Prop := wpx (fun _ => True) True x Q w

theorem Act.gives_iff {α : Type} {x : Act W α} {Q : α → W → Prop} {w : W} : x.gives Q w ↔ ∀ a w', x.run w = .ok a w' → Q a w' := by
  constructor
  · intro h a w' hr; exact wpx_ok h hr
  · intro h
    unfold Act.gives wpx
    cases hx : x.run w with
    | ok a w' => exact h a w' hx
    | panic m => trivial
    | spin => trivial

theorem Act.gives_get {Q : W → W → Prop} {w : W} : (Act.get : Act W W).gives Q w = Q w w := rfl
theorem Act.gives_modify {f : W → W} {Q : Unit → W → Prop} {w : W} : (Act.modify f : Act W Unit).gives Q w = Q () (f w) := rfl

theorem Act.gives_snd {A α : Type} {x : Act W α} {Q : α → A × W → Prop} {w : A × W} : wpx (fun _ => True) True (x.snd : Act (A × W) α) Q w = wpx (fun _ => True) True x (fun a w' => Q a (w.1, w')) w.2 := by
  unfold wpx Act.snd
  cases hx : x.run w.2 <;> simp [hx]

theorem Act.gives_fst {A α : Type} {x : Act A α} {Q : α → A × W → Prop} {w : A × W} : wpx (fun _ => True) True (x.fst : Act (A × W) α) Q w = wpx (fun _ => True) True x (fun a w' => Q a (w', w.2)) w.1 := by
  unfold wpx Act.fst
  cases hx : x.run w.1 <;> simp [hx]

/-- the same with `gives` -/
structure AnsW (S : Service W Req Res Err) (A : Req → Except Err Res → Prop) (Z : Err → Prop) (F : Req → S.φ → Prop) : Prop where
  ready : ∀ s w, (S.pollReady s).gives (fun a _ => ∀ e, a.1 = .ready (.error e) → Z e) w
  call : ∀ s q w, (S.call s q).gives (fun a _ => F q a.1) w
  poll : ∀ q f w, F q f → (S.poll f).gives (fun a _ => (a.1 = .pending → F q a.2) ∧ ∀ r, a.1 = .ready r → A q r) w

theorem Replies.w {S : Service W Req Res Err} {A : Req → Except Err Res → Prop} {Z : Err → Prop} (h : Replies S A Z) : AnsW S A Z (FutureOf S) where
  ready s w := gives_iff.2 fun a w' hr e he => by obtain ⟨p, s'⟩ := a; cases he; exact h.ready hr
  call s q w := gives_iff.2 fun a w' hr => .called hr
  poll q f w hf := gives_iff.2 fun a w' hr => by
    obtain ⟨p, f'⟩ := a
    exact ⟨fun he => by cases he; exact .polled hf hr, fun r he => by cases he; exact h.answer hf hr⟩

theorem AnsW.inv {S : Service W Req Res Err} {A : Req → Except Err Res → Prop} {Z : Err → Prop} {F : Req → S.φ → Prop} (h : AnsW S A Z F) {q : Req} {f : S.φ} (hf : FutureOf S q f) : F q f := by
  induction hf with
  | called hr => exact gives_iff.1 (h.call _ _ _) _ _ hr
  | polled _ hr ih => exact (gives_iff.1 (h.poll _ _ _ ih) _ _ hr).1 rfl

theorem AnsW.answers {S : Service W Req Res Err} {A : Req → Except Err Res → Prop} {Z : Err → Prop} {F : Req → S.φ → Prop} (h : AnsW S A Z F) : Replies S A Z where
  ready hr := gives_iff.1 (h.ready _ _) _ _ hr _ rfl
  answer hf hr := (gives_iff.1 (h.poll _ _ _ (h.inv hf)) _ _ hr).2 _ rfl

theorem Replies.mono {S : Service W Req Res Err} {A A' : Req → Except Err Res → Prop} {Z Z' : Err → Prop} (h : Replies S A Z) (ha : ∀ q r, A q r → A' q r) (hz : ∀ e, Z e → Z' e) : Replies S A' Z' :=
  ⟨fun hr => hz _ (h.ready hr), fun hf hr => ha _ _ (h.answer hf hr)⟩

/-! ## Poll of a plain future -/

/-- a future with some of the outputs that `g` has -/
theorem Outputs.w {α : Type} {G : Fut W α} {g : G.φ} {P : α → Prop} (h : ∀ v, Outputs G g v → P v) (w : W) :
    (G.poll g).gives (fun a _ => (a.1 = .pending → ∀ v, Outputs G a.2 v → P v) ∧ ∀ v, a.1 = .ready v → P v) w :=
  gives_iff.2 fun a w' hr => by
    obtain ⟨p, g'⟩ := a
    exact ⟨fun he v hv => by cases he; exact h v (.pending hr hv), fun v he => by cases he; exact h v (.ready hr)⟩

/-! ## What middleware does to answers -/

section
variable {S : Service W Req Res Err} {A : Req → Except Err Res → Prop} {Z : Err → Prop}

theorem ready_wrap (h : Replies S A Z) (inner : Err → Err') (s : S.σ) (w : W) :
    ((do let (p, s') ← S.pollReady s; pure (p.map (mapErr inner), s')) : Act W (Poll (Except Err' Unit) × S.σ)).gives (fun a _ => ∀ e, a.1 = .ready (.error e) → wrapErr inner Z e) w := by
  simp only [wpx_bind, wpx_pure]
  refine wpx_mono (h.w.ready s w) fun a w' ha e he => ?_
  obtain ⟨p, s'⟩ := a
  match p, ha, he with
  | .ready (.error e0), ha, he =>
    simp [Poll.map, Tower.mapErr] at he
    exact ⟨e0, ha e0 rfl, he.symm⟩
  | .ready (.ok ()), ha, he => simp [Poll.map, Tower.mapErr] at he
  | .pending, ha, he => simp [Poll.map] at he

theorem mapFut_gives (h : Replies S A Z) {B : Type} {g : Except Err Res → Act W B} {q : Req} {P : B → Prop} (hg : ∀ r w, A q r → (g r).gives (fun b _ => P b) w) (x : Option S.φ) (hx : ∀ f, x = some f → FutureOf S q f) (w : W) :
    (mapFut S.poll g x).gives (fun a _ => (a.1 = .pending → ∀ f, a.2 = some f → FutureOf S q f) ∧ ∀ b, a.1 = .ready b → P b) w := by
  cases x with
  | none => exact True.intro
  | some f =>
    simp only [mapFut, wpx_bind]
    refine wpx_mono (h.w.poll q f w (hx f rfl)) fun a w' ha => ?_
    obtain ⟨p, f'⟩ := a
    cases p with
    | pending => exact ⟨fun _ g hg => by cases hg; exact ha.1 rfl, fun b hb => by cases hb⟩
    | ready r =>
      simp only [wpx_bind, wpx_pure]
      refine wpx_mono (hg r w' (ha.2 r rfl)) fun b _ hb => ⟨fun he => (by cases he), fun b' he => (by cases he; exact hb)⟩

theorem poll_wrap (h : Replies S A Z) (inner : Err → Err') (own : Err' → Prop) (q : Req) (f : S.φ) (w : W) (hf : FutureOf S q f) :
    (S.poll f).gives (fun a _ => (a.1 = .pending → FutureOf S q a.2) ∧ ∀ r, a.1.map (mapErr inner) = .ready r → wrapAns inner own A q r) w := by
  refine wpx_mono (h.w.poll q f w hf) fun a w' ha => ⟨ha.1, fun r hr => ?_⟩
  obtain ⟨p, f'⟩ := a
  cases p with
  | pending => cases hr
  | ready r0 => cases hr; exact Or.inl ⟨r0, ha.2 r0 rfl, rfl⟩

theorem MapRequest.answers {f : Req' → W → Req × W} (h : Replies S A Z) : Replies (MapRequest f S) (fun q r => ∃ w, A (f q w).1 r) Z :=
  AnsW.answers (F := fun q x => ∃ w, FutureOf S (f q w).1 x) {
    ready := h.w.ready
    call := fun s q w => by
      simp only [MapRequest, wpx_bind, wpx_lift]
      exact wpx_mono (h.w.call s _ _) fun a _ ha => ⟨w, ha⟩
    poll := fun q x w ⟨v, hx⟩ => wpx_mono (h.w.poll _ x w hx) fun a _ ha => ⟨fun he => ⟨v, ha.1 he⟩, fun r hr => ⟨v, ha.2 r hr⟩⟩ }

theorem call_some (h : Replies S A Z) (s : S.σ) (q : Req) (w : W) :
    ((do let (x, s') ← S.call s q; pure (some x, s')) : Act W (Option S.φ × S.σ)).gives (fun a _ => ∀ f, a.1 = some f → FutureOf S q f) w := by
  simp only [wpx_bind, wpx_pure]
  exact wpx_mono (h.w.call s q w) fun a _ ha f hf => by cases hf; exact ha

theorem MapResponse.answers {f : Res → W → Res' × W} (h : Replies S A Z) : Replies (MapResponse f S) (mapResponseAns f A) Z :=
  AnsW.answers (F := fun q x => ∀ y, x = some y → FutureOf S q y) {
    ready := h.w.ready
    call := call_some h
    poll := fun q x w hx => mapFut_gives h (fun r w ha => by
      cases r with
      | ok v => exact ⟨v, w, ha, rfl⟩
      | error e => exact ha) x hx w }

theorem MapErr.answers {f : Err → W → Err' × W} (h : Replies S A Z) : Replies (MapErr f S) (mapErrAns f A) (fun e' => ∃ e w, Z e ∧ e' = (f e w).1) :=
  AnsW.answers (F := fun q x => ∀ y, x = some y → FutureOf S q y) {
    ready := fun s w => by
      simp only [MapErr, wpx_bind]
      refine wpx_mono (h.w.ready s w) fun a w' ha => ?_
      obtain ⟨p, s'⟩ := a
      match p, ha with
      | .pending, ha => exact fun e he => by cases he
      | .ready (.ok ()), ha => exact fun e he => by cases he
      | .ready (.error e0), ha => exact fun e he => by cases he; exact ⟨e0, w', ha e0 rfl, rfl⟩
    call := call_some h
    poll := fun q x w hx => mapFut_gives h (fun r w ha => by
      cases r with
      | ok v => exact ha
      | error e => exact ⟨e, w, ha, rfl⟩) x hx w }

theorem MapResult.answers {into : Err → Err'} {f : Except Err Res → W → Except Err' Res' × W} (h : Replies S A Z) : Replies (MapResult into f S) (fun q r' => ∃ r w, A q r ∧ r' = (f r w).1) (wrapErr into Z) :=
  AnsW.answers (F := fun q x => ∀ y, x = some y → FutureOf S q y) {
    ready := ready_wrap h into
    call := call_some h
    poll := fun q x w hx => mapFut_gives h (P := fun r' => ∃ r w, A q r ∧ r' = (f r w).1) (fun r w ha => by simp only [wpx_lift]; exact ⟨r, w, ha, rfl⟩) x hx w }

theorem MapFuture.answers {into : Err → Err'} {G : Fut W (Except Err' Res')} {f : S.φ → W → G.φ × W} (h : Replies S A Z) :
    Replies (MapFuture into S G f) (fun q r' => ∃ x w, FutureOf S q x ∧ Outputs G (f x w).1 r') (wrapErr into Z) :=
  AnsW.answers (F := fun q (g : G.φ) => ∀ r', Outputs G g r' → ∃ x w, FutureOf S q x ∧ Outputs G (f x w).1 r') {
    ready := ready_wrap h into
    call := fun s q w => by
      simp only [MapFuture, wpx_bind, wpx_lift, wpx_pure]
      exact wpx_mono (h.w.call s q w) fun a w' ha r' hr => ⟨a.1, w', ha, hr⟩
    poll := fun q g w hg => Outputs.w hg w }

/-- a first future, then a second one -/
def stageInv (S : Service W Req Res Err) {Out : Type} (G : Fut W Out) (q : Req) (P : Out → Prop) : TwoStage S.φ G.φ → Prop
  | .first x => FutureOf S q x
  | .second g => ∀ r', Outputs G g r' → P r'
  | .done => True

theorem pollSecond_gives {Out : Type} {G : Fut W Out} {q : Req} {P : Out → Prop} {g : G.φ} (hg : ∀ r', Outputs G g r' → P r') (w : W) :
    (pollSecond (A := S.φ) G g).gives (fun a _ => (a.1 = .pending → stageInv S G q P a.2) ∧ ∀ r, a.1 = .ready r → P r) w := by
  simp only [pollSecond, wpx_bind]
  refine wpx_mono (Outputs.w hg w) fun a w' ha => ?_
  obtain ⟨p, g'⟩ := a
  cases p with
  | pending => exact ⟨fun _ => ha.1 rfl, fun r hr => by cases hr⟩
  | ready v => exact ⟨fun he => (by cases he), fun r hr => by cases hr; exact ha.2 _ rfl⟩

theorem call_first (h : Replies S A Z) {Out : Type} {G : Fut W Out} {P : Req → Out → Prop} (s : S.σ) (q : Req) (w : W) :
    ((do let (x, s') ← S.call s q; pure (TwoStage.first x, s')) : Act W (TwoStage S.φ G.φ × S.σ)).gives (fun a _ => stageInv S G q (P q) a.1) w := by
  simp only [wpx_bind, wpx_pure]
  exact wpx_mono (h.w.call s q w) fun a _ ha => ha

theorem Then.answers {into : Err → Err'} {G : Fut W (Except Err' Res')} {f : Except Err Res → W → G.φ × W} (h : Replies S A Z) :
    Replies (Then into S G f) (fun q r' => ∃ r w, A q r ∧ Outputs G (f r w).1 r') (wrapErr into Z) :=
  AnsW.answers (F := fun q => stageInv S G q (fun r' => ∃ r w, A q r ∧ Outputs G (f r w).1 r')) {
    ready := ready_wrap h into
    call := fun s q w => call_first h (P := fun q r' => ∃ r w, A q r ∧ Outputs G (f r w).1 r') s q w
    poll := fun q x w hx => by
      cases x with
      | first x =>
        simp only [Then, wpx_bind]
        refine wpx_mono (h.w.poll q x w hx) fun a w' ha => ?_
        obtain ⟨p, x'⟩ := a
        cases p with
        | pending => exact ⟨fun _ => ha.1 rfl, fun r hr => by cases hr⟩
        | ready res =>
          simp only [wpx_bind, wpx_lift]
          exact pollSecond_gives (S := S) (q := q) (fun r' hr => ⟨res, w', ha.2 res rfl, hr⟩) _
      | second g => exact pollSecond_gives (S := S) (q := q) hx w
      | done => exact True.intro }

theorem AndThen.answers {into : Err → Err'} {G : Fut W (Except Err' Res')} {f : Res → W → G.φ × W} (h : Replies S A Z) :
    Replies (AndThen into S G f) (fun q r' => (∃ v w, A q (.ok v) ∧ Outputs G (f v w).1 r') ∨ ∃ e, A q (.error e) ∧ r' = .error (into e)) (wrapErr into Z) :=
  AnsW.answers (F := fun q => stageInv S G q (fun r' => (∃ v w, A q (.ok v) ∧ Outputs G (f v w).1 r') ∨ ∃ e, A q (.error e) ∧ r' = .error (into e))) {
    ready := ready_wrap h into
    call := fun s q w => call_first h (P := fun q r' => (∃ v w, A q (.ok v) ∧ Outputs G (f v w).1 r') ∨ ∃ e, A q (.error e) ∧ r' = .error (into e)) s q w
    poll := fun q x w hx => by
      cases x with
      | first x =>
        simp only [AndThen, wpx_bind]
        refine wpx_mono (h.w.poll q x w hx) fun a w' ha => ?_
        obtain ⟨p, x'⟩ := a
        match p, ha with
        | .pending, ha => exact ⟨fun _ => ha.1 rfl, fun r hr => by cases hr⟩
        | .ready (.error e), ha => exact ⟨fun he => (by cases he), fun r hr => by cases hr; exact Or.inr ⟨e, ha.2 _ rfl, rfl⟩⟩
        | .ready (.ok v), ha =>
          simp only [wpx_bind, wpx_lift]
          exact pollSecond_gives (S := S) (q := q) (fun r' hr => Or.inl ⟨v, w', ha.2 _ rfl, hr⟩) _
      | second g => exact pollSecond_gives (S := S) (q := q) hx w
      | done => exact True.intro }

theorem ServiceFn.answers {F : Fut W (Except Err Res)} {f : Req → W → F.φ × W} : Replies (ServiceFn F f) (fun q r => ∃ w, Outputs F (f q w).1 r) noErr :=
  AnsW.answers (F := fun q (g : F.φ) => ∀ r, Outputs F g r → ∃ w, Outputs F (f q w).1 r) {
    ready := fun s w e he => by cases he
    call := fun s q w r hr => ⟨w, hr⟩
    poll := fun q g w hg => Outputs.w hg w }

end

theorem Either.answers {S T : Service W Req Res Err} {A : Req → Except Err Res → Prop} {Z : Err → Prop} (ha : Replies S A Z) (hb : Replies T A Z) : Replies (Either S T) A Z :=
  AnsW.answers (F := fun q x => match x with | .inl x => FutureOf S q x | .inr x => FutureOf T q x) {
    ready := fun s w => by
      cases s with
      | inl s => simp only [Either, wpx_bind, wpx_pure]; exact ha.w.ready s w
      | inr s => simp only [Either, wpx_bind, wpx_pure]; exact hb.w.ready s w
    call := fun s q w => by
      cases s with
      | inl s => simp only [Either, wpx_bind, wpx_pure]; exact ha.w.call s q w
      | inr s => simp only [Either, wpx_bind, wpx_pure]; exact hb.w.call s q w
    poll := fun q x w hx => by
      cases x with
      | inl x => simp only [Either, wpx_bind, wpx_pure]; exact ha.w.poll q x w hx
      | inr x => simp only [Either, wpx_bind, wpx_pure]; exact hb.w.poll q x w hx }

section
variable {S : Service W Req Res Err} {A : Req → Except Err Res → Prop} {Z : Err → Prop}

theorem Optional.answers (h : Replies S A Z) : Replies (Optional S) (wrapAns .inner (· = .none) A) (wrapErr .inner Z) :=
  AnsW.answers (F := fun q x => ∀ y, x = some y → FutureOf S q y) {
    ready := fun s w => by
      cases s with
      | none => exact fun e he => by cases he
      | some s =>
        simp only [Optional, wpx_bind, wpx_pure]
        have := ready_wrap h OptErr.inner s w
        simpa only [wpx_bind, wpx_pure] using this
    call := fun s q w => by
      cases s with
      | none => exact fun f hf => by cases hf
      | some s =>
        simp only [Optional, wpx_bind, wpx_pure]
        exact wpx_mono (h.w.call s q w) fun a _ ha f hf => by cases hf; exact ha
    poll := fun q x w hx => by
      cases x with
      | none => exact ⟨fun he => (by cases he), fun r hr => by cases hr; exact Or.inr ⟨_, rfl, rfl⟩⟩
      | some x =>
        simp only [Optional, wpx_bind, wpx_pure]
        refine wpx_mono (poll_wrap h OptErr.inner (· = .none) q x w (hx x rfl)) fun a _ ha => ⟨fun he f hf => ?_, ha.2⟩
        cases hf
        refine ha.1 ?_
        cases h1 : a.1 with
        | pending => rfl
        | ready r => rw [h1] at he; cases he }

theorem FutureService.answers {F : Fut W (Except Err S.σ)} {fc : F.φ → F.φ} (h : Replies S A Z) : Replies (FutureService S F fc) A (fun e => Z e ∨ ∃ g, Outputs F g (.error e)) :=
  AnsW.answers (F := FutureOf S) {
    ready := fun s w => by
      cases s with
      | service s =>
        simp only [FutureService, wpx_bind, wpx_pure]
        exact wpx_mono (h.w.ready s w) fun a _ ha e he => Or.inl (ha e he)
      | future g =>
        simp only [FutureService, wpx_bind]
        refine gives_iff.2 fun a w' hr => ?_
        obtain ⟨p, g'⟩ := a
        match p, hr with
        | .pending, hr => exact fun e he => by cases he
        | .ready (.error e0), hr => exact fun e he => by cases he; exact Or.inr ⟨g, .ready hr⟩
        | .ready (.ok s), hr =>
          simp only [wpx_bind, wpx_pure]
          exact wpx_mono (h.w.ready s w') fun a _ ha e he => Or.inl (ha e he)
    call := fun s q w => by
      cases s with
      | future g => exact True.intro
      | service s => simp only [FutureService, wpx_bind, wpx_pure]; exact h.w.call s q w
    poll := h.w.poll }

theorem BoxService.answers (h : Replies S A Z) : Replies (BoxService S) A Z :=
  AnsW.answers (F := fun q x => FutureOf S q x.val) {
    ready := fun s w => by simp only [BoxService, wpx_bind, wpx_pure]; exact h.w.ready s.val w
    call := fun s q w => by simp only [BoxService, wpx_bind, wpx_pure]; exact h.w.call s.val q w
    poll := fun q x w hx => by simp only [BoxService, wpx_bind, wpx_pure]; exact h.w.poll q x.val w hx }

theorem Timeout.answers {C : Clock W} {d : Nat} (h : Replies S A Z) : Replies (Timeout C d S) (wrapAns .inner (· = .elapsed) A) (wrapErr .inner Z) :=
  AnsW.answers (F := fun q x => FutureOf S q x.1) {
    ready := ready_wrap h _
    call := fun s q w => by
      simp only [Timeout, wpx_bind, wpx_pure]
      exact wpx_mono (h.w.call s q w) fun a _ ha => ha
    poll := fun q x w hx => by
      simp only [Timeout, wpx_bind]
      refine wpx_mono (h.w.poll q x.1 w hx) fun a w' ha => ?_
      obtain ⟨p, y⟩ := a
      cases p with
      | ready v => exact ⟨fun he => (by cases he), fun r hr => by cases hr; exact Or.inl ⟨v, ha.2 v rfl, rfl⟩⟩
      | pending =>
        simp only [wpx_bind]
        show wpx _ _ (if C.fired x.2 w' = true then _ else _) _ w'
        split
        · exact ⟨fun he => (by cases he), fun r hr => by cases hr; exact Or.inr ⟨_, rfl, rfl⟩⟩
        · exact ⟨fun _ => ha.1 rfl, fun r hr => by cases hr⟩ }

theorem LoadShed.answers (h : Replies S A Z) : Replies (LoadShed S) (wrapAns .inner (· = .overloaded) A) (wrapErr .inner Z) :=
  AnsW.answers (F := fun q x => ∀ y, x = some y → FutureOf S q y) {
    ready := fun s w => by
      simp only [LoadShed, wpx_bind]
      refine wpx_mono (h.w.ready s.inner w) fun a w' ha => ?_
      obtain ⟨p, s'⟩ := a
      match p, ha with
      | .pending, ha => exact fun e he => by cases he
      | .ready (.ok ()), ha => exact fun e he => by cases he
      | .ready (.error e0), ha => exact fun e he => by cases he; exact ⟨e0, ha e0 rfl, rfl⟩
    call := fun s q w => by
      simp only [LoadShed]
      split
      · simp only [wpx_bind, wpx_pure]
        exact wpx_mono (h.w.call s.inner q w) fun a _ ha f hf => by cases hf; exact ha
      · exact fun f hf => by cases hf
    poll := fun q x w hx => by
      cases x with
      | none => exact ⟨fun he => (by cases he), fun r hr => by cases hr; exact Or.inr ⟨_, rfl, rfl⟩⟩
      | some x =>
        simp only [LoadShed, wpx_bind, wpx_pure]
        refine wpx_mono (poll_wrap h ShedErr.inner (· = .overloaded) q x w (hx x rfl)) fun a _ ha => ⟨fun he f hf => ?_, ha.2⟩
        cases hf
        refine ha.1 ?_
        cases h1 : a.1 with
        | pending => rfl
        | ready r => rw [h1] at he; cases he }

theorem RateLimit.answers {C : Clock W} {R : Rate} (h : Replies S A Z) : Replies (RateLimit C R S) A Z :=
  AnsW.answers (F := FutureOf S) {
    ready := fun s w => by
      simp only [RateLimit]
      split
      · simp only [wpx_bind, wpx_pure]; exact h.w.ready s.inner w
      · simp only [wpx_bind]
        show wpx _ _ (if C.fired s.sleep w = true then _ else _) _ w
        split
        · simp only [wpx_bind, wpx_pure]; exact h.w.ready s.inner w
        · exact fun e he => by cases he
    call := fun s q w => by
      simp only [RateLimit, wpx_bind]
      show wpx _ _ (match rateTake R (C.now w) s.st s.sleep with | none => _ | some (st, sleep) => _) _ w
      split
      · exact True.intro
      · simp only [wpx_bind, wpx_pure]; exact h.w.call s.inner q w
    poll := h.w.poll }

theorem ConcurrencyLimit.answers {debug : Bool} {V : SemView W} (h : Replies S A Z) : Replies (ConcurrencyLimit debug V S) A Z :=
  AnsW.answers (F := FutureOf S) {
    ready := fun s w => by
      simp only [ConcurrencyLimit]
      split
      · simp only [wpx_bind, wpx_pure]; exact h.w.ready s.inner w
      · simp only [wpx_bind, wpx_lift]
        split
        · exact fun e he => by cases he
        · split
          · exact True.intro
          · simp only [wpx_bind, wpx_pure]; exact h.w.ready s.inner _
    call := fun s q w => by
      simp only [ConcurrencyLimit]
      split
      · simp only [wpx_bind, wpx_pure]; exact h.w.call s.inner q w
      · exact True.intro
    poll := h.w.poll }

theorem Filter.answers {into : Err → Err'} {check : Req' → W → Except Err' Req × W} (h : Replies S A Z) : Replies (Filter into check S) (filterAns into (fun q' c => ∃ w, (check q' w).1 = c) A) (wrapErr into Z) :=
  AnsW.answers (F := fun q' x => match x with
      | .inl o => ∀ e, o = some e → ∃ w, (check q' w).1 = .error e
      | .inr o => ∃ q, (∃ w, (check q' w).1 = .ok q) ∧ ∀ y, o = some y → FutureOf S q y) {
    ready := ready_wrap h into
    call := fun s q' w => by
      simp only [Filter, wpx_bind, wpx_lift]
      split
      · rename_i q hq
        simp only [wpx_bind, wpx_pure]
        exact wpx_mono (h.w.call s q _) fun a _ ha => ⟨q, ⟨w, hq⟩, fun y hy => by cases hy; exact ha⟩
      · rename_i e he
        exact fun e' h' => by cases h'; exact ⟨w, he⟩
    poll := fun q' x w hx => by
      match x, hx with
      | .inl none, hx => exact True.intro
      | .inl (some e), hx => exact ⟨fun he => (by cases he), fun r hr => by cases hr; exact Or.inr ⟨e, hx e rfl, rfl⟩⟩
      | .inr o, ⟨q, hq, ho⟩ =>
        simp only [Filter, wpx_bind, wpx_pure]
        refine wpx_mono (mapFut_gives h (P := fun r' => ∃ r, A q r ∧ r' = mapErr into r) (fun r w ha => by simp only [wpx_pure]; exact ⟨r, ha, rfl⟩) o ho w) fun a _ ha => ?_
        refine ⟨fun he => ⟨q, hq, ha.1 he⟩, fun r hr => ?_⟩
        obtain ⟨r0, h0, h1⟩ := ha.2 r hr
        exact Or.inl ⟨q, r0, hq, h0, h1⟩ }

theorem AsyncFilter.answers {into : Err → Err'} {P : Fut W (Except Err' Req)} {check : Req' → W → P.φ × W} (h : Replies S A Z) :
    Replies (AsyncFilter into P check S) (filterAns into (fun q' c => ∃ w, Outputs P (check q' w).1 c) A) (wrapErr into Z) :=
  AnsW.answers (F := fun q' x => match x with
      | .check c _ => ∀ v, Outputs P c v → ∃ w, Outputs P (check q' w).1 v
      | .waitResponse y => ∃ q, (∃ w, Outputs P (check q' w).1 (.ok q)) ∧ FutureOf S q y) {
    ready := ready_wrap h into
    call := fun s q' w v hv => ⟨w, hv⟩
    poll := fun q' x w hx => by
      have wait : ∀ (y : S.φ) (w : W) (q : Req), (∃ w, Outputs P (check q' w).1 (.ok q)) → FutureOf S q y →
          ((AsyncFilter into P check S).poll (.waitResponse y)).gives (fun a _ => (a.1 = .pending → match a.2 with
            | .check c _ => ∀ v, Outputs P c v → ∃ w, Outputs P (check q' w).1 v
            | .waitResponse y => ∃ q, (∃ w, Outputs P (check q' w).1 (.ok q)) ∧ FutureOf S q y) ∧ ∀ r, a.1 = .ready r → filterAns into (fun q' c => ∃ w, Outputs P (check q' w).1 c) A q' r) w := by
        intro y w q hq hy
        simp only [AsyncFilter, wpx_bind, wpx_pure]
        refine wpx_mono (h.w.poll q y w hy) fun a _ ha => ?_
        obtain ⟨p, y'⟩ := a
        cases p with
        | pending => exact ⟨fun _ => ⟨q, hq, ha.1 rfl⟩, fun r hr => by cases hr⟩
        | ready r0 => exact ⟨fun he => (by cases he), fun r hr => by cases hr; exact Or.inl ⟨q, r0, hq, ha.2 r0 rfl, rfl⟩⟩
      cases x with
      | waitResponse y =>
        obtain ⟨q, hq, hy⟩ := hx
        exact wait y w q hq hy
      | check c s =>
        simp only [AsyncFilter, wpx_bind]
        refine wpx_mono (Outputs.w hx w) fun a w' ha => ?_
        obtain ⟨p, c'⟩ := a
        match p, ha with
        | .pending, ha => exact ⟨fun _ => ha.1 rfl, fun r hr => by cases hr⟩
        | .ready (.error e), ha => exact ⟨fun he => (by cases he), fun r hr => by cases hr; exact Or.inr ⟨e, ha.2 _ rfl, rfl⟩⟩
        | .ready (.ok q), ha =>
          simp only [wpx_bind]
          refine wpx_mono (h.w.call s q w') fun a w2 h2 => ?_
          have := wait a.1 w2 q (ha.2 _ rfl) h2
          simp only [AsyncFilter, wpx_bind] at this
          exact this }

theorem steerPoll_gives (h : Replies S A Z) : ∀ (l : List Nat) (ss : List S.σ) (w : W), (steerPoll S ss l).gives (fun a _ => ∀ e, a.1 = .ready (.error e) → Z e) w
  | [], ss, w => fun e he => by cases he
  | i :: l, ss, w => by
    unfold steerPoll
    split
    · exact True.intro
    · simp only [wpx_bind]
      refine wpx_mono (h.w.ready _ w) fun a w' ha => ?_
      obtain ⟨p, s'⟩ := a
      match p, ha with
      | .pending, ha => exact fun e he => by cases he
      | .ready (.error e0), ha => exact fun e he => by cases he; exact ha e0 rfl
      | .ready (.ok ()), ha => exact steerPoll_gives h l _ w'

theorem Steer.answers {pick : Req → List S.σ → W → Nat × W} (h : Replies S A Z) : Replies (Steer S pick) A Z :=
  AnsW.answers (F := FutureOf S) {
    ready := fun s w => steerPoll_gives h _ _ w
    call := fun s q w => by
      simp only [Steer]
      split
      · simp only [wpx_bind, wpx_lift]
        split
        · exact True.intro
        · simp only [wpx_bind, wpx_pure]; exact h.w.call _ q _
      · exact True.intro
    poll := h.w.poll }

theorem Latency.answers {into : Err → Err'} {C : Clock W} {record : Nat → W → W} (h : Replies S A Z) : Replies (Latency into C record S) (wrapAns into noErr A) (wrapErr into Z) :=
  AnsW.answers (F := fun q x => FutureOf S q x.2) {
    ready := ready_wrap h into
    call := fun s q w => by
      simp only [Latency, wpx_bind, wpx_pure]
      rw [show wpx (fun _ => True) True (Act.get : Act W W) _ w = _ from gives_get]
      exact wpx_mono (h.w.call s q w) fun a _ ha => ha
    poll := fun q x w hx => by
      simp only [Latency, wpx_bind]
      refine wpx_mono (h.w.poll q x.2 w hx) fun a w' ha => ?_
      obtain ⟨p, y⟩ := a
      match p, ha with
      | .pending, ha => exact ⟨fun _ => ha.1 rfl, fun r hr => by cases hr⟩
      | .ready (.error e), ha => exact ⟨fun he => (by cases he), fun r hr => by cases hr; exact Or.inl ⟨_, ha.2 _ rfl, rfl⟩⟩
      | .ready (.ok v), ha => exact ⟨fun he => (by cases he), fun r hr => by cases hr; exact Or.inl ⟨_, ha.2 _ rfl, rfl⟩⟩ }

/-- a oneshot for `q` -/
def oneshotInv (S : Service W Req Res Err) (q : Req) : OneshotState S.σ Req S.φ → Prop
  | .notReady _ o => ∀ q', o = some q' → q' = q
  | .called f => FutureOf S q f
  | .done => True

theorem Oneshot.called_gives (h : Replies S A Z) (q : Req) (f : S.φ) (w : W) (hf : FutureOf S q f) :
    ((Oneshot S).poll (.called f)).gives (fun a _ => (a.1 = .pending → oneshotInv S q a.2) ∧ ∀ r, a.1 = .ready r → (A q r ∨ ∃ e, Z e ∧ r = .error e)) w := by
  simp only [Oneshot, wpx_bind]
  refine wpx_mono (h.w.poll q f w hf) fun a w' ha => ?_
  obtain ⟨p, f'⟩ := a
  match p, ha with
  | .pending, ha => exact ⟨fun _ => ha.1 rfl, fun r hr => by cases hr⟩
  | .ready (.error e), ha => exact ⟨fun he => (by cases he), fun r hr => by cases hr; exact Or.inl (ha.2 _ rfl)⟩
  | .ready (.ok v), ha => exact ⟨fun he => (by cases he), fun r hr => by cases hr; exact Or.inl (ha.2 _ rfl)⟩

theorem Oneshot.gives (h : Replies S A Z) (q : Req) (x : OneshotState S.σ Req S.φ) (w : W) (hx : oneshotInv S q x) :
    ((Oneshot S).poll x).gives (fun a _ => (a.1 = .pending → oneshotInv S q a.2) ∧ ∀ r, a.1 = .ready r → (A q r ∨ ∃ e, Z e ∧ r = .error e)) w := by
  cases x with
  | done => exact True.intro
  | called f => exact Oneshot.called_gives h q f w hx
  | notReady s o =>
    simp only [Oneshot, wpx_bind]
    refine wpx_mono (h.w.ready s w) fun a w' ha => ?_
    obtain ⟨p, s'⟩ := a
    match p, ha with
    | .pending, ha => exact ⟨fun _ => hx, fun r hr => by cases hr⟩
    | .ready (.error e), ha => exact ⟨fun he => (by cases he), fun r hr => by cases hr; exact Or.inr ⟨e, ha e rfl, rfl⟩⟩
    | .ready (.ok ()), ha =>
      cases o with
      | none => exact True.intro
      | some q0 =>
        cases hx q0 rfl
        simp only [wpx_bind]
        refine wpx_mono (h.w.call s' q w') fun a w2 h2 => ?_
        have := Oneshot.called_gives h q a.1 w2 h2
        simp only [Oneshot, wpx_bind] at this
        exact this

theorem Delay.answers {into : Err → Err'} {C : Clock W} {delay : Req → W → Nat × W} (h : Replies S A Z) : Replies (Delay into C delay S) (wrapAns into (wrapErr into Z) A) noErr :=
  AnsW.answers (F := fun q x => match x with
      | .delaying _ r _ => r = q
      | .called x => oneshotInv S q x) {
    ready := fun s w e he => by cases he
    call := fun s q w => by exact rfl
    poll := fun q x w hx => by
      have key : ∀ (x : OneshotState S.σ Req S.φ) (w : W), oneshotInv S q x → ((Delay into C delay S).poll (.called x)).gives (fun a _ => (a.1 = .pending → match a.2 with
            | .delaying _ r _ => r = q
            | .called x => oneshotInv S q x) ∧ ∀ r, a.1 = .ready r → wrapAns into (wrapErr into Z) A q r) w := by
        intro x w hx
        simp only [Delay, wpx_bind, wpx_pure]
        refine wpx_mono (Oneshot.gives h q x w hx) fun a _ ha => ?_
        obtain ⟨p, x'⟩ := a
        cases p with
        | pending => exact ⟨fun _ => ha.1 rfl, fun r hr => by cases hr⟩
        | ready r0 =>
          refine ⟨fun he => (by cases he), fun r hr => ?_⟩
          cases hr
          rcases ha.2 r0 rfl with h1 | ⟨e, h1, rfl⟩
          · exact Or.inl ⟨r0, h1, rfl⟩
          · exact Or.inr ⟨into e, ⟨e, h1, rfl⟩, rfl⟩
      cases x with
      | called x => exact key x w hx
      | delaying dl r s =>
        cases hx
        simp only [Delay, wpx_bind]
        show wpx _ _ (if C.fired dl w = true then _ else _) _ w
        split
        · have := key (.notReady s (some q)) w (fun q' hq => (Option.some.inj hq).symm)
          simp only [Delay, wpx_bind] at this
          simp only [wpx_bind]
          exact this
        · exact ⟨fun _ => rfl, fun r hr => by cases hr⟩ }

theorem Select.answers {cr : Req → W → Option Req × W} {T : Service W Req Res Err} {A' : Req → Except Err Res → Prop} {Z' : Err → Prop} (ha : Replies S A Z) (hb : Replies T A' Z') :
    Replies (Select cr S T) (fun q r => A q r ∨ ∃ q' w, (cr q w).1 = some q' ∧ A' q' r) (fun e => Z e ∨ Z' e) :=
  AnsW.answers (F := fun q x => FutureOf S q x.1 ∧ ∀ y, x.2 = some y → ∃ q' w, (cr q w).1 = some q' ∧ FutureOf T q' y) {
    ready := fun s w => by
      simp only [Select, wpx_bind]
      refine wpx_mono (ha.w.ready s.1 w) fun a w1 h1 => wpx_mono (hb.w.ready s.2 w1) fun b w2 h2 => ?_
      obtain ⟨p, a⟩ := a
      obtain ⟨p', b⟩ := b
      match p, p', h1, h2 with
      | .ready (.ok ()), .ready (.ok ()), h1, h2 => exact fun e he => by cases he
      | .ready (.error e0), _, h1, h2 => exact fun e he => by cases he; exact Or.inl (h1 _ rfl)
      | .ready (.ok ()), .ready (.error e0), h1, h2 => exact fun e he => by cases he; exact Or.inr (h2 _ rfl)
      | .pending, .ready (.error e0), h1, h2 => exact fun e he => by cases he; exact Or.inr (h2 _ rfl)
      | .pending, .pending, h1, h2 => exact fun e he => by cases he
      | .pending, .ready (.ok ()), h1, h2 => exact fun e he => by cases he
      | .ready (.ok ()), .pending, h1, h2 => exact fun e he => by cases he
    call := fun s q w => by
      simp only [Select, wpx_bind, wpx_lift]
      split
      · rename_i q' hq
        simp only [wpx_bind, wpx_pure]
        refine wpx_mono (hb.w.call s.2 q' _) fun b w1 h1 => wpx_mono (ha.w.call s.1 q w1) fun a w2 h2 => ⟨h2, fun y hy => ?_⟩
        cases hy
        exact ⟨q', w, hq, h1⟩
      · simp only [wpx_bind, wpx_pure]
        exact wpx_mono (ha.w.call s.1 q _) fun a w2 h2 => ⟨h2, fun y hy => by cases hy⟩
    poll := fun q x w hx => by
      obtain ⟨x, o⟩ := x
      simp only [Select, wpx_bind]
      refine wpx_mono (ha.w.poll q x w hx.1) fun a w1 h1 => ?_
      obtain ⟨p, a⟩ := a
      cases p with
      | ready r0 => exact ⟨fun he => (by cases he), fun r hr => by cases hr; exact Or.inl (h1.2 _ rfl)⟩
      | pending =>
        cases o with
        | none => exact ⟨fun _ => ⟨h1.1 rfl, fun y hy => by cases hy⟩, fun r hr => by cases hr⟩
        | some y =>
          obtain ⟨q', v, hq, hy⟩ := hx.2 y rfl
          simp only [wpx_bind]
          refine wpx_mono (hb.w.poll q' y w1 hy) fun b w2 h2 => ?_
          obtain ⟨p, b⟩ := b
          cases p with
          | ready r0 => exact ⟨fun he => (by cases he), fun r hr => by cases hr; exact Or.inr ⟨q', v, hq, h2.2 _ rfl⟩⟩
          | pending => exact ⟨fun _ => ⟨h1.1 rfl, fun y hy => by cases hy; exact ⟨q', v, hq, h2.1 rfl⟩⟩, fun r hr => by cases hr⟩ }

theorem hedgePred_outputs {BErr : Type} {x : (hedgePredFut (W := W) (Req := Req) (BErr := BErr)).φ} {v : Except BErr Req} (h : Outputs (hedgePredFut (W := W) (Req := Req) (BErr := BErr)) x v) : ∃ q, @Eq (Option Req) x (some q) ∧ v = .ok q := by
  induction h with
  | @ready g g' v w w' hr =>
    cases g with
    | none =>
      have h1 : (Poll.pending : Poll (Except BErr Req)) = Poll.ready v := congrArg Prod.fst (Out.ok.inj hr).1
      cases h1
    | some q =>
      have h1 : (Poll.ready (.ok q) : Poll (Except BErr Req)) = Poll.ready v := congrArg Prod.fst (Out.ok.inj hr).1
      cases h1
      exact ⟨q, rfl, rfl⟩
  | @pending g g' v w w' hr _ ih =>
    cases g with
    | none =>
      have h1 : (none : Option Req) = g' := congrArg Prod.snd (Out.ok.inj hr).1
      obtain ⟨q, h2, _⟩ := ih
      rw [← h1] at h2
      cases h2
    | some q =>
      have h1 : (Poll.ready (.ok q) : Poll (Except BErr Req)) = Poll.pending := congrArg Prod.fst (Out.ok.inj hr).1
      cases h1

theorem Hedge.answers {into : Err → Err'} {H : HedgeCfg W Req} (h : Replies S A Z) : Replies (Hedge into H S) (hedgeAns into H.cloneRequest A Z) (wrapErr into Z) := by
  have h1 : Replies (Latency into H.clock H.record S) (wrapAns into noErr A) (wrapErr into Z) := Latency.answers h
  have h2 := Select.answers (cr := H.selectClone) h1 (Delay.answers (into := id) (C := H.clock) (delay := fun _ => H.delay)
    (AsyncFilter.answers (into := id) (P := hedgePredFut) (check := fun r w => (if H.canRetry r w then some r else none, w)) h1))
  refine h2.mono (fun q r hr => ?_) (fun e he => ?_)
  · rcases hr with (⟨r0, h3, rfl⟩ | ⟨e, he, _⟩) | ⟨q', w, hq, hr⟩
    · exact Or.inl ⟨r0, h3, rfl⟩
    · cases he
    · have hc : H.cloneRequest q w = some q' := by
        unfold HedgeCfg.selectClone at hq
        split at hq
        · cases hq
        · rename_i q1 h1
          dsimp only at hq
          split at hq
          · cases hq; exact h1
          · cases hq
      refine Or.inr ⟨q', w, hc, ?_⟩
      rcases hr with ⟨r0, (⟨q2, r2, ⟨v, hv⟩, ha, rfl⟩ | ⟨e, ⟨v, hv⟩, _⟩), rfl⟩ | ⟨e, ⟨e1, ⟨e2, ⟨e3, h3, rfl⟩, rfl⟩, rfl⟩, rfl⟩
      · obtain ⟨q3, h4, h5⟩ := hedgePred_outputs hv
        cases h5
        have : q' = q2 := by
          by_cases hc : H.canRetry q' v = true
          · simpa [hc] using h4
          · simp [hc] at h4
        subst this
        rcases ha with ⟨r3, h6, rfl⟩ | ⟨e, he, _⟩
        · refine Or.inl ⟨r3, h6, ?_⟩
          cases r3 <;> rfl
        · cases he
      · obtain ⟨q3, _, h5⟩ := hedgePred_outputs hv
        cases h5
      · exact Or.inr ⟨e3, h3, rfl⟩
  · rcases he with he | he
    · exact he
    · cases he

theorem Constant.answers {M : Type} (h : Replies S A Z) : Replies (Constant M S) A Z :=
  AnsW.answers (F := FutureOf S) {
    ready := fun s w => by simp only [wpx_bind, wpx_pure]; exact h.w.ready s.1 w
    call := fun s q w => by simp only [wpx_bind, wpx_pure]; exact h.w.call s.1 q w
    poll := h.w.poll }

theorem tracked.answers {T : Tracker} {C : Completion Res Res'} (h : Replies S A Z) : Replies (tracked T C S) (trackedAns C A) Z :=
  AnsW.answers (F := fun q x => FutureOf S q x.1) {
    ready := fun s w => by
      show wpx _ _ ((S.pollReady s).snd) _ w
      rw [gives_snd]
      exact h.w.ready s w.2
    call := fun s q w => by
      simp only [wpx_bind]
      rw [gives_fst]
      refine gives_iff.2 fun a v _ => ?_
      rw [gives_snd]
      exact wpx_mono (h.w.call s q w.2) fun a _ ha => ha
    poll := fun q x w hx => by
      simp only [wpx_bind]
      rw [gives_snd]
      refine wpx_mono (h.w.poll q x.1 w.2 hx) fun a w' ha => ?_
      obtain ⟨p, f'⟩ := a
      match p, ha with
      | .pending, ha => exact ⟨fun _ => ha.1 rfl, fun r hr => by cases hr⟩
      | .ready (.error e), ha => exact ⟨fun he => (by cases he), fun r hr => by cases hr; exact ha.2 _ rfl⟩
      | .ready (.ok v), ha =>
        dsimp only
        split
        · exact True.intro
        · rename_i hd _
          simp only [wpx_bind]
          rw [gives_fst]
          have hout : (C.track T hd v).gives (fun o _ => o.1 = C.out v) w.1 := by
            unfold Completion.track
            split
            · exact rfl
            · simp only [wpx_bind, wpx_pure]
              exact gives_iff.2 fun a v _ => trivial
          refine wpx_mono hout fun o _ ho => ⟨fun he => (by cases he), fun r hr => ?_⟩
          cases hr
          exact ⟨v, ha.2 _ rfl, ho⟩ }

end
end Tower
