import Verif.Contract
import Verif.Model.Hedge

/-!
# Each middleware keeps the service contract (lemmas)
-/

namespace Tower

variable {W : Type}

open Act

section util
variable {Req Res Err : Type} {cfg : Cfg} {good : Res → Prop}

theorem MapRequest.safe {R1 : Type} (f : R1 → W → Req × W) {S : Service W Req Res Err} {s : S.σ}
    (h : SafeG cfg good S s) : SafeG cfg good (MapRequest f S) s := by
  obtain ⟨I, hI⟩ := h.inv
  exact SafeInv.safe (S := MapRequest f S)
    { H := I.H, F := I.F, ready_ok := I.ready_ok, poll_ok := I.poll_ok, clone_ok := I.clone_ok
      call_ok := by
        intro s r w hs
        simp only [MapRequest, wp_bind, wp_lift]
        exact I.call_ok _ _ _ hs } hI

/-- what holds of a future holds of it inside a `Map` that is not complete -/
@[reducible] def MapF {φ : Type} (F : φ → Prop) (o : Option φ) : Prop := ∃ x, o = some x ∧ F x

theorem mapFut_post {φ A B E1 E2 : Type} {F : φ → Prop} {good : A → Prop} {good' : B → Prop} {poll : φ → Act W (Poll (Except E1 A) × φ)} {f : Except E1 A → Act W (Except E2 B)} {o : Option φ} {w : W}
    (ho : MapF F o) (h : ∀ x w, F x → wp (poll x) (fun r _ => PollPost good F r) w)
    (hf : ∀ res w', (∀ r, res = .ok r → good r) → wp (f res) (fun res' _ => ∀ r', res' = .ok r' → good' r') w') :
    wp (mapFut poll f o) (fun r _ => PollPost good' (MapF F) r) w := by
  obtain ⟨x, rfl, hx⟩ := ho
  rw [wp_mapFut]
  refine wp_mono (h x w hx) ?_
  rintro ⟨p, x'⟩ w' h
  match p, h with
  | .pending, h => exact ⟨x', rfl, h⟩
  | .ready res, h =>
    refine wp_mono (hf res w' (by rintro r rfl; exact h)) ?_
    intro res' w2 h2
    cases res' with
    | ok r => exact h2 r rfl
    | error e => trivial

theorem mapFut_call {Req Res Err : Type} {cfg : Cfg} {good : Res → Prop} {S : Service W Req Res Err} (I : SafeInv cfg good S) (s : S.σ) (r : Req) (w : W) (hs : I.H s .ready) :
    wp (do let (x, s') ← S.call s r; pure (some x, s') : Act W (Option S.φ × S.σ)) (fun x _ => MapF I.F x.1 ∧ I.H x.2 .idle) w := by
  simp only [wp_bind]
  refine wp_mono (I.call_ok s r w hs) ?_
  rintro ⟨x, s'⟩ w' h
  exact ⟨⟨x, rfl, h.1⟩, h.2⟩

theorem MapResponse.safe {R2 : Type} (f : Res → W → R2 × W) {good' : R2 → Prop}
    (hf : ∀ r w, good r → good' (f r w).1) {S : Service W Req Res Err} {s : S.σ}
    (h : SafeG cfg good S s) : SafeG cfg good' (MapResponse f S) s := by
  obtain ⟨I, hI⟩ := h.inv
  exact SafeInv.safe (S := MapResponse f S)
    { H := I.H, F := MapF I.F, ready_ok := I.ready_ok, call_ok := mapFut_call I, clone_ok := I.clone_ok
      poll_ok := by
        intro x w hx
        refine mapFut_post hx I.poll_ok ?_
        intro res w' h
        cases res with
        | error e => intro r hr; cases hr
        | ok r =>
          simp only [wp_bind, wp_lift, wp_pure]
          intro r' hr'; cases hr'; exact hf _ _ (h r rfl) } hI

theorem MapErr.safe {E2 : Type} (f : Err → W → E2 × W) {S : Service W Req Res Err} {s : S.σ}
    (h : SafeG cfg good S s) : SafeG cfg good (MapErr f S) s := by
  obtain ⟨I, hI⟩ := h.inv
  exact SafeInv.safe (S := MapErr f S)
    { H := I.H, F := MapF I.F, call_ok := mapFut_call I, clone_ok := I.clone_ok
      ready_ok := by
        intro s m w hs hm
        simp only [MapErr, wp_bind]
        refine wp_mono (I.ready_ok s m w hs hm) ?_
        rintro ⟨p, s'⟩ w' h
        match p, h with
        | .pending, h => exact h
        | .ready (.ok ()), h => exact h
        | .ready (.error e), _ => trivial
      poll_ok := by
        intro x w hx
        refine mapFut_post hx I.poll_ok ?_
        intro res w' h
        cases res with
        | error e => intro r hr; cases hr
        | ok r => intro r' hr'; cases hr'; exact h r rfl } hI

theorem MapResult.safe {R2 E2 : Type} (into : Err → E2) (f : Except Err Res → W → Except E2 R2 × W)
    {good' : R2 → Prop}
    (hf : ∀ res w, (∀ r, res = .ok r → good r) → ∀ r', (f res w).1 = .ok r' → good' r')
    {S : Service W Req Res Err} {s : S.σ}
    (h : SafeG cfg good S s) : SafeG cfg good' (MapResult into f S) s := by
  obtain ⟨I, hI⟩ := h.inv
  exact SafeInv.safe (S := MapResult into f S)
    { H := I.H, F := MapF I.F, call_ok := mapFut_call I, clone_ok := I.clone_ok
      ready_ok := by
        intro s m w hs hm
        simp only [MapResult, wp_bind]
        refine wp_mono (I.ready_ok s m w hs hm) ?_
        rintro ⟨p, s'⟩ w' h
        simp only [wp_pure]; exact ReadyPost.map (p := p) into h (fun h => h) (fun h => h) id
      poll_ok := by
        intro x w hx
        refine mapFut_post hx I.poll_ok ?_
        intro res w' h
        exact hf res w' h } hI

/-- The response future of a service, as a plain future. -/
def Service.fut (S : Service W Req Res Err) : Fut W (Except Err Res) := ⟨S.φ, S.poll⟩

/-- `good` on a result -/
def OkGood (good : Res → Prop) : Except Err Res → Prop
  | .ok r => good r
  | .error _ => True

theorem futSafe_of_inv {S : Service W Req Res Err} (I : SafeInv cfg good S) {x : S.φ} (h : I.F x) :
    FutSafe S.fut (OkGood good) x := by
  intro ws
  induction ws generalizing x with
  | nil => trivial
  | cons w ws ih =>
    show wp (S.poll x) _ w
    refine wp_mono (I.poll_ok x w h) ?_
    rintro ⟨p, x'⟩ w' h
    match p, h with
    | .pending, h => exact ih h
    | .ready (.ok r), h => exact h
    | .ready (.error e), _ => trivial

theorem MapFuture.safe {R2 E2 : Type} (into : Err → E2) {S : Service W Req Res Err}
    (G : Fut W (Except E2 R2)) (f : S.φ → W → G.φ × W) {good' : R2 → Prop}
    (hf : ∀ x w, FutSafe S.fut (OkGood good) x → FutSafe G (OkGood good') (f x w).1) {s : S.σ}
    (h : SafeG cfg good S s) : SafeG cfg good' (MapFuture into S G f) s := by
  obtain ⟨I, hI⟩ := h.inv
  exact SafeInv.safe (S := MapFuture into S G f)
    { H := I.H, F := fun g => FutSafe G (OkGood good') g, clone_ok := I.clone_ok
      ready_ok := by
        intro s m w hs hm
        simp only [MapFuture, wp_bind]
        refine wp_mono (I.ready_ok s m w hs hm) ?_
        rintro ⟨p, s'⟩ w' h
        simp only [wp_pure]; exact ReadyPost.map (p := p) into h (fun h => h) (fun h => h) id
      call_ok := by
        intro s r w hs
        simp only [MapFuture, wp_bind]
        refine wp_mono (I.call_ok s r w hs) ?_
        rintro ⟨x, s'⟩ w' h
        simp only [wp_lift, wp_pure]
        exact ⟨hf _ _ (futSafe_of_inv I h.1), h.2⟩
      poll_ok := by
        intro x w hx
        refine wp_mono (hx.poll w) ?_
        rintro ⟨p, x'⟩ w' h
        match p, h with
        | .pending, h => exact h
        | .ready (.ok r), h => exact h
        | .ready (.error e), _ => trivial } hI

/-- invariant of two-stage futures -/
def TwoStageInv {A B : Type} (FA : A → Prop) (FB : B → Prop) : TwoStage A B → Prop
  | .first a => FA a
  | .second b => FB b
  | .done => False

theorem Then.safe {R2 E2 : Type} (into : Err → E2) {S : Service W Req Res Err}
    (G : Fut W (Except E2 R2)) (f : Except Err Res → W → G.φ × W) {good' : R2 → Prop}
    (hf : ∀ res w, OkGood good res → FutSafe G (OkGood good') (f res w).1) {s : S.σ}
    (h : SafeG cfg good S s) : SafeG cfg good' (Then into S G f) s := by
  obtain ⟨I, hI⟩ := h.inv
  have second : ∀ (g : G.φ) (w : W), FutSafe G (OkGood good') g →
      wp (pollSecond G g)
      (fun r _ => PollPost good' (TwoStageInv I.F (FutSafe G (OkGood good'))) r) w := by
    intro g w hg
    simp only [pollSecond, wp_bind]
    refine wp_mono (hg.poll w) ?_
    rintro ⟨p, x'⟩ w' h
    match p, h with
    | .pending, h => exact h
    | .ready (.ok r), h => exact h
    | .ready (.error e), _ => trivial
  exact SafeInv.safe (S := Then into S G f)
    { H := I.H
      F := TwoStageInv I.F (FutSafe G (OkGood good'))
      clone_ok := I.clone_ok
      ready_ok := by
        intro s m w hs hm
        simp only [Then, wp_bind]
        refine wp_mono (I.ready_ok s m w hs hm) ?_
        rintro ⟨p, s'⟩ w' h
        simp only [wp_pure]; exact ReadyPost.map (p := p) into h (fun h => h) (fun h => h) id
      call_ok := by
        intro s r w hs
        simp only [Then, wp_bind]
        refine wp_mono (I.call_ok s r w hs) ?_
        rintro ⟨x, s'⟩ w' h
        exact h
      poll_ok := by
        intro x w hx
        match x, hx with
        | .first a, hx =>
          simp only [Then]
          rw [wp_bind]
          refine wp_mono (I.poll_ok a w hx) ?_
          rintro ⟨p, x'⟩ w' h
          match p, h with
          | .pending, h => exact h
          | .ready res, h =>
            simp only
            rw [wp_bind, wp_lift]
            refine second _ _ (hf _ _ ?_)
            match res, h with
            | .ok r, h => exact h
            | .error e, _ => trivial
        | .second b, hx => exact second b w hx
        | .done, hx => exact hx.elim } hI

theorem AndThen.safe {R2 E2 : Type} (into : Err → E2) {S : Service W Req Res Err}
    (G : Fut W (Except E2 R2)) (f : Res → W → G.φ × W) {good' : R2 → Prop}
    (hf : ∀ r w, good r → FutSafe G (OkGood good') (f r w).1) {s : S.σ}
    (h : SafeG cfg good S s) : SafeG cfg good' (AndThen into S G f) s := by
  obtain ⟨I, hI⟩ := h.inv
  have second : ∀ (g : G.φ) (w : W), FutSafe G (OkGood good') g →
      wp (pollSecond G g)
      (fun r _ => PollPost good' (TwoStageInv I.F (FutSafe G (OkGood good'))) r) w := by
    intro g w hg
    simp only [pollSecond, wp_bind]
    refine wp_mono (hg.poll w) ?_
    rintro ⟨p, x'⟩ w' h
    match p, h with
    | .pending, h => exact h
    | .ready (.ok r), h => exact h
    | .ready (.error e), _ => trivial
  exact SafeInv.safe (S := AndThen into S G f)
    { H := I.H
      F := TwoStageInv I.F (FutSafe G (OkGood good'))
      clone_ok := I.clone_ok
      ready_ok := by
        intro s m w hs hm
        simp only [AndThen, wp_bind]
        refine wp_mono (I.ready_ok s m w hs hm) ?_
        rintro ⟨p, s'⟩ w' h
        simp only [wp_pure]; exact ReadyPost.map (p := p) into h (fun h => h) (fun h => h) id
      call_ok := by
        intro s r w hs
        simp only [AndThen, wp_bind]
        refine wp_mono (I.call_ok s r w hs) ?_
        rintro ⟨x, s'⟩ w' h
        exact h
      poll_ok := by
        intro x w hx
        match x, hx with
        | .first a, hx =>
          simp only [AndThen]
          rw [wp_bind]
          refine wp_mono (I.poll_ok a w hx) ?_
          rintro ⟨p, x'⟩ w' h
          match p, h with
          | .pending, h => exact h
          | .ready (.error e), _ => trivial
          | .ready (.ok res), h =>
            simp only
            rw [wp_bind, wp_lift]
            exact second _ _ (hf _ _ h)
        | .second b, hx => exact second b w hx
        | .done, hx => exact hx.elim } hI

theorem Either.safe_left {A B : Service W Req Res Err} {a : A.σ}
    (h : SafeG cfg good A a) : SafeG cfg good (Either A B) (.inl a) := by
  obtain ⟨I, hI⟩ := h.inv
  exact SafeInv.safe (S := Either A B)
    { H := fun s m => match s with | .inl a => I.H a m | .inr _ => False
      F := fun x => match x with | .inl x => I.F x | .inr _ => False
      ready_ok := by
        rintro (s | s) m w hs hm
        · simp only [Either, wp_bind]
          refine wp_mono (I.ready_ok s m w hs hm) ?_
          rintro ⟨p, s'⟩ w' h
          simp only [wp_pure]; exact ReadyPost.imp (p := p) h (fun h => h) (fun h => h) id
        · exact hs.elim
      call_ok := by
        rintro (s | s) r w hs
        · simp only [Either, wp_bind]
          refine wp_mono (I.call_ok s r w hs) ?_
          rintro ⟨p, s'⟩ w' h
          exact h
        · exact hs.elim
      poll_ok := by
        rintro (s | s) w hs
        · simp only [Either, wp_bind]
          refine wp_mono (I.poll_ok s w hs) ?_
          rintro ⟨p, s'⟩ w' h
          simp only [wp_pure]; exact PollPost.imp (p := p) h (fun h => h)
        · exact hs.elim
      clone_ok := by
        rintro hc (s | s) m hm hs
        · exact I.clone_ok hc s m hm hs
        · exact hs.elim } hI

theorem Either.safe_right {A B : Service W Req Res Err} {b : B.σ}
    (h : SafeG cfg good B b) : SafeG cfg good (Either A B) (.inr b) := by
  obtain ⟨I, hI⟩ := h.inv
  exact SafeInv.safe (S := Either A B)
    { H := fun s m => match s with | .inr a => I.H a m | .inl _ => False
      F := fun x => match x with | .inr x => I.F x | .inl _ => False
      ready_ok := by
        rintro (s | s) m w hs hm
        · exact hs.elim
        · simp only [Either, wp_bind]
          refine wp_mono (I.ready_ok s m w hs hm) ?_
          rintro ⟨p, s'⟩ w' h
          simp only [wp_pure]; exact ReadyPost.imp (p := p) h (fun h => h) (fun h => h) id
      call_ok := by
        rintro (s | s) r w hs
        · exact hs.elim
        · simp only [Either, wp_bind]
          refine wp_mono (I.call_ok s r w hs) ?_
          rintro ⟨p, s'⟩ w' h
          exact h
      poll_ok := by
        rintro (s | s) w hs
        · exact hs.elim
        · simp only [Either, wp_bind]
          refine wp_mono (I.poll_ok s w hs) ?_
          rintro ⟨p, s'⟩ w' h
          simp only [wp_pure]; exact PollPost.imp (p := p) h (fun h => h)
      clone_ok := by
        rintro hc (s | s) m hm hs
        · exact hs.elim
        · exact I.clone_ok hc s m hm hs } hI

theorem Optional.safe_some {S : Service W Req Res Err} {s : S.σ}
    (h : SafeG cfg good S s) : SafeG cfg good (Optional S) (some s) := by
  obtain ⟨I, hI⟩ := h.inv
  exact SafeInv.safe (S := Optional S)
    { H := fun s m => match s with | some a => I.H a m | none => False
      F := fun x => match x with | some x => I.F x | none => False
      ready_ok := by
        rintro (_ | s) m w hs hm
        · exact hs.elim
        · simp only [Optional, wp_bind]
          refine wp_mono (I.ready_ok s m w hs hm) ?_
          rintro ⟨p, s'⟩ w' h
          simp only [wp_pure]; exact ReadyPost.map (p := p) _ h (fun h => h) (fun h => h) id
      call_ok := by
        rintro (_ | s) r w hs
        · exact hs.elim
        · simp only [Optional, wp_bind]
          refine wp_mono (I.call_ok s r w hs) ?_
          rintro ⟨p, s'⟩ w' h
          exact h
      poll_ok := by
        rintro (_ | s) w hs
        · exact hs.elim
        · simp only [Optional, wp_bind]
          refine wp_mono (I.poll_ok s w hs) ?_
          rintro ⟨p, s'⟩ w' h
          simp only [wp_pure]; exact PollPost.map (p := p) _ h (fun h => h)
      clone_ok := by
        rintro hc (_ | s) m hm hs
        · exact hs.elim
        · exact I.clone_ok hc s m hm hs } hI

theorem Optional.safe_none {S : Service W Req Res Err} : SafeG cfg good (Optional S) none :=
  SafeInv.safe (S := Optional S)
    { H := fun s _ => s = none
      F := fun x => x = none
      ready_ok := by rintro s m w rfl hm; exact rfl
      call_ok := by rintro s r w rfl; exact ⟨rfl, rfl⟩
      poll_ok := by rintro x w rfl; trivial
      clone_ok := by rintro _ s m hm rfl; rfl } rfl

theorem ServiceFn.safe (F : Fut W (Except Err Res)) (f : Req → W → F.φ × W)
    (hf : ∀ r w, FutSafe F (OkGood good) (f r w).1) : SafeG cfg good (ServiceFn F f) () :=
  SafeInv.safe (S := ServiceFn F f)
    { H := fun _ _ => True
      F := fun x => FutSafe F (OkGood good) x
      ready_ok := by intro s m w _ _; trivial
      call_ok := by
        intro s r w _
        simp only [ServiceFn, wp_bind, wp_lift, wp_pure]
        exact ⟨hf r w, trivial⟩
      poll_ok := by
        intro x w hx
        refine wp_mono (hx.poll w) ?_
        rintro ⟨p, x'⟩ w' h
        match p, h with
        | .pending, h => exact h
        | .ready (.ok r), h => exact h
        | .ready (.error e), _ => trivial
      clone_ok := by intros; trivial } trivial

/-- `FutureService`: whenever its future yields, it yields a service that keeps the contract. -/
theorem FutureService.safe {S : Service W Req Res Err} (F : Fut W (Except Err S.σ)) (fclone : F.φ → F.φ)
    (hcl : ∀ f, FutSafe F (OkGood (SafeG cfg good S)) f → FutSafe F (OkGood (SafeG cfg good S)) (fclone f))
    {f : F.φ} (hf : FutSafe F (OkGood (SafeG cfg good S)) f) :
    SafeG cfg good (FutureService S F fclone) (.future f) := by
  let I := SafeInv.canonical cfg good S
  have hI : ∀ s, SafeG cfg good S s → I.H s .idle := fun s h => ⟨⟨[(s, .idle)], []⟩, 0, rfl, h⟩
  exact SafeInv.safe (S := FutureService S F fclone)
    { H := fun s m => match s with
        | .future f => m = .idle ∧ FutSafe F (OkGood (SafeG cfg good S)) f
        | .service s => I.H s m
      F := I.F
      ready_ok := by
        rintro (f | s) m w hs hm
        · obtain ⟨hmi, hf⟩ := hs
          subst hmi
          simp only [FutureService, wp_bind]
          refine wp_mono (hf.poll w) ?_
          rintro ⟨p, f'⟩ w' h
          match p, h with
          | .pending, h => exact ⟨⟨rfl, h⟩, by simp⟩
          | .ready (.error e), _ => trivial
          | .ready (.ok s), h =>
            simp only [wp_bind]
            refine wp_mono (I.ready_ok s .idle w' (hI s h) (by simp)) ?_
            rintro ⟨q, s'⟩ w'' h
            simp only [wp_pure]; exact ReadyPost.imp (p := q) h (fun h => h) (fun h => h) id
        · simp only [FutureService, wp_bind]
          refine wp_mono (I.ready_ok s m w hs hm) ?_
          rintro ⟨p, s'⟩ w' h
          simp only [wp_pure]; exact ReadyPost.imp (p := p) h (fun h => h) (fun h => h) id
      call_ok := by
        rintro (f | s) r w hs
        · exact absurd hs.1 (by simp)
        · simp only [FutureService, wp_bind]
          refine wp_mono (I.call_ok s r w hs) ?_
          rintro ⟨x, s'⟩ w' h
          exact h
      poll_ok := I.poll_ok
      clone_ok := by
        rintro hc (f | s) m hm hs
        · exact ⟨rfl, hcl f hs.2⟩
        · exact I.clone_ok hc s m hm hs } ⟨rfl, hf⟩

theorem BoxService.safe {S : Service W Req Res Err} {s : S.σ}
    (h : SafeG cfg good S s) : SafeG cfg good (BoxService S) ⟨s⟩ := by
  obtain ⟨I, hI⟩ := h.inv
  exact SafeInv.safe (S := BoxService S)
    { H := fun s m => I.H s.val m
      F := fun x => I.F x.val
      ready_ok := by
        rintro s m w hs hm
        simp only [BoxService, wp_bind]
        refine wp_mono (I.ready_ok s.val m w hs hm) ?_
        rintro ⟨p, s'⟩ w' h
        simp only [wp_pure]; exact ReadyPost.imp (p := p) h (fun h => h) (fun h => h) id
      call_ok := by
        rintro s r w hs
        simp only [BoxService, wp_bind]
        refine wp_mono (I.call_ok s.val r w hs) ?_
        rintro ⟨p, s'⟩ w' h
        exact h
      poll_ok := by
        rintro s w hs
        simp only [BoxService, wp_bind]
        refine wp_mono (I.poll_ok s.val w hs) ?_
        rintro ⟨p, s'⟩ w' h
        simp only [wp_pure]; exact PollPost.imp (p := p) h (fun h => h)
      clone_ok := by
        rintro hc s m hm hs
        exact I.clone_ok hc s.val m hm hs } hI

/-- `Oneshot` of a service that keeps the contract is a future that keeps the contract. -/
theorem oneshot_called {S : Service W Req Res Err} (I : SafeInv cfg good S) {x : S.φ} (hx : I.F x) :
    FutSafe (Oneshot S) (OkGood good) (.called x) := by
  intro ws
  induction ws generalizing x with
  | nil => trivial
  | cons w ws ih =>
    show wp ((Oneshot S).poll _) _ w
    simp only [Oneshot, wp_bind]
    refine wp_mono (I.poll_ok x w hx) ?_
    rintro ⟨p, x'⟩ w' h
    match p, h with
    | .pending, h => exact ih h
    | .ready (.ok r), h => exact h
    | .ready (.error e), _ => trivial

theorem oneshot_inv {S : Service W Req Res Err} (I : SafeInv cfg good S) {s : S.σ} {m : Mode}
    (hm : m ≠ .failed) (hs : I.H s m) (r : Req) :
    FutSafe (Oneshot S) (OkGood good) (.notReady s (some r)) := by
  intro ws
  induction ws generalizing s m with
  | nil => trivial
  | cons w ws ih =>
    show wp ((Oneshot S).poll _) _ w
    simp only [Oneshot]
    rw [wp_bind]
    refine wp_mono (I.ready_ok s m w hs hm) ?_
    rintro ⟨p, s'⟩ w' h
    match p, h with
    | .pending, h => exact ih (by simp) h.1
    | .ready (.error e), _ => trivial
    | .ready (.ok ()), h =>
      simp only [wp_bind]
      refine wp_mono (I.call_ok s' r w' h) ?_
      rintro ⟨x, s''⟩ w'' h
      refine wp_mono (I.poll_ok x w'' h.1) ?_
      rintro ⟨p, x'⟩ w' h
      match p, h with
      | .pending, h => exact oneshot_called I h ws
      | .ready (.ok r), h => exact h
      | .ready (.error e), _ => trivial

theorem Oneshot.safe {S : Service W Req Res Err} {s : S.σ} (h : SafeG cfg good S s) (r : Req) :
    FutSafe (Oneshot S) (OkGood good) (.notReady s (some r)) := by
  obtain ⟨I, hI⟩ := h.inv
  exact oneshot_inv I (by simp) hI r

end util

end Tower
