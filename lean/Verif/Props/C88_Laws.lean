import Verif.Props.C87_Exchange

/-! # C88: layers that change nothing, and equal stacks -/

set_option linter.unusedSimpArgs false

namespace Tower
open Act
variable {W : Type}

/-! ## Specification -/

/-- `std::future::ready(v)`; it must not be polled again -/
def instantly {α : Type} : Fut W α where
  φ := Option α
  poll
    | some v => pure (.ready v, none)
    | none => Act.panic "Ready polled after completion"

/-- closures one after the other -/
def seqW {A B C : Type} (f : A → W → B × W) (g : B → W → C × W) (a : A) (w : W) : C × W := g (f a w).1 (f a w).2

/-- the policy never has a request to repeat, or never asks for a retry (and then leaves result and world alone) -/
def RetryPolicy.Never {Q R E : Type} (P : RetryPolicy W Q R E) : Prop :=
  (∀ π r w, (P.cloneRequest π r w).2 = w) ∧
  ((∀ π r w, (P.cloneRequest π r w).1.1 = none) ∨
   (∀ π r v w, (P.retry π r v w).1.1 = none ∧ (P.retry π r v w).1.2.2.2 = v ∧ (P.retry π r v w).2 = w))

/-! ## Theorems -/

namespace Act
variable {α β γ δ : Type}

theorem Rel.both {r : γ → δ → Prop} {x : Act W α} {f : α → Act W γ} {g : α → Act W δ} (h : ∀ a, Rel r (f a) (g a)) : Rel r (x >>= f) (x >>= g) :=
  Rel.bind Rel.rfl (by rintro a _ ⟨⟩; exact h a)

theorem Rel.left {r : γ → α → Prop} {x : Act W α} {f : α → Act W γ} (h : ∀ a, Rel r (f a) (Pure.pure a)) : Rel r (x >>= f) x := by
  have := Rel.both (x := x) (r := r) (f := f) (g := Pure.pure) h
  rwa [bind_pure] at this

theorem Rel.assocL {r : γ → δ → Prop} {x : Act W α} {f : α → Act W β} {g : β → Act W γ} {y : Act W δ} (h : Rel r (x >>= fun a => f a >>= g) y) : Rel r ((x >>= f) >>= g) y := by
  rwa [bind_assoc]

theorem Rel.assocR {r : δ → γ → Prop} {x : Act W α} {f : α → Act W β} {g : β → Act W γ} {y : Act W δ} (h : Rel r y (x >>= fun a => f a >>= g)) : Rel r y ((x >>= f) >>= g) := by
  rwa [bind_assoc]

theorem Rel.pureR {r : δ → γ → Prop} {a : α} {k : α → Act W γ} {y : Act W δ} (h : Rel r y (k a)) : Rel r y (Pure.pure a >>= k) := h

theorem Rel.right {r : α → γ → Prop} {x : Act W α} {f : α → Act W γ} (h : ∀ a, Rel r (Pure.pure a) (f a)) : Rel r x (x >>= f) := by
  have := Rel.both (x := x) (r := r) (g := f) (f := Pure.pure) h
  rwa [bind_pure] at this

end Act

section
variable {Q Q' Q'' R R' R'' E E' E'' : Type} {t : Ty}

theorem mapErrId (v : Except E R) : mapErr (id : E → E) v = v := by cases v <;> rfl
theorem Poll.map_mapErrId (p : Poll (Except E R)) : p.map (mapErr id) = p := by
  cases p with
  | pending => rfl
  | ready v => simp [Poll.map, mapErrId]

/-- **C88, boxes.** `boxed`, `boxed_clone`, `boxed_clone_sync` make no difference. -/
theorem C88_boxed (x : Site W t) : x.boxed.SameAs x := by
  refine Site.sameAs_of (rs := fun _ (b : Boxed x.1.S.σ) s => b.val = s) (rf := fun (b : Boxed x.1.S.φ) f => b.val = f) rfl ?_ rfl
  exact {
    ready := by rintro b s _ ⟨⟩; exact Rel.left fun a => Rel.pure ⟨rfl, fun _ => rfl, fun _ => rfl⟩
    call := by rintro s _ r ⟨⟩; exact Rel.left fun a => Rel.pure ⟨rfl, rfl⟩
    poll := by rintro s _ ⟨⟩; exact Rel.left fun a => Rel.pure ⟨rfl, fun _ => rfl⟩
    clone := by rintro b s _ ⟨⟩; rfl }

/-- **C88, option_layer.** `option_layer(None)` makes no difference, and `option_layer(Some(l))` is `layer(l)`, for every layer `l`. -/
theorem C88_option_none (x : Site W t) : ((StdLayer.optionNone : StdLayer W t t).layer x).SameAs x := by
  refine Site.sameAs_of (rs := fun _ (b : x.1.S.σ ⊕ x.1.S.σ) s => b = .inr s) (rf := fun (b : x.1.S.φ ⊕ x.1.S.φ) f => b = .inr f) rfl ?_ rfl
  exact {
    ready := by rintro b _ s ⟨⟩; exact Rel.left fun a => Rel.pure ⟨rfl, fun _ => rfl, fun _ => rfl⟩
    call := by rintro _ s r ⟨⟩; exact Rel.left fun a => Rel.pure ⟨rfl, rfl⟩
    poll := by rintro _ s ⟨⟩; exact Rel.left fun a => Rel.pure ⟨rfl, fun _ => rfl⟩
    clone := by rintro b _ s ⟨⟩; rfl }

theorem C88_option_some (l : StdLayer W t t) (x : Site W t) : ((StdLayer.optionSome l).layer x).SameAs (l.layer x) := by
  refine Site.sameAs_of (x := (StdLayer.optionSome l).layer x) (y := l.layer x) (rs := fun _ (b : (l.layer x).1.S.σ ⊕ x.1.S.σ) s => b = .inl s) (rf := fun (b : (l.layer x).1.S.φ ⊕ x.1.S.φ) f => b = .inl f) rfl ?_ rfl
  exact {
    ready := by rintro b _ s ⟨⟩; exact Rel.left fun a => Rel.pure ⟨rfl, fun _ => rfl, fun _ => rfl⟩
    call := by rintro _ s r ⟨⟩; exact Rel.left fun a => Rel.pure ⟨rfl, rfl⟩
    poll := by rintro _ s ⟨⟩; exact Rel.left fun a => Rel.pure ⟨rfl, fun _ => rfl⟩
    clone := by rintro b _ s ⟨⟩; rfl }

/-- **C88, map_request.** The identity changes nothing; two in a row are one with the outer closure run first. -/
theorem C88_map_request (x : Site W ⟨Q, R, E⟩) (g : Q' → W → Q × W) (f : Q'' → W → Q' × W) :
    (x.mapRequest (keep : Q → W → Q × W)).SameAs x ∧ ((x.mapRequest g).mapRequest f).SameAs (x.mapRequest (seqW f g)) := by
  constructor
  · exact Site.sameAs_of (x := x.mapRequest (keep : Q → W → Q × W)) (y := x) (rs := fun _ => Eq) (rf := Eq) rfl
      { Alike.refl x.1.S with call := by rintro s _ r ⟨⟩; intro w; exact (Alike.refl x.1.S).call s s r rfl w } rfl
  · refine Site.sameAs_of (x := (x.mapRequest g).mapRequest f) (y := x.mapRequest (seqW f g)) (rs := fun _ => Eq) (rf := Eq) rfl
      { Alike.refl x.1.S with call := ?_ } rfl
    rintro s _ r ⟨⟩
    intro w
    exact (Alike.refl x.1.S).call s s _ rfl (seqW f g r w).2

theorem rel_ready {S : Service W Q R E} (s : S.σ) : Rel (ReadyRel (fun _ => Eq)) (S.pollReady s) (S.pollReady s) := Rel.refl' fun _ => ⟨rfl, fun _ => rfl, fun _ => rfl⟩

/-- **C88, map_response.** The identity changes nothing; two in a row are one with the inner closure run first. -/
theorem C88_map_response (x : Site W ⟨Q, R, E⟩) (g : R → W → R' × W) (f : R' → W → R'' × W) :
    (x.mapResponse (keep : R → W → R × W)).SameAs x ∧ ((x.mapResponse g).mapResponse f).SameAs (x.mapResponse (seqW g f)) := by
  constructor
  · refine Site.sameAs_of (x := x.mapResponse (keep : R → W → R × W)) (y := x) (rs := fun _ => Eq) (rf := fun (a : Option x.1.S.φ) b => a = some b) rfl
      { ready := ?_, call := ?_, poll := ?_, clone := ?_ } rfl
    · rintro b s _ ⟨⟩; exact rel_ready (S := x.1.S) s
    · rintro s _ r ⟨⟩; exact Rel.left fun a => Rel.pure ⟨rfl, rfl⟩
    · rintro _ f ⟨⟩
      refine Rel.left ?_
      rintro ⟨p, f'⟩
      match p with
      | .pending => exact Rel.pure ⟨rfl, fun _ => rfl⟩
      | .ready (.ok v) => exact fun w => ⟨⟨rfl, by intro h; cases h⟩, rfl⟩
      | .ready (.error e) => exact fun w => ⟨⟨rfl, by intro h; cases h⟩, rfl⟩
    · rintro b s _ ⟨⟩; rfl
  · refine Site.sameAs_of (x := (x.mapResponse g).mapResponse f) (y := x.mapResponse (seqW g f)) (rs := fun _ => Eq) (rf := fun (a : Option (Option x.1.S.φ)) (b : Option x.1.S.φ) => ∃ y, a = some (some y) ∧ b = some y) rfl
      { ready := ?_, call := ?_, poll := ?_, clone := ?_ } rfl
    · rintro b s _ ⟨⟩; exact rel_ready (S := x.1.S) s
    · rintro s _ r ⟨⟩
      show Rel _ ((x.1.S.call s r >>= _) >>= _) (x.1.S.call s r >>= _)
      refine Rel.assocL ?_
      exact Rel.both fun a => Rel.pure ⟨⟨_, rfl, rfl⟩, rfl⟩
    · rintro _ _ ⟨y, rfl, rfl⟩
      show Rel _ ((x.1.S.poll y >>= _) >>= _) (x.1.S.poll y >>= _)
      refine Rel.assocL ?_
      refine Rel.both ?_
      rintro ⟨p, f'⟩
      match p with
      | .pending => exact Rel.pure ⟨rfl, fun _ => ⟨_, rfl, rfl⟩⟩
      | .ready (.ok v) => exact fun w => ⟨⟨rfl, by intro h; cases h⟩, rfl⟩
      | .ready (.error e) => exact fun w => ⟨⟨rfl, by intro h; cases h⟩, rfl⟩
    · rintro b s _ ⟨⟩; rfl

/-- **C88, map_err.** The identity changes nothing; two in a row are one with the inner closure run first. -/
theorem C88_map_err (x : Site W ⟨Q, R, E⟩) (g : E → W → E' × W) (f : E' → W → E'' × W) :
    (x.mapErr (keep : E → W → E × W)).SameAs x ∧ ((x.mapErr g).mapErr f).SameAs (x.mapErr (seqW g f)) := by
  constructor
  · refine Site.sameAs_of (x := x.mapErr (keep : E → W → E × W)) (y := x) (rs := fun _ => Eq) (rf := fun (a : Option x.1.S.φ) b => a = some b) rfl
      { ready := ?_, call := ?_, poll := ?_, clone := ?_ } rfl
    · rintro b s _ ⟨⟩
      refine Rel.left ?_
      rintro ⟨p, s'⟩
      match p with
      | .pending => exact Rel.pure ⟨rfl, fun _ => rfl, fun _ => rfl⟩
      | .ready (.ok ()) => exact Rel.pure ⟨rfl, fun _ => rfl, fun _ => rfl⟩
      | .ready (.error e) => exact fun w => ⟨⟨rfl, fun _ => rfl, fun _ => rfl⟩, rfl⟩
    · rintro s _ r ⟨⟩; exact Rel.left fun a => Rel.pure ⟨rfl, rfl⟩
    · rintro _ f ⟨⟩
      refine Rel.left ?_
      rintro ⟨p, f'⟩
      match p with
      | .pending => exact Rel.pure ⟨rfl, fun _ => rfl⟩
      | .ready (.ok v) => exact fun w => ⟨⟨rfl, by intro h; cases h⟩, rfl⟩
      | .ready (.error e) => exact fun w => ⟨⟨rfl, by intro h; cases h⟩, rfl⟩
    · rintro b s _ ⟨⟩; rfl
  · refine Site.sameAs_of (x := (x.mapErr g).mapErr f) (y := x.mapErr (seqW g f)) (rs := fun _ => Eq) (rf := fun (a : Option (Option x.1.S.φ)) (b : Option x.1.S.φ) => ∃ y, a = some (some y) ∧ b = some y) rfl
      { ready := ?_, call := ?_, poll := ?_, clone := ?_ } rfl
    · rintro b s _ ⟨⟩
      show Rel _ ((x.1.S.pollReady s >>= _) >>= _) (x.1.S.pollReady s >>= _)
      refine Rel.assocL ?_
      refine Rel.both ?_
      rintro ⟨p, s'⟩
      match p with
      | .pending => exact Rel.pure ⟨rfl, fun _ => rfl, fun _ => rfl⟩
      | .ready (.ok ()) => exact Rel.pure ⟨rfl, fun _ => rfl, fun _ => rfl⟩
      | .ready (.error e) => exact fun w => ⟨⟨rfl, fun _ => rfl, fun _ => rfl⟩, rfl⟩
    · rintro s _ r ⟨⟩
      show Rel _ ((x.1.S.call s r >>= _) >>= _) (x.1.S.call s r >>= _)
      refine Rel.assocL ?_
      exact Rel.both (fun a => Rel.pure ⟨⟨_, rfl, rfl⟩, rfl⟩)
    · rintro _ _ ⟨y, rfl, rfl⟩
      show Rel _ ((x.1.S.poll y >>= _) >>= _) (x.1.S.poll y >>= _)
      refine Rel.assocL ?_
      refine Rel.both ?_
      rintro ⟨p, f'⟩
      match p with
      | .pending => exact Rel.pure ⟨rfl, fun _ => ⟨_, rfl, rfl⟩⟩
      | .ready (.ok v) => exact fun w => ⟨⟨rfl, by intro h; cases h⟩, rfl⟩
      | .ready (.error e) => exact fun w => ⟨⟨rfl, by intro h; cases h⟩, rfl⟩
    · rintro b s _ ⟨⟩; rfl

/-- **C88, then.** `then` with a closure that answers at once is `map_result` with that closure; `and_then` with one that succeeds at once is `map_response`. -/
theorem C88_then (x : Site W ⟨Q, R, E⟩) (into : E → E') (f : Except E R → W → Except E' R' × W) (g : R → W → R' × W) :
    (x.andThenAlways into instantly (fun v w => (some (f v w).1, (f v w).2))).SameAs (x.mapResult into f) ∧
    (x.andThen id instantly (fun v w => (some (.ok (g v w).1), (g v w).2))).SameAs (x.mapResponse g) := by
  constructor
  · refine Site.sameAs_of (x := x.andThenAlways into instantly (fun v w => (some (f v w).1, (f v w).2))) (y := x.mapResult into f)
      (rs := fun _ => Eq) (rf := fun (a : TwoStage x.1.S.φ (Option (Except E' R'))) (b : Option x.1.S.φ) => ∃ y, a = .first y ∧ b = some y) rfl
      { ready := ?_, call := ?_, poll := ?_, clone := ?_ } rfl
    · rintro b s _ ⟨⟩; exact Rel.both fun a => Rel.pure ⟨rfl, fun _ => rfl, fun _ => rfl⟩
    · rintro s _ r ⟨⟩; exact Rel.both fun a => Rel.pure ⟨⟨_, rfl, rfl⟩, rfl⟩
    · rintro _ _ ⟨y, rfl, rfl⟩
      refine Rel.both ?_
      rintro ⟨p, f'⟩
      match p with
      | .pending => exact Rel.pure ⟨rfl, fun _ => ⟨_, rfl, rfl⟩⟩
      | .ready v => exact fun w => ⟨⟨rfl, by intro h; cases h⟩, rfl⟩
    · rintro b s _ ⟨⟩; rfl
  · refine Site.sameAs_of (x := x.andThen id instantly (fun v w => (some (.ok (g v w).1), (g v w).2))) (y := x.mapResponse g)
      (rs := fun _ => Eq) (rf := fun (a : TwoStage x.1.S.φ (Option (Except E R'))) (b : Option x.1.S.φ) => ∃ y, a = .first y ∧ b = some y) rfl
      { ready := ?_, call := ?_, poll := ?_, clone := ?_ } rfl
    · rintro b s _ ⟨⟩
      refine Rel.left ?_
      rintro ⟨p, s'⟩
      dsimp only
      rw [Poll.map_mapErrId]
      exact Rel.pure ⟨rfl, fun _ => rfl, fun _ => rfl⟩
    · rintro s _ r ⟨⟩; exact Rel.both fun a => Rel.pure ⟨⟨_, rfl, rfl⟩, rfl⟩
    · rintro _ _ ⟨y, rfl, rfl⟩
      refine Rel.both ?_
      rintro ⟨p, f'⟩
      match p with
      | .pending => exact Rel.pure ⟨rfl, fun _ => ⟨_, rfl, rfl⟩⟩
      | .ready (.ok v) => exact fun w => ⟨⟨rfl, by intro h; cases h⟩, rfl⟩
      | .ready (.error v) => exact fun w => ⟨⟨rfl, by intro h; cases h⟩, rfl⟩
    · rintro b s _ ⟨⟩; rfl

/-- **C88, filter.** A filter whose predicate accepts every request, as changed by `f`, is `map_request(f)`. -/
theorem C88_filter (x : Site W ⟨Q, R, E⟩) (f : Q' → W → Q × W) :
    (x.filter id (fun r w => (.ok (f r w).1, (f r w).2))).SameAs (x.mapRequest f) := by
  refine Site.sameAs_of (x := x.filter id (fun r w => (.ok (f r w).1, (f r w).2))) (y := x.mapRequest f)
      (rs := fun _ => Eq) (rf := fun (a : Option E ⊕ Option x.1.S.φ) (b : x.1.S.φ) => a = .inr (some b)) rfl
      { ready := ?_, call := ?_, poll := ?_, clone := ?_ } rfl
  · rintro b s _ ⟨⟩
    refine Rel.left ?_
    rintro ⟨p, s'⟩
    dsimp only
    rw [Poll.map_mapErrId]
    exact Rel.pure ⟨rfl, fun _ => rfl, fun _ => rfl⟩
  · rintro s _ r ⟨⟩
    intro w
    exact (Rel.left (x := x.1.S.call s (f r w).1) (f := fun a => pure (Sum.inr (some a.1), a.2)) fun a => Rel.pure ⟨rfl, rfl⟩) (f r w).2
  · rintro _ b ⟨⟩
    show Rel _ ((x.1.S.poll b >>= _) >>= _) (x.1.S.poll b)
    refine Rel.assocL ?_
    refine Rel.left ?_
    rintro ⟨p, f'⟩
    match p with
    | .pending => exact Rel.pure ⟨rfl, fun _ => rfl⟩
    | .ready v => exact fun w => ⟨⟨by simp [mapErrId], by intro h; cases h⟩, rfl⟩
  · rintro b s _ ⟨⟩; rfl

theorem retryPoll_never (P : RetryPolicy W Q R E) (hP : P.Never) (S : Service W Q R E) (n : Nat) (req : Option Q) (π : P.π) (s : S.σ) (b : S.φ)
    (h2 : (∀ π r w, (P.cloneRequest π r w).1.1 = none) → req = none) :
    Rel (PollRel fun (a : RetryFut Q P.π S.σ S.φ P.ρ) (b : S.φ) => a.st = .called b ∧ ((∀ π r w, (P.cloneRequest π r w).1.1 = none) → a.request = none))
      (retryPoll P S (n + 1) ⟨req, ⟨π, s⟩, .called b⟩) (S.poll b) := by
  simp only [retryPoll, retryStep]
  refine Rel.assocL (Rel.left ?_)
  rintro ⟨p, f'⟩
  match p with
  | .pending => exact Rel.pure ⟨rfl, fun _ => ⟨rfl, h2⟩⟩
  | .ready v =>
    cases req with
    | none => exact fun w => ⟨⟨rfl, by intro h; cases h⟩, rfl⟩
    | some r =>
      rcases hP.2 with h | h
      · cases h2 h
      · intro w
        obtain ⟨h3, h4, h5⟩ := h π r v w
        simp only [run_bind, run_lift, h3]
        simp only [run_pure, Out.Rel, PollRel, h4, h5, true_and, and_true]
        intro h; cases h

/-- **C88, retry.** A retry middleware whose policy never retries makes no difference. -/
theorem C88_retry (x : Site W t) (fuel : Nat) (P : RetryPolicy W t.Req t.Res t.Err) (π : P.π) (hP : P.Never) (hf : 0 < fuel) : (x.retry fuel P π).SameAs x := by
  obtain ⟨fuel, rfl⟩ := Nat.exists_eq_succ_of_ne_zero (Nat.pos_iff_ne_zero.1 hf)
  refine Site.sameAs_of (x := x.retry (fuel + 1) P π) (y := x) (rs := fun _ (a : RetryState P.π x.1.S.σ) b => a.service = b)
      (rf := fun (a : RetryFut t.Req P.π x.1.S.σ x.1.S.φ P.ρ) (b : x.1.S.φ) => a.st = .called b ∧ ((∀ π r w, (P.cloneRequest π r w).1.1 = none) → a.request = none)) rfl
      { ready := ?_, call := ?_, poll := ?_, clone := ?_ } rfl
  · rintro b s _ ⟨⟩; exact Rel.left fun a => Rel.pure ⟨rfl, fun _ => rfl, fun _ => rfl⟩
  · rintro ⟨π, s⟩ _ r ⟨⟩
    intro w
    have := (Rel.left (x := x.1.S.call s r) (r := fun (a : RetryFut t.Req P.π x.1.S.σ x.1.S.φ P.ρ × RetryState P.π x.1.S.σ) b => (a.1.st = .called b.1 ∧ ((∀ π r w, (P.cloneRequest π r w).1.1 = none) → a.1.request = none)) ∧ a.2.service = b.2)
      (f := fun a => pure (⟨(P.cloneRequest π r w).1.1, ⟨P.clone (P.cloneRequest π r w).1.2, x.1.S.clone a.2⟩, .called a.1⟩, ⟨(P.cloneRequest π r w).1.2, a.2⟩))
      fun a => Rel.pure ⟨⟨rfl, fun h => h _ _ _⟩, rfl⟩) (P.cloneRequest π r w).2
    have e : (x.1.S.call s r).run w = (x.1.S.call s r).run (P.cloneRequest π r w).2 := by rw [hP.1 π r w]
    show Out.Rel _ _ ((x.1.S.call s r).run w)
    rw [e]
    exact this
  · rintro ⟨req, ⟨π, s⟩, st⟩ b ⟨h1, h2⟩
    dsimp only at h1 h2; subst h1
    exact retryPoll_never P hP x.1.S fuel req π s b h2
  · rintro b s _ ⟨⟩; rfl

/-- **C88, load_shed.** Shedding twice is shedding once. -/
theorem C88_load_shed (x : Site W ⟨Q, R, E⟩) : x.loadShed.loadShed.SameAs (x.loadShed.mapErr (fun e w => (ShedErr.inner e, w))) := by
  refine Site.sameAs_of (x := x.loadShed.loadShed) (y := x.loadShed.mapErr (fun e w => (ShedErr.inner e, w)))
      (rs := fun b (s : ShedState (ShedState x.1.S.σ)) (t : ShedState x.1.S.σ) => s.inner = t ∧ (b = true → s.isReady = true))
      (rf := fun (a : Option (Option x.1.S.φ)) (b : Option (Option x.1.S.φ)) => ∃ y, a = some y ∧ b = some y) rfl
      { ready := ?_, call := ?_, poll := ?_, clone := ?_ } ⟨rfl, by intro h; cases h⟩
  · rintro b ⟨⟨s, m⟩, m'⟩ _ ⟨rfl, _⟩
    show Rel _ ((x.1.S.pollReady s >>= _) >>= _) ((x.1.S.pollReady s >>= _) >>= _)
    refine Rel.assocL (Rel.assocR ?_)
    refine Rel.both ?_
    rintro ⟨p, s'⟩
    match p with
    | .pending => exact fun w => ⟨⟨rfl, (fun _ => ⟨rfl, fun _ => rfl⟩), by intro h; cases h⟩, rfl⟩
    | .ready (.ok ()) => exact fun w => ⟨⟨rfl, (fun _ => ⟨rfl, fun _ => rfl⟩), by intro h; cases h⟩, rfl⟩
    | .ready (.error e) => exact fun w => ⟨⟨rfl, (by intro h; cases h), by intro h; cases h⟩, rfl⟩
  · rintro ⟨s, m⟩ _ r ⟨rfl, h⟩
    have := h rfl
    dsimp only at this; subst this
    exact Rel.both fun a => Rel.pure ⟨⟨_, rfl, rfl⟩, rfl, by intro h; cases h⟩
  · rintro _ _ ⟨y, rfl, rfl⟩
    refine Rel.both ?_
    rintro ⟨p, f'⟩
    match p with
    | .pending => exact Rel.pure ⟨rfl, fun _ => ⟨_, rfl, rfl⟩⟩
    | .ready (.ok v) => exact fun w => ⟨⟨rfl, by intro h; cases h⟩, rfl⟩
    | .ready (.error e) => exact fun w => ⟨⟨rfl, by intro h; cases h⟩, rfl⟩
  · rintro b ⟨s, m⟩ _ ⟨rfl, h⟩; exact ⟨rfl, by intro h; cases h⟩

/-- **C88, order.** It does not matter whether `map_request` is put outside or inside of `timeout`, `concurrency_limit` or `map_response`, nor `map_response` outside or inside of `timeout` or `map_err`. -/
theorem C88_order_timeout (x : Site W ⟨Q, R, E⟩) (C : Clock W) (d : Nat) (f : Q' → W → Q × W) (g : R → W → R' × W) :
    ((x.timeout C d).mapRequest f).SameAs ((x.mapRequest f).timeout C d) ∧ ((x.timeout C d).mapResponse g).SameAs ((x.mapResponse g).timeout C d) := by
  constructor
  · refine Site.sameAs_of (x := (x.timeout C d).mapRequest f) (y := (x.mapRequest f).timeout C d) (rs := fun _ => Eq) (rf := Eq) rfl
      { Alike.refl (Timeout C d x.1.S) with call := ?_ } rfl
    rintro s _ r ⟨⟩
    show Rel _ (Act.lift (f r) >>= _) ((Act.lift (f r) >>= _) >>= _)
    refine Rel.assocR ?_
    exact Rel.refl' fun a => ⟨rfl, rfl⟩
  · refine Site.sameAs_of (x := (x.timeout C d).mapResponse g) (y := (x.mapResponse g).timeout C d) (rs := fun _ => Eq)
      (rf := fun (a : Option (x.1.S.φ × Nat)) (b : Option x.1.S.φ × Nat) => ∃ y n, a = some (y, n) ∧ b = (some y, n)) rfl
      { ready := ?_, call := ?_, poll := ?_, clone := ?_ } rfl
    · rintro b s _ ⟨⟩; exact rel_ready (S := Timeout C d x.1.S) s
    · rintro s _ r ⟨⟩
      show Rel _ ((x.1.S.call s r >>= _) >>= _) ((x.1.S.call s r >>= _) >>= _)
      refine Rel.assocL (Rel.assocR ?_)
      exact Rel.both fun a => fun w => ⟨⟨⟨_, _, rfl, rfl⟩, rfl⟩, rfl⟩
    · rintro _ _ ⟨y, n, rfl, rfl⟩
      show Rel _ ((x.1.S.poll y >>= _) >>= _) ((x.1.S.poll y >>= _) >>= _)
      refine Rel.assocL (Rel.assocR ?_)
      refine Rel.both ?_
      rintro ⟨p, f'⟩
      match p with
      | .ready (.ok v) => exact fun w => ⟨⟨rfl, by intro h; cases h⟩, rfl⟩
      | .ready (.error v) => exact fun w => ⟨⟨rfl, by intro h; cases h⟩, rfl⟩
      | .pending =>
        refine Rel.assocL ?_
        refine Rel.pureR ?_
        show Rel _ (Act.get >>= _) (Act.get >>= _)
        refine Rel.get fun w => ?_
        dsimp only
        generalize C.fired n w = c
        cases c with
        | true => exact fun w => ⟨⟨rfl, by intro h; cases h⟩, rfl⟩
        | false => exact fun w => ⟨⟨rfl, fun _ => ⟨_, _, rfl, rfl⟩⟩, rfl⟩
    · rintro b s _ ⟨⟩; rfl

theorem C88_order_limit (x : Site W ⟨Q, R, E⟩) (debug : Bool) (H : SemHeap W) (max : Nat) (f : Q' → W → Q × W) :
    ((x.concurrencyLimit debug H max).mapRequest f).SameAs ((x.mapRequest f).concurrencyLimit debug H max) := by
  refine Site.sameAs_of (x := (x.concurrencyLimit debug H max).mapRequest f) (y := (x.mapRequest f).concurrencyLimit debug H max) (rs := fun _ => Eq) (rf := Eq) rfl
    { Alike.refl (ConcurrencyLimit debug (H.new max x.2).1.1 x.1.S) with call := ?_ } rfl
  rintro ⟨s, a, m⟩ _ r ⟨⟩
  cases m with
  | true =>
    show Rel _ (Act.lift (f r) >>= _) ((Act.lift (f r) >>= _) >>= _)
    refine Rel.assocR ?_
    exact Rel.refl' fun a => ⟨rfl, rfl⟩
  | false => exact fun w => rfl

theorem C88_order_map (x : Site W ⟨Q, R, E⟩) (f : Q' → W → Q × W) (g : R → W → R' × W) (h : E → W → E' × W) :
    ((x.mapResponse g).mapRequest f).SameAs ((x.mapRequest f).mapResponse g) ∧ ((x.mapErr h).mapRequest f).SameAs ((x.mapRequest f).mapErr h) ∧
    ((x.mapErr h).mapResponse g).SameAs ((x.mapResponse g).mapErr h) := by
  refine ⟨?_, ?_, ?_⟩
  · refine Site.sameAs_of (x := (x.mapResponse g).mapRequest f) (y := (x.mapRequest f).mapResponse g) (rs := fun _ => Eq) (rf := Eq) rfl
      { Alike.refl (MapResponse g x.1.S) with call := ?_ } rfl
    rintro s _ r ⟨⟩
    show Rel _ (Act.lift (f r) >>= _) ((Act.lift (f r) >>= _) >>= _)
    refine Rel.assocR ?_
    exact Rel.refl' fun a => ⟨rfl, rfl⟩
  · refine Site.sameAs_of (x := (x.mapErr h).mapRequest f) (y := (x.mapRequest f).mapErr h) (rs := fun _ => Eq) (rf := Eq) rfl
      { Alike.refl (MapErr h x.1.S) with call := ?_ } rfl
    rintro s _ r ⟨⟩
    show Rel _ (Act.lift (f r) >>= _) ((Act.lift (f r) >>= _) >>= _)
    refine Rel.assocR ?_
    exact Rel.refl' fun a => ⟨rfl, rfl⟩
  · refine Site.sameAs_of (x := (x.mapErr h).mapResponse g) (y := (x.mapResponse g).mapErr h) (rs := fun _ => Eq) (rf := fun (a b : Option (Option x.1.S.φ)) => ∃ y, a = some (some y) ∧ b = some (some y)) rfl
      { ready := ?_, call := ?_, poll := ?_, clone := ?_ } rfl
    · rintro b s _ ⟨⟩; exact rel_ready (S := MapErr h x.1.S) s
    · rintro s _ r ⟨⟩
      show Rel _ ((x.1.S.call s r >>= _) >>= _) ((x.1.S.call s r >>= _) >>= _)
      refine Rel.assocL (Rel.assocR ?_)
      exact Rel.both fun a => fun w => ⟨⟨⟨_, rfl, rfl⟩, rfl⟩, rfl⟩
    · rintro _ _ ⟨y, rfl, rfl⟩
      show Rel _ ((x.1.S.poll y >>= _) >>= _) ((x.1.S.poll y >>= _) >>= _)
      refine Rel.assocL (Rel.assocR ?_)
      refine Rel.both ?_
      rintro ⟨p, f'⟩
      match p with
      | .pending => exact fun w => ⟨⟨rfl, fun _ => ⟨_, rfl, rfl⟩⟩, rfl⟩
      | .ready (.ok v) => exact fun w => ⟨⟨rfl, by intro h; cases h⟩, rfl⟩
      | .ready (.error v) => exact fun w => ⟨⟨rfl, by intro h; cases h⟩, rfl⟩
    · rintro b s _ ⟨⟩; rfl

/-- **C88, anywhere.** A layer that makes no difference makes none anywhere in a stack: with any chain (without `buffer`) outside of it and any chain inside. -/
theorem C88_anywhere {a b : Ty} (l : StdLayer W t t) (hl : ∀ x, (l.layer x).SameAs x) (outer : Chain W t b) (ho : outer.Plain) (inner : Chain W a t) (x : Site W a) :
    (outer.byHand ((Chain.cons (.layer l) inner).byHand x)).SameAs (outer.byHand (inner.byHand x)) :=
  outer.sameAs ho _ _ (hl _)

end

namespace Demo88

/-- policies that never retry: one that cannot clone requests, one that is always content -/
def mute : RetryPolicy Nat Nat Nat Unit where
  π := Nat
  ρ := Unit
  retry π r v w := ((some (), π + 1, r, v), w)
  cloneRequest π _ w := ((none, π + 1), w)
  wait _ w := ((.ready (), ()), w)
  clone := id

def content : RetryPolicy Nat Nat Nat Unit where
  π := Nat
  ρ := Unit
  retry π r v w := ((none, π + 1, r, v), w)
  cloneRequest π r w := ((some r, π), w)
  wait _ w := ((.ready (), ()), w)
  clone := id

theorem mute_never : mute.Never := ⟨fun _ _ _ => rfl, .inl fun _ _ _ => rfl⟩
theorem content_never : content.Never := ⟨fun _ _ _ => rfl, .inr fun _ _ _ _ => ⟨rfl, rfl, rfl⟩⟩

/-- a box, a useless retry and `option_layer(None)` inside of a timeout and a concurrency limit, over the service of `Demo87`: as if they were not there -/
theorem stack (C : Clock Nat) (H : SemHeap Nat) :
    Site.SameAs
      ((((((Site.boxed (t := ⟨Nat, Nat, Unit⟩) (⟨Demo87.plain, ()⟩, 0)).retry 3 mute (0 : Nat)).retry 5 content (0 : Nat)).boxed).concurrencyLimit true H 4).timeout C 9)
      ((Site.concurrencyLimit (t := ⟨Nat, Nat, Unit⟩) true H 4 (⟨Demo87.plain, ()⟩, 0)).timeout C 9) := by
  have h1 := C88_boxed (t := ⟨Nat, Nat, Unit⟩) ((⟨Demo87.plain, ()⟩, 0) : Site Nat ⟨Nat, Nat, Unit⟩)
  have h2 := C88_retry (t := ⟨Nat, Nat, Unit⟩) (Site.boxed (t := ⟨Nat, Nat, Unit⟩) (⟨Demo87.plain, ()⟩, 0)) 3 mute (0 : Nat) mute_never (by decide)
  have h3 := C88_retry (t := ⟨Nat, Nat, Unit⟩) (fuel := 5) (P := content) (π := (0 : Nat)) (hP := content_never) (hf := by decide) (x := (Site.boxed (t := ⟨Nat, Nat, Unit⟩) (⟨Demo87.plain, ()⟩, 0)).retry 3 mute (0 : Nat))
  have h4 := ((C88_boxed _).trans h3).trans (h2.trans h1)
  exact C87_layer (StdLayer.timeout C 9 : StdLayer Nat ⟨Nat, Nat, Unit⟩ _) trivial _ _
    (C87_layer (StdLayer.concurrencyLimit true H 4 : StdLayer Nat ⟨Nat, Nat, Unit⟩ ⟨Nat, Nat, Unit⟩) trivial _ _ h4)

/-- never ready -/
def never : Service Nat Nat Nat Unit where
  σ := Unit
  φ := Unit
  pollReady _ := pure (.pending, ())
  call _ _ := pure ((), ())
  poll _ := pure (.pending, ())
  clone := id

/-- Not every order is the same: outside of `load_shed` the closure of `map_request` runs also for requests that are shed. -/
theorem order_matters : ¬ Site.SameAs
    ((Site.loadShed (Q := Nat) (R := Nat) (E := Unit) (⟨never, ()⟩, 0)).mapRequest (fun (r : Nat) w => (r, w + 1)))
    ((Site.mapRequest (Q := Nat) (R := Nat) (E := Unit) (fun (r : Nat) w => (r, w + 1)) (⟨never, ()⟩, 0)).loadShed) := by
  intro h
  have h2 := h.2 [.ready 0 0, .call 0 7 0]
  injection h2 with _ h3
  injection h3 with h4 _
  injection h4 with h5
  injection h5 with _ h6
  cases h6

end Demo88

end Tower
