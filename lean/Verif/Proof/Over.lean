import Verif.Model.Over
import Verif.Proof.LimTo

/-! # Stacks over a concurrency limit: every operation is at most one operation of the limit -/

set_option linter.unusedSimpArgs false

namespace Tower
open Act
variable {W Q0 R0 E0 : Type} {debug : Bool} {S : Service W Q0 R0 E0}

namespace Over

/-- what `poll_ready` does to the limit's handle: nothing, or one `poll_ready` -/
def ReadyLaw (debug : Bool) (S : Service W Q0 R0 E0) (a b : Option (ConcState S.σ Nat)) (x y : Sem × W) : Prop :=
  (b = a ∧ y.1 = x.1) ∨ ∃ s s' p w1 w2, a = some s ∧ b = some s' ∧ ((LimSvc debug S).pollReady s).run (x.1, w1) = .ok (p, s') (y.1, w2)

/-- what `call` does: nothing, or one `call` -/
def CallLaw (debug : Bool) (S : Service W Q0 R0 E0) (a b : Option (ConcState S.σ Nat)) (f : Option S.φ) (x y : Sem × W) : Prop :=
  (b = a ∧ y.1 = x.1 ∧ f = none) ∨ ∃ s s' q f0 w1 w2, a = some s ∧ b = some s' ∧ f = some f0 ∧ ((LimSvc debug S).call s q).run (x.1, w1) = .ok (f0, s') (y.1, w2)

/-- what a poll of a response future does: nothing, or one poll, and it may drop the limit's future -/
def PollLaw (debug : Bool) (S : Service W Q0 R0 E0) (a b : Option S.φ) (x y : Sem × W) : Prop :=
  y.1 = x.1 ∧ (b = a ∨ b = none ∨ ∃ f f' p w1 w2, a = some f ∧ b = some f' ∧ ((LimSvc debug S).poll f).run (x.1, w1) = .ok (p, f') (x.1, w2))

theorem ReadyLaw.left {a b : Option (ConcState S.σ Nat)} {x y y' : Sem × W} (h : ReadyLaw debug S a b x y) (hy : y'.1 = y.1) : ReadyLaw debug S a b x y' := by
  unfold ReadyLaw at *; rw [hy]; exact h
theorem ReadyLaw.pre {a b : Option (ConcState S.σ Nat)} {x x' y : Sem × W} (h : ReadyLaw debug S a b x y) (hy : x'.1 = x.1) : ReadyLaw debug S a b x' y := by
  unfold ReadyLaw at *; rw [hy]; exact h
theorem CallLaw.pre {a b : Option (ConcState S.σ Nat)} {f} {x x' y : Sem × W} (h : CallLaw debug S a b f x y) (hy : x'.1 = x.1) : CallLaw debug S a b f x' y := by
  unfold CallLaw at *; rw [hy]; exact h
theorem PollLaw.left {a b : Option S.φ} {x y y' : Sem × W} (h : PollLaw debug S a b x y) (hy : y'.1 = y.1) : PollLaw debug S a b x y' := by
  unfold PollLaw at *; rw [hy]; exact h
theorem PollLaw.gone {a b : Option S.φ} {x y : Sem × W} (h : PollLaw debug S a b x y) : PollLaw debug S a none x y := ⟨h.1, .inr (.inl rfl)⟩

theorem ready_law {Q R E : Type} {T : Service (Sem × W) Q R E} (o : Over debug S T) :
    ∀ {t t' : T.σ} {p} {x y : Sem × W}, (T.pollReady t).run x = .ok (p, t') y → ReadyLaw debug S (o.own t) (o.own t') x y := by
  induction o with
  | base => intro t t' p x y h; exact .inr ⟨t, t', p, x.2, y.2, rfl, rfl, h⟩
  | free B h1 => intro t t' p x y h; exact .inl ⟨rfl, h1 t _ _ _ h⟩
  | mapRequest f h o ih => intro t t' p x y h; exact ih h
  | mapResponse f h o ih => intro t t' p x y h; exact ih h
  | mapErr f hf o ih =>
    intro t t' p x y h
    obtain ⟨⟨q, t1⟩, w1, h1, h2⟩ := run_bind_eq_ok.1 h
    match q, h2 with
    | .pending, h2 => cases h2; exact ih h1
    | .ready (.ok ()), h2 => cases h2; exact ih h1
    | .ready (.error e), h2 =>
      obtain ⟨e', w2, h3, h4⟩ := run_bind_eq_ok.1 h2
      cases h3; cases h4
      exact (ih h1).left (hf _ _)
  | mapResult into f hf o ih =>
    intro t t' p x y h
    obtain ⟨⟨q, t1⟩, w1, h1, h2⟩ := run_bind_eq_ok.1 h
    cases h2; exact ih h1
  | andThen into G f hf hg o ih =>
    intro t t' p x y h
    obtain ⟨⟨q, t1⟩, w1, h1, h2⟩ := run_bind_eq_ok.1 h
    cases h2; exact ih h1
  | thenDo into G f hf hg o ih =>
    intro t t' p x y h
    obtain ⟨⟨q, t1⟩, w1, h1, h2⟩ := run_bind_eq_ok.1 h
    cases h2; exact ih h1
  | filter into check hc o ih =>
    intro t t' p x y h
    obtain ⟨⟨q, t1⟩, w1, h1, h2⟩ := run_bind_eq_ok.1 h
    cases h2; exact ih h1
  | timeout C d hC o ih =>
    intro t t' p x y h
    obtain ⟨⟨q, t1⟩, w1, h1, h2⟩ := run_bind_eq_ok.1 h
    cases h2; exact ih h1
  | loadShed o ih =>
    intro t t' p x y h
    obtain ⟨⟨q, t1⟩, w1, h1, h2⟩ := run_bind_eq_ok.1 h
    match q, h2 with
    | .pending, h2 => cases h2; exact ih h1
    | .ready (.ok ()), h2 => cases h2; exact ih h1
    | .ready (.error e), h2 => cases h2; exact ih h1
  | rateLimit C r hC o ih =>
    intro t t' p x y h
    obtain ⟨inner, st, sleep⟩ := t
    cases st with
    | ready u m =>
      obtain ⟨⟨q, t1⟩, w1, h1, h2⟩ := run_bind_eq_ok.1 h
      cases h2; exact ih h1
    | limited =>
      obtain ⟨w0, _, h0, h⟩ := run_bind_eq_ok.1 h
      cases h0
      split at h
      · obtain ⟨w0, _, h0, h⟩ := run_bind_eq_ok.1 h
        cases h0
        obtain ⟨⟨q, t1⟩, w1, h1, h2⟩ := run_bind_eq_ok.1 h
        cases h2; exact ih h1
      · obtain ⟨_, w2, h3, h4⟩ := run_bind_eq_ok.1 h
        cases h3; cases h4
        exact .inl ⟨rfl, hC _ _⟩
  | limit dbg V hV o ih =>
    intro t t' p x y h
    obtain ⟨inner, a, permit⟩ := t
    cases permit with
    | true =>
      obtain ⟨⟨q, t1⟩, w1, h1, h2⟩ := run_bind_eq_ok.1 h
      cases h2; exact ih h1
    | false =>
      obtain ⟨⟨q, a'⟩, w0, h0, h⟩ := run_bind_eq_ok.1 h
      have hw : w0.1 = x.1 := (Out.ok.inj h0).2 ▸ hV _ _
      match q, h with
      | .pending, h => cases h; exact .inl ⟨rfl, hw⟩
      | .ready got, h =>
        dsimp only at h
        split at h
        · cases h
        · obtain ⟨⟨q, t1⟩, w1, h1, h2⟩ := run_bind_eq_ok.1 h
          cases h2
          exact (ih h1).pre hw.symm
  | either a b iha ihb =>
    intro t t' p x y h
    cases t with
    | inl t =>
      obtain ⟨⟨q, t1⟩, w1, h1, h2⟩ := run_bind_eq_ok.1 h
      cases h2; exact iha h1
    | inr t =>
      obtain ⟨⟨q, t1⟩, w1, h1, h2⟩ := run_bind_eq_ok.1 h
      cases h2; exact ihb h1
  | optional o ih =>
    intro t t' p x y h
    cases t with
    | none => cases h; exact .inl ⟨rfl, rfl⟩
    | some t =>
      obtain ⟨⟨q, t1⟩, w1, h1, h2⟩ := run_bind_eq_ok.1 h
      cases h2; exact ih h1
  | boxed o ih =>
    intro t t' p x y h
    obtain ⟨⟨q, t1⟩, w1, h1, h2⟩ := run_bind_eq_ok.1 h
    cases h2; exact ih h1

theorem call_law {Q R E : Type} {T : Service (Sem × W) Q R E} (o : Over debug S T) :
    ∀ {t t' : T.σ} {q} {f : T.φ} {x y : Sem × W}, (T.call t q).run x = .ok (f, t') y → CallLaw debug S (o.own t) (o.own t') (o.fut f) x y := by
  induction o with
  | base => intro t t' q f x y h; exact .inr ⟨t, t', q, f, x.2, y.2, rfl, rfl, rfl, h⟩
  | free B h1 h2 => intro t t' q f x y h; exact .inl ⟨rfl, h2 t q _ _ _ h, rfl⟩
  | mapRequest g hg o ih =>
    intro t t' q f x y h
    obtain ⟨q', w1, h1, h2⟩ := run_bind_eq_ok.1 h
    cases h1
    exact (ih h2).pre (hg _ _).symm
  | mapResponse g hg o ih =>
    intro t t' q f x y h
    obtain ⟨⟨f1, t1⟩, w1, h1, h2⟩ := run_bind_eq_ok.1 h
    cases h2; exact ih h1
  | mapErr g hg o ih =>
    intro t t' q f x y h
    obtain ⟨⟨f1, t1⟩, w1, h1, h2⟩ := run_bind_eq_ok.1 h
    cases h2; exact ih h1
  | mapResult into g hg o ih =>
    intro t t' q f x y h
    obtain ⟨⟨f1, t1⟩, w1, h1, h2⟩ := run_bind_eq_ok.1 h
    cases h2; exact ih h1
  | andThen into G g hf hg o ih =>
    intro t t' q f x y h
    obtain ⟨⟨f1, t1⟩, w1, h1, h2⟩ := run_bind_eq_ok.1 h
    cases h2; exact ih h1
  | thenDo into G g hf hg o ih =>
    intro t t' q f x y h
    obtain ⟨⟨f1, t1⟩, w1, h1, h2⟩ := run_bind_eq_ok.1 h
    cases h2; exact ih h1
  | filter into check hc o ih =>
    intro t t' q f x y h
    obtain ⟨c, w1, h1, h⟩ := run_bind_eq_ok.1 h
    have hw : w1.1 = x.1 := by cases h1; exact hc _ _
    match c, h with
    | .ok q', h =>
      obtain ⟨⟨f1, t1⟩, w2, h3, h2⟩ := run_bind_eq_ok.1 h
      cases h2
      exact (ih h3).pre hw.symm
    | .error e, h => cases h; exact .inl ⟨rfl, hw, rfl⟩
  | timeout C d hC o ih =>
    intro t t' q f x y h
    obtain ⟨⟨f1, t1⟩, w1, h1, h2⟩ := run_bind_eq_ok.1 h
    obtain ⟨_, _, h3, h4⟩ := run_bind_eq_ok.1 h2
    cases h3; cases h4
    exact ih h1
  | loadShed o ih =>
    intro t t' q f x y h
    obtain ⟨inner, rdy⟩ := t
    cases rdy with
    | true =>
      obtain ⟨⟨f1, t1⟩, w1, h1, h2⟩ := run_bind_eq_ok.1 h
      cases h2; exact ih h1
    | false => cases h; exact .inl ⟨rfl, rfl, rfl⟩
  | rateLimit C r hC o ih =>
    intro t t' q f x y h
    obtain ⟨w0, _, h0, h⟩ := run_bind_eq_ok.1 h
    cases h0
    split at h
    · cases h
    · obtain ⟨⟨f1, t1⟩, w1, h1, h2⟩ := run_bind_eq_ok.1 h
      cases h2; exact ih h1
  | limit dbg V hV o ih =>
    intro t t' q f x y h
    obtain ⟨inner, a, permit⟩ := t
    cases permit with
    | true =>
      obtain ⟨⟨f1, t1⟩, w1, h1, h2⟩ := run_bind_eq_ok.1 h
      cases h2; exact ih h1
    | false => cases h
  | either a b iha ihb =>
    intro t t' q f x y h
    cases t with
    | inl t =>
      obtain ⟨⟨f1, t1⟩, w1, h1, h2⟩ := run_bind_eq_ok.1 h
      cases h2; exact iha h1
    | inr t =>
      obtain ⟨⟨f1, t1⟩, w1, h1, h2⟩ := run_bind_eq_ok.1 h
      cases h2; exact ihb h1
  | optional o ih =>
    intro t t' q f x y h
    cases t with
    | none => cases h; exact .inl ⟨rfl, rfl, rfl⟩
    | some t =>
      obtain ⟨⟨f1, t1⟩, w1, h1, h2⟩ := run_bind_eq_ok.1 h
      cases h2; exact ih h1
  | boxed o ih =>
    intro t t' q f x y h
    obtain ⟨⟨f1, t1⟩, w1, h1, h2⟩ := run_bind_eq_ok.1 h
    cases h2; exact ih h1

theorem mapFut_law {φ A B : Type} {poll : φ → Act (Sem × W) (Poll A × φ)} {g : A → Act (Sem × W) B} {fut : φ → Option S.φ}
    (ih : ∀ {f f' : φ} {p} {x y : Sem × W}, (poll f).run x = .ok (p, f') y → PollLaw debug S (fut f) (fut f') x y) (hg : ∀ a, (g a).KeepsSem)
    {f f' : Option φ} {p} {x y : Sem × W} (h : (mapFut poll g f).run x = .ok (p, f') y) : PollLaw debug S (f.bind fut) (f'.bind fut) x y := by
  cases f with
  | none => cases h
  | some f =>
    obtain ⟨⟨q, f1⟩, w1, h1, h2⟩ := run_bind_eq_ok.1 h
    cases q with
    | pending => cases h2; exact ih h1
    | ready a =>
      obtain ⟨b, w2, h3, h4⟩ := run_bind_eq_ok.1 h2
      cases h4
      exact (ih h1).gone.left (hg _ _ _ _ h3)

theorem pollSecond_law {A Out : Type} {G : Fut (Sem × W) Out} (hg : ∀ g, (G.poll g).KeepsSem) {g : G.φ} {p} {f' : TwoStage A G.φ} {x y : Sem × W}
    (h : (pollSecond G g).run x = .ok (p, f') y) : y.1 = x.1 ∧ ∀ a, f' ≠ .first a := by
  obtain ⟨⟨q, f1⟩, w1, h1, h2⟩ := run_bind_eq_ok.1 h
  cases q with
  | pending => cases h2; exact ⟨hg _ _ _ _ h1, fun a ha => by cases ha⟩
  | ready a => cases h2; exact ⟨hg _ _ _ _ h1, fun a ha => by cases ha⟩

theorem poll_law {Q R E : Type} {T : Service (Sem × W) Q R E} (o : Over debug S T) :
    ∀ {f f' : T.φ} {p} {x y : Sem × W}, (T.poll f).run x = .ok (p, f') y → PollLaw debug S (o.fut f) (o.fut f') x y := by
  induction o with
  | base =>
    intro f f' p x y h
    have h1 := (snd_eq_ok.1 h).2
    refine ⟨h1, .inr (.inr ⟨f, f', p, x.2, y.2, rfl, rfl, ?_⟩)⟩
    show ((LimSvc debug S).poll f).run x = .ok (p, f') (x.1, y.2)
    rw [h, ← h1]
  | free B h1 h2 h3 => intro f f' p x y h; exact ⟨h3 f _ _ _ h, .inl rfl⟩
  | mapRequest g hg o ih => intro f f' p x y h; exact ih h
  | mapResponse g hg o ih =>
    intro f f' p x y h
    refine mapFut_law (fut := o.fut) ih ?_ h
    intro a x r y h
    cases a with
    | error e => cases h; rfl
    | ok v =>
      obtain ⟨_, _, h1, h2⟩ := run_bind_eq_ok.1 h
      cases h1; cases h2; exact hg _ _
  | mapErr g hg o ih =>
    intro f f' p x y h
    refine mapFut_law (fut := o.fut) ih ?_ h
    intro a x r y h
    cases a with
    | ok e => cases h; rfl
    | error v =>
      obtain ⟨_, _, h1, h2⟩ := run_bind_eq_ok.1 h
      cases h1; cases h2; exact hg _ _
  | mapResult into g hg o ih =>
    intro f f' p x y h
    refine mapFut_law (fut := o.fut) ih ?_ h
    intro a x r y h
    cases h; exact hg _ _
  | andThen into G g hf hg o ih =>
    intro f f' p x y h
    match f, h with
    | .first f, h =>
      obtain ⟨⟨q, f1⟩, w1, h1, h2⟩ := run_bind_eq_ok.1 h
      match q, h2 with
      | .pending, h2 => cases h2; exact ih h1
      | .ready (.error e), h2 => cases h2; exact (ih h1).gone
      | .ready (.ok v), h2 =>
        obtain ⟨g0, w2, h3, h4⟩ := run_bind_eq_ok.1 h2
        obtain ⟨h5, h6⟩ := pollSecond_law hg h4
        have hw : w2.1 = w1.1 := by cases h3; exact hf _ _
        cases f' with
        | first a => exact absurd rfl (h6 a)
        | second a => exact (ih h1).gone.left (h5.trans hw)
        | done => exact (ih h1).gone.left (h5.trans hw)
    | .second f, h =>
      obtain ⟨h5, h6⟩ := pollSecond_law hg h
      cases f' with
      | first a => exact absurd rfl (h6 a)
      | second a => exact ⟨h5, .inl rfl⟩
      | done => exact ⟨h5, .inl rfl⟩
    | .done, h => cases h
  | thenDo into G g hf hg o ih =>
    intro f f' p x y h
    match f, h with
    | .first f, h =>
      obtain ⟨⟨q, f1⟩, w1, h1, h2⟩ := run_bind_eq_ok.1 h
      match q, h2 with
      | .pending, h2 => cases h2; exact ih h1
      | .ready v, h2 =>
        obtain ⟨g0, w2, h3, h4⟩ := run_bind_eq_ok.1 h2
        obtain ⟨h5, h6⟩ := pollSecond_law hg h4
        have hw : w2.1 = w1.1 := by cases h3; exact hf _ _
        cases f' with
        | first a => exact absurd rfl (h6 a)
        | second a => exact (ih h1).gone.left (h5.trans hw)
        | done => exact (ih h1).gone.left (h5.trans hw)
    | .second f, h =>
      obtain ⟨h5, h6⟩ := pollSecond_law hg h
      cases f' with
      | first a => exact absurd rfl (h6 a)
      | second a => exact ⟨h5, .inl rfl⟩
      | done => exact ⟨h5, .inl rfl⟩
    | .done, h => cases h
  | filter into check hc o ih =>
    intro f f' p x y h
    match f, h with
    | .inl (some e), h => cases h; exact ⟨rfl, .inl rfl⟩
    | .inl none, h => cases h
    | .inr f, h =>
      obtain ⟨⟨q, f1⟩, w1, h1, h2⟩ := run_bind_eq_ok.1 h
      cases h2
      refine mapFut_law (fut := o.fut) ih ?_ h1
      intro a x r y h
      cases h; rfl
  | timeout C d hC o ih =>
    intro f f' p x y h
    obtain ⟨⟨q, f1⟩, w1, h1, h2⟩ := run_bind_eq_ok.1 h
    cases q with
    | ready v => cases h2; exact ih h1
    | pending =>
      obtain ⟨w0, _, h0, h⟩ := run_bind_eq_ok.1 h2
      cases h0
      split at h
      · cases h; exact ih h1
      · obtain ⟨_, w2, h3, h4⟩ := run_bind_eq_ok.1 h
        cases h3; cases h4
        exact (ih h1).left (hC _ _)
  | loadShed o ih =>
    intro f f' p x y h
    cases f with
    | none => cases h; exact ⟨rfl, .inl rfl⟩
    | some f =>
      obtain ⟨⟨q, f1⟩, w1, h1, h2⟩ := run_bind_eq_ok.1 h
      cases h2; exact ih h1
  | rateLimit C r hC o ih => intro f f' p x y h; exact ih h
  | limit dbg V hV o ih => intro f f' p x y h; exact ih h
  | either a b iha ihb =>
    intro f f' p x y h
    cases f with
    | inl f =>
      obtain ⟨⟨q, f1⟩, w1, h1, h2⟩ := run_bind_eq_ok.1 h
      cases h2; exact iha h1
    | inr f =>
      obtain ⟨⟨q, f1⟩, w1, h1, h2⟩ := run_bind_eq_ok.1 h
      cases h2; exact ihb h1
  | optional o ih =>
    intro f f' p x y h
    cases f with
    | none => cases h; exact ⟨rfl, .inl rfl⟩
    | some f =>
      obtain ⟨⟨q, f1⟩, w1, h1, h2⟩ := run_bind_eq_ok.1 h
      cases h2; exact ih h1
  | boxed o ih =>
    intro f f' p x y h
    obtain ⟨⟨q, f1⟩, w1, h1, h2⟩ := run_bind_eq_ok.1 h
    cases h2; exact ih h1

theorem clone_law {Q R E : Type} {T : Service (Sem × W) Q R E} (o : Over debug S T) :
    ∀ (n : Nat) (t : T.σ), o.isClone = true → o.own (o.rename n (T.clone t)) = (o.own t).map (fun s => { ((LimSvc debug S).clone s : ConcState S.σ Nat) with sem := n }) := by
  induction o with
  | base => intro n t _; rfl
  | free => intro n t _; rfl
  | rateLimit => intro n t h; cases h
  | either a b iha ihb =>
    intro n t h
    rw [isClone, Bool.and_eq_true] at h
    cases t with
    | inl t => exact iha n t h.1
    | inr t => exact ihb n t h.2
  | optional o ih =>
    intro n t h
    cases t with
    | none => rfl
    | some t => exact ih n t h
  | mapRequest _ _ o ih => exact ih
  | mapResponse _ _ o ih => exact ih
  | mapErr _ _ o ih => exact ih
  | mapResult _ _ _ o ih => exact ih
  | andThen _ _ _ _ _ o ih => exact ih
  | thenDo _ _ _ _ _ o ih => exact ih
  | filter _ _ _ o ih => exact ih
  | timeout _ _ _ o ih => exact ih
  | loadShed o ih => intro n t h; exact ih n t.inner h
  | limit _ _ _ o ih => intro n t h; exact ih n t.inner h
  | boxed o ih => intro n t h; exact ih n t.val h

end Over

variable {Q R E : Type} {T : Service (Sem × W) Q R E} {max : Nat}

theorem filt_split {α β : Type} (g : α → Option β) (l r : List α) (a : α) : ((l ++ a :: r).filterMap g).Perm ((g a).toList ++ (l ++ r).filterMap g) := by
  have := flat_split (fun a => (g a).toList) (l := l) (r := r) (c := a) (t := [])
  simp only [← filt_eq, List.append_nil] at this
  exact this

theorem filt_push {α β : Type} (g : α → Option β) (l : List α) (a : α) : ((l ++ [a]).filterMap g).Perm ((g a).toList ++ l.filterMap g) := by
  have := filt_split g l [] a
  rwa [List.append_nil] at this

/-- the limit in a stack -/
def OStack.Lims (o : Over debug S T) (max : Nat) (x : OStack T) : Prop := ∃ arr, LimTo debug max S x.sem (x.hs.filterMap o.own) (x.fs.filterMap o.fut) x.next arr

theorem LimTo.gone {sem : Sem} {hs : List (ConcState S.σ Nat)} {fs : List S.φ} {next arr} {a b : Option S.φ} (h : LimTo debug max S sem hs (a.toList ++ fs) next arr) (hb : a.isNone → b.isNone) :
    LimTo debug max S (dropGone sem a b) hs (b.toList ++ fs) next arr := by
  cases a with
  | none => cases b with
    | none => exact h
    | some b => exact absurd (hb rfl) (by simp)
  | some a => cases b with
    | none => exact LimTo.drop_future h
    | some b => exact LimTo.poll_panics h

theorem OverStep.lims {o : Over debug S T} {x x' : OStack T} (hs : OverStep o x x') (i0 : S.σ) (h : x.Lims o max) : x'.Lims o max := by
  obtain ⟨arr, h⟩ := h
  cases hs with
  | layer ht =>
    rename_i t i
    have := (filt_push o.own x.hs t).symm
    rw [ht] at this
    exact ⟨_, (h.with_semaphore i).perm this (.refl _)⟩
  | layer_free ht =>
    rename_i t
    have := (filt_push o.own x.hs t).symm
    rw [ht] at this
    exact ⟨_, h.perm this (.refl _)⟩
  | ready hx hr =>
    rename_i l r t t' p sem' w w'
    rw [hx] at h
    have h := h.perm (filt_split o.own l r t) (.refl _)
    rcases o.ready_law hr with ⟨h1, h2⟩ | ⟨s, s', p, w1, w2, h1, h2, h3⟩
    · refine ⟨arr, LimTo.perm ?_ (filt_split o.own l r t').symm (.refl _)⟩
      dsimp only at h2 ⊢
      rw [h1, h2]; exact h
    · rw [h1] at h
      refine ⟨_, (LimTo.ready h h3).perm ?_ (.refl _)⟩
      have := (filt_split o.own l r t').symm
      rw [h2] at this
      exact this
  | call hx hr =>
    rename_i l r t t' f q sem' w w'
    rw [hx] at h
    have h := h.perm (filt_split o.own l r t) (.refl _)
    rcases o.call_law hr with ⟨h1, h2, h3⟩ | ⟨s, s', q, f0, w1, w2, h1, h2, h3, h4⟩
    · refine ⟨arr, LimTo.perm ?_ (filt_split o.own l r t').symm (filt_push o.fut _ _).symm⟩
      dsimp only at h2 ⊢
      rw [h1, h2, h3]; exact h
    · rw [h1] at h
      refine ⟨_, (LimTo.call h h4).perm ?_ ?_⟩
      · have := (filt_split o.own l r t').symm
        rw [h2] at this
        exact this
      · have := (filt_push o.fut x.fs f).symm
        rw [h3] at this
        exact this
  | poll hx hr =>
    rename_i l r f f' p sem' w w'
    rw [hx] at h
    have h := h.perm (.refl _) (filt_split o.fut l r f)
    obtain ⟨h1, h2⟩ := o.poll_law hr
    dsimp only at h1
    subst h1
    refine ⟨arr, LimTo.perm ?_ (.refl _) (filt_split o.fut l r f').symm⟩
    dsimp only
    rcases h2 with h2 | h2 | ⟨a, a', p, w1, w2, h3, h4, h5⟩
    · rw [h2]; exact h.gone id
    · rw [h2]; exact h.gone (fun _ => rfl)
    · rw [h3] at h ⊢; rw [h4]; exact LimTo.poll h h5
  | ready_panics_outside hx ht =>
    rename_i l r t t'
    rw [hx] at h
    refine ⟨_, LimTo.perm (h.perm (filt_split o.own l r t) (.refl _)) ?_ (.refl _)⟩
    rw [← ht]; exact (filt_split o.own l r t').symm
  | ready_panics hx h1 h2 h3 =>
    rename_i l r t t' s i sem'
    rw [hx] at h
    have h := h.perm (filt_split o.own l r t) (.refl _)
    rw [h1] at h
    refine ⟨_, (LimTo.ready_panics (i := i) h h3).perm ?_ (.refl _)⟩
    have := (filt_split o.own l r t').symm
    rw [h2] at this
    exact this
  | call_panics_outside hx ht =>
    rename_i l r t t'
    rw [hx] at h
    refine ⟨_, LimTo.perm (h.perm (filt_split o.own l r t) (.refl _)) ?_ (.refl _)⟩
    rw [← ht]; exact (filt_split o.own l r t').symm
  | call_panics hx h1 h3 h2 =>
    rename_i l r t t' s i
    rw [hx] at h
    have h := h.perm (filt_split o.own l r t) (.refl _)
    rw [h1] at h
    refine ⟨_, (LimTo.call_panics (i := i) h h3).perm ?_ (.refl _)⟩
    have := (filt_split o.own l r t').symm
    rw [h2] at this
    exact this
  | call_panics_after hx h1 h2 h3 =>
    rename_i l r t t' s s' f0 q sem' w w'
    rw [hx] at h
    have h := h.perm (filt_split o.own l r t) (.refl _)
    rw [h1] at h
    refine ⟨_, (LimTo.call h h3).drop_future.perm ?_ (.refl _)⟩
    have := (filt_split o.own l r t').symm
    rw [h2] at this
    exact this
  | poll_panics hx hf =>
    rename_i l r f f'
    rw [hx] at h
    exact ⟨_, ((h.perm (.refl _) (filt_split o.fut l r f)).gone hf).perm (.refl _) (filt_split o.fut l r f').symm⟩
  | drop_future hx =>
    rename_i l r f
    rw [hx] at h
    exact ⟨_, (h.perm (.refl _) (filt_split o.fut l r f)).gone (b := none) (fun _ => rfl)⟩
  | clone hc ht =>
    rename_i t
    have e := o.clone_law x.next t hc
    cases hs : o.own t with
    | none =>
      rw [hs] at e
      refine ⟨_, (h.skip i0).perm ?_ (.refl _)⟩
      have := (filt_push o.own x.hs (o.rename x.next (T.clone t))).symm
      rw [e] at this
      exact this
    | some s =>
      rw [hs] at e
      refine ⟨_, (h.clone (List.mem_filterMap.2 ⟨t, ht, hs⟩)).perm ?_ (.refl _)⟩
      have := (filt_push o.own x.hs (o.rename x.next (T.clone t))).symm
      rw [e] at this
      exact this
  | drop_handle hx =>
    rename_i l r t
    rw [hx] at h
    have h := h.perm (filt_split o.own l r t) (.refl _)
    cases ht : o.own t with
    | none => rw [ht] at h; exact ⟨_, h⟩
    | some s => rw [ht] at h; exact ⟨_, LimTo.drop_handle h⟩

theorem OverHist.some {o : Over debug S T} {x : OStack T} (h : OverHist o max x) : Nonempty S.σ := by
  induction h with
  | new _ i _ => exact ⟨i⟩
  | step _ _ ih => exact ih

theorem OverHist.lims {o : Over debug S T} {x : OStack T} (h : OverHist o max x) : x.Lims o max := by
  induction h with
  | new t i ht =>
    refine ⟨[], ?_⟩
    have := LimTo.new (debug := debug) (max := max) (S := S) i
    simp only [List.filterMap_cons, ht, List.filterMap_nil]
    exact this
  | step h hs ih => exact hs.lims h.some.some ih

end Tower
