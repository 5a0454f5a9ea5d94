import Verif.Proof.AlikeMw
import Verif.Spec.StreamSpec
import Verif.Model.CallAll

/-! # Bisimulations of `call_all` -/

namespace Tower
open Act
variable {W : Type}

/-- two queues behave the same while futures that correspond are put into them -/
structure DriveAlike {φ ψ α : Type} (rf : φ → ψ → Prop) (D : DriveQ W φ α) (D' : DriveQ W ψ α) (rq : D.Q → D'.Q → Prop) : Prop where
  empty : rq D.empty D'.empty
  isEmpty : ∀ q q', rq q q' → D.isEmpty q = D'.isEmpty q'
  push : ∀ q q' f g, rq q q' → rf f g → rq (D.push q f) (D'.push q' g)
  poll : ∀ q q', rq q q' → Rel (fun a b => a.1 = b.1 ∧ rq a.2 b.2) (D.poll q) (D'.poll q')

theorem forall₂_eraseIdx {α β : Type} {r : α → β → Prop} {l : List α} {l' : List β} (h : List.Forall₂ r l l') : ∀ i, List.Forall₂ r (l.eraseIdx i) (l'.eraseIdx i) := by
  induction h with
  | nil => intro i; exact .nil
  | cons h t ih =>
    intro i
    cases i with
    | zero => exact t
    | succ i => exact .cons h (ih i)

theorem rel_pollSome {φ ψ α : Type} {rf : φ → ψ → Prop} {poll : φ → Act W (Poll α × φ)} {poll' : ψ → Act W (Poll α × ψ)} (h : ∀ x y, rf x y → Rel (PollRel rf) (poll x) (poll' y)) (is : List Nat) :
    ∀ (l : List φ) (l' : List ψ), List.Forall₂ rf l l' → Rel (fun a b => a.1 = b.1 ∧ List.Forall₂ rf a.2 b.2) (pollSome poll is l) (pollSome poll' is l') := by
  induction is with
  | nil =>
    intro l l' hl
    cases hl with
    | nil => exact Rel.pure ⟨rfl, .nil⟩
    | cons a b => exact Rel.pure ⟨rfl, .cons a b⟩
  | cons i is ih =>
    intro l l' hl
    rcases forall₂_get hl i with ⟨h1, h2⟩ | ⟨x, y, h1, h2, hxy⟩
    · cases hl with
      | nil => exact Rel.pure ⟨rfl, .nil⟩
      | cons a b =>
        simp only [pollSome, h1, h2]
        exact ih _ _ (.cons a b)
    · cases hl with
      | nil => simp at h1
      | cons a b =>
        simp only [pollSome, h1, h2]
        refine Rel.bind (h x y hxy) ?_
        rintro ⟨p, x'⟩ ⟨q, y'⟩ ⟨e, k⟩
        dsimp only at e k; subst e
        cases p with
        | pending => exact ih _ _ (forall₂_set (.cons a b) i (k rfl))
        | ready v => exact Rel.pure ⟨rfl, forall₂_eraseIdx (.cons a b) i⟩

theorem unordered_alike {φ ψ α : Type} {rf : φ → ψ → Prop} (V : Sched W) {poll : φ → Act W (Poll α × φ)} {poll' : ψ → Act W (Poll α × ψ)} (h : ∀ x y, rf x y → Rel (PollRel rf) (poll x) (poll' y)) :
    DriveAlike rf (unorderedQ V poll) (unorderedQ V poll') (List.Forall₂ rf) where
  empty := .nil
  isEmpty q q' hq := by cases hq <;> rfl
  push q q' f g hq hf := forall₂_snoc hq hf
  poll q q' hq := by
    show Rel _ (Act.lift (V.order q.length) >>= _) (Act.lift (V.order q'.length) >>= _)
    rw [hq.length_eq]
    exact Rel.lift fun o => rel_pollSome h o q q' hq

def OrdRel {φ ψ α : Type} (rf : φ → ψ → Prop) (q : OrdQ φ α) (q' : OrdQ ψ α) : Prop :=
  List.Forall₂ (fun a b => a.1 = b.1 ∧ rf a.2 b.2) q.run q'.run ∧ q.done = q'.done ∧ q.nextIn = q'.nextIn ∧ q.nextOut = q'.nextOut

theorem rel_pollIdx {φ ψ α : Type} {rf : φ → ψ → Prop} {poll : φ → Act W (Poll α × φ)} {poll' : ψ → Act W (Poll α × ψ)} (h : ∀ x y, rf x y → Rel (PollRel rf) (poll x) (poll' y))
    (x : Nat × φ) (y : Nat × ψ) (hxy : x.1 = y.1 ∧ rf x.2 y.2) : Rel (PollRel fun a b => a.1 = b.1 ∧ rf a.2 b.2) (pollIdx poll x) (pollIdx poll' y) := by
  refine Rel.bind (h x.2 y.2 hxy.2) ?_
  rintro ⟨p, x'⟩ ⟨q, y'⟩ ⟨e, k⟩
  dsimp only at e k; subst e
  refine Rel.pure ⟨by simp only [hxy.1], ?_⟩
  cases p with
  | pending => exact fun _ => ⟨hxy.1, k rfl⟩
  | ready v => intro h; cases h

theorem rel_ordLoop {φ ψ α : Type} {rf : φ → ψ → Prop} (V : Sched W) {poll : φ → Act W (Poll α × φ)} {poll' : ψ → Act W (Poll α × ψ)} (h : ∀ x y, rf x y → Rel (PollRel rf) (poll x) (poll' y)) (n : Nat) :
    ∀ (q : OrdQ φ α) (q' : OrdQ ψ α), OrdRel rf q q' → Rel (fun a b => a.1 = b.1 ∧ OrdRel rf a.2 b.2) (OrdQ.loop V poll n q) (OrdQ.loop V poll' n q') := by
  induction n with
  | zero => intros; exact Rel.spin
  | succ n ih =>
    rintro ⟨run, done, ni, no⟩ ⟨run', done', ni', no'⟩ ⟨h1, h2, h3, h4⟩
    dsimp only at h1 h2 h3 h4; subst h2 h3 h4
    simp only [OrdQ.loop, h1.length_eq]
    refine Rel.lift fun o => ?_
    refine Rel.bind (rel_pollSome (rel_pollIdx h) o run run' h1) ?_
    rintro ⟨p, r⟩ ⟨q, r'⟩ ⟨e, k⟩
    dsimp only at e k; subst e
    match p with
    | .pending => exact Rel.pure ⟨rfl, k, rfl, rfl, rfl⟩
    | .ready none => exact Rel.pure ⟨rfl, k, rfl, rfl, rfl⟩
    | .ready (some (i, v)) =>
      dsimp only
      by_cases hi : i = no
      · rw [if_pos hi, if_pos hi]
        exact Rel.pure ⟨rfl, k, rfl, rfl, rfl⟩
      · rw [if_neg hi, if_neg hi]
        exact ih _ _ ⟨k, rfl, rfl, rfl⟩

theorem ordered_alike {φ ψ α : Type} {rf : φ → ψ → Prop} (V : Sched W) {poll : φ → Act W (Poll α × φ)} {poll' : ψ → Act W (Poll α × ψ)} (h : ∀ x y, rf x y → Rel (PollRel rf) (poll x) (poll' y)) :
    DriveAlike rf (orderedQ V poll) (orderedQ V poll') (OrdRel rf) where
  empty := ⟨.nil, rfl, rfl, rfl⟩
  isEmpty := by
    rintro ⟨run, done, ni, no⟩ ⟨run', done', ni', no'⟩ ⟨h1, h2, h3, h4⟩
    dsimp only at h1 h2 h3 h4; subst h2 h3 h4
    cases h1 <;> rfl
  push := by
    rintro ⟨run, done, ni, no⟩ ⟨run', done', ni', no'⟩ f g ⟨h1, h2, h3, h4⟩ hf
    dsimp only at h1 h2 h3 h4; subst h2 h3 h4
    exact ⟨forall₂_snoc h1 ⟨rfl, hf⟩, rfl, rfl, rfl⟩
  poll := by
    rintro ⟨run, done, ni, no⟩ ⟨run', done', ni', no'⟩ ⟨h1, h2, h3, h4⟩
    dsimp only at h1 h2 h3 h4; subst h2 h3 h4
    dsimp only
    cases done.find? (fun e => e.1 == no) with
    | some e => exact Rel.pure ⟨rfl, h1, rfl, rfl, rfl⟩
    | none =>
      dsimp only
      rw [h1.length_eq]
      exact rel_ordLoop V h _ _ _ ⟨h1, rfl, rfl, rfl⟩

section
variable {Q Re E : Type} {S T : Service W Q Re E} {rs : Bool → S.σ → T.σ → Prop} {rf : S.φ → T.φ → Prop} {R : ReqStream W Q}
  {D : DriveQ W S.φ (Except E Re)} {D' : DriveQ W T.φ (Except E Re)} {rq : D.Q → D'.Q → Prop}

def SvcRel {σ τ : Type} (rs : Bool → σ → τ → Prop) : Option σ → Option τ → Prop := OptRel fun s t => ∃ b, rs b s t

/-- after the end of the stream, or a failure, the service is not used any more -/
def CallAllRel (rs : Bool → S.σ → T.σ → Prop) (rq : D.Q → D'.Q → Prop) (c : CallAll S R D) (d : CallAll T R D') : Prop :=
  c.stream = d.stream ∧ c.eof = d.eof ∧ c.curr = d.curr ∧ rq c.queue d.queue ∧ (c.eof = false → SvcRel rs c.service d.service)

theorem Alike.callAll (A : Alike S T rs rf) (B : DriveAlike rf D D' rq) (n : Nat) : ∀ (c : CallAll S R D) (d : CallAll T R D'), CallAllRel rs rq c d →
    Rel (fun a b => a.1 = b.1 ∧ CallAllRel rs rq a.2 b.2) (CallAll.pollNext n c) (CallAll.pollNext n d) := by
  induction n with
  | zero => intros; exact Rel.spin
  | succ n ih =>
    have hissue : ∀ (c : CallAll S R D) (d : CallAll T R D'), CallAllRel rs rq c d → c.eof = false →
        Rel (fun a b => a.1 = b.1 ∧ CallAllRel rs rq a.2 b.2) (CallAll.issue (CallAll.pollNext n) c) (CallAll.issue (CallAll.pollNext n) d) := by
      rintro ⟨sv, st, qu, eof, cu⟩ ⟨sv', st', qu', eof', cu'⟩ ⟨h1, h2, h3, h4, h5⟩ he
      dsimp only at h1 h2 h3 h4 h5 he; subst h1 h2 h3
      have h5 := h5 he
      match sv, sv', h5 with
      | none, none, _ => exact Rel.panic
      | some s, some t, ⟨b, hst⟩ =>
        refine Rel.bind (A.ready b s t hst) ?_
        rintro ⟨p, s1⟩ ⟨q, t1⟩ ⟨e, k1, k2⟩
        dsimp only at e k1 k2; subst e
        match p, k1, k2 with
        | .pending, _, k2 => exact Rel.pure ⟨rfl, rfl, rfl, rfl, h4, fun _ => ⟨false, k2 rfl⟩⟩
        | .ready (.error e), _, _ => exact Rel.pure ⟨rfl, rfl, rfl, rfl, h4, by intro h; cases h⟩
        | .ready (.ok ()), k1, _ =>
          cases cu with
          | none => exact Rel.panic
          | some r =>
            refine Rel.bind (A.call s1 t1 r (k1 rfl)) ?_
            rintro ⟨f, s2⟩ ⟨g, t2⟩ ⟨k3, k4⟩
            exact ih _ _ ⟨rfl, rfl, rfl, B.push _ _ _ _ h4 k3, fun _ => ⟨false, k4⟩⟩
    have hfetch : ∀ (c : CallAll S R D) (d : CallAll T R D'), CallAllRel rs rq c d →
        Rel (fun a b => a.1 = b.1 ∧ CallAllRel rs rq a.2 b.2) (CallAll.fetch (CallAll.pollNext n) c) (CallAll.fetch (CallAll.pollNext n) d) := by
      rintro ⟨sv, st, qu, eof, cu⟩ ⟨sv', st', qu', eof', cu'⟩ h
      obtain ⟨h1, h2, h3, h4, h5⟩ := h
      dsimp only at h1 h2 h3 h4 h5; subst h1 h2 h3
      cases eof with
      | true =>
        simp only [CallAll.fetch, if_true, B.isEmpty _ _ h4]
        split
        · exact Rel.pure ⟨rfl, rfl, rfl, rfl, h4, h5⟩
        · exact Rel.pure ⟨rfl, rfl, rfl, rfl, h4, h5⟩
      | false =>
        cases cu with
        | some r => exact hissue _ _ ⟨rfl, rfl, rfl, h4, h5⟩ rfl
        | none =>
          simp only [CallAll.fetch, Bool.false_eq_true, if_false]
          refine Rel.bind Rel.rfl ?_
          rintro ⟨p, r'⟩ _ ⟨⟩
          match p with
          | .pending => exact Rel.pure ⟨rfl, rfl, rfl, rfl, h4, h5⟩
          | .ready none => exact ih _ _ ⟨rfl, rfl, rfl, h4, by intro h; cases h⟩
          | .ready (some r) => exact hissue _ _ ⟨rfl, rfl, rfl, h4, h5⟩ rfl
    rintro c d ⟨h1, h2, h3, h4, h5⟩
    refine Rel.bind (B.poll _ _ h4) ?_
    rintro ⟨p, q⟩ ⟨p', q'⟩ ⟨e, k⟩
    dsimp only at e k; subst e
    match p with
    | .pending => exact hfetch _ _ ⟨h1, h2, h3, k, h5⟩
    | .ready none => exact hfetch _ _ ⟨h1, h2, h3, k, h5⟩
    | .ready (some (.ok v)) => exact Rel.pure ⟨rfl, h1, h2, h3, k, h5⟩
    | .ready (some (.error e)) => exact Rel.pure ⟨rfl, h1, h2, h3, k, h5⟩

end

theorem streamLook_eq {σ τ α : Type} {poll : σ → Act W (Poll (Option α) × σ)} {poll' : τ → Act W (Poll (Option α) × τ)} {r : σ → τ → Prop}
    (h : ∀ s t, r s t → Rel (fun a b => a.1 = b.1 ∧ r a.2 b.2) (poll s) (poll' t)) (ws : List W) : ∀ s t, r s t → streamLook poll s ws = streamLook poll' t ws := by
  induction ws with
  | nil => intros; rfl
  | cons w ws ih =>
    intro s t hst
    have hw := h s t hst w
    simp only [streamLook]
    cases hx : (poll s).run w <;> cases hy : (poll' t).run w <;> rw [hx, hy] at hw <;> simp only [Out.Rel] at hw
    · rename_i a w1 b w2
      obtain ⟨⟨h1, h2⟩, rfl⟩ := hw
      obtain ⟨p, s'⟩ := a
      obtain ⟨q, t'⟩ := b
      dsimp only at h1; subst h1
      simp only [Out.void]; rw [ih _ _ h2]
    · subst hw; rfl
    · rfl

end Tower
