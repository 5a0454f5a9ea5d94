import Verif.Proof.Answers
import Verif.Model.Layer

/-! # What a response future answers: `Retry`, `Reconnect`, `SpawnReady`, `Balance` -/

set_option linter.unusedSimpArgs false

namespace Tower
open Act

variable {W Req Res Err : Type}

section
variable {S : Service W Req Res Err} {A : Req → Except Err Res → Prop} {Z : Err → Prop}

/-- a retry has been decided and `c'` is to be sent -/
def Granted (P : RetryPolicy W Req Res Err) (A : Req → Except Err Res → Prop) (q : Req) (o : Option Req) : Prop :=
  ∃ a c c' r r' ρ p p' w w', o = some c' ∧ Attempt P A q a (some c) ∧ A a r ∧ P.retry p c r w = ((some ρ, p', c', r'), w')

/-- the state of a retry future for `q` -/
def retryInv (P : RetryPolicy W Req Res Err) (S : Service W Req Res Err) (A : Req → Except Err Res → Prop) (q : Req) (x : RetryFut Req P.π S.σ S.φ P.ρ) : Prop :=
  match x.st with
  | .called f => ∃ a, Attempt P A q a x.request ∧ FutureOf S a f
  | .waiting _ => Granted P A q x.request
  | .retrying => Granted P A q x.request

theorem retryStep_gives {P : RetryPolicy W Req Res Err} (h : Replies S A Z) (q : Req) (x : RetryFut Req P.π S.σ S.φ P.ρ) (w : W) (hx : retryInv P S A q x) :
    (retryStep P S x).gives (fun o _ => (∀ y, o = .inr y → retryInv P S A q y) ∧ ∀ a, o = .inl a → (a.1 = .pending → retryInv P S A q a.2) ∧ ∀ r, a.1 = .ready r → retryAns P A Z q r) w := by
  obtain ⟨rq, ⟨p, s⟩, st⟩ := x
  cases st with
  | called f =>
    obtain ⟨a, ha, hf⟩ := hx
    simp only [retryStep, wpx_bind]
    refine wpx_mono (h.w.poll a f w hf) fun b w1 hb => ?_
    obtain ⟨po, f'⟩ := b
    cases po with
    | pending =>
      refine ⟨fun y hy => (by cases hy), fun b hb' => ?_⟩
      cases hb'
      exact ⟨fun _ => ⟨a, ha, hb.1 rfl⟩, fun r hr => by cases hr⟩
    | ready res =>
      have hA : A a res := hb.2 res rfl
      cases rq with
      | none =>
        refine ⟨fun y hy => (by cases hy), fun b hb' => ?_⟩
        cases hb'
        exact ⟨fun he => (by cases he), fun r hr => by cases hr; exact Or.inl ⟨a, ha, hA⟩⟩
      | some c =>
        simp only [wpx_bind, wpx_lift]
        rcases hr : P.retry p c res w1 with ⟨⟨o, p', c', r'⟩, w2⟩
        cases o with
        | none =>
          refine ⟨fun y hy => (by cases hy), fun b hb' => ?_⟩
          cases hb'
          exact ⟨fun he => (by cases he), fun r hr' => by cases hr'; exact Or.inr (Or.inl ⟨a, c, c', res, p, p', w1, w2, ha, hA, hr⟩)⟩
        | some ρ =>
          refine ⟨fun y hy => ?_, fun b hb' => by cases hb'⟩
          cases hy
          exact ⟨a, c, c', res, r', ρ, p, p', w1, w2, rfl, ha, hA, hr⟩
  | waiting r0 =>
    simp only [retryStep, wpx_bind, wpx_lift]
    rcases hr : P.wait r0 w with ⟨⟨o, r1⟩, w2⟩
    cases o with
    | pending =>
      refine ⟨fun y hy => (by cases hy), fun b hb' => ?_⟩
      cases hb'
      exact ⟨fun _ => hx, fun r hr => by cases hr⟩
    | ready u =>
      refine ⟨fun y hy => ?_, fun b hb' => by cases hb'⟩
      cases hy
      exact hx
  | retrying =>
    simp only [retryStep, wpx_bind]
    refine wpx_mono (h.w.ready s w) fun b w1 hb => ?_
    obtain ⟨po, s'⟩ := b
    match po, hb with
    | .pending, hb =>
      refine ⟨fun y hy => (by cases hy), fun b hb' => ?_⟩
      cases hb'
      exact ⟨fun _ => hx, fun r hr => by cases hr⟩
    | .ready (.error e), hb =>
      refine ⟨fun y hy => (by cases hy), fun b hb' => ?_⟩
      cases hb'
      exact ⟨fun he => (by cases he), fun r hr => by cases hr; exact Or.inr (Or.inr ⟨e, hb e rfl, rfl⟩)⟩
    | .ready (.ok ()), hb =>
      obtain ⟨a, c, c', r, r', ρ, p1, p2, v, v', h1, h2, h3, h4⟩ := hx
      cases h1
      simp only [wpx_bind, wpx_lift]
      rcases hr : P.cloneRequest p c' w1 with ⟨⟨o, p'⟩, w2⟩
      refine wpx_mono (h.w.call s' c' w2) fun b w3 hb => ?_
      refine ⟨fun y hy => ?_, fun b hb' => by cases hb'⟩
      cases hy
      exact ⟨c', .again h2 h3 h4 hr, hb⟩

theorem retryPoll_gives {P : RetryPolicy W Req Res Err} (h : Replies S A Z) (q : Req) : ∀ (n : Nat) (x : RetryFut Req P.π S.σ S.φ P.ρ) (w : W), retryInv P S A q x →
    (retryPoll P S n x).gives (fun a _ => (a.1 = .pending → retryInv P S A q a.2) ∧ ∀ r, a.1 = .ready r → retryAns P A Z q r) w
  | 0, x, w, hx => trivial
  | n + 1, x, w, hx => by
    simp only [retryPoll, wpx_bind]
    refine wpx_mono (retryStep_gives h q x w hx) fun o w1 ho => ?_
    cases o with
    | inl a => exact ho.2 a rfl
    | inr y => exact retryPoll_gives h q n y w1 (ho.1 y rfl)

theorem Retry.answers {fuel : Nat} {P : RetryPolicy W Req Res Err} (h : Replies S A Z) : Replies (Retry fuel P S) (retryAns P A Z) Z :=
  AnsW.answers (F := retryInv P S A) {
    ready := fun s w => by
      simp only [Retry, wpx_bind, wpx_pure]
      exact wpx_mono (h.w.ready s.service w) fun a _ ha => ha
    call := fun s q w => by
      simp only [Retry, wpx_bind, wpx_lift, wpx_pure]
      rcases hr : P.cloneRequest s.policy q w with ⟨⟨o, p'⟩, w2⟩
      exact wpx_mono (h.w.call s.service q w2) fun b w3 hb => ⟨q, .first hr, hb⟩
    poll := fun q x w hx => retryPoll_gives h q fuel x w hx }

theorem reconPoll_gives {Tgt E1 : Type} {M : Service W Tgt S.σ E1} {t : Tgt} : ∀ (n : Nat) (x : ReconState M.σ M.φ S.σ E1) (w : W),
    (reconPoll S M t n x).gives (fun a _ => ∀ e, a.1 = .ready (.error e) → ∃ e', e = .make e') w
  | 0, x, w => trivial
  | n + 1, x, w => by
    obtain ⟨m, st, er⟩ := x
    cases st with
    | idle =>
      simp only [reconPoll, wpx_bind]
      refine gives_iff.2 fun a w1 _ => ?_
      obtain ⟨p, m'⟩ := a
      match p with
      | .pending => exact fun e he => by cases he
      | .ready (.error e0) => exact fun e he => by cases he; exact ⟨e0, rfl⟩
      | .ready (.ok ()) =>
        simp only [wpx_bind]
        exact gives_iff.2 fun a w2 _ => reconPoll_gives n _ w2
    | connecting f =>
      simp only [reconPoll, wpx_bind]
      refine gives_iff.2 fun a w1 _ => ?_
      obtain ⟨p, m'⟩ := a
      match p with
      | .pending => exact fun e he => by cases he
      | .ready (.error e0) => exact fun e he => by cases he
      | .ready (.ok s) => exact reconPoll_gives n _ w1
    | connected s =>
      simp only [reconPoll, wpx_bind]
      refine gives_iff.2 fun a w1 _ => ?_
      obtain ⟨p, m'⟩ := a
      match p with
      | .pending => exact fun e he => by cases he
      | .ready (.ok ()) => exact fun e he => by cases he
      | .ready (.error _) => exact reconPoll_gives n _ w1

theorem Reconnect.answers {Tgt E1 : Type} {fuel : Nat} {M : Service W Tgt S.σ E1} {t : Tgt} (h : Replies S A Z) :
    Replies (Reconnect fuel S M t) (wrapAns .conn (fun e => ∃ e', e = .make e') A) (fun e => ∃ e', e = .make e') :=
  AnsW.answers (F := fun q x => ∀ f, x = .inl f → FutureOf S q f) {
    ready := fun s w => reconPoll_gives fuel s w
    call := fun s q w => by
      obtain ⟨m, st, er⟩ := s
      cases er with
      | some e => exact fun f hf => by cases hf
      | none =>
        cases st with
        | connected s =>
          simp only [Reconnect, wpx_bind, wpx_pure]
          exact wpx_mono (h.w.call s q w) fun b _ hb f hf => by cases hf; exact hb
        | idle => exact trivial
        | connecting f => exact trivial
    poll := fun q x w hx => by
      match x, hx with
      | .inl f, hx =>
        simp only [Reconnect, wpx_bind, wpx_pure]
        refine wpx_mono (poll_wrap h (ReconErr.conn (E1 := E1)) (fun e => ∃ e', e = .make e') q f w (hx f rfl)) fun a _ ha => ?_
        obtain ⟨p, f'⟩ := a
        cases p with
        | pending => exact ⟨fun _ g hg => by cases hg; exact ha.1 rfl, fun r hr => by cases hr⟩
        | ready r0 => exact ⟨fun he => (by cases he), fun r hr => ha.2 r hr⟩
      | .inr (some e), hx => exact ⟨fun he => (by cases he), fun r hr => by cases hr; exact Or.inr ⟨_, ⟨e, rfl⟩, rfl⟩⟩
      | .inr none, hx => exact trivial }

theorem SpawnReady.answers {fuel : Nat} {R : Runtime W} (h : Replies S A Z) : Replies (SpawnReady fuel R S) (wrapAns .inner noErr A) (fun _ => True) :=
  AnsW.answers (F := fun q x => ∀ f, x = some f → FutureOf S q f) {
    ready := fun s w => gives_iff.2 fun _ _ _ _ _ => trivial
    call := fun s q w => by
      match s with
      | .service (some s) =>
        simp only [SpawnReady, wpx_bind, wpx_pure]
        exact wpx_mono (h.w.call s q w) fun b _ hb f hf => by cases hf; exact hb
      | .service none => exact trivial
      | .future _ => exact trivial
    poll := fun q x w hx => mapFut_gives h (P := wrapAns (Err' := SpawnErr Err) .inner noErr A q) (fun r w ha => by simp only [wpx_pure]; exact Or.inl ⟨r, ha, rfl⟩) x hx w }

theorem IntoService.answers (h : Replies S A Z) : Replies (IntoService S) A Z :=
  AnsW.answers (F := FutureOf S) { ready := h.w.ready, call := h.w.call, poll := h.w.poll }

end

/-! ## Balance -/

section
variable {K DErr BErr : Type} [DecidableEq K] {B : BalCfg W Req Res Err K DErr BErr}

theorem select_gives : ∀ (n : Nat) (b : Balance B) (w : W), (Balance.select n b).gives (fun a _ => ∀ e, a.1 ≠ .ready (.error e)) w
  | 0, b, w => trivial
  | n + 1, b, w => by
    simp only [Balance.select, wpx_bind]
    refine gives_iff.2 fun a w1 _ => ?_
    split
    · exact fun e he => by cases he
    · simp only [wpx_bind]
      refine gives_iff.2 fun a w1 _ => ?_
      split
      · exact select_gives n _ w1
      · exact fun e he => by cases he

theorem balance.answers {fuel : Nat} {A : Req → Except Err Res → Prop} {Z : Err → Prop} (h : Replies B.S A Z) :
    Replies (balance B fuel) (wrapAns B.fromErr noErr A) (fun e => ∃ d, e = B.fromDisc d) :=
  AnsW.answers (F := fun q x => ∀ f, x = some f → FutureOf B.S q f) {
    ready := fun b w => by
      show wpx _ _ (Balance.pollReady fuel b) _ w
      simp only [Balance.pollReady, wpx_bind]
      refine gives_iff.2 fun a w1 _ => ?_
      obtain ⟨r, b'⟩ := a
      cases r with
      | error d => exact fun e he => by cases he; exact ⟨d, rfl⟩
      | ok u =>
        simp only [Balance.rest, wpx_bind]
        exact gives_iff.2 fun b2 w2 _ => wpx_mono (select_gives _ b2 w2) fun a _ ha e he => absurd he (ha e)
    call := fun b q w => by
      simp only [wpx_bind, wpx_pure]
      unfold Balance.call
      split
      · exact trivial
      · unfold Cache.callReadyIndex
        simp only [wpx_bind]
        split
        · exact trivial
        · simp only [wpx_bind, wpx_pure]
          exact wpx_mono (h.w.call _ q w) fun b _ hb f hf => by cases hf; exact hb
    poll := fun q x w hx => mapFut_gives h (P := wrapAns B.fromErr noErr A q) (fun r w ha => by simp only [wpx_pure]; exact Or.inl ⟨r, ha, rfl⟩) x hx w }

theorem makeBalance.answers {Tgt MErr : Type} {seed : Act W B.G.ρ} {M : Service W Tgt B.D.δ MErr} {A : Tgt → Except MErr B.D.δ → Prop} {Z : MErr → Prop} (h : Replies M A Z) :
    Replies (makeBalance B seed M) (makeBalanceAns B A) Z :=
  AnsW.answers (F := FutureOf M) {
    ready := h.w.ready
    call := h.w.call
    poll := fun t f w hf => by
      show wpx _ _ (M.poll f >>= _) _ w
      simp only [wpx_bind]
      refine wpx_mono (h.w.poll t f w hf) fun a w1 ha => ?_
      obtain ⟨p, f'⟩ := a
      match p, ha with
      | .pending, ha => exact ⟨fun _ => ha.1 rfl, fun r hr => by cases hr⟩
      | .ready (.error e), ha => exact ⟨fun he => (by cases he), fun r hr => by cases hr; exact ha.2 _ rfl⟩
      | .ready (.ok d), ha =>
        simp only [wpx_bind]
        exact gives_iff.2 fun g w2 _ => ⟨fun he => (by cases he), fun r hr => by cases hr; exact ⟨d, g, ha.2 _ rfl, rfl⟩⟩ }

end
end Tower
