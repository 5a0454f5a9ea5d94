import Verif.Proof.Prompt
import Verif.Props.C30_Balance

/-! # Balancers return -/

set_option linter.unusedSimpArgs false

namespace Tower
open Act
variable {W Req Res Err : Type} {K : Type} [DecidableEq K]

/-- the code returns (or panics) from this world, and `Q` holds of what it returns -/
abbrev Act.ends {α : Type} (x : Act W α) (Q : α → W → Prop) (w : W) : Prop := wpx (fun _ => True) False x Q w

theorem Act.Returns.ends {α : Type} {x : Act W α} (h : x.Returns) (w : W) : x.ends (fun _ _ => True) w := by
  unfold Act.ends Act.wpx
  cases h1 : x.run w with
  | ok a w' => trivial
  | panic m => trivial
  | spin => exact h.spin w h1

theorem Act.ends.spin {α : Type} {x : Act W α} {Q : α → W → Prop} {w : W} (h : x.ends Q w) : x.run w ≠ .spin := fun hs => wpx_spins h hs

theorem PEnt.poll_returns {S : Service W Req Res Err} (h : Prompt S) (cn : List Nat) (e : PEnt K S.σ) : (e.poll S cn).Returns := by
  unfold PEnt.poll; returns_auto [h.ready _]

/-- how many pending services are left -/
def leftOver {K σ E : Type} (n : Nat) : Poll (Option (PRes K σ E)) → Nat → Prop
  | .ready (some _), m => m + 1 = n
  | _, m => m = n

theorem pollNext_ends {S : Service W Req Res Err} (h : Prompt S) (cn : List Nat) : ∀ (o : List Nat) (p : List (PEnt K S.σ)) (w : W),
    (pollNext S cn o p).ends (fun a _ => leftOver p.length a.1 a.2.length) w
  | _, [], w => by unfold pollNext; exact rfl
  | [], e :: p, w => by unfold pollNext; exact rfl
  | i :: is, e :: p, w => by
    unfold pollNext
    split
    · exact pollNext_ends h cn is _ w
    · rename_i e1 he
      simp only [wpx_bind]
      refine wpx_mono ((PEnt.poll_returns h cn e1).ends w) fun a w' _ => ?_
      obtain ⟨r, e'⟩ := a
      cases r with
      | pending =>
        have := pollNext_ends h cn is ((e :: p).set i e') w'
        simp only [List.length_set] at this
        exact this
      | ready v =>
        simp only [wpx_pure, leftOver]
        have := List.length_eraseIdx_add_one (List.getElem?_eq_some_iff.1 he).1
        exact this

theorem pollPendingLoop_ends {S : Service W Req Res Err} (h : Prompt S) (V : Sched W) : ∀ (n : Nat) (c : Cache K S) (w : W), c.pending.length < n →
    (c.pollPendingLoop V n).ends (fun a _ => a.2.pending.length ≤ c.pending.length ∧ ∀ e, a.1 = .ready (.error e) → a.2.pending.length < c.pending.length) w
  | 0, c, w, hn => by omega
  | n + 1, c, w, hn => by
    unfold Cache.pollPendingLoop
    simp only [wpx_bind, wpx_lift]
    refine wpx_mono (pollNext_ends h c.cancelled _ c.pending _) fun a w' ha => ?_
    obtain ⟨r, p⟩ := a
    match r, ha with
    | .pending, ha => exact ⟨le_of_eq ha, fun e he => by cases he⟩
    | .ready none, ha => exact ⟨le_of_eq ha, fun e he => by cases he⟩
    | .ready (some (.ok k s rx)), ha =>
      have ha : p.length + 1 = c.pending.length := ha
      dsimp only
      split
      · refine wpx_mono (pollPendingLoop_ends h V n _ _ (by show p.length < n; omega)) fun a w2 h2 => ?_
        exact ⟨by have := h2.1; dsimp only at this; omega, fun e he => by have := h2.2 e he; dsimp only at this; omega⟩
      · trivial
    | .ready (some (.canceled k)), ha =>
      have ha : p.length + 1 = c.pending.length := ha
      refine wpx_mono (pollPendingLoop_ends h V n _ _ (by show p.length < n; omega)) fun a w2 h2 => ?_
      exact ⟨by have := h2.1; dsimp only at this; omega, fun e he => by have := h2.2 e he; dsimp only at this; omega⟩
    | .ready (some (.inner k e)), ha =>
      have ha : p.length + 1 = c.pending.length := ha
      dsimp only
      split
      · exact ⟨by show p.length ≤ _; omega, fun _ _ => by show p.length < _; omega⟩
      · trivial

variable {DErr BErr : Type} {B : BalCfg W Req Res Err K DErr BErr}

theorem promote_returns (h : Prompt B.S) : ∀ (n : Nat) (b : Balance B), b.svcs.pending.length < n → (b.promote n).Returns
  | 0, b, hn => by omega
  | n + 1, b, hn => by
    refine ⟨fun w => Act.ends.spin (Q := fun _ _ => True) ?_⟩
    unfold Balance.promote
    simp only [wpx_bind]
    refine wpx_mono (pollPendingLoop_ends h B.V _ b.svcs w (Nat.lt_succ_self _)) fun a w' ha => ?_
    obtain ⟨p, c⟩ := a
    match p, ha with
    | .pending, ha => dsimp only; split <;> trivial
    | .ready (.ok ()), ha => dsimp only; split <;> trivial
    | .ready (.error e), ha =>
      exact (promote_returns h n _ (by have := ha.2 e rfl; dsimp only at this ⊢; omega)).ends w'

theorem checkReadyIndex_ends {S : Service W Req Res Err} (h : Prompt S) (c : Cache K S) (i : Nat) (w : W) :
    (c.checkReadyIndex i).ends (fun a _ => a.1 ≠ .ok true → a.2.ready.length + (if i < c.ready.length then 1 else 0) = c.ready.length) w := by
  unfold Cache.checkReadyIndex
  split
  · rename_i he
    have : ¬ i < c.ready.length := by simpa using he
    simp [this]
  · rename_i e he
    have hi : i < c.ready.length := (List.getElem?_eq_some_iff.1 he).1
    simp only [wpx_bind]
    refine wpx_mono ((h.ready _).ends w) fun a w' _ => ?_
    obtain ⟨p, s'⟩ := a
    match p with
    | .ready (.ok ()) => exact fun h => absurd rfl h
    | .pending =>
      dsimp only
      split
      · trivial
      · rename_i k s pair r'' hr
        have hl := IMap.swapRemoveIndex_length hr
        rw [List.length_set] at hl
        intro _
        simp only [if_pos hi]
        rw [← hl]
        congr 1
        unfold Cache.putBack Cache.pushPending
        split
        · rfl
        · dsimp only
          split <;> rfl
    | .ready (.error er) =>
      dsimp only
      split
      · trivial
      · rename_i k s r'' hr
        have hl := IMap.swapRemoveIndex_length hr
        rw [List.length_set] at hl
        intro _
        simp only [if_pos hi]
        exact hl

theorem p2c_ends (hl : ∀ s, (B.L.load s).Returns) (b : Balance B) (w : W) : b.p2c.ends (fun a w' => Balance.P2cPost b w a.1 a.2 w') w :=
  wpx_weaken (Balance.p2c_wpx (Pr := fun _ => True) b w fun _ _ => trivial) (fun _ _ => trivial) (fun ⟨s, w1, h⟩ => (hl s).spin w1 h) (fun _ _ h => h)

theorem select_returns (h : Prompt B.S) (hl : ∀ s, (B.L.load s).Returns) : ∀ (n : Nat) (b : Balance B) (w : W),
    b.svcs.ready.length + (if ∃ i, b.idx = some i ∧ i < b.svcs.ready.length then 1 else 2) ≤ n → (b.select n).ends (fun _ _ => True) w
  | 0, b, w, hn => by split at hn <;> omega
  | n + 1, b, w, hn => by
    unfold Balance.select
    simp only [wpx_bind]
    have hrec : b.recheck.ends (fun a _ => a.1 = true ∨ a.2.svcs.ready.length + 1 ≤ n) w := by
      unfold Balance.recheck
      split
      · rename_i hi
        right
        simp only [hi] at hn
        simp at hn
        dsimp only
        omega
      · rename_i i hi
        simp only [wpx_bind]
        refine wpx_mono (checkReadyIndex_ends h b.svcs i w) fun a w' ha => ?_
        obtain ⟨r, c⟩ := a
        have hb : r ≠ .ok true → c.ready.length + 1 ≤ n := by
          intro hr
          have := ha hr
          dsimp only at this
          by_cases hlt : i < b.svcs.ready.length
          · rw [if_pos hlt] at this
            rw [if_pos ⟨i, hi, hlt⟩] at hn
            omega
          · rw [if_neg hlt] at this
            rw [if_neg (by rintro ⟨j, h1, h2⟩; rw [hi] at h1; cases h1; exact hlt h2)] at hn
            omega
        match r, hb with
        | .ok true, _ => exact Or.inl rfl
        | .ok false, hb => exact Or.inr (hb (by simp))
        | .error e, hb => exact Or.inr (hb (by simp))
    refine wpx_mono hrec fun a w' ha => ?_
    obtain ⟨r, b1⟩ := a
    dsimp only
    split
    · trivial
    · rename_i hr
      have ha : b1.svcs.ready.length + 1 ≤ n := ha.resolve_left hr
      simp only [wpx_bind, Balance.choose]
      refine wpx_mono (p2c_ends hl b1 w') fun a w2 hp => ?_
      obtain ⟨o, b2⟩ := a
      obtain ⟨_, q2, _, q4⟩ := hp
      cases o with
      | none => dsimp only; split <;> trivial
      | some i =>
        simp only [wpx_pure, if_true]
        refine select_returns h hl n _ w2 ?_
        rw [if_pos ⟨i, rfl, by dsimp only; rw [q2]; exact q4.1⟩]
        dsimp only
        rw [q2]
        exact ha

theorem Balance.prompt {fuel : Nat} (h : Prompt B.S) (hl : ∀ s, (B.L.load s).Returns) (hD : ∀ d, (B.D.poll d).Returns)
    (hf : ∀ d w, ∃ chs, Discovered B.D d w chs ∧ chs.length < fuel) : Prompt (balance B fuel) where
  ready b := by
    refine Act.Returns.bind ⟨fun w => ?_⟩ fun a => ?_
    · obtain ⟨chs, h1, h2⟩ := hf b.disc w
      exact C34_update_returns h1 h2 fun d w => (hD d).spin w
    · obtain ⟨r, b'⟩ := a
      cases r with
      | error e => exact .pure _
      | ok u =>
        refine Act.Returns.bind (promote_returns h _ _ (Nat.lt_succ_self _)) fun b2 => ⟨fun w => ?_⟩
        refine Act.ends.spin (select_returns h hl _ b2 w ?_)
        split <;> omega
  call b r := by
    refine Act.Returns.bind ?_ (by returns_auto [])
    unfold Balance.call Cache.callReadyIndex
    returns_auto [h.call _ _]
  poll := mapFut_returns h.poll (by returns_auto [])

theorem makeBalance.prompt {Tgt MErr : Type} {seed : Act W B.G.ρ} (hs : seed.Returns) {M : Service W Tgt B.D.δ MErr} (h : Prompt M) : Prompt (makeBalance B seed M) :=
  ⟨h.ready, h.call, fun f => .bind (h.poll f) (by returns_auto [hs])⟩

end Tower
