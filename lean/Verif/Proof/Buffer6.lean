import Verif.Proof.Buffer5

/-! # Buffer: finished futures, ready handles, the worker alone -/

set_option linter.unusedSimpArgs false

namespace Tower
variable {W Req Res Err : Type} {S : Service W Req Res Err}

/-- a future was polled to its end or dropped -/
def Settled (x : Buf S) (i : Nat) : Prop := x.futs i = .finished ∨ x.futs i = .dropped

theorem Settled.step {x y : Buf S} {ev i} (h : Settled x i) (hn : ∀ j, x.calls ≤ j → x.futs j = .none) (hs : BStep x ev y) : Settled y i := by
  have key : ∀ (j : Nat) (v : BFut S.φ Err), (x.futs j ≠ .finished ∧ x.futs j ≠ .dropped) ∨ v = .finished ∨ v = .dropped →
      (Function.update x.futs j v i = .finished ∨ Function.update x.futs j v i = .dropped) := by
    intro j v hv
    by_cases hj : i = j
    · subst hj
      rw [Function.update_self]
      rcases hv with ⟨h1, h2⟩ | hv | hv
      · rcases h with h | h
        · exact absurd h h1
        · exact absurd h h2
      · exact .inl hv
      · exact .inr hv
    · rw [Function.update_of_ne hj]; exact h
  have h0 := hn x.calls (Nat.le_refl _)
  cases hs with
  | worker hs => cases hs <;> exact h
  | death hs => cases hs <;> exact h
  | handle hs =>
    cases hs
    case call => exact key _ _ (.inl ⟨by rw [h0]; simp, by rw [h0]; simp⟩)
    case call_closed => exact key _ _ (.inl ⟨by rw [h0]; simp, by rw [h0]; simp⟩)
    all_goals exact h
  | future hs =>
    cases hs
    case waiting => exact h
    case drop => exact key _ _ (.inr (.inr rfl))
    case arrived i f h1 h2 => exact key _ _ (.inl ⟨by rw [h1]; simp, by rw [h1]; simp⟩)
    case inner_pending i f f' w w' h1 h2 => exact key _ _ (.inl ⟨by rw [h1]; simp, by rw [h1]; simp⟩)
    all_goals exact key _ _ (.inr (.inl rfl))

/-- a settled future is not polled -/
theorem Settled.no_poll {x y : Buf S} {i p} (h : Settled x i) : ¬ BStep x (.poll i p) y := by
  have key : ∀ v, x.futs i = v → v ≠ .finished → v ≠ .dropped → False := by
    rintro v rfl h1 h2; rcases h with h | h
    · exact h1 h
    · exact h2 h
  intro hs
  cases hs with
  | worker hs => cases hs
  | death hs => cases hs
  | handle hs => cases hs
  | future hs => cases hs <;> exact key _ ‹_› (by simp) (by simp)

theorem Settled.run {x y : Buf S} {tr tr' i} (hI : BufInv tr x) (h : Settled x i) (hr : BRun x tr' y) : Settled y i ∧ ∀ p, .poll i p ∉ tr' := by
  induction hr with
  | nil => exact ⟨h, by simp⟩
  | snoc hr hs ih =>
    obtain ⟨h1, h2⟩ := ih
    refine ⟨h1.step (hI.run hr).msg.fnone hs, fun p hp => ?_⟩
    rcases mem_snoc.1 hp with hp | hp
    · exact h2 p hp
    · subst hp; exact h1.no_poll hs

/-- finished futures are those which returned `Ready` -/
structure FinInv (tr : List (BEv S)) (x : Buf S) : Prop where
  fin : ∀ i, x.futs i = .finished → ∃ p, .poll i (.ready p) ∈ tr
  pol : ∀ i p, .poll i (.ready p) ∈ tr → Settled x i

theorem FinInv.step {x y : Buf S} {tr ev} (h : FinInv tr x) (hI : BufInv tr x) (hs : BStep x ev y) : FinInv (tr ++ [ev]) y := by
  have keep : (y.futs = x.futs) → FinInv (tr ++ [ev]) y ∨ ∃ i p, ev = .poll i (.ready p) := by
    intro hf
    by_cases hp : ∃ i p, ev = .poll i (.ready p)
    · exact .inr hp
    · refine .inl ⟨?_, ?_⟩
      · intro i hi; rw [hf] at hi; obtain ⟨p, h1⟩ := h.fin i hi; exact ⟨p, by simp [h1]⟩
      · intro i p hm
        rcases mem_snoc.1 hm with hm | hm
        · have := h.pol i p hm; unfold Settled at *; rw [hf]; exact this
        · exact absurd ⟨i, p, hm.symm⟩ hp
  constructor
  · intro i hi
    by_cases h0 : x.futs i = .finished
    · obtain ⟨p, h1⟩ := h.fin i h0; exact ⟨p, by simp [h1]⟩
    · have key : ∀ (j : Nat) (v : BFut S.φ Err), y.futs = Function.update x.futs j v → v ≠ .finished → False := by
        intro j v he hv
        rw [he] at hi
        by_cases hj : i = j
        · subst hj; rw [Function.update_self] at hi; exact hv hi
        · rw [Function.update_of_ne hj] at hi; exact h0 hi
      have key2 : ∀ (j : Nat) (p : Except (BufErr Err) Res), y.futs = Function.update x.futs j .finished → ev = .poll j (.ready p) →
          ∃ p, .poll i (.ready p) ∈ tr ++ [ev] := by
        intro j p he hev
        by_cases hj : i = j
        · subst hj; exact ⟨p, by simp [hev]⟩
        · rw [he, Function.update_of_ne hj] at hi; exact absurd hi h0
      cases hs with
      | worker hs => cases hs <;> exact absurd hi h0
      | death hs => cases hs <;> exact absurd hi h0
      | handle hs =>
        cases hs
        case call => exact (key _ _ rfl (by simp)).elim
        case call_closed => exact (key _ _ rfl (by simp)).elim
        all_goals exact absurd hi h0
      | future hs =>
        cases hs
        case waiting => exact absurd hi h0
        case drop => exact (key _ _ rfl (by simp)).elim
        case arrived => exact (key _ _ rfl (by simp)).elim
        case inner_pending => exact (key _ _ rfl (by simp)).elim
        all_goals exact key2 _ _ rfl rfl
  · intro i p hm
    rcases mem_snoc.1 hm with hm | hm
    · exact (h.pol i p hm).step hI.msg.fnone hs
    · subst hm
      cases hs with
      | worker hs => cases hs
      | death hs => cases hs
      | handle hs => cases hs
      | future hs => cases hs <;> exact .inl (by simp)

theorem BHist.fin {bound : Nat} {svc : S.σ} {tr : List (BEv S)} {x : Buf S} (h : BHist S bound svc tr x) : FinInv tr x := by
  induction h with
  | nil => constructor <;> simp [Buf.init]
  | snoc h hs ih => exact ih.step (BHist.inv h) hs

/-- an accepted request that was not dispatched, cancelled or answered is waited for -/
theorem BHist.waited {bound : Nat} {svc : S.σ} {tr : List (BEv S)} {x : Buf S} (h : BHist S bound svc tr x) {m : Msg Req}
    (hm : m ∈ accepted tr) (hd : m ∉ dispatched tr) (hc : .dropFut m.id ∉ tr) (hp : ∀ p, .poll m.id (.ready p) ∉ tr) : x.futs m.id = .rx := by
  have hI := BHist.inv h
  obtain ⟨h1, h2⟩ := hI.msg.accf m hm
  cases hf : x.futs m.id with
  | none => exact absurd hf h1
  | rx => rfl
  | failed e => exact absurd hf (h2 e)
  | dropped => exact absurd ((BHist.ev h).drop _ |>.1 hf) hc
  | finished => obtain ⟨p, h3⟩ := (BHist.fin h).fin _ hf; exact absurd h3 (hp p)
  | inner f =>
    obtain ⟨m', f0, h3, h4, _⟩ := hI.msg.inn _ f hf
    have : m' ∈ (dispatches tr).map (·.1) := List.mem_map.2 ⟨_, h3, rfl⟩
    have := hI.msg.inj (hI.msg.memD this) hm h4
    subst this
    exact absurd ‹_› hd

/-! ## Handles -/

theorem readyNow_snoc (n : Nat) (tr : List (BEv S)) (ev : BEv S) : readyNow n (tr ++ [ev]) = readyAfter n (readyNow n tr) ev := by
  simp [readyNow]

/-- handles are ready to send exactly if they were last seen ready -/
structure RdyInv (tr : List (BEv S)) (x : Buf S) : Prop where
  iff : ∀ h ∈ x.hs, h.st = .ready ↔ readyNow h.name tr = true
  fresh : ∀ n, x.nextName ≤ n → readyNow n tr = false

theorem RdyInv.of_same {x y : Buf S} {tr ev} (h : RdyInv tr x) (h1 : y.hs = x.hs) (h2 : y.nextName = x.nextName)
    (h3 : ∀ n b, readyAfter n b ev = b) : RdyInv (tr ++ [ev]) y := by
  constructor
  · intro k hk; rw [h1] at hk; rw [readyNow_snoc, h3]; exact h.iff k hk
  · intro n hn; rw [h2] at hn; rw [readyNow_snoc, h3]; exact h.fresh n hn

theorem pollReady_name (x : Buf S) (k : BHandle) : (x.pollReady k).2.1.name = k.name := by
  unfold Buf.pollReady
  split <;> try rfl
  all_goals (unfold Buf.reserve; split; · rfl
             · split <;> rfl)

theorem pollReady_ready (x : Buf S) (k : BHandle) : (x.pollReady k).2.1.st = .ready ↔ (x.pollReady k).1 = .ready (.ok ()) := by
  unfold Buf.pollReady
  split
  · rename_i h; simp [h]
  · rename_i h; simp [h]
  all_goals (unfold Buf.reserve; split; · simp
             · split <;> simp)

/-- an event of one handle changes what is known of it only -/
theorem RdyInv.upd {x y : Buf S} {tr ev} (h : RdyInv tr x) (hI : SemInv x) {k k' : BHandle} {l r : List BHandle} (hl : x.hs = l ++ k :: r)
    (hy : y.hs = l ++ k' :: r) (hn : k'.name = k.name) (hx : y.nextName = x.nextName)
    (h1 : ∀ n b, n ≠ k.name → readyAfter n b ev = b) (h2 : k'.st = .ready ↔ readyAfter k.name (readyNow k.name tr) ev = true) : RdyInv (tr ++ [ev]) y := by
  have hnd := hI.names
  rw [hl] at hnd
  simp only [List.map_append, List.map_cons] at hnd
  have hk : k ∈ x.hs := by rw [hl]; simp
  constructor
  · intro j hj
    rw [readyNow_snoc]
    rw [hy] at hj
    have hmem : j = k' ∨ (j ∈ x.hs ∧ j.name ≠ k.name) := by
      rcases List.mem_append.1 hj with hj | hj
      · right
        refine ⟨by rw [hl]; simp [hj], fun he => ?_⟩
        exact (List.nodup_append.1 hnd).2.2 j.name (List.mem_map.2 ⟨j, hj, rfl⟩) k.name (by simp) he
      · rcases List.mem_cons.1 hj with hj | hj
        · exact .inl hj
        · right
          refine ⟨by rw [hl]; simp [hj], fun he => ?_⟩
          have := (List.nodup_cons.1 (List.nodup_append.1 hnd).2.1).1
          exact this (he ▸ List.mem_map.2 ⟨j, hj, rfl⟩)
    rcases hmem with rfl | ⟨h3, h4⟩
    · rw [hn]; exact h2
    · rw [h1 _ _ h4]; exact h.iff j h3
  · intro n hn'
    rw [hx] at hn'
    have := hI.fresh k hk
    rw [readyNow_snoc, h1 _ _ (by omega)]; exact h.fresh n hn'

theorem RdyInv.step {x y : Buf S} {tr ev} (h : RdyInv tr x) (hI : SemInv x) (hs : BStep x ev y) : RdyInv (tr ++ [ev]) y := by
  cases hs with
  | worker hs => cases hs <;> exact h.of_same rfl rfl (by simp [readyAfter])
  | death hs => cases hs <;> exact h.of_same rfl rfl (by simp [readyAfter])
  | future hs => cases hs <;> exact h.of_same rfl rfl (by simp [readyAfter])
  | handle hs =>
    cases hs
    case ready k l r hl =>
      refine h.upd hI hl rfl (pollReady_name x k) rfl ?_ ?_
      · intro n b hn
        have := Ne.symm hn
        cases (x.pollReady k).1 with
        | pending => simp [readyAfter, this]
        | ready v => cases v <;> simp [readyAfter, this]
      · rw [pollReady_ready]
        cases (x.pollReady k).1 with
        | pending => simp [readyAfter]
        | ready v => cases v <;> simp [readyAfter]
    case call k l r q hl hc =>
      exact h.upd (k' := { k with st := .idle }) hI hl rfl rfl rfl (fun n b hn => by simp [readyAfter, Ne.symm hn]) (by simp [readyAfter])
    case call_closed k l r q hl hc =>
      refine h.upd (k' := k) hI hl hl rfl rfl (fun n b hn => by simp [readyAfter, Ne.symm hn]) ?_
      unfold Buf.callOutcome at hc
      cases hst : k.st <;> simp [hst, readyAfter] at hc ⊢
    case call_panics k hk hc =>
      obtain ⟨l, r, hl⟩ := List.append_of_mem hk
      refine h.upd (k' := k) hI hl hl rfl rfl (fun n b hn => by simp [readyAfter, Ne.symm hn]) ?_
      unfold Buf.callOutcome at hc
      cases hst : k.st <;> simp [hst, readyAfter] at hc ⊢
    case clone k hk =>
      constructor
      · intro j hj
        rw [readyNow_snoc]
        simp only [List.mem_append, List.mem_singleton] at hj
        rcases hj with hj | rfl
        · exact h.iff j hj
        · simp [readyAfter, h.fresh]
      · intro n hn
        rw [readyNow_snoc]
        exact h.fresh n (by simp only at hn; omega)
    case drop k l r hl =>
      constructor
      · intro j hj
        rw [readyNow_snoc]
        refine h.iff j ?_
        rw [hl]
        simp only [List.mem_append, List.mem_cons] at hj ⊢
        rcases hj with hj | hj
        · exact .inl hj
        · exact .inr (.inr hj)
      · intro n hn
        rw [readyNow_snoc]
        exact h.fresh n hn

theorem BHist.rdy {bound : Nat} {svc : S.σ} {tr : List (BEv S)} {x : Buf S} (h : BHist S bound svc tr x) : RdyInv tr x := by
  induction h with
  | nil => constructor <;> simp [Buf.init, readyNow]
  | snoc h hs ih => exact ih.step (BHist.inv h).sem hs

end Tower
