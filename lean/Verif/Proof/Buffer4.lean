import Verif.Proof.Buffer3

/-! # Buffer: the messages, step by step -/

set_option linter.unusedSimpArgs false

namespace Tower
variable {W Req Res Err : Type} {S : Service W Req Res Err}

theorem MsgInv.unfold {tr : List (BEv S)} {x : Buf S} (h : MsgInv tr x) {ev : BEv S} (ha : accepted [ev] = []) (hd : dispatches [ev] = []) :
    MInv S (accepted (tr ++ [ev])) (dispatches (tr ++ [ev])) x.pend x.pc.replying x.shots x.futs x.calls x.dying x.failed := by
  unfold MsgInv at h
  rw [accepted_append, dispatches_append, ha, hd]
  simpa using h

theorem cancelled_iff {x : Buf S} {i : Nat} (h : x.futs i = .rx ∨ x.futs i = .dropped) : x.cancelled i = true ↔ x.futs i = .dropped := by
  unfold Buf.cancelled
  rcases h with h | h <;> rw [h] <;> simp

theorem MsgInv.worker {x y : Buf S} {tr ev} (h : MsgInv tr x) (hC : CtlInv tr x) (hs : WStep x ev y) : MsgInv (tr ++ [ev]) y := by
  have curnone : x.pc ≠ .parked → x.pc ≠ .next → x.cur = none := by
    intro h1 h2
    cases hc : x.cur with
    | none => rfl
    | some m =>
      rcases hC.cur (by rw [hc]; simp) with h3 | h3
      · exact absurd h3 h1
      · exact absurd h3 h2
  cases hs
  case start h1 => exact h.of_same rfl rfl (by simp [Buf.pend, h1, WPc.pend]) (by simp [h1, WPc.replying]) rfl rfl rfl (by simp [Buf.dying, h1]) (fun _ h => h)
  case resume m h1 h2 =>
    exact h.of_same rfl rfl (by simp [Buf.pend, h1, h2, WPc.pend]) (by simp [h1, WPc.replying]) rfl rfl rfl (by simp [Buf.dying, h1]) (fun _ h => h)
  case fresh h1 h2 =>
    exact h.of_same rfl rfl (by simp [Buf.pend, h1, h2, WPc.pend]) (by simp [h1, WPc.replying]) rfl rfl rfl (by simp [Buf.dying, h1]) (fun _ h => h)
  case wanted m h1 h2 =>
    exact h.of_same rfl rfl (by simp [Buf.pend, h1, h2, WPc.pend]) (by simp [h1, WPc.replying]) rfl rfl rfl (by simp [Buf.dying, h1]) (fun _ h => h)
  case unwanted m h1 h2 =>
    have hc := curnone (by simp [h1]) (by simp [h1])
    have h' := h.unfold (ev := .tau) rfl rfl
    have hP : x.pend = [] ++ m :: x.queue := by simp [Buf.pend, h1, hc, WPc.pend]
    have hm := h'.pW m (by rw [hP]; simp)
    have := h'.leave hP (v := .gone) (.inl ((cancelled_iff hm.2).1 h2))
    unfold MsgInv
    have e1 : (({ x.dropMsg m.id with pc := .recv } : Buf S)).pend = [] ++ x.queue := by simp [Buf.pend, Buf.dropMsg, hc, WPc.pend]
    rw [e1]
    refine MInv.same_dying (dying := x.dying) (failed := x.failed) ?_ (by simp [Buf.dying, h1]) (fun _ h => h)
    have e2 : x.pc.replying = none := by rw [h1]; rfl
    rw [e2] at this
    exact this
  case recv m q h1 h2 =>
    have hc := curnone (by simp [h1]) (by simp [h1])
    exact h.of_same rfl rfl (by simp [Buf.pend, h1, h2, hc, WPc.pend]) (by simp [h1, WPc.replying]) rfl rfl rfl (by simp [Buf.dying, h1]) (fun _ h => h)
  case empty h1 h2 h3 h4 =>
    exact h.of_same rfl rfl (by simp [Buf.pend, h1, WPc.pend]) (by simp [h1, WPc.replying]) rfl rfl rfl (by simp [Buf.dying, h1]) (fun _ h => h)
  case finish h1 h2 h3 =>
    exact h.of_same rfl rfl (by simp [Buf.pend, h1, WPc.pend]) (by simp [h1, WPc.replying]) rfl rfl rfl (by simp [Buf.dying, h1]) (fun _ h => h)
  case notify m e h1 h2 =>
    have hc := curnone (by simp [h1]) (by simp [h1])
    have h' := h.unfold (ev := .tau) rfl rfl
    have hP : x.pend = [] ++ m :: x.queue := by simp [Buf.pend, h1, hc, WPc.pend]
    have hm := h'.pW m (by rw [hP]; simp)
    have := h'.leave hP (v := if x.cancelled m.id = true then .gone else .sent (.error e)) (by
      by_cases hcn : x.cancelled m.id = true
      · exact .inl ((cancelled_iff hm.2).1 hcn)
      · rw [if_neg hcn]; exact .inr (.inl ⟨e, h2, rfl⟩))
    unfold MsgInv
    have e1 : (({ x.send m.id (.error e) with pc := .next } : Buf S)).pend = [] ++ x.queue := by simp [Buf.pend, Buf.send, hc, WPc.pend]
    rw [e1]
    refine MInv.same_dying (dying := x.dying) (failed := x.failed) ?_ (by simp [Buf.dying, h1]) (fun _ h => h)
    have e2 : x.pc.replying = none := by rw [h1]; rfl
    rw [e2] at this
    exact this
  case svc_ready m w w' s' h1 h2 h3 =>
    exact h.of_same rfl rfl (by simp [Buf.pend, h1, h2, WPc.pend]) (by simp [h1, WPc.replying]) rfl rfl rfl (by simp [Buf.dying, h1]) (fun _ h => h)
  case svc_call m w w' f s' h1 h2 =>
    have hc := curnone (by simp [h1]) (by simp [h1])
    have hP : x.pend = m :: x.queue := by simp [Buf.pend, h1, hc, WPc.pend]
    have hR : x.pc.replying = none := by rw [h1]; rfl
    have := MInv.dispatch h hP f hR (by simp [Buf.dying, h1]) (hC.call m h1)
    unfold MsgInv
    rw [accepted_append, dispatches_append]
    have e1 : (({ x with svc := s', pc := .reply m f } : Buf S)).pend = x.queue := by simp [Buf.pend, hc, WPc.pend]
    rw [e1]
    refine MInv.same_dying (dying := x.dying) (failed := x.failed) ?_ (by simp [Buf.dying, h1]) (fun _ h => h)
    simpa [accepted, dispatches, WPc.replying] using this
  case reply m f h1 =>
    have hc := curnone (by simp [h1]) (by simp [h1])
    have h' := h.unfold (ev := .tau) rfl rfl
    have hR : x.pc.replying = some (m, f) := by rw [h1]; rfl
    have hm := h'.rW m f hR
    have := h'.reply hR (v := if x.cancelled m.id = true then .gone else .sent (.ok f)) (by
      by_cases hcn : x.cancelled m.id = true
      · exact .inl ⟨(cancelled_iff hm.2.1).1 hcn, by rw [if_pos hcn]⟩
      · rw [if_neg hcn]; exact .inr rfl)
    unfold MsgInv
    have e1 : (({ x.send m.id (.ok f) with pc := .next } : Buf S)).pend = x.pend := by simp [Buf.pend, Buf.send, h1, hc, WPc.pend]
    rw [e1]
    exact MInv.same_dying (dying := x.dying) (failed := x.failed) this (by simp [Buf.dying, h1]) (fun _ h => h)
  case svc_pending m w w' s' h1 h2 h3 =>
    have hc := curnone (by simp [h1]) (by simp [h1])
    exact h.of_same rfl rfl (by simp [Buf.pend, h1, hc, WPc.pend]) (by simp [h1, WPc.replying]) rfl rfl rfl (by simp [Buf.dying, h1]) (fun _ h => h)
  case svc_failed m e w w' s' h1 h2 h3 =>
    exact h.of_same rfl rfl (by simp [Buf.pend, h1, WPc.pend]) (by simp [h1, WPc.replying]) rfl rfl rfl (by simp [Buf.dying, h1]) (fun _ h => h)
  case expose m e h1 h2 =>
    exact h.of_same rfl rfl (by simp [Buf.pend, h1, WPc.pend]) (by simp [h1, WPc.replying]) rfl rfl rfl (by simp [Buf.dying, h1]) (fun _ h => h)
  case exposed_before m e e' h1 h2 =>
    exact h.of_same rfl rfl (by simp [Buf.pend, h1, WPc.pend]) (by simp [h1, WPc.replying]) rfl rfl rfl (by simp [Buf.dying, h1]) (fun _ h => h)
  case close m e h1 =>
    exact h.of_same rfl rfl (by simp [Buf.pend, h1, WPc.pend, Buf.close]) (by simp [h1, WPc.replying]) rfl rfl rfl (by simp [Buf.dying, h1])
      (fun e' h' => by rw [(hC.fail2 m e h1).1] at h'; cases h')
  case notify_first m e h1 h2 =>
    have hc := curnone (by simp [h1]) (by simp [h1])
    have h' := h.unfold (ev := .tau) rfl rfl
    have hP : x.pend = [] ++ m :: x.queue := by simp [Buf.pend, h1, hc, WPc.pend]
    have hm := h'.pW m (by rw [hP]; simp)
    have := h'.leave hP (v := if x.cancelled m.id = true then .gone else .sent (.error e)) (by
      by_cases hcn : x.cancelled m.id = true
      · exact .inl ((cancelled_iff hm.2).1 hcn)
      · rw [if_neg hcn]; exact .inr (.inl ⟨e, h2, rfl⟩))
    unfold MsgInv
    have e1 : (({ x.send m.id (.error e) with pc := .next } : Buf S)).pend = [] ++ x.queue := by simp [Buf.pend, Buf.send, hc, WPc.pend]
    rw [e1]
    refine MInv.same_dying (dying := x.dying) (failed := x.failed) ?_ (by simp [Buf.dying, h1]) (fun _ h => h)
    have e2 : x.pc.replying = none := by rw [h1]; rfl
    rw [e2] at this
    exact this

theorem dropMsgs_nil (shots : Nat → Shot S.φ Err) : (fun i => if i ∈ ([] : List (Msg Req)).map (·.id) then Shot.gone else shots i) = shots := by
  funext i; simp

theorem dropMsgs_cons (shots : Nat → Shot S.φ Err) (m : Msg Req) (q : List (Msg Req)) :
    (fun i => if i ∈ (m :: q).map (·.id) then Shot.gone else shots i) =
    (fun i => if i ∈ q.map (·.id) then Shot.gone else Function.update shots m.id .gone i) := by
  funext i
  by_cases h : i = m.id
  · subst h; simp
  · simp [h, Function.update_of_ne h]

/-- all messages of a part of the pending ones are dropped with the worker -/
theorem MInv.leaveAll {A : List (Msg Req)} {Df : List (Msg Req × S.φ)} {R : Option (Msg Req × S.φ)}
    {futs : Nat → BFut S.φ Err} {calls : Nat} {dying : Prop} {failed : Option Err} (hd : dying) :
    ∀ (q l : List (Msg Req)) (shots : Nat → Shot S.φ Err), MInv S A Df (q ++ l) R shots futs calls dying failed →
      MInv S A Df l R (fun i => if i ∈ q.map (·.id) then .gone else shots i) futs calls dying failed := by
  intro q
  induction q with
  | nil => intro l shots h; rw [dropMsgs_nil]; exact h
  | cons m q ih =>
    intro l shots h
    rw [dropMsgs_cons]
    refine ih l _ ?_
    have := h.leave (l := []) (m := m) (Q := q ++ l) rfl (v := .gone) (.inr (.inr ⟨hd, rfl⟩))
    exact this

theorem MsgInv.death {x y : Buf S} {tr ev} (h : MsgInv tr x) (hC : CtlInv tr x) (hs : DStep x ev y) : MsgInv (tr ++ [ev]) y := by
  have curnone : x.pc ≠ .parked → x.pc ≠ .next → x.cur = none := by
    intro h1 h2
    cases hc : x.cur with
    | none => rfl
    | some m =>
      rcases hC.cur (by rw [hc]; simp) with h3 | h3
      · exact absurd h3 h1
      · exact absurd h3 h2
  have one : ∀ (ev : BEv S) (y : Buf S) (m : Msg Req) (q : List (Msg Req)), accepted [ev] = [] → dispatches [ev] = [] → x.pend = m :: q →
      x.pc.replying = none → y.pend = q → y.pc.replying = none → y.shots = Function.update x.shots m.id .gone → y.futs = x.futs →
      y.calls = x.calls → y.failed = x.failed → y.dying → MsgInv (tr ++ [ev]) y := by
    intro ev y m q ha hd hP hR h1 h2 h3 h4 h5 h6 h7
    have h' := (h.unfold ha hd).same_dying (dying' := y.dying) (failed' := x.failed) (fun _ => h7) (fun _ h => h)
    have := h'.leave (l := []) (Q := q) hP (v := .gone) (.inr (.inr ⟨h7, rfl⟩))
    unfold MsgInv
    rw [h1, h2, h3, h4, h5, h6]
    rw [hR] at this
    exact this
  cases hs
  case ready_panics m w msg h1 h2 h3 =>
    have hc := curnone (by simp [h1]) (by simp [h1])
    exact one _ _ m x.queue rfl rfl (by simp [Buf.pend, h1, hc, WPc.pend]) (by rw [h1]; rfl) (by simp [Buf.pend, Buf.close, Buf.dropMsg, hc, WPc.pend])
      rfl rfl rfl rfl rfl (.inl rfl)
  case call_panics m w msg h1 h2 =>
    have hc := curnone (by simp [h1]) (by simp [h1])
    exact one _ _ m x.queue rfl rfl (by simp [Buf.pend, h1, hc, WPc.pend]) (by rw [h1]; rfl) (by simp [Buf.pend, Buf.close, Buf.dropMsg, hc, WPc.pend])
      rfl rfl rfl rfl rfl (.inl rfl)
  case dropped h1 =>
    have h' := (h.unfold (ev := .workerDropped) rfl rfl).same_dying (dying' := True) (failed' := x.failed) (fun _ => trivial) (fun _ h => h)
    have hP : x.pend = x.cur.toList ++ x.queue := by simp [Buf.pend, h1, WPc.pend]
    rw [hP] at h'
    have := MInv.leaveAll trivial _ _ _ h'
    have hR : x.pc.replying = none := by rw [h1]; rfl
    rw [hR] at this
    unfold MsgInv
    have e1 : (({ x.dropMsgs x.cur.toList with cur := none, pc := .unwinding } : Buf S)).pend = x.queue := by
      simp [Buf.pend, Buf.close, Buf.dropMsgs, WPc.pend]
    rw [e1]
    exact MInv.same_dying (dying := True) (failed := x.failed) this (fun _ => .inl rfl) (fun _ h => h)
  case dropped_done h1 =>
    have hc := curnone (by simp [h1]) (by simp [h1])
    exact h.of_same rfl rfl (by simp [Buf.pend, Buf.close, h1, hc, WPc.pend]) (by simp [h1, WPc.replying]) rfl rfl rfl (fun _ => .inl rfl) (fun _ h => h)
  case closes h1 =>
    have hc := curnone (by simp [h1]) (by simp [h1])
    exact h.of_same rfl rfl (by simp [Buf.pend, Buf.close, h1, hc, WPc.pend]) (by simp [h1, WPc.replying]) rfl rfl rfl (fun _ => .inr (.inl rfl)) (fun _ h => h)
  case drain m q h1 h2 =>
    have hc := curnone (by simp [h1]) (by simp [h1])
    exact one _ _ m q rfl rfl (by simp [Buf.pend, h1, h2, hc, WPc.pend]) (by rw [h1]; rfl) (by simp [Buf.pend, Buf.dropMsg, h1, hc, WPc.pend])
      (by simp [h1, Buf.dropMsg, WPc.replying]) rfl rfl rfl rfl (.inr (.inl h1))
  case drained h1 h2 =>
    exact h.of_same rfl rfl (by simp [Buf.pend, h1, WPc.pend]) (by simp [h1, WPc.replying]) rfl rfl rfl (fun _ => .inr (.inr rfl)) (fun _ h => h)
  case free h1 h2 =>
    have hc := curnone (by simp [h1]) (by simp [h1])
    have h' := (h.unfold (ev := .tau) rfl rfl)
    have hP : x.pend = x.queue ++ [] := by simp [Buf.pend, h1, hc, WPc.pend]
    rw [hP] at h'
    have := MInv.leaveAll (.inr (.inr h1)) _ _ _ h'
    unfold MsgInv
    have e1 : (({ x.dropMsgs x.queue with queue := [], sem := Sem.new x.bound } : Buf S)).pend = [] := by
      simp [Buf.pend, Buf.dropMsgs, h1, hc, WPc.pend]
    rw [e1]
    exact this

theorem MsgInv.handle {x y : Buf S} {tr ev} (h : MsgInv tr x) (hs : HStep x ev y) : MsgInv (tr ++ [ev]) y := by
  cases hs
  case call k l r q hl hc =>
    have := MInv.accept h q
    unfold MsgInv
    rw [accepted_append, dispatches_append]
    have e1 : x.pend ++ [⟨x.calls, q⟩] = x.pc.pend ++ x.cur.toList ++ (x.queue ++ [⟨x.calls, q⟩]) := by simp [Buf.pend]
    rw [e1] at this
    simpa [accepted, dispatches, Buf.pend, Buf.dying] using this
  case call_closed k l r q hl hc =>
    unfold MsgInv at *
    rw [accepted_append, dispatches_append]
    have e1 : accepted [(.refuse k.name x.calls q : BEv S)] = [] := rfl
    have e2 : dispatches [(.refuse k.name x.calls q : BEv S)] = [] := rfl
    rw [e1, e2, List.append_nil, List.append_nil]
    have hPA := fun m' hm' => h.memP (m := m') hm'
    have hDA := fun m' hm' => h.memD (m := m') hm'
    obtain ⟨a, b, c, d, e, f, g, i, j, k', p, q'⟩ := h
    have ne : ∀ m ∈ accepted tr, m.id ≠ x.calls := fun m hm => Nat.ne_of_lt (c m hm)
    refine ⟨a, b, fun m hm => Nat.lt_succ_of_lt (c m hm), ?_, ?_, ?_, ?_, ?_, ?_, ?_, ?_, ?_⟩
    · intro m hm; simp only [Function.update_of_ne (ne m (hPA m hm))]; exact d m hm
    · intro m f' hR
      have hn := ne m (hDA m (List.mem_map.2 ⟨_, (e m f' hR).2.2, rfl⟩))
      simp only [Function.update_of_ne hn]; exact e m f' hR
    · intro m f' hD
      have hn := ne m (hDA m (List.mem_map.2 ⟨_, hD, rfl⟩))
      simp only [Function.update_of_ne hn]; exact f m f' hD
    · intro m h1 h2 h3; simp only [Function.update_of_ne (ne m h1)]; exact g m h1 h2 h3
    · intro m h1 h2 h3; simp only [Function.update_of_ne (ne m h1)]; exact i m h1 h2 h3
    · intro i' hi'; simp only at hi' ⊢; rw [Function.update_of_ne (by omega)]; exact j i' (by omega)
    · intro i' f' hf; simp only at hf
      by_cases hi : i' = x.calls
      · subst hi; rw [Function.update_self] at hf; cases hf
      · rw [Function.update_of_ne hi] at hf; exact k' i' f' hf
    · intro i' hf; simp only at hf
      by_cases hi : i' = x.calls
      · subst hi; rw [Function.update_self] at hf; cases hf
      · rw [Function.update_of_ne hi] at hf; exact p i' hf
    · intro m hm; simp only [Function.update_of_ne (ne m hm)]; exact q' m hm
  all_goals exact h.of_same rfl rfl rfl rfl rfl rfl rfl id (fun _ h => h)

theorem MsgInv.future {x y : Buf S} {tr ev} (h : MsgInv tr x) (hs : FStep x ev y) : MsgInv (tr ++ [ev]) y := by
  have dispf : ∀ i f, x.futs i = .rx → x.shots i = .sent (.ok f) → ∃ m f0, (m, f0) ∈ dispatches tr ∧ m.id = i ∧ Desc S f0 f := by
    intro i f h1 h2
    obtain ⟨m, hm, he⟩ := h.rxA i h1
    by_cases hD : m ∈ (dispatches tr).map (·.1)
    · obtain ⟨⟨m', f'⟩, h3, h4⟩ := List.mem_map.1 hD
      simp only at h4; subst h4
      rcases h.dS m' f' h3 with h5 | h5 | ⟨h5, _⟩
      · have := (h.rW m' f' h5).1; rw [he, h2] at this; cases this
      · rw [he, h2] at h5; cases h5; exact ⟨m', f, h3, he, .refl⟩
      · rw [he, h2] at h5; cases h5
    · by_cases hP : m ∈ x.pend
      · have := (h.pW m hP).1; rw [he, h2] at this; cases this
      · rcases h.fate m hm hD hP with h5 | ⟨e, _, h5⟩ | ⟨_, h5⟩
        · rw [he, h1] at h5; cases h5
        · rw [he, h2] at h5; cases h5
        · rw [he, h2] at h5; cases h5
  have notwait : ∀ i f, x.futs i = .inner f → x.shots i ≠ .waiting := by
    intro i f h1 h2
    obtain ⟨m, f0, h3, h4, _⟩ := h.inn i f h1
    rcases h.dS m f0 h3 with h5 | h5 | ⟨h5, _⟩
    · have := (h.rW m f0 h5).2.1; rw [h4, h1] at this; rcases this with h6 | h6 <;> cases h6
    · rw [h4, h2] at h5; cases h5
    · rw [h4, h2] at h5; cases h5
  have failw : ∀ i e, x.futs i = .failed e → MInv S (accepted tr) (dispatches tr) x.pend x.pc.replying x.shots
      (Function.update x.futs i .finished) x.calls x.dying x.failed := by
    intro i e h1
    obtain ⟨a, b, c, d, e', f, g, i', j, k', p, q'⟩ := h
    have hne : ∀ m ∈ accepted tr, m.id ≠ i := fun m hm he => (q' m hm).2 e (he ▸ h1)
    have hPA : ∀ m ∈ x.pend, m ∈ accepted tr := fun m hm => a.subset (by rw [List.mem_append]; exact .inr hm)
    have hDA : ∀ m ∈ (dispatches tr).map (·.1), m ∈ accepted tr := fun m hm => a.subset (by rw [List.mem_append]; exact .inl hm)
    refine ⟨a, b, c, ?_, ?_, ?_, ?_, ?_, ?_, ?_, ?_, ?_⟩
    · intro m hm; rw [Function.update_of_ne (hne m (hPA m hm))]; exact d m hm
    · intro m f' hR
      rw [Function.update_of_ne (hne m (hDA m (List.mem_map.2 ⟨_, (e' m f' hR).2.2, rfl⟩)))]; exact e' m f' hR
    · intro m f' hD
      rw [Function.update_of_ne (hne m (hDA m (List.mem_map.2 ⟨_, hD, rfl⟩)))]; exact f m f' hD
    · intro m h1 h2 h3; rw [Function.update_of_ne (hne m h1)]; exact g m h1 h2 h3
    · intro m h1 h2 h3; rw [Function.update_of_ne (hne m h1)]; exact i' m h1 h2 h3
    · intro n hn
      by_cases hni : n = i
      · subst hni; rw [j n hn] at h1; cases h1
      · rw [Function.update_of_ne hni]; exact j n hn
    · intro n f' hf
      by_cases hni : n = i
      · subst hni; rw [Function.update_self] at hf; cases hf
      · rw [Function.update_of_ne hni] at hf; exact k' n f' hf
    · intro n hf
      by_cases hni : n = i
      · subst hni; rw [Function.update_self] at hf; cases hf
      · rw [Function.update_of_ne hni] at hf; exact p n hf
    · intro m hm; rw [Function.update_of_ne (hne m hm)]; exact q' m hm
  have fin : ∀ (ev : BEv S) (i : Nat) (v : BFut S.φ Err), accepted [ev] = [] → dispatches [ev] = [] →
      MInv S (accepted tr) (dispatches tr) x.pend x.pc.replying x.shots (Function.update x.futs i v) x.calls x.dying x.failed →
      MsgInv (tr ++ [ev]) { x with futs := Function.update x.futs i v } := by
    intro ev i v ha hd hh
    unfold MsgInv
    rw [accepted_append, dispatches_append, ha, hd, List.append_nil, List.append_nil]
    exact hh
  cases hs
  case failed i e h1 => exact fin _ i _ rfl rfl (failw i e h1)
  case waiting i h1 h2 => exact h.of_same rfl rfl rfl rfl rfl rfl rfl id (fun _ h => h)
  case service_failed i e h1 h2 =>
    exact fin _ i _ rfl rfl (MInv.setFut h (by rw [h1]; simp) (.inr (by rw [h1]; simp)) (.inr (by rw [h2]; simp)) (by simp) (by simp) (by simp) (by simp))
  case gone i h1 h2 =>
    exact fin _ i _ rfl rfl (MInv.setFut h (by rw [h1]; simp) (.inr (by rw [h1]; simp)) (.inr (by rw [h2]; simp)) (by simp) (by simp) (by simp) (by simp))
  case arrived i f h1 h2 =>
    refine fin _ i _ rfl rfl (MInv.setFut h (by rw [h1]; simp) (.inr (by rw [h1]; simp)) (.inr (by rw [h2]; simp)) (by simp) (by simp) (by simp) ?_)
    intro f' he; cases he; exact dispf i f h1 h2
  case inner_pending i f f' w w' h1 h2 =>
    refine fin _ i _ rfl rfl (MInv.setFut h (by rw [h1]; simp) (.inr (by rw [h1]; simp)) (.inr (notwait i f h1)) (by simp) (by simp) (by simp) ?_)
    intro f'' he; cases he
    obtain ⟨m, f0, h3, h4, h5⟩ := h.inn i f h1
    exact ⟨m, f0, h3, h4, h5.step h2⟩
  case inner_ok i f f' w w' a h1 h2 =>
    exact fin _ i _ rfl rfl (MInv.setFut h (by rw [h1]; simp) (.inr (by rw [h1]; simp)) (.inr (notwait i f h1)) (by simp) (by simp) (by simp) (by simp))
  case inner_err i f f' w w' e h1 h2 =>
    exact fin _ i _ rfl rfl (MInv.setFut h (by rw [h1]; simp) (.inr (by rw [h1]; simp)) (.inr (notwait i f h1)) (by simp) (by simp) (by simp) (by simp))
  case drop i h1 h2 =>
    exact fin _ i _ rfl rfl (MInv.setFut h h1 (.inl rfl) (.inl rfl) (by simp) (by simp) (by simp) (by simp))

theorem MsgInv.step {x y : Buf S} {tr ev} (h : MsgInv tr x) (hC : CtlInv tr x) (hs : BStep x ev y) : MsgInv (tr ++ [ev]) y := by
  cases hs with
  | worker hs => exact h.worker hC hs
  | death hs => exact h.death hC hs
  | handle hs => exact h.handle hs
  | future hs => exact h.future hs

/-- everything known of a reachable state -/
structure BufInv (tr : List (BEv S)) (x : Buf S) : Prop where
  sem : SemInv x
  ctl : CtlInv tr x
  done : DoneInv x
  msg : MsgInv tr x

theorem BufInv.init (bound : Nat) (svc : S.σ) : BufInv [] (Buf.init S bound svc) :=
  ⟨SemInv.init bound svc, CtlInv.init bound svc, by intro h; simp [Buf.init] at h, MsgInv.init bound svc⟩

theorem BufInv.step {x y : Buf S} {tr ev} (h : BufInv tr x) (hs : BStep x ev y) : BufInv (tr ++ [ev]) y :=
  ⟨h.sem.step hs, h.ctl.step hs, h.done.step h.sem hs, h.msg.step h.ctl hs⟩

theorem BufInv.run {x y : Buf S} {tr tr'} (h : BufInv tr x) (hr : BRun x tr' y) : BufInv (tr ++ tr') y := by
  induction hr with
  | nil => simpa using h
  | snoc _ hs ih => rw [← List.append_assoc]; exact ih.step hs

theorem BHist.inv {bound : Nat} {svc : S.σ} {tr : List (BEv S)} {x : Buf S} (h : BHist S bound svc tr x) : BufInv tr x := by
  simpa using (BufInv.init bound svc).run h

end Tower
