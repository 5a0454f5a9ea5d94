import Verif.Proof.Mock2

/-! # C55: `Mock` -/

namespace Tower
set_option linter.unusedSimpArgs false
set_option linter.unusedSectionVars false
variable {Req U E : Type} {s : MSt Req U E} {log : List (MEv Req U E)}

/-! ## Auxiliary facts -/

theorem mem_answers {log : List (MEv Req U E)} {n : Nat} : n ∈ answers log ↔ (∃ r, .responded n r ∈ log) ∨ .respDropped n ∈ log := by
  unfold answers
  rw [List.mem_flatMap]
  constructor
  · rintro ⟨e, he, hn⟩
    cases e <;> simp [MEv.ans] at hn
    · subst hn; exact Or.inl ⟨_, he⟩
    · subst hn; exact Or.inr he
  · rintro (⟨r, h⟩ | h)
    · exact ⟨_, h, by simp [MEv.ans]⟩
    · exact ⟨_, h, by simp [MEv.ans]⟩

theorem MRun.prefix {s : MSt Req U E} {log : List (MEv Req U E)} (h : MRun s log) : ∀ {l1 l2}, log = l1 ++ l2 → ∃ s1, MRun s1 l1 := by
  have key : ∀ {l : List (MEv Req U E)} {e : MEv Req U E} {l1 l2}, l ++ [e] = l1 ++ l2 → l1 = l ++ [e] ∨ ∃ l3, l = l1 ++ l3 := by
    intro l e l1 l2 hh
    rcases List.eq_nil_or_concat l2 with rfl | ⟨l3, x, rfl⟩
    · left; simpa using hh.symm
    · right
      rw [List.concat_eq_append, ← List.append_assoc] at hh
      exact ⟨l3, (List.append_inj' hh rfl).1⟩
  have fin : ∀ {s s0 : MSt Req U E} {l : List (MEv Req U E)} {e : MEv Req U E}, MRun s (l ++ [e]) → (∀ {l1 l2}, l = l1 ++ l2 → ∃ s1, MRun s1 l1) → ∀ {l1 l2}, l ++ [e] = l1 ++ l2 → ∃ s1, MRun s1 l1 := by
    intro s s0 l e h ih l1 l2 hh
    rcases key hh with rfl | ⟨l3, h3⟩
    · exact ⟨s, h⟩
    · exact ih h3
  have h0 := h
  induction h with
  | pair =>
    intro l1 l2 hh
    have : l1 = [] := by cases l1 <;> simp at hh ⊢
    exact ⟨_, this ▸ h0⟩
  | poll hs _ _ ih => intro l1 l2; exact fin (s0 := s) h0 (ih hs)
  | pollPanics hs _ _ ih => intro l1 l2; exact fin (s0 := s) h0 (ih hs)
  | call hs _ _ ih => intro l1 l2; exact fin (s0 := s) h0 (ih hs)
  | callPanics hs _ _ ih => intro l1 l2; exact fin (s0 := s) h0 (ih hs)
  | clone hs _ _ ih => intro l1 l2; exact fin (s0 := s) h0 (ih hs)
  | drop hs _ _ ih => intro l1 l2; exact fin (s0 := s) h0 (ih hs)
  | recv hs _ _ ih => intro l1 l2; exact fin (s0 := s) h0 (ih hs)
  | allow hs _ _ ih => intro l1 l2; exact fin (s0 := s) h0 (ih hs)
  | sendError hs _ _ ih => intro l1 l2; exact fin (s0 := s) h0 (ih hs)
  | dropHandle hs _ _ ih => intro l1 l2; exact fin (s0 := s) h0 (ih hs)
  | dropHandlePanics hs _ _ ih => intro l1 l2; exact fin (s0 := s) h0 (ih hs)
  | dropRx hs _ _ _ ih => intro l1 l2; exact fin (s0 := s) h0 (ih hs)
  | respond hs _ _ ih => intro l1 l2; exact fin (s0 := s) h0 (ih hs)
  | dropResponse hs _ _ ih => intro l1 l2; exact fin (s0 := s) h0 (ih hs)
  | pollFut hs _ ih => intro l1 l2; exact fin (s0 := s) h0 (ih hs)
  | dropFut hs _ _ ih => intro l1 l2; exact fin (s0 := s) h0 (ih hs)

/-! ## The operations, in any reachable state -/

theorem MockInv.closed_false (h : MockInv s log) : s.w.closed = false ↔ ¬ HandleDropped log := by
  rw [← h.closed, Bool.not_eq_true]

theorem MockInv.pois_false (h : MockInv s log) : s.w.poisoned = false ↔ ¬ Panicked log := by
  rw [← h.pois, Bool.not_eq_true]

/-- **C55.** `poll_ready`, completely: without a panic before it returns, and what it returns depends only on what was seen. -/
theorem C55_poll_ready (h : MRun s log) {m : Mock} (hm : m ∈ s.mocks) (k : Nat) (hp : ¬ Panicked log) :
    ∃ p m' w', (m.pollReady k).run s.w = .ok (p, m') w' ∧ MAllowed log (.poll m.id k p) := by
  have hi := h.minv
  have hpo := hi.pois_false.2 hp
  have hcan := hi.can m hm
  have hrem := hi.rem
  cases hr : (m.pollReady k).run s.w with
  | ok a w' =>
    obtain ⟨p, m'⟩ := a
    refine ⟨p, m', w', rfl, ?_⟩
    obtain ⟨_, hc⟩ := Mock.pollReady_ok hr
    unfold MAllowed callsSince allowed
    rcases hc with ⟨h1, rfl, rfl, rfl⟩ | ⟨h1, e, h2, rfl, rfl, rfl⟩ | ⟨h1, h2, h3, rfl, rfl, rfl⟩ | ⟨h1, h2, h3, h4, rfl, rfl, rfl⟩ | ⟨h1, h2, h3, h4, rfl, rfl, rfl⟩
    · have hd := hi.closed.1 h1
      exact ⟨fun _ => rfl, fun x => absurd hd x, fun x => absurd hd x, fun x => absurd hd x⟩
    · have hd := hi.closed_false.1 h1
      have he : errNow log = some e := by rw [← hi.err]; exact h2
      exact ⟨fun x => absurd x hd, (fun _ e' h' => by rw [he] at h'; cases h'; rfl), (fun _ x => by rw [he] at x; cases x), (fun _ x => by rw [he] at x; cases x)⟩
    · have hd := hi.closed_false.1 h1
      have he : errNow log = none := by rw [← hi.err]; exact h2
      exact ⟨fun x => absurd x hd, (fun _ e' h' => by rw [he] at h'; cases h'), fun _ _ _ => rfl, (fun _ _ x => by rw [← hcan, h3] at x; cases x)⟩
    · have hd := hi.closed_false.1 h1
      have he : errNow log = none := by rw [← hi.err]; exact h2
      exact ⟨fun x => absurd x hd, (fun _ e' h' => by rw [he] at h'; cases h'), fun _ _ _ => rfl, (fun _ _ _ x => by omega)⟩
    · have hd := hi.closed_false.1 h1
      have he : errNow log = none := by rw [← hi.err]; exact h2
      refine ⟨fun x => absurd x hd, (fun _ e' h' => by rw [he] at h'; cases h'), ?_, fun _ _ _ _ => rfl⟩
      rintro _ _ (x | x)
      · rw [← hcan, h3] at x; cases x
      · omega
  | panic t =>
    exfalso
    unfold Mock.pollReady Mock.locked at hr
    rw [Act.run_bind] at hr
    simp only [Act.run_get, hpo, Bool.false_eq_true, if_false] at hr
    rw [Act.run_bind] at hr
    simp only [Act.run_get] at hr
    split at hr
    · cases hr
    · split at hr
      · cases hr
      · split at hr
        · cases hr
        · split at hr
          · rename_i hrem'
            rw [hi.tasks_nil (Or.inl (by omega))] at hr
            cases hr
          · cases hr
  | spin =>
    exfalso
    unfold Mock.pollReady Mock.locked at hr
    rw [Act.run_bind] at hr
    simp only [Act.run_get, hpo, Bool.false_eq_true, if_false] at hr
    rw [Act.run_bind] at hr
    simp only [Act.run_get] at hr
    split at hr
    · cases hr
    · split at hr
      · cases hr
      · split at hr
        · cases hr
        · split at hr
          · split at hr <;> cases hr
          · cases hr

/-- **C55.** `call`: if the `Handle` is dropped the future is a closed one; if the mock is ready the call is accepted (that the channel is closed, as `mod.rs:180-183` provides for, cannot happen); else it panics. -/
theorem C55_call (h : MRun s log) {m : Mock} (hm : m ∈ s.mocks) (q : Req) (hp : ¬ Panicked log) :
    (HandleDropped log → (m.call q).run s.w = .ok (none, m) s.w) ∧
    (¬ HandleDropped log → mockReady log m.id = true → ∃ m' w', (m.call q).run s.w = .ok (some (acceptedReqs log).length, m') w') ∧
    (¬ HandleDropped log → mockReady log m.id = false → (m.call q).run s.w = .panic "service not ready; poll_ready must be called first") := by
  have hi := h.minv
  have hpo := hi.pois_false.2 hp
  have hcan := hi.can m hm
  have hlen : (acceptedReqs log).length = s.w.slots.length := by
    have := congrArg List.length h.chan.nums
    simpa using this
  have hu : (m.call q).run s.w = (if s.w.closed = true then pure (none, m)
      else if m.canSend = false then Act.panic "service not ready; poll_ready must be called first"
      else do
        Act.modify (fun w => { w with rem := if w.rem > 0 then w.rem - 1 else w.rem })
        if s.w.rx = true then do
          Act.modify (fun w => { w with slots := w.slots ++ [⟨none, true, true⟩], queue := w.queue ++ [(w.slots.length, q)] })
          pure (some s.w.slots.length, { m with canSend := false })
        else pure (none, { m with canSend := false }) : Act (MockW Req U E) (Option Nat × Mock)).run s.w := by
    unfold Mock.call Mock.locked
    rw [Act.run_bind]
    simp only [Act.run_get, hpo, Bool.false_eq_true, if_false]
    rw [Act.run_bind]
    simp only [Act.run_get]
  rw [hu]
  refine ⟨fun hd => ?_, fun hd hr => ?_, fun hd hr => ?_⟩
  · rw [if_pos (hi.closed.2 hd)]; rfl
  · have hc := hi.closed_false.2 hd
    rw [if_neg (by rw [hc]; simp), if_neg (by rw [hcan, hr]; simp), if_pos (hi.rx_true hc hpo), hlen]
    exact ⟨_, _, rfl⟩
  · rw [if_neg (by rw [hi.closed_false.2 hd]; simp), if_pos (by rw [hcan, hr])]; rfl

/-- **C55 (limit).** Once a call has been made on a mock that was not ready (which panics, with the mutex locked), all else on any clone, and on the `Handle`, panics. -/
theorem C55_poisoned (h : MRun s log) (hp : Panicked log) (m : Mock) (k : Nat) (q : Req) (n : Nat) (e : E) :
    (∃ t, (m.pollReady k).run s.w = .panic t) ∧ (∃ t, (m.call q).run s.w = .panic t) ∧ (∃ t, m.clone.run s.w = .panic t) ∧ (∃ t, m.drop.run s.w = .panic t) ∧
    (∃ t, (Mock.allow n).run s.w = .panic t) ∧ (∃ t, (Mock.sendError e).run s.w = .panic t) := by
  have hpo := h.minv.pois.2 hp
  have key : ∀ {α : Type} (f : Act (MockW Req U E) α), ∃ t, (Mock.locked f).run s.w = .panic t := by
    intro α f
    refine ⟨"called `Result::unwrap()` on an `Err` value: PoisonError", ?_⟩
    unfold Mock.locked
    rw [Act.run_bind]
    simp only [Act.run_get, hpo, if_true]
    rfl
  exact ⟨key _, key _, key _, key _, key _, key _⟩

/-! ## Everything that can happen -/

theorem MRun.last {s : MSt Req U E} {log : List (MEv Req U E)} (h : MRun s log) : ∀ {l e}, log = l ++ [e] → MAllowed l e := by
  have hlen : ∀ {s : MSt Req U E} {log : List (MEv Req U E)}, MRun s log → (acceptedReqs log).length = s.w.slots.length := by
    intro s log h
    have := congrArg List.length h.chan.nums
    simpa using this
  have hpanic : ∀ {s : MSt Req U E} {log : List (MEv Req U E)} {α : Type} {f : Act (MockW Req U E) α} {t : String}, MRun s log → (∀ w, ∃ a w', f.run w = .ok a w') → (Mock.locked f).run s.w = .panic t → Panicked log := by
    intro s log α f t h hf hr
    by_contra hp
    obtain ⟨a, w', hh⟩ := hf s.w
    rw [Mock.locked_ok.2 ⟨h.minv.pois_false.2 hp, hh⟩] at hr
    cases hr
  have htask : ∀ {s : MSt Req U E} {log : List (MEv Req U E)}, MRun s log → ∀ k, k ∈ s.w.tasks.map Prod.snd ↔ ∃ i, waiting log i = some k := by
    intro s log h k
    rw [List.mem_map]
    constructor
    · rintro ⟨⟨i, k'⟩, hx, rfl⟩; exact ⟨i, (h.minv.tasks i _).1 hx⟩
    · rintro ⟨i, hx⟩; exact ⟨(i, k), (h.minv.tasks i k).2 hx, rfl⟩
  have hresp : ∀ {s : MSt Req U E} {log : List (MEv Req U E)} {n : Nat}, MRun s log → n ∈ s.held → n ∈ (receivedReqs log).map Prod.fst ∧ n ∉ answers log := by
    intro s log n h hn
    have hnd : (s.held ++ answers log).Nodup := h.chan.held.nodup_iff.2 h.chan.got_nodup
    exact ⟨h.chan.held.subset (List.mem_append_left _ hn), fun hx => (List.nodup_append.1 hnd).2.2 n hn n hx rfl⟩
  intro l e hle
  cases h with
  | pair => cases l <;> cases hle
  | @poll s log l0 m l' k p m' w' h hm hr =>
    obtain ⟨rfl, hx⟩ := List.append_inj' hle rfl; cases hx
    have hp := h.minv.pois_false.1 (Mock.pollReady_ok hr).1
    obtain ⟨p', _, _, h1, h2⟩ := C55_poll_ready h (m := m) (by rw [hm]; simp) k hp
    rw [hr] at h1; cases h1; exact h2
  | @pollPanics s log l0 m l' k t h hm hr =>
    obtain ⟨rfl, hx⟩ := List.append_inj' hle rfl; cases hx
    left
    by_contra hp
    obtain ⟨p', _, _, h1, _⟩ := C55_poll_ready h (m := m) (by rw [hm]; simp) k hp
    rw [hr] at h1; cases h1
  | @call s log l0 m l' q f m' w' h hm hr =>
    obtain ⟨rfl, hx⟩ := List.append_inj' hle rfl; cases hx
    have hmem : m ∈ s.mocks := by rw [hm]; simp
    have hp := h.minv.pois_false.1 (Mock.call_ok hr).1
    obtain ⟨h1, h2, h3⟩ := C55_call h hmem q hp
    by_cases hd : HandleDropped log
    · left; rw [h1 hd] at hr; cases hr; exact ⟨hd, rfl⟩
    · right
      cases hrd : mockReady log m.id with
      | false => rw [h3 hd hrd] at hr; cases hr
      | true =>
        obtain ⟨_, _, h4⟩ := h2 hd hrd
        rw [h4] at hr; cases hr; exact ⟨hd, rfl, rfl⟩
  | @callPanics s log l0 m l' q t h hm hr =>
    obtain ⟨rfl, hx⟩ := List.append_inj' hle rfl; cases hx
    have hmem : m ∈ s.mocks := by rw [hm]; simp
    by_cases hp : Panicked log
    · exact Or.inl hp
    right
    obtain ⟨h1, h2, h3⟩ := C55_call h hmem q hp
    have hd : ¬ HandleDropped log := by intro hd; rw [h1 hd] at hr; cases hr
    refine ⟨hd, m.id, by rw [← h.minv.made]; exact h.minv.lt m hmem, ?_⟩
    cases hrd : mockReady log m.id with
    | false => rfl
    | true => obtain ⟨_, _, h4⟩ := h2 hd hrd; rw [h4] at hr; cases hr
  | @clone s log m m' w' h hm hr =>
    obtain ⟨rfl, hx⟩ := List.append_inj' hle rfl; cases hx
    obtain ⟨_, rfl, rfl⟩ := Mock.clone_ok hr
    exact ⟨by rw [← h.minv.made]; exact h.minv.lt m hm, h.minv.made⟩
  | @drop s log l0 m l' w' h hm hr =>
    obtain ⟨rfl, hx⟩ := List.append_inj' hle rfl; cases hx
    change m.id < mocksMade log
    rw [← h.minv.made]; exact h.minv.lt m (by rw [hm]; simp)
  | @recv s log p w' h hh hr =>
    obtain ⟨rfl, hx⟩ := List.append_inj' hle rfl; cases hx
    have hc := h.chan
    have hnr : s.w.queue = [] → receivedReqs log = acceptedReqs log := by
      intro hq
      cases hrx : s.w.rx with
      | true => have := hc.que hrx; rw [hq, List.append_nil] at this; exact this
      | false => have := h.minv.rx hrx; rw [hh] at this; cases this
    rcases Mock.pollRequest_ok hr with ⟨x, l, hq, rfl, rfl⟩ | ⟨hq, _, rfl, rfl⟩ | ⟨hq, _, rfl, rfl⟩
    · refine ⟨?_, fun hx => absurd rfl (hx x)⟩
      intro y hy; cases hy
      cases hrx : s.w.rx with
      | true => rw [← hc.que hrx, hq]; simp
      | false => rw [(hc.que' hrx).1] at hq; cases hq
    · exact ⟨(fun x hx => by cases hx), fun _ => hnr hq⟩
    · exact ⟨(fun x hx => by cases hx), fun _ => hnr hq⟩
  | @allow s log n ks w' h hh hr =>
    obtain ⟨rfl, hx⟩ := List.append_inj' hle rfl; cases hx
    intro k
    obtain ⟨_, ⟨hn, rfl, _⟩ | ⟨rfl, rfl, _⟩⟩ := Mock.allow_ok hr
    · rw [htask h]; simp [hn]
    · simp
  | @sendError s log e ks w' h hh hr =>
    obtain ⟨rfl, hx⟩ := List.append_inj' hle rfl; cases hx
    obtain ⟨_, rfl, _⟩ := Mock.sendError_ok hr
    exact htask h
  | @dropHandle s log ks w' h hh hr =>
    obtain ⟨rfl, hx⟩ := List.append_inj' hle rfl; cases hx
    obtain ⟨_, rfl, _⟩ := Mock.dropHandle_ok hr
    refine ⟨htask h, ?_⟩
    intro hd
    have := h.minv.hdl' (h.minv.closed.2 hd)
    rw [hh] at this; cases this
  | @dropHandlePanics s log t h hh hr =>
    obtain ⟨rfl, hx⟩ := List.append_inj' hle rfl; cases hx
    exact Or.inl (hpanic h (fun w => ⟨_, _, rfl⟩) hr)
  | @dropRx s log w' h hh hrx hr =>
    obtain ⟨rfl, hx⟩ := List.append_inj' hle rfl; cases hx
    rcases h.minv.hdl hh with hc | hc
    · exact Or.inl (h.minv.closed.1 hc)
    · exact Or.inr (h.minv.pois.1 hc)
  | @respond s log n r w' h hh hr =>
    obtain ⟨rfl, hx⟩ := List.append_inj' hle rfl; cases hx
    exact hresp h hh
  | @dropResponse s log n w' h hh hr =>
    obtain ⟨rfl, hx⟩ := List.append_inj' hle rfl; cases hx
    exact hresp h hh
  | @pollFut s log n p w' h hr =>
    obtain ⟨rfl, hx⟩ := List.append_inj' hle rfl; cases hx
    obtain ⟨sl, hsl, hrx, hcase⟩ := Mock.pollFut_ok hr
    have hc := h.chan
    have hlt : n < s.w.slots.length := by
      by_contra hx
      rw [List.getElem?_eq_none (by omega)] at hsl; cases hsl
    have hval := hc.val n sl hsl hrx
    have htx := hc.tx n sl hsl
    have hnd : (s.held ++ answers log).Nodup := hc.held.nodup_iff.2 hc.got_nodup
    have hacc : n ∈ (acceptedReqs log).map Prod.fst := by rw [hc.nums, List.mem_range]; exact hlt
    refine ⟨(by rw [hlen h]; exact hlt), (fun hx => by rw [(hc.rxs n sl hsl).2 hx] at hrx; cases hrx), ?_⟩
    rcases hcase with ⟨v, hv, rfl, _⟩ | ⟨hv, ht, rfl, _⟩ | ⟨hv, ht, rfl, _⟩
    · cases v with
      | ok v => exact Or.inl ⟨v, (hval _).1 hv, rfl⟩
      | error e => exact Or.inr (Or.inl ⟨e, (hval _).1 hv, rfl⟩)
    · right; right; right
      have hno : ∀ r, .responded n r ∉ log := by intro r hx; rw [← hval r, hv] at hx; cases hx
      refine ⟨hno, ?_, ?_, rfl⟩
      · intro hx
        have ha : n ∈ answers log := mem_answers.2 (Or.inr hx)
        have hg : n ∈ (receivedReqs log).map Prod.fst := hc.held.subset (List.mem_append_right _ ha)
        rcases htx.1 ht with hh | hh
        · exact (List.nodup_append.1 hnd).2.2 n hh n ha rfl
        · cases hr0 : s.w.rx with
          | false => rw [(hc.que' hr0).1] at hh; cases hh
          | true =>
            have : ((acceptedReqs log).map Prod.fst).Nodup := by rw [hc.nums]; exact List.nodup_range
            rw [← hc.que hr0, List.map_append, List.nodup_append] at this
            exact this.2.2 n hg n hh rfl
      · rcases htx.1 ht with hh | hh
        · exact Or.inl (hc.held.subset (List.mem_append_left _ hh))
        · right
          intro hx
          rw [(hc.que' (hc.qd.2 hx)).1] at hh; cases hh
    · right; right; left
      have hno : ∀ r, .responded n r ∉ log := by intro r hx; rw [← hval r, hv] at hx; cases hx
      have hn : ¬ (n ∈ s.held ∨ n ∈ s.w.queue.map Prod.fst) := by rw [← htx, ht]; simp
      rw [not_or] at hn
      refine ⟨hno, ?_, rfl⟩
      by_cases hg : n ∈ (receivedReqs log).map Prod.fst
      · left
        rcases List.mem_append.1 (hc.held.symm.subset hg) with hh | hh
        · exact absurd hh hn.1
        · rcases mem_answers.1 hh with ⟨r, hh⟩ | hh
          · exact absurd hh (hno r)
          · exact hh
      · right
        refine ⟨?_, hg⟩
        rw [← hc.qd]
        by_contra hx
        rw [Bool.not_eq_false] at hx
        rw [← hc.que hx, List.map_append, List.mem_append] at hacc
        exact hacc.elim hg hn.2
  | @dropFut s log n w' h hn hr =>
    obtain ⟨rfl, hx⟩ := List.append_inj' hle rfl; cases hx
    rw [h.chan.nums, List.mem_range] at hn
    change n < (acceptedReqs log).length
    rw [hlen h]; exact hn

/-- **C55.** Everything that happens in any program that uses a mock, its clones, its `Handle` and `SendResponse`s is allowed by the specification `MAllowed`, after all that happened before it. -/
theorem C55_allowed {l1 l2 : List (MEv Req U E)} {e : MEv Req U E} (h : MRun s (l1 ++ e :: l2)) : MAllowed l1 e := by
  obtain ⟨s1, h1⟩ := h.prefix (l1 := l1 ++ [e]) (l2 := l2) (by simp)
  exact h1.last rfl

/-! ## Consequences -/

/-- **C55.** The `Handle` gets the calls accepted, in their order; each `SendResponse` is used at most once, and only for a call received. -/
theorem C55_fifo (h : MRun s log) : receivedReqs log <+: acceptedReqs log ∧ (acceptedReqs log).map Prod.fst = List.range (acceptedReqs log).length ∧ (answers log).Nodup ∧
    ∀ n ∈ answers log, n ∈ (receivedReqs log).map Prod.fst := by
  have hc := h.chan
  have hl := congrArg List.length hc.nums
  simp only [List.length_map, List.length_range] at hl
  refine ⟨hc.got_lt, by rw [hl]; exact hc.nums, ?_, fun n hn => hc.held.subset (List.mem_append_right _ hn)⟩
  exact (List.nodup_append.1 (hc.held.nodup_iff.2 hc.got_nodup)).2.1

/-- **C55 (no lost wake-up).** As long as a task waits (its `poll_ready` returned `Pending` and nothing was woken since) `poll_ready` would still return `Pending`. -/
theorem C55_waits (h : MRun s log) {i k : Nat} (hw : waiting log i = some k) : ¬ HandleDropped log ∧ errNow log = none ∧ mockReady log i = false ∧ allowed log ≤ callsSince log := by
  have hi := h.minv
  have ht := (hi.tasks i k).2 hw
  have hne : s.w.tasks ≠ [] := by intro hx; rw [hx] at ht; cases ht
  obtain ⟨h1, h2, h3⟩ := hi.idle hne
  obtain ⟨m, hm, rfl, hmc⟩ := hi.tlive i k ht
  refine ⟨hi.closed_false.1 h3, by rw [← hi.err]; exact h2, by rw [← hi.can m hm]; exact hmc, ?_⟩
  have := hi.rem
  unfold allowed callsSince
  omega

/-- **C55 (`allow`, at most).** Since the last `allow(n)`, at most `n` calls were accepted, plus one for each clone; if `n` is 0, at most one for each mock (for each that was ready before). -/
theorem C55_allow_most (h : MRun s log) : callsSince log + min 1 (allowed log) ≤ allowed log + mocksMade log := by
  have hi := h.minv
  have hb := hi.bound
  have hm := hi.made
  have : 1 ≤ mocksMade log := by unfold mocksMade; omega
  unfold allowed callsSince
  by_cases hle : (allowance log).1 ≤ (allowance log).2
  · have := hb hle; omega
  · omega

/-- **C55 (`allow`, at most).** With no clones, at most `n` calls are accepted after `allow(n)`, if `n > 0`. -/
theorem C55_allow_single (h : MRun s log) (h1 : mocksMade log = 1) (hn : 0 < allowed log) : callsSince log ≤ allowed log := by
  have := C55_allow_most h
  omega

/-- **C55 (`allow(0)`).** If no mock is ready when `allow(0)` is called, no mock becomes ready and no call is accepted until the next `allow`. -/
theorem C55_allow_zero {l1 l2 : List (MEv Req U E)} {ks : List Nat} (h : MRun s (l1 ++ .allow 0 ks :: l2)) (h1 : ∀ i, mockReady l1 i = false) (h2 : ∀ n ks, .allow n ks ∉ l2) :
    (∀ i, mockReady (l1 ++ .allow 0 ks :: l2) i = false) ∧ acceptedReqs (l1 ++ .allow 0 ks :: l2) = acceptedReqs l1 := by
  suffices hh : ∀ l2, (∃ s, MRun s (l1 ++ .allow 0 ks :: l2)) → (∀ n ks, .allow n ks ∉ l2) →
      (∀ i, mockReady (l1 ++ .allow 0 ks :: l2) i = false) ∧ acceptedReqs (l1 ++ .allow 0 ks :: l2) = acceptedReqs l1 ∧ allowance (l1 ++ .allow 0 ks :: l2) = (0, 0) by
    obtain ⟨a, b, _⟩ := hh l2 ⟨s, h⟩ h2
    exact ⟨a, b⟩
  intro l2
  induction l2 using List.reverseRecOn with
  | nil =>
    intro _ _
    refine ⟨fun i => ?_, ?_, ?_⟩
    · rw [mockReady_snoc]; exact h1 i
    · rw [acceptedReqs_snoc]; simp [MEv.acc]
    · rw [allowance_snoc]; rfl
  | append_singleton l2 e ih =>
    rintro ⟨s, h⟩ h2
    have hal : MAllowed (l1 ++ .allow 0 ks :: l2) e := h.last (by simp)
    obtain ⟨s1, hs1⟩ := h.prefix (l1 := l1 ++ .allow 0 ks :: l2) (l2 := [e]) (by simp)
    obtain ⟨i1, i2, i3⟩ := ih ⟨s1, hs1⟩ (fun n ks hx => h2 n ks (List.mem_append_left _ hx))
    have hsn : l1 ++ MEv.allow 0 ks :: (l2 ++ [e]) = (l1 ++ .allow 0 ks :: l2) ++ [e] := by simp
    rw [hsn, acceptedReqs_snoc, allowance_snoc, i2, i3]
    have hal0 : callsSince (l1 ++ .allow 0 ks :: l2) = 0 ∧ allowed (l1 ++ .allow 0 ks :: l2) = 0 := by unfold callsSince allowed; rw [i3]; exact ⟨rfl, rfl⟩
    have hrd : ∀ i, MEv.mockReady i false e = false → mockReady ((l1 ++ .allow 0 ks :: l2) ++ [e]) i = false := by
      intro i hx; rw [mockReady_snoc, i1 i]; exact hx
    cases e with
    | allow n ks' => exact absurd (List.mem_append_right _ (List.mem_singleton.2 rfl)) (h2 n ks')
    | poll i k p =>
      refine ⟨fun j => hrd j ?_, by simp [MEv.acc], rfl⟩
      rcases p with _ | (e | ⟨⟩)
      · rfl
      · rfl
      · exfalso
        obtain ⟨a, b, c, d⟩ := hal
        by_cases hd : HandleDropped (l1 ++ .allow 0 ks :: l2)
        · have := a hd; simp at this
        · cases he : errNow (l1 ++ .allow 0 ks :: l2) with
          | some e => have := b hd e he; simp at this
          | none =>
            have := d hd he (i1 i) (by omega)
            cases this
    | called i q f =>
      cases f with
      | none => exact ⟨fun j => hrd j rfl, by simp [MEv.acc], rfl⟩
      | some n =>
        exfalso
        rcases hal with ⟨_, hx⟩ | ⟨_, hx, _⟩
        · cases hx
        · rw [i1 i] at hx; cases hx
    | _ => exact ⟨fun j => hrd j rfl, by simp [MEv.acc], rfl⟩

/-! ## Concrete runs -/

namespace MockDemo

/-- **C55 (limit).** With a clone, `allow(1)` lets two calls through: both become ready before either is called. -/
theorem C55_clones_exceed : ∃ (s : MSt Nat Nat String) (log : List (MEv Nat Nat String)), MRun s log ∧ allowed log = 1 ∧ callsSince log = 2 ∧ mocksMade log = 2 := by
  have r0 : MRun (Req := Nat) (U := Nat) (E := String) _ _ := MRun.pair
  have r1 := r0.clone (m := Mock.pair) (by simp) rfl
  have r2 := r1.allow (n := 1) rfl rfl
  have r3 := r2.poll (l := []) (k := 7) rfl rfl
  have r4 := r3.poll (l := [_]) (k := 8) rfl rfl
  have r5 := r4.call (l := []) (q := 50) rfl rfl
  have r6 := r5.call (l := [_]) (q := 60) rfl rfl
  exact ⟨_, _, r6, rfl, rfl, rfl⟩

/-- A call that waits for `allow`, is woken, made and answered; an error in between; then the handle is dropped. -/
example : ∃ (s : MSt Nat Nat String) (log : List (MEv Nat Nat String)), MRun s log ∧
    log = [.allow 0 [], .poll 0 7 .pending, .allow 2 [7], .sendError "no" [], .poll 0 7 (.ready (.error (.user "no"))), .poll 0 7 (.ready (.ok ())), .called 0 50 (some 0), .futPolled 0 .pending,
      .received (.ready (some (0, 50))), .responded 0 (.ok 500), .futPolled 0 (.ready (.ok 500)), .poll 0 7 (.ready (.ok ())), .called 0 51 (some 1), .handleDropped [], .queueDropped,
      .futPolled 1 (.ready (.error .closed)), .poll 0 7 (.ready (.error .closed)), .called 0 52 none] := by
  have r0 : MRun (Req := Nat) (U := Nat) (E := String) _ _ := MRun.pair
  have r1 := r0.allow (n := 0) rfl rfl
  have r2 := r1.poll (l := []) (k := 7) rfl rfl
  have r3 := r2.allow (n := 2) rfl rfl
  have r4 := r3.sendError (e := "no") rfl rfl
  have r5 := r4.poll (l := []) (k := 7) rfl rfl
  have r6 := r5.poll (l := []) (k := 7) rfl rfl
  have r7 := r6.call (l := []) (q := 50) rfl rfl
  have r8 := r7.pollFut (n := 0) rfl
  have r9 := r8.recv rfl rfl
  have r10 := r9.respond (n := 0) (r := .ok 500) (List.mem_singleton.2 rfl : (0 : Nat) ∈ [0]) rfl
  have r11 := r10.pollFut (n := 0) rfl
  have r12 := r11.poll (l := []) (k := 7) rfl rfl
  have r13 := r12.call (l := []) (q := 51) rfl rfl
  have r14 := r13.dropHandle rfl rfl
  have r15 := r14.dropRx rfl rfl rfl
  have r16 := r15.pollFut (n := 1) rfl
  have r17 := r16.poll (l := []) (k := 7) rfl rfl
  have r18 := r17.call (l := []) (q := 52) rfl rfl
  exact ⟨_, _, r18, rfl⟩

/-- A panic: a call that is not ready; and then `poll_ready` panics as well. -/
example : ∃ (s : MSt Nat Nat String) (log : List (MEv Nat Nat String)), MRun s log ∧ log = [.panicked, .panicked] := by
  have r0 : MRun (Req := Nat) (U := Nat) (E := String) _ _ := MRun.pair
  have r1 := r0.callPanics (l := []) (q := 5) rfl rfl
  have r2 := r1.pollPanics (l := []) (k := 5) rfl rfl
  exact ⟨_, _, r2, rfl⟩

end MockDemo
end Tower
