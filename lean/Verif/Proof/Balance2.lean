import Verif.Proof.Balance1

/-! # Histories of the balancer -/

namespace Tower
set_option linter.unusedSectionVars false
variable {W Req Res Err K DErr BErr : Type} [DecidableEq K] {B : BalCfg W Req Res Err K DErr BErr}

/-! ## Discovery is deterministic -/

theorem DiscSteps.uncons {V : Type} {D : Discover W K V DErr} {d w chs d' w'} (h : DiscSteps D d w chs d' w') :
    (chs = [] ∧ d = d' ∧ w = w') ∨ ∃ ch chs1 d1 w1, chs = ch :: chs1 ∧ (D.poll d).run w = .ok (.ready (some (.ok ch)), d1) w1 ∧ DiscSteps D d1 w1 chs1 d' w' := by
  induction h with
  | nil => exact Or.inl ⟨rfl, rfl, rfl⟩
  | snoc _ h2 ih =>
    right
    rcases ih with ⟨rfl, rfl, rfl⟩ | ⟨ch, chs1, d1, w1, rfl, h3, h4⟩
    · exact ⟨_, [], _, _, rfl, h2, .nil⟩
    · exact ⟨ch, _, d1, w1, rfl, h3, .snoc h4 h2⟩

theorem Discovered.unique {V : Type} {D : Discover W K V DErr} {chs : List (Change K V)} : ∀ {d w chs'}, Discovered D d w chs → Discovered D d w chs' → chs = chs' := by
  induction chs with
  | nil =>
    rintro d w chs' ⟨d1, w1, h1, h2⟩ ⟨d3, w3, h3, h4⟩
    rcases h1.uncons with ⟨_, rfl, rfl⟩ | ⟨_, _, _, _, h, _⟩
    · rcases h3.uncons with ⟨rfl, _, _⟩ | ⟨ch, chs1, d5, w5, rfl, h5, _⟩
      · rfl
      · exact absurd h5 (h2 _ _ _)
    · cases h
  | cons c chs ih =>
    rintro d w chs' ⟨d1, w1, h1, h2⟩ ⟨d3, w3, h3, h4⟩
    rcases h1.uncons with ⟨h, _, _⟩ | ⟨ch, chs1, d5, w5, hx, h5, h6⟩
    · cases h
    · cases hx
      rcases h3.uncons with ⟨rfl, rfl, rfl⟩ | ⟨ch', chs2, d7, w7, rfl, h7, h8⟩
      · exact absurd h5 (h4 _ _ _)
      · rw [h5] at h7; cases h7
        rw [ih ⟨_, _, h6, h2⟩ ⟨_, _, h8, h4⟩]

/-! ## What the cache holds is current -/

theorem inserts_append {V : Type} (l l' : List (Change K V)) : inserts (l ++ l') = inserts l ++ inserts l' := by
  induction l with
  | nil => rfl
  | cons c l ih => cases c <;> simp [inserts, ih]

/-- newer services wait, older ones are ready -/
def View.Ord {σ : Type} (v : View K σ) : Prop := ∀ k t s t' s', v.rdy k = some (t, s) → v.pend k = some (t', s') → t < t'

structure LogInv (log : List (Change K B.S.σ)) (c : Cache K B.S) : Prop where
  inv : c.Inv
  count : c.view.count = (inserts log).length
  cur : ∀ k t, c.view.Holds k t → Current log k t

theorem Current.append_insert {V : Type} {log : List (Change K V)} {k t} (h : Current log k t) (k' : K) (s : V) : Current (log ++ [.insert k' s]) k t := by
  obtain ⟨pre, s0, post, h1, h2, h3⟩ := h
  refine ⟨pre, s0, post ++ [.insert k' s], by rw [h1]; simp, h2, ?_⟩
  simp [h3]

theorem Current.append_remove {V : Type} {log : List (Change K V)} {k t} (h : Current log k t) {k' : K} (hk : k' ≠ k) : Current (log ++ [.remove k']) k t := by
  obtain ⟨pre, s0, post, h1, h2, h3⟩ := h
  refine ⟨pre, s0, post ++ [.remove k'], by rw [h1]; simp, h2, ?_⟩
  simp only [List.mem_append, List.mem_singleton, Change.remove.injEq, not_or]
  exact ⟨h3, fun h => hk h.symm⟩

theorem LogInv.apply {log : List (Change K B.S.σ)} {c : Cache K B.S} (h : LogInv log c) (ch : Change K B.S.σ) : LogInv (log ++ [ch]) (Balance.apply c ch) := by
  cases ch with
  | insert k s =>
    obtain ⟨a, b, d⟩ := Cache.push_spec h.inv k s
    refine ⟨a, ?_, ?_⟩
    · show (c.push k s).view.count = _
      rw [b, inserts_append]
      simp [View.push, inserts, h.count]
    · intro k' t ht
      have ht : (c.push k s).view.Holds k' t := ht
      rw [b] at ht
      by_cases hk : k' = k
      · subst hk
        rcases ht with ⟨s1, h1⟩ | ⟨s1, h1⟩
        · simp only [View.push, upd_self, Option.some.injEq, Prod.mk.injEq] at h1
          exact ⟨log, s, [], rfl, by rw [← h.count]; exact h1.1, by simp⟩
        · exact (h.cur k' t (Or.inr ⟨s1, h1⟩)).append_insert _ _
      · refine (h.cur k' t ?_).append_insert _ _
        rcases ht with ⟨s1, h1⟩ | ⟨s1, h1⟩
        · exact Or.inl ⟨s1, (upd_ne _ _ hk).symm.trans h1⟩
        · exact Or.inr ⟨s1, h1⟩
  | remove k =>
    obtain ⟨a, b, d⟩ := Cache.evict_spec h.inv k
    refine ⟨a, ?_, ?_⟩
    · show (c.evict k).2.view.count = _
      rw [b, inserts_append]
      simp [View.evict, inserts, h.count]
    · intro k' t ht
      have ht : (c.evict k).2.view.Holds k' t := ht
      rw [b] at ht
      by_cases hk : k' = k
      · subst hk
        rcases ht with ⟨s1, h1⟩ | ⟨s1, h1⟩ <;> simp [View.evict, upd_self] at h1
      · refine (h.cur k' t ?_).append_remove (fun h => hk h.symm)
        rcases ht with ⟨s1, h1⟩ | ⟨s1, h1⟩
        · exact Or.inl ⟨s1, (upd_ne _ _ hk).symm.trans h1⟩
        · exact Or.inr ⟨s1, (upd_ne _ _ hk).symm.trans h1⟩

theorem LogInv.foldl (chs : List (Change K B.S.σ)) : ∀ {log : List (Change K B.S.σ)} {c : Cache K B.S}, LogInv log c → LogInv (log ++ chs) (chs.foldl Balance.apply c) := by
  induction chs with
  | nil => intro log c h; simpa using h
  | cons ch chs ih =>
    intro log c h
    have := ih (h.apply ch)
    simpa using this

/-- nothing is inserted -/
theorem LogInv.run {log : List (Change K B.S.σ)} {c c' : Cache K B.S} (h : LogInv log c) (hr : CRun B.V B.S c c') (hc : c'.view.count = c.view.count) : LogInv log c' := by
  have hi := CReach.inv h.inv hr
  refine ⟨hi, hc.trans h.count, fun k t ht => h.cur k t ?_⟩
  rcases (CRun.alive h.inv hr).2 k t ht with h1 | h1
  · exact h1
  · have := hi.holds_lt ht; omega

/-! ## poll_ready, call -/

namespace Balance

theorem ReadyPost.log {b b' : Balance B} {w w' p} (h : ReadyPost b w p b' w') {log} (hl : LogInv log b.svcs) {chs} (hd : Discovered B.D b.disc w chs) :
    LogInv (log ++ chs) b'.svcs := by
  obtain ⟨chs', b1, w1, h1, h2, h3, h4⟩ := h.upd
  cases Discovered.unique hd h1
  have hl := LogInv.foldl chs hl
  rw [← h2] at hl
  rcases h4 with ⟨e, _, rfl, _⟩ | h4
  · exact hl
  · exact hl.run h4.run h4.cnt

/-- what `call` does -/
theorem call_spec {b b' : Balance B} {r : Req} {w w' : W} {f : B.S.φ} (hi : b.svcs.Inv) (h : (b.call r).run w = .ok (f, b') w') :
    ∃ i k s p s', b.idx = some i ∧ b.svcs.ready[i]? = some (k, (s, p)) ∧ (B.S.call s r).run w = .ok (f, s') w' ∧
      (b.svcs.callReadyIndex i r).run w = .ok (f, b'.svcs) w' ∧ b'.svcs.Inv ∧ b'.svcs.view = b.svcs.view.demote k p.2 s' ∧ b'.idx = none ∧ b'.disc = b.disc ∧ b'.rng = b.rng := by
  unfold call at h
  cases hidx : b.idx with
  | none => simp only [hidx] at h; cases h
  | some i =>
    simp only [hidx] at h
    obtain ⟨⟨f1, c1⟩, w1, h1, h2⟩ := Act.run_bind_eq_ok.1 h
    cases h2
    cases he : b.svcs.ready[i]? with
    | none => rw [Cache.callReadyIndex_none he] at h1; cases h1
    | some e =>
      obtain ⟨k, s, p⟩ := e
      obtain ⟨q1, q2, q3⟩ := Cache.callReadyIndex_spec hi he r w
      cases hc : (B.S.call s r).run w with
      | panic m => rw [q1 m hc] at h1; cases h1
      | spin => rw [q2 hc] at h1; cases h1
      | ok x w2 =>
        obtain ⟨f2, s'⟩ := x
        obtain ⟨c', h3, h4, h5, _⟩ := q3 f2 s' w2 hc
        rw [h3] at h1; cases h1
        exact ⟨i, k, s, p, s', rfl, he, hc, h3, h4, h5, rfl, rfl, rfl⟩

theorem ready_post {fuel : Nat} {b b' : Balance B} {w w' p} (hi : b.svcs.Inv) (h : (b.pollReady fuel).run w = .ok (p, b') w') : ReadyPost b w p b' w' := by
  have := Act.wpx_ok (pollReady_wpx fuel b w hi) h
  exact this

end Balance

/-- `call`, without the `MapErr` around the future -/
theorem balance_call {fuel : Nat} {b b' : Balance B} {r w w'} {f : Option B.S.φ} (h : ((balance B fuel).call b r).run w = .ok (f, b') w') : ∃ g, f = some g ∧ (b.call r).run w = .ok (g, b') w' := by
  obtain ⟨⟨g, b1⟩, w1, h1, h2⟩ := Act.run_bind_eq_ok.1 h
  cases h2
  exact ⟨g, rfl, h1⟩

theorem BalRun.log {fuel : Nat} {b0 b : Balance B} {log0 log} (h : BalRun B fuel b0 log b) (h0 : LogInv log0 b0.svcs) : LogInv (log0 ++ log) b.svcs := by
  induction h with
  | refl => simpa using h0
  | ready _ hr hd ih =>
    rw [← List.append_assoc]
    exact (Balance.ready_post ih.inv hr).log ih hd
  | call _ hc ih =>
    obtain ⟨f0, hf0, hc0⟩ := balance_call hc
    obtain ⟨i, k, s, p, s', h1, h2, h3, h4, h5, h6, _⟩ := Balance.call_spec ih.inv hc0
    exact ih.run (.one (.call h4)) (by rw [h6]; rfl)

theorem LogInv.new (d r) : LogInv [] (Balance.fromRng B d r).svcs :=
  ⟨Cache.inv_empty, rfl, fun k t h => by rcases h with ⟨s, h⟩ | ⟨s, h⟩ <;> cases h⟩

theorem BalReach.log {fuel : Nat} {b : Balance B} {log} (h : BalReach B fuel log b) : LogInv log b.svcs := by
  obtain ⟨d, r, h⟩ := h
  simpa using h.log (LogInv.new d r)

theorem BalRun.crun {fuel : Nat} {b0 b : Balance B} {log} (h : BalRun B fuel b0 log b) (h0 : b0.svcs.Inv) : b.svcs.Inv ∧ CRun B.V B.S b0.svcs b.svcs := by
  induction h with
  | refl => exact ⟨h0, .refl⟩
  | ready _ hr hd ih =>
    have := Balance.ready_post ih.1 hr
    exact ⟨this.inv, ih.2.trans this.run⟩
  | call _ hc ih =>
    obtain ⟨f0, hf0, hc0⟩ := balance_call hc
    obtain ⟨i, k, s, p, s', h1, h2, h3, h4, h5, h6, _⟩ := Balance.call_spec ih.1 hc0
    exact ⟨h5, ih.2.trans (.one (.call h4))⟩

theorem BalReach.creach {fuel : Nat} {b : Balance B} {log} (h : BalReach B fuel log b) : CReach B.V B.S b.svcs := by
  obtain ⟨d, r, h⟩ := h
  exact (h.crun Cache.inv_empty).2

/-! ## What is true of every endpoint held -/

theorem View.All.foldl {Pp Pr : B.S.σ → Prop} (chs : List (Change K B.S.σ)) : ∀ {c : Cache K B.S}, c.Inv → (∀ k s, .insert k s ∈ chs → Pp s) → c.view.All Pp Pr →
    (chs.foldl Balance.apply c).view.All Pp Pr := by
  induction chs with
  | nil => intro c _ _ h; exact h
  | cons ch chs ih =>
    intro c hi hm h
    refine ih (c := Balance.apply c ch) (CReach.inv (V := B.V) hi (Balance.apply_crun ch)) (fun k s hx => hm k s (List.mem_cons_of_mem _ hx)) ?_
    cases ch with
    | insert k s =>
      obtain ⟨a, b, _⟩ := Cache.push_spec hi k s
      show (c.push k s).view.All Pp Pr
      rw [b]
      exact View.All.upd_pend (f := c.view.pend) (g := c.view.rdy) (n := c.view.count + 1) h (fun t s' hx => by cases hx; exact hm k s List.mem_cons_self)
    | remove k =>
      obtain ⟨a, b, _⟩ := Cache.evict_spec hi k
      show (c.evict k).2.view.All Pp Pr
      rw [b]
      exact View.All.upd_rdy (View.All.upd_pend (f := c.view.pend) (g := c.view.rdy) (n := c.view.count) h (fun t s' hx => by cases hx)) (fun t s' hx => by cases hx)

theorem Balance.ReadyPost.all {b b' : Balance B} {w w' p} (h : ReadyPost b w p b' w') (hi : b.svcs.Inv) {chs} (hd : Discovered B.D b.disc w chs) {Pp Pr : B.S.σ → Prop}
    (hc : PollClosed B.S Pp Pr) (hm : ∀ k s, .insert k s ∈ chs → Pp s) (ha : b.svcs.view.All Pp Pr) : b'.svcs.view.All Pp Pr := by
  obtain ⟨chs', b1, w1, h1, h2, h3, h4⟩ := h.upd
  cases Discovered.unique hd h1
  have hl := View.All.foldl chs hi hm ha
  rw [← h2] at hl
  rcases h4 with ⟨e, _, rfl, _⟩ | h4
  · exact hl
  · exact h4.keep hc hl

/-- `Pp` of the waiting ones, `Pr` of the ready ones, if that is kept by `poll_ready` and `call` and is so for what is inserted -/
theorem BalRun.all {fuel : Nat} {b0 b : Balance B} {log} (h : BalRun B fuel b0 log b) (h0 : b0.svcs.Inv) {Pp Pr : B.S.σ → Prop} (hc : PollClosed B.S Pp Pr)
    (hcall : ∀ {s r w f s' w'}, Pr s → (B.S.call s r).run w = .ok (f, s') w' → Pp s') (hm : ∀ k s, .insert k s ∈ log → Pp s) (ha : b0.svcs.view.All Pp Pr) : b.svcs.view.All Pp Pr := by
  induction h with
  | refl => exact ha
  | ready hb hr hd ih =>
    have hi := (hb.crun h0).1
    exact (Balance.ready_post hi hr).all hi hd hc (fun k s hx => hm k s (List.mem_append_right _ hx)) (ih (fun k s hx => hm k s (List.mem_append_left _ hx)))
  | call hb hc ih =>
    obtain ⟨f0, hf0, hc0⟩ := balance_call hc
    have ih := ih hm
    have hi := (hb.crun h0).1
    obtain ⟨i, k, s, p, s', h1, h2, h3, h4, h5, h6, _⟩ := Balance.call_spec hi hc0
    rw [h6]
    exact ih.demote (hcall (ih.2 _ _ _ (hi.get_ready h2)) h3)

theorem BalReach.all {fuel : Nat} {b : Balance B} {log} (h : BalReach B fuel log b) {Pp Pr : B.S.σ → Prop} (hc : PollClosed B.S Pp Pr)
    (hcall : ∀ {s r w f s' w'}, Pr s → (B.S.call s r).run w = .ok (f, s') w' → Pp s') (hm : ∀ k s, .insert k s ∈ log → Pp s) : b.svcs.view.All Pp Pr := by
  obtain ⟨d, r, h⟩ := h
  exact h.all Cache.inv_empty hc hcall hm ⟨fun k t s h => (by cases h), fun k t s h => (by cases h)⟩

/-! ## Newer services wait, older ones are ready -/

theorem View.Ord.step {S : Service W Req Res Err} {E : W → W → Prop} {v v' : View K S.σ} (h : VStep S E v v') (ho : v.Ord) (hlt : ∀ k t s, v.rdy k = some (t, s) → t < v.count) : v'.Ord := by
  have polls : ∀ {v v' : View K S.σ} {w w' es}, PollSteps S E v w es v' w' → v.Ord → v'.Ord := by
    intro v v' w w' es hs ho
    induction hs with
    | nil => exact ho
    | env _ _ ih => exact ih
    | snoc hs he ih =>
      intro k t s t' s' hr hp
      obtain ⟨s2, h2⟩ := he.pend_sub hp
      cases he with
      | still => exact ih k t s t' s2 hr h2
      | promoted =>
        rename_i k0 t0 s0 s0' h3 h4
        by_cases hk : k = k0
        · subst hk; change View.upd _ _ _ _ = _ at hp; rw [upd_self] at hp; cases hp
        · change View.upd _ _ _ _ = _ at hr; rw [upd_ne _ _ hk] at hr; exact ih k t s t' s2 hr h2
      | failed => exact ih k t s t' s2 hr h2
  have demote : ∀ {v : View K S.σ} {k t s}, v.Ord → (v.demote k t s).Ord := by
    intro v k t s ho k' t1 s1 t2 s2 hr hp
    by_cases hk : k' = k
    · subst hk; change View.upd _ _ _ _ = _ at hr; rw [upd_self] at hr; cases hr
    · change View.upd _ _ _ _ = _ at hr; rw [upd_ne _ _ hk] at hr
      change (if v.pend k = none then View.upd v.pend k (some (t, s)) else v.pend) k' = _ at hp
      split at hp
      · rw [upd_ne _ _ hk] at hp; exact ho _ _ _ _ _ hr hp
      · exact ho _ _ _ _ _ hr hp
  have setr : ∀ {v : View K S.σ} {k t s s'}, v.Ord → v.rdy k = some (t, s) → (v.setRdy k t s').Ord := by
    intro v k t s s' ho h0 k' t1 s1 t2 s2 hr hp
    by_cases hk : k' = k
    · subst hk; change View.upd _ _ _ _ = _ at hr; rw [upd_self] at hr; cases hr; exact ho _ _ _ _ _ h0 hp
    · change View.upd _ _ _ _ = _ at hr; rw [upd_ne _ _ hk] at hr; exact ho _ _ _ _ _ hr hp
  cases h with
  | none => exact ho
  | push k0 s0 =>
    intro k t s t' s' hr hp
    by_cases hk : k = k0
    · subst hk; change View.upd _ _ _ _ = _ at hp; rw [upd_self] at hp; cases hp; exact hlt _ _ _ hr
    · change View.upd _ _ _ _ = _ at hp; rw [upd_ne _ _ hk] at hp; exact ho _ _ _ _ _ hr hp
  | evict k0 =>
    intro k t s t' s' hr hp
    by_cases hk : k = k0
    · subst hk; change View.upd _ _ _ _ = _ at hp; rw [upd_self] at hp; cases hp
    · change View.upd _ _ _ _ = _ at hp; rw [upd_ne _ _ hk] at hp
      change View.upd _ _ _ _ = _ at hr; rw [upd_ne _ _ hk] at hr
      exact ho _ _ _ _ _ hr hp
  | polls hs => exact polls hs ho
  | check_ok h1 _ => exact setr ho h1
  | check_pending => exact demote ho
  | check_failed =>
    rename_i k0 t0 s0 s1 w w' e h1 h2
    intro k t s t' s' hr hp
    by_cases hk : k = k0
    · subst hk; change View.upd _ _ _ _ = _ at hr; rw [upd_self] at hr; cases hr
    · change View.upd _ _ _ _ = _ at hr; rw [upd_ne _ _ hk] at hr; exact ho _ _ _ _ _ hr hp
  | call => exact demote ho
  | tamper s' h1 => exact setr ho h1

theorem CReach.ord {S : Service W Req Res Err} {V : Sched W} {c : Cache K S} (h : CReach V S c) : c.view.Ord := by
  induction h with
  | refl => intro k t s t' s' h; cases h
  | step hr hs ih =>
    have hi := CReach.inv Cache.inv_empty hr
    exact View.Ord.step (hs.sim hi).2 ih (fun k t s h => hi.holds_lt (Or.inr ⟨s, h⟩))

end Tower
