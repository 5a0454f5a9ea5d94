import Verif.Proof.LiveBal

/-! # The newest endpoint of a key is kept -/

set_option linter.unusedSimpArgs false

namespace Tower
open Act
variable {W Req Res Err K DErr BErr : Type} [DecidableEq K]

/-- the service `t` of `k` is there and can be used next: it waits, or it is ready and none waits in its place -/
def View.Kept {σ : Type} (v : View K σ) (Pp Pr : σ → Prop) (k : K) (t : Nat) : Prop := (∃ s, v.pend k = some (t, s) ∧ Pp s) ∨ (v.pend k = none ∧ ∃ s, v.rdy k = some (t, s) ∧ Pr s)

theorem View.Kept.holds {σ : Type} {v : View K σ} {Pp Pr : σ → Prop} {k : K} {t : Nat} (h : v.Kept Pp Pr k t) : v.Holds k t := by
  rcases h with ⟨s, h, _⟩ | ⟨_, s, h, _⟩
  · exact .inl ⟨s, h⟩
  · exact .inr ⟨s, h⟩

/-- `poll_ready` does not fail -/
structure Sound (S : Service W Req Res Err) (Pp Pr : S.σ → Prop) : Prop extends PollClosed S Pp Pr where
  nofail : ∀ {s s' w w' e}, Pp s ∨ Pr s → (S.pollReady s).run w ≠ .ok (.ready (.error e), s') w'
  call : ∀ {s s' w w' r f}, Pr s → (S.call s r).run w = .ok (f, s') w' → Pp s'

section view
variable {S : Service W Req Res Err} {Pp Pr : S.σ → Prop} {v : View K S.σ} {k : K} {t : Nat}

theorem View.Kept.pollStep (hS : Sound S Pp Pr) (h : v.Kept Pp Pr k t) {w ev v' w'} (hp : PollStep S v w ev v' w') : v'.Kept Pp Pr k t := by
  cases hp with
  | @still k1 t1 s s' _ h1 h2 =>
    by_cases hk : k = k1
    · subst hk
      rcases h with ⟨s0, h, hs⟩ | ⟨h, _⟩
      · rw [h1] at h; cases h
        exact .inl ⟨s', upd_self _ _ _, hS.pp hs h2⟩
      · rw [h1] at h; cases h
    · have e : (v.setPend k1 t1 s').pend k = v.pend k := upd_ne _ _ hk
      unfold View.Kept; rw [e]; exact h
  | @promoted k1 t1 s s' _ h1 h2 =>
    by_cases hk : k = k1
    · subst hk
      rcases h with ⟨s0, h, hs⟩ | ⟨h, _⟩
      · rw [h1] at h; cases h
        exact .inr ⟨upd_self _ _ _, s', upd_self _ _ _, hS.pr hs h2⟩
      · rw [h1] at h; cases h
    · have e : (v.promote k1 t1 s').pend k = v.pend k := upd_ne _ _ hk
      have e2 : (v.promote k1 t1 s').rdy k = v.rdy k := upd_ne _ _ hk
      unfold View.Kept; rw [e, e2]; exact h
  | @failed k1 t1 s s' _ er h1 h2 =>
    by_cases hk : k = k1
    · subst hk
      rcases h with ⟨s0, h, hs⟩ | ⟨h, _⟩
      · rw [h1] at h; cases h
        exact absurd h2 (hS.nofail (.inl hs))
      · rw [h1] at h; cases h
    · have e : (v.dropPend k1).pend k = v.pend k := upd_ne _ _ hk
      unfold View.Kept; rw [e]; exact h

theorem View.Kept.pollSteps (hS : Sound S Pp Pr) (h : v.Kept Pp Pr k t) {E w es v' w'} (hp : PollSteps S E v w es v' w') : v'.Kept Pp Pr k t := by
  induction hp with
  | nil => exact h
  | env _ _ ih => exact ih
  | snoc _ h2 ih => exact ih.pollStep hS h2

theorem View.Kept.setRdy (h : v.Kept Pp Pr k t) {k1 t1 s s'} (h1 : v.rdy k1 = some (t1, s)) (hs : Pr s → Pr s') : (v.setRdy k1 t1 s').Kept Pp Pr k t := by
  rcases h with h | ⟨h, s0, h2, h3⟩
  · exact .inl h
  · refine .inr ⟨h, ?_⟩
    by_cases hk : k = k1
    · subst hk
      rw [h1] at h2; cases h2
      exact ⟨s', upd_self _ _ _, hs h3⟩
    · exact ⟨s0, (upd_ne _ _ hk).trans h2, h3⟩

theorem View.Kept.demote (h : v.Kept Pp Pr k t) {k1 t1 s s'} (h1 : v.rdy k1 = some (t1, s)) (hs : Pr s → Pp s') : (v.demote k1 t1 s').Kept Pp Pr k t := by
  by_cases hk : k = k1
  · subst hk
    rcases h with ⟨s0, h, h2⟩ | ⟨h, s0, h2, h3⟩
    · refine .inl ⟨s0, ?_, h2⟩
      show (if v.pend k = none then _ else v.pend) k = _
      rw [if_neg (by rw [h]; simp)]; exact h
    · rw [h1] at h2; cases h2
      refine .inl ⟨s', ?_, hs h3⟩
      show (if v.pend k = none then _ else v.pend) k = _
      rw [if_pos h]; exact upd_self _ _ _
  · have e : (v.demote k1 t1 s').pend k = v.pend k := by
      show (if v.pend k1 = none then _ else v.pend) k = _
      split
      · exact upd_ne _ _ hk
      · rfl
    have e2 : (v.demote k1 t1 s').rdy k = v.rdy k := upd_ne _ _ hk
    unfold View.Kept; rw [e, e2]; exact h

theorem View.Kept.dropRdy (h : v.Kept Pp Pr k t) {k1 t1 s} (h1 : v.rdy k1 = some (t1, s)) (hs : ¬ Pr s) : (v.dropRdy k1).Kept Pp Pr k t := by
  rcases h with h | ⟨h, s0, h2, h3⟩
  · exact .inl h
  · by_cases hk : k = k1
    · subst hk
      rw [h1] at h2; cases h2
      exact absurd h3 hs
    · exact .inr ⟨h, s0, (upd_ne _ _ hk).trans h2, h3⟩

theorem Cache.check_kept {c c' : Cache K S} (hS : Sound S Pp Pr) (hi : c.Inv) (h : c.view.Kept Pp Pr k t) {i w w' r} (hr : (c.checkReadyIndex i).run w = .ok (r, c') w') : c'.Inv ∧ c'.view.Kept Pp Pr k t := by
  cases he : c.ready[i]? with
  | none =>
    rw [Cache.checkReadyIndex_none he] at hr
    cases hr; exact ⟨hi, h⟩
  | some e =>
    obtain ⟨k1, s, p⟩ := e
    obtain ⟨q1, q2, q3, q4, q5⟩ := Cache.checkReadyIndex_spec hi he w
    have hk := hi.get_ready he
    cases hp : (S.pollReady s).run w with
    | panic m => rw [q1 m hp] at hr; cases hr
    | spin => rw [q2 hp] at hr; cases hr
    | ok x w1 =>
      obtain ⟨a, s'⟩ := x
      rcases a with _ | (er | ⟨⟩)
      · obtain ⟨c1, h1, h2, h3, _⟩ := q4 s' w1 hp
        rw [h1] at hr; cases hr
        exact ⟨h2, h3 ▸ h.demote hk fun hs => hS.rp hs hp⟩
      · obtain ⟨c1, h1, h2, h3, _⟩ := q5 s' w1 er hp
        rw [h1] at hr; cases hr
        exact ⟨h2, h3 ▸ h.dropRdy hk fun hs => hS.nofail (.inr hs) hp⟩
      · obtain ⟨c1, h1, h2, h3, _⟩ := q3 s' w1 hp
        rw [h1] at hr; cases hr
        exact ⟨h2, h3 ▸ h.setRdy hk fun hs => hS.rr hs hp⟩

end view

namespace Balance
variable {B : BalCfg W Req Res Err K DErr BErr} {Pp Pr : B.S.σ → Prop} {k : K} {t : Nat}

theorem promote_kept (hS : Sound B.S Pp Pr) : ∀ (n : Nat) {b b' : Balance B} {w w' : W}, b.svcs.Inv → b.svcs.view.Kept Pp Pr k t → (promote n b).run w = .ok b' w' → b'.svcs.Inv ∧ b'.svcs.view.Kept Pp Pr k t := by
  intro n
  induction n with
  | zero => intro b b' w w' _ _ h; cases h
  | succ n ih =>
    intro b b' w w' hi hk h
    rw [promote] at h
    obtain ⟨⟨p, c⟩, w1, h1, h2⟩ := run_bind_eq_ok.1 h
    obtain ⟨es, hp⟩ := wpx_ok (Cache.pollPending_wpx B.V b.svcs w hi) h1
    have hp : Cache.PollPost B.V b.svcs w p c w1 es := hp
    have hk1 : c.view.Kept Pp Pr k t := hk.pollSteps hS hp.steps
    rcases p with _ | (e | ⟨⟩)
    · dsimp only at h2
      split at h2
      · cases h2; exact ⟨hp.inv, hk1⟩
      · cases h2
    · exact ih (b := { b with svcs := c }) hp.inv hk1 h2
    · dsimp only at h2
      split at h2
      · cases h2; exact ⟨hp.inv, hk1⟩
      · cases h2

theorem recheck_kept (hS : Sound B.S Pp Pr) {b b' : Balance B} {w w' : W} {r} (hi : b.svcs.Inv) (hk : b.svcs.view.Kept Pp Pr k t) (h : b.recheck.run w = .ok (r, b') w') : b'.svcs.Inv ∧ b'.svcs.view.Kept Pp Pr k t := by
  unfold recheck at h
  cases hidx : b.idx with
  | none => simp only [hidx] at h; cases h; exact ⟨hi, hk⟩
  | some i =>
    simp only [hidx] at h
    obtain ⟨⟨x, c⟩, w1, h1, h2⟩ := run_bind_eq_ok.1 h
    have := Cache.check_kept hS hi hk h1
    cases x with
    | error e => cases h2; exact this
    | ok y => cases y <;> (cases h2; exact this)

theorem choose_svcs {b b' : Balance B} {w w' : W} {r} (h : b.choose.run w = .ok (r, b') w') : b'.svcs = b.svcs := by
  unfold choose at h
  obtain ⟨⟨o, b3⟩, w3, h5, h6⟩ := run_bind_eq_ok.1 h
  have hp := wpx_ok (p2c_wpx (Pr := fun _ => True) b w (fun _ _ => trivial)) h5
  cases o with
  | some i => cases h6; exact hp.2.1
  | none =>
    dsimp only at h6
    split at h6
    · cases h6; exact hp.2.1
    · cases h6

theorem select_kept (hS : Sound B.S Pp Pr) : ∀ (n : Nat) {b b' : Balance B} {w w' : W} {p}, b.svcs.Inv → b.svcs.view.Kept Pp Pr k t → (select n b).run w = .ok (p, b') w' → b'.svcs.view.Kept Pp Pr k t := by
  intro n
  induction n with
  | zero => intro b b' w w' p _ _ h; cases h
  | succ n ih =>
    intro b b' w w' p hi hk h
    rw [select] at h
    obtain ⟨⟨r, b1⟩, w1, h1, h2⟩ := run_bind_eq_ok.1 h
    obtain ⟨hi1, hk1⟩ := recheck_kept hS hi hk h1
    dsimp only at h2
    split at h2
    · cases h2; exact hk1
    · obtain ⟨⟨f, b2⟩, w2, h3, h4⟩ := run_bind_eq_ok.1 h2
      have hc := choose_svcs h3
      dsimp only at h4
      split at h4
      · exact ih (by rw [hc]; exact hi1) (by rw [hc]; exact hk1) h4
      · cases h4; rw [hc]; exact hk1

theorem foldl_kept : ∀ (chs : List (Change K B.S.σ)) {c : Cache K B.S}, c.Inv → c.view.Kept Pp Pr k t → .remove k ∉ chs → (∀ s, .insert k s ∉ chs) →
    (chs.foldl apply c).Inv ∧ (chs.foldl apply c).view.Kept Pp Pr k t := by
  intro chs
  induction chs with
  | nil => intro c hi hk _ _; exact ⟨hi, hk⟩
  | cons ch chs ih =>
    intro c hi hk h1 h2
    have h3 : .remove k ∉ chs := fun h => h1 (List.mem_cons_of_mem _ h)
    have h4 : ∀ s, .insert k s ∉ chs := fun s h => h2 s (List.mem_cons_of_mem _ h)
    cases ch with
    | insert k1 s =>
      have hne : k ≠ k1 := by rintro rfl; exact h2 s (by simp)
      obtain ⟨a, b, _⟩ := Cache.push_spec hi k1 s
      refine ih (c := c.push k1 s) a ?_ h3 h4
      rw [b]
      have e : (c.view.push k1 s).pend k = c.view.pend k := upd_ne _ _ hne
      unfold View.Kept; rw [e]; exact hk
    | remove k1 =>
      have hne : k ≠ k1 := by rintro rfl; exact h1 (by simp)
      obtain ⟨a, b, _⟩ := Cache.evict_spec hi k1
      refine ih (c := (c.evict k1).2) a ?_ h3 h4
      rw [b]
      have e : (c.view.evict k1).pend k = c.view.pend k := upd_ne _ _ hne
      have e2 : (c.view.evict k1).rdy k = c.view.rdy k := upd_ne _ _ hne
      unfold View.Kept; rw [e, e2]; exact hk

/-- the changes up to and with its insertion, and those since -/
theorem foldl_newest {pre post : List (Change K B.S.σ)} {s : B.S.σ} {c : Cache K B.S} (hi : c.Inv) (hs : Pp s) (h1 : .remove k ∉ post) (h2 : ∀ s', .insert k s' ∉ post) :
    ((pre ++ .insert k s :: post).foldl apply c).view.Kept Pp Pr k ((pre.foldl apply c).view.count) := by
  rw [List.foldl_append, List.foldl_cons]
  have hi1 : (pre.foldl apply c).Inv := CReach.inv hi (foldl_crun (B := B) pre c)
  obtain ⟨a, b, _⟩ := Cache.push_spec hi1 k s
  refine (foldl_kept post (c := (pre.foldl apply c).push k s) a ?_ h1 h2).2
  rw [b]
  exact .inl ⟨s, upd_self _ _ _, hs⟩

theorem pollReady_kept (hS : Sound B.S Pp Pr) {fuel : Nat} {b b' : Balance B} {w w' : W} {p chs} (hi : b.svcs.Inv) (h : (b.pollReady fuel).run w = .ok (p, b') w') (hd : Discovered B.D b.disc w chs)
    (hk : (chs.foldl apply b.svcs).view.Kept Pp Pr k t) : b'.svcs.view.Kept Pp Pr k t := by
  unfold pollReady at h
  obtain ⟨⟨r, b1⟩, w1, h1, h2⟩ := run_bind_eq_ok.1 h
  obtain ⟨chs', hu⟩ := wpx_ok (update_wpx fuel b w) h1
  cases Discovered.unique hd hu.found
  have hs : b1.svcs = chs.foldl apply b.svcs := hu.svcs
  rw [← hs] at hk
  have hi1 : b1.svcs.Inv := by rw [hs]; exact CReach.inv hi (foldl_crun (B := B) chs _)
  cases r with
  | error e => cases h2; exact hk
  | ok u =>
    dsimp only at h2
    unfold rest at h2
    obtain ⟨b2, w2, h3, h4⟩ := run_bind_eq_ok.1 h2
    obtain ⟨hi2, hk2⟩ := promote_kept hS _ hi1 hk h3
    exact select_kept hS _ hi2 hk2 h4

end Balance

variable {B : BalCfg W Req Res Err K DErr BErr} {Pp Pr : B.S.σ → Prop} {k : K}

theorem BalRun.kept (hS : Sound B.S Pp Pr) {fuel : Nat} {b0 b : Balance B} {log : List (Change K B.S.σ)} (h : BalRun B fuel b0 log b) (h0 : LogInv [] b0.svcs) :
    ∀ pre s post, log = pre ++ .insert k s :: post → Pp s → .remove k ∉ post → (∀ s', .insert k s' ∉ post) → b.svcs.view.Kept Pp Pr k (inserts pre).length := by
  induction h with
  | refl => intro pre s post h; simp at h
  | @ready log b w p b' w' chs h1 hr hd ih =>
    intro pre s post hl hs hn1 hn2
    have hlog : LogInv log b.svcs := by simpa using h1.log h0
    refine Balance.pollReady_kept hS hlog.inv hr hd ?_
    rcases List.append_eq_append_iff.1 hl with ⟨a, ha1, ha2⟩ | ⟨a, ha1, ha2⟩
    · -- it is in what was read now
      rw [ha2]
      have := Balance.foldl_newest (B := B) (Pr := Pr) (pre := a) hlog.inv hs hn1 hn2
      have hc : (a.foldl Balance.apply b.svcs).view.count = (inserts pre).length := by rw [ha1]; exact (LogInv.foldl a hlog).count
      rw [hc] at this
      exact this
    · cases a with
      | nil =>
        simp only [List.append_nil] at ha1
        simp only [List.nil_append] at ha2
        rw [← ha2]
        have := Balance.foldl_newest (B := B) (Pr := Pr) (pre := []) hlog.inv hs hn1 hn2
        have hc : b.svcs.view.count = (inserts pre).length := by rw [← ha1]; exact hlog.count
        simp only [List.foldl_nil, List.nil_append] at this
        rw [hc] at this
        exact this
      | cons x a =>
        simp only [List.cons_append, List.cons.injEq] at ha2
        obtain ⟨rfl, ha2⟩ := ha2
        have hk := ih pre s a ha1 hs (fun hm => hn1 (by rw [ha2]; exact List.mem_append_left _ hm)) (fun s' hm => hn2 s' (by rw [ha2]; exact List.mem_append_left _ hm))
        exact (Balance.foldl_kept chs hlog.inv hk (fun hm => hn1 (by rw [ha2]; exact List.mem_append_right _ hm)) (fun s' hm => hn2 s' (by rw [ha2]; exact List.mem_append_right _ hm))).2
  | @call log b r w f b' w' h1 hc ih =>
    intro pre s post hl hs hn1 hn2
    have hlog : LogInv log b.svcs := by simpa using h1.log h0
    obtain ⟨f0, hf0, hc0⟩ := balance_call hc
    obtain ⟨i, k1, s1, p, s', q1, q2, q3, q4, q5, q6, _⟩ := Balance.call_spec hlog.inv hc0
    rw [q6]
    exact (ih pre s post hl hs hn1 hn2).demote (hlog.inv.get_ready q2) fun hp => hS.call hp q3

end Tower
