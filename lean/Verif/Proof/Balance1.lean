import Verif.Proof.Cache5
import Verif.Spec.BalanceSpec
import Verif.Props.C35_Rng

/-! # The balancer -/

namespace Tower
set_option linter.unusedSectionVars false
variable {W Req Res Err K DErr BErr : Type} [DecidableEq K] {B : BalCfg W Req Res Err K DErr BErr}

/-- a state left by a `poll_ready` that returned `Pending` -/
def LeftPending (S : Service W Req Res Err) (s : S.σ) : Prop := ∃ s0 w1 w2, (S.pollReady s0).run w1 = .ok (.pending, s) w2

theorem CRun.trans {S : Service W Req Res Err} {V : Sched W} {c c1 c2 : Cache K S} (h : CRun V S c c1) (h' : CRun V S c1 c2) : CRun V S c c2 := by
  induction h' with
  | refl => exact h
  | step _ hs ih => exact .step ih hs

theorem CRun.one {S : Service W Req Res Err} {V : Sched W} {c c1 : Cache K S} (h : CStep V S c c1) : CRun V S c c1 := .step .refl h

/-- a waiting service that was polled is in the state that poll left -/
theorem PollSteps.polled {S : Service W Req Res Err} {E : W → W → Prop} {v v' : View K S.σ} {w w' : W} {es} (h : PollSteps S E v w es v' w') {k t} :
    ∀ {s}, .still k t ∈ es → v'.pend k = some (t, s) → LeftPending S s := by
  induction h with
  | nil => intro s h; cases h
  | env _ _ ih => exact ih
  | snoc hs he ih =>
    intro s hm hp
    cases he with
    | still h1 h2 =>
      rename_i k0 t0 s0 s0'
      by_cases hk : k = k0
      · subst hk
        change View.upd _ _ _ _ = _ at hp
        rw [upd_self] at hp; cases hp
        exact ⟨_, _, _, h2⟩
      · change View.upd _ _ _ _ = _ at hp
        rw [upd_ne _ _ hk] at hp
        rcases List.mem_append.1 hm with hm | hm
        · exact ih hm hp
        · simp only [List.mem_singleton, PollEv.still.injEq] at hm; exact absurd hm.1 hk
    | promoted h1 h2 =>
      rename_i k0 t0 s0 s0'
      by_cases hk : k = k0
      · subst hk
        change View.upd _ _ _ _ = _ at hp
        rw [upd_self] at hp; cases hp
      · change View.upd _ _ _ _ = _ at hp
        rw [upd_ne _ _ hk] at hp
        rcases List.mem_append.1 hm with hm | hm
        · exact ih hm hp
        · simp at hm
    | failed h1 h2 =>
      rename_i k0 t0 s0 s0' e0
      by_cases hk : k = k0
      · subst hk
        change View.upd _ _ _ _ = _ at hp
        rw [upd_self] at hp; cases hp
      · change View.upd _ _ _ _ = _ at hp
        rw [upd_ne _ _ hk] at hp
        rcases List.mem_append.1 hm with hm | hm
        · exact ih hm hp
        · simp at hm

/-- a waiting service in a changed state was polled and is in the state a `Pending` poll left -/
theorem PollSteps.pend_state {S : Service W Req Res Err} {E : W → W → Prop} {v v' : View K S.σ} {w w' : W} {es} (h : PollSteps S E v w es v' w') {k t} :
    ∀ {s}, v'.pend k = some (t, s) → v.pend k = some (t, s) ∨ LeftPending S s := by
  induction h with
  | nil => intro s h; exact Or.inl h
  | env _ _ ih => exact ih
  | snoc hs he ih =>
    intro s hp
    cases he with
    | still h1 h2 =>
      rename_i k0 t0 s0 s0'
      by_cases hk : k = k0
      · subst hk
        change View.upd _ _ _ _ = _ at hp
        rw [upd_self] at hp; cases hp
        exact Or.inr ⟨_, _, _, h2⟩
      · change View.upd _ _ _ _ = _ at hp
        rw [upd_ne _ _ hk] at hp
        exact ih hp
    | promoted h1 h2 =>
      rename_i k0 t0 s0 s0'
      by_cases hk : k = k0
      · subst hk
        change View.upd _ _ _ _ = _ at hp
        rw [upd_self] at hp; cases hp
      · change View.upd _ _ _ _ = _ at hp
        rw [upd_ne _ _ hk] at hp
        exact ih hp
    | failed h1 h2 =>
      rename_i k0 t0 s0 s0' e0
      by_cases hk : k = k0
      · subst hk
        change View.upd _ _ _ _ = _ at hp
        rw [upd_self] at hp; cases hp
      · change View.upd _ _ _ _ = _ at hp
        rw [upd_ne _ _ hk] at hp
        exact ih hp

/-- no cancelled future is left among the pending ones -/
def Cache.Clean {S : Service W Req Res Err} (c : Cache K S) : Prop := ∀ e ∈ c.pending, e.rx ∉ c.cancelled

theorem Cache.putBack_clean {S : Service W Req Res Err} {c : Cache K S} {k : K} {s : S.σ} {p : Nat × Nat} (hc : c.Clean) (hp : p.2 ∉ c.cancelled) : (c.putBack k s p).Clean := by
  unfold Cache.putBack
  split
  · exact hc
  · rename_i hx
    have hg : c.txs.get k = none := by
      cases hg : c.txs.get k with
      | none => rfl
      | some t =>
        exfalso; apply hx
        unfold Cache.pendingContains
        rw [IMap.contains_iff]
        exact List.mem_map.2 ⟨_, IMap.get_some hg, rfl⟩
    unfold Cache.pushPending
    simp only [hg]
    intro e he
    simp only [List.mem_append, List.mem_singleton] at he
    rcases he with he | rfl
    · exact hc e he
    · exact hp

theorem Cache.check_clean {S : Service W Req Res Err} {c c' : Cache K S} {i w w' r} (h : c.Inv) (hc : c.Clean) (hr : (c.checkReadyIndex i).run w = .ok (r, c') w') : c'.Clean := by
  unfold Cache.checkReadyIndex at hr
  cases he : c.ready[i]? with
  | none => simp only [he] at hr; cases hr; exact hc
  | some e =>
    simp only [he] at hr
    obtain ⟨⟨p, s'⟩, w1, h1, h2⟩ := Act.run_bind_eq_ok.1 hr
    have hm := List.mem_of_getElem? he
    rcases p with _ | (er | ⟨⟩)
    · simp only at h2
      split at h2
      · cases h2
      · rename_i k s pair ready'' hs
        cases h2
        have h3 := (IMap.swapRemoveIndex_some hs).1
        have hlt := (List.getElem?_eq_some_iff.1 he).1
        have h3 : (k, (s, pair)) = (e.1, (s', e.2.2)) := by
          simpa [hlt] using h3.symm
        cases h3
        exact Cache.putBack_clean (c := { c with ready := ready'' }) hc (h.rlive e hm)
    · simp only at h2
      split at h2
      · cases h2
      · cases h2; exact hc
    · cases h2; exact hc

namespace Balance

/-! ## Discovery -/

/-- a panic of discovery -/
def DiscPanic (B : BalCfg W Req Res Err K DErr BErr) (m : String) : Prop := ∃ d w, (B.D.poll d).run w = .panic m

/-- what `update_pending_from_discover` leaves -/
structure UpdPost (b : Balance B) (w : W) (r : Except DErr Unit) (b' : Balance B) (w' : W) (chs : List (Change K B.S.σ)) : Prop where
  svcs : b'.svcs = chs.foldl apply b.svcs
  idx : b'.idx = b.idx
  rng : b'.rng = b.rng
  found : Discovered B.D b.disc w chs
  error : ∀ e, r = .error e → ∃ d1 w1, (B.D.poll d1).run w1 = .ok (.ready (some (.error e)), b'.disc) w'

theorem DiscSteps.cons {V : Type} {D : Discover W K V DErr} {d d1 d2 w w1 w2 ch chs} (h : (D.poll d).run w = .ok (.ready (some (.ok ch)), d1) w1)
    (h' : DiscSteps D d1 w1 chs d2 w2) : DiscSteps D d w (ch :: chs) d2 w2 := by
  induction h' with
  | nil => exact .snoc (chs := []) .nil h
  | snoc _ h2 ih => rw [← List.cons_append]; exact .snoc ih h2

theorem Discovered.cons {V : Type} {D : Discover W K V DErr} {d d1 w w1 ch chs} (h : (D.poll d).run w = .ok (.ready (some (.ok ch)), d1) w1)
    (h' : Discovered D d1 w1 chs) : Discovered D d w (ch :: chs) := by
  obtain ⟨d2, w2, h1, h2⟩ := h'
  exact ⟨d2, w2, DiscSteps.cons h h1, h2⟩

/-- an invariant of discovery: kept by every poll that does not end the balancer -/
def DiscClosed (B : BalCfg W Req Res Err K DErr BErr) (J : B.D.δ → Prop) : Prop :=
  ∀ d w p d' w', J d → (B.D.poll d).run w = .ok (p, d') w' → (∀ e, p ≠ .ready (some (.error e))) → J d'

/-- a panic of discovery in a state satisfying `J` -/
def DiscPanicG (B : BalCfg W Req Res Err K DErr BErr) (J : B.D.δ → Prop) (m : String) : Prop := ∃ d w, J d ∧ (B.D.poll d).run w = .panic m

theorem update_wpxG {J : B.D.δ → Prop} (hJ : DiscClosed B J) (n : Nat) : ∀ (b : Balance B) (w : W), J b.disc →
    Act.wpx (DiscPanicG B J) True (update n b) (fun a w' => (∃ chs, UpdPost b w a.1 a.2 w' chs ∧
      ∀ ch ∈ chs, ∃ d w0 d1 w1, J d ∧ (B.D.poll d).run w0 = .ok (.ready (some (.ok ch)), d1) w1) ∧ (a.1 = .ok () → J a.2.disc)) w := by
  induction n with
  | zero => intro b w _; trivial
  | succ n ih =>
    intro b w hj
    unfold update
    rw [Act.wpx_bind]
    refine Act.wpx_mono (Act.wpx_self (fun m hm => ⟨_, _, hj, hm⟩) (fun _ => trivial)) ?_
    rintro ⟨p, d⟩ w1 hr
    have stop : (∀ ch d2 w2, (B.D.poll b.disc).run w ≠ .ok (.ready (some (.ok ch)), d2) w2) → Discovered B.D b.disc w [] :=
      fun h => ⟨_, _, .nil, h⟩
    rcases p with _ | (_ | (e | ch))
    · exact ⟨⟨[], ⟨rfl, rfl, rfl, stop (by intro ch d2 w2 h; rw [hr] at h; cases h), by intro e h; cases h⟩, by simp⟩, fun _ => hJ _ _ _ _ _ hj hr (by simp)⟩
    · exact ⟨⟨[], ⟨rfl, rfl, rfl, stop (by intro ch d2 w2 h; rw [hr] at h; cases h), by intro e h; cases h⟩, by simp⟩, fun _ => hJ _ _ _ _ _ hj hr (by simp)⟩
    · exact ⟨⟨[], ⟨rfl, rfl, rfl, stop (by intro ch d2 w2 h; rw [hr] at h; cases h), by intro e h; cases h; exact ⟨_, _, hr⟩⟩, by simp⟩, fun h => by cases h⟩
    · refine Act.wpx_mono (ih _ w1 (hJ _ _ _ _ _ hj hr (by simp))) ?_
      rintro ⟨r, b'⟩ w2 ⟨⟨chs, h, hg⟩, h'⟩
      refine ⟨⟨ch :: chs, ⟨h.svcs, h.idx, h.rng, Discovered.cons hr h.found, h.error⟩, ?_⟩, h'⟩
      intro ch' hm
      rcases List.mem_cons.1 hm with rfl | hm
      · exact ⟨_, _, _, _, hj, hr⟩
      · exact hg ch' hm

theorem update_wpx (n : Nat) (b : Balance B) (w : W) :
    Act.wpx (DiscPanic B) True (update n b) (fun a w' => ∃ chs, UpdPost b w a.1 a.2 w' chs) w :=
  Act.wpx_weaken (update_wpxG (J := fun _ => True) (fun _ _ _ _ _ _ _ _ => trivial) n b w trivial) (fun m ⟨d, w, _, h⟩ => ⟨d, w, h⟩) id
    (fun _ _ ⟨⟨chs, h, _⟩, _⟩ => ⟨chs, h⟩)

theorem apply_crun {c : Cache K B.S} (ch : Change K B.S.σ) : CRun B.V B.S c (apply c ch) := by
  cases ch with
  | insert k s => exact .one (.push k s)
  | remove k => exact .one (.evict k)

theorem foldl_crun (chs : List (Change K B.S.σ)) : ∀ c : Cache K B.S, CRun B.V B.S c (chs.foldl apply c) := by
  induction chs with
  | nil => intro c; exact .refl
  | cons ch chs ih => intro c; exact (apply_crun ch).trans (ih _)

/-! ## Promotion -/

/-- what `promote_pending_to_ready` leaves -/
structure PromPost (b : Balance B) (w : W) (b' : Balance B) (w' : W) : Prop where
  inv : b'.svcs.Inv
  run : CRun B.V B.S b.svcs b'.svcs
  disc : b'.disc = b.disc
  idx : b'.idx = b.idx
  rng : b'.rng = b.rng
  keys : (b.svcs.ready.map (·.1)) <+: (b'.svcs.ready.map (·.1))
  cnt : b'.svcs.view.count = b.svcs.view.count
  keep : ∀ {Pp Pr}, PollClosed B.S Pp Pr → b.svcs.view.All Pp Pr → b'.svcs.view.All Pp Pr
  polled : ∃ w1, ∀ i ∈ (B.V.order b'.svcs.pending.length w1).1, ∀ e, b'.svcs.pending[i]? = some e → e.rx ∉ b'.svcs.cancelled ∧ LeftPending B.S e.svc
  pend : ∀ k t s, b'.svcs.view.pend k = some (t, s) → b.svcs.view.pend k = some (t, s) ∨ LeftPending B.S s

theorem promote_wpx {Pp Pr : B.S.σ → Prop} (hcl : PollClosed B.S Pp Pr) (n : Nat) : ∀ (b : Balance B) (w : W), b.svcs.Inv → b.svcs.view.All Pp Pr → b.svcs.pending.length < n →
    Act.wpx (SvcPanicG B.S Pp Pr) (SvcSpin B.S) (promote n b) (fun b' w' => PromPost b w b' w') w := by
  induction n with
  | zero => intro b w _ _ h; omega
  | succ n ih =>
    intro b w h hv hl
    unfold promote
    rw [Act.wpx_bind]
    refine Act.wpx_mono (Act.wpx_run (Cache.pollPending_wpxG hcl B.V b.svcs w h hv)) ?_
    rintro ⟨p, c⟩ w1 ⟨⟨es, hp⟩, hrun⟩
    have hp : Cache.PollPost B.V b.svcs w p c w1 es := hp
    have hstep : CRun B.V B.S b.svcs c := .one (.poll hrun)
    have hpend : ∀ k t s, c.view.pend k = some (t, s) → b.svcs.view.pend k = some (t, s) ∨ LeftPending B.S s := fun k t s hx => hp.steps.pend_state hx
    rcases p with _ | (⟨k, e⟩ | ⟨⟩)
    · obtain ⟨h1, h2, w2, h3⟩ := hp.pending rfl
      have hpos : 0 < c.pending.length := List.length_pos_iff.2 h1
      simp only [if_pos hpos, Act.wpx_pure]
      refine ⟨hp.inv, hstep, rfl, rfl, rfl, hp.keys, hp.steps.count, hp.steps.all, ⟨w2, fun i hi e he => ⟨(h3 i hi e he).1, ?_⟩⟩, hpend⟩
      exact hp.steps.polled (h3 i hi e he).2 (hp.inv.pend_iff.2 ⟨List.mem_of_getElem? he, (h3 i hi e he).1⟩)
    · obtain ⟨h1, _⟩ := hp.failed k e rfl
      refine Act.wpx_mono (ih { b with svcs := c } w1 hp.inv (hp.steps.all hcl hv) (by simp only; omega)) ?_
      intro b' w2 hb
      refine ⟨hb.inv, hstep.trans hb.run, hb.disc, hb.idx, hb.rng, hp.keys.trans hb.keys, hb.cnt.trans hp.steps.count, fun hc hv => hb.keep hc (hp.steps.all hc hv), hb.polled, fun k t s hx => ?_⟩
      rcases hb.pend k t s hx with h2 | h2
      · exact hpend k t s h2
      · exact Or.inr h2
    · obtain ⟨h1, _⟩ := hp.done rfl
      have h0 : c.pending.length = 0 := by rw [h1]; rfl
      simp only [if_pos h0, Act.wpx_pure]
      exact ⟨hp.inv, hstep, rfl, rfl, rfl, hp.keys, hp.steps.count, hp.steps.all, ⟨w, fun i _ e he => by simp [h1] at he⟩, hpend⟩

/-! ## Selection -/

/-- a panic of a load function -/
def LoadPanic (B : BalCfg W Req Res Err K DErr BErr) (m : String) : Prop := ∃ s w, (B.L.load s).run w = .panic m

/-- a load function that does not return -/
def LoadSpin (B : BalCfg W Req Res Err K DErr BErr) : Prop := ∃ s w, (B.L.load s).run w = .spin

/-- what `p2c_ready_index` leaves -/
def P2cPost (b : Balance B) (w : W) (o : Option Nat) (b' : Balance B) (w' : W) : Prop :=
  b'.disc = b.disc ∧ b'.svcs = b.svcs ∧ b'.idx = b.idx ∧
  match o with
  | none => b.svcs.ready = [] ∧ w' = w
  | some i => i < b.svcs.ready.length ∧
    ((b.svcs.ready.length = 1 ∧ w' = w) ∨
     ∃ x y r', sampleFloyd2 B.G b.rng b.svcs.ready.length = some ((x, y), r') ∧ x ≠ y ∧ x < b.svcs.ready.length ∧ y < b.svcs.ready.length ∧
      ∃ ex ey lx ly w1, b.svcs.ready[x]? = some ex ∧ b.svcs.ready[y]? = some ey ∧ (B.L.load ex.2.1).run w = .ok lx w1 ∧ (B.L.load ey.2.1).run w1 = .ok ly w' ∧
        i = (if B.L.le lx ly = true then x else y))

/-- a panic of a load function on a service satisfying `Pr` -/
def LoadPanicG (B : BalCfg W Req Res Err K DErr BErr) (Pr : B.S.σ → Prop) (m : String) : Prop := ∃ s w, Pr s ∧ (B.L.load s).run w = .panic m

theorem readyIndexLoad_wpx {Pr : B.S.σ → Prop} {b : Balance B} {i : Nat} (hv : ∀ e ∈ b.svcs.ready, Pr e.2.1) (hi : i < b.svcs.ready.length) (w : W) :
    Act.wpx (LoadPanicG B Pr) (LoadSpin B) (b.readyIndexLoad i) (fun l w' => ∃ e, b.svcs.ready[i]? = some e ∧ (B.L.load e.2.1).run w = .ok l w') w := by
  unfold readyIndexLoad
  have he : b.svcs.ready[i]? = some b.svcs.ready[i] := List.getElem?_eq_getElem hi
  simp only [he]
  refine Act.wpx_mono (Act.wpx_self (fun m hm => ⟨_, _, hv _ (List.mem_of_getElem? he), hm⟩) (fun hm => ⟨_, _, hm⟩)) ?_
  intro l w' h
  exact ⟨_, rfl, h⟩

theorem p2c_wpx {Pr : B.S.σ → Prop} (b : Balance B) (w : W) (hv : ∀ e ∈ b.svcs.ready, Pr e.2.1) : Act.wpx (LoadPanicG B Pr) (LoadSpin B) b.p2c (fun a w' => P2cPost b w a.1 a.2 w') w := by
  unfold p2c
  by_cases h0 : b.svcs.ready.length = 0
  · rw [if_pos h0]
    exact ⟨rfl, rfl, rfl, List.length_eq_zero_iff.1 h0, rfl⟩
  · rw [if_neg h0]
    by_cases h1 : b.svcs.ready.length = 1
    · rw [if_pos h1]
      exact ⟨rfl, rfl, rfl, by omega, Or.inl ⟨h1, rfl⟩⟩
    · rw [if_neg h1]
      obtain ⟨x, y, r', hs, hx, hy, hne⟩ := (C35_distinct B.G b.rng b.svcs.ready.length).1 (by omega)
      simp only [hs, if_neg hne, Act.wpx_bind]
      refine Act.wpx_mono (readyIndexLoad_wpx hv hx w) ?_
      rintro lx w1 ⟨ex, h3, h4⟩
      refine Act.wpx_mono (readyIndexLoad_wpx hv hy w1) ?_
      rintro ly w2 ⟨ey, h5, h6⟩
      refine ⟨rfl, rfl, rfl, ?_, Or.inr ⟨x, y, r', hs, hne, hx, hy, ex, ey, lx, ly, w1, h3, h5, h4, h6, rfl⟩⟩
      split <;> assumption

/-- the endpoint chosen was checked last -/
def Checked (b : Balance B) (w : W) : Prop :=
  ∃ i k s p s0 w0, b.idx = some i ∧ b.svcs.ready[i]? = some (k, (s, p)) ∧ (B.S.pollReady s0).run w0 = .ok (.ready (.ok ()), s) w

/-- what the first half of the loop leaves -/
structure RecheckPost (b : Balance B) (w : W) (r : Bool) (b' : Balance B) (w' : W) : Prop where
  inv : b'.svcs.Inv
  run : CRun B.V B.S b.svcs b'.svcs
  disc : b'.disc = b.disc
  rng : b'.rng = b.rng
  cnt : b'.svcs.view.count = b.svcs.view.count
  keep : ∀ {Pp Pr}, PollClosed B.S Pp Pr → b.svcs.view.All Pp Pr → b'.svcs.view.All Pp Pr
  clean : b.svcs.Clean → b'.svcs.Clean
  yes : r = true → b'.idx = b.idx ∧ ∃ i k s p s0, b.idx = some i ∧ b.svcs.ready[i]? = some (k, (s0, p)) ∧ b'.svcs.ready[i]? = some (k, (s, p)) ∧
    (B.S.pollReady s0).run w = .ok (.ready (.ok ()), s) w' ∧ b'.svcs.ready = b.svcs.ready.set i (k, (s, p))
  no : r = false → b'.idx = none ∧ ((b'.svcs = b.svcs ∧ ∀ i, b.idx = some i → b.svcs.ready.length ≤ i) ∨ b'.svcs.ready.length + 1 = b.svcs.ready.length)
  pend : ∀ k t s, b'.svcs.view.pend k = some (t, s) → b.svcs.view.pend k = some (t, s) ∨ LeftPending B.S s

theorem recheck_wpx {Pp Pr : B.S.σ → Prop} (b : Balance B) (w : W) (h : b.svcs.Inv) (hv : b.svcs.view.All Pp Pr) :
    Act.wpx (SvcPanicG B.S Pp Pr) (SvcSpin B.S) b.recheck (fun a w' => RecheckPost b w a.1 a.2 w') w := by
  unfold recheck
  cases hidx : b.idx with
  | none => exact ⟨h, .refl, rfl, rfl, rfl, fun _ hv => hv, id, fun h => (by cases h), fun _ => ⟨hidx, Or.inl ⟨rfl, fun i hi => (by rw [hidx] at hi; cases hi)⟩⟩, fun k t s hx => Or.inl hx⟩
  | some i =>
    simp only [Act.wpx_bind]
    cases he : b.svcs.ready[i]? with
    | none =>
      have hle : b.svcs.ready.length ≤ i := by simpa using he
      have hr := Cache.checkReadyIndex_none he w
      unfold Act.wpx
      rw [hr]
      exact ⟨h, .refl, rfl, rfl, rfl, fun _ hv => hv, id, fun h => (by cases h), fun _ => ⟨rfl, Or.inl ⟨rfl, fun j hj => (by rw [hidx] at hj; cases hj; exact hle)⟩⟩, fun k t s hx => Or.inl hx⟩
    | some e =>
      obtain ⟨k, s0, p⟩ := e
      obtain ⟨q1, q2, q3, q4, q5⟩ := Cache.checkReadyIndex_spec h he w
      cases hp : (B.S.pollReady s0).run w with
      | panic m => unfold Act.wpx; rw [q1 m hp]; exact ⟨_, _, Or.inr (hv.2 _ _ _ (h.get_ready he)), hp⟩
      | spin => unfold Act.wpx; rw [q2 hp]; exact ⟨_, _, hp⟩
      | ok x w1 =>
        obtain ⟨a, s'⟩ := x
        rcases a with _ | (er | ⟨⟩)
        · obtain ⟨c', h1, h2, h3, h4⟩ := q4 s' w1 hp
          unfold Act.wpx; rw [h1]
          refine ⟨h2, .one (.check h1), rfl, rfl, by rw [h3]; rfl, fun hc hv => (by rw [h3]; exact hv.demote (hc.rp (hv.2 _ _ _ (h.get_ready he)) hp)), fun hc => Cache.check_clean h hc h1, fun h => (by cases h), fun _ => ⟨rfl, Or.inr ?_⟩, ?_⟩
          · have := h4.length_eq; simpa using this.symm
          · intro k1 t1 s1 hx
            rw [h3] at hx
            change (if b.svcs.view.pend k = none then View.upd b.svcs.view.pend k (some (p.2, s')) else b.svcs.view.pend) k1 = _ at hx
            split at hx
            · by_cases hk : k1 = k
              · subst hk; rw [upd_self] at hx; cases hx; exact Or.inr ⟨_, _, _, hp⟩
              · rw [upd_ne _ _ hk] at hx; exact Or.inl hx
            · exact Or.inl hx
        · obtain ⟨c', h1, h2, h3, h4, h5⟩ := q5 s' w1 er hp
          unfold Act.wpx; rw [h1]
          refine ⟨h2, .one (.check h1), rfl, rfl, by rw [h3]; rfl, fun hc hv => (by rw [h3]; exact View.All.upd_rdy (f := b.svcs.view.pend) (g := b.svcs.view.rdy) (n := b.svcs.view.count) hv (fun t s hx => by cases hx)), fun hc => Cache.check_clean h hc h1, fun h => (by cases h), fun _ => ⟨rfl, Or.inr ?_⟩, ?_⟩
          · have := h4.length_eq; simpa using this.symm
          · intro k1 t1 s1 hx; rw [h3] at hx; exact Or.inl hx
        · obtain ⟨c', h1, h2, h3, h4, h5⟩ := q3 s' w1 hp
          unfold Act.wpx; rw [h1]
          refine ⟨h2, .one (.check h1), rfl, rfl, by rw [h3]; rfl, fun hc hv => (by rw [h3]; exact View.All.upd_rdy (f := b.svcs.view.pend) (g := b.svcs.view.rdy) (n := b.svcs.view.count) hv (fun t s hx => by cases hx; exact hc.rr (hv.2 _ _ _ (h.get_ready he)) hp)), fun hc => Cache.check_clean h hc h1, fun _ => ⟨hidx.symm, i, k, s', p, s0, hidx, he, ?_, hp, h4⟩, fun h => (by cases h), ?_⟩
          · rw [h4]; have := (List.getElem?_eq_some_iff.1 he).1; simp [this]
          · intro k1 t1 s1 hx; rw [h3] at hx; exact Or.inl hx

/-- the index was chosen by `p2c_ready_index` on a state, and the endpoint there then found ready as the last thing -/
def Chosen (b' : Balance B) (w' : W) : Prop :=
  ∃ (b1 : Balance B) (w1 w2 : W) (b2 : Balance B) (i : Nat) (k : K) (s : B.S.σ) (p : Nat × Nat) (s0 : B.S.σ), b1.p2c.run w1 = .ok (some i, b2) w2 ∧ b'.idx = some i ∧ b1.svcs.ready[i]? = some (k, (s0, p)) ∧ b'.svcs.ready[i]? = some (k, (s, p)) ∧
    (B.S.pollReady s0).run w2 = .ok (.ready (.ok ()), s) w' ∧ b'.svcs.ready = b1.svcs.ready.set i (k, (s, p))

/-- the endpoint that was chosen already was found ready as the first and last thing -/
def Kept (b : Balance B) (w : W) (b' : Balance B) (w' : W) : Prop :=
  ∃ i k s p s0, b.idx = some i ∧ b'.idx = some i ∧ b.svcs.ready[i]? = some (k, (s0, p)) ∧ b'.svcs.ready[i]? = some (k, (s, p)) ∧
    (B.S.pollReady s0).run w = .ok (.ready (.ok ()), s) w' ∧ b'.svcs.ready = b.svcs.ready.set i (k, (s, p))

/-- what the loop leaves -/
structure SelPost (b : Balance B) (w : W) (p : Poll (Except BErr Unit)) (b' : Balance B) (w' : W) : Prop where
  inv : b'.svcs.Inv
  run : CRun B.V B.S b.svcs b'.svcs
  disc : b'.disc = b.disc
  cnt : b'.svcs.view.count = b.svcs.view.count
  keep : ∀ {Pp Pr}, PollClosed B.S Pp Pr → b.svcs.view.All Pp Pr → b'.svcs.view.All Pp Pr
  clean : b.svcs.Clean → b'.svcs.Clean
  noerr : ∀ e, p ≠ .ready (.error e)
  ready : p = .ready (.ok ()) → Checked b' w' ∧ (Kept b w b' w' ∨ Chosen b' w')
  pending : p = .pending → b'.svcs.ready = [] ∧ b'.idx = none
  pend : ∀ k t s, b'.svcs.view.pend k = some (t, s) → b.svcs.view.pend k = some (t, s) ∨ LeftPending B.S s

/-- the index is in range -/
def InRange (b : Balance B) : Prop := ∃ i, b.idx = some i ∧ i < b.svcs.ready.length

/-- panics of endpoints and load functions -/
def SelPanic (B : BalCfg W Req Res Err K DErr BErr) (m : String) : Prop := SvcPanic B.S m ∨ LoadPanic B m

def SelSpin (B : BalCfg W Req Res Err K DErr BErr) : Prop := SvcSpin B.S ∨ LoadSpin B

/-- the same, in states satisfying `Pp` or `Pr` -/
def SelPanicG (B : BalCfg W Req Res Err K DErr BErr) (Pp Pr : B.S.σ → Prop) (m : String) : Prop := SvcPanicG B.S Pp Pr m ∨ LoadPanicG B Pr m

theorem SelPanicG.panic {Pp Pr : B.S.σ → Prop} {m : String} (h : SelPanicG B Pp Pr m) : SelPanic B m := by
  rcases h with h | ⟨s, w, _, h⟩
  · exact Or.inl h.panic
  · exact Or.inr ⟨s, w, h⟩

theorem all_ready {Pp Pr : B.S.σ → Prop} {b : Balance B} (h : b.svcs.Inv) (hv : b.svcs.view.All Pp Pr) : ∀ e ∈ b.svcs.ready, Pr e.2.1 := by
  intro e he
  obtain ⟨i, hi, he⟩ := List.getElem_of_mem he
  obtain ⟨k, s, p⟩ := e
  exact hv.2 _ _ _ (h.get_ready (List.getElem?_eq_some_iff.2 ⟨hi, he⟩))

theorem select_wpx {Pp Pr : B.S.σ → Prop} (hcl : PollClosed B.S Pp Pr) (n : Nat) : ∀ (b : Balance B) (w : W), b.svcs.Inv → b.svcs.view.All Pp Pr → ((InRange b ∧ b.svcs.ready.length ≤ n) ∨ b.svcs.ready.length + 1 ≤ n) →
    Act.wpx (SelPanicG B Pp Pr) (SelSpin B) (select n b) (fun a w' => SelPost b w a.1 a.2 w') w := by
  induction n with
  | zero =>
    rintro b w _ _ (⟨⟨i, _, h1⟩, h2⟩ | h)
    · omega
    · omega
  | succ n ih =>
    intro b w h hv hn
    unfold select
    rw [Act.wpx_bind]
    refine Act.wpx_weaken (recheck_wpx b w h hv) (fun m => Or.inl) Or.inl ?_
    rintro ⟨r, b1⟩ w1 hr
    have hr : RecheckPost b w r b1 w1 := hr
    cases r with
    | true =>
      obtain ⟨h1, i, k, s, p, s0, h2, h3, h4, h5, h6⟩ := hr.yes rfl
      exact ⟨hr.inv, hr.run, hr.disc, hr.cnt, hr.keep, hr.clean, fun e he => (by cases he), fun _ => ⟨⟨i, k, s, p, s0, w, h1.trans h2, h4, h5⟩, Or.inl ⟨i, k, s, p, s0, h2, h1.trans h2, h3, h4, h5, h6⟩⟩, fun he => (by cases he), hr.pend⟩
    | false =>
      obtain ⟨h1, h2⟩ := hr.no rfl
      have hle : b1.svcs.ready.length ≤ n := by
        rcases h2 with ⟨h2, h3⟩ | h2
        · rcases hn with ⟨⟨i, h4, h5⟩, h6⟩ | hn
          · have := h3 i h4; omega
          · rw [h2]; omega
        · rcases hn with ⟨_, hn⟩ | hn <;> omega
      simp only [Bool.false_eq_true, if_false, Act.wpx_bind]
      unfold choose
      simp only [Act.wpx_bind]
      refine Act.wpx_weaken (Act.wpx_run (p2c_wpx b1 w1 (all_ready hr.inv (hr.keep hcl hv)))) (fun m => Or.inr) Or.inr ?_
      rintro ⟨o, b2⟩ w2 ⟨hp, hrun⟩
      have hp : P2cPost b1 w1 o b2 w2 := hp
      obtain ⟨p1, p2, p3, p4⟩ := id hp
      cases o with
      | none =>
        obtain ⟨p4, rfl⟩ := p4
        have h0 : b2.svcs.ready.length = 0 := by rw [p2, p4]; rfl
        simp only [if_pos h0, Act.wpx_pure, Bool.false_eq_true, if_false]
        refine ⟨by rw [p2]; exact hr.inv, by rw [p2]; exact hr.run, p1.trans hr.disc, by rw [p2]; exact hr.cnt, by rw [p2]; exact hr.keep, by rw [p2]; exact hr.clean, fun e he => (by cases he), fun he => (by cases he),
          fun _ => ⟨by rw [p2]; exact p4, rfl⟩, by rw [p2]; exact hr.pend⟩
      | some i =>
        obtain ⟨p4, p5⟩ := p4
        simp only [Act.wpx_pure, if_true]
        have hin : InRange { b2 with idx := some i } := ⟨i, rfl, by rw [p2]; exact p4⟩
        refine Act.wpx_mono (ih { b2 with idx := some i } w2 (by rw [p2]; exact hr.inv) (by rw [p2]; exact hr.keep hcl hv) (Or.inl ⟨hin, by rw [p2]; exact hle⟩)) ?_
        rintro ⟨q, b3⟩ w3 hs
        have hs : SelPost { b2 with idx := some i } w2 q b3 w3 := hs
        refine ⟨hs.inv, ?_, hs.disc.trans (p1.trans hr.disc), hs.cnt.trans (by simp only [p2]; exact hr.cnt), fun hc hv => hs.keep hc (by simp only [p2]; exact hr.keep hc hv), fun hc => hs.clean (by simp only [p2]; exact hr.clean hc), hs.noerr, ?_, hs.pending, ?_⟩
        · have := hs.run; simp only at this; rw [p2] at this; exact hr.run.trans this
        · intro hq
          obtain ⟨a1, a2⟩ := hs.ready hq
          refine ⟨a1, Or.inr ?_⟩
          rcases a2 with ⟨j, k, s, p, s0, c1, c2, c3, c4, c5, c6⟩ | a2
          · cases c1
            exact ⟨b1, w1, w2, b2, i, k, s, p, s0, hrun, c2, by rw [← p2]; exact c3, c4, c5, by rw [c6]; simp only [p2]⟩
          · exact a2
        · intro k t s hx
          rcases hs.pend k t s hx with h3 | h3
          · simp only at h3; rw [p2] at h3; exact hr.pend k t s h3
          · exact Or.inr h3

/-! ## poll_ready -/

/-- what happens after discovery -/
structure RestPost (b : Balance B) (w : W) (p : Poll (Except BErr Unit)) (b' : Balance B) (w' : W) : Prop where
  inv : b'.svcs.Inv
  run : CRun B.V B.S b.svcs b'.svcs
  disc : b'.disc = b.disc
  cnt : b'.svcs.view.count = b.svcs.view.count
  keep : ∀ {Pp Pr}, PollClosed B.S Pp Pr → b.svcs.view.All Pp Pr → b'.svcs.view.All Pp Pr
  noerr : ∀ e, p ≠ .ready (.error e)
  ready : p = .ready (.ok ()) → Checked b' w' ∧ ((∃ i, b.idx = some i ∧ b'.idx = some i) ∨ Chosen b' w')
  pending : p = .pending → b'.svcs.ready = [] ∧ b'.idx = none
  pend : ∀ k t s, b'.svcs.view.pend k = some (t, s) → b.svcs.view.pend k = some (t, s) ∨ LeftPending B.S s
  full : (∀ n w i, i < n → i ∈ (B.V.order n w).1) → ∀ k t s, b'.svcs.view.pend k = some (t, s) → LeftPending B.S s
  clean : (∀ n w i, i < n → i ∈ (B.V.order n w).1) → b'.svcs.Clean

theorem rest_wpxG {Pp Pr : B.S.σ → Prop} (hcl : PollClosed B.S Pp Pr) (b : Balance B) (w : W) (h : b.svcs.Inv) (hv : b.svcs.view.All Pp Pr) : Act.wpx (SelPanicG B Pp Pr) (SelSpin B) b.rest (fun a w' => RestPost b w a.1 a.2 w') w := by
  unfold rest
  rw [Act.wpx_bind]
  refine Act.wpx_weaken (promote_wpx hcl _ b w h hv (Nat.lt_succ_self _)) (fun m => Or.inl) Or.inl ?_
  intro b1 w1 h1
  refine Act.wpx_mono (select_wpx hcl _ b1 w1 h1.inv (h1.keep hcl hv) (Or.inr (Nat.le_succ _))) ?_
  rintro ⟨p, b2⟩ w2 h2
  have h2 : SelPost b1 w1 p b2 w2 := h2
  refine ⟨h2.inv, h1.run.trans h2.run, h2.disc.trans h1.disc, h2.cnt.trans h1.cnt, fun hc hv => h2.keep hc (h1.keep hc hv), h2.noerr, ?_, h2.pending, ?_, ?_, ?_⟩
  · intro hp
    obtain ⟨a1, a2⟩ := h2.ready hp
    refine ⟨a1, ?_⟩
    rcases a2 with ⟨i, k, s, p, s0, c1, c2, _⟩ | a2
    · exact Or.inl ⟨i, h1.idx ▸ c1, c2⟩
    · exact Or.inr a2
  · intro k t s hx
    rcases h2.pend k t s hx with h3 | h3
    · exact h1.pend k t s h3
    · exact Or.inr h3
  · intro hfull k t s hx
    rcases h2.pend k t s hx with h3 | h3
    · obtain ⟨w0, h4⟩ := h1.polled
      have hm := (h1.inv.pend_iff.1 h3).1
      obtain ⟨i, hi, he⟩ := List.getElem_of_mem hm
      exact (h4 i (hfull _ _ _ hi) _ (by rw [List.getElem?_eq_some_iff]; exact ⟨hi, he⟩)).2
    · exact h3
  · intro hfull
    apply h2.clean
    intro e he
    obtain ⟨w0, h4⟩ := h1.polled
    obtain ⟨i, hi, he⟩ := List.getElem_of_mem he
    exact (h4 i (hfull _ _ _ hi) _ (by rw [List.getElem?_eq_some_iff]; exact ⟨hi, he⟩)).1

theorem rest_wpx (b : Balance B) (w : W) (h : b.svcs.Inv) : Act.wpx (SelPanic B) (SelSpin B) b.rest (fun a w' => RestPost b w a.1 a.2 w') w :=
  Act.wpx_weaken (rest_wpxG PollClosed.top b w h (View.All.top _)) (fun _ => SelPanicG.panic) id (fun _ _ h => h)

/-- what `poll_ready` leaves -/
structure ReadyPost (b : Balance B) (w : W) (p : Poll (Except BErr Unit)) (b' : Balance B) (w' : W) : Prop where
  inv : b'.svcs.Inv
  run : CRun B.V B.S b.svcs b'.svcs
  /-- the changes read, the state after them -/
  upd : ∃ chs b1 w1, Discovered B.D b.disc w chs ∧ b1.svcs = chs.foldl apply b.svcs ∧ b1.idx = b.idx ∧
    ((∃ e, p = .ready (.error (B.fromDisc e)) ∧ b' = b1 ∧ ∃ d w0, (B.D.poll d).run w0 = .ok (.ready (some (.error e)), b1.disc) w') ∨ RestPost b1 w1 p b' w')

theorem pollReady_wpx (fuel : Nat) (b : Balance B) (w : W) (h : b.svcs.Inv) :
    Act.wpx (fun m => DiscPanic B m ∨ SelPanic B m) (SelSpin B ∨ (update fuel b).run w = .spin) (b.pollReady fuel) (fun a w' => ReadyPost b w a.1 a.2 w') w := by
  unfold pollReady
  rw [Act.wpx_bind]
  have hu := update_wpx fuel b w
  unfold Act.wpx at hu ⊢
  cases hr : (update fuel b).run w with
  | panic m => rw [hr] at hu; exact Or.inl hu
  | spin => exact Or.inr rfl
  | ok x w1 =>
    obtain ⟨r, b1⟩ := x
    rw [hr] at hu
    obtain ⟨chs, hu⟩ := hu
    have hu : UpdPost b w r b1 w1 chs := hu
    have hrun : CRun B.V B.S b.svcs b1.svcs := by rw [hu.svcs]; exact foldl_crun chs _
    have hinv := CReach.inv h hrun
    cases r with
    | error e => exact ⟨hinv, hrun, chs, b1, w1, hu.found, hu.svcs, hu.idx, Or.inl ⟨e, rfl, rfl, hu.error e rfl⟩⟩
    | ok u =>
      have := Act.wpx_weaken (rest_wpx b1 w1 hinv) (pan' := fun m => DiscPanic B m ∨ SelPanic B m) (spn' := SelSpin B ∨ (Out.ok (Except.ok u, b1) w1 : Out W (Except DErr Unit × Balance B)) = .spin)
        (fun m => Or.inr) Or.inl (Q' := fun a w' => ReadyPost b w a.1 a.2 w') ?_
      · exact this
      · rintro ⟨p, b2⟩ w2 h2
        exact ⟨h2.inv, hrun.trans h2.run, chs, b1, w1, hu.found, hu.svcs, hu.idx, Or.inr h2⟩

end Balance
end Tower
