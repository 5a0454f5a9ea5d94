import Verif.Proof.BalLoad2
import Verif.Props.C30_Balance
import Verif.Props.C37_Load

/-!
# C67: a balancer over `PendingRequests` (or `PeakEwma`) sends requests where fewer are in flight

The theorems are about every history of a balancer whose endpoints track their load (`TRun`): discovery inserts and removes endpoints, the balancer is polled and called, response futures are polled and dropped, in any interleaving.
Endpoint `t` is the `t`-th that discovery inserted.
-/

namespace Tower
set_option linter.unusedSectionVars false
open Act
variable {W Req Res Err Res' K DErr BErr : Type} [DecidableEq K] {fuel : Nat}

/-! ## Specification -/

/-- the number of requests in flight at endpoint `t`: dispatched to it and not finished -/
def inFlightAt (t : Nat) (log : List (Nat × LoadEv)) : Nat := (inFlight (atEndpoint t log)).length

/-- which endpoint is at a place of the ready ones, by the number the cache gave it -/
def readyNo {B : BalCfg W Req Res Err K DErr BErr} (b : Balance B) (i : Nat) : Option Nat := b.svcs.ready[i]?.map (fun e => e.2.2.2)

/-! ## Proofs -/

section general
variable {X : TBal W Req Res Err Res' K DErr BErr}

theorem TRun.live (hX : X.Reads) {x : TState X} {log : List (Nat × LoadEv)} (h : TRun X fuel x log) : TInv (fun (_ : X.T.R) l log c => LiveOk l log c) x log :=
  TRun.induct (liveOk_closed X.T) (fun _ _ => liveOk_new) hX h

theorem TRun.reach {x : TState X} {log : List (Nat × LoadEv)} (h : TRun X fuel x log) : ∃ chs, BalReach X.cfg fuel chs x.bal := by
  induction h with
  | new d r => exact ⟨[], d, r, .refl⟩
  | ready _ hr ih =>
    obtain ⟨chs, d, r, hb⟩ := ih
    have hi := (BalReach.log ⟨d, r, hb⟩).inv
    obtain ⟨chs', _, _, h1, _⟩ := (Balance.ready_post hi hr).upd
    exact ⟨_, d, r, .ready hb hr h1⟩
  | call _ hc ih =>
    obtain ⟨chs, d, r, hb⟩ := ih
    exact ⟨_, d, r, .call hb hc⟩
  | poll _ _ _ ih => exact ih
  | drop_future _ _ _ ih => exact ih
  | drop_response _ _ _ ih => exact ih
  | other _ _ _ ih => exact ih

theorem Cache.Tagged.view {S : Service W Req Res Err} {P : S.σ → Nat → Prop} {c : Cache K S} (h : c.Tagged P) {k : K} {t : Nat} {s : S.σ} (hv : c.view.pend k = some (t, s) ∨ c.view.rdy k = some (t, s)) : P s t := by
  rcases hv with hv | hv
  · unfold Cache.view at hv
    simp only [Option.map_eq_some_iff, Prod.mk.injEq] at hv
    obtain ⟨e, he, rfl, rfl⟩ := hv
    exact h.1 e (List.mem_of_find?_eq_some he)
  · unfold Cache.view at hv
    simp only [Option.map_eq_some_iff, Prod.mk.injEq] at hv
    obtain ⟨v, he, rfl, rfl⟩ := hv
    exact h.2 (k, v) (IMap.get_some he)

/-- **C67.** The balancer in such a history is one of those of C30 - C34, so all that is proved there holds of it; the endpoints made are those discovery inserted; the state of endpoint `t`, wherever the balancer holds it, uses the `t`-th of the shared states (so no two endpoints share one). -/
theorem C67_endpoints (hX : X.Reads) {x : TState X} {log : List (Nat × LoadEv)} (h : TRun X fuel x log) :
    (∃ chs, BalReach X.cfg fuel chs x.bal ∧ x.cells.length = (inserts chs).length) ∧
    ∀ k t s, (x.bal.svcs.view.pend k = some (t, s) ∨ x.bal.svcs.view.rdy k = some (t, s)) → s.2 = t ∧ t < x.cells.length := by
  have hi := (h.live hX).ok
  obtain ⟨chs, hb⟩ := h.reach
  refine ⟨⟨chs, hb, ?_⟩, fun k t s hv => ⟨hi.1.view hv, ?_⟩⟩
  · have := hb.log.count
    rw [← this]; exact hi.2.symm
  · have h1 : x.bal.svcs.view.Holds k t := by
      rcases hv with hv | hv
      · exact Or.inl ⟨s, hv⟩
      · exact Or.inr ⟨s, hv⟩
    have h2 := hb.log.inv.holds_lt h1
    have h3 : x.bal.svcs.view.count = x.cells.length := hi.2
    omega

/-- **C67.** A call of the balancer goes to an endpoint that is ready in it, and this is the endpoint that the log names: the future returned is counted there. -/
theorem C67_dispatch (hX : X.Reads) {x : TState X} {log : List (Nat × LoadEv)} (h : TRun X fuel x log) {q : Req} {w w' : W} {f : X.cfg.S.φ} {b' : Balance X.cfg} {cells' : List X.T.R}
    (hc : ((balance X.cfg fuel).call x.bal q).run (x.cells, w) = .ok (f, b') (cells', w')) :
    ∃ k s s', x.bal.svcs.view.rdy k = some (f.2, s) ∧ (X.S.call s.1 q).run w = .ok (f.1.1, s') w' := by
  obtain ⟨chs, hb⟩ := h.reach
  obtain ⟨k, t, s, s', h1, h2, _⟩ := C32_dispatch hb hc
  have ht := ((C67_endpoints hX h).2 k t s (Or.inr h1)).1
  obtain ⟨⟨f3, i3⟩, w3, h5, h6⟩ := run_bind_eq_ok.1 h2
  cases h6
  obtain ⟨r, r', h7, h8, h9⟩ := atCell_eq_ok.1 h5
  obtain ⟨f0, hd, rfl, h10, h11⟩ := tracked_call h8
  subst ht
  exact ⟨k, s, _, h1, h11⟩

/-- the loads compared: `v t` is what reading the load of endpoint `t` gives, in any world met while the balancer is polled -/
theorem choice_aux (hX : X.Reads) {x : TState X} {log : List (Nat × LoadEv)} (h : TRun X fuel x log) {w w' : W} {b' : Balance X.cfg} {cells' : List X.T.R}
    (hr : ((balance X.cfg fuel).pollReady x.bal).run (x.cells, w) = .ok (.ready (.ok ()), b') (cells', w')) :
    ∃ i, b'.idx = some i ∧ (x.bal.idx = some i ∨ b'.svcs.ready.length = 1 ∨
      ∃ g g' a b ta tb la lb c1 c2 ra ra' rb rb', sampleFloyd2 X.G g b'.svcs.ready.length = some ((a, b), g') ∧ a ≠ b ∧ readyNo b' a = some ta ∧ readyNo b' b = some tb ∧ CellsExt X x.cells c1 ∧ CellsExt X x.cells c2 ∧
        c1[ta]? = some ra ∧ X.ld.run ra = .ok la ra' ∧ c2[tb]? = some rb ∧ X.ld.run rb = .ok lb rb' ∧ i = if X.le la lb = true then a else b) := by
  have hi := (h.live hX).ok
  obtain ⟨q1, q2, q3⟩ := ready_rel hX hi hr
  obtain ⟨i, hi1, hi2⟩ := q3 rfl
  refine ⟨i, hi1, ?_⟩
  rcases hi2 with hi2 | ⟨w0, e1, _, b1, b2, w1, w2, k, s, qq, s0, e3, e4, e5, e6, e7, e8, e9⟩
  · exact Or.inl hi2
  · right
    obtain ⟨p1, p2, p3, p4⟩ := C33_p2c e6
    have hlen : b'.svcs.ready.length = b1.svcs.ready.length := by rw [e9, List.length_set]
    have hlt := (List.getElem?_eq_some_iff.1 e7).1
    by_cases h1 : b1.svcs.ready.length = 1
    · left; rw [hlen]; exact h1
    · right
      obtain ⟨a, b, g', ea, eb, la, lb, w3, z1, z2, z3, z4, z5, z6, z7⟩ := p4 (by omega)
      have hno : ∀ j e, b1.svcs.ready[j]? = some e → readyNo b' j = some e.2.2.2 ∧ e.2.1.2 = e.2.2.2 := by
        intro j e hj
        refine ⟨?_, e5.2 e (List.mem_of_getElem? hj)⟩
        unfold readyNo
        rw [e9]
        by_cases hij : i = j
        · subst hij
          rw [e7] at hj; cases hj
          simp [hlt]
        · rw [List.getElem?_set_ne hij, hj]; rfl
      obtain ⟨ra, ra', y1, y2, y3⟩ := atCell_eq_ok.1 z5
      obtain ⟨rb, rb', y4, y5, y6⟩ := atCell_eq_ok.1 z6
      obtain ⟨y7, _⟩ := fst_eq_ok.1 y2
      obtain ⟨y8, _⟩ := fst_eq_ok.1 y5
      obtain ⟨n1, n2⟩ := hno a ea z3
      obtain ⟨n3, n4⟩ := hno b eb z4
      have hx1 : CellsExt X x.cells w1.1 := e1.trans e3.ext
      have hx2 : CellsExt X x.cells w3.1 := hx1.trans (TBal.load_rel hX z5).ext
      rw [hlen]
      refine ⟨b1.rng, g', a, b, _, _, la, lb, w1.1, w3.1, ra, ra', rb, rb', z1, z2, n1, n3, hx1, hx2, n2 ▸ y1, y7, n4 ▸ y4, y8, ?_⟩
      rcases z7 with ⟨z8, z9⟩ | ⟨z8, z9⟩
      · cases z9; rw [if_pos z8]
      · cases z9; rw [if_neg (by rw [show X.le la lb = false from z8]; simp)]

end general

/-! ## PendingRequests -/

section pending
variable {C : Completion Res Res'} {S : Service W Req Res Err} {D : Discover W K S.σ DErr} {G : Rng} {V : Sched W} {fromErr : Err → BErr} {fromDisc : DErr → BErr}

theorem pendingBal_reads : (pendingBal C S D G V fromErr fromDisc : TBal W Req Res Err Res' K DErr BErr).Reads := by
  intro a c b h
  change (if (a : Nat) = 0 then _ else _) = _ at h
  split at h
  · cases h
  · cases h; rfl

theorem pending_closed : LoadClosed pendingTracker (fun (r : Nat) l log c => LiveOk l log c ∧ r = 1 + l.length) := by
  have hc : LoadClosed pendingTracker (fun (r : Nat) l _ _ => r = 1 + l.length) := by
    refine ⟨?_, ?_, ?_, ?_⟩
    · intro r l l' log c h p; rw [← p.length_eq]; exact h
    · intro r l log c hd r1 h h1; cases h1; simp only [List.length_cons]; simp only at h; omega
    · intro r n hd l log c r1 h h1; cases h1; simp only [List.length_cons] at h ⊢; omega
    · intro r l log c r1 h h1; cases h1; exact h
  exact LoadClosed.and (liveOk_closed pendingTracker) hc

theorem pending_fresh (r : Nat) (h : (pendingBal C S D G V fromErr fromDisc : TBal W Req Res Err Res' K DErr BErr).Fresh r) :
    LiveOk ([] : List (Nat × Unit)) [] 0 ∧ r = 1 + ([] : List (Nat × Unit)).length := by
  obtain ⟨w, w', h⟩ := h
  cases h
  exact ⟨liveOk_new, rfl⟩

/-- what reading the load of endpoint `t` gives while the balancer is polled -/
theorem pending_read {x : TState (pendingBal C S D G V fromErr fromDisc : TBal W Req Res Err Res' K DErr BErr)} {log : List (Nat × LoadEv)} (h : TRun _ fuel x log) {cells' : List Nat}
    (hx : CellsExt (pendingBal C S D G V fromErr fromDisc : TBal W Req Res Err Res' K DErr BErr) x.cells cells') {t : Nat} {r : Nat} (hr : cells'[t]? = some r) : pendingLoad.run r = .ok (inFlightAt t log) r := by
  have hi := TRun.induct pending_closed pending_fresh pendingBal_reads h
  obtain ⟨h1, h2⟩ := hi.ext pending_closed pending_fresh hx t r hr
  change r = 1 + (x.live t).length at h2
  have h3 : inFlightAt t log = (x.live t).length := h1.length.symm
  show (if r = 0 then _ else Out.ok (r - 1) r) = _
  rw [if_neg (by omega), h3]
  congr 1
  omega

/-- **C67.** In every history of a balancer over `PendingRequests`, the load it reads for an endpoint it holds is the number of requests in flight at that endpoint; reading it changes nothing and never panics. -/
theorem C67_load {x : TState (pendingBal C S D G V fromErr fromDisc : TBal W Req Res Err Res' K DErr BErr)} {log : List (Nat × LoadEv)} (h : TRun _ fuel x log) {k : K} {t : Nat}
    {s : (pendingBal C S D G V fromErr fromDisc : TBal W Req Res Err Res' K DErr BErr).cfg.S.σ} (hv : x.bal.svcs.view.pend k = some (t, s) ∨ x.bal.svcs.view.rdy k = some (t, s)) (w : W) :
    ((pendingBal C S D G V fromErr fromDisc : TBal W Req Res Err Res' K DErr BErr).cfg.L.load s).run (x.cells, w) = .ok (inFlightAt t log) (x.cells, w) := by
  obtain ⟨h1, h2⟩ := (C67_endpoints pendingBal_reads h).2 k t s hv
  subst h1
  have hr := List.getElem?_eq_getElem h2
  have := pending_read h (CellsSame.refl _ _).ext hr
  refine atCell_eq_ok.2 ⟨_, _, hr, fst_eq_ok.2 ⟨this, rfl⟩, ?_⟩
  exact (set_self hr).symm

/-- **C67.** When `poll_ready` of a balancer over `PendingRequests` returns `Ready(Ok)`, the endpoint that the next `call` goes to (at `idx` of the ready ones) was found ready and was either chosen by an earlier `poll_ready`, or it is the only one ready, or two of those ready were drawn at random (`sample_floyd2`) and it
is the one of these with fewer requests in flight, the first one drawn if there are equally many. -/
theorem C67_choice {x : TState (pendingBal C S D G V fromErr fromDisc : TBal W Req Res Err Res' K DErr BErr)} {log : List (Nat × LoadEv)} (h : TRun _ fuel x log) {w w' : W}
    {b' : Balance (pendingBal C S D G V fromErr fromDisc : TBal W Req Res Err Res' K DErr BErr).cfg} {cells' : List Nat}
    (hr : ((balance _ fuel).pollReady x.bal).run (x.cells, w) = .ok (.ready (.ok ()), b') (cells', w')) :
    ∃ i, b'.idx = some i ∧ (x.bal.idx = some i ∨ b'.svcs.ready.length = 1 ∨
      ∃ g g' a b ta tb, sampleFloyd2 G g b'.svcs.ready.length = some ((a, b), g') ∧ a ≠ b ∧ readyNo b' a = some ta ∧ readyNo b' b = some tb ∧
        i = if inFlightAt ta log ≤ inFlightAt tb log then a else b) := by
  obtain ⟨i, h1, h2⟩ := choice_aux pendingBal_reads h hr
  refine ⟨i, h1, ?_⟩
  rcases h2 with h2 | h2 | ⟨g, g', a, b, ta, tb, la, lb, c1, c2, ra, ra', rb, rb', y1, y2, y3, y4, y5, y6, y7, y8, y9, y10, y11⟩
  · exact Or.inl h2
  · exact Or.inr (Or.inl h2)
  · refine Or.inr (Or.inr ⟨g, g', a, b, ta, tb, y1, y2, y3, y4, ?_⟩)
    have e1 := pending_read h y5 y7
    have e2 := pending_read h y6 y9
    rw [show pendingLoad.run ra = _ from y8] at e1
    rw [show pendingLoad.run rb = _ from y10] at e2
    cases e1; cases e2
    rw [y11]
    simp only [decide_eq_true_eq]

/-- **C67.** So if the balancer had not chosen before (as after every `call`), and two or more endpoints are ready, the next request does not go to an endpoint with more requests in flight than each of the others that are ready. -/
theorem C67_not_most_loaded {x : TState (pendingBal C S D G V fromErr fromDisc : TBal W Req Res Err Res' K DErr BErr)} {log : List (Nat × LoadEv)} (h : TRun _ fuel x log) (hidx : x.bal.idx = none) {w w' : W}
    {b' : Balance (pendingBal C S D G V fromErr fromDisc : TBal W Req Res Err Res' K DErr BErr).cfg} {cells' : List Nat}
    (hr : ((balance _ fuel).pollReady x.bal).run (x.cells, w) = .ok (.ready (.ok ()), b') (cells', w')) (h2 : 2 ≤ b'.svcs.ready.length) :
    ∃ i t j u, b'.idx = some i ∧ readyNo b' i = some t ∧ j ≠ i ∧ readyNo b' j = some u ∧ inFlightAt t log ≤ inFlightAt u log := by
  obtain ⟨i, h3, h4⟩ := C67_choice h hr
  rw [hidx] at h4
  rcases h4 with h4 | h4 | ⟨g, g', a, b, ta, tb, y1, y2, y3, y4, rfl⟩
  · cases h4
  · omega
  · by_cases hle : inFlightAt ta log ≤ inFlightAt tb log
    · rw [if_pos hle] at h3
      exact ⟨a, ta, b, tb, h3, y3, fun h => y2 h.symm, y4, hle⟩
    · rw [if_neg hle] at h3
      exact ⟨b, tb, a, ta, h3, y4, y2, y3, by omega⟩

end pending

/-! ## PeakEwma -/

/-- an estimate of the round trip time of endpoint `t` that is in line with what was observed there: not negative, not above both the default and every round trip time observed at that endpoint -/
def FairEstimate (defaultRtt : Nat) (t : Nat) (log : List (Nat × LoadEv)) (est : ℝ) : Prop :=
  0 ≤ est ∧ (est ≤ nanos defaultRtt ∨ ∃ n t0 t1, (t, LoadEv.called n t0) ∈ log ∧ (t, LoadEv.finished n t1) ∈ log ∧ t0 ≤ t1 ∧ est ≤ nanos (t1 - t0))

section ewma
variable {decayNs : ℝ} {d0 : Nat} {clock : Act W (Nat × (Nat → Nat))} {C : Completion Res Res'} {S : Service W Req Res Err} {D : Discover W K S.σ DErr} {G : Rng} {V : Sched W} {fromErr : Err → BErr} {fromDisc : DErr → BErr}

theorem mem_atEndpoint {t : Nat} {log : List (Nat × LoadEv)} {e : LoadEv} : e ∈ atEndpoint t log ↔ (t, e) ∈ log := by
  unfold atEndpoint
  rw [List.mem_filterMap]
  constructor
  · rintro ⟨⟨t', e'⟩, h1, h2⟩
    simp only at h2
    split at h2
    · rename_i ht; cases h2; subst ht; exact h1
    · cases h2
  · intro h
    exact ⟨(t, e), h, by simp⟩

theorem ewmaBal_reads : (ewmaBal decayNs d0 clock C S D G V fromErr fromDisc : TBal W Req Res Err Res' K DErr BErr).Reads := by
  intro a c b h
  exact Or.inr ⟨_, h⟩

theorem ewma_closed (hD : 0 < decayNs) : LoadClosed (ewmaTracker decayNs) (fun (e : Ewma) l log c => LiveOk l log c ∧ EwmaOk d0 e l log) :=
  LoadClosed.and (liveOk_closed _) (ewmaOk_closed hD d0)

theorem ewma_fresh (e : Ewma) (h : (ewmaBal decayNs d0 clock C S D G V fromErr fromDisc : TBal W Req Res Err Res' K DErr BErr).Fresh e) : LiveOk ([] : List (Nat × Nat)) [] 0 ∧ EwmaOk d0 e [] [] := by
  obtain ⟨w, w', h⟩ := h
  obtain ⟨c, w1, h1, h2⟩ := run_bind_eq_ok.1 h
  cases h2
  exact ⟨liveOk_new, ewmaOk_new _ _ _⟩

theorem ewma_read (hD : 0 < decayNs) {x : TState (ewmaBal decayNs d0 clock C S D G V fromErr fromDisc : TBal W Req Res Err Res' K DErr BErr)} {log : List (Nat × LoadEv)} (h : TRun _ fuel x log) {cells' : List Ewma}
    (hx : CellsExt (ewmaBal decayNs d0 clock C S D G V fromErr fromDisc : TBal W Req Res Err Res' K DErr BErr) x.cells cells') {t : Nat} {e : Ewma} (hr : cells'[t]? = some e) (hf : inFlightAt t log + 1 < 2 ^ 32) :
    ∃ e' : Ewma, (Ewma.load decayNs).run e = .ok (e'.rtt * (inFlightAt t log + 1 : ℝ)) e' ∧ FairEstimate d0 t log e'.rtt := by
  have hi := TRun.induct (ewma_closed hD) ewma_fresh ewmaBal_reads h
  obtain ⟨h1, h2⟩ := hi.ext (ewma_closed hD) ewma_fresh hx t e hr
  have h3 : inFlightAt t log = (x.live t).length := h1.length.symm
  have h4 := h2.count
  change e.count = 1 + (x.live t).length at h4
  have hrun := load_run (D := decayNs) h2.upd h2.nonneg (by omega) (by omega)
  have hc : (e.count : ℝ) = (inFlightAt t log : ℝ) + 1 := by rw [h4, h3]; push_cast; ring
  rw [hc] at hrun
  have h5 := (ewmaOk_closed hD d0).other (c := callsAt t log) h2 (Or.inr ⟨_, hrun⟩)
  refine ⟨_, hrun, h5.nonneg, ?_⟩
  rcases h5.bound with hb | ⟨n, t0, t1, b1, b2, b3, b4⟩
  · exact Or.inl hb
  · exact Or.inr ⟨n, t0, t1, mem_atEndpoint.1 b1, mem_atEndpoint.1 b2, b3, b4⟩

/-- **C67.** In every history of a balancer over `PeakEwma`, the load it reads for an endpoint it holds is an estimate of the round trip time of that endpoint times one more than the number of requests in flight there. The estimates of the other endpoints do not change, nor does anything else. -/
theorem C67_ewma_load (hD : 0 < decayNs) {x : TState (ewmaBal decayNs d0 clock C S D G V fromErr fromDisc : TBal W Req Res Err Res' K DErr BErr)} {log : List (Nat × LoadEv)} (h : TRun _ fuel x log) {k : K} {t : Nat}
    {s : (ewmaBal decayNs d0 clock C S D G V fromErr fromDisc : TBal W Req Res Err Res' K DErr BErr).cfg.S.σ} (hv : x.bal.svcs.view.pend k = some (t, s) ∨ x.bal.svcs.view.rdy k = some (t, s)) (w : W)
    (hf : inFlightAt t log + 1 < 2 ^ 32) :
    ∃ est cells', ((ewmaBal decayNs d0 clock C S D G V fromErr fromDisc : TBal W Req Res Err Res' K DErr BErr).cfg.L.load s).run (x.cells, w) = .ok (est * (inFlightAt t log + 1 : ℝ)) (cells', w) ∧
      FairEstimate d0 t log est ∧ cells'.length = x.cells.length ∧ ∀ u, u ≠ t → cells'[u]? = x.cells[u]? := by
  obtain ⟨h1, h2⟩ := (C67_endpoints ewmaBal_reads h).2 k t s hv
  subst h1
  have hr := List.getElem?_eq_getElem h2
  obtain ⟨e', h3, h4⟩ := ewma_read hD h (CellsSame.refl _ _).ext hr hf
  refine ⟨e'.rtt, x.cells.set s.2 e', atCell_eq_ok.2 ⟨_, _, hr, fst_eq_ok.2 ⟨h3, rfl⟩, rfl⟩, h4, by simp, fun u hu => ?_⟩
  rw [List.getElem?_set_ne (fun h => hu h.symm)]

/-- **C67.** When `poll_ready` of a balancer over `PeakEwma` returns `Ready(Ok)`, the endpoint that the next `call` goes to was either chosen by an earlier `poll_ready`, or it is the only one ready, or two of those ready were drawn at random and it is the one of these for which
estimate × (requests in flight + 1) is smaller, the first one drawn if these are equal. -/
theorem C67_ewma_choice (hD : 0 < decayNs) {x : TState (ewmaBal decayNs d0 clock C S D G V fromErr fromDisc : TBal W Req Res Err Res' K DErr BErr)} {log : List (Nat × LoadEv)} (h : TRun _ fuel x log)
    (hf : ∀ t, inFlightAt t log + 1 < 2 ^ 32) {w w' : W} {b' : Balance (ewmaBal decayNs d0 clock C S D G V fromErr fromDisc : TBal W Req Res Err Res' K DErr BErr).cfg} {cells' : List Ewma}
    (hr : ((balance _ fuel).pollReady x.bal).run (x.cells, w) = .ok (.ready (.ok ()), b') (cells', w')) :
    ∃ i, b'.idx = some i ∧ (x.bal.idx = some i ∨ b'.svcs.ready.length = 1 ∨
      ∃ g g' a b ta tb ea eb, sampleFloyd2 G g b'.svcs.ready.length = some ((a, b), g') ∧ a ≠ b ∧ readyNo b' a = some ta ∧ readyNo b' b = some tb ∧ FairEstimate d0 ta log ea ∧ FairEstimate d0 tb log eb ∧
        (ea * (inFlightAt ta log + 1) ≤ eb * (inFlightAt tb log + 1) → i = a) ∧ (eb * (inFlightAt tb log + 1) < ea * (inFlightAt ta log + 1) → i = b)) := by
  obtain ⟨i, h1, h2⟩ := choice_aux ewmaBal_reads h hr
  refine ⟨i, h1, ?_⟩
  rcases h2 with h2 | h2 | ⟨g, g', a, b, ta, tb, la, lb, c1, c2, ra, ra', rb, rb', y1, y2, y3, y4, y5, y6, y7, y8, y9, y10, y11⟩
  · exact Or.inl h2
  · exact Or.inr (Or.inl h2)
  · obtain ⟨ea, e1, f1⟩ := ewma_read hD h y5 y7 (hf ta)
    obtain ⟨eb, e2, f2⟩ := ewma_read hD h y6 y9 (hf tb)
    rw [show (Ewma.load decayNs).run ra = _ from y8] at e1
    rw [show (Ewma.load decayNs).run rb = _ from y10] at e2
    simp only [Out.ok.injEq] at e1 e2
    refine Or.inr (Or.inr ⟨g, g', a, b, ta, tb, ea.rtt, eb.rtt, y1, y2, y3, y4, f1, f2, ?_, ?_⟩)
    · intro hle
      rw [← e1.1, ← e2.1] at hle
      rw [y11, if_pos]
      exact decide_eq_true hle
    · intro hlt
      rw [← e1.1, ← e2.1] at hlt
      rw [y11, if_neg]
      intro hc
      exact absurd (of_decide_eq_true hc) (not_le.2 hlt)

end ewma

/-! ## An example -/

namespace BalLoadDemo

/-- always ready; a response is the request plus the name of the endpoint -/
@[reducible] def svc : Service Unit Nat Nat String where
  σ := Nat
  φ := Nat
  pollReady s := pure (.ready (.ok ()), s)
  call s r := pure (s + r, s)
  poll f := pure (.ready (.ok f), f)
  clone s := s

@[reducible] def disc : Discover Unit Nat Nat String where
  δ := List (Change Nat Nat)
  poll l := match l with
    | [] => pure (.pending, [])
    | x :: l => pure (.ready (some (.ok x)), l)

def sched : Sched Unit := ⟨fun _ w => ([0, 0], w)⟩
@[reducible] def rng : Rng := ⟨Nat, fun c => (c % 7, c + 1), fun c => by omega⟩

@[reducible] def X : TBal Unit Nat Nat String Nat Nat String String := pendingBal CompleteOnResponse svc disc rng sched id id

def script : List (Change Nat Nat) := [.insert 1 100, .insert 2 200]
def x0 : TState X := ⟨[], Balance.fromRng X.cfg script (0 : Nat), [], []⟩

/-- the two endpoints, with the shared states 0 and 1, nothing in flight: the first one drawn is chosen -/
def b1 : Balance X.cfg where
  disc := ([] : List (Change Nat Nat))
  svcs := { pending := [], txs := [], ready := [(1, (((100 : Nat), 0), (0, 0))), (2, (((200 : Nat), 1), (1, 1)))], cancelled := [], nextCell := 2 }
  idx := some 0
  rng := (2 : Nat)
theorem run1 : ((balance X.cfg 10).pollReady x0.bal).run (x0.cells, ()) = .ok (.ready (.ok ()), b1) ([1, 1], ()) := rfl
def x1 : TState X := { x0 with cells := [(1 : Nat), 1], bal := b1 }
theorem hist1 : TRun X 10 x1 [] := .ready (.new _ _) run1

/-- a request, to endpoint 0 -/
def b2 : Balance X.cfg :=
  { b1 with svcs := { pending := [⟨1, ((100 : Nat), 0), 0⟩], txs := [(1, 0)], ready := [(2, (((200 : Nat), 1), (1, 1)))], cancelled := [], nextCell := 2 }, idx := none }
def f2 : X.cfg.S.φ := (((105 : Nat), some ()), 0)
theorem run2 : ((balance X.cfg 10).call b1 5).run ([1, 1], ()) = .ok (some f2, b2) ([2, 1], ()) := rfl
def x2 : TState X := { x1 with cells := [(2 : Nat), 1], bal := b2, futs := [(0, false, f2)] }
theorem hist2 : TRun X 10 x2 [(0, .called 0 0)] := .call hist1 run2

/-- Both are ready, and one request is in flight at endpoint 0: endpoint 1 is chosen. -/
def b3 : Balance X.cfg where
  disc := ([] : List (Change Nat Nat))
  svcs := { pending := [], txs := [], ready := [(2, (((200 : Nat), 1), (1, 1))), (1, (((100 : Nat), 0), (0, 0)))], cancelled := [], nextCell := 2 }
  idx := some 0
  rng := (4 : Nat)
theorem run3 : ((balance X.cfg 10).pollReady b2).run ([2, 1], ()) = .ok (.ready (.ok ()), b3) ([2, 1], ()) := rfl
example : readyNo b3 0 = some 1 := rfl
example : inFlightAt 0 [(0, .called 0 0)] = 1 ∧ inFlightAt 1 [(0, .called 0 0)] = 0 := by decide +kernel
example : ∃ i t j u, b3.idx = some i ∧ readyNo b3 i = some t ∧ j ≠ i ∧ readyNo b3 j = some u ∧ inFlightAt t [(0, .called 0 0)] ≤ inFlightAt u [(0, .called 0 0)] :=
  C67_not_most_loaded hist2 rfl run3 (by decide)
/-- the load read of endpoint 0 -/
example : (X.cfg.L.load ((100 : Nat), 0)).run (x2.cells, ()) = .ok 1 (x2.cells, ()) := C67_load hist2 (k := 1) (t := 0) (Or.inl rfl) ()

/-- the response arrives; the handle is dropped with it -/
def x3 : TState X := { x2 with cells := [(1 : Nat), 1], futs := [(0, true, (((105 : Nat), none), 0))] }
theorem hist3 : TRun X 10 x3 [(0, .called 0 0), (0, .finished 0 0)] := .poll (l := []) (r := []) (w := ()) (f' := (((105 : Nat), none), 0)) hist2 rfl rfl
example : (X.cfg.L.load ((100 : Nat), 0)).run (x3.cells, ()) = .ok 0 (x3.cells, ()) := C67_load hist3 (k := 1) (t := 0) (Or.inl rfl) ()
example : ∃ k s s', b1.svcs.view.rdy k = some (f2.2, s) ∧ (svc.call s.1 5).run () = .ok (f2.1.1, s') () := C67_dispatch pendingBal_reads hist1 run2

/-- with `PeakEwma`: the first request goes to an endpoint chosen by C67_ewma_choice -/
@[reducible] noncomputable def Y : TBal Unit Nat Nat String Nat Nat String String := ewmaBal 100 50 (pure (0, fun _ => 1)) CompleteOnResponse svc disc rng sched id id
def oneScript : List (Change Nat Nat) := [.insert 1 100]
noncomputable def y0 : TState Y := ⟨[], Balance.fromRng Y.cfg oneScript (0 : Nat), [], []⟩
noncomputable def c1 : Balance Y.cfg where
  disc := ([] : List (Change Nat Nat))
  svcs := { pending := [], txs := [], ready := [(1, (((100 : Nat), 0), (0, 0)))], cancelled := [], nextCell := 1 }
  idx := some 0
  rng := (0 : Nat)
theorem erun1 : ((balance Y.cfg 10).pollReady y0.bal).run (y0.cells, ()) = .ok (.ready (.ok ()), c1) ([Ewma.new 50 0 (fun _ => 1)], ()) := rfl
theorem ehist0 : TRun Y 10 y0 [] := .new _ _
theorem ehist1 : TRun Y 10 { y0 with cells := [Ewma.new 50 0 (fun _ => 1)], bal := c1 } [] := .ready ehist0 erun1
example : ∃ est cells', (Y.cfg.L.load ((100 : Nat), 0)).run ([Ewma.new 50 0 (fun _ => 1)], ()) = .ok (est * ((inFlightAt 0 [] : ℝ) + 1)) (cells', ()) ∧ FairEstimate 50 0 [] est :=
  have ⟨est, c', h, h', _⟩ := C67_ewma_load (by norm_num) ehist1 (k := 1) (t := 0) (Or.inr rfl) () (by decide +kernel)
  ⟨est, c', h, h'⟩
example : ∃ i, c1.idx = some i := have ⟨i, h, _⟩ := C67_ewma_choice (by norm_num) ehist0 (fun t => by show 0 + 1 < _; norm_num) erun1; ⟨i, h⟩

end BalLoadDemo

end Tower
