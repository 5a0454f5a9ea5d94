import Verif.Proof.Cache5

/-!
# ReadyCache: C26 - C29

A service in the cache is named by the number of pushes before its own. `Cache.view` (in `Spec/CacheSpec.lean`) tells, for every key, which service
waits and which is ready. All theorems are about every state that can be reached (`CReach`) with any service (any readiness behaviour, in any
world), any order in which the pending futures are polled (`Sched`), and any keys.
-/

namespace Tower
set_option linter.unusedSectionVars false
set_option linter.unusedSimpArgs false
variable {W Req Res Err : Type} {K : Type} [DecidableEq K] {S : Service W Req Res Err} {V : Sched W}

/-! ## C26 -/

/-- C26: a key occurs at most once among the ready services and at most once among the pending ones that are not cancelled; a service (by number) occurs
at most once altogether; the cancellation handles are exactly those of the pending services that are not cancelled, each under the right key. -/
theorem C26_keys {c : Cache K S} (h : CReach V S c) :
    (c.ready.map (·.1)).Nodup ∧
    ((c.pending.filter (fun e => e.rx ∉ c.cancelled)).map (·.key)).Nodup ∧
    (c.pending.map (·.rx) ++ c.ready.map (·.2.2.2)).Nodup ∧
    (∀ k t, (k, t) ∈ c.txs ↔ ∃ s, PEnt.mk k s t ∈ c.pending ∧ t ∉ c.cancelled) ∧
    (∀ k, c.pendingContains k = true ↔ ∃ e ∈ c.pending, e.key = k ∧ e.rx ∉ c.cancelled) := by
  have hi := CReach.inv Cache.inv_empty h
  refine ⟨hi.rkeys, ?_, hi.cells, hi.tx, ?_⟩
  · have hn : (c.pending.filter (fun e => e.rx ∉ c.cancelled)).Nodup := (List.Nodup.of_map _ hi.pnodup).filter _
    refine List.Nodup.map_on ?_ hn
    rintro ⟨k, s, t⟩ he ⟨k', s', t'⟩ he' hk
    simp only [List.mem_filter, decide_eq_true_eq] at he he'
    simp only at hk
    subst hk
    obtain ⟨rfl, rfl⟩ := hi.P_key he he'
    rfl
  · intro k
    unfold Cache.pendingContains
    rw [IMap.contains_iff]
    constructor
    · intro hm
      obtain ⟨⟨k', t⟩, h1, h2⟩ := List.mem_map.1 hm
      simp only at h2; subst h2
      obtain ⟨s, hs⟩ := (hi.tx _ _).1 h1
      exact ⟨_, hs.1, rfl, hs.2⟩
    · rintro ⟨⟨k', s, t⟩, h1, rfl, h2⟩
      exact List.mem_map.2 ⟨_, (hi.tx k' t).2 ⟨s, h1, h2⟩, rfl⟩

/-- C26: no assertion and no `expect` of the cache fails: `poll_pending`, `check_ready_index` and `check_ready` panic only with a panic of a service's own
`poll_ready`; `call_ready_index` and `call_ready` panic only with a panic of the service's `call`, or if there is no service at that index or key (as documented). -/
theorem C26_no_assert_fails {c : Cache K S} (h : CReach V S c) (w : W) (m : String) :
    ((c.pollPending V).run w = .panic m → ∃ s w1, (S.pollReady s).run w1 = .panic m) ∧
    (∀ i, (c.checkReadyIndex i).run w = .panic m → ∃ k s t, c.ready[i]? = some (k, (s, t)) ∧ (S.pollReady s).run w = .panic m) ∧
    (∀ k, (c.checkReady k).run w = .panic m → ∃ s t, (k, (s, t)) ∈ c.ready ∧ (S.pollReady s).run w = .panic m) ∧
    (∀ i r, (c.callReadyIndex i r).run w = .panic m → c.ready.length ≤ i ∨ ∃ k s t, c.ready[i]? = some (k, (s, t)) ∧ (S.call s r).run w = .panic m) ∧
    (∀ k r, (c.callReady k r).run w = .panic m → k ∉ c.ready.map (·.1) ∨ ∃ s t, (k, (s, t)) ∈ c.ready ∧ (S.call s r).run w = .panic m) := by
  have hi := CReach.inv Cache.inv_empty h
  have check : ∀ i, (c.checkReadyIndex i).run w = .panic m → ∃ k s t, c.ready[i]? = some (k, (s, t)) ∧ (S.pollReady s).run w = .panic m := by
    intro i hr
    cases he : c.ready[i]? with
    | none => rw [Cache.checkReadyIndex_none he] at hr; cases hr
    | some e =>
      obtain ⟨k, s, t⟩ := e
      refine ⟨k, s, t, rfl, ?_⟩
      obtain ⟨a, b, d, e, f⟩ := Cache.checkReadyIndex_spec hi he w
      cases hp : (S.pollReady s).run w with
      | panic m' => rw [a m' hp] at hr; cases hr; rfl
      | spin => rw [b hp] at hr; cases hr
      | ok x w1 =>
        obtain ⟨p, s'⟩ := x
        rcases p with _ | (er | ⟨⟩)
        · obtain ⟨c1, h1, _⟩ := e s' w1 hp; rw [h1] at hr; cases hr
        · obtain ⟨c1, h1, _⟩ := f s' w1 er hp; rw [h1] at hr; cases hr
        · obtain ⟨c1, h1, _⟩ := d s' w1 hp; rw [h1] at hr; cases hr
  have call : ∀ i r, (c.callReadyIndex i r).run w = .panic m → c.ready.length ≤ i ∨ ∃ k s t, c.ready[i]? = some (k, (s, t)) ∧ (S.call s r).run w = .panic m := by
    intro i r hr
    cases he : c.ready[i]? with
    | none => exact Or.inl (by simpa using he)
    | some e =>
      obtain ⟨k, s, t⟩ := e
      refine Or.inr ⟨k, s, t, rfl, ?_⟩
      obtain ⟨a, b, d⟩ := Cache.callReadyIndex_spec hi he r w
      cases hp : (S.call s r).run w with
      | panic m' => rw [a m' hp] at hr; cases hr; rfl
      | spin => rw [b hp] at hr; cases hr
      | ok x w1 => obtain ⟨c1, h1, _⟩ := d x.1 x.2 w1 hp; rw [h1] at hr; cases hr
  refine ⟨fun hr => ?_, check, ?_, call, ?_⟩
  · obtain ⟨s, w1, h1⟩ := Act.wpx_panics (Cache.pollPending_wpx V c w hi) hr
    exact ⟨s, w1, h1⟩
  · intro k hr
    unfold Cache.checkReady at hr
    split at hr
    · rename_i i hidx
      obtain ⟨v, hv⟩ := IMap.index_some hidx
      obtain ⟨k', s, t, h1, h2⟩ := check i hr
      rw [hv] at h1; cases h1
      exact ⟨s, t, List.mem_of_getElem? hv, h2⟩
    · cases hr
  · intro k r hr
    unfold Cache.callReady at hr
    split at hr
    · rename_i i hidx
      obtain ⟨v, hv⟩ := IMap.index_some hidx
      rcases call i r hr with h1 | ⟨k', s, t, h1, h2⟩
      · have := (List.getElem?_eq_some_iff.1 hv).1; omega
      · rw [hv] at h1; cases h1
        exact Or.inr ⟨s, t, List.mem_of_getElem? hv, h2⟩
    · rename_i hidx; exact Or.inl (IMap.index_none hidx)

/-- C26: `poll_pending` returns unless a service's `poll_ready` does not (its loop ends). -/
theorem C26_poll_returns {c : Cache K S} (h : CReach V S c) (w : W) (hr : (c.pollPending V).run w = .spin) : ∃ s w1, (S.pollReady s).run w1 = .spin :=
  Act.wpx_spins (Cache.pollPending_wpx V c w (CReach.inv Cache.inv_empty h)) hr

/-- C26, refinement: every operation does to what the cache holds what the specification says (`VStep`). -/
theorem C26_refines {c c' : Cache K S} (h : CReach V S c) (hs : CStep V S c c') : VStep S V.eff c.view c'.view :=
  (hs.sim (CReach.inv Cache.inv_empty h)).2

/-! ## C27 -/

/-- C27: `evict(k)` tells whether there was a service for `k`; afterwards there is none, pending or ready; the other keys are as before. -/
theorem C27_evict {c : Cache K S} (h : CReach V S c) (k : K) :
    ((c.evict k).1 = true ↔ c.pendingContains k = true ∨ k ∈ c.ready.map (·.1)) ∧
    (c.evict k).2.pendingContains k = false ∧ k ∉ (c.evict k).2.ready.map (·.1) ∧
    (∀ k', k' ≠ k → (c.evict k).2.view.pend k' = c.view.pend k' ∧ (c.evict k).2.view.rdy k' = c.view.rdy k') := by
  have hi := CReach.inv Cache.inv_empty h
  obtain ⟨a, b, d⟩ := Cache.evict_spec hi k
  have hrdy : ∀ (c : Cache K S) (hi : c.Inv), c.view.rdy k ≠ none ↔ k ∈ c.ready.map (·.1) := by
    intro c hi
    rw [Option.ne_none_iff_exists']
    constructor
    · rintro ⟨⟨t, s⟩, hx⟩
      exact List.mem_map.2 ⟨_, hi.rdy_iff.1 hx, rfl⟩
    · intro hx
      obtain ⟨e, h1, h2⟩ := List.mem_map.1 hx
      exact ⟨(_, _), by rw [← h2]; exact hi.rdy_iff.2 (hi.R_of h1)⟩
  refine ⟨by rw [d, Cache.pendingContains_iff hi, hrdy c hi], ?_, ?_, ?_⟩
  · have := Cache.pendingContains_iff a k
    rw [b] at this
    simp only [View.evict, upd_self, ne_eq, not_true, iff_false, Bool.not_eq_true] at this
    exact this
  · rw [← hrdy _ a, b]
    simp [View.evict, upd_self]
  · intro k' hk
    rw [b]
    exact ⟨upd_ne _ _ hk, upd_ne _ _ hk⟩

/-- C27: no service that was in the cache for `k` when `evict(k)` was called is ever in it again, whatever is done to the cache afterwards (further pushes of `k` included):
it is not at any ready index (`call_ready_index` and `check_ready_index` cannot reach it), and no `poll_pending` polls it, promotes it or reports it. -/
theorem C27_never_again {c c' : Cache K S} (h : CReach V S c) {k : K} {t : Nat} (ht : c.view.Holds k t) (hr : CRun V S (c.evict k).2 c') :
    ¬ c'.view.Alive t ∧
    (∀ (i : Nat) (k' : K) (s : S.σ) (p : Nat × Nat), c'.ready[i]? = some (k', (s, p)) → p.2 ≠ t) ∧
    (∀ w p c2 w', (c'.pollPending V).run w = .ok (p, c2) w' → ∃ es, PollSteps S V.eff c'.view w es c2.view w' ∧ ∀ ev ∈ es, ev.num ≠ t) := by
  have hi := CReach.inv Cache.inv_empty h
  obtain ⟨a, b, d⟩ := Cache.evict_spec hi k
  have hi' := CReach.inv a hr
  have hdead : ¬ c'.view.Alive t := by
    rintro ⟨k', hk'⟩
    rcases (CRun.alive a hr).2 k' t hk' with h1 | h1
    · have hne : k' ≠ k := by
        rintro rfl
        rw [b] at h1
        rcases h1 with ⟨s, h1⟩ | ⟨s, h1⟩ <;> simp [View.evict, upd_self] at h1
      have h2 : c.view.Holds k' t := by
        rw [b] at h1
        rcases h1 with ⟨s, h1⟩ | ⟨s, h1⟩
        · exact Or.inl ⟨s, (upd_ne _ _ hne).symm.trans h1⟩
        · exact Or.inr ⟨s, (upd_ne _ _ hne).symm.trans h1⟩
      exact hne (hi.holds_key h2 ht)
    · have h2 := hi.holds_lt ht
      have h3 : (c.evict k).2.view.count = c.view.count := by rw [b]; rfl
      omega
  refine ⟨hdead, ?_, ?_⟩
  · intro i k' s p he heq
    exact hdead ⟨k', Or.inr ⟨s, by rw [← heq]; exact hi'.get_ready he⟩⟩
  · intro w p c2 w' hrun
    obtain ⟨es, hp⟩ := Act.wpx_ok (Cache.pollPending_wpx V c' _ hi') hrun
    refine ⟨es, hp.steps, fun ev hev heq => ?_⟩
    obtain ⟨s, hs⟩ := hp.steps.events ev hev
    exact hdead ⟨ev.key, Or.inl ⟨s, by rw [← heq]; exact hs⟩⟩

/-! ## C28 -/

/-- C28: `push(k, s)` makes `s` the service that waits for `k` and changes nothing else: the ready services, and their indices, are as before. -/
theorem C28_push {c : Cache K S} (h : CReach V S c) (k : K) (s : S.σ) :
    (c.push k s).ready = c.ready ∧ (c.push k s).view.pend k = some (c.nextCell, s) ∧ (c.push k s).view.rdy k = c.view.rdy k ∧
    (∀ k', k' ≠ k → (c.push k s).view.pend k' = c.view.pend k' ∧ (c.push k s).view.rdy k' = c.view.rdy k') := by
  have hi := CReach.inv Cache.inv_empty h
  obtain ⟨a, b, d⟩ := Cache.push_spec hi k s
  refine ⟨d, ?_, ?_, ?_⟩
  · rw [b]; exact upd_self _ _ _
  · rw [b]; rfl
  · intro k' hk
    rw [b]
    exact ⟨upd_ne _ _ hk, rfl⟩

/-- C28: an older service that was waiting for `k` when `push(k, s)` was called is gone for good. -/
theorem C28_older_cancelled {c c' : Cache K S} (h : CReach V S c) {k : K} {t : Nat} {s0 s : S.σ} (ht : c.view.pend k = some (t, s0))
    (hr : CRun V S (c.push k s) c') : ¬ c'.view.Alive t := by
  have hi := CReach.inv Cache.inv_empty h
  obtain ⟨a, b, d⟩ := Cache.push_spec hi k s
  rintro ⟨k', hk'⟩
  have hlt := hi.holds_lt (Or.inl ⟨_, ht⟩)
  rcases (CRun.alive a hr).2 k' t hk' with h1 | h1
  · rw [b] at h1
    rcases h1 with ⟨s1, h1⟩ | ⟨s1, h1⟩
    · by_cases hk : k' = k
      · subst hk
        simp only [View.push, upd_self, Option.some.injEq, Prod.mk.injEq] at h1
        omega
      · have h2 : c.view.pend k' = some (t, s1) := (upd_ne _ _ hk).symm.trans h1
        exact hk (hi.holds_key (Or.inl ⟨_, h2⟩) (Or.inl ⟨_, ht⟩))
    · exact hi.holds_excl ht h1
  · have h3 : (c.push k s).view.count = c.view.count + 1 := by rw [b]; rfl
    omega

/-- C28: while service `t` waits for `k`, `poll_pending` can promote (poll, report) only `t` for `k`. -/
theorem C28_only_newest {c c' : Cache K S} (h : CReach V S c) {k : K} {t : Nat} {s : S.σ} (ht : c.view.pend k = some (t, s)) {w w' : W} {p}
    (hr : (c.pollPending V).run w = .ok (p, c') w') :
    ∃ es, PollSteps S V.eff c.view w es c'.view w' ∧ ∀ ev ∈ es, ev.key = k → ev.num = t := by
  obtain ⟨es, hp⟩ := Act.wpx_ok (Cache.pollPending_wpx V c _ (CReach.inv Cache.inv_empty h)) hr
  refine ⟨es, hp.steps, fun ev hev hk => ?_⟩
  obtain ⟨s', hs⟩ := hp.steps.events ev hev
  rw [hk, ht] at hs
  cases hs; rfl

/-- C28: in `poll_pending` the ready service of `k` changes only if the service that was waiting for `k` was found ready: then that one takes its place, in the state in which
its `poll_ready` left it. Ready services keep their indices (`poll_pending` only appends keys). -/
theorem C28_promotion {c c' : Cache K S} (h : CReach V S c) {w w' : W} {p} (hr : (c.pollPending V).run w = .ok (p, c') w') (k : K) :
    (c'.view.rdy k = c.view.rdy k ∨
      ∃ t s0 s s' w1 w2, c.view.pend k = some (t, s0) ∧ c'.view.rdy k = some (t, s') ∧ c'.view.pend k = none ∧ (S.pollReady s).run w1 = .ok (.ready (.ok ()), s') w2) ∧
    (c.ready.map (·.1)) <+: (c'.ready.map (·.1)) := by
  obtain ⟨es, hp⟩ := Act.wpx_ok (Cache.pollPending_wpx V c _ (CReach.inv Cache.inv_empty h)) hr
  refine ⟨?_, hp.keys⟩
  rcases hp.steps.rdy k with ⟨a, _⟩ | ⟨t, s, s', w1, w2, a, b, d, e⟩
  · exact Or.inl a
  · obtain ⟨s0, h0⟩ := hp.steps.events _ b
    exact Or.inr ⟨t, s0, s, s', w1, w2, h0, a, d, e⟩

/-- C28: a ready service that was replaced by promotion is gone for good. -/
theorem C28_replaced_gone {c c1 c2 : Cache K S} (h : CReach V S c) {w w' : W} {p} (hr : (c.pollPending V).run w = .ok (p, c1) w') {k : K} {t : Nat} {s : S.σ}
    (ht : c.view.rdy k = some (t, s)) (hch : c1.view.rdy k ≠ c.view.rdy k) (hr2 : CRun V S c1 c2) : ¬ c2.view.Alive t := by
  have hi := CReach.inv Cache.inv_empty h
  obtain ⟨es, hp⟩ := Act.wpx_ok (Cache.pollPending_wpx V c _ hi) hr
  rintro ⟨k', hk'⟩
  have hlt := hi.holds_lt (Or.inr ⟨_, ht⟩)
  have hp : Cache.PollPost V c w p c1 w' es := hp
  have hc : c1.view.count = c.view.count := hp.steps.count
  rcases (CRun.alive hp.inv hr2).2 k' t hk' with h1 | h1
  · have h2 := hp.steps.alive h1
    have hk := hi.holds_key h2 (Or.inr ⟨_, ht⟩)
    subst hk
    rcases h1 with ⟨s1, h1⟩ | ⟨s1, h1⟩
    · obtain ⟨s2, h3⟩ := hp.steps.pend_sub h1
      exact hi.holds_excl h3 ht
    · rcases hp.steps.rdy k' with ⟨a, _⟩ | ⟨t', s3, s', w1, w2, a, b, d, e⟩
      · exact hch a
      · rw [a] at h1; cases h1
        obtain ⟨s0, h0⟩ := hp.steps.events _ b
        exact hi.holds_excl h0 ht
  · omega

/-- C28: an older ready service stays usable: with a newer service waiting for `k`, a call to the ready one goes to it; it is then dropped, and the newer one goes on waiting. -/
theorem C28_old_ready_used_once {c : Cache K S} (h : CReach V S c) {k : K} {t t' : Nat} {s s1 : S.σ} (ht : c.view.rdy k = some (t, s)) (ht' : c.view.pend k = some (t', s1))
    {r : Req} {w w' : W} {f : S.φ} {s' : S.σ} (hc : (S.call s r).run w = .ok (f, s') w') :
    ∃ c', (c.callReady k r).run w = .ok (f, c') w' ∧ c'.view.rdy k = none ∧ c'.view.pend k = some (t', s1) := by
  have hi := CReach.inv Cache.inv_empty h
  have hm := hi.rdy_iff.1 ht
  unfold Cache.callReady
  cases hidx : c.ready.index k with
  | none => exact absurd (List.mem_map.2 ⟨_, hm, rfl⟩) (IMap.index_none hidx)
  | some i =>
    obtain ⟨v, hv⟩ := IMap.index_some hidx
    have := IMap.nodup_val hi.rkeys (List.mem_of_getElem? hv) hm
    subst this
    obtain ⟨_, _, d⟩ := Cache.callReadyIndex_spec hi hv r w
    obtain ⟨c', h1, h2, h3, _⟩ := d f s' w' hc
    refine ⟨c', h1, ?_, ?_⟩
    · rw [h3]; exact upd_self _ _ _
    · rw [h3]; simp [View.demote, ht']

/-! ## C29 -/

/-- C29: `call_ready_index(i, r)` calls the service at index `i` with `r`, once and as its only effect, returns the future of that call, and puts the service back among the
waiting ones, under its key, unless a newer one waits there. Nothing else in the cache changes. -/
theorem C29_call_index {c : Cache K S} (h : CReach V S c) {i : Nat} {k : K} {s : S.σ} {p : Nat × Nat} (hi : c.ready[i]? = some (k, (s, p))) (r : Req) (w : W) :
    (∀ f s' w', (S.call s r).run w = .ok (f, s') w' → ∃ c', (c.callReadyIndex i r).run w = .ok (f, c') w' ∧
      c'.view.rdy k = none ∧ (c.view.pend k = none → c'.view.pend k = some (p.2, s')) ∧ (c.view.pend k ≠ none → c'.view.pend k = c.view.pend k) ∧
      (∀ k', k' ≠ k → c'.view.pend k' = c.view.pend k' ∧ c'.view.rdy k' = c.view.rdy k')) ∧
    (∀ m, (S.call s r).run w = .panic m → (c.callReadyIndex i r).run w = .panic m) := by
  have hinv := CReach.inv Cache.inv_empty h
  obtain ⟨a, _, d⟩ := Cache.callReadyIndex_spec hinv hi r w
  refine ⟨?_, a⟩
  intro f s' w' hc
  obtain ⟨c', h1, h2, h3, _⟩ := d f s' w' hc
  refine ⟨c', h1, ?_, ?_, ?_, ?_⟩
  · rw [h3]; exact upd_self _ _ _
  · intro hp
    rw [h3]; simp [View.demote, hp, upd_self]
  · intro hp
    rw [h3]; simp [View.demote, hp]
  · intro k' hk
    rw [h3]
    refine ⟨?_, upd_ne _ _ hk⟩
    show (if c.view.pend k = none then View.upd c.view.pend k (some (p.2, s')) else c.view.pend) k' = _
    split
    · exact upd_ne _ _ hk
    · rfl

/-- C29: `call_ready(k, r)` is `call_ready_index` at the index of `k`. -/
theorem C29_call_key {c : Cache K S} (h : CReach V S c) {i : Nat} {k : K} {s : S.σ} {p : Nat × Nat} (hi : c.ready[i]? = some (k, (s, p))) (r : Req) :
    c.callReady k r = c.callReadyIndex i r ∧ c.checkReady k = c.checkReadyIndex i := by
  have hinv := CReach.inv Cache.inv_empty h
  have hidx : c.ready.index k = some i := by
    cases hx : c.ready.index k with
    | none => exact absurd (List.mem_map.2 ⟨_, List.mem_of_getElem? hi, rfl⟩) (IMap.index_none hx)
    | some j =>
      obtain ⟨v, hv⟩ := IMap.index_some hx
      have h1 : (c.ready.map (·.1))[i]? = some k := by rw [List.getElem?_map, hi]; rfl
      have h2 : (c.ready.map (·.1))[j]? = some k := by rw [List.getElem?_map, hv]; rfl
      have hlt : j < (c.ready.map (·.1)).length := (List.getElem?_eq_some_iff.1 h2).1
      rw [(List.getElem?_inj hlt hinv.rkeys).1 (h2.trans h1.symm)]
  unfold Cache.callReady Cache.checkReady
  rw [hidx]
  exact ⟨rfl, rfl⟩

/-- C29: if there is no ready service for the key, or at the index, `check_ready` and `check_ready_index` answer no and change nothing; `call_ready` and `call_ready_index` panic. -/
theorem C29_absent {c : Cache K S} (h : CReach V S c) (r : Req) (w : W) :
    (∀ k, c.view.rdy k = none → (c.checkReady k).run w = .ok (.ok false, c) w ∧ ∃ m, (c.callReady k r).run w = .panic m) ∧
    (∀ i, c.ready[i]? = none → (c.checkReadyIndex i).run w = .ok (.ok false, c) w ∧ ∃ m, (c.callReadyIndex i r).run w = .panic m) := by
  have hinv := CReach.inv Cache.inv_empty h
  have hi : ∀ i, c.ready[i]? = none → (c.checkReadyIndex i).run w = .ok (.ok false, c) w ∧ ∃ m, (c.callReadyIndex i r).run w = .panic m := by
    intro i hi
    refine ⟨by unfold Cache.checkReadyIndex; rw [hi]; rfl, ?_⟩
    unfold Cache.callReadyIndex IMap.swapRemoveIndex
    rw [hi]
    exact ⟨_, rfl⟩
  refine ⟨fun k hk => ?_, hi⟩
  have hidx : c.ready.index k = none := by
    cases hx : c.ready.index k with
    | none => rfl
    | some j =>
      obtain ⟨⟨s, p⟩, hv⟩ := IMap.index_some hx
      have := hinv.get_ready hv
      rw [hk] at this; cases this
  unfold Cache.callReady Cache.checkReady
  rw [hidx]
  exact ⟨rfl, _, rfl⟩

/-- C29: `check_ready_index(i)` polls the service at index `i`, once and as its only effect. Ready: it says so and the service stays at its index. Pending: it answers no, and the service waits again
(unless a newer one does). Failed: the service is dropped and the failure is reported with its key. -/
theorem C29_check_index {c : Cache K S} (h : CReach V S c) {i : Nat} {k : K} {s s' : S.σ} {p : Nat × Nat} (hi : c.ready[i]? = some (k, (s, p))) {w w' : W} {a : Poll (Except Err Unit)}
    (hp : (S.pollReady s).run w = .ok (a, s') w') :
    ∃ o c', (c.checkReadyIndex i).run w = .ok (o, c') w' ∧
      match a with
      | .ready (.ok ()) => o = .ok true ∧ c'.ready[i]? = some (k, (s', p)) ∧ c'.view = c.view.setRdy k p.2 s'
      | .pending => o = .ok false ∧ c'.view = c.view.demote k p.2 s'
      | .ready (.error e) => o = .error (k, e) ∧ c'.view = c.view.dropRdy k := by
  have hinv := CReach.inv Cache.inv_empty h
  obtain ⟨_, _, d, e, f⟩ := Cache.checkReadyIndex_spec hinv hi w
  rcases a with _ | (er | ⟨⟩)
  · obtain ⟨c', h1, h2, h3, h4⟩ := e s' w' hp
    exact ⟨_, c', h1, rfl, h3⟩
  · obtain ⟨c', h1, h2, h3, h4⟩ := f s' w' er hp
    exact ⟨_, c', h1, rfl, h3⟩
  · obtain ⟨c', h1, h2, h3, h4, _⟩ := d s' w' hp
    refine ⟨_, c', h1, rfl, ?_, h3⟩
    rw [h4]
    have := (List.getElem?_eq_some_iff.1 hi).1
    simp [this]

/-- C29: a service becomes ready (enters the ready set) in `poll_pending` only because its `poll_ready` just returned `Ready(Ok)`; it is stored in the state that poll left. Everything
`poll_pending` does is a sequence of polls of waiting services, each with the effect its answer calls for. It returns `Ready(Ok)` only if no service is pending, and reports
a failure exactly when a waiting service failed, with its key and error: that one is then gone. -/
theorem C29_poll {c c' : Cache K S} (h : CReach V S c) {w w' : W} {p} (hr : (c.pollPending V).run w = .ok (p, c') w') :
    ∃ es, PollSteps S V.eff c.view w es c'.view w' ∧
      (p = .ready (.ok ()) → c'.pending = [] ∧ NoFail es) ∧
      (p = .pending → c'.pending ≠ [] ∧ NoFail es) ∧
      (∀ k e, p = .ready (.error (k, e)) → (∃ es0 t, es = es0 ++ [.failed k t e] ∧ NoFail es0 ∧ ¬ c'.view.Alive t) ∧ c'.view.pend k = none) := by
  have hinv := CReach.inv Cache.inv_empty h
  obtain ⟨es, hp⟩ := Act.wpx_ok (Cache.pollPending_wpx V c _ hinv) hr
  refine ⟨es, hp.steps, hp.done, fun hx => ⟨(hp.pending hx).1, (hp.pending hx).2.1⟩, ?_⟩
  intro k e hx
  obtain ⟨_, es0, t, h1, h2⟩ := hp.failed k e hx
  have hsteps := hp.steps
  -- the state after the last poll
  have key : ∀ {v v' : View K S.σ} {w w' es}, PollSteps S V.eff v w es v' w' → ∀ es0 t, es = es0 ++ [.failed k t e] → v'.pend k = none := by
    intro v v' w w' es hs
    induction hs with
    | nil => intro es0 t h; simp at h
    | env _ _ ih => exact ih
    | snoc _ he _ =>
      intro es0 t h
      obtain ⟨_, h⟩ := List.append_inj' h rfl
      simp only [List.cons.injEq, and_true] at h
      subst h
      cases he with
      | failed => exact upd_self _ _ _
  have hn := key hsteps es0 t h1
  refine ⟨⟨es0, t, h1, h2, ?_⟩, hn⟩
  rintro ⟨k', hk'⟩
  obtain ⟨s0, h0⟩ := hsteps.events (.failed k t e) (by rw [h1]; simp)
  have h3 := hinv.holds_key (hsteps.alive hk') (Or.inl ⟨s0, h0⟩)
  simp only [PollEv.key, PollEv.num] at h3 h0
  subst h3
  rcases hk' with ⟨s1, h4⟩ | ⟨s1, h4⟩
  · rw [hn] at h4; cases h4
  · -- it is ready: it was, or it was promoted, and then not polled again
    rcases hsteps.rdy k' with ⟨a, _⟩ | ⟨t', s3, s', w1, w2, a, b, d, _⟩
    · rw [a] at h4; exact hinv.holds_excl h0 h4
    · -- promoted, then failed: impossible, nothing waits for the key after a promotion
      have nopend : ∀ {v v' : View K S.σ} {w w' es}, PollSteps S V.eff v w es v' w' → ∀ t, PollEv.promoted k' t ∈ es → v'.pend k' = none := by
        intro v v' w w' es hs
        induction hs with
        | nil => intro t h; cases h
        | env _ _ ih => exact ih
        | @snoc _ _ _ _ v' _ hs he ih =>
          intro t h
          rcases List.mem_append.1 h with h | h
          · have := ih t h
            cases hx : v'.pend k' with
            | none => rfl
            | some y => obtain ⟨s8, h8⟩ := he.pend_sub hx; rw [this] at h8; cases h8
          · rw [List.mem_singleton] at h; subst h
            cases he with
            | promoted => exact upd_self _ _ _
      have lastPend : ∀ {v v' : View K S.σ} {w w' es}, PollSteps S V.eff v w es v' w' → ∀ es0 t0 t1, es = es0 ++ [.failed k' t1 e] → PollEv.promoted k' t0 ∈ es0 → False := by
        intro v v' w w' es hs
        induction hs with
        | nil => intro es0 t0 t1 h; simp at h
        | env _ _ ih => exact ih
        | snoc hs he _ =>
          intro es0 t0 t1 h hm
          obtain ⟨h, h'⟩ := List.append_inj' h rfl
          simp only [List.cons.injEq, and_true] at h'
          subst h h'
          have := nopend hs t0 hm
          obtain ⟨s9, h9⟩ := he.pend
          simp only [PollEv.key] at h9
          rw [this] at h9; cases h9
      rw [h1] at b
      rcases List.mem_append.1 b with b | b
      · exact lastPend hsteps es0 t' t h1 b
      · simp at b

/-! ## Concrete cases -/

namespace CacheDemo

/-- a service that becomes ready when polled twice (`0 → 1 → ready`) and fails when its state is 9; a call makes it unready -/
@[reducible] def svc : Service Unit Nat Nat String where
  σ := Nat
  φ := Nat
  pollReady s := if s = 9 then pure (.ready (.error "broken"), 9) else if s = 0 then pure (.pending, 1) else pure (.ready (.ok ()), s)
  call _ r := pure (r, 0)
  poll f := pure (.ready (.ok f), f)
  clone s := s

/-- polls the first three futures -/
def sched : Sched Unit := ⟨fun _ w => ([0, 1, 2], w)⟩

/-- key 5: a ready service (number 0), then another one is pushed (number 1) -/
def c1 : Cache Nat svc := (Cache.empty Nat svc).push 5 3

def c2 : Cache Nat svc := { pending := [], txs := [], ready := [(5, (3, (0, 0)))], cancelled := [], nextCell := 1 }

theorem poll1 : (c1.pollPending sched).run () = .ok (.ready (.ok ()), c2) () := rfl

theorem reach1 : CReach sched svc c1 := .step .refl (.push (S := svc) 5 3)
theorem reach2 : CReach sched svc c2 := .step reach1 (.poll poll1)

/-- a newer one for the same key, not ready yet -/
def c3 : Cache Nat svc := c2.push 5 0
theorem reach3 : CReach sched svc c3 := .step reach2 (.push (S := svc) 5 0)

/-- the older one stays ready and can be called -/
example : c3.view.rdy 5 = some (0, 3) ∧ c3.view.pend 5 = some (1, 0) := ⟨rfl, rfl⟩
example : ∃ c', (c3.callReady 5 7).run () = .ok (7, c') () ∧ c'.view.rdy 5 = none ∧ c'.view.pend 5 = some (1, 0) :=
  C28_old_ready_used_once (V := sched) reach3 (t := 0) (t' := 1) (s := 3) (s1 := 0) rfl rfl (f := 7) (s' := 0) rfl

/-- key 6 has none -/
example : (c3.checkReady 6).run () = .ok (.ok false, c3) () := ((C29_absent (V := sched) reach3 (0 : Nat) ()).1 6 rfl).1

/-- after two polls the newer one has taken its place -/
def c4 : Cache Nat svc := { pending := [], txs := [], ready := [(5, (1, (1, 1)))], cancelled := [], nextCell := 2 }
def c3' : Cache Nat svc := { pending := [⟨5, 1, 1⟩], txs := [(5, 1)], ready := [(5, (3, (0, 0)))], cancelled := [], nextCell := 2 }
/-- a scheduler that polls once -/
def sched1 : Sched Unit := ⟨fun _ w => ([0], w)⟩
theorem poll3 : (c3.pollPending sched1).run () = .ok (.pending, c3') () := rfl
theorem poll4 : (c3'.pollPending sched1).run () = .ok (.ready (.ok ()), c4) () := rfl
theorem reach3' : CReach sched1 svc c3' := .step (.step (.step (.step .refl (.push (S := svc) 5 3)) (.poll (w := ()) (w' := ()) (p := .ready (.ok ())) rfl)) (.push (S := svc) (c := c2) 5 0)) (.poll poll3)
/-- service 0 is gone for good -/
example : ¬ c4.view.Alive 0 := C28_replaced_gone reach3' poll4 (k := 5) (t := 0) (s := 3) rfl (by simp [c4, c3', Cache.view, IMap.get]) .refl

/-- evicting the key: neither comes back, even if the key is pushed again -/
example : (c3.evict 5).1 = true := rfl
example : ¬ ((c3.evict 5).2.push 5 3).view.Alive 0 ∧ ¬ ((c3.evict 5).2.push 5 3).view.Alive 1 :=
  ⟨(C27_never_again reach3 (k := 5) (Or.inr ⟨3, rfl⟩) (.step .refl (.push (S := svc) 5 3))).1, (C27_never_again reach3 (k := 5) (Or.inl ⟨0, rfl⟩) (.step .refl (.push (S := svc) 5 3))).1⟩
/-- the cancelled future is still in the pending set (and counts in `len`) until it is polled -/
example : (c3.evict 5).2.len = 1 := rfl

/-- a failing service is reported with its key and dropped -/
def c5 : Cache Nat svc := c2.push 6 9
theorem reach5 : CReach sched svc c5 := .step reach2 (.push (S := svc) 6 9)
example : (c5.pollPending sched).run () = .ok (.ready (.error (6, "broken")), { c2 with nextCell := 2 }) () := rfl

/-- the case a service called with a newer one waiting differs from one without: `call_ready_index` -/
example : ∃ c', (c2.callReadyIndex 0 7).run () = .ok (7, c') () ∧ c'.view.pend 5 = some (0, 0) := by
  obtain ⟨c', h1, h2, h3, h4, _⟩ := (C29_call_index (V := sched) reach2 (i := 0) (k := 5) (s := 3) (p := (0, 0)) rfl 7 ()).1 7 0 () rfl
  exact ⟨c', h1, h3 rfl⟩

/-- an older *ready* service can outlive a newer one: the newer one (number 1) is pushed and fails; the older one is still ready, is called, and waits again -/
def c6 : Cache Nat svc := c2.push 5 9
theorem reach6 : CReach sched svc c6 := .step reach2 (.push (S := svc) 5 9)
example : ∃ c c', (c6.pollPending sched).run () = .ok (.ready (.error (5, "broken")), c) () ∧ c.view.rdy 5 = some (0, 3) ∧
    (c.callReady 5 7).run () = .ok (7, c') () ∧ c'.view.pend 5 = some (0, 0) := ⟨{ c2 with nextCell := 2 }, _, rfl, rfl, rfl, rfl⟩

end CacheDemo
end Tower
