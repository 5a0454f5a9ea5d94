import Verif.Proof.Balance2
import Verif.Props.C26_ReadyCache

/-!
# Balance: C30 - C34, MakeBalance: C57

All theorems are about every state a balancer can reach (`BalReach`, in `Spec/BalanceSpec.lean`: any sequence of `poll_ready`s and `call`s, in any worlds) and hold for any discovery, any endpoints, any
load function (which may have effects), any random source, and any order in which pending endpoints are polled. Endpoint `t` is the `t`-th one that discovery inserted.
-/

namespace Tower
set_option linter.unusedSectionVars false
set_option linter.unusedSimpArgs false
variable {W Req Res Err K DErr BErr : Type} [DecidableEq K] {B : BalCfg W Req Res Err K DErr BErr} {fuel : Nat}

/-! ## C30 -/

/-- C30: `poll_ready` returns `Ready(Ok)` only if, as the last thing it did (the world `w'` is the one that poll left), the `poll_ready` of an endpoint held for some key `k` returned `Ready(Ok)`; and a `call` of the balancer then
is a call of that endpoint, in the state that poll left: it returns the future of that call (in a `MapErr`), and panics only if that call does. -/
theorem C30_dispatch {log : List (Change K B.S.σ)} {b b' : Balance B} {w w' : W} (h : BalReach B fuel log b)
    (hr : ((balance B fuel).pollReady b).run w = .ok (.ready (.ok ()), b') w') :
    ∃ k t s s0 w0, b'.svcs.view.rdy k = some (t, s) ∧ (B.S.pollReady s0).run w0 = .ok (.ready (.ok ()), s) w' ∧
      ∀ r w1,
        (∀ f s' w2, (B.S.call s r).run w1 = .ok (f, s') w2 → ∃ b'', ((balance B fuel).call b' r).run w1 = .ok (some f, b'') w2) ∧
        (∀ m, (B.S.call s r).run w1 = .panic m → ((balance B fuel).call b' r).run w1 = .panic m) ∧
        ((B.S.call s r).run w1 = .spin → ((balance B fuel).call b' r).run w1 = .spin) := by
  have hi := h.log.inv
  have hp := Balance.ready_post hi hr
  obtain ⟨chs, b1, w1, h1, h2, h3, h4⟩ := hp.upd
  rcases h4 with ⟨e, he, _⟩ | h4
  · cases he
  · obtain ⟨⟨i, k, s, p, s0, w0, q1, q2, q3⟩, _⟩ := h4.ready rfl
    refine ⟨k, p.2, s, s0, w0, hp.inv.get_ready q2, q3, fun r w1 => ?_⟩
    obtain ⟨c1, c2, c3⟩ := Cache.callReadyIndex_spec hp.inv q2 r w1
    have hcall : b'.call r = (do let (f, c) ← b'.svcs.callReadyIndex i r; pure (f, { b' with svcs := c, idx := none })) := by
      unfold Balance.call
      rw [q1]
    show (∀ f s' w2, _ → ∃ b'', (b'.call r >>= _).run w1 = _) ∧ (∀ m, _ → (b'.call r >>= _).run w1 = _) ∧ (_ → (b'.call r >>= _).run w1 = _)
    rw [hcall]
    refine ⟨?_, ?_, ?_⟩
    · intro f s' w2 hc
      obtain ⟨c', h5, _⟩ := c3 f s' w2 hc
      refine ⟨{ b' with svcs := c', idx := none }, ?_⟩
      rw [Act.run_bind, Act.run_bind, h5]
      rfl
    · intro m hc
      rw [Act.run_bind, Act.run_bind, c1 m hc]
    · intro hc
      rw [Act.run_bind, Act.run_bind, c2 hc]

/-- C30: no assertion of the balancer fails and no index is invalid: `poll_ready` panics only with a panic of discovery, of an endpoint's `poll_ready` or of a load function. -/
theorem C30_no_panic {log : List (Change K B.S.σ)} {b : Balance B} {w : W} {m : String} (h : BalReach B fuel log b) (hr : ((balance B fuel).pollReady b).run w = .panic m) :
    (∃ d w1, (B.D.poll d).run w1 = .panic m) ∨ (∃ s w1, (B.S.pollReady s).run w1 = .panic m) ∨ (∃ s w1, (B.L.load s).run w1 = .panic m) := by
  rcases Act.wpx_panics (Balance.pollReady_wpx fuel b w h.log.inv) hr with h1 | h1 | h1
  · exact Or.inl h1
  · exact Or.inr (Or.inl h1)
  · exact Or.inr (Or.inr h1)

/-- C30: `call` panics only if the balancer was not ready, or the endpoint's `call` panics. -/
theorem C30_call_panics {log : List (Change K B.S.σ)} {b : Balance B} {w : W} {r : Req} {m : String} (h : BalReach B fuel log b) (hr : ((balance B fuel).call b r).run w = .panic m) :
    b.idx = none ∨ (∃ i, b.idx = some i ∧ b.svcs.ready.length ≤ i) ∨ ∃ s, (B.S.call s r).run w = .panic m := by
  have hr : (b.call r).run w = .panic m := by
    have hr : (b.call r >>= _).run w = .panic m := hr
    rw [Act.run_bind] at hr
    cases hc : (b.call r).run w with
    | ok x w1 => rw [hc] at hr; cases hr
    | spin => rw [hc] at hr; cases hr
    | panic m' => rw [hc] at hr; cases hr; rfl
  unfold Balance.call at hr
  cases hidx : b.idx with
  | none => exact Or.inl rfl
  | some i =>
    right
    simp only [hidx] at hr
    rw [Act.run_bind] at hr
    cases hc : (b.svcs.callReadyIndex i r).run w with
    | ok x w1 => rw [hc] at hr; cases hr
    | spin => rw [hc] at hr; cases hr
    | panic m' =>
      rw [hc] at hr; cases hr
      rcases (C26_no_assert_fails h.creach w m).2.2.2.1 i r hc with h1 | ⟨k, s, t, _, h2⟩
      · exact Or.inl ⟨i, rfl, h1⟩
      · exact Or.inr ⟨s, h2⟩

/-! ## C31 -/

/-- C31: if `poll_ready` returns `Pending`, no endpoint is ready: all that are held wait. One that waits was polled and returned `Pending` when it was last touched, or it was not polled since it was inserted or
since it was called (it then is in the set of futures to poll, which polls it at the latest when woken). -/
theorem C31_pending {log chs : List (Change K B.S.σ)} {b b' : Balance B} {w w' : W} (h : BalReach B fuel log b)
    (hr : ((balance B fuel).pollReady b).run w = .ok (.pending, b') w') (hd : Discovered B.D b.disc w chs) :
    b'.svcs.ready = [] ∧ (∀ k, b'.svcs.view.rdy k = none) ∧
    ∀ k t s, b'.svcs.view.pend k = some (t, s) →
      (∃ s0 w1 w2, (B.S.pollReady s0).run w1 = .ok (.pending, s) w2) ∨ (∃ k', .insert k' s ∈ log ++ chs) ∨ (∃ s0 r f w1 w2, (B.S.call s0 r).run w1 = .ok (f, s) w2) := by
  have hi := h.log.inv
  have hp := Balance.ready_post hi hr
  have hb' : BalReach B fuel (log ++ chs) b' := by obtain ⟨d, r, h⟩ := h; exact ⟨d, r, .ready h hr hd⟩
  have hall := hb'.all (Pp := fun s => (∃ s0 w1 w2, (B.S.pollReady s0).run w1 = .ok (.pending, s) w2) ∨ (∃ k', .insert k' s ∈ log ++ chs) ∨ (∃ s0 r f w1 w2, (B.S.call s0 r).run w1 = .ok (f, s) w2))
    (Pr := fun _ => True) ⟨fun _ h => Or.inl ⟨_, _, _, h⟩, fun _ _ => trivial, fun _ h => Or.inl ⟨_, _, _, h⟩, fun _ _ => trivial⟩
    (fun _ h => Or.inr (Or.inr ⟨_, _, _, _, _, h⟩)) (fun k s hm => Or.inr (Or.inl ⟨k, hm⟩))
  obtain ⟨chs', b1, w1, h1, h2, h3, h4⟩ := hp.upd
  rcases h4 with ⟨e, he, _⟩ | h4
  · cases he
  · obtain ⟨h5, _⟩ := h4.pending rfl
    refine ⟨h5, fun k => ?_, hall.1⟩
    cases hx : b'.svcs.view.rdy k with
    | none => rfl
    | some y =>
      have := hp.inv.rdy_iff.1 hx
      unfold Cache.R at this
      rw [h5] at this; cases this

/-- C31: if every waiting endpoint is polled (all are woken), then after `Pending` every endpoint that is held is in the state a `poll_ready` left that returned `Pending`, however it was before. -/
theorem C31_pending_all_polled {log : List (Change K B.S.σ)} {b b' : Balance B} {w w' : W} (h : BalReach B fuel log b) (hfull : ∀ n w i, i < n → i ∈ (B.V.order n w).1)
    (hr : ((balance B fuel).pollReady b).run w = .ok (.pending, b') w') :
    (∀ k, b'.svcs.view.rdy k = none) ∧
    ∀ k t s, b'.svcs.view.pend k = some (t, s) → ∃ s0 w1 w2, (B.S.pollReady s0).run w1 = .ok (.pending, s) w2 := by
  have hi := h.log.inv
  have hp := Balance.ready_post hi hr
  obtain ⟨chs', b1, w1, h1, h2, h3, h4⟩ := hp.upd
  refine ⟨(C31_pending h hr h1).2.1, ?_⟩
  rcases h4 with ⟨e, he, _⟩ | h4
  · cases he
  · exact h4.full hfull

/-! ## C32 -/

/-- C32: a call goes to an endpoint `t` that discovery inserted, for a key `k` that was not removed since, as far as the balancer has read discovery (`log`); any other endpoint the balancer holds for this key was
inserted later and is not ready. -/
theorem C32_dispatch {log : List (Change K B.S.σ)} {b b' : Balance B} {w w' : W} {r : Req} {f : B.S.φ} (h : BalReach B fuel log b)
    (hc : ((balance B fuel).call b r).run w = .ok (some f, b') w') :
    ∃ k t s s', b.svcs.view.rdy k = some (t, s) ∧ (B.S.call s r).run w = .ok (f, s') w' ∧ Current log k t ∧
      ∀ t', b.svcs.view.Holds k t' → t' = t ∨ (t < t' ∧ ∃ s'', b.svcs.view.pend k = some (t', s'')) := by
  have hl := h.log
  obtain ⟨_, e, hc⟩ := balance_call hc
  cases e
  obtain ⟨i, k, s, p, s', h1, h2, h3, h4, h5, h6, _⟩ := Balance.call_spec hl.inv hc
  have hg := hl.inv.get_ready h2
  refine ⟨k, p.2, s, s', hg, h3, hl.cur k p.2 (Or.inr ⟨_, hg⟩), ?_⟩
  rintro t' (⟨s2, h7⟩ | ⟨s2, h7⟩)
  · exact Or.inr ⟨CReach.ord h.creach _ _ _ _ _ hg h7, s2, h7⟩
  · rw [hg] at h7; cases h7; exact Or.inl rfl

/-- C32: all that a balancer holds was inserted by discovery and not removed since. -/
theorem C32_current {log : List (Change K B.S.σ)} {b : Balance B} (h : BalReach B fuel log b) {k : K} {t : Nat} (ht : b.svcs.view.Holds k t) : Current log k t :=
  h.log.cur k t ht

/-- C32: once an endpoint `t` was ready for a key `k`, no endpoint that was inserted for `k` before it is ever held for `k` (and so none is called) again. -/
theorem C32_replaced {log chs : List (Change K B.S.σ)} {b b' : Balance B} (h : BalReach B fuel log b) {k : K} {t : Nat} {s : B.S.σ} (ht : b.svcs.view.rdy k = some (t, s))
    (hr : BalRun B fuel b chs b') {t' : Nat} (ht' : b'.svcs.view.Holds k t') : t ≤ t' := by
  have hi := h.log.inv
  rcases (CRun.alive hi (hr.crun hi).2).2 k t' ht' with h1 | h1
  · rcases h1 with ⟨s1, h1⟩ | ⟨s1, h1⟩
    · exact Nat.le_of_lt (CReach.ord h.creach _ _ _ _ _ ht h1)
    · rw [ht] at h1; cases h1; exact Nat.le_refl _
  · have := hi.holds_lt (Or.inr ⟨_, ht⟩); omega

/-- C32: `len` is the number of endpoints held, plus the number of pending futures that are cancelled already but not polled since. `held` lists the endpoints held, each once. -/
theorem C32_len {log : List (Change K B.S.σ)} {b : Balance B} (h : BalReach B fuel log b) :
    ∃ held : List (K × Nat), held.Nodup ∧ (∀ k t, (k, t) ∈ held ↔ b.svcs.view.Holds k t) ∧
      b.len = held.length + (b.svcs.pending.filter (fun e => e.rx ∈ b.svcs.cancelled)).length := by
  have hi := h.log.inv
  let pl := b.svcs.pending.filter (fun e => e.rx ∉ b.svcs.cancelled)
  refine ⟨pl.map (fun e => (e.key, e.rx)) ++ b.svcs.ready.map (fun e => (e.1, e.2.2.2)), ?_, ?_, ?_⟩
  · have hn : ((pl.map (fun e => (e.key, e.rx)) ++ b.svcs.ready.map (fun e => (e.1, e.2.2.2))).map (·.2)).Nodup := by
      simp only [List.map_append, List.map_map]
      have hc := hi.cells
      unfold Cache.cells at hc
      refine List.Nodup.sublist (List.Sublist.append ?_ (List.Sublist.refl _)) hc
      exact List.Sublist.map _ List.filter_sublist
    exact List.Nodup.of_map _ hn
  · intro k t
    simp only [List.mem_append, List.mem_map, Prod.mk.injEq]
    constructor
    · rintro (⟨e, he, rfl, rfl⟩ | ⟨e, he, rfl, rfl⟩)
      · simp only [pl, List.mem_filter, decide_eq_true_eq] at he
        exact Or.inl ⟨e.svc, hi.pend_iff.2 he⟩
      · exact Or.inr ⟨_, hi.rdy_iff.2 (hi.R_of he)⟩
    · rintro (⟨s, hs⟩ | ⟨s, hs⟩)
      · have := hi.pend_iff.1 hs
        exact Or.inl ⟨_, by simp only [pl, List.mem_filter, decide_eq_true_eq]; exact this, rfl, rfl⟩
      · exact Or.inr ⟨_, hi.rdy_iff.1 hs, rfl, rfl⟩
  · have hsum : ∀ l : List (PEnt K B.S.σ), l.length = (l.filter (fun e => e.rx ∉ b.svcs.cancelled)).length + (l.filter (fun e => e.rx ∈ b.svcs.cancelled)).length := by
      intro l
      induction l with
      | nil => rfl
      | cons e l ih =>
        by_cases he : e.rx ∈ b.svcs.cancelled
        · rw [List.filter_cons_of_neg (by simpa using he), List.filter_cons_of_pos (by simpa using he)]
          simp only [List.length_cons]; omega
        · rw [List.filter_cons_of_pos (by simpa using he), List.filter_cons_of_neg (by simpa using he)]
          simp only [List.length_cons]; omega
    show b.svcs.ready.length + b.svcs.pending.length = _
    rw [hsum b.svcs.pending]
    simp only [List.length_append, List.length_map, pl]
    omega

/-- C32: after a `poll_ready` that did not fail and polled all that waits, `len` is the number of endpoints held. -/
theorem C32_len_exact {log : List (Change K B.S.σ)} {b b' : Balance B} {w w' : W} {p : Poll (Except BErr Unit)} (h : BalReach B fuel log b) (hfull : ∀ n w i, i < n → i ∈ (B.V.order n w).1)
    (hr : ((balance B fuel).pollReady b).run w = .ok (p, b') w') (hp : ∀ e, p ≠ .ready (.error e)) :
    ∃ held : List (K × Nat), held.Nodup ∧ (∀ k t, (k, t) ∈ held ↔ b'.svcs.view.Holds k t) ∧ b'.len = held.length := by
  have hi := h.log.inv
  have hpost := Balance.ready_post hi hr
  obtain ⟨chs, b1, w1, h1, h2, h3, h4⟩ := hpost.upd
  have hb' : BalReach B fuel (log ++ chs) b' := by obtain ⟨d, r, h⟩ := h; exact ⟨d, r, .ready h hr h1⟩
  obtain ⟨held, q1, q2, q3⟩ := C32_len hb'
  refine ⟨held, q1, q2, ?_⟩
  rcases h4 with ⟨e, he, _⟩ | h4
  · exact absurd he (hp _)
  · have hcl := h4.clean hfull
    rw [q3, List.filter_eq_nil_iff.2 (by intro e he; simpa using hcl e he)]
    rfl

/-! ## C33 -/

/-- What `p2c_ready_index` does, with `n` ready endpoints: none - no choice; one - it is chosen; more - two distinct ones are drawn (`sample_floyd2`), their loads are read, in this order, and the first is chosen if its load is `<=` that of the
second, else the second is. The ready endpoints are not changed. -/
theorem C33_p2c {b b' : Balance B} {w w' : W} {o : Option Nat} (hr : b.p2c.run w = .ok (o, b') w') :
    b'.svcs = b.svcs ∧
    (b.svcs.ready.length = 0 → o = none) ∧
    (b.svcs.ready.length = 1 → o = some 0) ∧
    (2 ≤ b.svcs.ready.length → ∃ x y r' ex ey lx ly w1, sampleFloyd2 B.G b.rng b.svcs.ready.length = some ((x, y), r') ∧ x ≠ y ∧
      b.svcs.ready[x]? = some ex ∧ b.svcs.ready[y]? = some ey ∧ (B.L.load ex.2.1).run w = .ok lx w1 ∧ (B.L.load ey.2.1).run w1 = .ok ly w' ∧
      ((B.L.le lx ly = true ∧ o = some x) ∨ (B.L.le lx ly = false ∧ o = some y))) := by
  have hp : Balance.P2cPost b w o b' w' := by have := Act.wpx_ok (Balance.p2c_wpx (Pr := fun _ => True) b w (fun _ _ => trivial)) hr; exact this
  obtain ⟨p1, p2, p3, p4⟩ := hp
  refine ⟨p2, ?_, ?_, ?_⟩
  · intro h0
    cases o with
    | none => rfl
    | some i => have := p4.1; omega
  · intro h1
    cases o with
    | none => have := p4.1; rw [this] at h1; cases h1
    | some i => have := p4.1; have : i = 0 := by omega
                rw [this]
  · intro h2
    cases o with
    | none => have := p4.1; rw [this] at h2; simp at h2
    | some i =>
      rcases p4.2 with ⟨h3, _⟩ | ⟨x, y, r', q1, q2, q3, q4, ex, ey, lx, ly, w1, q5, q6, q7, q8, q9⟩
      · omega
      · refine ⟨x, y, r', ex, ey, lx, ly, w1, q1, q2, q5, q6, q7, q8, ?_⟩
        cases hle : B.L.le lx ly with
        | true => rw [hle, if_pos rfl] at q9; exact Or.inl ⟨rfl, by rw [q9]⟩
        | false => rw [hle, if_neg (by simp)] at q9; exact Or.inr ⟨rfl, by rw [q9]⟩

/-- C33: if load is a function `ℓ` of the endpoint (no effects), an endpoint that has more load than every other ready one is not chosen among two or more; and if `<=` is total, the chosen one has at most the load of the other one drawn. -/
theorem C33_not_the_most_loaded {b b' : Balance B} {w w' : W} {o : Option Nat} (hr : b.p2c.run w = .ok (o, b') w') (ℓ : B.S.σ → B.L.M) (hℓ : ∀ s w, (B.L.load s).run w = .ok (ℓ s) w)
    {j : Nat} {e : K × (B.S.σ × (Nat × Nat))} (he : b.svcs.ready[j]? = some e) (h2 : 2 ≤ b.svcs.ready.length)
    (hmax : ∀ i e', i ≠ j → b.svcs.ready[i]? = some e' → B.L.le (ℓ e'.2.1) (ℓ e.2.1) = true ∧ B.L.le (ℓ e.2.1) (ℓ e'.2.1) = false) : o ≠ some j := by
  obtain ⟨x, y, r', ex, ey, lx, ly, w1, q1, q2, q3, q4, q5, q6, q7⟩ := (C33_p2c hr).2.2.2 h2
  rw [hℓ] at q5 q6
  cases q5; cases q6
  rintro rfl
  rcases q7 with ⟨h3, h4⟩ | ⟨h3, h4⟩
  · cases h4
    rw [he] at q3; cases q3
    rw [(hmax y ey (fun h => q2 h.symm) q4).2] at h3; cases h3
  · cases h4
    rw [he] at q4; cases q4
    rw [(hmax x ex q2 q3).1] at h3; cases h3

/-- C33: the endpoint a successful `poll_ready` settles on is the one `p2c_ready_index` chose among those that are ready (in `b1`, which has the same ready endpoints as `b'`, except that the chosen one was then polled), then found ready at once; unless the index chosen by an earlier `poll_ready` (after which there was no call) is
kept, because the endpoint found at that index is ready. -/
theorem C33_ready {log : List (Change K B.S.σ)} {b b' : Balance B} {w w' : W} (h : BalReach B fuel log b)
    (hr : ((balance B fuel).pollReady b).run w = .ok (.ready (.ok ()), b') w') :
    ∃ i, b'.idx = some i ∧ (b.idx = some i ∨
      ∃ (b1 b2 : Balance B) (w1 w2 : W) (k : K) (s : B.S.σ) (p : Nat × Nat) (s0 : B.S.σ), b1.p2c.run w1 = .ok (some i, b2) w2 ∧ b1.svcs.ready[i]? = some (k, (s0, p)) ∧
        (B.S.pollReady s0).run w2 = .ok (.ready (.ok ()), s) w' ∧ b'.svcs.ready = b1.svcs.ready.set i (k, (s, p))) := by
  have hi := h.log.inv
  have hp := Balance.ready_post hi hr
  obtain ⟨chs, b1, w1, h1, h2, h3, h4⟩ := hp.upd
  rcases h4 with ⟨e, he, _⟩ | h4
  · cases he
  · obtain ⟨_, ⟨i, q1, q2⟩ | ⟨b2, w2, w3, b3, i, k, s, p, s0, q1, q2, q3, q4, q5, q6⟩⟩ := h4.ready rfl
    · exact ⟨i, q2, Or.inl (h3 ▸ q1)⟩
    · exact ⟨i, q2, Or.inr ⟨b2, b3, w2, w3, k, s, p, s0, q1, q3, q5, q6⟩⟩

/-! ## C34 -/

/-- C34: `poll_ready` returns an error only if discovery did, and it is that error. -/
theorem C34_only_discovery_fails {log : List (Change K B.S.σ)} {b b' : Balance B} {w w' : W} {e : BErr} (h : BalReach B fuel log b)
    (hr : ((balance B fuel).pollReady b).run w = .ok (.ready (.error e), b') w') :
    ∃ d d' w1 e0, (B.D.poll d).run w1 = .ok (.ready (some (.error e0)), d') w' ∧ e = B.fromDisc e0 := by
  have hi := h.log.inv
  have hp := Balance.ready_post hi hr
  obtain ⟨chs, b1, w1, h1, h2, h3, h4⟩ := hp.upd
  rcases h4 with ⟨e0, he, _, d, w0, hd⟩ | h4
  · cases he; exact ⟨d, _, w0, e0, hd, rfl⟩
  · exact absurd rfl (h4.noerr e)

/-- C34: an endpoint whose `poll_ready` failed is not in the balancer any more. `Bad` is any property of endpoints that only a failing `poll_ready` brings about (such as "has failed"): no endpoint in the balancer has it, if none had it when it was inserted. -/
theorem C34_failed_dropped {log : List (Change K B.S.σ)} {b : Balance B} (h : BalReach B fuel log b) (Bad : B.S.σ → Prop)
    (hpoll : ∀ s w p s' w', (B.S.pollReady s).run w = .ok (p, s') w' → (∀ e, p ≠ .ready (.error e)) → Bad s' → Bad s)
    (hcall : ∀ s r w f s' w', (B.S.call s r).run w = .ok (f, s') w' → Bad s' → Bad s)
    (hins : ∀ k s, .insert k s ∈ log → ¬ Bad s) :
    ∀ k t s, (b.svcs.view.pend k = some (t, s) ∨ b.svcs.view.rdy k = some (t, s)) → ¬ Bad s := by
  have hall := h.all (Pp := fun s => ¬ Bad s) (Pr := fun s => ¬ Bad s)
    ⟨fun hs h hb => hs (hpoll _ _ _ _ _ h (fun e he => by cases he) hb), fun hs h hb => hs (hpoll _ _ _ _ _ h (fun e he => by cases he) hb),
     fun hs h hb => hs (hpoll _ _ _ _ _ h (fun e he => by cases he) hb), fun hs h hb => hs (hpoll _ _ _ _ _ h (fun e he => by cases he) hb)⟩
    (fun hs h hb => hs (hcall _ _ _ _ _ _ h hb)) hins
  rintro k t s (h1 | h1)
  · exact hall.1 k t s h1
  · exact hall.2 k t s h1

/-- C34: the loops end: `poll_ready` returns (or panics), whatever endpoints fail, unless an endpoint or a load function does not, or discovery goes on yielding changes without end (`fuel` bounds those read in one poll). -/
theorem C34_returns {log : List (Change K B.S.σ)} {b : Balance B} {w : W} (h : BalReach B fuel log b) (hr : ((balance B fuel).pollReady b).run w = .spin) :
    (∃ s w1, (B.S.pollReady s).run w1 = .spin) ∨ (∃ s w1, (B.L.load s).run w1 = .spin) ∨ (Balance.update fuel b).run w = .spin := by
  rcases Act.wpx_spins (Balance.pollReady_wpx fuel b w h.log.inv) hr with (h1 | h1) | h1
  · exact Or.inl h1
  · exact Or.inr (Or.inl h1)
  · exact Or.inr (Or.inr h1)

/-- C34: and reading discovery ends within `fuel` rounds if discovery yields fewer than `fuel` changes before it has nothing more for now. -/
theorem C34_update_returns {n : Nat} : ∀ {b : Balance B} {w : W} {chs : List (Change K B.S.σ)}, Discovered B.D b.disc w chs → chs.length < n → (∀ d w, (B.D.poll d).run w ≠ .spin) → (Balance.update n b).run w ≠ .spin := by
  induction n with
  | zero => intro b w chs _ h; omega
  | succ n ih =>
    intro b w chs hd hl hs hsp
    unfold Balance.update at hsp
    rw [Act.run_bind] at hsp
    cases hp : (B.D.poll b.disc).run w with
    | panic m => rw [hp] at hsp; cases hsp
    | spin => exact hs _ _ hp
    | ok x w1 =>
      obtain ⟨p, d⟩ := x
      rw [hp] at hsp
      rcases p with _ | (_ | (e | ch))
      · cases hsp
      · cases hsp
      · cases hsp
      · obtain ⟨d1, w2, h1, h2⟩ := hd
        rcases h1.uncons with ⟨rfl, rfl, rfl⟩ | ⟨ch', chs1, d3, w3, rfl, h3, h4⟩
        · exact h2 _ _ _ hp
        · rw [hp] at h3; cases h3
          exact ih (b := { b with disc := d, svcs := Balance.apply b.svcs ch }) ⟨_, _, h4, h2⟩ (by simp at hl; omega) hs hsp

/-! ## C57 -/

/-- C57: `MakeBalance` is ready when its maker is and passes targets on to it; when the maker's future yields a discovery, the result is a new balancer over exactly that discovery, with no endpoints; a failure of the maker is passed on. -/
theorem C57_makeBalance {Tgt MErr : Type} (seed : Act W B.G.ρ) (M : Service W Tgt B.D.δ MErr) :
    (makeBalance B seed M).pollReady = M.pollReady ∧ (makeBalance B seed M).call = M.call ∧
    (∀ f w f' w', (M.poll f).run w = .ok (.pending, f') w' → ((makeBalance B seed M).poll f).run w = .ok (.pending, f') w') ∧
    (∀ f w f' w' e, (M.poll f).run w = .ok (.ready (.error e), f') w' → ((makeBalance B seed M).poll f).run w = .ok (.ready (.error e), f') w') ∧
    (∀ f w f' w' d r w'', (M.poll f).run w = .ok (.ready (.ok d), f') w' → seed.run w' = .ok r w'' →
      ∃ b, ((makeBalance B seed M).poll f).run w = .ok (.ready (.ok b), f') w'' ∧ b.disc = d ∧ b.len = 0 ∧ BalReach B fuel [] b) := by
  refine ⟨rfl, rfl, ?_, ?_, ?_⟩
  · intro f w f' w' h; exact Act.run_bind_ok h
  · intro f w f' w' e h; exact Act.run_bind_ok h
  · intro f w f' w' d r w'' h hs
    refine ⟨Balance.fromRng B d r, ?_, rfl, rfl, d, r, .refl⟩
    rw [Act.run_bind_ok h]
    exact Act.run_bind_ok hs

/-! ## Concrete cases -/

namespace BalanceDemo

/-- An endpoint: its load and whether it is ready (`0`), not ready (`1`), about to break (`2`) or has failed (`3`). A call makes it unready. -/
@[reducible] def svc : Service Unit Nat Nat String where
  σ := Nat × Nat
  φ := Nat
  pollReady s := if s.2 = 0 then pure (.ready (.ok ()), s) else if s.2 = 1 then pure (.pending, s) else pure (.ready (.error "broken"), (s.1, 3))
  call s r := pure (s.1 + r, (s.1 + 1, 1))
  poll f := pure (.ready (.ok f), f)
  clone s := s

/-- discovery from a script; `none` is `Pending` -/
@[reducible] def disc : Discover Unit Nat (Nat × Nat) String where
  δ := List (Option (Except String (Change Nat (Nat × Nat))))
  poll l := match l with
    | [] => pure (.pending, [])
    | none :: l => pure (.pending, l)
    | some x :: l => pure (.ready (some x), l)

/-- polls the first three -/
def sched : Sched Unit := ⟨fun _ w => ([0, 1, 2], w)⟩

@[reducible] def rng : Rng := ⟨Nat, fun c => (c % 7, c + 1), fun c => by omega⟩

@[reducible] def cfg : BalCfg Unit Nat Nat String Nat String String where
  S := svc
  D := disc
  L := ⟨Nat, fun s => pure s.1, fun a b => decide (a ≤ b)⟩
  G := rng
  V := sched
  fromErr := id
  fromDisc e := "discovery: " ++ e

/-- three endpoints; later the first one is removed; later discovery fails -/
def script : disc.δ := [some (.ok (.insert 1 (1, 0))), some (.ok (.insert 2 (5, 0))), some (.ok (.insert 3 (9, 0))), some (.ok (.insert 4 (0, 1))), some (.ok (.insert 5 (0, 2))), none,
  some (.ok (.remove 1)), none, some (.error "gone")]

def b0 : Balance cfg := Balance.fromRng cfg script 0

/-- endpoints 1, 2, 3 are ready, 4 waits, 5 is dropped (it fails; the balancer does not). Of the endpoints with loads 1 and 5 that with load 1 is chosen. -/
def b1 : Balance cfg where
  disc := script.drop 6
  svcs := { pending := [⟨4, (0, 1), 3⟩], txs := [(4, 3)], ready := [(1, ((1, 0), (0, 0))), (2, ((5, 0), (1, 1))), (3, ((9, 0), (2, 2)))], cancelled := [], nextCell := 5 }
  idx := some 0
  rng := (2 : Nat)
theorem run1 : ((balance cfg 10).pollReady b0).run () = .ok (.ready (.ok ()), b1) () := rfl

def log1 : List (Change Nat (Nat × Nat)) := [.insert 1 (1, 0), .insert 2 (5, 0), .insert 3 (9, 0), .insert 4 (0, 1), .insert 5 (0, 2)]
theorem disc1 : Discovered disc script () log1 := by
  refine ⟨script.drop 5, (), ?_, ?_⟩
  · exact .snoc (chs := log1.take 4) (.snoc (chs := log1.take 3) (.snoc (chs := log1.take 2) (.snoc (chs := log1.take 1) (.snoc (chs := []) .nil rfl) rfl) rfl) rfl) rfl
  · intro ch d2 w2 h; cases h
theorem reach0 : BalReach cfg 10 [] b0 := ⟨script, (0 : Nat), .refl⟩
theorem reach1 : BalReach cfg 10 log1 b1 := ⟨script, (0 : Nat), .ready (log := []) (b := b0) (chs := log1) .refl run1 disc1⟩

/-- C30: the call goes to the endpoint chosen -/
example : ∃ k t s, b1.svcs.view.rdy k = some (t, s) ∧ (cfg.S.pollReady s).run () = .ok (.ready (.ok ()), s) () := by
  obtain ⟨k, t, s, s0, w0, h1, h2, h3⟩ := C30_dispatch reach0 run1
  have h2 : (svc.pollReady s0).run w0 = .ok (.ready (.ok ()), s) () := h2
  refine ⟨k, t, s, h1, ?_⟩
  obtain ⟨a, c⟩ := s0
  simp only at h2
  split at h2
  · rename_i hc
    cases h2
    subst hc; rfl
  · split at h2 <;> cases h2
/-- C34: the one that failed is not there -/
example : ∀ k t s, (b1.svcs.view.pend k = some (t, s) ∨ b1.svcs.view.rdy k = some (t, s)) → ¬ s.2 = 3 :=
  C34_failed_dropped reach1 (fun s => s.2 = 3)
    (by
      rintro ⟨a, c⟩ w p s' w' h hp hb
      simp only at h
      split at h
      · cases h; exact hb
      · split at h
        · cases h; exact hb
        · cases h; exact absurd rfl (hp _))
    (by rintro s r w f s' w' h hb; cases h; simp at hb)
    (by
      intro k s h
      simp only [log1, List.mem_cons, Change.insert.injEq, List.not_mem_nil, or_false] at h
      rcases h with ⟨_, rfl⟩ | ⟨_, rfl⟩ | ⟨_, rfl⟩ | ⟨_, rfl⟩ | ⟨_, rfl⟩ <;> decide)

/-- the call goes to the endpoint for key 1 -/
def b1' : Balance cfg :=
  { b1 with svcs := { pending := [⟨4, (0, 1), 3⟩, ⟨1, (2, 1), 0⟩], txs := [(4, 3), (1, 0)], ready := [(3, ((9, 0), (2, 2))), (2, ((5, 0), (1, 1)))], cancelled := [], nextCell := 5 }, idx := none }
theorem call1 : ((balance cfg 10).call b1 10).run () = .ok (some (11 : Nat), b1') () := rfl
example : ∃ k t, Current log1 k t ∧ b1.svcs.view.Holds k t := by
  obtain ⟨k, t, s, s', h1, _, h2, _⟩ := C32_dispatch (r := (10 : Nat)) reach1 call1
  exact ⟨k, t, h2, Or.inr ⟨s, h1⟩⟩

/-- `poll_ready` twice, with a removal in between. `evict` moves the last ready endpoint into the place of the removed one, and the index chosen before now stands for that one: endpoint 3, the most loaded one, is settled on
without having been chosen by `p2c`. (The comment in the code, `service.rs:210-212`, says that these updates cannot disturb the order of existing ready services.) -/
def b2 : Balance cfg where
  disc := script.drop 8
  svcs := { pending := [⟨4, (0, 1), 3⟩], txs := [(4, 3)], ready := [(3, ((9, 0), (2, 2))), (2, ((5, 0), (1, 1)))], cancelled := [], nextCell := 5 }
  idx := some 0
  rng := (2 : Nat)
theorem run2 : ((balance cfg 10).pollReady b1).run () = .ok (.ready (.ok ()), b2) () := rfl
theorem C33_stale_index : ∃ (f : Nat) (b' : Balance cfg), ((balance cfg 10).call b2 10).run () = .ok (some f, b') () ∧ f = 19 ∧
    ∀ (i : Nat) (e : Nat × ((Nat × Nat) × (Nat × Nat))), b2.svcs.ready[i]? = some e → e.2.1.1 ≤ 9 := by
  refine ⟨19, _, rfl, rfl, ?_⟩
  intro i e h
  match i with
  | 0 => cases h; decide
  | 1 => cases h; decide
  | n + 2 => simp [b2] at h
/-- `p2c` would not have chosen it -/
example : ∀ o b' , (b2.p2c).run () = .ok (o, b') () → o ≠ some 0 := fun o b' h =>
  C33_not_the_most_loaded h (fun s => s.1) (fun s w => rfl) (j := 0) (e := (3, ((9, 0), (2, 2)))) rfl (by decide) (by
    intro i e' hi he
    match i with
    | 0 => exact absurd rfl hi
    | 1 => cases he; exact ⟨rfl, rfl⟩
    | n + 2 => simp [b2] at he)

theorem disc2 : Discovered disc (script.drop 6) () [.remove 1] := by
  refine ⟨script.drop 7, (), .snoc (chs := []) .nil rfl, ?_⟩
  intro ch d2 w2 h; cases h
theorem reach2 : BalReach cfg 10 (log1 ++ [.remove 1]) b2 := by
  obtain ⟨d, r, h⟩ := reach1
  exact ⟨d, r, .ready h run2 disc2⟩
/-- C34: discovery fails -/
example : ∃ b', ((balance cfg 10).pollReady b2).run () = .ok (.ready (.error "discovery: gone"), b') () := ⟨_, rfl⟩

/-- C31: nothing is ready -/
def b3 : Balance cfg := Balance.fromRng cfg [some (.ok (.insert 4 (0, 1))), some (.ok (.insert 6 (0, 2)))] 0
def b3' : Balance cfg where
  disc := []
  svcs := { pending := [⟨4, (0, 1), 0⟩], txs := [(4, 0)], ready := [], cancelled := [], nextCell := 2 }
  idx := none
  rng := (0 : Nat)
theorem run3 : ((balance cfg 10).pollReady b3).run () = .ok (.pending, b3') () := rfl
theorem disc3 : Discovered disc b3.disc () [.insert 4 (0, 1), .insert 6 (0, 2)] := by
  refine ⟨[], (), .snoc (chs := [.insert 4 (0, 1)]) (.snoc (chs := []) .nil rfl) rfl, ?_⟩
  intro ch d2 w2 h; cases h
theorem reach3 : BalReach cfg 10 [] b3 := ⟨_, (0 : Nat), .refl⟩
example : b3'.svcs.ready = [] := (C31_pending reach3 run3 disc3).1

end BalanceDemo
end Tower
