import Verif.Proof.Cache3

/-! # poll_pending, continued: the loop; histories -/

namespace Tower
set_option linter.unusedSectionVars false
variable {W Req Res Err : Type} {K : Type} [DecidableEq K] {S : Service W Req Res Err}

/-- what the scheduler does to the world -/
def Sched.eff (V : Sched W) (w w' : W) : Prop := ∃ n, w' = (V.order n w).2

/-- no service failed -/
def NoFail (es : List (PollEv K Err)) : Prop := ∀ k t e, .failed k t e ∉ es

theorem NoFail.append {es es' : List (PollEv K Err)} (h : NoFail es) (h' : NoFail es') : NoFail (es ++ es') := by
  intro k t e hm
  rcases List.mem_append.1 hm with hm | hm
  · exact h k t e hm
  · exact h' k t e hm

theorem NoFail.of_still {es : List (PollEv K Err)} (h : ∀ ev ∈ es, ∃ k t, ev = .still k t) : NoFail es := by
  intro k t e hm
  obtain ⟨k', t', h'⟩ := h _ hm
  cases h'

namespace Cache

/-- what `poll_pending` leaves -/
structure PollPost (V : Sched W) (c : Cache K S) (w : W) (r : Poll (Except (K × Err) Unit)) (c' : Cache K S) (w' : W) (es : List (PollEv K Err)) : Prop where
  inv : c'.Inv
  steps : PollSteps S V.eff c.view w es c'.view w'
  keys : (c.ready.map (·.1)) <+: (c'.ready.map (·.1))
  len : c'.pending.length ≤ c.pending.length
  pending : r = .pending → c'.pending ≠ [] ∧ NoFail es ∧
    ∃ w1, ∀ i ∈ (V.order c'.pending.length w1).1, ∀ e, c'.pending[i]? = some e → e.rx ∉ c'.cancelled ∧ .still e.key e.rx ∈ es
  done : r = .ready (.ok ()) → c'.pending = [] ∧ NoFail es
  failed : ∀ k e, r = .ready (.error (k, e)) → c'.pending.length < c.pending.length ∧ ∃ es0 t, es = es0 ++ [.failed k t e] ∧ NoFail es0

theorem insert_keys {m : IMap K (S.σ × (Nat × Nat))} (hn : (m.map (·.1)).Nodup) (k : K) (v) : (m.map (·.1)) <+: ((m.insert k v).map (·.1)) := by
  rcases IMap.insert_cases hn k v with ⟨l, v0, r, h1, h2⟩ | ⟨h1, h2⟩
  · rw [h2, h1]; simp
  · rw [h2]; simp

theorem PollPost.pre {V : Sched W} {c c1 c' : Cache K S} {w w1 w' : W} {r es1 es} (h : PollPost V c1 w1 r c' w' es)
    (hs : PollSteps S V.eff c.view w es1 c1.view w1) (hk : (c.ready.map (·.1)) <+: (c1.ready.map (·.1))) (hl : c1.pending.length ≤ c.pending.length)
    (hn : NoFail es1) : PollPost V c w r c' w' (es1 ++ es) := by
  refine ⟨h.inv, hs.trans h.steps, hk.trans h.keys, Nat.le_trans h.len hl, ?_, ?_, ?_⟩
  · intro hr
    obtain ⟨a, b, w2, d⟩ := h.pending hr
    exact ⟨a, hn.append b, w2, fun i hi e he => ⟨(d i hi e he).1, List.mem_append.2 (Or.inr (d i hi e he).2)⟩⟩
  · intro hr
    obtain ⟨a, b⟩ := h.done hr
    exact ⟨a, hn.append b⟩
  · intro k e hr
    obtain ⟨a, es0, t, b, d⟩ := h.failed k e hr
    exact ⟨Nat.lt_of_lt_of_le a hl, es1 ++ es0, t, by rw [b, List.append_assoc], hn.append d⟩

theorem pollPendingLoop_wpx {Pp Pr : S.σ → Prop} (hcl : PollClosed S Pp Pr) (V : Sched W) (n : Nat) : ∀ (c : Cache K S) (w : W), c.Inv → c.view.All Pp Pr → c.pending.length < n →
    Act.wpx (SvcPanicG S Pp Pr) (SvcSpin S) (pollPendingLoop V n c) (fun a w' => ∃ es, PollPost V c w a.1 a.2 w' es) w := by
  induction n with
  | zero => intro c w _ _ hl; omega
  | succ n ih =>
    intro c w h hv hl
    unfold pollPendingLoop
    simp only [Act.wpx_bind, Act.wpx_lift]
    refine Act.wpx_mono (pollNext_wpx (E := V.eff) hcl _ c _ h hv) ?_
    have start : PollSteps S V.eff c.view w [] c.view (V.order c.pending.length w).2 := .env .nil ⟨_, rfl⟩
    rintro ⟨r, p'⟩ w' hr
    rcases r with _ | (_ | v)
    · obtain ⟨es, a, b, d, f, g, j⟩ := hr
      have hlen := congrArg List.length f
      simp only [List.length_map] at hlen
      refine ⟨es, a, start.trans b, List.prefix_rfl, Nat.le_of_eq hlen, ?_, by simp, by simp⟩
      intro _
      exact ⟨d, NoFail.of_still g, w, by simp only [hlen]; exact j⟩
    · obtain ⟨a, b, d⟩ := hr
      simp only at a d
      subst a d
      have hc : c = { c with pending := [] } := by rw [← b]
      simp only [Act.wpx_pure]
      refine ⟨[], by rw [← hc]; exact h, by rw [← hc]; exact start, List.prefix_rfl, by simp, by simp, ?_, by simp⟩
      intro _
      exact ⟨rfl, by intro k t e hm; cases hm⟩
    · obtain ⟨es, l, e, q, w1, a, b, d, f, g, j⟩ := hr
      simp only at g
      subst g
      have hlen : (l ++ q).length + 1 = c.pending.length := by rw [← d]; simp; omega
      have hs := start.trans b
      rw [List.nil_append] at hs
      have hpe : ∀ hx : e.rx ∉ c.cancelled, (view { c with pending := l ++ e :: q }).pend e.key = some (e.rx, e.svc) :=
        fun hx => a.pend_iff.2 ⟨by simp, hx⟩
      rcases v with ⟨k, s, rx⟩ | ⟨k⟩ | ⟨k, er⟩
      · obtain ⟨hx, rfl, rfl, hr⟩ := j
        obtain ⟨m, h1, h2, h3⟩ := promote_spec a rfl hx s
        simp only at h1 h2 h3
        simp only [h1]
        have hs' := hs.snoc (e := .promoted e.key e.rx) (.promoted (hpe hx) hr)
        refine Act.wpx_mono (ih _ w' h2 (by rw [h3]; exact hs'.all hcl hv) (by simp only; omega)) ?_
        rintro ⟨r', c'⟩ w2 ⟨es', hp⟩
        refine ⟨_, hp.pre (by rw [h3]; exact hs') (insert_keys h.rkeys _ _) (by simp only; omega) ?_⟩
        exact (NoFail.of_still f).append (by intro k t e hm; simp at hm)
      · obtain ⟨hx, rfl, rfl⟩ := j
        obtain ⟨h2, h3⟩ := rmCancelled_spec a rfl hx
        simp only at h2 h3
        refine Act.wpx_mono (ih _ w' h2 (by rw [h3]; exact hs.all hcl hv) (by simp only; omega)) ?_
        rintro ⟨r', c'⟩ w2 ⟨es', hp⟩
        exact ⟨_, hp.pre (by rw [h3]; exact hs) List.prefix_rfl (by simp only; omega) (NoFail.of_still f)⟩
      · obtain ⟨hx, rfl, s', hr⟩ := j
        obtain ⟨m, h1, h2, h3⟩ := failed_spec a rfl hx
        simp only at h1 h2 h3
        simp only [h1]
        refine ⟨es ++ [.failed e.key e.rx er], h2, ?_, List.prefix_rfl, by simp only; omega, by simp, by simp, ?_⟩
        · rw [h3]; exact hs.snoc (.failed (hpe hx) hr)
        · intro k e' he
          simp only [Poll.ready.injEq, Except.error.injEq, Prod.mk.injEq] at he
          obtain ⟨rfl, rfl⟩ := he
          exact ⟨by simp only; omega, es, _, rfl, NoFail.of_still f⟩

theorem pollPending_wpxG {Pp Pr : S.σ → Prop} (hcl : PollClosed S Pp Pr) (V : Sched W) (c : Cache K S) (w : W) (h : c.Inv) (hv : c.view.All Pp Pr) :
    Act.wpx (SvcPanicG S Pp Pr) (SvcSpin S) (c.pollPending V) (fun a w' => ∃ es, PollPost V c w a.1 a.2 w' es) w :=
  pollPendingLoop_wpx hcl V _ c w h hv (Nat.lt_succ_self _)

theorem pollPending_wpx (V : Sched W) (c : Cache K S) (w : W) (h : c.Inv) :
    Act.wpx (SvcPanic S) (SvcSpin S) (c.pollPending V) (fun a w' => ∃ es, PollPost V c w a.1 a.2 w' es) w :=
  Act.wpx_weaken (pollPending_wpxG PollClosed.top V c w h (View.All.top _)) (fun _ => SvcPanicG.panic) id (fun _ _ h => h)

end Cache

/-! ## What polls do to a view -/

theorem PollSteps.count {E : W → W → Prop} {v v' : View K S.σ} {w w' : W} {es} (h : PollSteps S E v w es v' w') : v'.count = v.count := by
  induction h with
  | nil => rfl
  | env _ _ ih => exact ih
  | snoc _ he ih => rw [← ih]; cases he <;> rfl

end Tower
