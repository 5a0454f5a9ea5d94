import Verif.Proof.Buffer1

/-! # Buffer: control state of the worker -/

set_option linter.unusedSimpArgs false

namespace Tower
variable {W Req Res Err : Type} {S : Service W Req Res Err}

/-- the worker is being dropped or was dropped -/
def Buf.dying (x : Buf S) : Prop := x.pc = .unwinding ∨ x.pc = .dropping ∨ x.pc = .dead

/-- control state, independent of what handles do -/
structure CtlInv (tr : List (BEv S)) (x : Buf S) : Prop where
  f_err : ∀ e, x.failed = some e → x.err = some e ∧ x.closed = true
  err_f : ∀ e, x.err = some e → x.failed = some e ∨ ∃ m, x.pc = .fail2 m e
  call : ∀ m, x.pc = .call m → x.failed = none
  reply : ∀ m f, x.pc = .reply m f → x.failed = none
  fail1 : ∀ m e, x.pc = .fail1 m e → x.failed = none ∧ .svcFailed e ∈ tr
  fail2 : ∀ m e, x.pc = .fail2 m e → x.failed = none ∧ x.err = some e
  fail3 : ∀ m, x.pc = .fail3 m → x.failed ≠ none
  closed : x.closed = true → x.failed ≠ none ∨ x.dying
  dying : x.dying → (x.closed = true ∨ x.pc = .unwinding) ∧ workerDied tr
  cur : x.cur ≠ none → x.pc = .parked ∨ x.pc = .next
  errTr : ∀ e, x.err = some e → .svcFailed e ∈ tr
  trErr : ∀ e, .svcFailed e ∈ tr → x.err = some e ∨ ∃ m, x.pc = .fail1 m e

theorem workerDied.mono {tr : List (BEv S)} (h : workerDied tr) (ev) : workerDied (tr ++ [ev]) := by
  rcases h with h | h
  · exact .inl (by simp [h])
  · exact .inr (by simp [h])

theorem CtlInv.init (bound : Nat) (svc : S.σ) : CtlInv [] (Buf.init S bound svc) := by
  constructor <;> simp [Buf.init, Buf.dying]

theorem CtlInv.of_same {x y : Buf S} {tr ev} (h : CtlInv tr x) (h1 : y.failed = x.failed) (h2 : y.err = x.err) (h3 : y.pc = x.pc)
    (h4 : y.closed = x.closed) (h5 : y.cur = x.cur) (hev : ∀ e, ev ≠ .svcFailed e) : CtlInv (tr ++ [ev]) y := by
  obtain ⟨a, b, c, d, e, f, g, i, j, k, l, m⟩ := h
  constructor
  · rw [h1, h2, h4]; exact a
  · rw [h1, h2, h3]; exact b
  · rw [h1, h3]; exact c
  · rw [h1, h3]; exact d
  · rw [h1, h3]; intro m' e' he; exact ⟨(e m' e' he).1, by simp [(e m' e' he).2]⟩
  · rw [h1, h2, h3]; exact f
  · rw [h1, h3]; exact g
  · simp only [Buf.dying, h1, h3, h4]; exact i
  · simp only [Buf.dying, h3, h4]; intro hd; exact ⟨(j hd).1, (j hd).2.mono _⟩
  · rw [h3, h5]; exact k
  · rw [h2]; intro e' he; simp [l e' he]
  · rw [h2, h3]; intro e' he
    simp only [List.mem_append, List.mem_singleton] at he
    rcases he with he | he
    · exact m e' he
    · exact absurd he.symm (hev e')

theorem CtlInv.handle {x y : Buf S} {tr ev} (h : CtlInv tr x) (hs : HStep x ev y) : CtlInv (tr ++ [ev]) y := by
  cases hs <;> exact h.of_same rfl rfl rfl rfl rfl (by intro e; simp)

theorem CtlInv.future {x y : Buf S} {tr ev} (h : CtlInv tr x) (hs : FStep x ev y) : CtlInv (tr ++ [ev]) y := by
  cases hs <;> exact h.of_same rfl rfl rfl rfl rfl (by intro e; simp)

set_option maxHeartbeats 2000000 in
theorem CtlInv.worker {x y : Buf S} {tr ev} (h : CtlInv tr x) (hs : WStep x ev y) : CtlInv (tr ++ [ev]) y := by
  obtain ⟨a, b, c, d, e, f, g, i, j, k, l, n⟩ := h
  have errnone : x.failed = none → (∀ m e, x.pc ≠ .fail2 m e) → x.err = none := by
    intro h1 h2
    cases h3 : x.err with
    | none => rfl
    | some e =>
      rcases b e h3 with h4 | ⟨m, h4⟩
      · rw [h1] at h4; cases h4
      · exact absurd h4 (h2 m e)
  have dead : x.pc ≠ .unwinding → x.pc ≠ .dropping → x.pc ≠ .dead → ¬ x.dying := by
    intro h0 h1 h2 h3; rcases h3 with h3 | h3 | h3
    · exact h0 h3
    · exact h1 h3
    · exact h2 h3
  cases hs
  case svc_failed m' e' w w' s' h1 h2 h3 =>
    have hn := errnone h2 (by simp [h1])
    have hc := i
    constructor <;> simp_all [Buf.dying, workerDied]
  case expose m' e' h1 h2 =>
    have := e _ _ h1
    have n' : ∀ e2, BEv.svcFailed e2 ∈ tr → e2 = e' := by
      intro e2 he2
      rcases n e2 he2 with h4 | ⟨m4, h4⟩
      · rw [h2] at h4; cases h4
      · rw [h1] at h4; cases h4; rfl
    constructor <;> simp_all [Buf.dying, workerDied] <;> try assumption
  case close m' e' h1 =>
    have := f _ _ h1
    constructor <;> simp_all [Buf.dying, workerDied, Buf.close] <;> assumption
  all_goals (constructor <;> simp_all [Buf.dying, workerDied, Buf.send, Buf.dropMsg] <;> try assumption)

set_option maxHeartbeats 2000000 in
theorem CtlInv.death {x y : Buf S} {tr ev} (h : CtlInv tr x) (hs : DStep x ev y) : CtlInv (tr ++ [ev]) y := by
  obtain ⟨a, b, c, d, e, f, g, i, j, k, l, n⟩ := h
  cases hs
  all_goals (constructor <;> simp_all [Buf.dying, workerDied, Buf.close, Buf.dropMsg, Buf.dropMsgs] <;> try assumption)

theorem CtlInv.step {x y : Buf S} {tr ev} (h : CtlInv tr x) (hs : BStep x ev y) : CtlInv (tr ++ [ev]) y := by
  cases hs with
  | worker hs => exact h.worker hs
  | death hs => exact h.death hs
  | handle hs => exact h.handle hs
  | future hs => exact h.future hs

/-- a finished worker left nothing behind, and nothing can come -/
def DoneInv (x : Buf S) : Prop :=
  x.pc = .done → x.queue = [] ∧ (x.hs = [] ∨ (x.closed = true ∧ x.sem.permits = x.bound))

theorem DoneInv.step {x y : Buf S} {ev} (h : DoneInv x) (hI : SemInv x) (hs : BStep x ev y) : DoneInv y := by
  cases hs with
  | worker hs =>
    cases hs
    case finish h1 h2 h3 => intro _; exact ⟨h2, by simpa [Buf.semIdle] using h3⟩
    all_goals (intro hd; simp_all)
  | death hs =>
    cases hs
    all_goals (intro hd; simp_all [Buf.close, Buf.dropMsgs, Buf.dropMsg])
  | future hs => cases hs <;> exact h
  | handle hs =>
    have key : x.pc = .done → x.hs ≠ [] → x.queue = [] ∧ x.closed = true ∧ x.sem.permits = x.bound ∧ x.sem.granted = [] ∧
        (∀ k ∈ x.hs, k.st ≠ .ready) := by
      intro hd hne
      obtain ⟨h1, h2 | ⟨h2, h3⟩⟩ := h hd
      · exact absurd h2 hne
      · have := hI.conserved
        refine ⟨h1, h2, h3, List.eq_nil_of_length_eq_zero (by omega), ?_⟩
        intro k hk hst
        have hr : x.reserved = 0 := by omega
        unfold Buf.reserved at hr
        have := List.countP_eq_zero.1 hr k hk
        simp [hst] at this
    cases hs
    case call_panics => exact h
    case call_closed => exact h
    case clone k hk =>
      intro hd
      obtain ⟨h1, h2, h3, _⟩ := key hd (by intro h0; rw [h0] at hk; cases hk)
      exact ⟨h1, .inr ⟨h2, h3⟩⟩
    case call k l r q hl hc =>
      intro hd
      obtain ⟨h1, h2, h3, h4, h5⟩ := key hd (by rw [hl]; simp)
      have := h5 k (by rw [hl]; simp)
      unfold Buf.callOutcome at hc
      split at hc <;> simp_all
    case drop k l r hl =>
      intro hd
      obtain ⟨h1, h2, h3, h4, h5⟩ := key hd (by rw [hl]; simp)
      refine ⟨h1, .inr ⟨h2, ?_⟩⟩
      have := h5 k (by rw [hl]; simp)
      simp only [if_neg this, Sem.dropAcquire, h4, List.not_mem_nil, if_false, h3]
    case ready k l r hl =>
      intro hd
      obtain ⟨h1, h2, h3, h4, h5⟩ := key hd (by rw [hl]; simp)
      refine ⟨h1, .inr ⟨h2, ?_⟩⟩
      simp only [Buf.pollReady]
      split <;> simp [Buf.reserve, h2, h4, h3]

end Tower
