import Verif.Proof.Sends

/-! # How much is sent: `Retry`, `Reconnect`, `SpawnReady`, `Balance`; and in histories -/

set_option linter.unusedSimpArgs false
set_option linter.unusedVariables false
set_option linter.unusedSectionVars false

namespace Tower
open Act

variable {W Req Res Err : Type} {μ : W → Nat}

section
variable {S : Service W Req Res Err} {v : Req → Nat}

/-- `k` times the request that is kept -/
def potLeft (v : Req → Nat) (k : Nat) : Option Req → Nat
  | some c => k * v c
  | none => 0

theorem potLeft_le {v : Req → Nat} {k k' : Nat} {c c' : Req} (hk : k' ≤ k) (hv : v c' ≤ v c) : potLeft v k' (some c') ≤ potLeft v k (some c) := Nat.mul_le_mul hk hv

/-- what a retry future may still send -/
def potRetry {P : RetryPolicy W Req Res Err} (v : Req → Nat) (left : P.π → Nat) (pot : S.φ → Nat) (x : RetryFut Req P.π S.σ S.φ P.ρ) : Nat :=
  match x.st with
  | .called f => pot f + potLeft v (left x.retry.policy) x.request
  | .waiting _ => potLeft v (left x.retry.policy + 1) x.request
  | .retrying => potLeft v (left x.retry.policy + 1) x.request

/-- what is left after a step -/
def potStep {P : RetryPolicy W Req Res Err} (v : Req → Nat) (left : P.π → Nat) (pot : S.φ → Nat) : (Poll (Except Err Res) × RetryFut Req P.π S.σ S.φ P.ρ) ⊕ RetryFut Req P.π S.σ S.φ P.ρ → Nat
  | .inl a => potRetry v left pot a.2
  | .inr y => potRetry v left pot y

theorem sends_retryStep {P : RetryPolicy W Req Res Err} {n : Nat} {left : P.π → Nat} {pot : S.φ → Nat} (hP : Credit μ v P n left) (h : SendsW μ v S pot) (x : RetryFut Req P.π S.σ S.φ P.ρ) (w : W) :
    (retryStep P S x).gives (fun o w' => μ w' + potStep v left pot o ≤ μ w + potRetry v left pot x) w := by
  obtain ⟨rq, ⟨p, s⟩, st⟩ := x
  cases st with
  | called f =>
    simp only [retryStep, wpx_bind]
    refine wpx_mono (h.gp f w) fun b w1 hb => ?_
    obtain ⟨po, f'⟩ := b
    have hb' : μ w1 + pot f' ≤ μ w + pot f := hb
    cases po with
    | pending =>
      show μ w1 + (pot f' + potLeft v (left p) rq) ≤ μ w + (pot f + potLeft v (left p) rq)
      omega
    | ready res =>
      cases rq with
      | none =>
        show μ w1 + (pot f' + 0) ≤ μ w + (pot f + 0)
        omega
      | some c =>
        simp only [wpx_bind, wpx_lift]
        have h1 := hP.retry p c res w1
        have h2 := hP.less p c res w1
        have h3 := hP.quiet p c res w1
        rcases hr : P.retry p c res w1 with ⟨⟨o, p', c', r'⟩, w2⟩
        rw [hr] at h1 h2 h3
        dsimp only at h1 h2 h3
        cases o with
        | none =>
          have h4 : potLeft v (left p') (some c') ≤ potLeft v (left p) (some c) := potLeft_le (by simpa using h1) h2
          show μ w2 + (pot f' + potLeft v (left p') (some c')) ≤ μ w + (pot f + potLeft v (left p) (some c))
          omega
        | some ρ =>
          have h4 : potLeft v (left p' + 1) (some c') ≤ potLeft v (left p) (some c) := potLeft_le (by simpa using h1) h2
          show μ w2 + potLeft v (left p' + 1) (some c') ≤ μ w + (pot f + potLeft v (left p) (some c))
          omega
  | waiting r0 =>
    simp only [retryStep, wpx_bind, wpx_lift]
    have h3 := hP.quiet'' r0 w
    rcases hr : P.wait r0 w with ⟨⟨o, r1⟩, w2⟩
    rw [hr] at h3
    cases o with
    | pending => exact Nat.add_le_add_right h3 _
    | ready u => exact Nat.add_le_add_right h3 _
  | retrying =>
    simp only [retryStep, wpx_bind]
    refine wpx_mono (h.gr s w) fun b w1 hb => ?_
    obtain ⟨po, s'⟩ := b
    have hb' : μ w1 ≤ μ w := hb
    match po with
    | .pending => exact Nat.add_le_add_right hb' _
    | .ready (.error e) => exact Nat.add_le_add_right hb' _
    | .ready (.ok ()) =>
      cases rq with
      | none => exact True.intro
      | some c =>
        simp only [wpx_bind, wpx_lift]
        have h1 := hP.copy p c w1
        have h2 := hP.keep p c w1
        have h3 := hP.quiet' p c w1
        rcases hr : P.cloneRequest p c w1 with ⟨⟨o, p'⟩, w2⟩
        rw [hr] at h1 h2 h3
        dsimp only at h1 h2 h3
        refine wpx_mono (h.gc s' c w2) fun b w3 hb => ?_
        have h4 : potLeft v (left p') o ≤ left p * v c := by
          cases o with
          | none => exact Nat.zero_le _
          | some c' => exact Nat.mul_le_mul h2 (h1 c' rfl)
        show μ w3 + (pot b.1 + potLeft v (left p') o) ≤ μ w + (left p + 1) * v c
        rw [Nat.succ_mul]
        omega

theorem sends_retryPoll {P : RetryPolicy W Req Res Err} {n : Nat} {left : P.π → Nat} {pot : S.φ → Nat} (hP : Credit μ v P n left) (h : SendsW μ v S pot) : ∀ (k : Nat) (x : RetryFut Req P.π S.σ S.φ P.ρ) (w : W),
    (retryPoll P S k x).gives (fun a w' => μ w' + potRetry v left pot a.2 ≤ μ w + potRetry v left pot x) w
  | 0, x, w => trivial
  | k + 1, x, w => by
    simp only [retryPoll, wpx_bind]
    refine wpx_mono (sends_retryStep hP h x w) fun o w1 ho => ?_
    cases o with
    | inl a => exact ho
    | inr y => exact wpx_mono (sends_retryPoll hP h k y w1) fun a w2 ha => Nat.le_trans ha ho

theorem Retry.sends {fuel n : Nat} {P : RetryPolicy W Req Res Err} {left : P.π → Nat} (hP : Credit μ v P n left) (h : Sends μ v S) : Sends μ (fun q => (n + 1) * v q) (Retry fuel P S) := by
  obtain ⟨pot, h⟩ := h
  refine ⟨potRetry v left pot, .of (fun s w => ?_) (fun s q w => ?_) (sends_retryPoll hP h fuel)⟩
  · simp only [Retry, wpx_bind, wpx_pure]
    exact h.gr s.service w
  · simp only [Retry, wpx_bind, wpx_lift, wpx_pure]
    have h1 := hP.copy s.policy q w
    have h3 := hP.quiet' s.policy q w
    rcases hr : P.cloneRequest s.policy q w with ⟨⟨o, p'⟩, w2⟩
    rw [hr] at h1 h3
    dsimp only at h1 h3
    refine wpx_mono (h.gc s.service q w2) fun b w3 hb => ?_
    have h4 : potLeft v (left (P.clone p')) o ≤ n * v q := by
      cases o with
      | none => exact Nat.zero_le _
      | some c' => exact Nat.mul_le_mul (hP.bound _) (h1 c' rfl)
    show μ w3 + (pot b.1 + potLeft v (left (P.clone p')) o) ≤ μ w + (n + 1) * v q
    rw [Nat.succ_mul]
    omega

theorem sends_reconPoll {Tgt E1 : Type} {M : Service W Tgt S.σ E1} {t : Tgt} {pot : S.φ → Nat} (hM : SilentSvc μ M) (h : SendsW μ v S pot) : ∀ (n : Nat) (x : ReconState M.σ M.φ S.σ E1) (w : W),
    (reconPoll S M t n x).gives (fun _ w' => μ w' ≤ μ w) w
  | 0, x, w => trivial
  | n + 1, x, w => by
    obtain ⟨m, st, er⟩ := x
    cases st with
    | idle =>
      simp only [reconPoll, wpx_bind]
      refine wpx_mono ((hM.ready m).g w) fun a w1 h1 => ?_
      obtain ⟨p, m'⟩ := a
      match p with
      | .pending => exact h1
      | .ready (.error e0) => exact h1
      | .ready (.ok ()) =>
        simp only [wpx_bind]
        exact wpx_mono ((hM.call m' t).g w1) fun a w2 h2 => wpx_mono (sends_reconPoll hM h n _ w2) fun b w3 h3 => Nat.le_trans h3 (Nat.le_trans h2 h1)
    | connecting f =>
      simp only [reconPoll, wpx_bind]
      refine wpx_mono ((hM.poll f).g w) fun a w1 h1 => ?_
      obtain ⟨p, m'⟩ := a
      match p with
      | .pending => exact h1
      | .ready (.error e0) => exact h1
      | .ready (.ok s) => exact wpx_mono (sends_reconPoll hM h n _ w1) fun b w3 h3 => Nat.le_trans h3 h1
    | connected s =>
      simp only [reconPoll, wpx_bind]
      refine wpx_mono (h.gr s w) fun a w1 h1 => ?_
      obtain ⟨p, m'⟩ := a
      match p with
      | .pending => exact h1
      | .ready (.ok ()) => exact h1
      | .ready (.error _) => exact wpx_mono (sends_reconPoll hM h n _ w1) fun b w3 h3 => Nat.le_trans h3 h1

/-- of a reconnecting future -/
def potRecon {E : Type} (pot : S.φ → Nat) : S.φ ⊕ Option E → Nat
  | .inl f => pot f
  | .inr _ => 0

theorem Reconnect.sends {Tgt E1 : Type} {fuel : Nat} {M : Service W Tgt S.σ E1} {t : Tgt} (hM : SilentSvc μ M) (h : Sends μ v S) : Sends μ v (Reconnect fuel S M t) := by
  obtain ⟨pot, h⟩ := h
  refine ⟨potRecon pot, .of (fun s w => sends_reconPoll hM h fuel s w) (fun s q w => ?_) (fun x w => ?_)⟩
  · obtain ⟨m, st, er⟩ := s
    cases er with
    | some e => exact Nat.le_add_right _ _
    | none =>
      cases st with
      | connected s =>
        simp only [Reconnect, wpx_bind, wpx_pure]
        exact h.gc s q w
      | idle => exact trivial
      | connecting f => exact trivial
  · match x with
    | .inl f => simp only [Reconnect, wpx_bind, wpx_pure]; exact h.gp f w
    | .inr (some e) => exact Nat.le_refl _
    | .inr none => exact trivial

theorem sends_spawnPoll {R : Runtime W} {pot : S.φ → Nat} (hR : ∀ w, μ (R.arm w) ≤ μ w) (h : SendsW μ v S pot) : ∀ (n : Nat) (x : SpawnState S.σ Err) (w : W), (spawnPoll R S n x).gives (fun _ w' => μ w' ≤ μ w) w
  | 0, x, w => trivial
  | n + 1, .service none, w => trivial
  | n + 1, .service (some s), w => by
    simp only [spawnPoll, wpx_bind]
    refine wpx_mono (h.gr s w) fun a w1 h1 => ?_
    obtain ⟨p, s'⟩ := a
    cases p with
    | ready r => exact h1
    | pending => exact wpx_mono (sends_spawnPoll hR h n _ w1) fun b w2 h2 => Nat.le_trans h2 h1
  | n + 1, .future t, w => by
    simp only [spawnPoll, wpx_bind]
    rw [show wpx (fun _ => True) True (Act.get : Act W W) _ w = _ from gives_get]
    split
    · exact hR w
    · exact Nat.le_refl _
    · exact trivial
    · exact Nat.le_refl _
    · exact sends_spawnPoll hR h n _ w

theorem SpawnReady.sends {fuel : Nat} {R : Runtime W} (hR : ∀ w, μ (R.arm w) ≤ μ w) (h : Sends μ v S) : Sends μ v (SpawnReady fuel R S) := by
  obtain ⟨pot, h⟩ := h
  refine ⟨potOpt pot, .of (fun s w => sends_spawnPoll hR h fuel s w) (fun s q w => ?_) (fun x w => sends_mapFut h (fun r => .of fun w => Nat.le_refl _) x w)⟩
  match s with
  | .service (some s) =>
    simp only [SpawnReady, wpx_bind, wpx_pure]
    exact h.gc s q w
  | .service none => exact trivial
  | .future _ => exact trivial

end

/-! ## Balance -/

section
variable {K : Type} [DecidableEq K] {S : Service W Req Res Err} {v : Req → Nat} {pot : S.φ → Nat}

theorem sends_pent (h : SendsW μ v S pot) (cancelled : List Nat) (e : PEnt K S.σ) (w : W) : (e.poll S cancelled).gives (fun _ w' => μ w' ≤ μ w) w := by
  unfold PEnt.poll
  split
  · exact Nat.le_refl _
  · simp only [wpx_bind]
    refine wpx_mono (h.gr e.svc w) fun a w1 h1 => ?_
    obtain ⟨p, s'⟩ := a
    match p with
    | .pending => exact h1
    | .ready (.ok ()) => exact h1
    | .ready (.error er) => exact h1

theorem sends_pollNext (h : SendsW μ v S pot) (cancelled : List Nat) : ∀ (is : List Nat) (p : List (PEnt K S.σ)) (w : W), (pollNext S cancelled is p).gives (fun _ w' => μ w' ≤ μ w) w
  | is, [], w => by unfold pollNext; exact Nat.le_refl _
  | [], e :: p, w => by unfold pollNext; exact Nat.le_refl _
  | i :: is, e :: p, w => by
    unfold pollNext
    split
    · exact sends_pollNext h cancelled is _ w
    · simp only [wpx_bind]
      refine wpx_mono (sends_pent h cancelled _ w) fun a w1 h1 => ?_
      obtain ⟨r, e'⟩ := a
      cases r with
      | pending => exact wpx_mono (sends_pollNext h cancelled is _ w1) fun b w2 h2 => Nat.le_trans h2 h1
      | ready r => exact h1

theorem sends_pollPendingLoop (h : SendsW μ v S pot) {V : Sched W} (hV : ∀ n, SilentFn μ (V.order n)) : ∀ (n : Nat) (c : Cache K S) (w : W), (Cache.pollPendingLoop V n c).gives (fun _ w' => μ w' ≤ μ w) w
  | 0, c, w => trivial
  | n + 1, c, w => by
    simp only [Cache.pollPendingLoop, wpx_bind, wpx_lift]
    have h0 := hV c.pending.length w
    refine wpx_mono (sends_pollNext h c.cancelled _ c.pending _) fun a w1 h1 => ?_
    have h2 := Nat.le_trans h1 h0
    obtain ⟨r, p⟩ := a
    match r with
    | .pending => exact h2
    | .ready none => exact h2
    | .ready (some (.ok k s rx)) =>
      dsimp only
      split
      · exact wpx_mono (sends_pollPendingLoop h hV n _ w1) fun b w2 h3 => Nat.le_trans h3 h2
      · exact trivial
    | .ready (some (.canceled _)) => exact wpx_mono (sends_pollPendingLoop h hV n _ w1) fun b w2 h3 => Nat.le_trans h3 h2
    | .ready (some (.inner k e)) =>
      dsimp only
      split
      · exact h2
      · exact trivial

theorem sends_checkReadyIndex (h : SendsW μ v S pot) (c : Cache K S) (i : Nat) (w : W) : (c.checkReadyIndex i).gives (fun _ w' => μ w' ≤ μ w) w := by
  unfold Cache.checkReadyIndex
  split
  · exact Nat.le_refl _
  · simp only [wpx_bind]
    refine wpx_mono (h.gr _ w) fun a w1 h1 => ?_
    obtain ⟨p, s'⟩ := a
    match p with
    | .ready (.ok ()) => exact h1
    | .pending =>
      dsimp only
      split
      · exact trivial
      · exact h1
    | .ready (.error er) =>
      dsimp only
      split
      · exact trivial
      · exact h1

end

section
variable {K DErr BErr : Type} [DecidableEq K] {B : BalCfg W Req Res Err K DErr BErr} {v : Req → Nat} {pot : B.S.φ → Nat}

theorem sends_update (hD : ∀ d, Silent μ (B.D.poll d)) : ∀ (n : Nat) (b : Balance B) (w : W), (Balance.update n b).gives (fun _ w' => μ w' ≤ μ w) w
  | 0, b, w => trivial
  | n + 1, b, w => by
    simp only [Balance.update, wpx_bind]
    refine wpx_mono ((hD b.disc).g w) fun a w1 h1 => ?_
    obtain ⟨p, d⟩ := a
    match p with
    | .pending => exact h1
    | .ready none => exact h1
    | .ready (some (.error e)) => exact h1
    | .ready (some (.ok ch)) => exact wpx_mono (sends_update hD n _ w1) fun b w2 h2 => Nat.le_trans h2 h1

theorem sends_promote (h : SendsW μ v B.S pot) (hV : ∀ n, SilentFn μ (B.V.order n)) : ∀ (n : Nat) (b : Balance B) (w : W), (Balance.promote n b).gives (fun _ w' => μ w' ≤ μ w) w
  | 0, b, w => trivial
  | n + 1, b, w => by
    simp only [Balance.promote, wpx_bind]
    refine wpx_mono (sends_pollPendingLoop h hV _ b.svcs w) fun a w1 h1 => ?_
    obtain ⟨p, c⟩ := a
    match p with
    | .ready (.ok ()) =>
      dsimp only
      split
      · exact h1
      · exact trivial
    | .pending =>
      dsimp only
      split
      · exact h1
      · exact trivial
    | .ready (.error _) => exact wpx_mono (sends_promote h hV n _ w1) fun b w2 h2 => Nat.le_trans h2 h1

theorem sends_recheck (h : SendsW μ v B.S pot) (b : Balance B) (w : W) : b.recheck.gives (fun _ w' => μ w' ≤ μ w) w := by
  unfold Balance.recheck
  split
  · exact Nat.le_refl _
  · simp only [wpx_bind]
    refine wpx_mono (sends_checkReadyIndex h b.svcs _ w) fun a w1 h1 => ?_
    obtain ⟨r, c⟩ := a
    match r with
    | .ok true => exact h1
    | .ok false => exact h1
    | .error _ => exact h1

theorem sends_load (hL : ∀ s, Silent μ (B.L.load s)) (b : Balance B) (i : Nat) (w : W) : (b.readyIndexLoad i).gives (fun _ w' => μ w' ≤ μ w) w := by
  unfold Balance.readyIndexLoad
  split
  · exact trivial
  · exact (hL _).g w

theorem sends_p2c (hL : ∀ s, Silent μ (B.L.load s)) (b : Balance B) (w : W) : b.p2c.gives (fun _ w' => μ w' ≤ μ w) w := by
  unfold Balance.p2c
  split
  · exact Nat.le_refl _
  · split
    · exact Nat.le_refl _
    · split
      · exact trivial
      · split
        · exact trivial
        · simp only [wpx_bind, wpx_pure]
          exact wpx_mono (sends_load hL b _ w) fun _ w1 h1 => wpx_mono (sends_load hL b _ w1) fun _ w2 h2 => Nat.le_trans h2 h1

theorem sends_choose (hL : ∀ s, Silent μ (B.L.load s)) (b : Balance B) (w : W) : b.choose.gives (fun _ w' => μ w' ≤ μ w) w := by
  simp only [Balance.choose, wpx_bind]
  refine wpx_mono (sends_p2c hL b w) fun a w1 h1 => ?_
  obtain ⟨i, b'⟩ := a
  cases i with
  | some i => exact h1
  | none =>
    dsimp only
    split
    · exact h1
    · exact trivial

theorem sends_select (h : SendsW μ v B.S pot) (hL : ∀ s, Silent μ (B.L.load s)) : ∀ (n : Nat) (b : Balance B) (w : W), (Balance.select n b).gives (fun _ w' => μ w' ≤ μ w) w
  | 0, b, w => trivial
  | n + 1, b, w => by
    simp only [Balance.select, wpx_bind]
    refine wpx_mono (sends_recheck h b w) fun a w1 h1 => ?_
    split
    · exact h1
    · simp only [wpx_bind]
      refine wpx_mono (sends_choose hL _ w1) fun a w2 h2 => ?_
      split
      · exact wpx_mono (sends_select h hL n _ w2) fun _ w3 h3 => Nat.le_trans h3 (Nat.le_trans h2 h1)
      · exact Nat.le_trans h2 h1

theorem balance.sends {fuel : Nat} (hD : ∀ d, Silent μ (B.D.poll d)) (hL : ∀ s, Silent μ (B.L.load s)) (hV : ∀ n, SilentFn μ (B.V.order n)) (h : Sends μ v B.S) : Sends μ v (balance B fuel) := by
  obtain ⟨pot, h⟩ := h
  refine ⟨potOpt pot, .of (fun b w => ?_) (fun b q w => ?_) (fun x w => sends_mapFut h (fun r => .of fun w => Nat.le_refl _) x w)⟩
  · show wpx _ _ (Balance.pollReady fuel b) _ w
    simp only [Balance.pollReady, wpx_bind]
    refine wpx_mono (sends_update hD fuel b w) fun a w1 h1 => ?_
    obtain ⟨r, b'⟩ := a
    cases r with
    | error d => exact h1
    | ok u =>
      simp only [Balance.rest, wpx_bind]
      exact wpx_mono (sends_promote h hV _ b' w1) fun b2 w2 h2 => wpx_mono (sends_select h hL _ b2 w2) fun _ w3 h3 => Nat.le_trans h3 (Nat.le_trans h2 h1)
  · simp only [wpx_bind, wpx_pure]
    unfold Balance.call
    split
    · exact trivial
    · unfold Cache.callReadyIndex
      simp only [wpx_bind]
      split
      · exact trivial
      · simp only [wpx_bind, wpx_pure]
        exact h.gc _ q w

theorem makeBalance.sends {Tgt MErr : Type} {seed : Act W B.G.ρ} {M : Service W Tgt B.D.δ MErr} {v : Tgt → Nat} (hs : Silent μ seed) (h : Sends μ v M) : Sends μ v (makeBalance B seed M) := by
  obtain ⟨pot, h⟩ := h
  refine ⟨pot, .of h.gr h.gc (fun f w => ?_)⟩
  show wpx _ _ (M.poll f >>= _) _ w
  simp only [wpx_bind]
  refine wpx_mono (h.gp f w) fun a w1 ha => ?_
  obtain ⟨p, f'⟩ := a
  match p, ha with
  | .pending, ha => exact ha
  | .ready (.error e), ha => exact ha
  | .ready (.ok d), ha =>
    simp only [wpx_bind]
    exact wpx_mono (hs.g w1) fun g w2 h2 => Nat.le_trans (Nat.add_le_add_right h2 _) ha

end

/-! ## Histories -/

section
variable {S : Service W Req Res Err} {v : Req → Nat} {pot : S.φ → Nat}

theorem pot_set {α : Type} (g : α → Nat) : ∀ (l : List α) (i : Nat) (a b : α), l[i]? = some a → ((l.set i b).map g).sum + g a = (l.map g).sum + g b
  | [], i, a, b, h => by simp at h
  | x :: l, 0, a, b, h => by
    simp only [List.getElem?_cons_zero, Option.some.injEq] at h
    subst h
    simp only [List.set_cons_zero, List.map_cons, List.sum_cons]
    omega
  | x :: l, i + 1, a, b, h => by
    simp only [List.getElem?_cons_succ] at h
    have := pot_set g l i a b h
    simp only [List.set_cons_succ, List.map_cons, List.sum_cons]
    omega

theorem pot_erase {α : Type} (g : α → Nat) : ∀ (l : List α) (i : Nat), ((l.eraseIdx i).map g).sum ≤ (l.map g).sum
  | [], i => by simp
  | x :: l, 0 => by simp
  | x :: l, i + 1 => by
    have := pot_erase g l i
    simp only [List.eraseIdx_cons_succ, List.map_cons, List.sum_cons]
    omega

theorem PartyRun.sends (h : SendsW μ v S pot) {still : W → W → Prop} (hs : ∀ w w', still w w' → μ w' ≤ μ w) {hs0 : List S.σ} {w0 : W} {x : Party S} (hr : PartyRun S still hs0 w0 x) :
    μ x.world + (x.futs.map pot).sum ≤ μ w0 + (x.sent.map v).sum := by
  induction hr with
  | start => exact Nat.le_refl _
  | @step x y _ hst ih =>
    cases hst with
    | ready _ hr =>
      have := h.ready _ _ _ _ _ hr
      dsimp only
      omega
    | call _ hr =>
      have := h.call _ _ _ _ _ _ hr
      simp only [List.map_append, List.sum_append, List.map_cons, List.map_nil, List.sum_cons, List.sum_nil]
      omega
    | clone _ => exact ih
    | drop => exact ih
    | @poll i f f' p w' hi hr =>
      have h1 := h.poll _ _ _ _ _ hr
      have h2 := pot_set pot _ _ _ f' hi
      dsimp only
      omega
    | @dropFuture i =>
      have := pot_erase pot x.futs i
      dsimp only
      omega
    | env hst =>
      have := hs _ _ hst
      dsimp only
      omega

end
end Tower
