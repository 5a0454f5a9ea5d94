import Verif.Proof.BufferLive1
import Verif.Props.C64_BufferUse
import Mathlib.Data.Nat.Nth

/-! # Buffer: every request is answered -/

set_option linter.unusedSimpArgs false

namespace Tower
variable {W Req Res Err : Type} {S : Service W Req Res Err} {bound : Nat} {svc : S.σ} {F : Fairness W} {ws : Nat → W} {xs : Nat → Buf S} {ks : Nat → Wakers} {evs : Nat → Option (BEv S)} {i : Nat}

theorem BufLife.hist (L : BufLife S bound svc ws xs ks evs) (n : Nat) : ∃ tr, KHist S bound svc tr (xs n) (ks n) ∧ ∀ ev, ev ∈ tr ↔ ∃ m, m < n ∧ evs m = some ev := by
  induction n with
  | zero => exact ⟨[], by rw [L.start, L.startWakers]; exact .init, by simp⟩
  | succ n ih =>
    obtain ⟨tr, h1, h2⟩ := ih
    have key : ∀ (P : Nat → Prop), (∃ m, m < n + 1 ∧ P m) ↔ (∃ m, m < n ∧ P m) ∨ P n := by
      intro P
      constructor
      · rintro ⟨m, h3, h4⟩
        rcases Nat.lt_succ_iff_lt_or_eq.1 h3 with h3 | h3
        · exact .inl ⟨m, h3, h4⟩
        · exact .inr (h3 ▸ h4)
      · rintro (⟨m, h3, h4⟩ | h3)
        · exact ⟨m, by omega, h4⟩
        · exact ⟨n, by omega, h3⟩
    cases he : evs n with
    | none =>
      obtain ⟨h3, h4, h5, h6, h7⟩ := L.wake n he
      refine ⟨tr, ?_, fun ev => ?_⟩
      · rw [h3]; exact .wake _ h1 h4 h5 h6 h7
      · rw [h2, key, he]; simp
    | some e =>
      obtain ⟨h3, h4, h5⟩ := L.step n e he
      refine ⟨tr ++ [e], ?_, fun ev => ?_⟩
      · rw [h5]; exact .step h1 h3 h4
      · rw [key, he, ← h2, mem_snoc]
        simp only [Option.some.injEq, eq_comm]

theorem BufLife.bhist (L : BufLife S bound svc ws xs ks evs) (n : Nat) : ∃ tr, BHist S bound svc tr (xs n) ∧ ∀ ev, ev ∈ tr ↔ ∃ m, m < n ∧ evs m = some ev := by
  obtain ⟨tr, h1, h2⟩ := L.hist n
  exact ⟨tr, h1.hist, h2⟩

/-- what does not increase does not decrease infinitely often -/
theorem no_descent (f : Nat → Nat) (n : Nat) (h1 : ∀ m, n ≤ m → f (m + 1) ≤ f m) (h2 : ∀ m, n ≤ m → ∃ k, m ≤ k ∧ f (k + 1) < f k) : False := by
  have mono : ∀ m d, n ≤ m → f (m + d) ≤ f m := by
    intro m d hm
    induction d with
    | zero => exact Nat.le_refl _
    | succ d ih => exact Nat.le_trans (h1 (m + d) (by omega)) ih
  have : ∀ v m, n ≤ m → f m ≤ v → False := by
    intro v
    induction v with
    | zero =>
      intro m hm hv
      obtain ⟨k, h3, h4⟩ := h2 m hm
      have := mono m (k - m) hm
      rw [show m + (k - m) = k by omega] at this
      omega
    | succ v ih =>
      intro m hm hv
      obtain ⟨k, h3, h4⟩ := h2 m hm
      have := mono m (k - m) hm
      rw [show m + (k - m) = k by omega] at this
      exact ih (k + 1) (by omega) (by omega)
  exact this (f n) n (Nat.le_refl _) (Nat.le_refl _)

/-- what does not increase is constant from some time on -/
theorem ends_constant (f : Nat → Nat) (n : Nat) (h1 : ∀ m, n ≤ m → f (m + 1) ≤ f m) : ∃ N, n ≤ N ∧ ∀ m, N ≤ m → f (m + 1) = f m := by
  by_contra hcon
  push Not at hcon
  exact no_descent f n h1 fun m hm => by
    obtain ⟨k, h2, h3⟩ := hcon m hm
    exact ⟨k, h2, Nat.lt_of_le_of_ne (h1 k (by omega)) h3⟩

theorem DStep.calls {x y : Buf S} {ev : BEv S} (hs : DStep x ev y) : y.calls = x.calls := by cases hs <;> rfl

/-- what a worker does that comes no nearer -/
theorem WStep.still {x y : Buf S} {ev : BEv S} {tr : List (BEv S)} (hI : BufInv tr x) (hB : Busy i x y) (hs : WStep x ev y) (h : y.big i = x.big i) :
    ev = .svcPending ∨ (y.svc = x.svc ∧ ¬ PollsSvc x y) := by
  have hcn := hI.ctl.curnone
  cases hs
  case start h1 => exact .inr ⟨rfl, by rintro ⟨m, h2, _⟩; rw [h1] at h2; cases h2⟩
  case resume h1 _ => exact .inr ⟨rfl, by rintro ⟨m, h2, _⟩; rw [h1] at h2; cases h2⟩
  case wanted h1 _ => exact .inr ⟨rfl, by rintro ⟨m, h2, _⟩; rw [h1] at h2; cases h2⟩
  case svc_pending => exact .inl rfl
  case empty h1 h2 h3 h4 => exact absurd rfl (hB.recv h1 h2).1
  case finish h1 h2 h3 => exact absurd rfl (hB.recv h1 h2).2
  case recv m q h1 h2 =>
    have hc := hcn (by simp [h1]) (by simp [h1])
    have := ahead_pop (q := q) (hB.head _ _ h2 hc (.inl h1))
    simp only [Buf.big, Buf.ahead, h1, h2, hc, this, WPc.stage] at h
    omega
  case fresh h1 h2 => simp [Buf.big, Buf.ahead, h1, h2, WPc.stage] at h
  all_goals
    have hc := hcn (by simp [*]) (by simp [*])
    simp [Buf.big, Buf.ahead, WPc.stage, Buf.send, Buf.dropMsg, Buf.close, *] at h

theorem DStep.still {x y : Buf S} {ev : BEv S} {tr : List (BEv S)} (hI : BufInv tr x) (hB : Busy i x y) (hs : DStep x ev y) (h : y.big i = x.big i) : False := by
  have hcn := hI.ctl.curnone
  cases hs
  case dropped h1 => cases hb : x.cur <;> simp [Buf.big, Buf.ahead, h1, hb, WPc.stage, Buf.dropMsgs] at h
  case dropped_done h1 => exact hB.done h1
  case drain m q h1 h2 =>
    have hc := hcn (by simp [h1]) (by simp [h1])
    have := ahead_pop (q := q) (hB.head _ _ h2 hc (.inr h1))
    simp only [Buf.big, Buf.ahead, Buf.dropMsg, h1, h2, hc, this, WPc.stage] at h
    omega
  case drained h1 h2 => exact hB.drop h1 h2 rfl
  case free h1 h2 => exact hB.dead h1
  all_goals
    have hc := hcn (by simp [*]) (by simp [*])
    simp [Buf.big, Buf.ahead, WPc.stage, Buf.send, Buf.dropMsg, Buf.close, *] at h

theorem Uses.reach {s0 s : S.σ} {m : Mode} {reqs : List Req} (h : Uses S s0 s m reqs) : m ≠ .failed → Reach S s0 (decide (m = .ready)) s := by
  induction h with
  | new => exact fun _ => .new
  | @ready s m reqs w w' p s' _ hm hr ih =>
    intro hm'
    match p with
    | .pending => exact .pending (ih hm) hr
    | .ready (.ok ()) => exact .ready (ih hm) hr
    | .ready (.error e) => exact absurd rfl hm'
  | call _ hr ih => intro _; exact .call (ih (by simp)) hr

/-- the service that the worker is about to poll is one that a user may have -/
theorem BHist.reach {tr : List (BEv S)} {x : Buf S} (h : BHist S bound svc tr x) {m : Msg Req} (hg : x.pc = .got m) (hf : x.failed = none) : ∃ b, Reach S svc b x.svc := by
  obtain ⟨md, hU⟩ := h.useInv
  refine ⟨_, hU.uses.reach fun hm => ?_⟩
  obtain ⟨e, he⟩ := hU.failed hm
  exact (BHist.inv h).ctl.not_failed (.inl ⟨⟨_, hg⟩, hf⟩) e he

/-- the futures of dispatched requests are those of lawful calls -/
theorem BHist.issued {tr : List (BEv S)} {x : Buf S} (h : BHist S bound svc tr x) : ∀ m f, (m, f) ∈ dispatches tr → ∃ s w s' w', Reach S svc true s ∧ (S.call s m.req).run w = .ok (f, s') w' := by
  unfold BHist at h
  induction h with
  | nil => intro m f hm; cases hm
  | @snoc t ev y z hr hs ih =>
    intro m f hm
    rw [dispatches_append, List.mem_append] at hm
    rcases hm with hm | hm
    · exact ih m f hm
    · cases hs with
      | handle hs => cases hs <;> cases hm
      | future hs => cases hs <;> cases hm
      | death hs => cases hs <;> cases hm
      | worker hs =>
        cases hs
        case svc_call m' w w' f' s' h1 h2 =>
          simp only [dispatches, List.mem_singleton, Prod.mk.injEq] at hm
          obtain ⟨rfl, rfl⟩ := hm
          obtain ⟨md, hU⟩ := BHist.useInv hr
          have hmd := hU.call _ h1
          subst hmd
          exact ⟨_, w, _, w', by simpa using hU.uses.reach (by simp), h2⟩
        all_goals cases hm

/-- A poll that is pending at all the times `g` comes to no end. -/
theorem pending_forever {A V : Type} {poll : A → Act W (Poll V × A)} {ws : Nat → W} (a : Nat → A) (ws' : Nat → W) (h : ∀ k, (poll (a k)).run (ws k) = .ok (.pending, a (k + 1)) (ws' k)) : ¬ Ends poll (a 0) ws := by
  intro he
  have : ∀ (a0 : A) (v : Nat → W), Ends poll a0 v → ∀ k, a0 = a k → (v = fun n => ws (k + n)) → False := by
    intro a0 v he
    induction he with
    | ready hr => intro k h1 h2; subst h1 h2; dsimp only at hr; rw [Nat.add_zero, h k] at hr; cases hr
    | panics hr => intro k h1 h2; subst h1 h2; dsimp only at hr; rw [Nat.add_zero, h k] at hr; cases hr
    | pending hr _ ih =>
      intro k h1 h2
      subst h1 h2
      dsimp only at hr
      rw [Nat.add_zero, h k] at hr
      injection hr with hr _
      injection hr with _ hr
      exact ih (k + 1) hr.symm (by funext n; show ws (k + (n + 1)) = ws (k + 1 + n); congr 1; omega)
  exact this _ _ he 0 rfl (by funext n; rw [Nat.zero_add])

theorem Fairness.shift (hws : F.fair ws) (j : Nat) : F.fair (fun n => ws (j + n)) := by
  induction j with
  | zero => simpa using hws
  | succ j ih => exact (by funext n; rw [show j + 1 + n = j + (n + 1) by omega] : (fun n => ws (j + 1 + n)) = fun n => ws (j + (n + 1))) ▸ F.tail _ ih

/-- an infinite set of times can be counted -/
theorem enumerate (p : Nat → Prop) (n : Nat) (h : ∀ m, n ≤ m → ∃ k, m ≤ k ∧ p k) : ∃ g : Nat → Nat, StrictMono g ∧ ∀ n, (∃ k, g k = n) ↔ p n := by
  have hinf : (Set.ofPred p).Infinite := by
    rw [Set.infinite_iff_exists_gt]
    intro a
    obtain ⟨k, h1, h2⟩ := h (max n (a + 1)) (by omega)
    exact ⟨k, h2, by omega⟩
  classical
  refine ⟨Nat.nth p, Nat.nth_strictMono hinf, fun n => ⟨?_, fun hp => ⟨Nat.count p n, Nat.nth_count hp⟩⟩⟩
  rintro ⟨k, rfl⟩
  exact Nat.nth_mem_of_infinite hinf k

/-- between two neighbours of an enumeration there is nothing -/
theorem enumerate_gap {p : Nat → Prop} {g : Nat → Nat} (hg : StrictMono g) (hp : ∀ n, (∃ k, g k = n) ↔ p n) (k n : Nat) (h1 : g k < n) (h2 : n < g (k + 1)) : ¬ p n := by
  intro h
  obtain ⟨j, rfl⟩ := (hp n).2 h
  have h3 := hg.lt_iff_lt.1 h1
  have h4 := hg.lt_iff_lt.1 h2
  omega

/-- what a worker's surroundings do without touching what it has to do for requests up to `i` -/
def Untouched (i : Nat) (x y : Buf S) : Prop := y.pc = x.pc ∧ y.cur = x.cur ∧ y.svc = x.svc ∧ y.ahead i = x.ahead i

/-- **The core.** A worker is not busy forever with what was there at some time. -/
theorem not_busy_forever (L : BufLife S bound svc ws xs ks evs) (Fr : BufFair F ws xs ks evs) (hS : ∀ b s, Reach S svc b s → Finishes F S.pollReady s) {n₀ : Nat} (hbusy : ∀ n, n₀ ≤ n → Busy i (xs n) (xs (n + 1)))
    (husr : ∀ n ev, n₀ ≤ n → HStep (xs n) ev (xs (n + 1)) ∨ FStep (xs n) ev (xs (n + 1)) → Untouched i (xs n) (xs (n + 1))) (hpark : ∀ n, n₀ ≤ n → (xs n).pc = .parked → (ks n).worker = false → (xs n).cur ≠ none) : False := by
  have hinv : ∀ n, ∃ tr, BufInv tr (xs n) := fun n => by obtain ⟨tr, h, _⟩ := L.bhist n; exact ⟨tr, BHist.inv h⟩
  have husers : ∀ n ev, n₀ ≤ n → HStep (xs n) ev (xs (n + 1)) ∨ FStep (xs n) ev (xs (n + 1)) → (xs (n + 1)).big i = (xs n).big i ∧ (xs (n + 1)).fine i = (xs n).fine i := by
    intro n ev hn hs
    obtain ⟨h1, h2, _, h5⟩ := husr n ev hn hs
    simp only [Buf.fine, Buf.big, h1, h2, h5, and_self]
  have hbig : ∀ n, n₀ ≤ n → (xs (n + 1)).big i ≤ (xs n).big i := by
    intro n hn
    obtain ⟨tr, hI⟩ := hinv n
    cases he : evs n with
    | none => rw [(L.wake _ he).1]
    | some ev =>
      have hs := (L.step _ _ he).1
      cases hs with
      | worker hs => exact (hs.nearer hI (hbusy n hn)).2
      | death hs => exact (hs.nearer hI (hbusy n hn)).2.1
      | handle hs => exact Nat.le_of_eq (husers n ev hn (.inl hs)).1
      | future hs => exact Nat.le_of_eq (husers n ev hn (.inr hs)).1
  have hfine : ∀ n, n₀ ≤ n → evs n ≠ some .svcPending → (xs (n + 1)).fine i ≤ (xs n).fine i := by
    intro n hn hne
    obtain ⟨tr, hI⟩ := hinv n
    cases he : evs n with
    | none => rw [(L.wake _ he).1]
    | some ev =>
      have hs := (L.step _ _ he).1
      cases hs with
      | worker hs => exact Nat.le_of_lt ((hs.nearer hI (hbusy n hn)).1 (fun h => hne (h ▸ he)))
      | death hs => exact Nat.le_of_lt (hs.nearer hI (hbusy n hn)).1
      | handle hs => exact Nat.le_of_eq (husers n ev hn (.inl hs)).2
      | future hs => exact Nat.le_of_eq (husers n ev hn (.inr hs)).2
  -- the worker goes on
  have hgo : ∀ n, n₀ ≤ n → ∃ m ev, n ≤ m ∧ evs m = some ev ∧ (WStep (xs m) ev (xs (m + 1)) ∨ DStep (xs m) ev (xs (m + 1))) := by
    intro n hn
    by_cases hp : (xs n).pc = .parked ∧ (ks n).worker = false
    · obtain ⟨m, h1, h2⟩ := Fr.svcWakes n hp.1 (hpark n hn hp.1 hp.2)
      obtain ⟨m', ev, h3, h4⟩ := Fr.runs m (fun h => by rcases h2 with h2 | h2; exacts [h2, absurd h h2]) (hbusy m (by omega)).done (hbusy m (by omega)).dead
      exact ⟨m', ev, by omega, h4⟩
    · exact Fr.runs n (fun h => by cases hb : (ks n).worker with | true => rfl | false => exact absurd ⟨h, hb⟩ hp) (hbusy n hn).done (hbusy n hn).dead
  obtain ⟨N, hN, hconst⟩ := ends_constant (fun n => (xs n).big i) n₀ hbig
  -- the service is polled again and again
  have hpend : ∀ n, N ≤ n → ∃ m, n ≤ m ∧ evs m = some .svcPending := by
    intro n hn
    by_contra hcon
    push Not at hcon
    refine no_descent (fun n => (xs n).fine i) n (fun m hm => hfine m (by omega) (hcon m hm)) fun m hm => ?_
    obtain ⟨k, ev, h1, h2, h3⟩ := hgo m (by omega)
    obtain ⟨tr, hI⟩ := hinv k
    refine ⟨k, h1, ?_⟩
    rcases h3 with h3 | h3
    · exact (h3.nearer hI (hbusy k (by omega))).1 fun h => hcon k (by omega) (h ▸ h2)
    · exact (h3.nearer hI (hbusy k (by omega))).1
  have hstill : ∀ n, N ≤ n → evs n = some .svcPending ∨ ((xs (n + 1)).svc = (xs n).svc ∧ ¬ PollsSvc (xs n) (xs (n + 1))) := by
    intro n hn
    obtain ⟨tr, hI⟩ := hinv n
    have hus : ∀ ev, HStep (xs n) ev (xs (n + 1)) ∨ FStep (xs n) ev (xs (n + 1)) → (xs (n + 1)).svc = (xs n).svc ∧ ¬ PollsSvc (xs n) (xs (n + 1)) := by
      intro ev hs
      obtain ⟨h1, _, h3, _⟩ := husr n ev (by omega) hs
      exact ⟨h3, fun ⟨m, h4, _, h6⟩ => h6 (by rw [h1]; exact h4)⟩
    cases he : evs n with
    | none => rw [(L.wake _ he).1]; exact .inr ⟨rfl, fun ⟨m, h4, _, h6⟩ => h6 h4⟩
    | some ev =>
      have hs := (L.step _ _ he).1
      cases hs with
      | worker hs => exact (hs.still hI (hbusy n (by omega)) (hconst n hn)).imp_left (fun h => by rw [h])
      | death hs => exact (hs.still hI (hbusy n (by omega)) (hconst n hn)).elim
      | handle hs => exact .inr (hus ev (.inl hs))
      | future hs => exact .inr (hus ev (.inr hs))
  have hpolls : ∀ n, evs n = some .svcPending → PollsSvc (xs n) (xs (n + 1)) := by
    intro n he
    have hs := (L.step _ _ he).1
    generalize hy : xs (n + 1) = y at hs
    cases hs with
    | worker hs => cases hs with | svc_pending h1 h2 h3 => exact ⟨_, h1, h2, by simp⟩
    | death hs => cases hs
    | handle hs => cases hs
    | future hs => cases hs
  obtain ⟨g, hg, hgp⟩ := enumerate (fun n => PollsSvc (xs n) (xs (n + 1))) N fun m hm => by
    obtain ⟨k, h1, h2⟩ := hpend m hm
    exact ⟨k, h1, hpolls k h2⟩
  have hfair : F.fair (fun k => ws (g (N + k))) := Fairness.shift (ws := fun k => ws (g k)) (Fr.svcFair g hg hgp) N
  have hgN : ∀ k, N ≤ g (N + k) := fun k => by have := hg.id_le (N + k); simp only [id] at this; omega
  have hat : ∀ k, evs (g (N + k)) = some .svcPending := fun k => (hstill _ (hgN k)).resolve_right fun h => h.2 ((hgp _).1 ⟨_, rfl⟩)
  have hsame : ∀ k d, g (N + k) + 1 + d ≤ g (N + (k + 1)) → (xs (g (N + k) + 1 + d)).svc = (xs (g (N + k) + 1)).svc := by
    intro k d
    induction d with
    | zero => exact fun _ => rfl
    | succ d ih =>
      intro hd
      rw [← ih (by omega)]
      have hn := enumerate_gap hg hgp (N + k) (g (N + k) + 1 + d) (by omega) (by rw [show N + k + 1 = N + (k + 1) by omega]; omega)
      exact ((hstill (g (N + k) + 1 + d) (by have := hgN k; omega)).resolve_left fun h => hn (hpolls _ h)).1
  have hrun : ∀ k, ∃ w', (S.pollReady (xs (g (N + k))).svc).run (ws (g (N + k))) = .ok (.pending, (xs (g (N + (k + 1)))).svc) w' := by
    intro k
    have hlt : g (N + k) < g (N + (k + 1)) := hg (by omega)
    have h1 := hsame k (g (N + (k + 1)) - g (N + k) - 1) (by omega)
    rw [show g (N + k) + 1 + (g (N + (k + 1)) - g (N + k) - 1) = g (N + (k + 1)) by omega] at h1
    rw [h1]
    rcases L.svcWorld _ ((hgp _).1 ⟨N + k, rfl⟩) with ⟨w', h2, _⟩ | ⟨v, w', _, h3⟩ | ⟨msg, _, h3⟩
    · exact ⟨w', h2⟩
    · exact absurd (hat k) h3
    · rw [hat k] at h3; cases h3
  choose ws' hrun using hrun
  obtain ⟨m, h1, h2, _⟩ := (hgp _).1 ⟨N + 0, rfl⟩
  obtain ⟨tr, hb, _⟩ := L.bhist (g (N + 0))
  obtain ⟨b, hr⟩ := hb.reach h1 h2
  exact pending_forever (poll := S.pollReady) (fun k => (xs (g (N + k))).svc) ws' hrun (hS b _ hr _ hfair)

/-- Nothing waits forever in a buffer whose worker is alive when it starts to wait. -/
theorem no_eternal_wait (L : BufLife S bound svc ws xs ks evs) (Fr : BufFair F ws xs ks evs) (hS : ∀ b s, Reach S svc b s → Finishes F S.pollReady s) {n₀ : Nat} (hcalls : i < (xs n₀).calls) (hdead : (xs n₀).pc ≠ .dead)
    (hw : ∀ n, n₀ ≤ n → (xs n).shots i = .waiting) : False := by
  have hinv : ∀ n, ∃ tr, BufInv tr (xs n) := fun n => by obtain ⟨tr, h, _⟩ := L.bhist n; exact ⟨tr, BHist.inv h⟩
  have hloc : ∀ n, Located (xs n) := fun n => by obtain ⟨tr, h, _⟩ := L.bhist n; exact h.located
  have halive : ∀ d, i < (xs (n₀ + d)).calls ∧ (xs (n₀ + d)).pc ≠ .dead := by
    intro d
    induction d with
    | zero => exact ⟨hcalls, hdead⟩
    | succ d ih =>
      obtain ⟨tr, hI⟩ := hinv (n₀ + d)
      rw [← Nat.add_assoc]
      cases he : evs (n₀ + d) with
      | none => rw [(L.wake _ he).1]; exact ih
      | some ev =>
        have hs := (L.step _ _ he).1
        cases hs with
        | worker hs => exact ⟨by rw [hs.kept.2.2]; exact ih.1, fun hp => hs.alive (.inr (.inr hp))⟩
        | death hs => exact ⟨by rw [hs.calls]; exact ih.1, (hs.nearer hI (busy_of_waiting hI (hloc _) (hw _ (by omega)) ih.2)).2.2⟩
        | handle hs => have := users_keep ih.1 (.inl hs); exact ⟨Nat.lt_of_lt_of_le ih.1 this.2.2.2.2.2.1, by rw [this.1]; exact ih.2⟩
        | future hs => have := users_keep ih.1 (.inr hs); exact ⟨Nat.lt_of_lt_of_le ih.1 this.2.2.2.2.2.1, by rw [this.1]; exact ih.2⟩
  have halive : ∀ n, n₀ ≤ n → i < (xs n).calls ∧ (xs n).pc ≠ .dead := fun n hn => by have := halive (n - n₀); rwa [show n₀ + (n - n₀) = n by omega] at this
  refine not_busy_forever (i := i) (n₀ := n₀) L Fr hS (fun n hn => ?_) (fun n ev hn hs => ?_) (fun n hn hp hk hc => ?_)
  · obtain ⟨tr, hI⟩ := hinv n
    exact busy_of_waiting hI (hloc _) (hw _ hn) (halive n hn).2
  · obtain ⟨h1, h2, h3, _, h5, _⟩ := users_keep (halive n hn).1 hs
    exact ⟨h1, h2, h3, h5⟩
  · obtain ⟨tr, hh, _⟩ := L.hist n
    obtain ⟨_, h2, _⟩ := hh.wakeInv.park.park hp hk hc
    exact not_empty (hloc n) (hw n hn) h2 hc (by rw [hp]; rfl) (by simp [hp])

/-- decided for all times -/
theorem BufLife.decided (L : BufLife S bound svc ws xs ks evs) {n : Nat} (hi : i < (xs n).calls) (h : (xs n).shots i ≠ .waiting) (d : Nat) : i < (xs (n + d)).calls ∧ (xs (n + d)).shots i ≠ .waiting := by
  induction d with
  | zero => exact ⟨hi, h⟩
  | succ d ih =>
    rw [← Nat.add_assoc]
    cases he : evs (n + d) with
    | none => rw [(L.wake _ he).1]; exact ih
    | some ev => exact decided_step ih.1 ih.2 (L.step _ _ he).1

/-- When all handles are dropped, the worker comes to an end. -/
theorem worker_comes_to_end (L : BufLife S bound svc ws xs ks evs) (Fr : BufFair F ws xs ks evs) (hS : ∀ b s, Reach S svc b s → Finishes F S.pollReady s) {n₀ : Nat} (hh : (xs n₀).hs = []) :
    ∃ n, n₀ ≤ n ∧ ((xs n).pc = .done ∨ (xs n).pc = .dead) := by
  by_contra hcon
  push Not at hcon
  have hinv : ∀ n, ∃ tr, BufInv tr (xs n) := fun n => by obtain ⟨tr, h, _⟩ := L.bhist n; exact ⟨tr, BHist.inv h⟩
  have nohs : ∀ {x y : Buf S} {ev}, x.hs = [] → ¬ HStep x ev y := by
    intro x y ev h hs
    cases hs <;> simp_all
  have hkeep : ∀ d, (xs (n₀ + d)).hs = [] ∧ (xs (n₀ + d)).calls = (xs n₀).calls := by
    intro d
    induction d with
    | zero => exact ⟨hh, rfl⟩
    | succ d ih =>
      rw [← Nat.add_assoc]
      cases he : evs (n₀ + d) with
      | none => rw [(L.wake _ he).1]; exact ih
      | some ev =>
        have hs := (L.step _ _ he).1
        cases hs with
        | worker hs => exact ⟨by rw [hs.kept.1]; exact ih.1, by rw [hs.kept.2.2]; exact ih.2⟩
        | death hs =>
          refine ⟨?_, by rw [hs.calls]; exact ih.2⟩
          have : ∀ {x y : Buf S} {ev}, x.hs = [] → DStep x ev y → y.hs = [] := by intro x y ev h hs; cases hs <;> exact h
          exact this ih.1 hs
        | handle hs => exact absurd hs (nohs ih.1)
        | future hs =>
          have : ∀ {x y : Buf S} {ev}, FStep x ev y → y.hs = x.hs ∧ y.calls = x.calls := by intro x y ev hs; cases hs <;> exact ⟨rfl, rfl⟩
          exact ⟨by rw [(this hs).1]; exact ih.1, by rw [(this hs).2]; exact ih.2⟩
  have hkeep : ∀ n, n₀ ≤ n → (xs n).hs = [] ∧ (xs n).calls = (xs n₀).calls := fun n hn => by have := hkeep (n - n₀); rwa [show n₀ + (n - n₀) = n by omega] at this
  refine not_busy_forever (i := (xs n₀).calls) (n₀ := n₀) L Fr hS (fun n hn => ?_) (fun n ev hn hs => ?_) (fun n hn hp hk hc => ?_)
  · obtain ⟨tr, hI⟩ := hinv n
    refine ⟨fun m q hq hc hp => ?_, fun h1 h2 => ⟨fun h3 => ?_, (hcon (n + 1) (by omega)).1⟩, fun _ _ => (hcon (n + 1) (by omega)).2, (hcon n hn).1, (hcon n hn).2⟩
    · have := hI.msg.lt m (hI.msg.memP (by simp [Buf.pend, hq]))
      rw [(hkeep n hn).2] at this
      exact Nat.le_of_lt this
    · cases he : evs n with
      | none => rw [(L.wake _ he).1, h1] at h3; cases h3
      | some ev =>
        have hs := (L.step _ _ he).1
        have key : ∀ {x y : Buf S} {ev}, BStep x ev y → x.pc = .recv → x.hs = [] → y.pc ≠ .parked := by
          intro x y ev hs h1 h2
          cases hs with
          | worker hs => cases hs <;> simp_all
          | death hs => cases hs <;> simp_all [Buf.close, Buf.dropMsgs, Buf.dropMsg]
          | handle hs => exact absurd hs (nohs h2)
          | future hs => cases hs <;> simp_all
        exact key hs h1 (hkeep n hn).1 h3
  · rcases hs with hs | hs
    · exact absurd hs (nohs (hkeep n hn).1)
    · have : ∀ {x y : Buf S} {ev}, FStep x ev y → Untouched (xs n₀).calls x y := by intro x y ev hs; cases hs <;> exact ⟨rfl, rfl, rfl, rfl⟩
      exact this hs
  · obtain ⟨tr, hk', _⟩ := L.hist n
    exact (hk'.wakeInv.park.park hp hk hc).2.2 (hkeep n hn).1

end Tower
