import Verif.Proof.LiveAll2
import Verif.Proof.Balance2
import Verif.Spec.LiveBalSpec

/-! # Coming to an end: the balancer -/

set_option linter.unusedSimpArgs false

namespace Tower
open Act
variable {W Req Res Err K DErr BErr : Type} [DecidableEq K]

section cache
variable {F : Fairness W} {V : Sched W} {S : Service W Req Res Err}

/-- its last `poll_ready` was `Ready(Ok)` -/
def JustReady (S : Service W Req Res Err) (s : S.σ) : Prop := ∃ s0 w w', (S.pollReady s0).run w = .ok (.ready (.ok ()), s) w'

theorem pollNext_some (canc : List Nat) : ∀ (o : List Nat) (p : List (PEnt K S.σ)), pollNext S canc o p = pollSome (PEnt.poll S canc) o p := by
  intro o
  induction o with
  | nil => intro p; cases p <;> rfl
  | cons i o ih =>
    intro p
    cases p with
    | nil => rfl
    | cons e t =>
      unfold pollNext pollSome
      cases h : (e :: t)[i]? with
      | none => exact ih _
      | some x =>
        dsimp only
        congr 1
        funext r
        obtain ⟨r, e'⟩ := r
        cases r with
        | pending => exact ih _
        | ready v => rfl

theorem pent_finishes {canc : List Nat} {e : PEnt K S.σ} (h : e.rx ∉ canc → Finishes F S.pollReady e.svc) : Finishes F (PEnt.poll S canc) e := by
  by_cases hc : e.rx ∈ canc
  · exact .now fun w => by
      unfold PEnt.poll
      rw [if_pos hc]
      exact (nofun : Poll.ready (PRes.canceled e.key : PRes K S.σ Err) ≠ .pending)
  · refine (h hc).map (fun s x => x = { e with svc := s }) ?_ rfl
    rintro s x w rfl hs
    unfold PEnt.poll
    rw [if_neg hc]
    refine calm_bind hs fun r w' hr => ?_
    obtain ⟨p, s'⟩ := r
    cases p with
    | pending =>
      dsimp only
      rw [if_neg hc]
      exact fun _ => ⟨s', w', hr, rfl⟩
    | ready x =>
      cases x with
      | ok u => exact (nofun : Poll.ready (PRes.ok e.key s' e.rx : PRes K S.σ Err) = .pending → _)
      | error er => exact (nofun : Poll.ready (PRes.inner e.key er : PRes K S.σ Err) = .pending → _)

theorem insert_mem {A : Type} {m : IMap K A} {k : K} {v : A} {e : K × A} (h : e ∈ m.insert k v) : e ∈ m ∨ e.2 = v := by
  unfold IMap.insert at h
  split at h
  · obtain ⟨x, hx, rfl⟩ := List.mem_map.1 h
    split
    · exact .inr rfl
    · exact .inl hx
  · rcases List.mem_append.1 h with h | h
    · exact .inl h
    · rw [List.mem_singleton.1 h]; exact .inr rfl

/-- a poll of pending endpoints by which nothing changed: the oldest of them was polled, if its turn came -/
def PSame (V : Sched W) (S : Service W Req Res Err) (P : W → Prop) (canc : List Nat) (p p' : List (PEnt K S.σ)) (w : W) : Prop :=
  ∃ e t e' t' L, p = e :: t ∧ p' = e' :: t' ∧ t'.length = t.length ∧ Pends (PEnt.poll S canc) e L e' ∧ (∀ v ∈ L, P v) ∧ (L ≠ [] ↔ 0 ∈ (V.order p.length w).1)

/-- what a poll of the pending endpoints does -/
structure PPOut (F : Fairness W) (V : Sched W) (P : W → Prop) (c c' : Cache K S) (w : W) : Prop where
  ready : ∀ e ∈ c'.ready, JustReady S e.2.1
  fin : ∀ e ∈ c'.pending, Finishes F (PEnt.poll S c'.cancelled) e
  canc : c'.cancelled = c.cancelled
  moved : c'.pending.length < c.pending.length ∨ c'.ready = c.ready ∧ (c.pending = [] ∧ c'.pending = [] ∨ PSame V S P c.cancelled c.pending c'.pending w)

theorem PPOut.later {P : W → Prop} {c c1 c' : Cache K S} {w w1 : W} (h : PPOut F V P c1 c' w1) (hc : c1.cancelled = c.cancelled) (hl : c1.pending.length < c.pending.length) : PPOut F V P c c' w := by
  refine ⟨h.ready, h.fin, h.canc.trans hc, .inl ?_⟩
  rcases h.moved with h1 | ⟨_, ⟨_, h1⟩ | ⟨e, t, e', t', L, h1, h2, h3, _⟩⟩
  · omega
  · rw [h1]; simp; omega
  · rw [h2, List.length_cons, h3]; rw [h1, List.length_cons] at hl; exact hl

/-- what `poll_pending` returned, too -/
def PPRes (c' : Cache K S) : Poll (Except (K × Err) Unit) → Cache K S → Prop
  | .ready (.error _), c => c'.pending.length < c.pending.length
  | _, _ => True

theorem ppLoop_out {P : W → Prop} (hV : ∀ l w, P w → P (V.order l w).2) (hP : ∀ s w r w', P w → (S.pollReady s).run w = .ok r w' → P w') : ∀ (n : Nat) (c : Cache K S) (w : W),
    (∀ e ∈ c.pending, Finishes F (PEnt.poll S c.cancelled) e) → (∀ e ∈ c.ready, JustReady S e.2.1) → c.pending.length < n → P w →
    calm (c.pollPendingLoop V n) (fun r w' => P w' ∧ PPOut F V P c r.2 w ∧ PPRes r.2 r.1 c) w := by
  intro n
  induction n with
  | zero => intro c w _ _ hl; omega
  | succ n ih =>
    intro c w hK hJ hl hw
    rw [Cache.pollPendingLoop]
    refine calm_bind (by rw [run_lift]; intro hh; cases hh) fun o w1 ho => ?_
    rw [run_lift] at ho
    injection ho with ho1 ho2
    subst ho1 ho2
    rw [pollNext_some]
    have hsome := pollSome_out (poll := PEnt.poll S c.cancelled) (key := fun _ => ()) (tag := fun _ => ()) (K := fun e => Finishes F (PEnt.poll S c.cancelled) e)
      (T := fun v => ∀ k s rx, v = PRes.ok k s rx → JustReady S s) (P := P)
      (fun x v hx => calm_of (hx.spin v) fun r v' hr => by
        have hfr := wpx_ok (hx.step v) hr
        refine ⟨fun h1 => ⟨hfr h1, rfl⟩, fun u hu => ⟨rfl, ?_⟩⟩
        rintro k s rx rfl
        unfold PEnt.poll at hr
        split at hr
        · cases hr; cases hu
        · obtain ⟨⟨p1, s1⟩, v1, hr1, hr2⟩ := run_bind_eq_ok.1 hr
          cases p1 with
          | pending => cases hr2; cases hu
          | ready x1 =>
            cases x1 with
            | ok u1 => cases hr2; cases hu; exact ⟨_, _, _, hr1⟩
            | error e1 => cases hr2; cases hu)
      (fun x v r v' hv hr => by
        unfold PEnt.poll at hr
        split at hr
        · cases hr; exact hv
        · obtain ⟨⟨p1, s1⟩, v1, hr1, hr2⟩ := run_bind_eq_ok.1 hr
          have hv1 := hP _ _ _ _ hv hr1
          cases p1 with
          | pending => cases hr2; exact hv1
          | ready x1 =>
            cases x1 with
            | ok u1 => cases hr2; exact hv1
            | error e1 => cases hr2; exact hv1)
      (V.order c.pending.length w).1 c.pending (V.order c.pending.length w).2 hK (hV _ w hw)
    refine calm_bind hsome.spin fun r w2 hr => ?_
    obtain ⟨hw2, hout⟩ := wpx_ok hsome hr
    cases hout with
    | none h1 => exact ⟨hw2, ⟨hJ, by simp, rfl, .inr ⟨rfl, .inl ⟨h1, rfl⟩⟩⟩, trivial⟩
    | pending f t f' t' L h1 h2 h3 h4 h5 h6 =>
      have hlen := congrArg List.length h2
      rw [h1] at hlen
      simp only [List.length_map, List.length_cons] at hlen
      exact ⟨hw2, ⟨hJ, h3, rfl, .inr ⟨rfl, .inr ⟨f, t, f', t', L, h1, rfl, by omega, h4, h5, h6⟩⟩⟩, trivial⟩
    | item i v q h1 h2 h3 h4 =>
      have hlen : q.length + 1 = c.pending.length := by
        have hl := congrArg List.length h2
        have hi := (List.getElem?_eq_some_iff.1 h1).1
        rw [List.length_eraseIdx_of_lt hi] at hl
        simp only [List.length_map] at hl hi
        omega
      have hres : ∀ {r : Poll (Except (K × Err) Unit)} {c1 c' : Cache K S}, c1.pending.length < c.pending.length → PPRes c' r c1 → PPRes c' r c := by
        intro r c1 c' hlt hr
        unfold PPRes at hr ⊢
        split at hr
        · exact Nat.lt_trans hr hlt
        · trivial
      cases v with
      | ok k s rx =>
        dsimp only
        split
        · next tx txs' _ =>
          refine wpx_mono (ih _ w2 h3 (fun e he => ?_) (by show q.length < n; omega) hw2) fun r w' h => ⟨h.1, h.2.1.later rfl (by show q.length < _; omega), hres (by show q.length < _; omega) h.2.2⟩
          rcases insert_mem he with h5 | h5
          · exact hJ e h5
          · rw [h5]; exact h4 k s rx rfl
        · trivial
      | canceled k =>
        exact wpx_mono (ih _ w2 h3 hJ (by show q.length < n; omega) hw2) fun r w' h => ⟨h.1, h.2.1.later rfl (by show q.length < _; omega), hres (by show q.length < _; omega) h.2.2⟩
      | inner k e =>
        dsimp only
        split
        · exact ⟨hw2, ⟨hJ, h3, rfl, .inl (by show q.length < _; omega)⟩, show q.length < _ by omega⟩
        · trivial

end cache

namespace Balance
variable {F : Fairness W} {B : BalCfg W Req Res Err K DErr BErr}

theorem promote_out {P : W → Prop} (hV : ∀ l w, P w → P (B.V.order l w).2) (hP : ∀ s w r w', P w → (B.S.pollReady s).run w = .ok r w' → P w') : ∀ (n : Nat) (b : Balance B) (w : W),
    (∀ e ∈ b.svcs.pending, Finishes F (PEnt.poll B.S b.svcs.cancelled) e) → (∀ e ∈ b.svcs.ready, JustReady B.S e.2.1) → b.svcs.pending.length < n → P w →
    calm (promote n b) (fun b' _ => b'.idx = b.idx ∧ PPOut F B.V P b.svcs b'.svcs w) w := by
  intro n
  induction n with
  | zero => intro b w _ _ hl; omega
  | succ n ih =>
    intro b w hK hJ hl hw
    rw [promote]
    have hpp := ppLoop_out hV hP (b.svcs.pending.length + 1) b.svcs w hK hJ (Nat.lt_succ_self _) hw
    refine calm_bind hpp.spin fun r w' hr => ?_
    obtain ⟨hw', h1, h2⟩ := wpx_ok hpp hr
    obtain ⟨p, c⟩ := r
    dsimp only at h1 h2 ⊢
    cases p with
    | pending => dsimp only; split <;> first | trivial | exact ⟨rfl, h1⟩
    | ready x =>
      cases x with
      | ok u => dsimp only; split <;> first | trivial | exact ⟨rfl, h1⟩
      | error e =>
        have h2 : c.pending.length < b.svcs.pending.length := h2
        exact wpx_mono (ih _ w' h1.fin h1.ready (show c.pending.length < n by omega) hw') fun b' _ h => ⟨h.1, h.2.later h1.canc h2⟩

/-- `select` puts nothing back, if what is ready stays ready. -/
theorem select_puts_nothing_back (hst : StaysReady B.S) : ∀ (n : Nat) (b : Balance B) (w : W) {p b' w'}, (∀ e ∈ b.svcs.ready, JustReady B.S e.2.1) → (select n b).run w = .ok (p, b') w' →
    b'.svcs.pending = b.svcs.pending ∧ b'.svcs.cancelled = b.svcs.cancelled := by
  intro n
  induction n with
  | zero => intro b w p b' w' _ h; cases h
  | succ n ih =>
    intro b w p b' w' hJ h
    rw [select] at h
    obtain ⟨⟨r, b1⟩, w1, h1, h2⟩ := run_bind_eq_ok.1 h
    -- the first half
    have hre : (b1.svcs.pending = b.svcs.pending ∧ b1.svcs.cancelled = b.svcs.cancelled) ∧ ∀ e ∈ b1.svcs.ready, JustReady B.S e.2.1 := by
      unfold recheck at h1
      split at h1
      · cases h1; exact ⟨⟨rfl, rfl⟩, hJ⟩
      · next i _ =>
        obtain ⟨⟨x, c⟩, w2, h3, h4⟩ := run_bind_eq_ok.1 h1
        have hc : (c.pending = b.svcs.pending ∧ c.cancelled = b.svcs.cancelled) ∧ ∀ e ∈ c.ready, JustReady B.S e.2.1 := by
          unfold Cache.checkReadyIndex at h3
          split at h3
          · cases h3; exact ⟨⟨rfl, rfl⟩, hJ⟩
          · next e he =>
            obtain ⟨⟨q, s'⟩, w3, h5, h6⟩ := run_bind_eq_ok.1 h3
            obtain ⟨s0, v, v', hjr⟩ := hJ e (List.mem_of_getElem? he)
            cases q with
            | pending => exact absurd h5 (hst _ _ _ _ hjr _ _ _)
            | ready y =>
              cases y with
              | ok u =>
                cases h6
                refine ⟨⟨rfl, rfl⟩, fun e' he' => ?_⟩
                rcases List.mem_or_eq_of_mem_set he' with h7 | h7
                · exact hJ e' h7
                · rw [h7]; exact ⟨_, _, _, h5⟩
              | error er =>
                dsimp only at h6
                split at h6
                · cases h6
                · next k z ready'' hsw =>
                  cases h6
                  refine ⟨⟨rfl, rfl⟩, fun e' he' => ?_⟩
                  have hi := (List.getElem?_eq_some_iff.1 he).1
                  obtain ⟨hg, hperm⟩ := IMap.swapRemoveIndex_some hsw
                  have hx : (k, z) = (e.1, (s', e.2.2)) := by rw [List.getElem?_set_self hi] at hg; exact (Option.some.inj hg).symm
                  rw [hx] at hperm
                  have h8 := (List.perm_cons _).1 (hperm.symm.trans (List.set_perm_cons_eraseIdx hi _))
                  exact hJ e' (List.mem_of_mem_eraseIdx (h8.mem_iff.1 he'))
        cases x with
        | error e => cases h4; exact hc
        | ok y => cases y <;> (cases h4; exact hc)
    dsimp only at h2
    split at h2
    · cases h2; exact hre.1
    · obtain ⟨⟨found, b2⟩, w2, h3, h4⟩ := run_bind_eq_ok.1 h2
      have hch : b2.svcs = b1.svcs := by
        unfold choose at h3
        obtain ⟨⟨o, b3⟩, w3, h5, h6⟩ := run_bind_eq_ok.1 h3
        have hp := wpx_ok (p2c_wpx (Pr := fun _ => True) b1 w1 (fun _ _ => trivial)) h5
        cases o with
        | some i => cases h6; exact hp.2.1
        | none =>
          dsimp only at h6
          split at h6
          · cases h6; exact hp.2.1
          · cases h6
      dsimp only at h4
      split at h4
      · have h5 := ih b2 w2 (by rw [hch]; exact hre.2) h4; rw [hch] at h5; exact ⟨h5.1.trans hre.1.1, h5.2.trans hre.1.2⟩
      · cases h4; rw [hch]; exact hre.1

/-- One `poll_ready` that is pending, in which nothing was discovered. -/
theorem quiet_poll (hst : StaysReady B.S) {fuel : Nat} {b b' : Balance B} {w w' : W} (h : (b.pollReady fuel).run w = .ok (.pending, b') w') (hd : Discovered B.D b.disc w []) (hr : b.svcs.ready = [])
    (hK : ∀ e ∈ b.svcs.pending, Finishes F (PEnt.poll B.S b.svcs.cancelled) e) :
    ∃ v, ByBalancer B w v ∧ (b'.svcs.pending.length < b.svcs.pending.length ∨ b'.svcs.cancelled = b.svcs.cancelled ∧
      (b'.svcs.pending = [] ∨ PSame B.V B.S (ByBalancer B v) b.svcs.cancelled b.svcs.pending b'.svcs.pending v)) := by
  unfold pollReady at h
  obtain ⟨⟨r, b1⟩, w1, h1, h2⟩ := run_bind_eq_ok.1 h
  cases r with
  | error e => cases h2
  | ok u =>
    have hu : ∃ d, b1 = { b with disc := d } ∧ ByBalancer B w w1 := by
      cases fuel with
      | zero => cases h1
      | succ n =>
        rw [update] at h1
        obtain ⟨⟨p, d⟩, w2, h3, h4⟩ := run_bind_eq_ok.1 h1
        obtain ⟨d1, v1, h5, h6⟩ := hd
        cases p with
        | pending => cases h4; exact ⟨d, rfl, .disc .refl h3⟩
        | ready o =>
          cases o with
          | none => cases h4; exact ⟨d, rfl, .disc .refl h3⟩
          | some x =>
            cases x with
            | error e => cases h4
            | ok ch =>
              exfalso
              generalize hl : ([] : List (Change K B.S.σ)) = l at h5
              cases h5 with
              | nil => exact h6 _ _ _ h3
              | snoc => simp at hl
    obtain ⟨d, rfl, hw1⟩ := hu
    dsimp only at h2
    unfold rest at h2
    obtain ⟨b2, w2, h3, h4⟩ := run_bind_eq_ok.1 h2
    have hpo := promote_out (F := F) (P := ByBalancer B w1) (fun l v hv => .order hv) (fun s v r v' hv hr => .ready hv hr) _ { b with disc := d } w1 hK (by show ∀ e ∈ b.svcs.ready, _; rw [hr]; simp) (Nat.lt_succ_self _) .refl
    obtain ⟨_, hp⟩ := wpx_ok hpo h3
    have hs := select_puts_nothing_back hst _ b2 w2 hp.ready h4
    refine ⟨w1, hw1, ?_⟩
    rw [hs.1, hs.2]
    rcases hp.moved with h5 | ⟨h5, h6⟩
    · exact .inl h5
    · refine .inr ⟨hp.canc, ?_⟩
      · rcases h6 with ⟨_, h6⟩ | h6
        · exact .inl h6
        · exact .inr h6

end Balance

/-- The core: a balancer that is pending forever has no endpoints from some time on. -/
theorem balance_starves {F : Fairness W} {B : BalCfg W Req Res Err K DErr BErr} {fuel : Nat} (hst : StaysReady B.S) (hF : F.Undisturbed (ByBalancer B)) (hV : B.V.Wakes F (ByBalancer B)) {ws ws' : Nat → W} (hws : F.fair ws)
    {bs : Nat → Balance B} {logs : Nat → List (Change K B.S.σ)} {n₀ : Nat} (h0 : BalReach B fuel (logs 0) (bs 0)) (hrun : ∀ n, ((balance B fuel).pollReady (bs n)).run (ws n) = .ok (.pending, bs (n + 1)) (ws' n))
    (hd : ∀ n, ∃ chs, Discovered B.D (bs n).disc (ws n) chs ∧ logs (n + 1) = logs n ++ chs) (hq : ∀ n, n₀ ≤ n → logs (n + 1) = logs n) (hS : ∀ n k s, .insert k s ∈ logs n → NeverHangs F B.S s) :
    ∃ n₁, ∀ n, n₁ ≤ n → (bs n).len = 0 := by
  have hreach : ∀ n, BalReach B fuel (logs n) (bs n) := by
    intro n
    induction n with
    | zero => exact h0
    | succ n ih =>
      obtain ⟨chs, h1, h2⟩ := hd n
      obtain ⟨d, r, h⟩ := ih
      rw [h2]
      exact ⟨d, r, .ready h (hrun n) h1⟩
  have hready : ∀ n, (bs (n + 1)).svcs.ready = [] := by
    intro n
    have hp := Balance.ready_post (hreach n).log.inv (hrun n)
    obtain ⟨_, _, _, _, _, _, h | h⟩ := hp.upd
    · obtain ⟨e, he, _⟩ := h; cases he
    · exact (h.pending rfl).1
  have hfin : ∀ n, ∀ e ∈ (bs n).svcs.pending, Finishes F (PEnt.poll B.S (bs n).svcs.cancelled) e := by
    intro n e he
    refine pent_finishes fun hc => ?_
    have hall := (hreach n).all (Pp := fun s => ∃ s₀ b, NeverHangs F B.S s₀ ∧ Reach B.S s₀ b s) (Pr := fun s => ∃ s₀, NeverHangs F B.S s₀ ∧ Reach B.S s₀ true s)
      ⟨fun ⟨s₀, b, h1, h2⟩ h => ⟨s₀, false, h1, .pending h2 h⟩, fun ⟨s₀, b, h1, h2⟩ h => ⟨s₀, h1, .ready h2 h⟩, fun ⟨s₀, h1, h2⟩ h => ⟨s₀, false, h1, .pending h2 h⟩, fun ⟨s₀, h1, h2⟩ h => ⟨s₀, h1, .ready h2 h⟩⟩
      (fun ⟨s₀, h1, h2⟩ h => ⟨s₀, false, h1, .call h2 h⟩) (fun k s h => ⟨s, false, hS n k s h, .new⟩)
    obtain ⟨s₀, b, h1, h2⟩ := hall.1 e.key e.rx e.svc ((hreach n).log.inv.pend_iff.2 ⟨he, hc⟩)
    exact h1.ready b _ h2
  have hquiet : ∀ n, n₀ ≤ n → Discovered B.D (bs n).disc (ws n) [] := by
    intro n hn
    obtain ⟨chs, h1, h2⟩ := hd n
    rw [hq n hn] at h2
    have : chs = [] := by simpa using h2
    rw [this] at h1; exact h1
  -- from a time on nothing is discovered, and the number of endpoints does not change
  let ℓ : Nat → Nat := fun n => (bs (n₀ + 1 + n)).svcs.pending.length
  have hrdy : ∀ n, (bs (n₀ + 1 + n)).svcs.ready = [] := fun n => by rw [show n₀ + 1 + n = n₀ + n + 1 by omega]; exact hready _
  have hstep := fun n => Balance.quiet_poll (F := F) hst (hrun (n₀ + 1 + n)) (hquiet _ (by omega)) (hrdy n) (hfin _)
  have hmin : ∃ x, ∃ n, ℓ n = x := ⟨_, 0, rfl⟩
  classical
  obtain ⟨m, hm⟩ := Nat.find_spec hmin
  have hleast : ∀ n, ℓ m ≤ ℓ n := fun n => by rw [hm]; exact Nat.find_min' hmin ⟨n, rfl⟩
  have hle : ∀ n, ℓ (n + 1) ≤ ℓ n := by
    intro n
    obtain ⟨v, _, h | ⟨_, h | ⟨e, t, e', t', L, h1, h2, h3, _⟩⟩⟩ := hstep n
    · exact Nat.le_of_lt h
    · show (bs (n₀ + 1 + n + 1)).svcs.pending.length ≤ _; rw [h]; exact Nat.zero_le _
    · show (bs (n₀ + 1 + n + 1)).svcs.pending.length ≤ (bs (n₀ + 1 + n)).svcs.pending.length; rw [h1, h2]; simp [h3]
  have hconst : ∀ n, ℓ (m + n) = ℓ m := by
    intro n
    refine Nat.le_antisymm ?_ (hleast _)
    induction n with
    | zero => exact Nat.le_refl _
    | succ n ih => exact Nat.le_trans (hle _) ih
  rcases Nat.eq_zero_or_pos (ℓ m) with hz | hpos
  · refine ⟨n₀ + 1 + m, fun n hn => ?_⟩
    obtain ⟨k, rfl⟩ := Nat.exists_eq_add_of_le hn
    have h1 := hconst k
    rw [hz] at h1
    have h1 : (bs (n₀ + 1 + m + k)).svcs.pending.length = 0 := by rw [show n₀ + 1 + m + k = n₀ + 1 + (m + k) by omega]; exact h1
    have h2 := hrdy (m + k)
    rw [show n₀ + 1 + (m + k) = n₀ + 1 + m + k by omega] at h2
    show (bs (n₀ + 1 + m + k)).svcs.ready.length + (bs (n₀ + 1 + m + k)).svcs.pending.length = 0
    rw [h1, h2]; rfl
  · exfalso
    -- the oldest endpoint is polled again and again
    have hsame : ∀ n, ∃ v e t e' t' L, ByBalancer B (ws (n₀ + 1 + (m + n))) v ∧ (bs (n₀ + 1 + (m + (n + 1)))).svcs.cancelled = (bs (n₀ + 1 + (m + n))).svcs.cancelled ∧
        (bs (n₀ + 1 + (m + n))).svcs.pending = e :: t ∧ (bs (n₀ + 1 + (m + (n + 1)))).svcs.pending = e' :: t' ∧ Pends (PEnt.poll B.S (bs (n₀ + 1 + (m + n))).svcs.cancelled) e L e' ∧ (∀ x ∈ L, ByBalancer B v x) ∧
        (L ≠ [] ↔ 0 ∈ (B.V.order (ℓ m) v).1) := by
      intro n
      have h1 := hconst n
      have h2 := hconst (n + 1)
      obtain ⟨v, hv, h | ⟨hc, h | ⟨e, t, e', t', L, h3, h4, h5, h6, h7, h8⟩⟩⟩ := hstep (m + n)
      · exact absurd (show ℓ (m + (n + 1)) < ℓ (m + n) from h) (by omega)
      · exact absurd (show ℓ (m + (n + 1)) = 0 from by show (bs (n₀ + 1 + (m + n) + 1)).svcs.pending.length = 0; rw [h]; rfl) (by omega)
      · refine ⟨v, e, t, e', t', L, hv, hc, h3, h4, h6, h7, ?_⟩
        rw [← h1]; exact h8
    choose v e t e' t' L h1 h2 h3 h4 h5 h6 h7 using hsame
    have hcanc : ∀ n, (bs (n₀ + 1 + (m + n))).svcs.cancelled = (bs (n₀ + 1 + (m + 0))).svcs.cancelled := by
      intro n
      induction n with
      | zero => rfl
      | succ n ih => exact (h2 n).trans ih
    have he : ∀ n, e' n = e (n + 1) := fun n => (List.cons.inj ((h4 n).symm.trans (h3 (n + 1)))).1
    have hshift : ∀ j, F.fair (fun n => ws (j + n)) := by
      intro j
      induction j with
      | zero => simpa using hws
      | succ j ih => exact (by funext n; rw [show j + 1 + n = j + (n + 1) by omega] : (fun n => ws (j + 1 + n)) = fun n => ws (j + (n + 1))) ▸ F.tail _ ih
    have hv : F.fair v := hF (fun n => ws (n₀ + 1 + m + n)) v id (hshift _) monotone_id (fun n => ⟨n, rfl⟩) fun n => by
      show ByBalancer B (ws (n₀ + 1 + m + n)) _
      rw [show n₀ + 1 + m + n = n₀ + 1 + (m + n) by omega]; exact h1 n
    obtain ⟨hw1, hw2⟩ := hV v (ℓ m) hv hpos
    obtain ⟨g, vs, hg, hg1, hg2, hg3⟩ := track e L (fun n => by rw [← he n]; have := h5 n; rw [hcanc n] at this; exact this) fun n => by
      obtain ⟨k, hk, hk'⟩ := hw1 n
      exact ⟨k, hk, (h7 k).2 hk'⟩
    exact hg3 (hfin _ (e 0) (by rw [h3 0]; simp) vs (hw2 vs g hg (fun n => (hg1 n).trans (h7 n)) fun k => h6 _ _ (hg2 k)))

end Tower
