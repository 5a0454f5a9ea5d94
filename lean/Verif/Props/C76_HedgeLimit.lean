import Verif.Model.HedgeLim
import Verif.Proof.LimTo

/-! # C76: `Hedge` over a concurrency limit -/

set_option linter.unusedSimpArgs false

namespace Tower
open Act
variable {W Req Res Err BErr : Type} {debug : Bool} {max : Nat} {S : Service W Req Res Err} {into : Err → BErr} {H : HedgeCfg W Req}

/-! ## Specification -/

/-- Requests given to the inner service whose futures exist: original requests and hedges, and those of other users. -/
def HdStack.inFlight (x : HdStack S) : Nat := (x.futs.map (fun f => (hlFuts f).length)).sum + x.fs.length

/-- The permits kept by handles that are ready: of `Hedge`s, inside response futures (hedges that wait for the policy), and of other users. -/
def HdStack.reserved (x : HdStack S) : Nat :=
  (x.hedges.map (fun s => [s.1, s.2].countP (·.permit))).sum + (x.futs.map (fun f => (hlHandles f).countP (·.permit))).sum + x.hs.countP (·.permit)

/-- The permits nobody keeps: free, or assigned to a handle that has not polled since. -/
def HdStack.free (x : HdStack S) : Nat := x.sem.permits + x.sem.granted.length

/-! ## Proofs -/

section
variable {sem sem' : Sem} {hs : List (ConcState S.σ Nat)} {fs : List S.φ} {next : Nat} {arr : List Nat}

theorem LimTo.ready' {s s' : ConcState S.σ Nat} {p w w'} (h : ∃ arr, LimTo debug max S sem (s :: hs) fs next arr)
    (hr : ((LimSvc debug S).pollReady s).run (sem, w) = .ok (p, s') (sem', w')) : ∃ arr, LimTo debug max S sem' (s' :: hs) fs next arr := by
  obtain ⟨arr, h⟩ := h
  exact ⟨_, h.ready hr⟩

/-- a call whose handle is left behind -/
theorem LimTo.call' {s s' : ConcState S.σ Nat} {q f w w'} (h : ∃ arr, LimTo debug max S sem (s :: hs) fs next arr)
    (hr : ((LimSvc debug S).call s q).run (sem, w) = .ok (f, s') (sem', w')) : ∃ arr, LimTo debug max S sem' hs (f :: fs) next arr := by
  obtain ⟨arr, h⟩ := h
  obtain ⟨h1, h2, h3, h4⟩ := limCall_cases hr
  have hn := h.inv.not_waiting (s := s) (by simp) h2
  exact ⟨arr, (h.call hr).drop_idle h3 (by rw [h1]; exact hn)⟩

theorem latReady {C : Clock (Sem × W)} {rec : Nat → Sem × W → Sem × W} {T : Service (Sem × W) Req Res Err} {s s' : T.σ} {p : Poll (Except BErr Unit)} {w w'}
    (h : ((Latency into C rec T).pollReady s).run w = .ok (p, s') w') : ∃ p0, (T.pollReady s).run w = .ok (p0, s') w' ∧ p = p0.map (mapErr into) := by
  obtain ⟨⟨p1, s1⟩, w1, h1, h2⟩ := Act.run_bind_eq_ok.1 h
  cases h2
  exact ⟨p1, h1, rfl⟩

theorem latCall {C : Clock (Sem × W)} {rec : Nat → Sem × W → Sem × W} {T : Service (Sem × W) Req Res Err} {s s' : T.σ} {q : Req} {x : Nat × T.φ} {w w'}
    (h : ((Latency into C rec T).call s q).run w = .ok (x, s') w') : (T.call s q).run w = .ok (x.2, s') w' := by
  obtain ⟨wg, w1, h1, h2⟩ := Act.run_bind_eq_ok.1 h
  cases h1
  obtain ⟨⟨x1, s1⟩, w2, h3, h4⟩ := Act.run_bind_eq_ok.1 h2
  cases h4
  exact h3

theorem latPoll {T : Service (Sem × W) Req Res Err} {x x' : Nat × T.φ} {p : Poll (Except BErr Res)} {w w'}
    (h : ((Latency into (H.clock.withSem Sem) (H.snd Sem).record T).poll x).run w = .ok (p, x') w') :
    ∃ p0 w1, (T.poll x.2).run w = .ok (p0, x'.2) w1 ∧ p = p0.map (mapErr into) ∧ w'.1 = w1.1 := by
  obtain ⟨⟨p1, y⟩, w1, h1, h2⟩ := Act.run_bind_eq_ok.1 h
  rcases p1 with _ | (e | v)
  · cases h2; exact ⟨_, _, h1, rfl, rfl⟩
  · cases h2; exact ⟨_, _, h1, rfl, rfl⟩
  · obtain ⟨wg, w2, h3, h4⟩ := Act.run_bind_eq_ok.1 h2
    cases h3
    obtain ⟨_, w4, h5, h6⟩ := Act.run_bind_eq_ok.1 h4
    cases h5; cases h6
    exact ⟨_, _, h1, rfl, rfl⟩

theorem pollOk_cases {f f' : S.φ} {p sem sem' w w'} (h : (pollOk debug S f).run (sem, w) = .ok (p, f') (sem', w')) :
    ((LimSvc debug S).poll f).run (sem, w) = .ok (p, f') (sem, w') ∧ (((∀ v, p ≠ .ready (.ok v)) ∧ sem' = sem) ∨ (∃ v, p = .ready (.ok v) ∧ sem' = sem.release)) := by
  obtain ⟨⟨p1, f1⟩, ⟨s1, w1⟩, h1, h2⟩ := Act.run_bind_eq_ok.1 h
  have hs : s1 = sem := (snd_eq_ok.1 h1).2
  subst hs
  rcases p1 with _ | (e | v)
  · cases h2; exact ⟨h1, .inl ⟨by simp, rfl⟩⟩
  · cases h2; exact ⟨h1, .inl ⟨by simp, rfl⟩⟩
  · cases h2; exact ⟨h1, .inr ⟨v, rfl, rfl⟩⟩

/-- what is left of the future of the hedge after a poll -/
def restF {F : Type} (p : Poll (Except BErr Res)) (f : F) : List F := match p with | .ready (.ok _) => [] | _ => [f]

/-- the future of the hedge, once issued, is polled -/
theorem issuedPoll {x x' : Nat × S.φ} {p : Poll (Except BErr Res)} {w w'} (h : ∃ arr, LimTo debug max S sem hs (x.2 :: fs) next arr)
    (hr : ((Latency into (H.clock.withSem Sem) (H.snd Sem).record (LimOk debug S)).poll x).run (sem, w) = .ok (p, x') (sem', w')) :
    ∃ arr, LimTo debug max S sem' hs (restF p x'.2 ++ fs) next arr := by
  obtain ⟨arr, h⟩ := h
  obtain ⟨p0, ⟨sm, w1⟩, h1, rfl, h2⟩ := latPoll hr
  dsimp only at h2
  subst h2
  obtain ⟨h3, h4⟩ := pollOk_cases h1
  have h5 := h.poll h3
  rcases h4 with ⟨h6, rfl⟩ | ⟨v, rfl, rfl⟩
  · rcases p0 with _ | (e | v)
    · exact ⟨arr, h5⟩
    · exact ⟨arr, h5⟩
    · exact absurd rfl (h6 v)
  · exact ⟨arr, h5.drop_future⟩

/-- the handles and futures in the future of the filter -/
def ffH (f : AsyncFilterFut (Option Req) (ConcState S.σ Nat) (Nat × S.φ)) : List (ConcState S.σ Nat) := match f with | .check _ s => [s] | .waitResponse _ => []
def ffF (f : AsyncFilterFut (Option Req) (ConcState S.σ Nat) (Nat × S.φ)) : List S.φ := match f with | .check _ _ => [] | .waitResponse g => [g.2]

abbrev HedgeF (into : Err → BErr) (H : HedgeCfg W Req) (debug : Bool) (S : Service W Req Res Err) : Service (Sem × W) Req Res BErr :=
  AsyncFilter id hedgePredFut (fun r w => (if (H.snd Sem).canRetry r w then some r else none, w)) (Latency into (H.clock.withSem Sem) (H.snd Sem).record (LimOk debug S))

theorem mapErr_id {E A : Type} (p : Poll (Except E A)) : p.map (mapErr id) = p := by rcases p with _ | (_ | _) <;> rfl

theorem filterPoll {f f' : AsyncFilterFut (Option Req) (ConcState S.σ Nat) (Nat × S.φ)} {p : Poll (Except BErr Res)} {w w'}
    (h : ∃ arr, LimTo debug max S sem (ffH f ++ hs) (ffF f ++ fs) next arr) (hr : ((HedgeF into H debug S).poll f).run (sem, w) = .ok (p, f') (sem', w')) :
    ((∀ v, p ≠ .ready (.ok v)) → ∃ arr, LimTo debug max S sem' (ffH f' ++ hs) (ffF f' ++ fs) next arr) ∧
    (∀ v, p = .ready (.ok v) → ∃ arr, LimTo debug max S sem' hs fs next arr) := by
  have fin : ∀ {p0 : Poll (Except BErr Res)} {x' : Nat × S.φ}, (∃ arr, LimTo debug max S sem' hs (restF p0 x'.2 ++ fs) next arr) → p = p0.map (mapErr id) → f' = .waitResponse x' →
      ((∀ v, p ≠ .ready (.ok v)) → ∃ arr, LimTo debug max S sem' (ffH f' ++ hs) (ffF f' ++ fs) next arr) ∧ (∀ v, p = .ready (.ok v) → ∃ arr, LimTo debug max S sem' hs fs next arr) := by
    intro p0 x' hl hp hf
    rw [mapErr_id] at hp
    subst hp hf
    refine ⟨fun hne => ?_, fun v hv => ?_⟩
    · rcases p with _ | (e | v)
      · exact hl
      · exact hl
      · exact absurd rfl (hne v)
    · subst hv; exact hl
  cases f with
  | waitResponse g =>
    obtain ⟨⟨q, x'⟩, ⟨s1, w1⟩, h1, h2⟩ := Act.run_bind_eq_ok.1 hr
    cases h2
    exact fin (issuedPoll (hs := hs) (fs := fs) h h1) rfl rfl
  | check c s =>
    obtain ⟨⟨q, c'⟩, ⟨s1, w1⟩, h1, h2⟩ := Act.run_bind_eq_ok.1 hr
    cases c with
    | none =>
      cases h1
      cases h2
      exact ⟨fun _ => h, fun v hv => by cases hv⟩
    | some r =>
      cases h1
      obtain ⟨⟨x, s2⟩, ⟨sm2, w2⟩, h3, h4⟩ := Act.run_bind_eq_ok.1 h2
      obtain ⟨⟨q2, x'⟩, ⟨sm3, w3⟩, h5, h6⟩ := Act.run_bind_eq_ok.1 h4
      cases h6
      have hc := latCall h3
      exact fin (issuedPoll (hs := hs) (fs := fs) (LimTo.call' h hc) h5) rfl rfl

/-- the hedge: before its time, waiting for a permit or for the policy, issued, or done -/
theorem oneshotPoll {o o' : OneshotState (ConcState S.σ Nat) Req (AsyncFilterFut (Option Req) (ConcState S.σ Nat) (Nat × S.φ))} {p : Poll (Except BErr Res)} {w w'}
    (h : ∃ arr, LimTo debug max S sem ((HLB.handles (.called o) : List (ConcState S.σ Nat)) ++ hs) (HLB.futs (.called o) ++ fs) next arr)
    (hr : ((Oneshot (HedgeF into H debug S)).poll o).run (sem, w) = .ok (p, o') (sem', w')) :
    ∃ arr, LimTo debug max S sem' ((HLB.handles (.called o') : List (ConcState S.σ Nat)) ++ hs) (HLB.futs (.called o') ++ fs) next arr := by
  have toH : ∀ f : AsyncFilterFut (Option Req) (ConcState S.σ Nat) (Nat × S.φ), (HLB.handles (.called (.called f)) : List (ConcState S.σ Nat)) = ffH f ∧ (HLB.futs (.called (.called f)) : List S.φ) = ffF f := by
    intro f; cases f <;> exact ⟨rfl, rfl⟩
  have fin : ∀ {q : Poll (Except BErr Res)} {f f'} {sm s2 : Sem} {w1 w2}, (∃ arr, LimTo debug max S sm (ffH f ++ hs) (ffF f ++ fs) next arr) → ((HedgeF into H debug S).poll f).run (sm, w1) = .ok (q, f') (s2, w2) →
      ((∀ v, q ≠ .ready (.ok v)) → o' = .called f' ∧ sem' = s2) → (∀ v, q = .ready (.ok v) → o' = .done ∧ sem' = s2) →
      ∃ arr, LimTo debug max S sem' ((HLB.handles (.called o') : List (ConcState S.σ Nat)) ++ hs) (HLB.futs (.called o') ++ fs) next arr := by
    intro q f f' sm s2 w1 w2 hl h1 h2 h3
    obtain ⟨k1, k2⟩ := filterPoll hl h1
    by_cases hq : ∃ v, q = .ready (.ok v)
    · obtain ⟨v, rfl⟩ := hq
      obtain ⟨rfl, rfl⟩ := h3 v rfl
      exact k2 v rfl
    · have hne : ∀ v, q ≠ .ready (.ok v) := fun v hv => hq ⟨v, hv⟩
      obtain ⟨rfl, rfl⟩ := h2 hne
      rw [(toH f').1, (toH f').2]; exact k1 hne
  cases o with
  | done => cases hr
  | called f =>
    rw [(toH f).1, (toH f).2] at h
    obtain ⟨⟨q, f'⟩, ⟨sm, w1⟩, h1, h2⟩ := Act.run_bind_eq_ok.1 hr
    rcases q with _ | (e | v) <;> cases h2
    · exact fin h h1 (fun _ => ⟨rfl, rfl⟩) (fun v hv => by cases hv)
    · exact fin h h1 (fun _ => ⟨rfl, rfl⟩) (fun v hv => by cases hv)
    · exact fin h h1 (fun hv => absurd rfl (hv v)) (fun v hv => ⟨rfl, rfl⟩)
  | notReady s req =>
    obtain ⟨⟨q, s1⟩, ⟨sm1, w1⟩, h1, h2⟩ := Act.run_bind_eq_ok.1 hr
    obtain ⟨⟨q0, s0⟩, ⟨sm0, w0⟩, h3, h4⟩ := Act.run_bind_eq_ok.1 h1
    cases h4
    obtain ⟨p0, h5, rfl⟩ := latReady h3
    have hl := LimTo.ready' h h5
    rw [mapErr_id] at h2
    rcases p0 with _ | (e | _)
    · cases h2; exact hl
    · cases h2; exact hl
    · cases req with
      | none => cases h2
      | some r =>
        obtain ⟨⟨f, s2⟩, ⟨sm2, w2⟩, h6, h7⟩ := Act.run_bind_eq_ok.1 h2
        obtain ⟨c3, ⟨sm3, w3⟩, h8, h9⟩ := Act.run_bind_eq_ok.1 h6
        cases (Out.ok.inj h8).2
        cases h9
        obtain ⟨⟨q4, f4⟩, ⟨sm4, w4⟩, h10, h11⟩ := Act.run_bind_eq_ok.1 h7
        rcases q4 with _ | (e | v) <;> cases h11
        · exact fin hl h10 (fun _ => ⟨rfl, rfl⟩) (fun v hv => by cases hv)
        · exact fin hl h10 (fun _ => ⟨rfl, rfl⟩) (fun v hv => by cases hv)
        · exact fin hl h10 (fun hv => absurd rfl (hv v)) (fun v hv => ⟨rfl, rfl⟩)

theorem hedgeBPoll {b b' : HLB Req S} {p : Poll (Except BErr Res)} {w w'} (h : ∃ arr, LimTo debug max S sem (b.handles ++ hs) (b.futs ++ fs) next arr)
    (hr : ((HedgeB into H debug S).poll b).run (sem, w) = .ok (p, b') (sem', w')) : ∃ arr, LimTo debug max S sem' (b'.handles ++ hs) (b'.futs ++ fs) next arr := by
  cases b with
  | called o =>
    obtain ⟨⟨q, o'⟩, w1, h1, h2⟩ := Act.run_bind_eq_ok.1 hr
    cases h2
    exact oneshotPoll h h1
  | delaying d r s =>
    obtain ⟨wg, w1, h1, h2⟩ := Act.run_bind_eq_ok.1 hr
    cases h1
    dsimp only at h2
    split at h2
    · obtain ⟨⟨q, o'⟩, w1, h1, h3⟩ := Act.run_bind_eq_ok.1 h2
      cases h3
      exact oneshotPoll (o := .notReady s (some r)) h h1
    · obtain ⟨_, w1, h1, h3⟩ := Act.run_bind_eq_ok.1 h2
      cases h1
      cases h3
      exact h

theorem hedgePoll {f f' : HLFut Req S} {p : Poll (Except BErr Res)} {w w'} (h : ∃ arr, LimTo debug max S sem (hlHandles f ++ hs) (hlFuts f ++ fs) next arr)
    (hr : ((HedgeLim into H debug S).poll f).run (sem, w) = .ok (p, f') (sem', w')) : ∃ arr, LimTo debug max S sem' (hlHandles f' ++ hs) (hlFuts f' ++ fs) next arr := by
  obtain ⟨a, b⟩ := f
  obtain ⟨⟨pa, a'⟩, ⟨s1, w1⟩, h1, h2⟩ := Act.run_bind_eq_ok.1 hr
  obtain ⟨p0, ⟨sm, w0⟩, h3, rfl, h4⟩ := latPoll h1
  dsimp only at h4
  subst h4
  obtain ⟨arr, h⟩ := h
  have hl := h.poll h3
  rcases p0 with _ | r
  · cases b with
    | none => cases h2; exact ⟨arr, hl⟩
    | some y =>
      obtain ⟨⟨q, b'⟩, ⟨s3, w3⟩, h5, h6⟩ := Act.run_bind_eq_ok.1 h2
      have hk : ∃ arr, LimTo debug max S s3 (HLB.handles (b' : HLB Req S) ++ hs) (HLB.futs (b' : HLB Req S) ++ @List.cons S.φ a'.2 fs) next arr :=
        hedgeBPoll (b := y) ⟨arr, hl.perm (.refl _) (List.perm_middle.symm)⟩ h5
      obtain ⟨arr', hk⟩ := hk
      rcases q with _ | v <;> cases h6 <;> exact ⟨arr', hk.perm (.refl _) List.perm_middle⟩
  · cases h2
    exact ⟨arr, hl⟩

theorem hedgeReady {s s' : ConcState S.σ Nat × ConcState S.σ Nat} {p : Poll (Except BErr Unit)} {w w'}
    (hr : ((HedgeLim into H debug S).pollReady s).run (sem, w) = .ok (p, s') (sem', w')) :
    ∃ p0, ((LimSvc debug S).pollReady s.1).run (sem, w) = .ok (p0, s'.1) (sem', w') ∧ s'.2 = s.2 ∧ p = p0.map (mapErr into) := by
  obtain ⟨⟨pa, a'⟩, w1, h1, h2⟩ := Act.run_bind_eq_ok.1 hr
  obtain ⟨p0, h3, rfl⟩ := latReady h1
  obtain ⟨⟨pb, b'⟩, w2, h4, h5⟩ := Act.run_bind_eq_ok.1 h2
  cases h4
  rcases p0 with _ | (e | _) <;> cases h5 <;> exact ⟨_, h3, rfl, rfl⟩

theorem selClone_fst (q : Req) (w : Sem × W) : ((H.snd Sem).selectClone q w).2.1 = w.1 := by
  unfold HedgeCfg.selectClone
  split <;> rfl

theorem hedgeCall {s s' : ConcState S.σ Nat × ConcState S.σ Nat} {f : HLFut Req S} {q : Req} {w w'} (h : ∃ arr, LimTo debug max S sem (s.1 :: s.2 :: hs) fs next arr)
    (hr : ((HedgeLim into H debug S).call s q).run (sem, w) = .ok (f, s') (sem', w')) :
    ∃ arr, LimTo debug max S sem' (s'.1 :: s'.2 :: (hlHandles (f.1, f.2.map (HLB.name next)) ++ hs)) (hlFuts (f.1, f.2.map (HLB.name next)) ++ fs) (next + 1) arr := by
  obtain ⟨arr, h⟩ := h
  obtain ⟨c, ⟨s1, w1⟩, h1, h2⟩ := Act.run_bind_eq_ok.1 hr
  have e1 : s1 = sem := by
    have := selClone_fst (H := H) q (sem, w)
    rw [(Out.ok.inj h1).2] at this
    exact this
  subst e1
  cases c with
  | none =>
    obtain ⟨⟨x, a⟩, ⟨s2, w2⟩, h3, h4⟩ := Act.run_bind_eq_ok.1 h2
    cases h4
    have hc := latCall h3
    exact ⟨arr, (h.call hc).skip s.1.inner⟩
  | some r =>
    obtain ⟨⟨y, b⟩, ⟨s2, w2⟩, h3, h4⟩ := Act.run_bind_eq_ok.1 h2
    obtain ⟨⟨x, a⟩, ⟨s5, w5⟩, h5, h6⟩ := Act.run_bind_eq_ok.1 h4
    cases h6
    obtain ⟨d, ⟨s7, w7⟩, h7, h8⟩ := Act.run_bind_eq_ok.1 h3
    have e2 : s1 = s7 := congrArg Prod.fst (Out.ok.inj h7).2
    subst e2
    obtain ⟨_, ⟨s9, w9⟩, h9, h10⟩ := Act.run_bind_eq_ok.1 h8
    cases h9
    cases h10
    have hc := latCall h5
    have hl := (h.clone (s := s.2) (by simp)).perm (hs' := s.1 :: s.2 :: { ((LimSvc debug S).clone s.2 : ConcState S.σ Nat) with sem := next } :: hs)
      ((List.Perm.swap _ _ _).trans ((List.Perm.swap _ _ _).cons _)) (.refl _)
    exact ⟨arr, hl.call hc⟩

end

/-- what holds in every history -/
def HLimInv (debug : Bool) (max : Nat) (S : Service W Req Res Err) (x : HdStack S) : Prop :=
  ∃ arr, LimTo debug max S x.sem (x.hedges.flatMap (fun s => [s.1, s.2]) ++ (x.futs.flatMap hlHandles ++ x.hs)) (x.futs.flatMap hlFuts ++ x.fs) x.next arr

theorem flat_in {α β : Type} (f : α → List β) {l r : List α} {c : α} {t u : List β} : (u ++ ((l ++ c :: r).flatMap f ++ t)).Perm (f c ++ (u ++ ((l ++ r).flatMap f ++ t))) :=
  ((flat_split f).append_left u).trans (by rw [← List.append_assoc, ← List.append_assoc (as := f c)]; exact List.perm_append_comm.append_right _)

theorem HdHist.inv {x : HdStack S} (h : HdHist into H debug max S x) : HLimInv debug max S x := by
  induction h with
  | new i => exact ⟨_, LimTo.new i⟩
  | @step x x' _ ht ih =>
    obtain ⟨arr, hl⟩ := ih
    cases ht with
    | @hedge l r s c hs hc =>
      subst hc
      rw [hs] at hl
      have h1 := hl.clone (s := s) (by simp)
      refine ⟨arr, h1.perm ?_ (.refl _)⟩
      dsimp only
      simp only [List.flatMap_append, List.flatMap_cons, List.flatMap_nil, List.append_nil, List.append_assoc]
      refine (List.Perm.trans ?_ List.perm_middle.symm)
      refine List.Perm.cons _ ?_
      rw [← List.append_assoc, ← List.append_assoc]
      refine List.perm_middle.trans ?_
      simp only [List.nil_append, List.singleton_append, List.append_assoc]
      exact List.perm_middle.symm
    | @ready l r s s' p sem' w w' hs hr =>
      obtain ⟨p0, h1, h2, _⟩ := hedgeReady hr
      rw [hs] at hl
      have hk := ((hl.perm (flat_split _) (.refl _)).ready h1)
      rw [← h2] at hk
      exact ⟨_, hk.perm (flat_split (fun s : ConcState S.σ Nat × ConcState S.σ Nat => [s.1, s.2]) (c := s')).symm (.refl _)⟩
    | @call l r s s' f q sem' w w' hs hr =>
      rw [hs] at hl
      obtain ⟨arr', hk⟩ := hedgeCall ⟨arr, hl.perm (flat_split _) (.refl _)⟩ hr
      refine ⟨arr', hk.perm ?_ ?_⟩
      · refine List.Perm.trans ?_ (flat_split (fun s : ConcState S.σ Nat × ConcState S.σ Nat => [s.1, s.2]) (c := s')).symm
        refine List.Perm.cons _ (List.Perm.cons _ ?_)
        dsimp only
        have := (flat_in hlHandles (u := (l ++ r).flatMap (fun s => [s.1, s.2])) (l := x.futs) (r := []) (c := (f.1, f.2.map (HLB.name x.next))) (t := x.hs)).symm
        simpa using this
      · dsimp only
        have := (flat_split hlFuts (l := x.futs) (r := []) (c := (f.1, f.2.map (HLB.name x.next))) (t := x.fs)).symm
        simpa using this
    | @poll l r f f' p sem' w w' hs hr =>
      rw [hs] at hl
      obtain ⟨arr', hk⟩ := hedgePoll ⟨arr, hl.perm (flat_in _) (flat_split _)⟩ hr
      exact ⟨arr', hk.perm (flat_in hlHandles).symm (flat_split hlFuts).symm⟩
    | @drop_future l r f hs =>
      rw [hs] at hl
      exact (hl.perm (flat_in _) (flat_split _)).drop_futures.drop_handles
    | @drop_hedge l r s hs =>
      rw [hs] at hl
      exact (hl.perm (flat_split _) (.refl _)).drop_handles
    | other ho =>
      rw [← List.append_assoc] at hl
      obtain ⟨arr', hk⟩ := hl.other ho
      rw [List.append_assoc] at hk
      exact ⟨arr', hk⟩

/-! ## C76 -/

/-- **C76.** In every history, every permit is in one place: free, kept by a handle that is ready, or with a request in flight (an original, a hedge, or of another user). -/
theorem C76_conserved {x : HdStack S} (h : HdHist into H debug max S x) : x.free + x.reserved + x.inFlight = max := by
  obtain ⟨arr, hl⟩ := h.inv
  have := hl.inv.conserved
  simp only [Lim.holders, List.countP_append, List.length_append, List.length_flatMap, List.countP_flatMap] at this
  simp only [HdStack.free, HdStack.reserved, HdStack.inFlight]
  have e1 : (x.hedges.map (List.countP (fun s : ConcState S.σ Nat => s.permit) ∘ fun s => [s.1, s.2])) = x.hedges.map (fun s => [s.1, s.2].countP (·.permit)) := rfl
  have e2 : (x.futs.map (List.countP (fun s : ConcState S.σ Nat => s.permit) ∘ hlHandles)) = x.futs.map (fun f => (hlHandles f).countP (·.permit)) := rfl
  rw [e1, e2] at this
  omega

/-- **C76.** Hedges count: originals, hedges and requests of others in flight are at most `max`. -/
theorem C76_limit {x : HdStack S} (h : HdHist into H debug max S x) : x.inFlight ≤ max := by
  have := C76_conserved h
  omega

/-- **C76.** Readiness takes one permit: a `Hedge` is ready exactly when its first handle of the limit is; for the hedge nothing is asked until its time. -/
theorem C76_one_permit {s s' : ConcState S.σ Nat × ConcState S.σ Nat} {p : Poll (Except BErr Unit)} {sem sem' w w'}
    (hr : ((HedgeLim into H debug S).pollReady s).run (sem, w) = .ok (p, s') (sem', w')) :
    ∃ p0, ((LimSvc debug S).pollReady s.1).run (sem, w) = .ok (p0, s'.1) (sem', w') ∧ s'.2 = s.2 ∧ p = p0.map (mapErr into) := hedgeReady hr

/-- **C76 (no deadlock).** Whether the hedge waits for a permit, for the policy or was issued: a request is `Pending` only while its original is, so a hedge without a permit delays nothing. -/
theorem C76_pending {f f' : HLFut Req S} {w w' : Sem × W} (hr : ((HedgeLim into H debug S).poll f).run w = .ok (.pending, f') w') :
    ∃ wb, (S.poll f.1.2).run w.2 = .ok (.pending, f'.1.2) wb := by
  obtain ⟨⟨pa, a'⟩, w1, h1, h2⟩ := Act.run_bind_eq_ok.1 hr
  obtain ⟨p0, w0, h3, rfl, _⟩ := latPoll h1
  have h4 := (snd_eq_ok.1 h3).1
  rcases p0 with _ | r
  · obtain ⟨a, b⟩ := f
    cases b with
    | none => cases h2; exact ⟨_, h4⟩
    | some y =>
      obtain ⟨⟨q, b'⟩, w3, h5, h6⟩ := Act.run_bind_eq_ok.1 h2
      rcases q with _ | v <;> cases h6
      exact ⟨_, h4⟩
  · cases h2

/-- **C76.** When all `Hedge`s, response futures and other users are dropped, at whatever moment, all permits are back. -/
theorem C76_returned {x : HdStack S} (h : HdHist into H debug max S x) (h1 : x.hedges = []) (h2 : x.futs = []) (h3 : x.hs = []) (h4 : x.fs = []) : x.sem = Sem.new max := by
  obtain ⟨arr, y, a, b, c, d, _⟩ := h.inv
  rw [h1, h2, h3] at c
  rw [h2, h4] at d
  rw [← b]
  exact C05_all_dropped a c.eq_nil d.eq_nil

/-- a hedge that waits for the policy, or was rejected by it, has a permit -/
def HLB.CheckOk (b : HLB Req S) : Prop := ∀ c s, b = .called (.called (.check c s)) → s.permit = true

theorem filter_check {f f' : AsyncFilterFut (Option Req) (ConcState S.σ Nat) (Nat × S.φ)} {p : Poll (Except BErr Res)} {w w'}
    (hr : ((HedgeF into H debug S).poll f).run w = .ok (p, f') w') : (∃ g, f' = .waitResponse g) ∨ f' = f := by
  cases f with
  | waitResponse g =>
    obtain ⟨⟨q, x'⟩, w1, h1, h2⟩ := Act.run_bind_eq_ok.1 hr
    cases h2
    exact .inl ⟨_, rfl⟩
  | check c s =>
    obtain ⟨⟨q, c'⟩, w1, h1, h2⟩ := Act.run_bind_eq_ok.1 hr
    cases c with
    | none => cases h1; cases h2; exact .inr rfl
    | some r =>
      cases h1
      obtain ⟨⟨x, s2⟩, w2, h3, h4⟩ := Act.run_bind_eq_ok.1 h2
      obtain ⟨⟨q2, x'⟩, w3, h5, h6⟩ := Act.run_bind_eq_ok.1 h4
      cases h6
      exact .inl ⟨_, rfl⟩

theorem oneshot_check {o o' : OneshotState (ConcState S.σ Nat) Req (AsyncFilterFut (Option Req) (ConcState S.σ Nat) (Nat × S.φ))} {p : Poll (Except BErr Res)} {w w'}
    (h : HLB.CheckOk (.called o : HLB Req S)) (hr : ((Oneshot (HedgeF into H debug S)).poll o).run w = .ok (p, o') w') : HLB.CheckOk (.called o' : HLB Req S) := by
  cases o with
  | done => cases hr
  | called f =>
    obtain ⟨⟨q, f'⟩, w1, h1, h2⟩ := Act.run_bind_eq_ok.1 hr
    rcases filter_check h1 with ⟨g, rfl⟩ | rfl
    · rcases q with _ | (e | v) <;> cases h2 <;> intro c s hs <;> cases hs
    · rcases q with _ | (e | v) <;> cases h2
      · exact h
      · exact h
      · intro c s hs; cases hs
  | notReady s req =>
    obtain ⟨⟨q, s1⟩, w1, h1, h2⟩ := Act.run_bind_eq_ok.1 hr
    obtain ⟨⟨q0, s0⟩, w0, h3, h4⟩ := Act.run_bind_eq_ok.1 h1
    cases h4
    obtain ⟨p0, h5, rfl⟩ := latReady h3
    rw [mapErr_id] at h2
    rcases p0 with _ | (e | _)
    · cases h2; intro c s hs; cases hs
    · cases h2; intro c s hs; cases hs
    · cases req with
      | none => cases h2
      | some r =>
        obtain ⟨⟨f, s2⟩, w2, h6, h7⟩ := Act.run_bind_eq_ok.1 h2
        obtain ⟨c3, w3, h8, h9⟩ := Act.run_bind_eq_ok.1 h6
        cases (Out.ok.inj h8).2
        cases h9
        obtain ⟨⟨q4, f4⟩, w4, h10, h11⟩ := Act.run_bind_eq_ok.1 h7
        have hp : ConcState.permit (s1 : ConcState S.σ Nat) = true := C04_ready_has_permit (debug := debug) (x := ⟨w.1, [], [], 0⟩) (w := w.2) (sem' := w1.1) (w' := w1.2) (res := .ok ()) h5
        rcases filter_check h10 with ⟨g, rfl⟩ | rfl
        · rcases q4 with _ | (e | v) <;> cases h11 <;> intro c s hs <;> cases hs
        · rcases q4 with _ | (e | v) <;> cases h11
          · intro c s hs; cases hs; exact hp
          · intro c s hs; cases hs; exact hp
          · intro c s hs; cases hs

theorem hedgeB_check {b b' : HLB Req S} {p : Poll (Except BErr Res)} {w w'} (h : b.CheckOk) (hr : ((HedgeB into H debug S).poll b).run w = .ok (p, b') w') : b'.CheckOk := by
  cases b with
  | called o =>
    obtain ⟨⟨q, o'⟩, w1, h1, h2⟩ := Act.run_bind_eq_ok.1 hr
    cases h2
    exact oneshot_check h h1
  | delaying d r s =>
    obtain ⟨wg, w1, h1, h2⟩ := Act.run_bind_eq_ok.1 hr
    cases h1
    dsimp only at h2
    split at h2
    · obtain ⟨⟨q, o'⟩, w1, h1, h3⟩ := Act.run_bind_eq_ok.1 h2
      cases h3
      exact oneshot_check (o := .notReady s (some r)) (by intro c s hs; cases hs) h1
    · obtain ⟨_, w1, h1, h3⟩ := Act.run_bind_eq_ok.1 h2
      cases h1
      cases h3
      exact h

theorem HdHist.checks {x : HdStack S} (h : HdHist into H debug max S x) : ∀ f ∈ x.futs, ∀ b, f.2 = some b → b.CheckOk := by
  induction h with
  | new i => intro f hf; cases hf
  | @step x x' _ ht ih =>
    cases ht with
    | hedge => exact ih
    | ready => exact ih
    | drop_hedge => exact ih
    | other => exact ih
    | drop_future hs =>
      intro f hf
      refine ih f ?_
      rw [hs]
      simp only [List.mem_append, List.mem_cons] at hf ⊢
      tauto
    | @call l r s s' f q sem' w w' hs hr =>
      intro g hg b hb
      simp only [List.mem_append, List.mem_singleton] at hg
      rcases hg with hg | rfl
      · exact ih g hg b hb
      · obtain ⟨c, w1, h1, h2⟩ := Act.run_bind_eq_ok.1 hr
        cases c with
        | none =>
          obtain ⟨⟨y, a⟩, w2, h3, h4⟩ := Act.run_bind_eq_ok.1 h2
          cases h4; cases hb
        | some r =>
          obtain ⟨⟨y, b1⟩, w2, h3, h4⟩ := Act.run_bind_eq_ok.1 h2
          obtain ⟨⟨x, a⟩, w5, h5, h6⟩ := Act.run_bind_eq_ok.1 h4
          cases h6
          obtain ⟨d, w7, h7, h8⟩ := Act.run_bind_eq_ok.1 h3
          obtain ⟨_, w9, h9, h10⟩ := Act.run_bind_eq_ok.1 h8
          cases h9
          cases h10
          cases hb
          intro c s hs; cases hs
    | @poll l r f f' p sem' w w' hs hr =>
      intro g hg b hb
      simp only [List.mem_append, List.mem_cons] at hg
      rcases hg with hg | rfl | hg
      · exact ih g (by rw [hs]; simp [hg]) b hb
      · have ihf := ih f (by rw [hs]; simp)
        obtain ⟨a, y⟩ := f
        obtain ⟨⟨pa, a'⟩, w1, h1, h2⟩ := Act.run_bind_eq_ok.1 hr
        rcases pa with _ | v
        · cases y with
          | none => cases h2; cases hb
          | some y =>
            obtain ⟨⟨q, b'⟩, w3, h5, h6⟩ := Act.run_bind_eq_ok.1 h2
            have := hedgeB_check (ihf y rfl) h5
            rcases q with _ | v <;> cases h6 <;> cases hb <;> exact this
        · cases h2; exact ihf b hb
      · exact ih g (by rw [hs]; simp [hg]) b hb

/-- **C76 (limit of the claim).** A hedge takes its permit before the policy is asked, and a hedge that the policy rejects keeps it: in every history the future of such a hedge has a handle that is ready, and its polls leave it so
and touch no permit. The permit is free again when the response future is dropped (`C76_returned`). -/
theorem C76_rejected_keeps_permit {x : HdStack S} (h : HdHist into H debug max S x) {a : Nat × S.φ} {s : ConcState S.σ Nat} (hf : (a, some (.called (.called (.check none s)))) ∈ x.futs) :
    s.permit = true ∧ ∀ w : Sem × W, ((HedgeB into H debug S).poll (.called (.called (.check none s)))).run w = .ok (.pending, .called (.called (.check none s))) w :=
  ⟨h.checks _ hf _ rfl _ _ rfl, fun _ => rfl⟩

/-! ## Concrete cases -/

namespace Demo76

/-- A service that is always ready; a request is the time at which its response comes. The world is the time. -/
@[reducible] def svc : Service Nat Nat Nat String where
  σ := Unit
  φ := Nat
  pollReady s := pure (.ready (.ok ()), s)
  call s q := pure (q, s)
  poll f := ⟨fun w => if f ≤ w then .ok (.ready (.ok f), f) w else .ok (.pending, f) w⟩
  clone s := s

/-- hedge after 5, if `can` -/
@[reducible] def cfg (can : Bool) : HedgeCfg Nat Nat where
  clock := { now := id, fired := fun d w => decide (d ≤ w), sound := fun d w h => by simpa using h }
  cloneRequest r _ := some r
  canRetry _ _ := can
  record _ w := w
  delay w := (5, w)
  enough w := (true, w)

abbrev St := ConcState Unit Nat
def s0 (p : Bool) (n : Nat) : St := ⟨(), n, p⟩
def wait : HLB Nat svc := .delaying 5 20 (s0 false 2)
def out : HLB Nat svc := .called (.called (.waitResponse (7, (20 : Nat))))
def rej : HLB Nat svc := .called (.called (.check none (s0 true 2)))

/-- A `Hedge` on a new limit is ready and is called at time 0 with a request that takes until 20. -/
theorem called (can : Bool) (max : Nat) : HdHist (BErr := String) id (cfg can) true (max + 1) svc ⟨⟨max, [], []⟩, [(s0 false 1, s0 false 0)], [((0, (20 : Nat)), some wait)], [], [], 3⟩ := by
  have h0 : HdHist (BErr := String) id (cfg can) true (max + 1) svc ⟨⟨max + 1, [], []⟩, [], [], [s0 false 0], [], 1⟩ := HdHist.new (S := svc) ()
  have h1 := h0.step (.hedge (l := []) (r := []) (s := s0 false 0) rfl rfl)
  have h2 := h1.step (.ready (l := []) (r := []) (s := (s0 false 1, s0 false 0)) (s' := (s0 true 1, s0 false 0)) (p := .ready (.ok ())) (sem' := ⟨max, [], []⟩) (w := 0) (w' := 0) rfl rfl)
  exact h2.step (.call (S := svc) (l := []) (r := []) (s := (s0 true 1, s0 false 0)) (s' := (s0 false 1, s0 false 0)) (f := ((0, (20 : Nat)), some (.delaying 5 20 (s0 false 0)))) (q := 20) (w := 0) (w' := 0) rfl rfl)

/-- Limit 2, the policy agrees: at 7 the hedge is issued. Original and hedge are in flight, nothing is free. -/
theorem issued : HdHist (BErr := String) id (cfg true) true 2 svc ⟨⟨0, [], []⟩, [(s0 false 1, s0 false 0)], [((0, (20 : Nat)), some out)], [], [], 3⟩ :=
  (called true 1).step (.poll (S := svc) (l := []) (r := []) (f := ((0, (20 : Nat)), some wait)) (f' := ((0, (20 : Nat)), some out)) (p := .pending) (sem' := ⟨0, [], []⟩) (w := 7) (w' := 7) rfl rfl)

example : HdStack.inFlight (Req := Nat) (S := svc) ⟨⟨0, [], []⟩, [(s0 false 1, s0 false 0)], [((0, (20 : Nat)), some out)], [], [], 3⟩ = 2 := rfl

/-- Limit 1: the hedge waits for a permit, and the response comes all the same. -/
example : ∃ f1 f2 : HLFut Nat svc, ∃ q, ((HedgeLim (id : String → String) (cfg true) true svc).poll ((0, (20 : Nat)), some wait)).run (⟨0, [], []⟩, 7) = .ok (.pending, f1) (⟨0, [2], []⟩, 7) ∧
    ((HedgeLim (id : String → String) (cfg true) true svc).poll f1).run (⟨0, [2], []⟩, 20) = .ok (.ready (.ok q), f2) (⟨0, [2], []⟩, 20) ∧ q = 20 := ⟨_, _, _, rfl, rfl, rfl⟩

/-- Limit 2, the policy rejects the hedge: one request is in flight, and yet nothing is free. -/
theorem rejected : HdHist (BErr := String) id (cfg false) true 2 svc ⟨⟨0, [], []⟩, [(s0 false 1, s0 false 0)], [((0, (20 : Nat)), some rej)], [], [], 3⟩ :=
  (called false 1).step (.poll (S := svc) (l := []) (r := []) (f := ((0, (20 : Nat)), some wait)) (f' := ((0, (20 : Nat)), some rej)) (p := .pending) (sem' := ⟨0, [], []⟩) (w := 7) (w' := 7) rfl rfl)

example : (s0 true 2).permit = true := (C76_rejected_keeps_permit rejected (List.mem_singleton.2 rfl)).1
example : HdStack.inFlight (Req := Nat) (S := svc) ⟨⟨0, [], []⟩, [(s0 false 1, s0 false 0)], [((0, (20 : Nat)), some rej)], [], [], 3⟩ = 1 := rfl

/-- and so the next request has to wait for the first, although the limit is 2 and one is in flight -/
theorem C76_rejected_blocks : ((HedgeLim (id : String → String) (cfg false) true svc).pollReady (s0 false 1, s0 false 0)).run (⟨0, [], []⟩, 7) = .ok (.pending, (s0 false 1, s0 false 0)) (⟨0, [1], []⟩, 7) := rfl

/-- dropped in the middle, everything comes back -/
example : ∃ x : HdStack (Req := Nat) svc, HdHist (BErr := String) id (cfg false) true 2 svc x ∧ x.sem = Sem.new 2 := by
  have h1 := rejected.step (.drop_future (l := []) (r := []) rfl)
  have h2 := h1.step (.drop_hedge (l := []) (r := []) rfl)
  exact ⟨_, h2, C76_returned h2 rfl rfl rfl rfl⟩

end Demo76
end Tower
