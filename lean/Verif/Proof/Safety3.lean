import Verif.Proof.Safety2
import Verif.Proof.Balance2
import Verif.Model.Load

/-! # The contract of the balancer, the load wrappers and the remaining adapters -/

namespace Tower
set_option linter.unusedSectionVars false
open Act
variable {W Req Res Err K DErr BErr : Type} [DecidableEq K]

theorem Act.wp_of_wpx {α : Type} {pan : String → Prop} {spn : Prop} {x : Act W α} {Q : α → W → Prop} {w : W} (h : wpx pan spn x Q w) (hp : ∀ m, ¬ pan m) : wp x Q w := by
  unfold wpx at h; unfold wp
  cases hx : x.run w with
  | ok a w' => rw [hx] at h; exact h
  | panic m => rw [hx] at h; exact hp m h
  | spin => trivial

theorem Act.wp_run {α : Type} {x : Act W α} {Q : α → W → Prop} {w w' : W} {a : α} (h : wp x Q w) (hx : x.run w = .ok a w') : Q a w' := by
  unfold wp at h; rw [hx] at h; exact h

theorem Act.wp_not_panic {α : Type} {x : Act W α} {Q : α → W → Prop} {w : W} {m : String} (h : wp x Q w) (hx : x.run w = .panic m) : False := by
  unfold wp at h; rw [hx] at h; exact h

/-- what readiness and waiting mean in an invariant is kept by `poll_ready` -/
theorem SafeInv.closed {cfg : Cfg} {good : Res → Prop} {S : Service W Req Res Err} (I : SafeInv cfg good S) : PollClosed S (fun s => I.H s .idle) (fun s => I.H s .ready) where
  pp h hr := (Act.wp_run (I.ready_ok _ _ _ h (by simp)) hr).1
  pr h hr := by have := Act.wp_run (I.ready_ok _ _ _ h (by simp)) hr; exact this
  rp h hr := (Act.wp_run (I.ready_ok _ _ _ h (by simp)) hr).1
  rr h hr := by have := Act.wp_run (I.ready_ok _ _ _ h (by simp)) hr; exact this

/-- A discovery that does its part: in all the states it can be in (`J`), polling it does not panic and it inserts services that keep the contract. -/
structure DiscGood (cfg : Cfg) (good : Res → Prop) (B : BalCfg W Req Res Err K DErr BErr) (J : B.D.δ → Prop) : Prop where
  keeps : ∀ d w p d' w', J d → (B.D.poll d).run w = .ok (p, d') w' → (∀ e, p ≠ .ready (some (.error e))) → J d'
  calm : ∀ d w m, J d → (B.D.poll d).run w ≠ .panic m
  inserts : ∀ d w k s d' w', J d → (B.D.poll d).run w = .ok (.ready (some (.ok (.insert k s))), d') w' → SafeG cfg good B.S s

theorem SafeG.canonical {cfg : Cfg} {good : Res → Prop} {S : Service W Req Res Err} {s : S.σ} (h : SafeG cfg good S s) : (SafeInv.canonical cfg good S).H s .idle :=
  ⟨⟨[(s, .idle)], []⟩, 0, rfl, h⟩

theorem Balance.safe {c st : Bool} {good : Res → Prop} {B : BalCfg W Req Res Err K DErr BErr} (fuel : Nat) {J : B.D.δ → Prop} (hD : DiscGood ⟨c, st⟩ good B J)
    (hL : ∀ s w m, (B.L.load s).run w ≠ .panic m) {d : B.D.δ} (hd : J d) (r : B.G.ρ) : SafeG ⟨false, false⟩ good (balance B fuel) (Balance.fromRng B d r) := by
  let I := SafeInv.canonical ⟨c, st⟩ good B.S
  have hcl := I.closed
  exact SafeInv.safe (cfg := ⟨false, false⟩) (S := balance B fuel)
    { H := fun b m => b.svcs.Inv ∧ J b.disc ∧ b.svcs.view.All (fun s => I.H s .idle) (fun s => I.H s .ready) ∧ (m = .ready → Balance.InRange b)
      F := MapF I.F
      ready_ok := by
        rintro b m w ⟨h1, h2, h3, _⟩ hm
        show wp (b.pollReady fuel) _ w
        unfold Balance.pollReady
        rw [wp_bind]
        refine wp_mono (Act.wp_of_wpx (Balance.update_wpxG (J := J) hD.keeps fuel b w h2) ?_) ?_
        · rintro m ⟨d, w, hj, hp⟩; exact hD.calm _ _ _ hj hp
        · rintro ⟨r, b1⟩ w1 ⟨⟨chs, hu, hch⟩, hj⟩
          rcases r with e | ⟨⟩
          · trivial
          · have hu : Balance.UpdPost b w (.ok ()) b1 w1 chs := hu
            have hrun : CRun B.V B.S b.svcs b1.svcs := by rw [hu.svcs]; exact Balance.foldl_crun chs _
            have hinv := CReach.inv h1 hrun
            have hall : b1.svcs.view.All (fun s => I.H s .idle) (fun s => I.H s .ready) := by
              rw [hu.svcs]
              refine View.All.foldl chs h1 ?_ h3
              intro k s hk
              obtain ⟨d, w0, d1, w2, hjd, hr⟩ := hch _ hk
              exact (hD.inserts _ _ _ _ _ _ hjd hr).canonical
            refine wp_mono (Act.wp_of_wpx (Balance.rest_wpxG hcl b1 w1 hinv hall) ?_) ?_
            · rintro m (⟨s, w, hs, hp⟩ | ⟨s, w, _, hp⟩)
              · rcases hs with hs | hs
                · exact Act.wp_not_panic (I.ready_ok _ _ _ hs (by simp)) hp
                · exact Act.wp_not_panic (I.ready_ok _ _ _ hs (by simp)) hp
              · exact hL _ _ _ hp
            · rintro ⟨p, b2⟩ w2 hp
              have hp : Balance.RestPost b1 w1 p b2 w2 := hp
              have hk := hp.keep hcl hall
              have hj' : J b2.disc := by rw [hp.disc]; exact hj rfl
              rcases p with _ | (e | ⟨⟩)
              · exact ⟨⟨hp.inv, hj', hk, by simp⟩, by simp⟩
              · trivial
              · refine ⟨hp.inv, hj', hk, fun _ => ?_⟩
                obtain ⟨i, k, s, q, s0, w0, a1, a2, _⟩ := (hp.ready rfl).1
                exact ⟨i, a1, (List.getElem?_eq_some_iff.1 a2).1⟩
      call_ok := by
        rintro b r w ⟨h1, h2, h3, h4⟩
        obtain ⟨i, hi, hlt⟩ := h4 rfl
        show wp (b.call r >>= _) _ w
        unfold Balance.call
        simp only [hi]
        have he : b.svcs.ready[i]? = some (b.svcs.ready[i].1, b.svcs.ready[i].2.1, b.svcs.ready[i].2.2) := List.getElem?_eq_getElem hlt
        obtain ⟨q1, q2, q3⟩ := Cache.callReadyIndex_spec h1 he r w
        have hg := I.call_ok _ r w (h3.2 _ _ _ (h1.get_ready he))
        rw [wp_bind, wp_bind]
        unfold wp
        unfold wp at hg
        cases hp : (B.S.call b.svcs.ready[i].2.1 r).run w with
        | panic m => rw [hp] at hg; exact hg.elim
        | spin => rw [q2 hp]; trivial
        | ok x w' =>
          rw [hp] at hg
          obtain ⟨f, s'⟩ := x
          obtain ⟨c', a1, a2, a3, _⟩ := q3 f s' w' hp
          rw [a1]
          refine ⟨⟨f, rfl, hg.1⟩, a2, h2, ?_, by simp⟩
          rw [a3]; exact h3.demote hg.2
      poll_ok := by
        intro f w hf
        refine mapFut_post hf I.poll_ok ?_
        intro res w' h
        cases res with
        | error e => intro r hr; cases hr
        | ok r => intro r' hr'; cases hr'; exact h r rfl
      clone_ok := by intro h; cases h }
    ⟨Cache.inv_empty, hd, ⟨fun k t s hx => (by cases hx), fun k t s hx => (by cases hx)⟩, by simp⟩

/-! ## Wrappers that forward -/

theorem Constant.safe {cfg : Cfg} {good : Res → Prop} {S : Service W Req Res Err} {s : S.σ} {M : Type} (m : M) (h : SafeG cfg good S s) : SafeG cfg good (Constant M S) (s, m) := by
  obtain ⟨I, hI⟩ := h.inv
  exact SafeInv.safe (S := Constant M S)
    { H := fun s m => I.H s.1 m
      F := I.F
      ready_ok := by
        rintro ⟨s, m'⟩ m w hs hm
        show wp (S.pollReady s >>= fun x => pure (x.1, (x.2, m'))) _ w
        rw [wp_bind]
        refine wp_mono (I.ready_ok s m w hs hm) ?_
        rintro ⟨p, s'⟩ w' h
        exact h.imp id id id
      call_ok := by
        rintro ⟨s, m'⟩ r w hs
        show wp (S.call s r >>= fun x => pure (x.1, (x.2, m'))) _ w
        rw [wp_bind]
        exact wp_mono (I.call_ok s r w hs) (fun x w' h => h)
      poll_ok := I.poll_ok
      clone_ok := by rintro hc ⟨s, m'⟩ m hm hs; exact I.clone_ok hc s m hm hs }
    hI

theorem IntoService.safe {cfg : Cfg} {good : Res → Prop} {S : Service W Req Res Err} {s : S.σ} (h : SafeG cfg good S s) : SafeG cfg good (IntoService S) s := by
  obtain ⟨I, hI⟩ := h.inv
  exact SafeInv.safe (S := IntoService S) { H := I.H, F := I.F, ready_ok := I.ready_ok, call_ok := I.call_ok, poll_ok := I.poll_ok, clone_ok := I.clone_ok } hI

theorem Shared.safe {cfg : Cfg} {V Tgt E : Type} {good : V → Prop} {cloneV : V → V} (hcl : ∀ v, good v → good (cloneV v)) {v : V} (hv : good v) :
    SafeG cfg good (Shared (W := W) (Tgt := Tgt) V cloneV E) v :=
  SafeInv.safe (S := Shared (W := W) (Tgt := Tgt) V cloneV E)
    { H := fun v _ => good v
      F := fun x => ∃ v, x = some v ∧ good v
      ready_ok := fun s m w hs hm => hs
      call_ok := fun s r w hs => ⟨⟨_, rfl, hcl s hs⟩, hs⟩
      poll_ok := by rintro _ w ⟨v, rfl, hv⟩; exact hv
      clone_ok := fun _ s m _ hs => hcl s hs } hv

/-- The maker of balancers: what it makes satisfies any `good'` that a balancer made from a good discovery has. -/
theorem makeBalance.safe {cfg : Cfg} {Tgt MErr : Type} {B : BalCfg W Req Res Err K DErr BErr} (seed : Act W B.G.ρ) (hs : ∀ w m, seed.run w ≠ .panic m)
    {M : Service W Tgt B.D.δ MErr} {good : B.D.δ → Prop} {good' : Balance B → Prop} (hg : ∀ d r, good d → good' (Balance.fromRng B d r)) {s : M.σ} (h : SafeG cfg good M s) :
    SafeG cfg good' (makeBalance B seed M) s := by
  obtain ⟨I, hI⟩ := h.inv
  exact SafeInv.safe (S := makeBalance B seed M)
    { H := I.H, F := I.F, ready_ok := I.ready_ok, call_ok := I.call_ok
      poll_ok := by
        intro f w hf
        show wp (M.poll f >>= _) _ w
        rw [wp_bind]
        refine wp_mono (I.poll_ok f w hf) ?_
        rintro ⟨p, f'⟩ w' h
        rcases p with _ | (e | d)
        · exact h
        · trivial
        · simp only []
          rw [wp_bind]
          unfold wp
          cases hx : seed.run w' with
          | ok r w2 => exact hg d r h
          | panic m => exact hs _ _ hx
          | spin => trivial
      clone_ok := I.clone_ok } hI

theorem Act.wp_snd {A α : Type} {x : Act W α} {Q : α → A × W → Prop} {w : A × W} (h : wp x (fun a w' => Q a (w.1, w')) w.2) : wp (x.snd : Act (A × W) α) Q w := by
  unfold wp at *
  simp only [Act.snd]
  cases hx : x.run w.2 <;> rw [hx] at h <;> exact h

theorem Act.wp_fst {A α : Type} {x : Act A α} {Q : α → A × W → Prop} {w : A × W} (h : wp x (fun a r => Q a (r, w.2)) w.1) : wp (x.fst : Act (A × W) α) Q w := by
  unfold wp at *
  simp only [Act.fst]
  cases hx : x.run w.1 <;> rw [hx] at h <;> exact h

/-- A service wrapped to count its requests, with any way of counting that does not panic (`PendingRequests`). -/
theorem tracked.safe {cfg : Cfg} {Res' : Type} {T : Tracker} {good : Res → Prop} {good' : Res' × Option T.H → Prop} (hh : ∀ r m, T.handle.run r ≠ .panic m) (hd : ∀ h r m, (T.dropH h).run r ≠ .panic m)
    (C : Completion Res Res') (hg : ∀ v h, good v → good' (C.out v, h)) {S : Service W Req Res Err} {s : S.σ} (h : SafeG cfg good S s) : SafeG cfg good' (tracked T C S) s := by
  obtain ⟨I, hI⟩ := h.inv
  exact SafeInv.safe (S := tracked T C S)
    { H := I.H
      F := fun x => I.F x.1 ∧ x.2 ≠ none
      ready_ok := fun s m w hs hm => Act.wp_snd (I.ready_ok s m w.2 hs hm)
      call_ok := by
        intro s q w hs
        show wp (T.handle.fst >>= fun h => (S.call s q).snd >>= fun x => pure ((x.1, some h), x.2)) _ w
        rw [wp_bind]
        apply Act.wp_fst
        unfold wp
        cases hx : T.handle.run w.1 with
        | panic m => exact hh _ _ hx
        | spin => trivial
        | ok a r =>
          show wp ((S.call s q).snd >>= fun x => pure ((x.1, some a), x.2)) _ (r, w.2)
          rw [wp_bind]
          apply Act.wp_snd
          exact wp_mono (I.call_ok s q w.2 hs) (fun x w' h => ⟨⟨h.1, by simp⟩, h.2⟩)
      poll_ok := by
        rintro ⟨f, o⟩ w ⟨hf, ho⟩
        cases o with
        | none => exact absurd rfl ho
        | some a =>
          show wp ((S.poll f).snd >>= _) _ w
          rw [wp_bind]
          apply Act.wp_snd
          refine wp_mono (I.poll_ok f w.2 hf) ?_
          rintro ⟨p, f'⟩ w' h
          rcases p with _ | (e | v)
          · exact ⟨h, by simp⟩
          · trivial
          · simp only []
            rw [wp_bind]
            apply Act.wp_fst
            unfold Completion.track
            split
            · exact hg _ _ h
            · rw [wp_bind]
              unfold wp
              cases hx : (T.dropH a).run w.1 with
              | ok u r => exact hg _ _ h
              | panic m => exact hd _ _ _ hx
              | spin => trivial
      clone_ok := I.clone_ok } hI

end Tower
