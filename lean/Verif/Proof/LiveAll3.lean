import Verif.Proof.LiveAll2

/-! # Coming to an end: `call_all` -/

set_option linter.unusedSimpArgs false

namespace Tower
open Act
variable {W Req Res Err : Type} {F : Fairness W} {V : Sched W} {S : Service W Req Res Err} {R : ReqStream W Req} {D : DriveQ W S.φ (Except Err Res)}

/-- A `CallAll` of rank `m` whose next poll goes round the loop at most `u` times. Of a request that is still in the stream, at hand, with the service, or answered out of turn the rank is 4, 3, 2, 1. -/
structure CAt (Q : QEnds F V S.poll D) (s₀ : S.σ) (r₀ : R.τ) (N : Nat) (c : CallAll S R D) (m u : Nat) : Prop where
  svc : c.eof = false → ∃ b s, c.service = some s ∧ Reach S s₀ b s
  rank : ∃ mq, Q.At c.queue mq ∧ (c.eof = true → m = mq ∧ u = 1) ∧
    (c.eof = false → ∃ k, R.After r₀ k c.stream ∧ m = mq + 4 * (N - k) + 3 * c.curr.toList.length + 1 ∧ u = N - k + c.curr.toList.length + 2)

/-- what a poll that changes nothing waited for -/
inductive CACalm (Q : QEnds F V S.poll D) (c c' : CallAll S R D) (w : W) : Prop
  | svc (q : Req) (s s' : S.σ) (v v' : W) : c.eof = false → c'.eof = false → c.curr = some q → c'.curr = some q → c.service = some s → c'.service = some s' → ByTask S R V w v →
      (S.pollReady s).run v = .ok (.pending, s') v' → CACalm Q c c' w
  | stream (v v' : W) : c.eof = false → c'.eof = false → c.curr = none → c'.curr = none → ByTask S R V w v → (R.poll c.stream).run v = .ok (.pending, c'.stream) v' → CACalm Q c c' w
  | front (f : Q.ψ) (t : List Q.ψ) (f' : Q.ψ) (t' : List Q.ψ) (L : List W) : c.eof = true → c'.eof = true → Q.pieces c.queue = f :: t → Q.pieces c'.queue = f' :: t' → t'.length = t.length → Finishes F Q.ppoll f →
      Pends Q.ppoll f L f' → (∀ v ∈ L, ByTask S R V w v) → (L ≠ [] ↔ 0 ∈ (V.order (Q.pieces c.queue).length w).1) → CACalm Q c c' w

/-- what a poll does -/
def CAOut (Q : QEnds F V S.poll D) (s₀ : S.σ) (r₀ : R.τ) (N : Nat) (c : CallAll S R D) (m : Nat) (w : W) (r : Poll (Option (Except Err Res)) × CallAll S R D) : Prop :=
  r.1 = .ready none ∨ ∃ m' u', CAt Q s₀ r₀ N r.2 m' u' ∧ (m' < m ∨ m' = m ∧ r.1 = .pending ∧ CACalm Q c r.2 w)

section
variable {Q : QEnds F V S.poll D} {s₀ : S.σ} {r₀ : R.τ} {N : Nat}

theorem CAOut.later {c c1 : CallAll S R D} {m m1 : Nat} {w w1 : W} {r} (h : CAOut Q s₀ r₀ N c m w r) (hm : m < m1) : CAOut Q s₀ r₀ N c1 m1 w1 r := by
  rcases h with h | ⟨m', u', h1, h2 | h2⟩
  · exact .inl h
  · exact .inr ⟨m', u', h1, .inl (by omega)⟩
  · exact .inr ⟨m', u', h1, .inl (by omega)⟩

/-- the next round, of which only the rank matters -/
def Again (Q : QEnds F V S.poll D) (s₀ : S.σ) (r₀ : R.τ) (N n : Nat) (again : CallAll S R D → Act W (Poll (Option (Except Err Res)) × CallAll S R D)) : Prop :=
  ∀ c m u w, CAt Q s₀ r₀ N c m u → u ≤ n → calm (again c) (fun r _ => CAOut Q s₀ r₀ N c m w r) w

theorem issue_out (hS : NeverHangs F S s₀) {n : Nat} {again : CallAll S R D → Act W (Poll (Option (Except Err Res)) × CallAll S R D)} (ha : Again Q s₀ r₀ N n again)
    {c0 c : CallAll S R D} {q : Req} {m0 m u : Nat} {w0 w : W} (h : CAt Q s₀ r₀ N c m u) (he : c.eof = false) (hc : c.curr = some q) (hu : u ≤ n + 1) (hm : m ≤ m0) (hw : ByTask S R V w0 w)
    (h0 : m = m0 → c0.eof = false ∧ c0.curr = some q ∧ c0.service = c.service) :
    calm (CallAll.issue again c) (fun r _ => CAOut Q s₀ r₀ N c0 m0 w0 r) w := by
  obtain ⟨h1, mq, hq, _, h2⟩ := h
  obtain ⟨b, s, hs, hr⟩ := h1 he
  obtain ⟨k, h3, h4, h5⟩ := h2 he
  rw [hc] at h4 h5
  simp only [Option.toList_some, List.length_singleton] at h4 h5
  have hL := hS.live
  unfold CallAll.issue
  rw [hs]
  dsimp only
  refine calm_bind ((hS.ready b s hr).spin w) fun r w' hrun => ?_
  have hp := wpx_ok (hL.pollReady hr w) hrun
  obtain ⟨p, s'⟩ := r
  dsimp only at hp
  cases p with
  | pending =>
    refine .inr ⟨m, u, ⟨fun _ => ⟨false, s', rfl, hp.2 rfl⟩, mq, hq, fun h => (by rw [show c.eof = true from h] at he; cases he), fun _ => ⟨k, h3, by rw [hc]; exact h4, by rw [hc]; exact h5⟩⟩, ?_⟩
    rcases Nat.lt_or_eq_of_le hm with hm | rfl
    · exact .inl hm
    · obtain ⟨h6, h7, h8⟩ := h0 rfl
      exact .inr ⟨rfl, rfl, .svc q s s' w w' h6 he h7 hc (h8.trans hs) rfl hw hrun⟩
  | ready e =>
    cases e with
    | error e =>
      exact .inr ⟨mq, 1, ⟨fun h => (by cases h), mq, hq, fun _ => ⟨rfl, rfl⟩, fun h => (by cases h)⟩, .inl (by omega)⟩
    | ok u0 =>
      have hr' := hp.1 rfl
      simp only [hc]
      refine calm_bind (hS.call s' q w' hr') fun x w'' hx => ?_
      obtain ⟨f, s''⟩ := x
      have hx' := wpx_ok (hL.call s' q w' hr') hx
      refine wpx_mono (ha _ (mq + 2 + 4 * (N - k) + 1) (N - k + 2) w'' ⟨fun _ => ⟨false, s'', rfl, hx'.2⟩, mq + 2, Q.push _ _ _ hq hx'.1, fun h => (by rw [show c.eof = true from h] at he; cases he), fun _ => ⟨k, h3, by simp, by simp⟩⟩ (by omega))
        fun r _ h => h.later (by omega)

theorem fetch_out (hS : NeverHangs F S s₀) (hR : R.Finite F r₀ N) {n : Nat} {again : CallAll S R D → Act W (Poll (Option (Except Err Res)) × CallAll S R D)} (ha : Again Q s₀ r₀ N n again)
    {c0 c : CallAll S R D} {m0 m u : Nat} {w0 w : W} (h : CAt Q s₀ r₀ N c m u) (hu : u ≤ n + 1) (hm : m ≤ m0) (hw : ByTask S R V w0 w)
    (h0 : m = m0 → c0.eof = c.eof ∧ c0.curr = c.curr ∧ c0.service = c.service ∧ c0.stream = c.stream)
    (h1 : m = m0 → c.eof = true → D.isEmpty c.queue = false → CACalm Q c0 c w0) :
    calm (CallAll.fetch again c) (fun r _ => CAOut Q s₀ r₀ N c0 m0 w0 r) w := by
  unfold CallAll.fetch
  split
  · next he =>
    split
    · exact .inl rfl
    · next hq =>
      refine .inr ⟨m, u, h, ?_⟩
      rcases Nat.lt_or_eq_of_le hm with hm | rfl
      · exact .inl hm
      · exact .inr ⟨rfl, rfl, h1 rfl he (by simpa using hq)⟩
  · next he =>
    have he : c.eof = false := by simpa using he
    split
    · next q hc => exact issue_out hS ha h he hc hu hm hw fun h2 => by obtain ⟨h3, h4, h5, _⟩ := h0 h2; exact ⟨h3.trans he, h4.trans hc, h5⟩
    · next hc =>
      obtain ⟨h2, mq, hq, _, h4⟩ := h
      obtain ⟨k, h5, h6, h7⟩ := h4 he
      rw [hc] at h6 h7
      simp only [Option.toList_none, List.length_nil] at h6 h7
      have hk := hR.atMost k _ h5
      refine calm_bind ((hR.next k _ h5).spin w) fun r w' hrun => ?_
      obtain ⟨p, r'⟩ := r
      cases p with
      | pending =>
        refine .inr ⟨m, u, ⟨h2, mq, hq, fun h => (by rw [show c.eof = true from h] at he; cases he), fun _ => ⟨k, .pending h5 hrun, by rw [hc]; exact h6, by rw [hc]; exact h7⟩⟩, ?_⟩
        rcases Nat.lt_or_eq_of_le hm with hm | rfl
        · exact .inl hm
        · obtain ⟨h8, h9, _, h10⟩ := h0 rfl
          exact .inr ⟨rfl, rfl, .stream w w' (h8.trans he) he (h9.trans hc) hc hw (by rw [h10]; exact hrun)⟩
      | ready o =>
        cases o with
        | none =>
          refine wpx_mono (ha _ mq 1 w' ⟨fun h => (by cases h), mq, hq, fun _ => ⟨rfl, rfl⟩, fun h => (by cases h)⟩ (by omega)) fun r _ h => h.later (by omega)
        | some q =>
          have h8 : R.After r₀ (k + 1) r' := .item h5 hrun
          have hk' := hR.atMost _ _ h8
          refine issue_out hS ha (c := { c with stream := r', curr := some q }) (q := q) (m := mq + 4 * (N - (k + 1)) + 3 + 1) (u := N - (k + 1) + 1 + 2)
            ⟨h2, mq, hq, fun h => (by rw [show c.eof = true from h] at he; cases he), fun _ => ⟨k + 1, h8, rfl, rfl⟩⟩ he rfl (by omega) (by omega) (.stream hw hrun) fun h9 => ?_
          exact absurd h9 (by omega)

theorem pollNext_out (hS : NeverHangs F S s₀) (hR : R.Finite F r₀ N) : ∀ n, Again Q s₀ r₀ N n (CallAll.pollNext n) := by
  intro n
  induction n with
  | zero =>
    intro c m u w h hu
    obtain ⟨_, mq, _, h1, h2⟩ := h
    cases he : c.eof with
    | true => have := (h1 he).2; omega
    | false => obtain ⟨k, _, _, h3⟩ := h2 he; omega
  | succ n ih =>
    intro c m u w h hu
    obtain ⟨h1, mq, hq, h2, h3⟩ := h
    have hD := Q.next c.queue mq (ByTask S R V w) w hq (fun l v hv => .order hv) (fun f v r v' hv hr => .poll hv hr) .refl
    rw [CallAll.pollNext]
    refine calm_bind hD.spin fun r w' hrun => ?_
    obtain ⟨hw', hout⟩ := wpx_ok hD hrun
    -- the state with a queue of another rank
    have hst : ∀ q' mq', Q.At q' mq' → mq' ≤ mq → ∃ m' u', CAt Q s₀ r₀ N { c with queue := q' } m' u' ∧ m' + mq = m + mq' ∧ u' = u := by
      intro q' mq' hq' hle
      rcases Bool.eq_false_or_eq_true c.eof with he | he
      · obtain ⟨h4, h5⟩ := h2 he
        exact ⟨mq', 1, ⟨fun h => h1 h, mq', hq', fun _ => ⟨rfl, rfl⟩, fun h => (by rw [show c.eof = false from h] at he; cases he)⟩, by omega, by omega⟩
      · obtain ⟨k, h4, h5, h6⟩ := h3 he
        exact ⟨mq' + 4 * (N - k) + 3 * c.curr.toList.length + 1, u, ⟨fun h => h1 h, mq', hq', fun h => (by rw [show c.eof = true from h] at he; cases he), fun _ => ⟨k, h4, rfl, h6⟩⟩, by omega, rfl⟩
    cases hout with
    | none q' h4 h5 h6 =>
      obtain ⟨m', u', hc, hm, rfl⟩ := hst q' 0 h4 (by omega)
      refine fetch_out hS hR ih hc hu (by omega) hw' (fun _ => ⟨rfl, rfl, rfl, rfl⟩) fun _ _ h7 => ?_
      rw [show D.isEmpty q' = false from h7] at h6; cases h6
    | item v q' m' h4 h5 =>
      obtain ⟨m1, u', hc, hm, rfl⟩ := hst q' m' h4 (by omega)
      cases v with
      | error e => exact .inr ⟨m1, u', hc, .inl (by omega)⟩
      | ok v => exact .inr ⟨m1, u', hc, .inl (by omega)⟩
    | moved q' m' h4 h5 =>
      obtain ⟨m1, u', hc, hm, rfl⟩ := hst q' m' h4 (by omega)
      exact fetch_out hS hR ih hc hu (by omega) hw' (fun h => absurd h (by omega)) (fun h => absurd h (by omega))
    | same q' f t f' t' L h4 h5 h6 h7 h8 h9 h10 h11 =>
      obtain ⟨m1, u', hc, hm, rfl⟩ := hst q' mq h4 (Nat.le_refl _)
      exact fetch_out hS hR ih hc hu (by omega) hw' (fun _ => ⟨rfl, rfl, rfl, rfl⟩) fun _ he _ => .front f t f' t' L he he h5 h6 h7 h8 h9 h10 h11

/-- a sequence of polls that change nothing: what was waited for would not finish -/
theorem calm_ends (hS : NeverHangs F S s₀) (hR : R.Finite F r₀ N) (hF : F.Undisturbed (ByTask S R V)) (hV : V.Wakes F (ByTask S R V)) {ws : Nat → W} (hws : F.fair ws) {m : Nat} {cs : Nat → CallAll S R D}
    (hc : ∀ n, ∃ u, CAt Q s₀ r₀ N (cs n) m u) (h : ∀ n, CACalm Q (cs n) (cs (n + 1)) (ws n)) : False := by
  have heof : ∀ n, (cs n).eof = (cs 0).eof := by
    intro n
    induction n with
    | zero => rfl
    | succ n ih =>
      rw [← ih]
      cases h n with
      | svc _ _ _ _ _ h1 h2 => exact h2.trans h1.symm
      | stream _ _ h1 h2 => exact h2.trans h1.symm
      | front _ _ _ _ _ h1 h2 => exact h2.trans h1.symm
  have hcurr : (cs 0).eof = false → ∀ n, (cs n).curr = (cs 0).curr := by
    intro he n
    induction n with
    | zero => rfl
    | succ n ih =>
      rw [← ih]
      cases h n with
      | svc _ _ _ _ _ _ _ h1 h2 => exact h2.trans h1.symm
      | stream _ _ _ _ h1 h2 => exact h2.trans h1.symm
      | front _ _ _ _ _ h1 => rw [heof n, he] at h1; cases h1
  cases he : (cs 0).eof with
  | false =>
    have hall : ∀ n, (cs n).eof = false := fun n => (heof n).trans he
    cases hq : (cs 0).curr with
    | some q =>
      have hq' : ∀ n, (cs n).curr = some q := fun n => (hcurr he n).trans hq
      have hs : ∀ n, ∃ s s' v v', (cs n).service = some s ∧ (cs (n + 1)).service = some s' ∧ ByTask S R V (ws n) v ∧ (S.pollReady s).run v = .ok (.pending, s') v' := by
        intro n
        cases h n with
        | svc q s s' v v' h1 h2 h3 h4 h5 h6 h7 h8 => exact ⟨s, s', v, v', h5, h6, h7, h8⟩
        | stream _ _ _ _ h3 => rw [hq' n] at h3; cases h3
        | front _ _ _ _ _ h1 => rw [hall n] at h1; cases h1
      choose f f' v v' h1 h2 h3 h4 using hs
      have hf : ∀ n, f' n = f (n + 1) := fun n => Option.some.inj ((h2 n).symm.trans (h1 (n + 1)))
      obtain ⟨g, vs, hg, hg1, hg2, hg3⟩ := track f (fun n => [v n]) (fun n => .cons (h4 n) (by rw [hf n]; exact .nil _)) fun n => ⟨n, Nat.le_refl n, by simp⟩
      refine hg3 ?_
      obtain ⟨u, hu⟩ := hc 0
      obtain ⟨b, s, hs, hr⟩ := hu.svc he
      have : s = f 0 := Option.some.inj (hs.symm.trans (h1 0))
      subst this
      exact hS.ready b _ hr vs (hF ws vs g hws hg (fun n => (hg1 n).2 (by simp)) fun k => by rw [List.mem_singleton.1 (hg2 k)]; exact h3 _)
    | none =>
      have hq' : ∀ n, (cs n).curr = none := fun n => (hcurr he n).trans hq
      have hs : ∀ n, ∃ v v', ByTask S R V (ws n) v ∧ (R.poll (cs n).stream).run v = .ok (.pending, (cs (n + 1)).stream) v' := by
        intro n
        cases h n with
        | svc q s s' v v' h1 h2 h3 => rw [hq' n] at h3; cases h3
        | stream v v' _ _ _ _ h5 h6 => exact ⟨v, v', h5, h6⟩
        | front _ _ _ _ _ h1 => rw [hall n] at h1; cases h1
      choose v v' h1 h2 using hs
      obtain ⟨g, vs, hg, hg1, hg2, hg3⟩ := track (fun n => (cs n).stream) (fun n => [v n]) (fun n => .cons (h2 n) (.nil _)) fun n => ⟨n, Nat.le_refl n, by simp⟩
      refine hg3 ?_
      obtain ⟨u, _, _, _, _, h5⟩ := hc 0
      obtain ⟨k, h6, _⟩ := h5 he
      exact hR.next k _ h6 vs (hF ws vs g hws hg (fun n => (hg1 n).2 (by simp)) fun k => by rw [List.mem_singleton.1 (hg2 k)]; exact h1 _)
  | true =>
    have hall : ∀ n, (cs n).eof = true := fun n => (heof n).trans he
    have hs : ∀ n, ∃ f t f' t' L, Q.pieces (cs n).queue = f :: t ∧ Q.pieces (cs (n + 1)).queue = f' :: t' ∧ t'.length = t.length ∧ Finishes F Q.ppoll f ∧ Pends Q.ppoll f L f' ∧
        (∀ v ∈ L, ByTask S R V (ws n) v) ∧ (L ≠ [] ↔ 0 ∈ (V.order (Q.pieces (cs n).queue).length (ws n)).1) := by
      intro n
      cases h n with
      | svc q s s' v v' h1 => rw [hall n] at h1; cases h1
      | stream v v' h1 => rw [hall n] at h1; cases h1
      | front f t f' t' L _ _ h3 h4 h5 h6 h7 h8 h9 => exact ⟨f, t, f', t', L, h3, h4, h5, h6, h7, h8, h9⟩
    choose f t f' t' L h1 h2 h3 h4 h5 h6 h7 using hs
    have hf : ∀ n, f' n = f (n + 1) := fun n => (List.cons.inj ((h2 n).symm.trans (h1 (n + 1)))).1
    have hlen : ∀ n, (Q.pieces (cs n).queue).length = (t 0).length + 1 := by
      intro n
      induction n with
      | zero => rw [h1]; rfl
      | succ n ih => rw [h2, List.length_cons, h3]; rw [h1] at ih; exact ih
    obtain ⟨hw1, hw2⟩ := hV ws ((t 0).length + 1) hws (Nat.succ_pos _)
    simp only [hlen] at h7
    obtain ⟨g, vs, hg, hg1, hg2, hg3⟩ := track f L (fun n => by rw [← hf n]; exact h5 n) fun n => by
      obtain ⟨k, hk, hk'⟩ := hw1 n
      exact ⟨k, hk, (h7 k).2 hk'⟩
    exact hg3 (h4 0 vs (hw2 vs g hg (fun n => (hg1 n).trans (h7 n)) fun k => h6 _ _ (hg2 k)))

/-- **The core.** -/
theorem callAll_drains (Q : QEnds F V S.poll D) (hS : NeverHangs F S s₀) (hR : R.Finite F r₀ N) (hF : F.Undisturbed (ByTask S R V)) (hV : V.Wakes F (ByTask S R V)) {fuel : Nat} (hfuel : N + 3 ≤ fuel) :
    ∀ (m : Nat) (c : CallAll S R D) (u : Nat) (ws : Nat → W), CAt Q s₀ r₀ N c m u → F.fair ws → Drains (CallAll.pollNext fuel) c ws := by
  intro m
  induction m using Nat.strongRecOn with
  | ind m ih =>
    intro c u ws hc hws
    by_contra hno
    have hshift : ∀ n, F.fair (fun j => ws (n + j)) := by
      intro n
      induction n with
      | zero => simpa using hws
      | succ n ih => exact (by funext j; rw [show n + 1 + j = n + (j + 1) by omega] : (fun j => ws (n + 1 + j)) = fun j => ws (n + (j + 1))) ▸ F.tail _ ih
    obtain ⟨cs, hc0, hG, hRel⟩ := seq_choice (fun n c => (∃ u, CAt Q s₀ r₀ N c m u) ∧ ¬ Drains (CallAll.pollNext fuel) c (fun j => ws (n + j))) (fun n c c' => CACalm Q c c' (ws n)) (by
      rintro n c ⟨⟨u, hu⟩, hnd⟩
      have hle : u ≤ fuel := by
        obtain ⟨_, mq, _, h1, h2⟩ := hu
        cases he : c.eof with
        | true => have := (h1 he).2; omega
        | false =>
          obtain ⟨k, _, _, h3⟩ := h2 he
          have : c.curr.toList.length ≤ 1 := by cases c.curr <;> simp
          omega
      have hout := pollNext_out hS hR fuel c m u (ws n) hu hle
      have htail : (fun j => ws (n + 1 + j)) = fun j => (fun j => ws (n + j)) (j + 1) := by funext j; show ws (n + 1 + j) = ws (n + (j + 1)); rw [show n + 1 + j = n + (j + 1) by omega]
      cases hrun : (CallAll.pollNext fuel c).run (ws n) with
      | spin => exact absurd hrun hout.spin
      | panic msg => exact absurd (.panics (show (CallAll.pollNext fuel c).run (ws (n + 0)) = _ from hrun)) hnd
      | ok r w' =>
        have ho := wpx_ok hout hrun
        obtain ⟨p, c'⟩ := r
        rcases ho with ho | ⟨m', u', h1, h2 | h2⟩
        · cases ho; exact absurd (.done (show (CallAll.pollNext fuel c).run (ws (n + 0)) = _ from hrun)) hnd
        · have hd := ih m' h2 c' u' _ h1 (hshift (n + 1))
          rw [htail] at hd
          exfalso
          cases p with
          | pending => exact hnd (.pending (show (CallAll.pollNext fuel c).run (ws (n + 0)) = _ from hrun) hd)
          | ready o =>
            cases o with
            | none => exact hnd (.done (show (CallAll.pollNext fuel c).run (ws (n + 0)) = _ from hrun))
            | some v => exact hnd (.item (show (CallAll.pollNext fuel c).run (ws (n + 0)) = _ from hrun) hd)
        · obtain ⟨rfl, hp, h3⟩ := h2
          cases hp
          refine ⟨c', ⟨⟨u', h1⟩, fun hd => ?_⟩, h3⟩
          rw [htail] at hd
          exact hnd (.pending (show (CallAll.pollNext fuel c).run (ws (n + 0)) = _ from hrun) hd)) c ⟨⟨u, hc⟩, by simpa using hno⟩
    exact calm_ends hS hR hF hV hws (fun n => (hG n).1) hRel

theorem CAt.new (Q : QEnds F V S.poll D) (s₀ : S.σ) (r₀ : R.τ) (N : Nat) : CAt Q s₀ r₀ N (CallAll.new s₀ r₀) (4 * N + 1) (N + 2) :=
  ⟨fun _ => ⟨false, s₀, rfl, .new⟩, 0, Q.new, fun h => (by cases h), fun _ => ⟨0, .new, by simp [CallAll.new], by simp [CallAll.new]⟩⟩

end
end Tower
