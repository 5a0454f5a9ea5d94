import Verif.Proof.Linear

/-! # What every ready service in a cache or balancer satisfies, with drops -/

namespace Tower
open Act
set_option linter.unusedSectionVars false
set_option linter.unusedSimpArgs false
variable {W Req Res Err : Type} {K : Type} [DecidableEq K] {S : Service W Req Res Err} {drop : S.σ → W → W} {P : S.σ → Prop}

/-- all ready services satisfy `P` -/
def Cache.RP (P : S.σ → Prop) (c : Cache K S) : Prop := ∀ e ∈ c.ready, P e.2.1

/-- a service that has just said that it is ready satisfies `P` -/
def OnReady (S : Service W Req Res Err) (P : S.σ → Prop) : Prop := ∀ s w s' w', (S.pollReady s).run w = .ok (.ready (.ok ()), s') w' → P s'

namespace OnReady

theorem pollNext (F : OnReady S P) (cn : List Nat) : ∀ (is : List Nat) (p : List (PEnt K S.σ)) (w : W), wlp (pollNextD S drop cn is p) (fun a _ => ∀ s ∈ PRes.given a.1, P s) w := by
  intro is
  induction is with
  | nil => intro p w; cases p <;> (intro s hs; cases hs)
  | cons i is ih =>
    intro p w
    cases p with
    | nil => intro s hs; cases hs
    | cons e0 p0 =>
      unfold pollNextD
      split
      · exact ih _ w
      · rename_i e he
        simp only [wpx_bind]
        unfold PEnt.poll
        split
        · simp only [wpx_pure, wpx_bind, wpx_modify]
          intro s hs; cases hs
        · simp only [wpx_bind]
          refine wlp_of ?_
          rintro ⟨q, s'⟩ w1 h1
          rcases q with _ | (er | ⟨⟩)
          · exact ih _ _
          · simp only [wpx_pure, wpx_bind, wpx_modify]
            intro s hs; cases hs
          · simp only [wpx_pure]
            intro s hs
            simp only [PRes.given, List.mem_singleton] at hs
            subst hs
            exact F _ _ _ _ h1

theorem sub {m m' : IMap K (S.σ × (Nat × Nat))} {e} (h : ∀ e ∈ m, P e.2.1) (hp : m.Perm (e :: m')) : ∀ e ∈ m', P e.2.1 :=
  fun x hx => h x (hp.mem_iff.2 (List.mem_cons_of_mem _ hx))

theorem evict {c : Cache K S} {k : K} {w} (h : c.RP P) : wlp (c.evictD drop k) (fun a _ => a.2.RP P) w := by
  have h2 := (c.evictPending_held k).2
  unfold Cache.evictD
  generalize c.evictPending k = x at h2
  obtain ⟨b, c1⟩ := x
  dsimp only at h2 ⊢
  have h : c1.RP P := by unfold Cache.RP; rw [h2]; exact h
  split
  · rename_i s t m' hsw
    simp only [wpx_bind, wpx_modify, wpx_pure]
    exact sub h (IMap.swapRemove_some hsw)
  · exact h

theorem insertReady {m : IMap K (S.σ × (Nat × Nat))} {k : K} {s : S.σ} {t : Nat × Nat} {w} (h : ∀ e ∈ m, P e.2.1) (hs : P s) :
    wlp (Cache.insertReadyD drop m k (s, t)) (fun a _ => ∀ e ∈ a, P e.2.1) w := by
  have key : ∀ e ∈ m.insert k (s, t), P e.2.1 := by
    intro e he
    unfold IMap.insert at he
    split at he
    · obtain ⟨e0, h1, h2⟩ := List.mem_map.1 he
      split at h2
      · subst h2; exact hs
      · subst h2; exact h _ h1
    · rcases List.mem_append.1 he with h1 | h1
      · exact h _ h1
      · rw [List.mem_singleton] at h1; subst h1; exact hs
  unfold Cache.insertReadyD
  split
  · simp only [wpx_bind, wpx_modify, wpx_pure]; exact key
  · exact key

theorem pollPendingLoop (F : OnReady S P) (V : Sched W) : ∀ (n : Nat) (c : Cache K S) (w : W), c.RP P → wlp (c.pollPendingLoopD drop V n) (fun a _ => a.2.RP P) w := by
  intro n
  induction n with
  | zero => intro c w _; trivial
  | succ n ih =>
    intro c w h
    unfold Cache.pollPendingLoopD
    simp only [wpx_bind, wpx_lift]
    refine wpx_mono (F.pollNext c.cancelled _ c.pending _) ?_
    rintro ⟨r, p⟩ w' h2
    dsimp only at h2 ⊢
    rcases r with _ | (_ | (⟨k, s, rx⟩ | k | ⟨k, er⟩))
    · exact h
    · exact h
    · dsimp only
      split
      · simp only [wpx_bind]
        refine wpx_mono (insertReady (P := P) h (h2 s (by simp [PRes.given]))) ?_
        intro a w2 h3
        exact ih _ _ h3
      · trivial
    · exact ih _ _ h
    · dsimp only
      split
      · exact h
      · trivial

theorem putBack {c : Cache K S} {k : K} {s : S.σ} {t : Nat × Nat} {w} (h : c.RP P) : wlp (c.putBackD drop k s t) (fun a _ => a.RP P) w := by
  unfold Cache.putBackD
  split
  · simp only [wpx_bind, wpx_modify, wpx_pure]; exact h
  · have h2 : (c.pushPending k s t).ready = c.ready := by
      unfold Cache.pushPending; dsimp only; cases c.txs.get k <;> rfl
    show ∀ e ∈ (c.pushPending k s t).ready, P e.2.1
    rw [h2]; exact h

theorem checkReadyIndex (F : OnReady S P) {c : Cache K S} {i : Nat} {w} (h : c.RP P) : wlp (c.checkReadyIndexD drop i) (fun a _ => a.2.RP P) w := by
  unfold Cache.checkReadyIndexD
  cases he : c.ready[i]? with
  | none => exact h
  | some e =>
    obtain ⟨k, s, t⟩ := e
    simp only [wpx_bind]
    refine wlp_of ?_
    rintro ⟨p, s'⟩ w1 h1
    obtain ⟨l, r, hl, hil, hset, _⟩ := split_at he
    have hp0 : c.ready.Perm ((k, (s, t)) :: (l ++ r)) := by rw [hl]; exact List.perm_middle
    have hrest : ∀ e ∈ l ++ r, P e.2.1 := sub h hp0
    have hsw : ∀ {x : (K × (S.σ × (Nat × Nat)))} {m'}, IMap.swapRemoveIndex (c.ready.set i (k, (s', t))) i = some (x, m') → ∀ e ∈ m', P e.2.1 := by
      intro x m' hsw
      obtain ⟨hx, hp⟩ := IMap.swapRemoveIndex_some hsw
      have hlt : i < c.ready.length := (List.getElem?_eq_some_iff.1 he).1
      rw [List.getElem?_set_self hlt] at hx
      cases hx
      rw [hset] at hp
      have := (List.perm_cons _).1 ((List.perm_middle.symm).trans hp)
      intro e hm
      exact hrest e (this.mem_iff.2 hm)
    rcases p with _ | (er | ⟨⟩)
    · dsimp only
      split
      · trivial
      · rename_i k1 s1 t1 m' hs
        simp only [wpx_bind]
        refine wpx_mono (putBack (P := P) (c := { c with ready := m' }) (hsw hs)) ?_
        intro a w2 h3; exact h3
    · dsimp only
      split
      · trivial
      · rename_i k1 s1 t1 m' hs
        simp only [wpx_bind, wpx_modify, wpx_pure]
        exact hsw hs
    · simp only [wpx_pure]
      show ∀ e ∈ c.ready.set i (k, (s', t)), P e.2.1
      rw [hset]
      intro e hm
      rcases List.mem_append.1 hm with h2 | h2
      · exact hrest e (List.mem_append_left _ h2)
      · rcases List.mem_cons.1 h2 with rfl | h2
        · exact F _ _ _ _ h1
        · exact hrest e (List.mem_append_right _ h2)

theorem callReadyIndex {c : Cache K S} {i : Nat} {q : Req} {w} (h : c.RP P) : wlp (c.callReadyIndexD drop i q) (fun a _ => a.2.RP P) w := by
  unfold Cache.callReadyIndexD
  split
  · trivial
  · rename_i k s t m' hsw
    obtain ⟨_, hp⟩ := IMap.swapRemoveIndex_some hsw
    simp only [wpx_bind]
    refine wlp_of ?_
    rintro ⟨f, s'⟩ w1 h1
    refine wpx_mono (putBack (P := P) (c := { c with ready := m' }) (sub h hp)) ?_
    intro a w2 h3; exact h3

end OnReady

/-! ## The balancer -/

variable {DErr BErr : Type} {B : BalCfg W Req Res Err K DErr BErr} {drop : B.S.σ → W → W} {P : B.S.σ → Prop}

namespace OnReady

theorem update : ∀ (n : Nat) (b : Balance B) (w : W), b.svcs.RP P → wlp (b.updateD drop n) (fun a _ => a.2.svcs.RP P) w := by
  intro n
  induction n with
  | zero => intro b w _; trivial
  | succ n ih =>
    intro b w h
    unfold Balance.updateD
    simp only [wpx_bind]
    refine wlp_of ?_
    rintro ⟨p, d⟩ w1 h1
    rcases p with _ | (_ | (e | ch))
    · exact h
    · exact h
    · exact h
    · dsimp only
      simp only [wpx_bind]
      rcases ch with ⟨k, s⟩ | k
      · unfold Balance.applyD
        simp only [wpx_pure]
        refine ih _ _ ?_
        show ∀ e ∈ (b.svcs.push k s).ready, P e.2.1
        have h2 : (b.svcs.push k s).ready = b.svcs.ready := by
          unfold Cache.push Cache.pushPending; dsimp only; cases b.svcs.txs.get k <;> rfl
        rw [h2]; exact h
      · unfold Balance.applyD
        simp only [wpx_bind, wpx_pure]
        refine wpx_mono (evict h) ?_
        intro a w2 h3
        exact ih _ _ h3

theorem promote (F : OnReady B.S P) : ∀ (n : Nat) (b : Balance B) (w : W), b.svcs.RP P → wlp (b.promoteD drop n) (fun a _ => a.svcs.RP P) w := by
  intro n
  induction n with
  | zero => intro b w _; trivial
  | succ n ih =>
    intro b w h
    unfold Balance.promoteD
    simp only [wpx_bind]
    refine wpx_mono (F.pollPendingLoop B.V _ b.svcs w h) ?_
    rintro ⟨p, c⟩ w1 h1
    dsimp only at h1 ⊢
    rcases p with _ | (e | ⟨⟩)
    · dsimp only; split
      · exact h1
      · trivial
    · exact ih _ _ h1
    · dsimp only; split
      · exact h1
      · trivial

theorem choose {b : Balance B} {w} : wlp b.choose (fun a _ => a.2.svcs = b.svcs) w := by
  unfold Balance.choose Balance.p2c
  simp only [wpx_bind]
  have fin : ∀ (i : Option Nat) (b1 : Balance B) (w1 : W), b1.svcs = b.svcs →
      wlp (match i with | some _ => pure (true, { b1 with idx := i }) | none => if b1.svcs.ready.length = 0 then pure (false, { b1 with idx := i }) else Act.panic "ready_len" : Act W (Bool × Balance B))
        (fun a _ => a.2.svcs = b.svcs) w1 := by
    intro i b1 w1 hb
    cases i with
    | some i => exact hb
    | none =>
      dsimp only
      split
      · exact hb
      · trivial
  split
  · exact fin none b w rfl
  split
  · exact fin (some 0) b w rfl
  split
  · trivial
  split
  · trivial
  simp only [wpx_bind]
  refine wlp_of ?_
  intro m w1 h1
  refine wlp_of ?_
  intro m w1 h1
  show b.svcs = b.svcs
  rfl

theorem recheck (F : OnReady B.S P) {b : Balance B} {w} (h : b.svcs.RP P) : wlp (b.recheckD drop) (fun a _ => a.2.svcs.RP P) w := by
  unfold Balance.recheckD
  split
  · exact h
  · rename_i i _
    simp only [wpx_bind]
    refine wpx_mono (F.checkReadyIndex (i := i) h) ?_
    rintro ⟨r, c⟩ w1 h1
    rcases r with e | _ | _ <;> exact h1

theorem select (F : OnReady B.S P) : ∀ (n : Nat) (b : Balance B) (w : W), b.svcs.RP P → wlp (b.selectD drop n) (fun a _ => a.2.svcs.RP P) w := by
  intro n
  induction n with
  | zero => intro b w _; trivial
  | succ n ih =>
    intro b w h
    unfold Balance.selectD
    simp only [wpx_bind]
    refine wpx_mono (F.recheck h) ?_
    rintro ⟨r, b1⟩ w1 h1
    dsimp only at h1 ⊢
    split
    · exact h1
    · simp only [wpx_bind]
      refine wpx_mono choose ?_
      rintro ⟨r, b2⟩ w2 h3
      dsimp only at h3 ⊢
      have h4 : b2.svcs.RP P := by rw [h3]; exact h1
      split
      · exact ih _ _ h4
      · exact h4

theorem pollReady (F : OnReady B.S P) {fuel : Nat} {b : Balance B} {w} (h : b.svcs.RP P) : wlp (b.pollReadyD drop fuel) (fun a _ => a.2.svcs.RP P) w := by
  unfold Balance.pollReadyD
  simp only [wpx_bind]
  refine wpx_mono (update fuel b w h) ?_
  rintro ⟨r, b1⟩ w1 h1
  rcases r with e | ⟨⟩
  · exact h1
  · unfold Balance.restD
    simp only [wpx_bind]
    refine wpx_mono (F.promote _ b1 w1 h1) ?_
    intro b2 w2 h3
    exact F.select _ b2 w2 h3

theorem call {b : Balance B} {q : Req} {w} (h : b.svcs.RP P) : wlp (b.callD drop q) (fun a _ => a.2.svcs.RP P) w := by
  unfold Balance.callD
  split
  · trivial
  · rename_i i _
    simp only [wpx_bind]
    refine wpx_mono (callReadyIndex (i := i) h) ?_
    rintro ⟨f, c⟩ w1 h1
    exact h1

end OnReady
end Tower
