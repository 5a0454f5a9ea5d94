import Verif.Model.CacheDrop
import Verif.Proof.IMap
import Verif.Proof.Wpx
import Mathlib.Data.List.Perm.Basic
import Mathlib.Data.List.Nodup

/-! # What the cache and the balancer own, with drops -/

namespace Tower
open Act
set_option linter.unusedSectionVars false
set_option linter.unusedSimpArgs false
variable {W Req Res Err : Type} {K : Type} [DecidableEq K] {S : Service W Req Res Err}

namespace Act
variable {α β : Type}
/-- if the code returns, `Q` holds -/
abbrev wlp (x : Act W α) (Q : α → W → Prop) (w : W) : Prop := wpx (fun _ => True) True x Q w

theorem wlp_of {x : Act W α} {Q : α → W → Prop} {w : W} (h : ∀ a w', x.run w = .ok a w' → Q a w') : wlp x Q w := by
  unfold wlp wpx
  cases hx : x.run w with
  | ok a w' => exact h a w' hx
  | panic m => trivial
  | spin => trivial

@[simp] theorem wpx_modify {pan : String → Prop} {spn : Prop} (f : W → W) (Q : Unit → W → Prop) (w : W) : wpx pan spn (Act.modify f) Q w = Q () (f w) := rfl
end Act

/-- A relation between the services that exist, their futures and the world that every use of a service keeps. -/
structure Frame (S : Service W Req Res Err) (drop : S.σ → W → W) (R : List S.σ → List S.φ → W → Prop) : Prop where
  perm : ∀ {hs hs' fs fs' w}, R hs fs w → hs.Perm hs' → fs.Perm fs' → R hs' fs' w
  ready : ∀ {s hs fs w p s' w'}, R (s :: hs) fs w → (S.pollReady s).run w = .ok (p, s') w' → R (s' :: hs) fs w'
  call : ∀ {s hs fs w q f s' w'}, R (s :: hs) fs w → (S.call s q).run w = .ok (f, s') w' → R (s' :: hs) (f :: fs) w'
  poll : ∀ {hs f fs w p f' w'}, R hs (f :: fs) w → (S.poll f).run w = .ok (p, f') w' → R hs (f' :: fs) w'
  drop : ∀ {s hs fs w}, R (s :: hs) fs w → R hs fs (drop s w)

/-- the service that a completed `Pending` gives away -/
def PRes.given {σ E : Type} : Poll (Option (PRes K σ E)) → List σ
  | .ready (some (.ok _ s _)) => [s]
  | _ => []

variable {drop : S.σ → W → W} {R : List S.σ → List S.φ → W → Prop}

namespace Frame

theorem permL (F : Frame S drop R) {hs hs' fs w} (h : R hs fs w) (hp : hs.Perm hs') : R hs' fs w := F.perm h hp (.refl _)

theorem dropAll (F : Frame S drop R) {l hs fs} : ∀ {w}, R (l ++ hs) fs w → R hs fs (dropAll drop l w) := by
  induction l with
  | nil => intro w h; exact h
  | cons s l ih => intro w h; exact ih (F.drop h)

theorem pollNext (F : Frame S drop R) (cn : List Nat) {hs fs} : ∀ (is : List Nat) (p : List (PEnt K S.σ)) (w : W), R (p.map (·.svc) ++ hs) fs w →
    wlp (pollNextD S drop cn is p) (fun a w' => R (PRes.given a.1 ++ (a.2.map (·.svc) ++ hs)) fs w') w := by
  intro is
  induction is with
  | nil => intro p w h; cases p <;> exact h
  | cons i is ih =>
    intro p w h
    cases p with
    | nil => exact h
    | cons e0 p0 =>
      generalize hp : e0 :: p0 = p at h ⊢
      have hun : pollNextD S drop cn (i :: is) p = (match p[i]? with
        | none => pollNextD S drop cn is p
        | some e => do
          let (r, e') ← e.poll S cn
          match r with
          | .pending => pollNextD S drop cn is (p.set i e')
          | .ready (.ok k s rx) => pure (.ready (some (.ok k s rx)), p.eraseIdx i)
          | .ready (.canceled k) => do
            Act.modify (drop e'.svc)
            pure (.ready (some (.canceled k)), p.eraseIdx i)
          | .ready (.inner k er) => do
            Act.modify (drop e'.svc)
            pure (.ready (some (.inner k er)), p.eraseIdx i)) := by subst hp; rfl
      rw [hun]
      cases he : p[i]? with
      | none => exact ih p w h
      | some e =>
        obtain ⟨l, r, hl, _, hset, hera⟩ := split_at he
        simp only [hset, hera, wpx_bind]
        have hh : R (e.svc :: ((l ++ r).map (·.svc) ++ hs)) fs w := by
          refine F.permL h ?_
          rw [hl]
          simp only [List.map_append, List.map_cons, List.append_assoc, List.cons_append]
          exact List.perm_middle
        unfold PEnt.poll
        by_cases hc : e.rx ∈ cn
        · simp only [if_pos hc, wpx_pure, wpx_bind, wpx_modify, PRes.given, List.nil_append]
          exact F.drop hh
        · simp only [if_neg hc, wpx_bind]
          refine wlp_of ?_
          rintro ⟨q, s'⟩ w1 h1
          have h2 := F.ready hh h1
          rcases q with _ | (er | ⟨⟩)
          · simp only [wpx_pure]
            refine ih _ _ (F.permL h2 ?_)
            simp only [List.map_append, List.map_cons, List.append_assoc, List.cons_append]
            exact List.perm_middle.symm
          · simp only [wpx_pure, wpx_bind, wpx_modify, PRes.given, List.nil_append]
            exact F.drop h2
          · simp only [wpx_pure, PRes.given]
            exact h2

end Frame

theorem nodup_of_insert {V : Type} {m : IMap K V} (hn : (m.map (·.1)).Nodup) (k : K) (v : V) : ((m.insert k v).map (·.1)).Nodup := by
  rcases IMap.insert_cases hn k v with ⟨l, v0, r, h1, h2⟩ | ⟨h1, h2⟩
  · rw [h2]; rw [h1] at hn; simpa using hn
  · rw [h2, List.map_append]
    refine List.nodup_append'.2 ⟨hn, by simp, ?_⟩
    intro a ha hb
    simp only [List.map_cons, List.map_nil, List.mem_singleton] at hb
    subst hb; exact h1 ha

namespace Cache

/-- distinct keys among the ready services -/
def RK (c : Cache K S) : Prop := (c.ready.map (·.1)).Nodup

theorem pushPending_held (c : Cache K S) (k : K) (s : S.σ) (pair : Nat × Nat) : (s :: c.held).Perm (c.pushPending k s pair).held := by
  have h1 : (c.pushPending k s pair).pending = c.pending ++ [⟨k, s, pair.2⟩] := by
    unfold pushPending; dsimp only; cases c.txs.get k <;> rfl
  have h2 : (c.pushPending k s pair).ready = c.ready := by
    unfold pushPending; dsimp only; cases c.txs.get k <;> rfl
  unfold held
  rw [h1, h2, List.map_append, List.append_assoc]
  exact List.perm_middle.symm

theorem pushPending_RK (c : Cache K S) (k : K) (s : S.σ) (pair : Nat × Nat) (h : c.RK) : (c.pushPending k s pair).RK := by
  have h2 : (c.pushPending k s pair).ready = c.ready := by
    unfold pushPending; dsimp only; cases c.txs.get k <;> rfl
  unfold RK; rw [h2]; exact h

theorem push_held (c : Cache K S) (k : K) (s : S.σ) : (s :: c.held).Perm (c.push k s).held := pushPending_held { c with nextCell := c.nextCell + 1 } k s _
theorem push_RK (c : Cache K S) (k : K) (s : S.σ) (h : c.RK) : (c.push k s).RK := pushPending_RK { c with nextCell := c.nextCell + 1 } k s _ h

theorem evictPending_held (c : Cache K S) (k : K) : (c.evictPending k).2.held = c.held ∧ (c.evictPending k).2.ready = c.ready := by
  unfold evictPending
  cases c.txs.swapRemove k <;> exact ⟨rfl, rfl⟩

theorem RK_perm {m m' : IMap K (S.σ × (Nat × Nat))} {e} (h : (m.map (·.1)).Nodup) (hp : m.Perm (e :: m')) : (m'.map (·.1)).Nodup := by
  have := (hp.map (·.1)).nodup_iff.1 h
  exact (List.nodup_cons.1 this).2

theorem ready_held {c : Cache K S} {k s t m'} (hp : c.ready.Perm ((k, (s, t)) :: m')) : c.held.Perm (s :: { c with ready := m' }.held) := by
  unfold held
  refine ((hp.map (·.2.1)).append_left _).trans ?_
  exact List.perm_middle

end Cache

namespace Frame
variable (F : Frame S drop R)
include F

theorem evict {c : Cache K S} {k : K} {hs fs w} (hk : c.RK) (h : R (c.held ++ hs) fs w) :
    wlp (c.evictD drop k) (fun a w' => a.2.RK ∧ R (a.2.held ++ hs) fs w') w := by
  obtain ⟨h1, h2⟩ := c.evictPending_held k
  unfold Cache.evictD
  generalize c.evictPending k = x at h1 h2
  obtain ⟨b, c1⟩ := x
  dsimp only at h1 h2 ⊢
  rw [← h1] at h
  have hk : c1.RK := by unfold Cache.RK; rw [h2]; exact hk
  split
  · rename_i s t m' hsw
    have hp := IMap.swapRemove_some hsw
    simp only [wpx_bind, wpx_modify, wpx_pure]
    exact ⟨Cache.RK_perm hk hp, F.drop (F.permL h ((Cache.ready_held hp).append_right hs))⟩
  · exact ⟨hk, h⟩

theorem insertReady {c : Cache K S} {k : K} {s : S.σ} {t : Nat × Nat} {hs fs w} (hk : c.RK) (h : R (s :: (c.held ++ hs)) fs w) :
    wlp (Cache.insertReadyD drop c.ready k (s, t)) (fun a w' => ({ c with ready := a } : Cache K S).RK ∧ R (({ c with ready := a } : Cache K S).held ++ hs) fs w') w := by
  have hn := nodup_of_insert hk k (s, t)
  unfold Cache.insertReadyD
  rcases IMap.insert_cases hk k (s, t) with ⟨l, v0, r, h1, h2⟩ | ⟨h1, h2⟩
  · have hg : c.ready.get k = some v0 := by
      cases hg : c.ready.get k with
      | none => exact absurd (by rw [h1]; simp) (IMap.get_none hg)
      | some v => rw [IMap.nodup_val (v' := v0) hk (IMap.get_some hg) (by rw [h1]; simp)]
    simp only [hg, wpx_bind, wpx_modify, wpx_pure]
    refine ⟨hn, F.drop (F.permL h ?_)⟩
    unfold Cache.held
    rw [h2]
    simp only [h1, List.map_append, List.map_cons, List.append_assoc, List.cons_append]
    have hm : ∀ x : S.σ, (c.pending.map (·.svc) ++ (l.map (·.2.1) ++ x :: (r.map (·.2.1) ++ hs))).Perm (x :: (c.pending.map (·.svc) ++ (l.map (·.2.1) ++ (r.map (·.2.1) ++ hs)))) := by
      intro x
      rw [← List.append_assoc, ← List.append_assoc (bs := l.map _)]
      exact List.perm_middle
    exact ((hm v0.1).cons s).trans ((List.Perm.swap _ _ _).trans ((hm s).symm.cons _))
  · have hg : c.ready.get k = none := by
      cases hg : c.ready.get k with
      | none => rfl
      | some v => exact absurd (List.mem_map_of_mem (IMap.get_some hg)) h1
    simp only [hg, wpx_pure]
    refine ⟨hn, F.permL h ?_⟩
    unfold Cache.held
    rw [h2]
    simp only [List.map_append, List.map_cons, List.map_nil, List.append_assoc, List.cons_append, List.nil_append]
    rw [← List.append_assoc, ← List.append_assoc (cs := s :: hs)]
    exact List.perm_middle.symm

theorem pollPendingLoop (V : Sched W) (hV : ∀ {hs fs w} n, R hs fs w → R hs fs (V.order n w).2) {hs fs} : ∀ (n : Nat) (c : Cache K S) (w : W), c.RK → R (c.held ++ hs) fs w →
    wlp (c.pollPendingLoopD drop V n) (fun a w' => a.2.RK ∧ R (a.2.held ++ hs) fs w') w := by
  intro n
  induction n with
  | zero => intro c w _ _; trivial
  | succ n ih =>
    intro c w hk h
    unfold Cache.pollPendingLoopD
    simp only [wpx_bind, wpx_lift]
    have h1 := hV c.pending.length h
    unfold Cache.held at h1
    rw [List.append_assoc] at h1
    refine wpx_mono (F.pollNext c.cancelled _ c.pending _ h1) ?_
    rintro ⟨r, p⟩ w' h2
    have fin : ∀ txs, R ((p.map (·.svc)) ++ (c.ready.map (·.2.1) ++ hs)) fs w' →
        R (({ c with pending := p, txs := txs } : Cache K S).held ++ hs) fs w' := by
      intro txs hh; unfold Cache.held; rw [List.append_assoc]; exact hh
    dsimp only at h2 ⊢
    rcases r with _ | (_ | (⟨k, s, rx⟩ | k | ⟨k, er⟩))
    · exact ⟨hk, fin c.txs h2⟩
    · exact ⟨hk, fin c.txs h2⟩
    · dsimp only
      split
      · rename_i tx txs' _
        simp only [wpx_bind]
        refine wpx_mono (F.insertReady (c := { c with pending := p, txs := txs' }) (k := k) (s := s) (t := (tx, rx)) (hs := hs) (fs := fs) (w := w') hk ?_) ?_
        · unfold Cache.held; rw [List.append_assoc]; exact h2
        · rintro a w2 ⟨h3, h4⟩
          exact ih _ _ h3 h4
      · trivial
    · exact ih _ _ hk (fin c.txs h2)
    · dsimp only
      split
      · exact ⟨hk, fin _ h2⟩
      · trivial

theorem putBack {c : Cache K S} {k : K} {s : S.σ} {t : Nat × Nat} {hs fs w} (hk : c.RK) (h : R (s :: (c.held ++ hs)) fs w) :
    wlp (c.putBackD drop k s t) (fun a w' => a.RK ∧ R (a.held ++ hs) fs w') w := by
  unfold Cache.putBackD
  split
  · simp only [wpx_bind, wpx_modify, wpx_pure]
    exact ⟨hk, F.drop h⟩
  · exact ⟨c.pushPending_RK _ _ _ hk, F.permL h ((c.pushPending_held k s t).append_right hs)⟩

theorem checkReadyIndex {c : Cache K S} {i : Nat} {hs fs w} (hk : c.RK) (h : R (c.held ++ hs) fs w) :
    wlp (c.checkReadyIndexD drop i) (fun a w' => a.2.RK ∧ R (a.2.held ++ hs) fs w') w := by
  unfold Cache.checkReadyIndexD
  cases he : c.ready[i]? with
  | none => exact ⟨hk, h⟩
  | some e =>
    obtain ⟨k, s, t⟩ := e
    simp only [wpx_bind]
    refine wlp_of ?_
    rintro ⟨p, s'⟩ w1 h1
    obtain ⟨l, r, hl, hil, hset, _⟩ := split_at he
    have hp0 : c.ready.Perm ((k, (s, t)) :: (l ++ r)) := by rw [hl]; exact List.perm_middle
    have h2 := F.ready (F.permL h ((Cache.ready_held hp0).append_right hs)) h1
    have hk' : ({ c with ready := c.ready.set i (k, (s', t)) } : Cache K S).RK := by
      unfold Cache.RK at hk ⊢; dsimp only; rw [hset]; rw [hl] at hk; simpa using hk
    have hp1 : (c.ready.set i (k, (s', t))).Perm ((k, (s', t)) :: (l ++ r)) := by rw [hset]; exact List.perm_middle
    have h3 : R (({ c with ready := c.ready.set i (k, (s', t)) } : Cache K S).held ++ hs) fs w1 :=
      F.permL h2 ((Cache.ready_held (c := { c with ready := c.ready.set i (k, (s', t)) }) hp1).append_right hs).symm
    rcases p with _ | (er | ⟨⟩)
    · dsimp only
      split
      · trivial
      · rename_i k1 s1 t1 m' hsw
        obtain ⟨_, hp⟩ := IMap.swapRemoveIndex_some hsw
        simp only [wpx_bind]
        refine wpx_mono (F.putBack (c := { c with ready := m' }) (Cache.RK_perm hk' hp) (F.permL h3 ((Cache.ready_held (c := { c with ready := c.ready.set i (k, (s', t)) }) hp).append_right hs))) ?_
        intro a w2 h4; exact h4
    · dsimp only
      split
      · trivial
      · rename_i k1 s1 t1 m' hsw
        obtain ⟨_, hp⟩ := IMap.swapRemoveIndex_some hsw
        simp only [wpx_bind, wpx_modify, wpx_pure]
        exact ⟨Cache.RK_perm hk' hp, F.drop (F.permL h3 ((Cache.ready_held (c := { c with ready := c.ready.set i (k, (s', t)) }) hp).append_right hs))⟩
    · exact ⟨hk', h3⟩

theorem checkReady {c : Cache K S} {k : K} {hs fs w} (hk : c.RK) (h : R (c.held ++ hs) fs w) :
    wlp (c.checkReadyD drop k) (fun a w' => a.2.RK ∧ R (a.2.held ++ hs) fs w') w := by
  unfold Cache.checkReadyD
  split
  · exact F.checkReadyIndex hk h
  · exact ⟨hk, h⟩

theorem callReadyIndex {c : Cache K S} {i : Nat} {q : Req} {hs fs w} (hk : c.RK) (h : R (c.held ++ hs) fs w) :
    wlp (c.callReadyIndexD drop i q) (fun a w' => a.2.RK ∧ R (a.2.held ++ hs) (a.1 :: fs) w') w := by
  unfold Cache.callReadyIndexD
  split
  · trivial
  · rename_i k s t m' hsw
    obtain ⟨_, hp⟩ := IMap.swapRemoveIndex_some hsw
    simp only [wpx_bind]
    refine wlp_of ?_
    rintro ⟨f, s'⟩ w1 h1
    have h2 := F.call (F.permL h ((Cache.ready_held hp).append_right hs)) h1
    refine wpx_mono (F.putBack (c := { c with ready := m' }) (Cache.RK_perm hk hp) h2) ?_
    intro a w2 h3; exact h3

theorem callReady {c : Cache K S} {k : K} {q : Req} {hs fs w} (hk : c.RK) (h : R (c.held ++ hs) fs w) :
    wlp (c.callReadyD drop k q) (fun a w' => a.2.RK ∧ R (a.2.held ++ hs) (a.1 :: fs) w') w := by
  unfold Cache.callReadyD
  split
  · exact F.callReadyIndex hk h
  · trivial

end Frame

/-! ## The balancer -/

/-- the service that discovery hands out with a poll -/
def freshOf {σ E : Type} : Poll (Option (Except E (Change K σ))) → List σ
  | .ready (some (.ok (.insert _ s))) => [s]
  | _ => []

variable {DErr BErr : Type} {B : BalCfg W Req Res Err K DErr BErr}

/-- what the parts of a balancer must keep, with `held` the services that the discovery has not handed out -/
structure BFrame (B : BalCfg W Req Res Err K DErr BErr) (drop : B.S.σ → W → W) (held : B.D.δ → List B.S.σ) (R : List B.S.σ → List B.S.φ → W → Prop) : Prop where
  svc : Frame B.S drop R
  order : ∀ {hs fs w} n, R hs fs w → R hs fs (B.V.order n w).2
  load : ∀ {hs fs w s m w'}, R hs fs w → (B.L.load s).run w = .ok m w' → R hs fs w'
  disc : ∀ {d hs fs w p d' w'}, R (held d ++ hs) fs w → (B.D.poll d).run w = .ok (p, d') w' → R (freshOf p ++ (held d' ++ hs)) fs w'

/-- the services in a balancer -/
def Balance.held (held : B.D.δ → List B.S.σ) (b : Balance B) : List B.S.σ := held b.disc ++ b.svcs.held

namespace BFrame
variable {drop : B.S.σ → W → W} {held : B.D.δ → List B.S.σ} {R : List B.S.σ → List B.S.φ → W → Prop} (F : BFrame B drop held R) {hs : List B.S.σ} {fs : List B.S.φ}
include F

theorem into {b : Balance B} {w} (h : R (b.svcs.held ++ (held b.disc ++ hs)) fs w) : R (b.held held ++ hs) fs w := by
  refine F.svc.permL h ?_
  unfold Balance.held
  rw [← List.append_assoc]
  exact List.perm_append_comm.append_right hs

theorem from' {b : Balance B} {w} (h : R (b.held held ++ hs) fs w) : R (b.svcs.held ++ (held b.disc ++ hs)) fs w := by
  refine F.svc.permL h ?_
  unfold Balance.held
  rw [← List.append_assoc]
  exact List.perm_append_comm.append_right hs

theorem update : ∀ (n : Nat) (b : Balance B) (w : W), b.svcs.RK → R (b.held held ++ hs) fs w →
    wlp (b.updateD drop n) (fun a w' => a.2.svcs.RK ∧ R (a.2.held held ++ hs) fs w') w := by
  intro n
  induction n with
  | zero => intro b w _ _; trivial
  | succ n ih =>
    intro b w hk h
    unfold Balance.updateD
    simp only [wpx_bind]
    refine wlp_of ?_
    rintro ⟨p, d⟩ w1 h1
    have h0 : R (held b.disc ++ (b.svcs.held ++ hs)) fs w := by
      unfold Balance.held at h; rwa [List.append_assoc] at h
    have h2 := F.disc h0 h1
    have nxt : R (held d ++ (b.svcs.held ++ hs)) fs w1 → R ((({ b with disc := d } : Balance B)).held held ++ hs) fs w1 := by
      intro hh; unfold Balance.held; rwa [List.append_assoc]
    rcases p with _ | (_ | (e | ch))
    · exact ⟨hk, nxt h2⟩
    · exact ⟨hk, nxt h2⟩
    · exact ⟨hk, nxt h2⟩
    · dsimp only
      simp only [wpx_bind]
      rcases ch with ⟨k, s⟩ | k
      · unfold Balance.applyD
        simp only [wpx_pure]
        refine ih _ _ (Cache.push_RK _ _ _ hk) (F.into (b := { b with disc := d, svcs := b.svcs.push k s }) ?_)
        dsimp only
        refine F.svc.permL h2 ?_
        simp only [freshOf, List.cons_append, List.nil_append]
        refine List.Perm.trans ?_ ((b.svcs.push_held k s).append_right _)
        rw [List.cons_append]
        refine List.Perm.cons s ?_
        rw [← List.append_assoc, ← List.append_assoc]
        exact List.perm_append_comm.append_right hs
      · unfold Balance.applyD
        simp only [wpx_bind, wpx_pure]
        refine wpx_mono (F.svc.evict hk (F.from' (b := { b with disc := d }) (nxt h2))) ?_
        rintro a w2 ⟨h3, h4⟩
        exact ih _ _ h3 (F.into (b := { b with disc := d, svcs := a.2 }) h4)

theorem promote : ∀ (n : Nat) (b : Balance B) (w : W), b.svcs.RK → R (b.held held ++ hs) fs w →
    wlp (b.promoteD drop n) (fun a w' => a.svcs.RK ∧ R (a.held held ++ hs) fs w') w := by
  intro n
  induction n with
  | zero => intro b w _ _; trivial
  | succ n ih =>
    intro b w hk h
    unfold Balance.promoteD
    simp only [wpx_bind]
    refine wpx_mono (F.svc.pollPendingLoop B.V F.order _ b.svcs w hk (F.from' h)) ?_
    rintro ⟨p, c⟩ w1 ⟨h1, h2⟩
    have h3 := F.into (b := { b with svcs := c }) h2
    dsimp only at h1 h2 ⊢
    rcases p with _ | (e | ⟨⟩)
    · dsimp only; split
      · exact ⟨h1, h3⟩
      · trivial
    · exact ih _ _ h1 h3
    · dsimp only; split
      · exact ⟨h1, h3⟩
      · trivial

theorem readyIndexLoad {b : Balance B} {i : Nat} {w} (h : R (b.held held ++ hs) fs w) : wlp (b.readyIndexLoad i) (fun _ w' => R (b.held held ++ hs) fs w') w := by
  unfold Balance.readyIndexLoad
  split
  · trivial
  · exact wlp_of (fun a w' hr => F.load h hr)

theorem p2c {b : Balance B} {w} (hk : b.svcs.RK) (h : R (b.held held ++ hs) fs w) : wlp b.p2c (fun a w' => a.2.svcs.RK ∧ R (a.2.held held ++ hs) fs w') w := by
  unfold Balance.p2c
  split
  · exact ⟨hk, h⟩
  split
  · exact ⟨hk, h⟩
  split
  · trivial
  split
  · trivial
  simp only [wpx_bind]
  refine wpx_mono (F.readyIndexLoad h) ?_
  intro m w1 h1
  refine wpx_mono (F.readyIndexLoad h1) ?_
  intro m w1 h1
  exact ⟨hk, h1⟩

theorem choose {b : Balance B} {w} (hk : b.svcs.RK) (h : R (b.held held ++ hs) fs w) : wlp b.choose (fun a w' => a.2.svcs.RK ∧ R (a.2.held held ++ hs) fs w') w := by
  unfold Balance.choose
  simp only [wpx_bind]
  refine wpx_mono (F.p2c hk h) ?_
  rintro ⟨i, b1⟩ w1 ⟨h1, h2⟩
  cases i with
  | some i => exact ⟨h1, h2⟩
  | none =>
    dsimp only
    split
    · exact ⟨h1, h2⟩
    · trivial

theorem recheck {b : Balance B} {w} (hk : b.svcs.RK) (h : R (b.held held ++ hs) fs w) : wlp (b.recheckD drop) (fun a w' => a.2.svcs.RK ∧ R (a.2.held held ++ hs) fs w') w := by
  unfold Balance.recheckD
  split
  · exact ⟨hk, h⟩
  · rename_i i _
    simp only [wpx_bind]
    refine wpx_mono (F.svc.checkReadyIndex (i := i) hk (F.from' h)) ?_
    rintro ⟨r, c⟩ w1 ⟨h1, h2⟩
    rcases r with e | _ | _
    · exact ⟨h1, F.into (b := { b with svcs := c }) h2⟩
    · exact ⟨h1, F.into (b := { b with svcs := c }) h2⟩
    · exact ⟨h1, F.into (b := { b with svcs := c }) h2⟩

theorem select : ∀ (n : Nat) (b : Balance B) (w : W), b.svcs.RK → R (b.held held ++ hs) fs w →
    wlp (b.selectD drop n) (fun a w' => a.2.svcs.RK ∧ R (a.2.held held ++ hs) fs w') w := by
  intro n
  induction n with
  | zero => intro b w _ _; trivial
  | succ n ih =>
    intro b w hk h
    unfold Balance.selectD
    simp only [wpx_bind]
    refine wpx_mono (F.recheck hk h) ?_
    rintro ⟨r, b1⟩ w1 ⟨h1, h2⟩
    dsimp only at h1 h2 ⊢
    split
    · exact ⟨h1, h2⟩
    · simp only [wpx_bind]
      refine wpx_mono (F.choose h1 h2) ?_
      rintro ⟨r, b2⟩ w2 ⟨h3, h4⟩
      dsimp only at h3 h4 ⊢
      split
      · exact ih _ _ h3 h4
      · exact ⟨h3, h4⟩

theorem pollReady {fuel : Nat} {b : Balance B} {w} (hk : b.svcs.RK) (h : R (b.held held ++ hs) fs w) :
    wlp (b.pollReadyD drop fuel) (fun a w' => a.2.svcs.RK ∧ R (a.2.held held ++ hs) fs w') w := by
  unfold Balance.pollReadyD
  simp only [wpx_bind]
  refine wpx_mono (F.update fuel b w hk h) ?_
  rintro ⟨r, b1⟩ w1 ⟨h1, h2⟩
  rcases r with e | ⟨⟩
  · exact ⟨h1, h2⟩
  · unfold Balance.restD
    simp only [wpx_bind]
    refine wpx_mono (F.promote _ b1 w1 h1 h2) ?_
    rintro b2 w2 ⟨h3, h4⟩
    exact F.select _ b2 w2 h3 h4

theorem call {b : Balance B} {q : Req} {w} (hk : b.svcs.RK) (h : R (b.held held ++ hs) fs w) :
    wlp (b.callD drop q) (fun a w' => a.2.svcs.RK ∧ R (a.2.held held ++ hs) (a.1 :: fs) w') w := by
  unfold Balance.callD
  split
  · trivial
  · rename_i i _
    simp only [wpx_bind]
    refine wpx_mono (F.svc.callReadyIndex (i := i) hk (F.from' h)) ?_
    rintro ⟨f, c⟩ w1 ⟨h1, h2⟩
    exact ⟨h1, F.into (b := { b with svcs := c }) h2⟩

end BFrame
end Tower
