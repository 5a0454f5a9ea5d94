import Verif.Model.RetryLimit
import Verif.Props.C04_Concurrency
import Verif.Proof.Load1
import Mathlib.Data.List.Perm.Basic

/-! # C69: retries over a concurrency limit -/

set_option linter.unusedSimpArgs false

namespace Tower
open Act
variable {W Req Res Err : Type} {debug : Bool} {fuel max : Nat} {P : RetryPolicy W Req Res Err} {S : Service W Req Res Err}

/-! ## Specification -/

/-- the attempt in flight of a response future, if there is one -/
def RetryFut.attempt (f : RLFut P S) : Option S.φ :=
  match f.st with
  | .called g => some g
  | _ => none

/-- attempts in flight: inner calls whose futures exist -/
def RStack.attempts (x : RStack P S) : Nat := (x.fs.filterMap RetryFut.attempt).length

/-- how many have reserved capacity for their next call: handles that were found ready, and response futures that are about to make the next attempt -/
def RStack.reserved (x : RStack P S) : Nat := x.hs.countP (fun s => s.service.permit) + x.fs.countP (fun f => f.retry.service.permit)

/-- would polling this clone of the limit get it a permit now? -/
def RStack.wouldGet (x : RStack P S) (n : Nat) : Bool := (x.sem.pollAcquire n).1

/-! ## Proofs -/

/-- a history of the limit with these handles and futures, in any order -/
def LimAt (debug : Bool) (max : Nat) (S : Service W Req Res Err) (sem : Sem) (hs : List (ConcState S.σ Nat)) (fs : List S.φ) (next : Nat) (arr : List Nat) : Prop :=
  ∃ y : Lim S, LimHist debug max S y arr ∧ y.sem = sem ∧ y.hs.Perm hs ∧ y.fs.Perm fs ∧ y.next = next

theorem perm_split {α : Type} {l t : List α} {a : α} (h : l.Perm (a :: t)) : ∃ u v, l = u ++ a :: v ∧ (u ++ v).Perm t := by
  obtain ⟨u, v, rfl⟩ := List.append_of_mem (h.mem_iff.2 List.mem_cons_self)
  exact ⟨u, v, rfl, (List.perm_cons a).1 (List.perm_middle.symm.trans h)⟩

section
variable {sem sem' : Sem} {hs T : List (ConcState S.σ Nat)} {fs F : List S.φ} {next : Nat} {arr : List Nat} {s s' : ConcState S.σ Nat} {w w' : W}

theorem LimAt.perm {hs' : List (ConcState S.σ Nat)} {fs' : List S.φ} (h : LimAt debug max S sem hs fs next arr) (p : hs.Perm hs') (q : fs.Perm fs') : LimAt debug max S sem hs' fs' next arr := by
  obtain ⟨y, h1, h2, h3, h4, h5⟩ := h
  exact ⟨y, h1, h2, h3.trans p, h4.trans q, h5⟩

theorem LimAt.inv (h : LimAt debug max S sem hs fs next arr) : LimInv max (⟨sem, hs, fs, next⟩ : Lim S) arr := by
  obtain ⟨y, h1, rfl, h3, h4, rfl⟩ := h
  have := h1.inv
  refine ⟨?_, this.busy, this.order, this.nodup, ?_, ?_, ?_⟩
  · have e := this.conserved
    unfold Lim.holders at e ⊢
    simp only
    rw [← h3.countP_eq, ← h4.length_eq]; exact e
  · exact (h3.map _).nodup_iff.1 this.names
  · intro s hs; exact this.bound s (h3.mem_iff.2 hs)
  · intro n hn
    obtain ⟨s, hs, e⟩ := this.waiting n hn
    exact ⟨s, h3.mem_iff.1 hs, e⟩

theorem LimAt.ready {p : Poll (Except Err Unit)} (h : LimAt debug max S sem (s :: T) fs next arr) (hr : ((LimSvc debug S).pollReady s).run (sem, w) = .ok (p, s') (sem', w')) :
    ∃ arr', LimAt debug max S sem' (s' :: T) fs next arr' ∧ (∀ n ∈ arr', n ∈ arr ∨ n = s.sem) ∧ (s'.permit = true → s.sem ∉ arr') := by
  have hnd := h.inv.nodup
  obtain ⟨y, h1, h2, h3, h4, h5⟩ := h
  subst h2
  obtain ⟨u, v, hu, hp⟩ := perm_split h3
  have := LimHist.ready h1 hu hr
  refine ⟨_, ⟨_, this, rfl, ?_, h4, h5⟩, ?_, ?_⟩
  · exact List.perm_middle.trans ((List.perm_cons _).2 hp)
  · intro n hn
    split at hn
    · exact Or.inl (List.mem_of_mem_erase hn)
    · split at hn
      · exact Or.inl hn
      · rcases List.mem_append.1 hn with hn | hn
        · exact Or.inl hn
        · exact Or.inr (List.mem_singleton.1 hn)
  · intro hperm
    rw [if_pos hperm]
    intro hm
    exact ((List.Nodup.mem_erase_iff hnd).1 hm).1 rfl

theorem LimAt.call {q : Req} {f : S.φ} (h : LimAt debug max S sem (s :: T) fs next arr) (hr : ((LimSvc debug S).call s q).run (sem, w) = .ok (f, s') (sem', w')) :
    LimAt debug max S sem' (s' :: T) (f :: fs) next arr := by
  obtain ⟨y, h1, h2, h3, h4, h5⟩ := h
  subst h2
  obtain ⟨u, v, hu, hp⟩ := perm_split h3
  have := LimHist.call h1 hu hr
  refine ⟨_, this, rfl, List.perm_middle.trans ((List.perm_cons _).2 hp), ?_, h5⟩
  exact (List.perm_append_comm.trans ((List.perm_cons f).2 h4))

theorem LimAt.poll {p : Poll (Except Err Res)} {f f' : S.φ} (h : LimAt debug max S sem hs (f :: F) next arr) (hr : ((LimSvc debug S).poll f).run (sem, w) = .ok (p, f') (sem', w')) :
    LimAt debug max S sem' hs (f' :: F) next arr := by
  obtain ⟨y, h1, h2, h3, h4, h5⟩ := h
  subst h2
  obtain ⟨u, v, hu, hp⟩ := perm_split h4
  have := LimHist.poll h1 hu hr
  exact ⟨_, this, rfl, h3, List.perm_middle.trans ((List.perm_cons _).2 hp), h5⟩

theorem LimAt.dropFut {f : S.φ} (h : LimAt debug max S sem hs (f :: F) next arr) : LimAt debug max S sem.release hs F next arr := by
  obtain ⟨y, h1, h2, h3, h4, h5⟩ := h
  subst h2
  obtain ⟨u, v, hu, hp⟩ := perm_split h4
  have := LimHist.drop_future h1 hu
  exact ⟨_, this, rfl, h3, hp, h5⟩

theorem LimAt.clone (h : LimAt debug max S sem hs fs next arr) (hm : s ∈ hs) : LimAt debug max S sem ({ ((LimSvc debug S).clone s : ConcState S.σ Nat) with sem := next } :: hs) fs (next + 1) arr := by
  obtain ⟨y, h1, h2, h3, h4, h5⟩ := h
  subst h5
  have := LimHist.clone h1 (h3.mem_iff.2 hm)
  exact ⟨_, this, h2, List.perm_append_comm.trans ((List.perm_cons _).2 h3), h4, rfl⟩

theorem LimAt.withSem (h : LimAt debug max S sem hs fs next arr) (i : S.σ) : LimAt debug max S sem (⟨i, next, false⟩ :: hs) fs (next + 1) arr := by
  obtain ⟨y, h1, h2, h3, h4, h5⟩ := h
  subst h5
  have := LimHist.with_semaphore i h1
  exact ⟨_, this, h2, List.perm_append_comm.trans ((List.perm_cons _).2 h3), h4, rfl⟩

theorem LimAt.dropHandle (h : LimAt debug max S sem (s :: T) fs next arr) : LimAt debug max S (dropLimit s sem) T fs next (arr.erase s.sem) := by
  obtain ⟨y, h1, h2, h3, h4, h5⟩ := h
  subst h2
  obtain ⟨u, v, hu, hp⟩ := perm_split h3
  have := LimHist.drop_handle h1 hu
  exact ⟨_, this, rfl, hp, h4, h5⟩
end

/-- all clones of the limit -/
def RStack.limHs (x : RStack P S) : List (ConcState S.σ Nat) := x.hs.map (·.service) ++ x.fs.map (·.retry.service)
/-- all futures of the limit -/
def RStack.limFs (x : RStack P S) : List S.φ := x.fs.filterMap RetryFut.attempt

/-- not between attempts, about to become ready -/
def RetryFut.retrying (f : RLFut P S) : Bool :=
  match f.st with
  | .retrying => true
  | _ => false

structure RLInv (debug : Bool) (max : Nat) (x : RStack P S) (arr : List Nat) : Prop where
  lim : LimAt debug max S x.sem x.limHs x.limFs x.next arr
  idle : ∀ f ∈ x.fs, f.retrying = false → f.retry.service.permit = false ∧ f.retry.service.sem ∉ arr

/-- what one iteration of the loop does, in terms of the limit -/
theorem retryIter_cases {f : RLFut P S} {sem sem' : Sem} {w w' : W} {o} (h : (retryStep (P.snd Sem) (LimSvc debug S) f).run (sem, w) = .ok o (sem', w')) :
    (∃ g p g' w1 f', f.st = .called g ∧ ((LimSvc debug S).poll g).run (sem, w) = .ok (p, g') (sem', w1) ∧
      ((∃ q, o = .inl (q, f') ∧ f'.st = .called g') ∨ (o = .inr f' ∧ ∃ r, f'.st = .waiting r)) ∧ f'.retry.service = f.retry.service) ∨
    (∃ r f', f.st = .waiting r ∧ sem' = sem ∧ ((∃ q r', o = .inl (q, f') ∧ f'.st = .waiting r') ∨ (o = .inr f' ∧ f'.st = .retrying)) ∧ f'.retry = f.retry) ∨
    (∃ p s1 sem1 w1 f', f.st = .retrying ∧ ((LimSvc debug S).pollReady f.retry.service).run (sem, w) = .ok (p, s1) (sem1, w1) ∧
      ((∃ q, o = .inl (q, f') ∧ f'.st = .retrying ∧ f'.retry.service = s1 ∧ sem' = sem1) ∨
       (∃ q g w2, p = .ready (.ok ()) ∧ o = .inr f' ∧ f'.st = .called g ∧ ((LimSvc debug S).call s1 q).run (sem1, w2) = .ok (g, f'.retry.service) (sem', w')))) := by
  obtain ⟨req, ret, st⟩ := f
  cases st with
  | called g =>
    left
    simp only [retryStep] at h
    obtain ⟨⟨p, g'⟩, ⟨s1, w1⟩, h1, h2⟩ := run_bind_eq_ok.1 h
    cases p with
    | pending => cases h2; exact ⟨g, _, g', _, _, rfl, h1, Or.inl ⟨_, rfl, rfl⟩, rfl⟩
    | ready res =>
      cases req with
      | none => cases h2; exact ⟨g, _, g', _, _, rfl, h1, Or.inl ⟨_, rfl, rfl⟩, rfl⟩
      | some rq =>
        simp only [run_bind, run_lift] at h2
        generalize hR : P.retry ret.policy rq res w1 = R at h2
        obtain ⟨⟨o', π', rq', res'⟩, w2⟩ := R
        cases o' with
        | none => cases h2; exact ⟨g, _, g', _, _, rfl, h1, Or.inl ⟨_, rfl, rfl⟩, rfl⟩
        | some ρ => cases h2; exact ⟨g, _, g', _, _, rfl, h1, Or.inr ⟨rfl, _, rfl⟩, rfl⟩
  | waiting r =>
    right; left
    simp only [retryStep, run_bind, run_lift] at h
    generalize hR : P.wait r w = R at h
    obtain ⟨⟨p, r'⟩, w2⟩ := R
    cases p with
    | pending => cases h; exact ⟨r, _, rfl, rfl, Or.inl ⟨_, _, rfl, rfl⟩, rfl⟩
    | ready u => cases h; exact ⟨r, _, rfl, rfl, Or.inr ⟨rfl, rfl⟩, rfl⟩
  | retrying =>
    right; right
    simp only [retryStep] at h
    obtain ⟨⟨p, s1⟩, ⟨sem1, w1⟩, h1, h2⟩ := run_bind_eq_ok.1 h
    match p with
    | .pending => cases h2; exact ⟨_, s1, sem', _, _, rfl, h1, Or.inl ⟨_, rfl, rfl, rfl, rfl⟩⟩
    | .ready (.error e) => cases h2; exact ⟨_, s1, sem', _, _, rfl, h1, Or.inl ⟨_, rfl, rfl, rfl, rfl⟩⟩
    | .ready (.ok ()) =>
      cases req with
      | none => cases h2
      | some rq =>
        simp only at h2
        rw [run_bind, run_lift] at h2
        obtain ⟨⟨g, s2⟩, ⟨sem2, w2⟩, h3, h4⟩ := run_bind_eq_ok.1 h2
        cases h4
        exact ⟨_, s1, sem1, w1, _, rfl, h1, Or.inr ⟨rq, g, _, rfl, rfl, rfl, h3⟩⟩

/-- names of other clones are different -/
theorem LimAt.names {sem : Sem} {s t : ConcState S.σ Nat} {T : List (ConcState S.σ Nat)} {fs : List S.φ} {next : Nat} {arr : List Nat} (h : LimAt debug max S sem (s :: T) fs next arr) (ht : t ∈ T) : t.sem ≠ s.sem := by
  have := h.inv.names
  simp only [List.map_cons, List.nodup_cons, List.mem_map, not_exists, not_and] at this
  exact this.1 t ht

theorem RStack.limHs_handle {x : RStack P S} {l r : List (RetryState P.π (ConcState S.σ Nat))} {s : RetryState P.π (ConcState S.σ Nat)} (h : x.hs = l ++ s :: r) :
    x.limHs.Perm (s.service :: (l.map (·.service) ++ r.map (·.service) ++ x.fs.map (·.retry.service))) := by
  unfold RStack.limHs
  rw [h, List.map_append, List.map_cons, List.append_assoc, List.cons_append, List.append_assoc]
  exact List.perm_middle

theorem RStack.limHs_future {x : RStack P S} {l r : List (RLFut P S)} {f : RLFut P S} (h : x.fs = l ++ f :: r) :
    x.limHs.Perm (f.retry.service :: (x.hs.map (·.service) ++ (l.map (·.retry.service) ++ r.map (·.retry.service)))) := by
  unfold RStack.limHs
  rw [h, List.map_append, List.map_cons]
  exact (List.Perm.append_left _ List.perm_middle).trans List.perm_middle

theorem limFs_none {l r : List (RLFut P S)} {f : RLFut P S} (h : f.attempt = none) : (l ++ f :: r).filterMap RetryFut.attempt = l.filterMap RetryFut.attempt ++ r.filterMap RetryFut.attempt := by
  rw [List.filterMap_append, List.filterMap_cons_none h]

theorem limFs_some {l r : List (RLFut P S)} {f : RLFut P S} {g : S.φ} (h : f.attempt = some g) :
    ((l ++ f :: r).filterMap RetryFut.attempt).Perm (g :: (l.filterMap RetryFut.attempt ++ r.filterMap RetryFut.attempt)) := by
  rw [List.filterMap_append, List.filterMap_cons_some h]
  exact List.perm_middle

theorem attempt_called {f : RLFut P S} {g : S.φ} (h : f.st = .called g) : f.attempt = some g := by unfold RetryFut.attempt; rw [h]
theorem attempt_waiting {f : RLFut P S} {r : P.ρ} (h : f.st = .waiting r) : f.attempt = none := by unfold RetryFut.attempt; rw [h]
theorem attempt_retrying {f : RLFut P S} (h : f.st = .retrying) : f.attempt = none := by unfold RetryFut.attempt; rw [h]

/-- a future after an iteration -/
theorem idle_replace {l r : List (RLFut P S)} {f f' : RLFut P S} {arr arr' : List Nat} (h : ∀ g ∈ l ++ f :: r, g.retrying = false → g.retry.service.permit = false ∧ g.retry.service.sem ∉ arr)
    (h1 : ∀ g ∈ l ++ r, g.retry.service.sem ∉ arr → g.retry.service.sem ∉ arr') (h2 : f'.retrying = false → f'.retry.service.permit = false ∧ f'.retry.service.sem ∉ arr') :
    ∀ g ∈ l ++ f' :: r, g.retrying = false → g.retry.service.permit = false ∧ g.retry.service.sem ∉ arr' := by
  intro g hg hr
  have : g ∈ l ++ r ∨ g = f' := by
    rcases List.mem_append.1 hg with hg | hg
    · exact Or.inl (List.mem_append_left _ hg)
    · rcases List.mem_cons.1 hg with rfl | hg
      · exact Or.inr rfl
      · exact Or.inl (List.mem_append_right _ hg)
  rcases this with hg | rfl
  · have hm : g ∈ l ++ f :: r := by
      rcases List.mem_append.1 hg with hg | hg
      · exact List.mem_append_left _ hg
      · exact List.mem_append_right _ (List.mem_cons_of_mem _ hg)
    obtain ⟨a, b⟩ := h g hm hr
    exact ⟨a, h1 g hg b⟩
  · exact h2 hr

theorem mem_services {l r : List (RLFut P S)} {g : RLFut P S} (h : g ∈ l ++ r) : g.retry.service ∈ l.map (·.retry.service) ++ r.map (·.retry.service) := by
  rw [← List.map_append]; exact List.mem_map_of_mem h

theorem RStep.inv {x x' : RStack P S} {arr : List Nat} (hx : RLInv debug max x arr) (h : RStep debug fuel P S x x') : ∃ arr', RLInv debug max x' arr' := by
  obtain ⟨sem, hs, fs, next⟩ := x
  cases h with
  | layer p i => exact ⟨arr, (hx.lim.withSem i).perm (by simp [RStack.limHs]) (List.Perm.refl _), hx.idle⟩
  | @ready l r s s' p sem' w w' hl hr =>
    simp only at hl hr; subst hl
    obtain ⟨⟨q, i⟩, ⟨s1, w1⟩, h1, h2⟩ := run_bind_eq_ok.1 hr
    cases h2
    have hL := hx.lim.perm (RStack.limHs_handle rfl) (List.Perm.refl _)
    obtain ⟨arr', h3, h4, h5⟩ := hL.ready h1
    refine ⟨arr', h3.perm (RStack.limHs_handle (x := ⟨sem', l ++ ⟨s.policy, i⟩ :: r, fs, next⟩) (s := ⟨s.policy, i⟩) rfl).symm (List.Perm.refl _), ?_⟩
    intro f hf hfr
    obtain ⟨a, b⟩ := hx.idle f hf hfr
    refine ⟨a, fun hc => ?_⟩
    rcases h4 _ hc with hc | hc
    · exact b hc
    · exact hL.names (t := f.retry.service) (List.mem_append_right _ (List.mem_map_of_mem hf)) hc
  | @call l r s s' f q sem' w w' hl hr =>
    simp only at hl hr; subst hl
    have hr' : ((Retry fuel (P.snd Sem) (LimSvc debug S)).call s q).run (sem, w) = .ok (f, s') (sem', w') := hr
    unfold Retry at hr'
    simp only at hr'
    rw [run_bind, run_lift] at hr'
    obtain ⟨⟨g, i⟩, ⟨s1, w1⟩, h1, h2⟩ := run_bind_eq_ok.1 hr'
    cases h2
    have hL := hx.lim.perm (RStack.limHs_handle rfl) (List.Perm.refl _)
    have h3 := hL.call h1
    have h4 := LimAt.clone (S := S) (debug := debug) (s := (i : ConcState S.σ Nat)) h3 List.mem_cons_self
    refine ⟨arr, ⟨h4.perm ?_ (List.Perm.refl _), ?_⟩⟩
    · refine List.Perm.trans ?_ (RStack.limHs_handle (x := ⟨sem', l ++ _ :: r, _ :: fs, next + 1⟩) rfl).symm
      refine (List.Perm.swap _ _ _).trans ((List.perm_cons _).2 ?_)
      exact List.perm_middle.symm
    · intro f' hf' hfr
      rcases List.mem_cons.1 hf' with rfl | hf'
      · refine ⟨rfl, fun hc => ?_⟩
        obtain ⟨t, ht, he, _⟩ := h3.inv.waiting _ hc
        have := h3.inv.bound t ht
        simp only at he this
        omega
      · exact hx.idle f' hf' hfr
  | @returns l r f f' p sem' w w' hl hr =>
    simp only at hl hr; subst hl
    have hL := hx.lim.perm (RStack.limHs_future rfl) (List.Perm.refl _)
    rcases retryIter_cases hr with ⟨g, p1, g', w1, f1, e1, e2, ⟨q, e3, e4⟩ | ⟨e3, _⟩, e5⟩ | ⟨r1, f1, e1, e2, ⟨q, r', e3, e4⟩ | ⟨e3, _⟩, e5⟩ | ⟨p1, s1, sem1, w1, f1, e1, e2, ⟨q, e3, e4, e5, e6⟩ | ⟨q, g, w2, _, e3, _⟩⟩
    · cases e3
      have h3 := (hL.perm (List.Perm.refl _) (limFs_some (attempt_called e1))).poll e2
      refine ⟨arr, h3.perm ?_ (limFs_some (attempt_called e4)).symm, ?_⟩
      · rw [← e5]; exact (RStack.limHs_future (x := ⟨sem', hs, l ++ f' :: r, next⟩) rfl).symm
      · refine idle_replace hx.idle (fun _ _ h => h) (fun _ => ?_)
        rw [e5]; exact hx.idle f (by simp) (by simp [RetryFut.retrying, e1])
    · cases e3
    · cases e3
      subst e2
      refine ⟨arr, hL.perm ?_ ?_, ?_⟩
      · rw [← e5]; exact (RStack.limHs_future (x := ⟨sem', hs, l ++ f' :: r, next⟩) rfl).symm
      · show ((l ++ f :: r).filterMap _).Perm ((l ++ f' :: r).filterMap _)
        rw [limFs_none (attempt_waiting e1), limFs_none (attempt_waiting e4)]
      · refine idle_replace hx.idle (fun _ _ h => h) (fun _ => ?_)
        rw [e5]; exact hx.idle f (by simp) (by simp [RetryFut.retrying, e1])
    · cases e3
    · cases e3
      subst e6
      obtain ⟨arr', h3, h4, h5⟩ := hL.ready e2
      refine ⟨arr', h3.perm ?_ ?_, ?_⟩
      · rw [← e5]; exact (RStack.limHs_future (x := ⟨sem', hs, l ++ f' :: r, next⟩) rfl).symm
      · show ((l ++ f :: r).filterMap _).Perm ((l ++ f' :: r).filterMap _)
        rw [limFs_none (attempt_retrying e1), limFs_none (attempt_retrying e4)]
      · refine idle_replace hx.idle (fun g hg hn hc => ?_) (fun hc => ?_)
        · rcases h4 _ hc with hc | hc
          · exact hn hc
          · exact hL.names (t := g.retry.service) (List.mem_append_right _ (mem_services hg)) hc
        · simp [RetryFut.retrying, e4] at hc
    · cases e3
  | @goes_on l r f f' sem' w w' hl hr =>
    simp only at hl hr; subst hl
    have hL := hx.lim.perm (RStack.limHs_future rfl) (List.Perm.refl _)
    rcases retryIter_cases hr with ⟨g, p1, g', w1, f1, e1, e2, ⟨q, e3, e4⟩ | ⟨e3, r1, e4⟩, e5⟩ | ⟨r1, f1, e1, e2, ⟨q, r', e3, e4⟩ | ⟨e3, e4⟩, e5⟩ | ⟨p1, s1, sem1, w1, f1, e1, e2, ⟨q, e3, e4, e5, e6⟩ | ⟨q, g, w2, rfl, e3, e4, e5⟩⟩
    · cases e3
    · cases e3
      have h3 := ((hL.perm (List.Perm.refl _) (limFs_some (attempt_called e1))).poll e2).dropFut
      refine ⟨arr, ?_, ?_⟩
      · have hd : dropAttempt f.st f'.st sem' = sem'.release := by rw [e1, e4]; rfl
        rw [hd]
        refine h3.perm ?_ ?_
        · rw [← e5]; exact (RStack.limHs_future (x := ⟨sem', hs, l ++ f' :: r, next⟩) rfl).symm
        · show List.Perm _ ((l ++ f' :: r).filterMap _)
          rw [limFs_none (attempt_waiting e4)]
      · refine idle_replace hx.idle (fun _ _ h => h) (fun _ => ?_)
        rw [e5]; exact hx.idle f (by simp) (by simp [RetryFut.retrying, e1])
    · cases e3
    · cases e3
      subst e2
      have hd : dropAttempt f.st f'.st sem' = sem' := by rw [e1, e4]; rfl
      rw [hd]
      refine ⟨arr, hL.perm ?_ ?_, ?_⟩
      · rw [← e5]; exact (RStack.limHs_future (x := ⟨sem', hs, l ++ f' :: r, next⟩) rfl).symm
      · show ((l ++ f :: r).filterMap _).Perm ((l ++ f' :: r).filterMap _)
        rw [limFs_none (attempt_waiting e1), limFs_none (attempt_retrying e4)]
      · refine idle_replace hx.idle (fun _ _ h => h) (fun hc => ?_)
        simp [RetryFut.retrying, e4] at hc
    · cases e3
    · cases e3
      have hd : dropAttempt f.st f'.st sem' = sem' := by rw [e1, e4]; rfl
      rw [hd]
      obtain ⟨arr', h3, h4, h5⟩ := hL.ready e2
      have h6 := h3.call e5
      obtain ⟨n1, n2, n3, _⟩ := limCall_cases e5
      refine ⟨arr', h6.perm ?_ ?_, ?_⟩
      · exact (RStack.limHs_future (x := ⟨sem', hs, l ++ f' :: r, next⟩) rfl).symm
      · refine List.Perm.trans ?_ (limFs_some (attempt_called e4)).symm
        refine (List.perm_cons _).2 ?_
        show ((l ++ f :: r).filterMap _).Perm _
        rw [limFs_none (attempt_retrying e1)]
      · refine idle_replace hx.idle (fun g hg hn hc => ?_) (fun _ => ⟨n3, ?_⟩)
        · rcases h4 _ hc with hc | hc
          · exact hn hc
          · exact hL.names (t := g.retry.service) (List.mem_append_right _ (mem_services hg)) hc
        · rw [n1]
          have := (limReady_cases e2).1
          rw [this]
          exact h5 n2
  | @drop_future l r f hl =>
    simp only at hl; subst hl
    have hL := hx.lim.perm (RStack.limHs_future rfl) (List.Perm.refl _)
    have h3 := hL.dropHandle
    have hidle : ∀ g ∈ l ++ r, g.retrying = false → g.retry.service.permit = false ∧ g.retry.service.sem ∉ arr.erase f.retry.service.sem := by
      intro g hg hgr
      have hm : g ∈ l ++ f :: r := by
        rcases List.mem_append.1 hg with hg | hg
        · exact List.mem_append_left _ hg
        · exact List.mem_append_right _ (List.mem_cons_of_mem _ hg)
      obtain ⟨a, b⟩ := hx.idle g hm hgr
      exact ⟨a, fun hc => b (List.mem_of_mem_erase hc)⟩
    have hp : (hs.map (·.service) ++ (l.map (·.retry.service) ++ r.map (·.retry.service))).Perm (RStack.limHs (⟨sem, hs, l ++ r, next⟩ : RStack P S)) := by
      unfold RStack.limHs; simp
    cases hst : f.st with
    | called g =>
      refine ⟨_, ?_, hidle⟩
      have h4 := (h3.perm hp (limFs_some (attempt_called hst))).dropFut
      exact h4.perm (List.Perm.refl _) (by unfold RStack.limFs; simp)
    | waiting w =>
      refine ⟨_, ?_, hidle⟩
      refine h3.perm hp ?_
      unfold RStack.limFs
      simp only
      rw [limFs_none (attempt_waiting hst)]; simp
    | retrying =>
      refine ⟨_, ?_, hidle⟩
      refine h3.perm hp ?_
      unfold RStack.limFs
      simp only
      rw [limFs_none (attempt_retrying hst)]; simp
  | @clone s c hs' hc =>
    simp only at hs'
    subst hc
    have h3 := hx.lim.clone (s := s.service) (List.mem_append_left _ (List.mem_map_of_mem hs'))
    exact ⟨arr, h3.perm (by simp [RStack.limHs, RetryLim, Retry]) (List.Perm.refl _), hx.idle⟩
  | @drop_handle l r s hl =>
    simp only at hl; subst hl
    have hL := hx.lim.perm (RStack.limHs_handle rfl) (List.Perm.refl _)
    refine ⟨_, hL.dropHandle.perm (by simp [RStack.limHs]) (List.Perm.refl _), ?_⟩
    intro f hf hfr
    obtain ⟨a, b⟩ := hx.idle f hf hfr
    exact ⟨a, fun hc => b (List.mem_of_mem_erase hc)⟩

theorem RHist.inv {x : RStack P S} (h : RHist debug fuel max P S x) : ∃ arr, RLInv debug max x arr := by
  induction h with
  | new p i => exact ⟨[], ⟨⟨_, LimHist.new i, rfl, List.Perm.refl _, List.Perm.refl _, rfl⟩, by simp⟩⟩
  | step _ hs ih => obtain ⟨arr, ha⟩ := ih; exact hs.inv ha

theorem holders_eq (x : RStack P S) : (⟨x.sem, x.limHs, x.limFs, x.next⟩ : Lim S).holders = x.reserved := by
  unfold Lim.holders RStack.reserved RStack.limHs
  simp only [List.countP_append, List.countP_map]
  rfl

/-! ## Theorems -/

/-- **C69.** Attempts in flight, first ones and retries, of all clones together, plus reserved capacity, never exceed the limit. -/
theorem C69_bound {x : RStack P S} (h : RHist debug fuel max P S x) : x.attempts + x.reserved ≤ max := by
  obtain ⟨arr, hi⟩ := h.inv
  have := hi.lim.inv.conserved
  rw [holders_eq] at this
  have e : x.attempts = x.limFs.length := rfl
  simp only at this
  omega

/-- **C69.** A response future between two attempts (the policy's future is not finished), or with an attempt in flight, holds nothing of the limit besides that attempt: no permit, no place in the queue. -/
theorem C69_waiting_holds_nothing {x : RStack P S} (h : RHist debug fuel max P S x) {f : RLFut P S} (hf : f ∈ x.fs) (hst : f.st ≠ .retrying) :
    f.retry.service.permit = false ∧ f.retry.service.sem ∉ x.sem.granted ∧ f.retry.service.sem ∉ x.sem.queue := by
  obtain ⟨arr, hi⟩ := h.inv
  have hr : f.retrying = false := by
    unfold RetryFut.retrying
    cases hs : f.st with
    | retrying => exact absurd hs hst
    | called _ => rfl
    | waiting _ => rfl
  obtain ⟨h1, h2⟩ := hi.idle f hf hr
  rw [hi.lim.inv.order] at h2
  simp only [List.mem_append, not_or] at h2
  exact ⟨h1, h2⟩

/-- **C69.** If a response future that wants to retry (or a handle) cannot get a permit now, then all `max` permits are used: by attempts in flight, by what has reserved capacity, and by those first in the queue, to which one was assigned. -/
theorem C69_blocked {x : RStack P S} (h : RHist debug fuel max P S x) {n : Nat} (hb : x.wouldGet n = false) : x.attempts + x.reserved + x.sem.granted.length = max := by
  obtain ⟨arr, hi⟩ := h.inv
  have hc := hi.lim.inv.conserved
  rw [holders_eq] at hc
  have e : x.attempts = x.limFs.length := rfl
  have hbusy := hi.lim.inv.busy
  simp only at hc hbusy
  have : x.sem.permits = 0 := by
    unfold RStack.wouldGet Sem.pollAcquire at hb
    split at hb
    · cases hb
    · split at hb
      · rename_i hq; exact hbusy (List.ne_nil_of_mem hq)
      · split at hb
        · cases hb
        · omega
  omega

/-- **C69.** Retries do not block each other: if fewer than `max` attempts are in flight or reserved and somebody waits for a permit, then the one who waits longest would get one now. It is a handle, or a response future that wants to retry. -/
theorem C69_progress {x : RStack P S} (h : RHist debug fuel max P S x) (hlt : x.attempts + x.reserved < max) {n : Nat} (hn : n ∈ x.sem.granted ++ x.sem.queue) :
    ∃ m rest, x.sem.granted ++ x.sem.queue = m :: rest ∧ x.wouldGet m = true ∧
      ((∃ s ∈ x.hs, s.service.sem = m ∧ s.service.permit = false) ∨ ∃ f ∈ x.fs, f.st = .retrying ∧ f.retry.service.sem = m ∧ f.retry.service.permit = false) := by
  obtain ⟨arr, hi⟩ := h.inv
  have hc := hi.lim.inv.conserved
  rw [holders_eq] at hc
  have e : x.attempts = x.limFs.length := rfl
  have hbusy := hi.lim.inv.busy
  have hord := hi.lim.inv.order
  simp only at hc hbusy hord
  have hg : x.sem.granted ≠ [] := by
    intro hg
    rw [hg] at hn hc
    have := hbusy (List.ne_nil_of_mem (by simpa using hn))
    simp only [List.length_nil] at hc
    omega
  obtain ⟨m, g, hmg⟩ := List.exists_cons_of_ne_nil hg
  refine ⟨m, g ++ x.sem.queue, by rw [hmg]; rfl, ?_, ?_⟩
  · unfold RStack.wouldGet Sem.pollAcquire
    rw [if_pos (by rw [hmg]; simp)]
  · have hm : m ∈ arr := by rw [hord, hmg]; simp
    obtain ⟨s, hs, h1, h2⟩ := hi.lim.inv.waiting m hm
    simp only [RStack.limHs, List.mem_append, List.mem_map] at hs
    rcases hs with ⟨t, ht, rfl⟩ | ⟨f, hf, rfl⟩
    · exact Or.inl ⟨t, ht, h1, h2⟩
    · refine Or.inr ⟨f, hf, ?_, h1, h2⟩
      by_contra hne
      have := C69_waiting_holds_nothing h hf hne
      rw [h1, hmg] at this
      exact this.2.1 (by simp)

/-- **C69.** An attempt is only made by one who has reserved capacity, and only then; and when the attempt fails and the policy wants to wait, its permit is free at once, before the wait. -/
theorem C69_release_before_wait {x : RStack P S} (h : RHist debug fuel max P S x) {l r : List (RLFut P S)} {f f' : RLFut P S} {sem' : Sem} {w w' : W} (hl : x.fs = l ++ f :: r)
    (hr : (retryStep (P.snd Sem) (LimSvc debug S) f).run (x.sem, w) = .ok (.inr f') (sem', w')) {q : P.ρ} (hq : f'.st = .waiting q) :
    sem' = x.sem ∧ RHist debug fuel max P S { x with sem := x.sem.release, fs := l ++ f' :: r } ∧ ({ x with sem := x.sem.release, fs := l ++ f' :: r } : RStack P S).attempts + 1 = x.attempts := by
  rcases retryIter_cases hr with ⟨g, p1, g', w1, f1, e1, e2, ⟨q, e3, e4⟩ | ⟨e3, r1, e4⟩, e5⟩ | ⟨r1, f1, e1, e2, ⟨q, r', e3, e4⟩ | ⟨e3, e4⟩, e5⟩ | ⟨p1, s1, sem1, w1, f1, e1, e2, ⟨q, e3, e4, e5, e6⟩ | ⟨q, g, w2, rfl, e3, e4, e5⟩⟩
  · cases e3
  · cases e3
    have hs : sem' = x.sem := by
      obtain ⟨_, h5⟩ := snd_eq_ok.1 e2
      exact h5
    subst hs
    refine ⟨rfl, ?_, ?_⟩
    · have := RHist.step h (RStep.goes_on hl hr)
      rw [e1, e4] at this
      exact this
    · show ((l ++ f' :: r).filterMap _).length + 1 = (x.fs.filterMap _).length
      rw [hl, limFs_none (attempt_waiting e4), (limFs_some (attempt_called e1)).length_eq]
      rfl
  · cases e3
  · cases e3; rw [hq] at e4; cases e4
  · cases e3
  · cases e3; rw [hq] at e4; cases e4

/-- **C69.** When all handles and response futures are dropped, at whatever moment of their lives, all permits are back. -/
theorem C69_all_dropped {x : RStack P S} (h : RHist debug fuel max P S x) (h1 : x.hs = []) (h2 : x.fs = []) : x.sem = Sem.new max := by
  obtain ⟨arr, hi⟩ := h.inv
  obtain ⟨y, g1, g2, g3, g4, g5⟩ := hi.lim
  rw [← g2]
  refine C05_all_dropped g1 ?_ ?_
  · have : x.limHs = [] := by simp [RStack.limHs, h1, h2]
    rw [this] at g3; exact g3.eq_nil
  · have : x.limFs = [] := by simp [RStack.limFs, h2]
    rw [this] at g4; exact g4.eq_nil

/-! ## Examples -/

namespace Demo69

/-- an inner service whose every request fails -/
def inner : Service Unit Nat Nat Nat where
  σ := Unit
  φ := Nat
  pollReady _ := pure (.ready (.ok ()), ())
  call _ r := pure (r, ())
  poll r := pure (.ready (.error r), r)
  clone := id

/-- retry every error, with a wait that is over when it is polled a second time -/
def policy : RetryPolicy Unit Nat Nat Nat where
  π := Unit
  ρ := Bool
  retry _ q r w := (match r with
    | .ok a => (none, (), q, .ok a)
    | .error e => (some false, (), q, .error e), w)
  cloneRequest _ q w := ((some q, ()), w)
  wait b w := ((if b then .ready () else .pending, true), w)
  clone := id

/-- the only handle -/
abbrev H (b : Bool) : RetryState policy.π (ConcState inner.σ Nat) := ⟨(), ⟨(), 0, b⟩⟩
/-- the response future of request `q`, with clone `n` of the limit -/
abbrev fut (q n : Nat) (st : RetrySt Nat Bool) : RLFut policy inner := ⟨some q, ⟨(), ⟨(), n, false⟩⟩, st⟩
abbrev Hist1 (x : RStack policy inner) : Prop := RHist true 9 1 policy inner x

theorem h_ready : Hist1 ⟨⟨0, [], []⟩, [H true], [], 1⟩ :=
  (RHist.new () ()).step (RStep.ready (l := []) (r := []) (s := H false) (s' := H true) (w := ()) (w' := ()) (sem' := ⟨0, [], []⟩) (p := .ready (.ok ())) rfl rfl)
theorem h_call : Hist1 ⟨⟨0, [], []⟩, [H false], [fut 7 1 (.called 7)], 2⟩ :=
  h_ready.step (RStep.call (l := []) (r := []) (s := H true) (s' := H false) (f := fut 7 0 (.called 7)) (q := 7) (w := ()) (w' := ()) (sem' := ⟨0, [], []⟩) rfl rfl)
/-- limit 1: the attempt of the first request failed and its future waits -/
theorem h_wait : Hist1 ⟨⟨1, [], []⟩, [H false], [fut 7 1 (.waiting false)], 2⟩ :=
  h_call.step (RStep.goes_on (l := []) (r := []) (f := fut 7 1 (.called 7)) (f' := fut 7 1 (.waiting false)) (w := ()) (w' := ()) (sem' := ⟨0, [], []⟩) rfl rfl)

/-- the hypotheses of `C69_release_before_wait`: an attempt in flight that fails and is followed by a wait -/
example : ∃ x : RStack policy inner, Hist1 x ∧ x.attempts = 1 ∧ ∃ f f' q, x.fs = [] ++ f :: [] ∧
    (retryStep (policy.snd Sem) (LimSvc true inner) f).run (x.sem, ()) = .ok (.inr f') (x.sem, ()) ∧ f'.st = .waiting q :=
  ⟨_, h_call, rfl, fut 7 1 (.called 7), fut 7 1 (.waiting false), false, rfl, rfl, rfl⟩

theorem h_wait_ready : Hist1 ⟨⟨0, [], []⟩, [H true], [fut 7 1 (.waiting false)], 2⟩ :=
  h_wait.step (RStep.ready (l := []) (r := []) (s := H false) (s' := H true) (w := ()) (w' := ()) (sem' := ⟨0, [], []⟩) (p := .ready (.ok ())) rfl rfl)
theorem h_two : Hist1 ⟨⟨0, [], []⟩, [H false], [fut 8 2 (.called 8), fut 7 1 (.waiting false)], 3⟩ :=
  h_wait_ready.step (RStep.call (l := []) (r := []) (s := H true) (s' := H false) (f := fut 8 0 (.called 8)) (q := 8) (w := ()) (w' := ()) (sem' := ⟨0, [], []⟩) rfl rfl)
theorem h_two1 : Hist1 ⟨⟨0, [], []⟩, [H false], [fut 8 2 (.called 8), fut 7 1 (.waiting true)], 3⟩ :=
  h_two.step (RStep.returns (l := [fut 8 2 (.called 8)]) (r := []) (f := fut 7 1 (.waiting false)) (f' := fut 7 1 (.waiting true)) (p := .pending) (w := ()) (w' := ()) (sem' := ⟨0, [], []⟩) rfl rfl)
theorem h_two2 : Hist1 ⟨⟨0, [], []⟩, [H false], [fut 8 2 (.called 8), fut 7 1 .retrying], 3⟩ :=
  h_two1.step (RStep.goes_on (l := [fut 8 2 (.called 8)]) (r := []) (f := fut 7 1 (.waiting true)) (f' := fut 7 1 .retrying) (w := ()) (w' := ()) (sem' := ⟨0, [], []⟩) rfl rfl)
/-- while the future waits, a handle makes another call, and the retry has to queue -/
theorem h_blocked : Hist1 ⟨⟨0, [1], []⟩, [H false], [fut 8 2 (.called 8), fut 7 1 .retrying], 3⟩ :=
  h_two2.step (RStep.returns (l := [fut 8 2 (.called 8)]) (r := []) (f := fut 7 1 .retrying) (f' := fut 7 1 .retrying) (p := .pending) (w := ()) (w' := ()) (sem' := ⟨0, [1], []⟩) rfl rfl)

/-- the hypotheses of `C69_blocked` -/
example : ∃ x : RStack policy inner, Hist1 x ∧ x.wouldGet 1 = false ∧ x.attempts = 1 := ⟨_, h_blocked, rfl, rfl⟩

/-- when that other call fails too, its permit goes to the retry that waits: the hypotheses of `C69_progress` -/
example : ∃ x : RStack policy inner, Hist1 x ∧ x.attempts + x.reserved < 1 ∧ x.sem.granted ++ x.sem.queue = [1] ∧ x.wouldGet 1 = true :=
  ⟨_, h_blocked.step (RStep.goes_on (l := []) (r := [fut 7 1 .retrying]) (f := fut 8 2 (.called 8)) (f' := fut 8 2 (.waiting false)) (w := ()) (w' := ()) (sem' := ⟨0, [1], []⟩) rfl rfl), by decide, rfl, rfl⟩

/-- **Hazard.** A handle that was polled ready and is then left alone keeps its permit: a retry of an accepted request can wait for it although no attempt is in flight. -/
theorem C69_idle_handle_blocks : ∃ x : RStack policy inner, Hist1 x ∧ x.attempts = 0 ∧ ∃ f ∈ x.fs, f.st = .retrying ∧ x.wouldGet f.retry.service.sem = false := by
  have h2 := h_wait_ready.step (RStep.returns (l := []) (r := []) (f := fut 7 1 (.waiting false)) (f' := fut 7 1 (.waiting true)) (p := .pending) (w := ()) (w' := ()) (sem' := ⟨0, [], []⟩) rfl rfl)
  have h3 := h2.step (RStep.goes_on (l := []) (r := []) (f := fut 7 1 (.waiting true)) (f' := fut 7 1 .retrying) (w := ()) (w' := ()) (sem' := ⟨0, [], []⟩) rfl rfl)
  exact ⟨_, h3, rfl, fut 7 1 .retrying, List.mem_cons_self, rfl, rfl⟩

/-- all dropped while an attempt is in flight: all permits are back -/
example : ∃ x : RStack policy inner, Hist1 x ∧ x.hs = [] ∧ x.fs = [] ∧ x.sem = Sem.new 1 := by
  have h2 := h_call.step (RStep.drop_handle (l := []) (r := []) (s := H false) rfl)
  have h3 := h2.step (RStep.drop_future (l := []) (r := []) (f := fut 7 1 (.called 7)) rfl)
  exact ⟨_, h3, rfl, rfl, rfl⟩

end Demo69

end Tower
