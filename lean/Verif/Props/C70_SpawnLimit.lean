import Verif.Model.SpawnLimit
import Verif.Props.C69_RetryLimit

/-! # C70: SpawnReady over a concurrency limit: background tasks, aborts, drops -/

set_option linter.unusedSimpArgs false

namespace Tower
open Act
variable {W Req Res Err : Type} {debug : Bool} {max : Nat} {S : Service W Req Res Err}

/-! ## Specification -/

/-- the service a handle has in its hands -/
def SRHandle.svc {σ : Type} (h : SRHandle σ) : Option σ :=
  match h.inner with
  | .service o => o
  | .future _ => none

/-- the task a handle waits for -/
def SRHandle.task {σ : Type} (h : SRHandle σ) : Option Nat :=
  match h.inner with
  | .service _ => none
  | .future t => some t

/-- the service in a task -/
def STask.svc {σ E : Type} : STask σ E → Option σ
  | .running s => some s
  | .aborted s => some s
  | .output (.ok s) => some s
  | .output (.error _) => none
  | .failed => none
  | .gone => none

/-- every clone of the limit there is: in the hands of handles and in tasks -/
def SRStack.services (x : SRStack S) : List (ConcState S.σ Nat) := x.hs.filterMap SRHandle.svc ++ x.ts.filterMap STask.svc

/-- how many have reserved capacity for their next call -/
def SRStack.reserved (x : SRStack S) : Nat := x.services.countP (fun s => s.permit)

/-- would polling this clone of the limit get it a permit now? -/
def SRStack.wouldGet (x : SRStack S) (n : Nat) : Bool := (x.sem.pollAcquire n).1

/-- aborted, the runtime has still to drop it -/
def STask.isAborted {σ E : Type} : STask σ E → Bool
  | .aborted _ => true
  | _ => false

/-- a handle can still learn something from it -/
def STask.live {σ E : Type} : STask σ E → Bool
  | .running _ => true
  | .output _ => true
  | .failed => true
  | .aborted _ => false
  | .gone => false

/-! ## Proofs -/

theorem perm_swap3 {α : Type} (a b c : List α) : (a ++ (b ++ c)).Perm (b ++ (a ++ c)) := by
  rw [← List.append_assoc, ← List.append_assoc]
  exact List.Perm.append_right _ List.perm_append_comm

theorem fm_mid {α β : Type} (f : α → Option β) (l r : List α) (a : α) : ((l ++ a :: r).filterMap f).Perm ((f a).toList ++ (l.filterMap f ++ r.filterMap f)) := by
  rw [List.filterMap_append]
  cases h : f a with
  | none => rw [List.filterMap_cons_none h]; exact List.Perm.refl _
  | some b => rw [List.filterMap_cons_some h]; exact List.perm_middle

/-- the tasks that handles wait for -/
def SRStack.owners (x : SRStack S) : List Nat := x.hs.filterMap SRHandle.task

structure SRInv (debug : Bool) (max : Nat) (x : SRStack S) (arr : List Nat) : Prop where
  lim : LimAt debug max S x.sem x.services x.fs x.next arr
  full : ∀ h ∈ x.hs, h.inner ≠ .service none
  uniq : x.owners.Nodup
  link : ∀ k ∈ x.owners, ∃ t, x.ts[k]? = some t ∧ t.isAborted = false
  live : ∀ (k : Nat) t, x.ts[k]? = some t → t.live = true → k ∈ x.owners

theorem SRStack.services_h {x : SRStack S} {l r : List (SRHandle (ConcState S.σ Nat))} {h : SRHandle (ConcState S.σ Nat)} (e : x.hs = l ++ h :: r) :
    x.services.Perm (h.svc.toList ++ (l.filterMap SRHandle.svc ++ r.filterMap SRHandle.svc ++ x.ts.filterMap STask.svc)) := by
  unfold SRStack.services
  rw [e, ← List.append_assoc]
  exact List.Perm.append_right _ (fm_mid _ _ _ _)

theorem SRStack.services_t {x : SRStack S} {l r : List (STask (ConcState S.σ Nat) Err)} {t : STask (ConcState S.σ Nat) Err} (e : x.ts = l ++ t :: r) :
    x.services.Perm (t.svc.toList ++ (x.hs.filterMap SRHandle.svc ++ (l.filterMap STask.svc ++ r.filterMap STask.svc))) := by
  unfold SRStack.services
  rw [e]
  exact (List.Perm.append_left _ (fm_mid _ _ _ _)).trans (perm_swap3 _ _ _)

theorem SRStack.services_ht {x : SRStack S} {l r : List (SRHandle (ConcState S.σ Nat))} {h : SRHandle (ConcState S.σ Nat)} {tl tr : List (STask (ConcState S.σ Nat) Err)} {t : STask (ConcState S.σ Nat) Err}
    (e : x.hs = l ++ h :: r) (e' : x.ts = tl ++ t :: tr) :
    x.services.Perm (h.svc.toList ++ t.svc.toList ++ ((l.filterMap SRHandle.svc ++ r.filterMap SRHandle.svc) ++ (tl.filterMap STask.svc ++ tr.filterMap STask.svc))) := by
  refine (SRStack.services_h e).trans ?_
  rw [e', List.append_assoc h.svc.toList]
  refine List.Perm.append_left _ ?_
  exact (List.Perm.append_left _ (fm_mid _ _ _ _)).trans (perm_swap3 _ _ _)

theorem SRStack.owners_mid {x : SRStack S} {l r : List (SRHandle (ConcState S.σ Nat))} {h : SRHandle (ConcState S.σ Nat)} (e : x.hs = l ++ h :: r) :
    x.owners.Perm (h.task.toList ++ (l.filterMap SRHandle.task ++ r.filterMap SRHandle.task)) := by
  unfold SRStack.owners; rw [e]; exact fm_mid _ _ _ _

/-- a panic in `poll_ready`, after which the service is dropped -/
theorem LimAt.readyPanics {sem sem' : Sem} {s : ConcState S.σ Nat} {T : List (ConcState S.σ Nat)} {fs : List S.φ} {next : Nat} {arr : List Nat} (h : LimAt debug max S sem (s :: T) fs next arr) {i : S.σ}
    (hr : s.permit = true ∧ sem' = sem ∨ s.permit = false ∧ sem.pollAcquire s.sem = (true, sem')) : ∃ arr', LimAt debug max S sem' (⟨i, s.sem, true⟩ :: T) fs next arr' := by
  obtain ⟨y, h1, h2, h3, h4, h5⟩ := h
  subst h2
  obtain ⟨u, v, hu, hp⟩ := perm_split h3
  have := LimHist.ready_panics (i := i) h1 hu hr
  exact ⟨_, _, this, rfl, List.perm_middle.trans ((List.perm_cons _).2 hp), h4, h5⟩

/-- replacing a handle by one with the same task leaves the links -/
theorem full_mid {l r : List (SRHandle (ConcState S.σ Nat))} {h h' : SRHandle (ConcState S.σ Nat)} (hf : ∀ g ∈ l ++ h :: r, g.inner ≠ .service none) (hh : h'.inner ≠ .service none) :
    ∀ g ∈ l ++ h' :: r, g.inner ≠ .service none := by
  intro g hg
  rcases List.mem_append.1 hg with hg | hg
  · exact hf g (List.mem_append_left _ hg)
  · rcases List.mem_cons.1 hg with rfl | hg
    · exact hh
    · exact hf g (List.mem_append_right _ (List.mem_cons_of_mem _ hg))

theorem full_drop {l r : List (SRHandle (ConcState S.σ Nat))} {h : SRHandle (ConcState S.σ Nat)} (hf : ∀ g ∈ l ++ h :: r, g.inner ≠ .service none) : ∀ g ∈ l ++ r, g.inner ≠ .service none := by
  intro g hg
  rcases List.mem_append.1 hg with hg | hg
  · exact hf g (List.mem_append_left _ hg)
  · exact hf g (List.mem_append_right _ (List.mem_cons_of_mem _ hg))

theorem get_mid {α : Type} {l r : List α} {a b : α} {k : Nat} (h : (l ++ b :: r)[k]? = some a) : (k = l.length ∧ a = b) ∨ (k ≠ l.length ∧ ∀ c, (l ++ c :: r)[k]? = some a) := by
  by_cases hk : k = l.length
  · subst hk; simp at h; exact Or.inl ⟨rfl, h.symm⟩
  · refine Or.inr ⟨hk, fun c => ?_⟩
    rw [← h]
    by_cases h1 : k < l.length
    · rw [List.getElem?_append_left h1, List.getElem?_append_left h1]
    · rw [List.getElem?_append_right (by omega), List.getElem?_append_right (by omega)]
      obtain ⟨n, hn⟩ : ∃ n, k - l.length = n + 1 := ⟨k - l.length - 1, by omega⟩
      rw [hn]; rfl

/-- the links do not change if a task changes but stays live (or stays as dead and unowned as it was) -/
theorem SRInv.links_task {x : SRStack S} {arr : List Nat} (hx : SRInv debug max x arr) {tl tr : List (STask (ConcState S.σ Nat) Err)} {t t' : STask (ConcState S.σ Nat) Err} (e : x.ts = tl ++ t :: tr)
    (h1 : t'.isAborted = false) (h2 : t'.live = true → t.live = true) :
    (∀ k ∈ x.owners, ∃ u, (tl ++ t' :: tr)[k]? = some u ∧ u.isAborted = false) ∧ (∀ (k : Nat) u, (tl ++ t' :: tr)[k]? = some u → u.live = true → k ∈ x.owners) := by
  constructor
  · intro k hk
    obtain ⟨u, hu, ha⟩ := hx.link k hk
    rw [e] at hu
    rcases get_mid hu with ⟨rfl, rfl⟩ | ⟨_, h⟩
    · exact ⟨t', by simp, h1⟩
    · exact ⟨u, h t', ha⟩
  · intro k u hu hl
    rcases get_mid hu with ⟨rfl, rfl⟩ | ⟨_, h⟩
    · exact hx.live tl.length t (by rw [e]; simp) (h2 hl)
    · exact hx.live k u (by rw [e]; exact h t) hl

theorem join_cases {σ E : Type} {t t' : STask σ E} {p : JoinPoll σ E} (h : t.join = some (p, t')) (ha : t.isAborted = false) :
    (p = .pending ∧ t' = t ∧ t.live = true) ∨ (∃ s, t = .output (.ok s) ∧ p = .output (.ok s) ∧ t' = .gone) ∨ (t.svc = none ∧ t' = .gone ∧ t.live = true ∧ (p = .error ∨ ∃ e, p = .output (.error e))) := by
  cases t with
  | running s => cases h; exact Or.inl ⟨rfl, rfl, rfl⟩
  | aborted s => cases ha
  | output r =>
    cases r with
    | ok s => cases h; exact Or.inr (Or.inl ⟨s, rfl, rfl, rfl⟩)
    | error e => cases h; exact Or.inr (Or.inr ⟨rfl, rfl, rfl, Or.inr ⟨e, rfl⟩⟩)
  | failed => cases h; exact Or.inr (Or.inr ⟨rfl, rfl, rfl, Or.inl rfl⟩)
  | gone => cases h

theorem SRStep.inv {x x' : SRStack S} {arr : List Nat} (hx : SRInv debug max x arr) (h : SRStep debug S x x') : ∃ arr', SRInv debug max x' arr' := by
  obtain ⟨sem, hs, ts, fs, next⟩ := x
  cases h with
  | layer i =>
    refine ⟨arr, (hx.lim.withSem i).perm ?_ (List.Perm.refl _), ?_, hx.uniq, hx.link, hx.live⟩
    · exact List.Perm.refl _
    · intro h hm
      rcases List.mem_cons.1 hm with rfl | hm
      · simp
      · exact hx.full h hm
  | @enter l r i hl =>
    simp only at hl; subst hl
    have hp : SRStack.services (⟨sem, l ++ ⟨i, true⟩ :: r, ts, fs, next⟩ : SRStack S) = SRStack.services (⟨sem, l ++ ⟨i, false⟩ :: r, ts, fs, next⟩ : SRStack S) := by
      unfold SRStack.services; simp only [List.filterMap_append, List.filterMap_cons]; rfl
    have ho : SRStack.owners (⟨sem, l ++ ⟨i, true⟩ :: r, ts, fs, next⟩ : SRStack S) = SRStack.owners (⟨sem, l ++ ⟨i, false⟩ :: r, ts, fs, next⟩ : SRStack S) := by
      unfold SRStack.owners; simp only [List.filterMap_append, List.filterMap_cons]; rfl
    refine ⟨arr, by rw [hp]; exact hx.lim, full_mid hx.full (hx.full ⟨i, false⟩ (List.mem_append_right _ List.mem_cons_self)), by rw [ho]; exact hx.uniq, by rw [ho]; exact hx.link, by rw [ho]; exact hx.live⟩
  | @returns l r s s' res sem' w w' hl hr =>
    simp only at hl hr; subst hl
    have hL := hx.lim.perm (SRStack.services_h rfl) (List.Perm.refl _)
    obtain ⟨arr', h3, _, _⟩ := hL.ready hr
    have ho : SRStack.owners (⟨sem', l ++ ⟨.service (some s'), false⟩ :: r, ts, fs, next⟩ : SRStack S) = SRStack.owners (⟨sem, l ++ ⟨.service (some s), true⟩ :: r, ts, fs, next⟩ : SRStack S) := by
      unfold SRStack.owners; simp only [List.filterMap_append, List.filterMap_cons]; rfl
    refine ⟨arr', h3.perm (SRStack.services_h (x := ⟨sem', l ++ ⟨.service (some s'), false⟩ :: r, ts, fs, next⟩) rfl).symm (List.Perm.refl _), full_mid hx.full (by simp), by rw [ho]; exact hx.uniq, by rw [ho]; exact hx.link, by rw [ho]; exact hx.live⟩
  | @spawns l r s s' sem' w w' hl hr =>
    simp only at hl hr; subst hl
    have hL := hx.lim.perm (SRStack.services_h rfl) (List.Perm.refl _)
    obtain ⟨arr', h3, _, _⟩ := hL.ready hr
    have ho := SRStack.owners_mid (x := (⟨sem', l ++ ⟨.future ts.length, true⟩ :: r, ts ++ [.running s'], fs, next⟩ : SRStack S)) rfl
    have ho' := SRStack.owners_mid (x := (⟨sem, l ++ ⟨.service (some s), true⟩ :: r, ts, fs, next⟩ : SRStack S)) rfl
    have hnew : ts.length ∉ l.filterMap SRHandle.task ++ r.filterMap SRHandle.task := by
      intro hc
      obtain ⟨t, ht, _⟩ := hx.link ts.length (ho'.mem_iff.2 hc)
      simp at ht
    refine ⟨arr', h3.perm ?_ (List.Perm.refl _), full_mid hx.full (by simp), ?_, ?_, ?_⟩
    · refine List.Perm.trans ?_ (SRStack.services_ht (x := ⟨sem', l ++ ⟨.future ts.length, true⟩ :: r, ts ++ [.running s'], fs, next⟩) (tl := ts) (tr := []) rfl rfl).symm
      simp [SRHandle.svc, STask.svc]
    · refine ho.nodup_iff.2 ?_
      exact List.nodup_cons.2 ⟨hnew, (ho'.nodup_iff.1 hx.uniq)⟩
    · intro k hk
      rcases List.mem_cons.1 (ho.mem_iff.1 hk) with rfl | hk
      · exact ⟨.running s', by simp, rfl⟩
      · obtain ⟨t, ht, ha⟩ := hx.link k (ho'.mem_iff.2 hk)
        exact ⟨t, by simp only at ht ⊢; rw [List.getElem?_append_left (List.getElem?_eq_some_iff.1 ht).1]; exact ht, ha⟩
    · intro k t ht hl
      simp only at ht
      by_cases hk : k < ts.length
      · rw [List.getElem?_append_left hk] at ht
        exact ho.mem_iff.2 (List.mem_cons_of_mem _ (ho'.mem_iff.1 (hx.live k t ht hl)))
      · have : k = ts.length := by
          have := (List.getElem?_eq_some_iff.1 ht).1
          simp at this; omega
        subst this
        exact ho.mem_iff.2 List.mem_cons_self
  | @joins l r tl tr t t' p hl ht hj =>
    simp only at hl ht; subst hl; subst ht
    have ho' := SRStack.owners_mid (x := (⟨sem, l ++ ⟨.future tl.length, true⟩ :: r, tl ++ t :: tr, fs, next⟩ : SRStack S)) rfl
    have hna : t.isAborted = false := by
      obtain ⟨u, hu, ha⟩ := hx.link tl.length (ho'.mem_iff.2 List.mem_cons_self)
      simp at hu; rw [hu]; exact ha
    rcases join_cases hj hna with ⟨rfl, rfl, hlive⟩ | ⟨s, rfl, rfl, rfl⟩ | ⟨hsv, rfl, hlive, hp⟩
    · have hp : SRStack.services (⟨sem, l ++ ⟨.future tl.length, false⟩ :: r, tl ++ t' :: tr, fs, next⟩ : SRStack S) = SRStack.services (⟨sem, l ++ ⟨.future tl.length, true⟩ :: r, tl ++ t' :: tr, fs, next⟩ : SRStack S) := by
        unfold SRStack.services; simp only [List.filterMap_append, List.filterMap_cons]; rfl
      have ho : SRStack.owners (⟨sem, l ++ ⟨.future tl.length, false⟩ :: r, tl ++ t' :: tr, fs, next⟩ : SRStack S) = SRStack.owners (⟨sem, l ++ ⟨.future tl.length, true⟩ :: r, tl ++ t' :: tr, fs, next⟩ : SRStack S) := by
        unfold SRStack.owners; simp only [List.filterMap_append, List.filterMap_cons]; rfl
      simp only [joinNext]
      refine ⟨arr, by rw [hp]; exact hx.lim, full_mid hx.full (by simp), by rw [ho]; exact hx.uniq, by rw [ho]; exact hx.link, by rw [ho]; exact hx.live⟩
    · simp only [joinNext]
      have ho := SRStack.owners_mid (x := (⟨sem, l ++ ⟨.service (some s), true⟩ :: r, tl ++ .gone :: tr, fs, next⟩ : SRStack S)) rfl
      have hnd := List.nodup_cons.1 (ho'.nodup_iff.1 hx.uniq)
      refine ⟨arr, hx.lim.perm ?_ (List.Perm.refl _), full_mid hx.full (by simp), ?_, ?_, ?_⟩
      · refine (SRStack.services_ht rfl rfl).trans ?_
        refine List.Perm.trans ?_ (SRStack.services_ht (x := ⟨sem, l ++ ⟨.service (some s), true⟩ :: r, tl ++ .gone :: tr, fs, next⟩) rfl rfl).symm
        exact List.Perm.refl _
      · exact ho.nodup_iff.2 hnd.2
      · intro k hk
        have hk := ho.mem_iff.1 hk
        obtain ⟨u, hu, ha⟩ := hx.link k (ho'.mem_iff.2 (List.mem_cons_of_mem _ hk))
        rcases get_mid hu with ⟨rfl, rfl⟩ | ⟨_, h⟩
        · exact absurd hk hnd.1
        · exact ⟨u, h _, ha⟩
      · intro k u hu hlv
        rcases get_mid hu with ⟨rfl, rfl⟩ | ⟨hne, h⟩
        · cases hlv
        · have := ho'.mem_iff.1 (hx.live k u (h _) hlv)
          rcases List.mem_cons.1 this with h | h
          · exact absurd h hne
          · exact ho.mem_iff.2 h
    · have hjn : joinNext (σ := ConcState S.σ Nat) (Err := Err) tl.length p = ⟨.future tl.length, false⟩ := by
        rcases hp with rfl | ⟨e, rfl⟩ <;> rfl
      rw [hjn]
      have ho : SRStack.owners (⟨sem, l ++ ⟨.future tl.length, false⟩ :: r, tl ++ .gone :: tr, fs, next⟩ : SRStack S) = SRStack.owners (⟨sem, l ++ ⟨.future tl.length, true⟩ :: r, tl ++ t :: tr, fs, next⟩ : SRStack S) := by
        unfold SRStack.owners; simp only [List.filterMap_append, List.filterMap_cons]; rfl
      obtain ⟨q1, q2⟩ := hx.links_task (t' := .gone) rfl rfl (fun h => by cases h)
      refine ⟨arr, hx.lim.perm ?_ (List.Perm.refl _), full_mid hx.full (by simp), by rw [ho]; exact hx.uniq, by rw [ho]; exact q1, by rw [ho]; exact q2⟩
      refine (SRStack.services_ht rfl rfl).trans ?_
      refine List.Perm.trans ?_ (SRStack.services_ht (x := ⟨sem, l ++ ⟨.future tl.length, false⟩ :: r, tl ++ .gone :: tr, fs, next⟩) rfl rfl).symm
      rw [hsv]; exact List.Perm.refl _
  | @call l r s s' f q sem' w w' hl hr =>
    simp only at hl hr; subst hl
    have hL := hx.lim.perm (SRStack.services_h rfl) (List.Perm.refl _)
    have h3 := hL.call hr
    have ho : SRStack.owners (⟨sem', l ++ ⟨.service (some s'), false⟩ :: r, ts, f :: fs, next⟩ : SRStack S) = SRStack.owners (⟨sem, l ++ ⟨.service (some s), false⟩ :: r, ts, fs, next⟩ : SRStack S) := by
      unfold SRStack.owners; simp only [List.filterMap_append, List.filterMap_cons]; rfl
    refine ⟨arr, h3.perm (SRStack.services_h (x := ⟨sem', l ++ ⟨.service (some s'), false⟩ :: r, ts, f :: fs, next⟩) rfl).symm (List.Perm.refl _), full_mid hx.full (by simp), by rw [ho]; exact hx.uniq, by rw [ho]; exact hx.link, by rw [ho]; exact hx.live⟩
  | @poll_future l r f f' p sem' w w' hl hr =>
    simp only at hl hr; subst hl
    have h3 := (hx.lim.perm (List.Perm.refl _) List.perm_middle).poll hr
    exact ⟨arr, h3.perm (List.Perm.refl _) List.perm_middle.symm, hx.full, hx.uniq, hx.link, hx.live⟩
  | @drop_future l r f hl =>
    simp only at hl; subst hl
    exact ⟨arr, (hx.lim.perm (List.Perm.refl _) List.perm_middle).dropFut, hx.full, hx.uniq, hx.link, hx.live⟩
  | @run tl tr s s' p sem' w w' ht hr =>
    simp only at ht hr; subst ht
    have hL := hx.lim.perm (SRStack.services_t rfl) (List.Perm.refl _)
    obtain ⟨arr', h3, _, _⟩ := hL.ready hr
    match p with
    | .pending =>
      obtain ⟨q1, q2⟩ := hx.links_task (t' := .running s') rfl rfl (fun _ => rfl)
      exact ⟨arr', h3.perm (SRStack.services_t (x := ⟨sem', hs, tl ++ .running s' :: tr, fs, next⟩) rfl).symm (List.Perm.refl _), hx.full, hx.uniq, q1, q2⟩
    | .ready (.ok ()) =>
      obtain ⟨q1, q2⟩ := hx.links_task (t' := .output (.ok s')) rfl rfl (fun _ => rfl)
      exact ⟨arr', h3.perm (SRStack.services_t (x := ⟨sem', hs, tl ++ .output (.ok s') :: tr, fs, next⟩) rfl).symm (List.Perm.refl _), hx.full, hx.uniq, q1, q2⟩
    | .ready (.error e) =>
      obtain ⟨q1, q2⟩ := hx.links_task (t' := .output (.error e)) rfl rfl (fun _ => rfl)
      exact ⟨_, h3.dropHandle.perm (SRStack.services_t (x := ⟨dropLimit s' sem', hs, tl ++ .output (.error e) :: tr, fs, next⟩) rfl).symm (List.Perm.refl _), hx.full, hx.uniq, q1, q2⟩
  | @run_panics tl tr s i sem' ht hr =>
    simp only at ht hr; subst ht
    have hL := hx.lim.perm (SRStack.services_t rfl) (List.Perm.refl _)
    obtain ⟨arr', h3⟩ := hL.readyPanics (i := i) hr
    obtain ⟨q1, q2⟩ := hx.links_task (t' := .failed) rfl rfl (fun _ => rfl)
    exact ⟨_, h3.dropHandle.perm (SRStack.services_t (x := ⟨dropLimit _ sem', hs, tl ++ .failed :: tr, fs, next⟩) rfl).symm (List.Perm.refl _), hx.full, hx.uniq, q1, q2⟩
  | @shutdown tl tr s ht =>
    simp only at ht; subst ht
    have hL := hx.lim.perm (SRStack.services_t rfl) (List.Perm.refl _)
    obtain ⟨q1, q2⟩ := hx.links_task (t' := .failed) rfl rfl (fun _ => rfl)
    exact ⟨_, (LimAt.dropHandle hL).perm (SRStack.services_t (x := ⟨dropLimit s sem, hs, tl ++ .failed :: tr, fs, next⟩) rfl).symm (List.Perm.refl _), hx.full, hx.uniq, q1, q2⟩
  | @reap tl tr s ht =>
    simp only at ht; subst ht
    have hL := hx.lim.perm (SRStack.services_t rfl) (List.Perm.refl _)
    obtain ⟨q1, q2⟩ := hx.links_task (t' := .gone) rfl rfl (fun h => by cases h)
    exact ⟨_, (LimAt.dropHandle hL).perm (SRStack.services_t (x := ⟨dropLimit s sem, hs, tl ++ .gone :: tr, fs, next⟩) rfl).symm (List.Perm.refl _), hx.full, hx.uniq, q1, q2⟩
  | @drop_service l r s hl =>
    simp only at hl; subst hl
    have hL := hx.lim.perm (SRStack.services_h rfl) (List.Perm.refl _)
    have ho : SRStack.owners (⟨dropLimit s sem, l ++ r, ts, fs, next⟩ : SRStack S) = SRStack.owners (⟨sem, l ++ ⟨.service (some s), false⟩ :: r, ts, fs, next⟩ : SRStack S) := by
      unfold SRStack.owners; simp only [List.filterMap_append, List.filterMap_cons]; rfl
    refine ⟨_, (LimAt.dropHandle hL).perm ?_ (List.Perm.refl _), full_drop hx.full, by rw [ho]; exact hx.uniq, by rw [ho]; exact hx.link, by rw [ho]; exact hx.live⟩
    unfold SRStack.services; simp
  | @drop_handle l r tl tr t hl ht =>
    simp only at hl ht; subst hl; subst ht
    have ho' := SRStack.owners_mid (x := (⟨sem, l ++ ⟨.future tl.length, false⟩ :: r, tl ++ t :: tr, fs, next⟩ : SRStack S)) rfl
    have hna : t.isAborted = false := by
      obtain ⟨u, hu, ha⟩ := hx.link tl.length (ho'.mem_iff.2 List.mem_cons_self)
      simp at hu; rw [hu]; exact ha
    have hnd := List.nodup_cons.1 (ho'.nodup_iff.1 hx.uniq)
    have hL := hx.lim.perm (SRStack.services_ht rfl rfl) (List.Perm.refl _)
    have ho : SRStack.owners (⟨(t.abort sem).2, l ++ r, tl ++ (t.abort sem).1 :: tr, fs, next⟩ : SRStack S) = l.filterMap SRHandle.task ++ r.filterMap SRHandle.task := by
      unfold SRStack.owners; simp only [List.filterMap_append]
    have hlive : (t.abort sem).1.live = false := by
      rcases t with s | s | (e | s) | _ | _ <;> rfl
    have key : ∃ arr', LimAt debug max S (t.abort sem).2 (SRStack.services (⟨(t.abort sem).2, l ++ r, tl ++ (t.abort sem).1 :: tr, fs, next⟩ : SRStack S)) fs next arr' := by
      have hp : ∀ (sem1 : Sem) (t1 : STask (ConcState S.σ Nat) Err), (t1.svc.toList ++ ((l.filterMap SRHandle.svc ++ r.filterMap SRHandle.svc) ++ (tl.filterMap STask.svc ++ tr.filterMap STask.svc))).Perm
          (SRStack.services (⟨sem1, l ++ r, tl ++ t1 :: tr, fs, next⟩ : SRStack S)) := by
        intro sem1 t1
        refine List.Perm.trans ?_ (SRStack.services_t (x := (⟨sem1, l ++ r, tl ++ t1 :: tr, fs, next⟩ : SRStack S)) rfl).symm
        rw [List.filterMap_append]
      rcases t with s | s | (e | s) | _ | _
      · exact ⟨_, hL.perm (hp _ (.aborted s)) (List.Perm.refl _)⟩
      · exact ⟨_, hL.perm (hp _ (.aborted s)) (List.Perm.refl _)⟩
      · exact ⟨_, hL.perm (hp _ .gone) (List.Perm.refl _)⟩
      · exact ⟨_, (LimAt.dropHandle hL).perm (hp _ .gone) (List.Perm.refl _)⟩
      · exact ⟨_, hL.perm (hp _ .gone) (List.Perm.refl _)⟩
      · exact ⟨_, hL.perm (hp _ .gone) (List.Perm.refl _)⟩
    obtain ⟨arr', hkey⟩ := key
    refine ⟨arr', hkey, full_drop hx.full, ?_, ?_, ?_⟩
    · rw [ho]; exact hnd.2
    · rw [ho]
      intro k hk
      obtain ⟨u, hu, ha⟩ := hx.link k (ho'.mem_iff.2 (List.mem_cons_of_mem _ hk))
      rcases get_mid hu with ⟨rfl, rfl⟩ | ⟨_, h⟩
      · exact absurd hk hnd.1
      · exact ⟨u, h _, ha⟩
    · rw [ho]
      intro k u hu hlv
      rcases get_mid hu with ⟨rfl, rfl⟩ | ⟨hne, h⟩
      · rw [hlive] at hlv; cases hlv
      · have := ho'.mem_iff.1 (hx.live k u (h _) hlv)
        rcases List.mem_cons.1 this with h | h
        · exact absurd h hne
        · exact h

theorem SRHist.inv {x : SRStack S} (h : SRHist debug max S x) : ∃ arr, SRInv debug max x arr := by
  induction h with
  | new i =>
    refine ⟨[], ⟨_, LimHist.new i, rfl, List.Perm.refl _, List.Perm.refl _, rfl⟩, ?_, List.nodup_nil, ?_, ?_⟩
    · intro h hm; simp at hm; subst hm; simp
    · intro k hk; cases hk
    · intro k t ht; simp at ht
  | step _ hs ih => obtain ⟨arr, ha⟩ := ih; exact hs.inv ha

/-- a task that has finished with a service has reserved capacity for it -/
theorem SRStep.outputs {x x' : SRStack S} (hx : ∀ s, .output (.ok s) ∈ x.ts → s.permit = true) (h : SRStep debug S x x') : ∀ s, .output (.ok s) ∈ x'.ts → s.permit = true := by
  have mid : ∀ {tl tr : List (STask (ConcState S.σ Nat) Err)} {t t' : STask (ConcState S.σ Nat) Err}, x.ts = tl ++ t :: tr → (∀ s, t' = .output (.ok s) → s.permit = true) →
      ∀ s, .output (.ok s) ∈ tl ++ t' :: tr → s.permit = true := by
    intro tl tr t t' ht h' s hs
    rcases List.mem_append.1 hs with hs | hs
    · exact hx s (by rw [ht]; exact List.mem_append_left _ hs)
    · rcases List.mem_cons.1 hs with hs | hs
      · exact h' s hs.symm
      · exact hx s (by rw [ht]; exact List.mem_append_right _ (List.mem_cons_of_mem _ hs))
  cases h with
  | layer i => exact hx
  | enter _ => exact hx
  | returns _ _ => exact hx
  | spawns _ _ =>
    intro s hs
    rcases List.mem_append.1 hs with hs | hs
    · exact hx s hs
    · simp at hs
  | @joins l r tl tr t t' p hl ht hj =>
    refine mid ht ?_
    rcases t with u | u | (e | u) | _ | _ <;> cases hj <;> intro s hs <;> cases hs
  | call _ _ => exact hx
  | poll_future _ _ => exact hx
  | drop_future _ => exact hx
  | @run tl tr s s' p sem' w w' ht hr =>
    refine mid ht ?_
    intro u hu
    match p with
    | .pending => cases hu
    | .ready (.ok ()) =>
      cases hu
      exact C04_ready_has_permit (x := ⟨x.sem, [], [], 0⟩) hr
    | .ready (.error e) => cases hu
  | run_panics ht _ => exact mid ht (fun s hs => by cases hs)
  | shutdown ht => exact mid ht (fun s hs => by cases hs)
  | reap ht => exact mid ht (fun s hs => by cases hs)
  | drop_service _ => exact hx
  | @drop_handle l r tl tr t hl ht =>
    refine mid ht ?_
    rcases t with u | u | (e | u) | _ | _ <;> intro s hs <;> cases hs

theorem SRHist.outputs {x : SRStack S} (h : SRHist debug max S x) : ∀ s, .output (.ok s) ∈ x.ts → s.permit = true := by
  induction h with
  | new i => intro s hs; cases hs
  | step _ hs ih => exact hs.outputs ih

theorem sr_holders (x : SRStack S) : (⟨x.sem, x.services, x.fs, x.next⟩ : Lim S).holders = x.reserved := rfl

/-- some steps -/
inductive SRSteps (debug : Bool) (S : Service W Req Res Err) : SRStack S → SRStack S → Prop
  | refl {x} : SRSteps debug S x x
  | tail {x y z} : SRSteps debug S x y → SRStep debug S y z → SRSteps debug S x z

theorem SRSteps.trans {x y z : SRStack S} (h : SRSteps debug S x y) (h' : SRSteps debug S y z) : SRSteps debug S x z := by
  induction h' with
  | refl => exact h
  | tail _ s ih => exact .tail ih s

theorem SRHist.steps {x y : SRStack S} (h : SRHist debug max S x) (hs : SRSteps debug S x y) : SRHist debug max S y := by
  induction hs with
  | refl => exact h
  | tail _ s ih => exact .step ih s

/-! ## Theorems -/

/-- **C70.** Calls in flight plus reserved capacity, wherever the services are (in handles, in running, finished or aborted tasks), never exceed the limit; and no permit is lost: each is available, assigned to a waiter, reserved, or
with a call in flight. -/
theorem C70_bound {x : SRStack S} (h : SRHist debug max S x) : x.fs.length + x.reserved ≤ max ∧ x.sem.permits + x.sem.granted.length + x.reserved + x.fs.length = max := by
  obtain ⟨arr, hi⟩ := h.inv
  have := hi.lim.inv.conserved
  rw [sr_holders] at this
  simp only at this
  omega

/-- **C70.** A service is in one place only: no `PollSemaphore` occurs twice among handles and tasks, no two handles wait for the same task, and no handle is found without both service and task (`expect("illegal state")` does not fail). -/
theorem C70_one_place {x : SRStack S} (h : SRHist debug max S x) : (x.services.map (·.sem)).Nodup ∧ (x.hs.filterMap SRHandle.task).Nodup ∧ ∀ h ∈ x.hs, (∃ s, h.inner = .service (some s)) ∨ ∃ t, h.inner = .future t := by
  obtain ⟨arr, hi⟩ := h.inv
  refine ⟨hi.lim.inv.names, hi.uniq, fun g hg => ?_⟩
  cases hin : g.inner with
  | service o =>
    cases o with
    | none => exact absurd hin (hi.full g hg)
    | some s => exact Or.inl ⟨s, rfl⟩
  | future t => exact Or.inr ⟨t, rfl⟩

/-- **C70.** Only aborting makes a task go away unheard: the task of a handle is never aborted, and a task that is neither aborted nor finished with belongs to a handle. -/
theorem C70_tasks {x : SRStack S} (h : SRHist debug max S x) :
    (∀ g ∈ x.hs, ∀ k, g.inner = .future k → ∃ t, x.ts[k]? = some t ∧ ∀ s, t ≠ .aborted s) ∧
    (∀ (k : Nat) t, x.ts[k]? = some t → (∃ s, t = .aborted s) ∨ t = .gone ∨ ∃ g ∈ x.hs, g.inner = .future k) := by
  obtain ⟨arr, hi⟩ := h.inv
  constructor
  · intro g hg k hk
    have : k ∈ x.owners := List.mem_filterMap.2 ⟨g, hg, by unfold SRHandle.task; rw [hk]⟩
    obtain ⟨t, ht, ha⟩ := hi.link k this
    exact ⟨t, ht, fun s hs => by rw [hs] at ha; cases ha⟩
  · intro k t ht
    have key : t.live = true → ∃ g ∈ x.hs, g.inner = .future k := by
      intro hl
      obtain ⟨g, hg, he⟩ := List.mem_filterMap.1 (hi.live k t ht hl)
      refine ⟨g, hg, ?_⟩
      unfold SRHandle.task at he
      cases hin : g.inner with
      | service o => rw [hin] at he; cases he
      | future u => rw [hin] at he; cases he; rfl
    cases t with
    | running s => exact Or.inr (Or.inr (key rfl))
    | aborted s => exact Or.inl ⟨s, rfl⟩
    | output r => exact Or.inr (Or.inr (key rfl))
    | failed => exact Or.inr (Or.inr (key rfl))
    | gone => exact Or.inr (Or.inl rfl)

/-- **C70.** `Ready(Ok)` means that the service is back in the hands of the handle, with its capacity reserved: a call then succeeds if the inner call does, whatever others did in between. -/
theorem C70_ready {x : SRStack S} {s s' : ConcState S.σ Nat} {sem' : Sem} {w w' : W} (hr : ((LimSvc debug S).pollReady s).run (x.sem, w) = .ok (.ready (.ok ()), s') (sem', w')) :
    s'.permit = true ∧ ∀ q sem1 w1 f i w2, (S.call s'.inner q).run w1 = .ok (f, i) w2 → ((LimSvc debug S).call s' q).run (sem1, w1) = .ok (f, ⟨i, s'.sem, false⟩) (sem1, w2) := by
  have hp := C04_ready_has_permit (x := ⟨x.sem, [], [], 0⟩) hr
  refine ⟨hp, ?_⟩
  intro q sem1 w1 f i w2 hc
  simp only [LimSvc, ConcurrencyLimit, hp, if_true, run_bind, Act.snd, hc, run_pure]

/-- **C70.** The task works in the background: when a permit can be had for the service in a task and the inner service is ready, one poll of the task by the runtime gets both, with no handle being polled. Afterwards one `poll_ready` of the handle that
waits for the task gets the service back and reports ready, if the inner service still is, however much of the limit is used by others at that time. -/
theorem C70_background {x : SRStack S} {tl tr : List (STask (ConcState S.σ Nat) Err)} {s : ConcState S.σ Nat} (ht : x.ts = tl ++ .running s :: tr) (hp : s.permit = false) (hg : x.wouldGet s.sem = true) {w w' : W} {i : S.σ}
    (hi : (S.pollReady s.inner).run w = .ok (.ready (.ok ()), i) w') :
    ∃ x', SRStep debug S x x' ∧ x'.hs = x.hs ∧ x'.fs = x.fs ∧ x'.ts = tl ++ .output (.ok ⟨i, s.sem, true⟩) :: tr := by
  obtain ⟨si, sn, sp⟩ := s
  simp only at hp; subst hp
  unfold SRStack.wouldGet at hg
  have hr : ((LimSvc debug S).pollReady (⟨si, sn, false⟩ : ConcState S.σ Nat)).run (x.sem, w) = .ok (.ready (.ok ()), ⟨i, sn, true⟩) ((x.sem.pollAcquire sn).2, w') := by
    simp only at hg hi
    simp only [LimSvc, ConcurrencyLimit, Bool.false_eq_true, if_false, run_bind, run_lift, hg, if_true, Bool.not_true, Bool.and_false, Act.snd, hi, run_pure]
  exact ⟨_, SRStep.run ht hr, rfl, rfl, rfl⟩

/-- see `C70_background` -/
theorem C70_taken_back {x : SRStack S} {l r : List (SRHandle (ConcState S.σ Nat))} {tl tr : List (STask (ConcState S.σ Nat) Err)} {s : ConcState S.σ Nat} (hl : x.hs = l ++ ⟨.future tl.length, false⟩ :: r)
    (ht : x.ts = tl ++ .output (.ok s) :: tr) (hp : s.permit = true) {w w' : W} {i : S.σ} (hi : (S.pollReady s.inner).run w = .ok (.ready (.ok ()), i) w') :
    SRSteps debug S x { x with hs := l ++ ⟨.service (some ⟨i, s.sem, true⟩), false⟩ :: r, ts := tl ++ .gone :: tr } := by
  obtain ⟨sem, hs, ts, fs, next⟩ := x
  simp only at hl ht; subst hl; subst ht
  obtain ⟨si, sn, sp⟩ := s
  simp only at hp; subst hp
  have h1 := SRStep.enter (debug := debug) (x := (⟨sem, l ++ ⟨.future tl.length, false⟩ :: r, tl ++ .output (.ok ⟨si, sn, true⟩) :: tr, fs, next⟩ : SRStack S)) rfl
  have h2 := SRStep.joins (debug := debug) (x := (⟨sem, l ++ ⟨.future tl.length, true⟩ :: r, tl ++ .output (.ok ⟨si, sn, true⟩) :: tr, fs, next⟩ : SRStack S)) (t := .output (.ok ⟨si, sn, true⟩)) (t' := .gone) rfl rfl rfl
  have hr : ((LimSvc debug S).pollReady (⟨si, sn, true⟩ : ConcState S.σ Nat)).run (sem, w) = .ok (.ready (.ok ()), ⟨i, sn, true⟩) (sem, w') := by
    simp only at hi
    simp only [LimSvc, ConcurrencyLimit, if_true, run_bind, Act.snd, hi, run_pure]
  have h3 := SRStep.returns (debug := debug) (x := (⟨sem, l ++ ⟨.service (some ⟨si, sn, true⟩), true⟩ :: r, tl ++ .gone :: tr, fs, next⟩ : SRStack S)) rfl hr
  exact ((SRSteps.refl.tail h1).tail h2).tail h3

/-- **C70.** If a clone of the limit cannot get a permit now, all `max` are in use: by calls in flight, reserved, or assigned to those first in the queue. -/
theorem C70_blocked {x : SRStack S} (h : SRHist debug max S x) {n : Nat} (hb : x.wouldGet n = false) : x.fs.length + x.reserved + x.sem.granted.length = max := by
  obtain ⟨arr, hi⟩ := h.inv
  have hc := (C70_bound h).2
  have hbusy := hi.lim.inv.busy
  simp only at hbusy
  have : x.sem.permits = 0 := by
    unfold SRStack.wouldGet Sem.pollAcquire at hb
    split at hb
    · cases hb
    · split at hb
      · rename_i hq; exact hbusy (List.ne_nil_of_mem hq)
      · split at hb
        · cases hb
        · omega
  omega

/-- **C70.** If less than `max` is in flight or reserved and somebody waits for a permit, the one who waits longest would get one now; it is in the hands of a handle, or in a task that runs, or in one that was aborted (then the runtime will drop it, and the
permit goes to the next: `C70_reap`). -/
theorem C70_progress {x : SRStack S} (h : SRHist debug max S x) (hlt : x.fs.length + x.reserved < max) {n : Nat} (hn : n ∈ x.sem.granted ++ x.sem.queue) :
    ∃ m rest, x.sem.granted ++ x.sem.queue = m :: rest ∧ x.wouldGet m = true ∧ ∃ s : ConcState S.σ Nat, s.sem = m ∧ s.permit = false ∧
      ((∃ g ∈ x.hs, g.inner = .service (some s)) ∨ .running s ∈ x.ts ∨ .aborted s ∈ x.ts) := by
  obtain ⟨arr, hi⟩ := h.inv
  have hc := (C70_bound h).2
  have hbusy := hi.lim.inv.busy
  have hord := hi.lim.inv.order
  simp only at hbusy hord
  have hg : x.sem.granted ≠ [] := by
    intro hg
    rw [hg] at hn hc
    have := hbusy (List.ne_nil_of_mem (by simpa using hn))
    simp only [List.length_nil] at hc
    omega
  obtain ⟨m, g, hmg⟩ := List.exists_cons_of_ne_nil hg
  refine ⟨m, g ++ x.sem.queue, by rw [hmg]; rfl, ?_, ?_⟩
  · unfold SRStack.wouldGet Sem.pollAcquire
    rw [if_pos (by rw [hmg]; simp)]
  · have hm : m ∈ arr := by rw [hord, hmg]; simp
    obtain ⟨s, hs, h1, h2⟩ := hi.lim.inv.waiting m hm
    refine ⟨s, h1, h2, ?_⟩
    simp only [SRStack.services, List.mem_append, List.mem_filterMap] at hs
    rcases hs with ⟨g, hg, he⟩ | ⟨t, ht, he⟩
    · refine Or.inl ⟨g, hg, ?_⟩
      unfold SRHandle.svc at he
      cases hin : g.inner with
      | service o => rw [hin] at he; simp only at he; rw [he]
      | future u => rw [hin] at he; cases he
    · right
      rcases t with u | u | (e | u) | _ | _
      · cases he; exact Or.inl ht
      · cases he; exact Or.inr ht
      · cases he
      · cases he
        rw [h.outputs _ ht] at h2; cases h2
      · cases he
      · cases he

/-- **C70.** Dropping a handle whose task still runs aborts the task; it is not polled any more (the only step it can make is to be dropped, `SRStep.reap`), and when the runtime has dropped it neither its permit nor its place in the queue is left. -/
theorem C70_reap {x : SRStack S} (h : SRHist debug max S x) {l r : List (SRHandle (ConcState S.σ Nat))} {tl tr : List (STask (ConcState S.σ Nat) Err)} {s : ConcState S.σ Nat}
    (hl : x.hs = l ++ ⟨.future tl.length, false⟩ :: r) (ht : x.ts = tl ++ .running s :: tr) :
    ∃ x1 x2, SRStep debug S x x1 ∧ x1.sem = x.sem ∧ x1.hs = l ++ r ∧ x1.ts = tl ++ .aborted s :: tr ∧ SRStep debug S x1 x2 ∧ x2.ts = tl ++ .gone :: tr ∧
      s.sem ∉ x2.sem.granted ∧ s.sem ∉ x2.sem.queue ∧ (∀ u ∈ x2.services, u.sem ≠ s.sem) ∧ x2.reserved + (if s.permit then 1 else 0) = x.reserved := by
  have s1 := SRStep.drop_handle (debug := debug) hl ht
  have s2 := SRStep.reap (debug := debug) (x := { x with sem := (STask.abort x.sem (.running s : STask (ConcState S.σ Nat) Err)).2, hs := l ++ r, ts := tl ++ .aborted s :: tr }) rfl
  have h2 := (h.step s1).step s2
  obtain ⟨arr, hi⟩ := h2.inv
  obtain ⟨arr0, hi0⟩ := h.inv
  have hperm : x.services.Perm (s :: (l.filterMap SRHandle.svc ++ r.filterMap SRHandle.svc ++ (tl.filterMap STask.svc ++ tr.filterMap STask.svc))) := SRStack.services_ht hl ht
  have hserv : ∀ sem1 : Sem, SRStack.services (⟨sem1, l ++ r, tl ++ .gone :: tr, x.fs, x.next⟩ : SRStack S) = l.filterMap SRHandle.svc ++ r.filterMap SRHandle.svc ++ (tl.filterMap STask.svc ++ tr.filterMap STask.svc) := by
    intro sem1
    unfold SRStack.services
    simp only [List.filterMap_append, List.filterMap_cons]
    rfl
  have hno : ∀ u ∈ l.filterMap SRHandle.svc ++ r.filterMap SRHandle.svc ++ (tl.filterMap STask.svc ++ tr.filterMap STask.svc), u.sem ≠ s.sem := by
    intro u hu
    exact (hi0.lim.perm hperm (List.Perm.refl _)).names hu
  refine ⟨_, _, s1, rfl, rfl, rfl, s2, rfl, ?_, ?_, ?_, ?_⟩
  · intro hc
    obtain ⟨u, hu, he, _⟩ := hi.lim.inv.waiting s.sem (by rw [hi.lim.inv.order]; exact List.mem_append_left _ hc)
    have hu : u ∈ SRStack.services (⟨_, l ++ r, tl ++ .gone :: tr, x.fs, x.next⟩ : SRStack S) := hu
    rw [hserv] at hu
    exact hno u hu he
  · intro hc
    obtain ⟨u, hu, he, _⟩ := hi.lim.inv.waiting s.sem (by rw [hi.lim.inv.order]; exact List.mem_append_right _ hc)
    have hu : u ∈ SRStack.services (⟨_, l ++ r, tl ++ .gone :: tr, x.fs, x.next⟩ : SRStack S) := hu
    rw [hserv] at hu
    exact hno u hu he
  · intro u hu
    have hu : u ∈ SRStack.services (⟨_, l ++ r, tl ++ .gone :: tr, x.fs, x.next⟩ : SRStack S) := hu
    rw [hserv] at hu
    exact hno u hu
  · show (SRStack.services (⟨_, l ++ r, tl ++ .gone :: tr, x.fs, x.next⟩ : SRStack S)).countP (fun s => s.permit) + _ = x.services.countP (fun s => s.permit)
    rw [hserv, hperm.countP_eq, List.countP_cons]

/-- a list without aborted tasks can be reached -/
theorem reap_all (n : Nat) : ∀ {x : SRStack S}, (x.ts.countP STask.isAborted) = n → ∃ x', SRSteps debug S x x' ∧ x'.hs = x.hs ∧ x'.fs = x.fs ∧ x'.ts.countP STask.isAborted = 0 := by
  induction n with
  | zero => intro x h; exact ⟨x, .refl, rfl, rfl, h⟩
  | succ n ih =>
    intro x h
    have : 0 < x.ts.countP STask.isAborted := by omega
    obtain ⟨t, htm, hta⟩ := List.countP_pos_iff.1 this
    cases t with
    | aborted s =>
      obtain ⟨tl, tr, ht⟩ := List.append_of_mem htm
      have s1 := SRStep.reap (debug := debug) ht
      obtain ⟨x', h1, h2, h3, h4⟩ := ih (x := { x with sem := dropLimit s x.sem, ts := tl ++ .gone :: tr }) (by
        rw [ht] at h
        simp only [List.countP_append, List.countP_cons, STask.isAborted, if_true, Bool.false_eq_true, if_false] at h ⊢
        omega)
      exact ⟨x', (SRSteps.refl.tail s1).trans h1, h2, h3, h4⟩
    | _ => cases hta

/-- **C70.** When all handles and response futures are dropped, at whatever moment, then what is left are aborted tasks only; once the runtime has dropped those (which it can do at once) all permits are back. -/
theorem C70_all_dropped {x : SRStack S} (h : SRHist debug max S x) (h1 : x.hs = []) (h2 : x.fs = []) :
    (∀ t ∈ x.ts, (∃ s, t = .aborted s) ∨ t = .gone) ∧ ((∀ s, .aborted s ∉ x.ts) → x.sem = Sem.new max) ∧ ∃ x', SRSteps debug S x x' ∧ x'.sem = Sem.new max := by
  have hA : ∀ {x : SRStack S}, SRHist debug max S x → x.hs = [] → ∀ t ∈ x.ts, (∃ s, t = .aborted s) ∨ t = .gone := by
    intro x h h1 t ht
    obtain ⟨k, hk, he⟩ := List.getElem_of_mem ht
    rcases (C70_tasks h).2 k t (List.getElem?_eq_some_iff.2 ⟨hk, he⟩) with h3 | h3 | ⟨g, hg, _⟩
    · exact Or.inl h3
    · exact Or.inr h3
    · rw [h1] at hg; cases hg
  have hB : ∀ {x : SRStack S}, SRHist debug max S x → x.hs = [] → x.fs = [] → (∀ s, .aborted s ∉ x.ts) → x.sem = Sem.new max := by
    intro x h h1 h2 h3
    obtain ⟨arr, hi⟩ := h.inv
    obtain ⟨y, g1, g2, g3, g4, g5⟩ := hi.lim
    rw [← g2]
    refine C05_all_dropped g1 ?_ ?_
    · have : x.services = [] := by
        unfold SRStack.services
        rw [h1]
        simp only [List.filterMap_nil, List.nil_append, List.filterMap_eq_nil_iff]
        intro t ht
        rcases hA h h1 t ht with ⟨s, rfl⟩ | rfl
        · exact absurd ht (h3 s)
        · rfl
      rw [this] at g3; exact g3.eq_nil
    · rw [h2] at g4; exact g4.eq_nil
  refine ⟨hA h h1, hB h h1 h2, ?_⟩
  obtain ⟨x', q1, q2, q3, q4⟩ := reap_all (debug := debug) _ (x := x) rfl
  refine ⟨x', q1, hB (h.steps q1) (q2.trans h1) (q3.trans h2) ?_⟩
  intro s hs
  have := List.countP_eq_zero.1 q4 _ hs
  exact this rfl

/-! ## Examples -/

namespace Demo70

abbrev inner := Demo69.inner
abbrev C (n : Nat) (b : Bool) : ConcState inner.σ Nat := ⟨(), n, b⟩
abbrev Hd (n : Nat) (b pol : Bool) : SRHandle (ConcState inner.σ Nat) := ⟨.service (some (C n b)), pol⟩
abbrev Fu (k : Nat) (pol : Bool) : SRHandle (ConcState inner.σ Nat) := ⟨.future k, pol⟩
abbrev Hist1 (x : SRStack inner) : Prop := SRHist true 1 inner x

theorem h0 : Hist1 ⟨Sem.new 1, [Hd 0 false false], [], [], 1⟩ := SRHist.new (S := inner) (max := 1) (debug := true) ()
/-- limit 1: the first handle is ready -/
theorem h1 : Hist1 ⟨⟨0, [], []⟩, [Hd 0 true false], [], [], 1⟩ :=
  (h0.step (SRStep.enter (l := []) (r := []) rfl)).step (SRStep.returns (l := []) (r := []) (s := C 0 false) (s' := C 0 true) (res := .ok ()) (w := ()) (w' := ()) (sem' := ⟨0, [], []⟩) rfl rfl)
/-- the second one is not: a task is spawned, it waits in the queue of the semaphore -/
theorem h2 : Hist1 ⟨⟨0, [1], []⟩, [Fu 0 false, Hd 0 true false], [.running (C 1 false)], [], 2⟩ :=
  (((h1.step (SRStep.layer ())).step (SRStep.enter (l := []) (r := [Hd 0 true false]) (i := .service (some (C 1 false))) rfl)).step
    (SRStep.spawns (l := []) (r := [Hd 0 true false]) (s := C 1 false) (s' := C 1 false) (w := ()) (w' := ()) (sem' := ⟨0, [1], []⟩) rfl rfl)).step
    (SRStep.joins (l := []) (r := [Hd 0 true false]) (tl := []) (tr := []) (t := .running (C 1 false)) (t' := .running (C 1 false)) (p := .pending) rfl rfl rfl)
/-- the first handle is dropped: its permit is assigned to the task -/
theorem h3 : Hist1 ⟨⟨0, [], [1]⟩, [Fu 0 false], [.running (C 1 false)], [], 2⟩ :=
  h2.step (SRStep.drop_service (l := [Fu 0 false]) (r := []) (s := C 0 true) rfl)
/-- the runtime polls the task -/
theorem h4 : Hist1 ⟨⟨0, [], []⟩, [Fu 0 false], [.output (.ok (C 1 true))], [], 2⟩ :=
  h3.step (SRStep.run (tl := []) (tr := []) (s := C 1 false) (s' := C 1 true) (p := .ready (.ok ())) (w := ()) (w' := ()) (sem' := ⟨0, [], []⟩) rfl rfl)

/-- the hypotheses of `C70_blocked` and of `C70_reap`: nothing can be had, the task waits; it is aborted when its handle is dropped -/
example : ∃ x : SRStack inner, Hist1 x ∧ x.wouldGet 5 = false ∧ x.hs = [] ++ ⟨.future ([] : List (STask (ConcState inner.σ Nat) Nat)).length, false⟩ :: [Hd 0 true false] ∧ x.ts = [] ++ .running (C 1 false) :: [] := ⟨_, h2, rfl, rfl, rfl⟩
/-- the hypotheses of `C70_progress` and `C70_background` -/
example : ∃ x : SRStack inner, Hist1 x ∧ x.fs.length + x.reserved < 1 ∧ x.sem.granted ++ x.sem.queue = [1] ∧ x.wouldGet 1 = true ∧ .running (C 1 false) ∈ x.ts ∧ (inner.pollReady (C 1 false).inner).run () = .ok (.ready (.ok ()), ()) () :=
  ⟨_, h3, by decide, rfl, rfl, List.mem_cons_self, rfl⟩
/-- the hypotheses of `C70_taken_back` -/
example : ∃ x : SRStack inner, Hist1 x ∧ x.hs = [] ++ ⟨.future ([] : List (STask (ConcState inner.σ Nat) Nat)).length, false⟩ :: [] ∧ x.ts = [] ++ .output (.ok (C 1 true)) :: [] := ⟨_, h4, rfl, rfl⟩

/-- **Hazard.** The task goes on although its handle is not polled any more, and takes a permit that it then keeps: with limit 1, no call in flight and no handle that is ready, nobody gets capacity, until that handle is used or dropped. -/
theorem C70_unpolled_holds : ∃ x : SRStack inner, Hist1 x ∧ x.fs = [] ∧ (∀ g ∈ x.hs, ∀ s, g.inner ≠ .service s) ∧ x.reserved = 1 ∧ ∀ n, n ∉ x.sem.granted → x.wouldGet n = false := by
  refine ⟨_, h4, rfl, ?_, rfl, ?_⟩
  · intro g hg s
    simp at hg; subst hg; simp
  · intro n hn; rfl

/-- all dropped while the task waits: it is aborted, and all is back when the runtime has dropped it -/
example : ∃ x : SRStack inner, Hist1 x ∧ x.hs = [] ∧ x.fs = [] ∧ x.ts = [.aborted (C 1 false)] ∧ x.sem = ⟨0, [], [1]⟩ ∧ ∃ x', SRStep true inner x x' ∧ x'.sem = Sem.new 1 :=
  ⟨_, h3.step (SRStep.drop_handle (l := []) (r := []) (tl := []) (tr := []) (t := .running (C 1 false)) rfl rfl), rfl, rfl, rfl, rfl, _, SRStep.reap (tl := []) (tr := []) (s := C 1 false) rfl, rfl⟩

end Demo70

end Tower
