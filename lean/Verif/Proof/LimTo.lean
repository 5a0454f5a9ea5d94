import Verif.Props.C04_Concurrency
import Verif.Model.LimWake
import Verif.Proof.Load1
import Mathlib.Data.List.Perm.Basic

/-!
# Histories of a `ConcurrencyLimit` up to the order in which handles and futures are listed

For stacks in which the handles and futures of a limit are inside other structures.
-/

namespace Tower
open Act
variable {W Req Res Err : Type} {debug : Bool} {max : Nat} {S : Service W Req Res Err}

/-- drop of a handle -/
def semDrop {σ : Type} (s : ConcState σ Nat) (sem : Sem) : Sem := if s.permit = true then (sem.dropAcquire s.sem).release else sem.dropAcquire s.sem

/-- There is a history of the limit with this semaphore, these handles and these futures. -/
def LimTo (debug : Bool) (max : Nat) (S : Service W Req Res Err) (sem : Sem) (hs : List (ConcState S.σ Nat)) (fs : List S.φ) (next : Nat) (arr : List Nat) : Prop :=
  ∃ y : Lim S, LimHist debug max S y arr ∧ y.sem = sem ∧ y.hs.Perm hs ∧ y.fs.Perm fs ∧ y.next = next

theorem limPermSplit {α : Type} {l : List α} {a : α} {r : List α} (h : l.Perm (a :: r)) : ∃ l1 l2, l = l1 ++ a :: l2 ∧ (l1 ++ l2).Perm r := by
  obtain ⟨l1, l2, rfl⟩ := List.append_of_mem (h.mem_iff.2 List.mem_cons_self)
  exact ⟨l1, l2, rfl, (List.perm_cons a).1 (List.perm_middle.symm.trans h)⟩

theorem limPermPut {α : Type} {l1 l2 r : List α} (b : α) (h : (l1 ++ l2).Perm r) : (l1 ++ b :: l2).Perm (b :: r) := List.perm_middle.trans (h.cons b)

section
variable {α β : Type} (f : α → List β) {l r : List α} {c c' : α} {t : List β}

theorem flat_split : ((l ++ c :: r).flatMap f ++ t).Perm (f c ++ ((l ++ r).flatMap f ++ t)) := by
  simp only [List.flatMap_append, List.flatMap_cons, List.append_assoc]
  rw [← List.append_assoc, ← List.append_assoc (as := f c)]
  exact List.perm_append_comm.append_right _

theorem filt_eq {γ : Type} (g : α → Option γ) (l : List α) : l.filterMap g = l.flatMap (fun a => (g a).toList) := by
  induction l with
  | nil => rfl
  | cons a l ih => rw [List.filterMap_cons, List.flatMap_cons, ← ih]; cases g a <;> rfl

end

namespace LimTo
variable {sem sem' : Sem} {hs hs' : List (ConcState S.σ Nat)} {fs fs' : List S.φ} {next : Nat} {arr : List Nat}

theorem new (i : S.σ) : LimTo debug max S (Sem.new max) [⟨i, 0, false⟩] [] 1 [] := ⟨_, .new i, rfl, .refl _, .refl _, rfl⟩

theorem perm (h : LimTo debug max S sem hs fs next arr) (h1 : hs.Perm hs') (h2 : fs.Perm fs') : LimTo debug max S sem hs' fs' next arr := by
  obtain ⟨y, a, b, c, d, e⟩ := h
  exact ⟨y, a, b, c.trans h1, d.trans h2, e⟩

theorem ready {s s' : ConcState S.σ Nat} {p w w'} (h : LimTo debug max S sem (s :: hs) fs next arr)
    (hr : ((LimSvc debug S).pollReady s).run (sem, w) = .ok (p, s') (sem', w')) :
    LimTo debug max S sem' (s' :: hs) fs next (if s'.permit = true then arr.erase s.sem else if s.sem ∈ arr then arr else arr ++ [s.sem]) := by
  obtain ⟨y, a, rfl, c, d, e⟩ := h
  obtain ⟨l, r, h1, h2⟩ := limPermSplit c
  exact ⟨_, .ready a h1 hr, rfl, limPermPut _ h2, d, e⟩

theorem ready_panics {s : ConcState S.σ Nat} {i : S.σ} (h : LimTo debug max S sem (s :: hs) fs next arr)
    (hc : s.permit = true ∧ sem' = sem ∨ s.permit = false ∧ sem.pollAcquire s.sem = (true, sem')) : LimTo debug max S sem' (⟨i, s.sem, true⟩ :: hs) fs next (arr.erase s.sem) := by
  obtain ⟨y, a, rfl, c, d, e⟩ := h
  obtain ⟨l, r, h1, h2⟩ := limPermSplit c
  exact ⟨_, .ready_panics a h1 hc, rfl, limPermPut _ h2, d, e⟩

theorem call {s s' : ConcState S.σ Nat} {q f w w'} (h : LimTo debug max S sem (s :: hs) fs next arr)
    (hr : ((LimSvc debug S).call s q).run (sem, w) = .ok (f, s') (sem', w')) : LimTo debug max S sem' (s' :: hs) (f :: fs) next arr := by
  obtain ⟨y, a, rfl, c, d, e⟩ := h
  obtain ⟨l, r, h1, h2⟩ := limPermSplit c
  exact ⟨_, .call a h1 hr, rfl, limPermPut _ h2, List.perm_append_comm.trans (d.cons f), e⟩

theorem call_panics {s : ConcState S.σ Nat} {i : S.σ} (h : LimTo debug max S sem (s :: hs) fs next arr) (hp : s.permit = true) :
    LimTo debug max S sem.release (⟨i, s.sem, false⟩ :: hs) fs next arr := by
  obtain ⟨y, a, rfl, c, d, e⟩ := h
  obtain ⟨l, r, h1, h2⟩ := limPermSplit c
  exact ⟨_, .call_panics a h1 hp, rfl, limPermPut _ h2, d, e⟩

theorem poll {f f' : S.φ} {p w w'} (h : LimTo debug max S sem hs (f :: fs) next arr) (hr : ((LimSvc debug S).poll f).run (sem, w) = .ok (p, f') (sem', w')) :
    LimTo debug max S sem' hs (f' :: fs) next arr := by
  obtain ⟨y, a, rfl, c, d, e⟩ := h
  obtain ⟨l, r, h1, h2⟩ := limPermSplit d
  exact ⟨_, .poll a h1 hr, rfl, c, limPermPut _ h2, e⟩

theorem poll_panics {f f' : S.φ} (h : LimTo debug max S sem hs (f :: fs) next arr) : LimTo debug max S sem hs (f' :: fs) next arr := by
  obtain ⟨y, a, rfl, c, d, e⟩ := h
  obtain ⟨l, r, h1, h2⟩ := limPermSplit d
  exact ⟨_, .poll_panics a h1, rfl, c, limPermPut _ h2, e⟩

theorem drop_future {f : S.φ} (h : LimTo debug max S sem hs (f :: fs) next arr) : LimTo debug max S sem.release hs fs next arr := by
  obtain ⟨y, a, rfl, c, d, e⟩ := h
  obtain ⟨l, r, h1, h2⟩ := limPermSplit d
  exact ⟨_, .drop_future a h1, rfl, c, h2, e⟩

theorem drop_futures {l : List S.φ} : ∀ {sem : Sem}, LimTo debug max S sem hs (l ++ fs) next arr → LimTo debug max S (l.foldl (fun sem _ => sem.release) sem) hs fs next arr := by
  induction l with
  | nil => intro sem h; exact h
  | cons f l ih => intro sem h; exact ih h.drop_future

theorem with_semaphore (h : LimTo debug max S sem hs fs next arr) (i : S.σ) : LimTo debug max S sem (⟨i, next, false⟩ :: hs) fs (next + 1) arr := by
  obtain ⟨y, a, rfl, c, d, rfl⟩ := h
  exact ⟨_, .with_semaphore i a, rfl, List.perm_append_comm.trans (c.cons _), d, rfl⟩

theorem clone {s : ConcState S.σ Nat} (h : LimTo debug max S sem hs fs next arr) (hm : s ∈ hs) :
    LimTo debug max S sem ({ ((LimSvc debug S).clone s : ConcState S.σ Nat) with sem := next } :: hs) fs (next + 1) arr := by
  obtain ⟨y, a, rfl, c, d, rfl⟩ := h
  exact ⟨_, .clone a (c.mem_iff.2 hm), rfl, List.perm_append_comm.trans (c.cons _), d, rfl⟩

theorem drop_handle {s : ConcState S.σ Nat} (h : LimTo debug max S sem (s :: hs) fs next arr) : LimTo debug max S (semDrop s sem) hs fs next (arr.erase s.sem) := by
  obtain ⟨y, a, rfl, c, d, e⟩ := h
  obtain ⟨l, r, h1, h2⟩ := limPermSplit c
  exact ⟨_, .drop_handle a h1, rfl, h2, d, e⟩

/-- a step of a part of the handles and futures -/
theorem other {H hs hs' : List (ConcState S.σ Nat)} {F fs fs' : List S.φ} {next' : Nat} {arr0 arr0' : List Nat} {e : LimEv}
    (h : LimTo debug max S sem (H ++ hs) (F ++ fs) next arr) (ht : LimStep debug S ⟨sem, hs, fs, next⟩ arr0 e ⟨sem', hs', fs', next'⟩ arr0') :
    ∃ arr', LimTo debug max S sem' (H ++ hs') (F ++ fs') next' arr' := by
  generalize hx : (⟨sem, hs, fs, next⟩ : Lim S) = x at ht
  generalize hx' : (⟨sem', hs', fs', next'⟩ : Lim S) = x' at ht
  have toH : ∀ {l r : List (ConcState S.σ Nat)} {s}, (H ++ (l ++ s :: r)).Perm (s :: (H ++ (l ++ r))) := by
    intro l r s; rw [← List.append_assoc, ← List.append_assoc]; exact List.perm_middle
  have toF : ∀ {l r : List S.φ} {s}, (F ++ (l ++ s :: r)).Perm (s :: (F ++ (l ++ r))) := by
    intro l r s; rw [← List.append_assoc, ← List.append_assoc]; exact List.perm_middle
  cases ht with
  | with_semaphore i => cases hx; cases hx'; exact ⟨_, (h.with_semaphore i).perm (by rw [← List.append_assoc]; exact (List.perm_append_comm (l₁ := [_]))) (.refl _)⟩
  | ready h1 h2 => subst hx; dsimp only at h1 h2 hx'; subst h1; cases hx'; exact ⟨_, ((h.perm toH (.refl _)).ready h2).perm toH.symm (.refl _)⟩
  | ready_panics h1 h2 => subst hx; dsimp only at h1 h2 hx'; subst h1; cases hx'; exact ⟨_, ((h.perm toH (.refl _)).ready_panics h2).perm toH.symm (.refl _)⟩
  | call h1 h2 =>
    subst hx; dsimp only at h1 h2 hx'; subst h1; cases hx'
    exact ⟨_, ((h.perm toH (.refl _)).call h2).perm toH.symm (by rw [← List.append_assoc]; exact (List.perm_append_comm (l₁ := [_])))⟩
  | call_panics h1 h2 => subst hx; dsimp only at h1 h2 hx'; subst h1; cases hx'; exact ⟨_, ((h.perm toH (.refl _)).call_panics h2).perm toH.symm (.refl _)⟩
  | poll h1 h2 => subst hx; dsimp only at h1 h2 hx'; subst h1; cases hx'; exact ⟨_, ((h.perm (.refl _) toF).poll h2).perm (.refl _) toF.symm⟩
  | poll_panics h1 => subst hx; dsimp only at h1 hx'; subst h1; cases hx'; exact ⟨_, ((h.perm (.refl _) toF).poll_panics).perm (.refl _) toF.symm⟩
  | drop_future h1 => subst hx; dsimp only at h1 hx'; subst h1; cases hx'; exact ⟨_, (h.perm (.refl _) toF).drop_future⟩
  | clone h1 =>
    subst hx; dsimp only at h1 hx'; cases hx'
    exact ⟨_, (h.clone (List.mem_append_right _ h1)).perm (by rw [← List.append_assoc]; exact (List.perm_append_comm (l₁ := [_]))) (.refl _)⟩
  | drop_ready h1 h2 =>
    subst hx; dsimp only at h1 h2 hx'; subst h1; cases hx'
    have := (h.perm toH (.refl _)).drop_handle
    rw [semDrop, if_pos h2] at this
    exact ⟨_, this⟩
  | drop_handle h1 h2 =>
    subst hx; dsimp only at h1 h2 hx'; subst h1; cases hx'
    have := (h.perm toH (.refl _)).drop_handle
    rw [semDrop, if_neg (by simp [h2])] at this
    exact ⟨_, this⟩

theorem inv (h : LimTo debug max S sem hs fs next arr) : LimInv max (⟨sem, hs, fs, next⟩ : Lim S) arr := by
  obtain ⟨y, a, rfl, c, d, rfl⟩ := h
  have i := a.inv
  refine ⟨?_, i.busy, i.order, i.nodup, (c.map _).nodup_iff.1 i.names, fun s hs => i.bound s (c.mem_iff.2 hs), ?_⟩
  · have := i.conserved
    simp only [Lim.holders] at this ⊢
    rw [← c.countP_eq, ← d.length_eq]
    exact this
  · intro n hn
    obtain ⟨s, h1, h2⟩ := i.waiting n hn
    exact ⟨s, c.mem_iff.1 h1, h2⟩

/-- a handle without a permit that does not wait can be left out -/
theorem drop_idle {s : ConcState S.σ Nat} (h : LimTo debug max S sem (s :: hs) fs next arr) (hp : s.permit = false) (hn : s.sem ∉ arr) : LimTo debug max S sem hs fs next arr := by
  have h1 := h.drop_handle
  have ho := h.inv.order
  dsimp only at ho
  have hg : s.sem ∉ sem.granted := fun h => hn (by rw [ho]; exact List.mem_append_left _ h)
  have hq : s.sem ∉ sem.queue := fun h => hn (by rw [ho]; exact List.mem_append_right _ h)
  rw [List.erase_of_not_mem hn] at h1
  rw [semDrop, if_neg (by simp [hp]), Sem.dropAcquire, if_neg hg, List.erase_of_not_mem hq] at h1
  exact h1

/-- a name is not used -/
theorem skip (h : LimTo debug max S sem hs fs next arr) (i : S.σ) : LimTo debug max S sem hs fs (next + 1) arr := by
  refine (h.with_semaphore i).drop_idle rfl ?_
  intro hm
  obtain ⟨s, h1, h2, _⟩ := h.inv.waiting _ hm
  have := h.inv.bound s h1
  dsimp only at *
  omega

theorem drop_handles {l : List (ConcState S.σ Nat)} : ∀ {sem : Sem} {arr : List Nat}, LimTo debug max S sem (l ++ hs) fs next arr →
    ∃ arr', LimTo debug max S (l.foldl (fun sem s => semDrop s sem) sem) hs fs next arr' := by
  induction l with
  | nil => intro sem arr h; exact ⟨_, h⟩
  | cons f l ih => intro sem arr h; exact ih h.drop_handle

end LimTo
end Tower
