import Verif.Model.Load
import Mathlib.Data.List.Nodup

/-! # Histories of tracked services -/

namespace Tower
set_option linter.unusedSectionVars false
variable {W Req Res Err Res' : Type} {S : Service W Req Res Err} {C : Completion Res Res'} {T : Tracker}

theorem fst_eq_ok {A α : Type} {x : Act A α} {w w' : A × W} {a : α} : (x.fst : Act (A × W) α).run w = .ok a w' ↔ x.run w.1 = .ok a w'.1 ∧ w'.2 = w.2 := by
  unfold Act.fst
  obtain ⟨r, w⟩ := w; obtain ⟨r', w'⟩ := w'
  simp only
  cases hx : x.run r with
  | ok b r1 =>
    simp only [Out.ok.injEq, Prod.mk.injEq]
    constructor
    · rintro ⟨rfl, rfl, rfl⟩; exact ⟨⟨rfl, rfl⟩, rfl⟩
    · rintro ⟨⟨rfl, rfl⟩, rfl⟩; exact ⟨rfl, rfl, rfl⟩
  | panic m => simp
  | spin => simp

theorem snd_eq_ok {A α : Type} {x : Act W α} {w w' : A × W} {a : α} : (x.snd : Act (A × W) α).run w = .ok a w' ↔ x.run w.2 = .ok a w'.2 ∧ w'.1 = w.1 := by
  unfold Act.snd
  obtain ⟨r, w⟩ := w; obtain ⟨r', w'⟩ := w'
  simp only
  cases hx : x.run w with
  | ok b r1 =>
    simp only [Out.ok.injEq, Prod.mk.injEq]
    constructor
    · rintro ⟨rfl, rfl, rfl⟩; exact ⟨⟨rfl, rfl⟩, rfl⟩
    · rintro ⟨⟨rfl, rfl⟩, rfl⟩; exact ⟨rfl, rfl, rfl⟩
  | panic m => simp
  | spin => simp

/-- the handle a future has -/
def futHandle (e : Nat × Bool × (S.φ × Option T.H)) : Option (Nat × T.H) := e.2.2.2.map (fun h => (e.1, h))

/-- the handles not dropped yet, with the number of their call -/
def LState.live (x : LState T S) : List (Nat × T.H) := x.futs.filterMap futHandle ++ x.outs

/-- closure under what can happen to handles -/
structure LoadClosed (T : Tracker) (I : T.R → List (Nat × T.H) → List LoadEv → Nat → Prop) : Prop where
  perm : ∀ {r l l' log c}, I r l log c → l.Perm l' → I r l' log c
  call : ∀ {r l log c h r1}, I r l log c → T.handle.run r = .ok h r1 → I r1 ((c, h) :: l) (log ++ [.called c (T.stamp r)]) (c + 1)
  fin : ∀ {r n h l log c r'}, I r ((n, h) :: l) log c → (T.dropH h).run r = .ok () r' → I r' l (log ++ [.finished n (T.stamp r)]) c
  other : ∀ {r l log c r'}, I r l log c → T.other r r' → I r' l log c

theorem tracked_call {s s' : S.σ} {q : Req} {f : S.φ × Option T.H} {r r' : T.R} {w w' : W} (h : ((tracked T C S).call s q).run (r, w) = .ok (f, s') (r', w')) :
    ∃ f0 hd, f = (f0, some hd) ∧ T.handle.run r = .ok hd r' ∧ (S.call s q).run w = .ok (f0, s') w' := by
  obtain ⟨hd, ⟨r1, w1⟩, h1, h2⟩ := Act.run_bind_eq_ok.1 h
  obtain ⟨⟨f0, s1⟩, ⟨r2, w2⟩, h3, h4⟩ := Act.run_bind_eq_ok.1 h2
  cases h4
  obtain ⟨h5, h6⟩ := fst_eq_ok.1 h1
  obtain ⟨h7, h8⟩ := snd_eq_ok.1 h3
  simp only at h5 h6 h7 h8
  subst h6 h8
  exact ⟨f0, hd, rfl, h5, h7⟩

theorem tracked_poll {f f' : S.φ × Option T.H} {p} {r r' : T.R} {w w' : W} (h : ((tracked T C S).poll f).run (r, w) = .ok (p, f') (r', w')) :
    (p = .pending ∧ f'.2 = f.2 ∧ r' = r) ∨ (∃ e, p = .ready (.error e) ∧ f'.2 = f.2 ∧ r' = r) ∨
    ∃ v hd, f.2 = some hd ∧ f'.2 = none ∧ (S.poll f.1).run w = .ok (.ready (.ok v), f'.1) w' ∧
      ((C.keep v = true ∧ p = .ready (.ok (C.out v, some hd)) ∧ r' = r) ∨ (C.keep v = false ∧ p = .ready (.ok (C.out v, none)) ∧ (T.dropH hd).run r = .ok () r')) := by
  obtain ⟨⟨p0, f0⟩, ⟨r1, w1⟩, h1, h2⟩ := Act.run_bind_eq_ok.1 h
  obtain ⟨h7, h8⟩ := snd_eq_ok.1 h1
  simp only at h7 h8
  subst h8
  rcases p0 with _ | (e | v)
  · cases h2; exact Or.inl ⟨rfl, rfl, rfl⟩
  · cases h2; exact Or.inr (Or.inl ⟨e, rfl, rfl, rfl⟩)
  · right; right
    simp only at h2
    split at h2
    · cases h2
    · rename_i hd hf
      obtain ⟨o, ⟨r2, w2⟩, h3, h4⟩ := Act.run_bind_eq_ok.1 h2
      cases h4
      obtain ⟨h5, h6⟩ := fst_eq_ok.1 h3
      simp only at h5 h6
      subst h6
      refine ⟨v, hd, hf, rfl, h7, ?_⟩
      unfold Completion.track at h5
      split at h5
      · rename_i hk
        cases h5
        exact Or.inl ⟨hk, rfl, rfl⟩
      · rename_i hk
        obtain ⟨⟨⟩, r3, h9, h10⟩ := Act.run_bind_eq_ok.1 h5
        cases h10
        exact Or.inr ⟨by simpa using hk, rfl, h9⟩

theorem futs_split (l r : List (Nat × Bool × (S.φ × Option T.H))) (n : Nat) (d : Bool) (f : S.φ × Option T.H) :
    (l ++ (n, d, f) :: r).filterMap futHandle = l.filterMap futHandle ++ ((f.2.map (fun h => (n, h))).toList ++ r.filterMap futHandle) := by
  rw [List.filterMap_append]
  congr 1
  obtain ⟨f0, fh⟩ := f
  cases fh with
  | none => rw [List.filterMap_cons_none rfl]; rfl
  | some h => exact List.filterMap_cons_some (f := futHandle) (a := (n, d, (f0, some h))) (b := (n, h)) rfl

theorem LoadHist.induct {r0 : T.R} {I : T.R → List (Nat × T.H) → List LoadEv → Nat → Prop} (hI : LoadClosed T I) (h0 : I r0 [] [] 0) {x : LState T S} {log : List LoadEv}
    (h : LoadHist T C S r0 x log) : I x.r x.live log x.calls ∧ ∀ e ∈ x.futs, e.2.1 = e.2.2.2.isNone := by
  induction h with
  | new i => exact ⟨h0, fun e he => by cases he⟩
  | ready _ hr ih =>
    have := (snd_eq_ok.1 hr).2
    simp only at this
    subst this
    exact ih
  | call _ hc ih =>
    rename_i x log q w f s' r' w' _
    obtain ⟨f0, hd, rfl, h1, h2⟩ := tracked_call hc
    refine ⟨hI.perm (hI.call ih.1 h1) ?_, ?_⟩
    · simp only [LState.live, List.filterMap_append, List.append_assoc]
      show List.Perm _ (_ ++ ([(x.calls, hd)] ++ _))
      exact List.perm_middle.symm
    · intro e he
      rcases List.mem_append.1 he with he | he
      · exact ih.2 e he
      · rw [List.mem_singleton] at he; subst he; rfl
  | call_panics i _ h1 h2 ih =>
    refine ⟨?_, ih.2⟩
    have := hI.fin (hI.call ih.1 h1) h2
    rw [List.append_assoc] at this
    exact this
  | poll _ hf hp ih =>
    rename_i x log w p r' w' l r n d f f' _
    have hl : x.live = (l.filterMap futHandle ++ ((f.2.map (fun h => (n, h))).toList ++ r.filterMap futHandle)) ++ x.outs := by
      unfold LState.live
      rw [hf]
      exact congrArg (· ++ x.outs) (futs_split l r n d f)
    have hstat := ih.2
    rw [hf] at hstat
    have hmem : ∀ (b : Bool) (g : S.φ × Option T.H), b = g.2.isNone → ∀ e ∈ l ++ (n, b, g) :: r, e.2.1 = e.2.2.2.isNone := by
      intro b g hb e he
      rcases List.mem_append.1 he with he | he
      · exact hstat e (List.mem_append_left _ he)
      · rcases List.mem_cons.1 he with rfl | he
        · exact hb
        · exact hstat e (List.mem_append_right _ (List.mem_cons_of_mem _ he))
    have hd0 : d = f.2.isNone := hstat (n, d, f) (List.mem_append_right _ List.mem_cons_self)
    rcases tracked_poll hp with ⟨rfl, h1, rfl⟩ | ⟨e, rfl, h1, rfl⟩ | ⟨v, hd, h1, h2, _, h3⟩
    · simp only [gotOk, kept, ended, List.append_nil]
      refine ⟨?_, hmem d f' (by rw [h1]; exact hd0)⟩
      have : LState.live { x with futs := l ++ (n, d, f') :: r } = x.live := by
        rw [hl, ← h1]
        exact congrArg (· ++ x.outs) (futs_split l r n d f')
      rw [this]; exact ih.1
    · simp only [gotOk, kept, ended, List.append_nil]
      refine ⟨?_, hmem d f' (by rw [h1]; exact hd0)⟩
      have : LState.live { x with futs := l ++ (n, d, f') :: r } = x.live := by
        rw [hl, ← h1]
        exact congrArg (· ++ x.outs) (futs_split l r n d f')
      rw [this]; exact ih.1
    · have hfm := futs_split l r n true f'
      rw [h2] at hfm
      rw [h1] at hl
      simp only [Option.map_some, Option.toList_some, Option.map_none, Option.toList_none, List.nil_append] at hl hfm
      rcases h3 with ⟨_, rfl, rfl⟩ | ⟨_, rfl, h4⟩
      · simp only [gotOk, kept, ended, List.append_nil]
        refine ⟨hI.perm ih.1 ?_, hmem true f' (by rw [h2]; rfl)⟩
        rw [hl]
        show List.Perm _ ((l ++ (n, true, f') :: r).filterMap futHandle ++ (x.outs ++ [(n, hd)]))
        rw [hfm]
        refine List.Perm.trans (l₂ := (n, hd) :: (l.filterMap futHandle ++ r.filterMap futHandle ++ x.outs)) ?_ ?_
        · simp only [List.append_assoc]
          exact List.perm_middle
        · rw [← List.append_assoc]
          exact (List.perm_append_singleton _ _).symm
      · simp only [gotOk, kept, ended, List.append_nil]
        refine ⟨hI.fin (h := hd) (hI.perm ih.1 ?_) h4, hmem true f' (by rw [h2]; rfl)⟩
        rw [hl]
        show List.Perm _ ((n, hd) :: ((l ++ (n, true, f') :: r).filterMap futHandle ++ x.outs))
        rw [hfm]
        simp only [List.append_assoc]
        exact List.perm_middle
  | drop_future _ hf hd ih =>
    rename_i x log l r n d f r' _
    have hstat := ih.2
    rw [hf] at hstat
    have hd0 : d = f.2.isNone := hstat (n, d, f) (List.mem_append_right _ List.mem_cons_self)
    have hmem : ∀ e ∈ l ++ r, e.2.1 = e.2.2.2.isNone := by
      intro e he
      rcases List.mem_append.1 he with he | he
      · exact hstat e (List.mem_append_left _ he)
      · exact hstat e (List.mem_append_right _ (List.mem_cons_of_mem _ he))
    refine ⟨?_, hmem⟩
    obtain ⟨f0, fh⟩ := f
    cases fh with
    | none =>
      simp only [Option.isNone] at hd0
      subst hd0
      cases hd
      have : LState.live { x with futs := l ++ r } = x.live := by
        unfold LState.live; rw [hf, futs_split, List.filterMap_append]; rfl
      rw [if_pos rfl, this]; exact ih.1
    | some h =>
      simp only [Option.isNone] at hd0
      subst hd0
      rw [if_neg (by simp)]
      refine hI.fin (hI.perm ih.1 ?_) hd
      unfold LState.live
      rw [hf, futs_split, List.filterMap_append]
      simp only [Option.map_some, Option.toList_some, List.append_assoc]
      exact List.perm_middle
  | drop_response _ hf hd ih =>
    rename_i x log l r n h r' _
    refine ⟨hI.fin (hI.perm ih.1 ?_) hd, ih.2⟩
    unfold LState.live
    rw [hf]
    simp only [← List.append_assoc]
    exact List.perm_middle
  | other _ ho ih => exact ⟨hI.other ih.1 ho, ih.2⟩

end Tower
