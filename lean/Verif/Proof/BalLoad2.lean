import Verif.Proof.BalLoad1
import Verif.Proof.Load1
import Verif.Model.BalLoad
import Mathlib.Logic.Relation

/-! # Histories of a balancer over endpoints that track their load -/

namespace Tower
set_option linter.unusedSectionVars false
set_option linter.unusedSimpArgs false
open Act
variable {W Req Res Err Res' K DErr BErr : Type} [DecidableEq K] {X : TBal W Req Res Err Res' K DErr BErr} {fuel : Nat}

theorem atCell_eq_ok {R α : Type} {k : Nat} {x : Act (R × W) α} {w w' : List R × W} {a : α} :
    (x.atCell k).run w = .ok a w' ↔ ∃ r r', w.1[k]? = some r ∧ x.run (r, w.2) = .ok a (r', w'.2) ∧ w'.1 = w.1.set k r' := by
  unfold Act.atCell
  obtain ⟨c, w⟩ := w; obtain ⟨c', w'⟩ := w'
  simp only
  cases hc : c[k]? with
  | none => simp
  | some r =>
    simp only
    cases hx : x.run (r, w) with
    | ok b v =>
      obtain ⟨r1, w1⟩ := v
      simp only [Out.ok.injEq, Prod.mk.injEq]
      constructor
      · rintro ⟨rfl, rfl, rfl⟩; exact ⟨r, r1, rfl, hx, rfl⟩
      · rintro ⟨r2, r3, h1, h2, h3⟩
        cases h1
        rw [hx] at h2; cases h2
        exact ⟨rfl, h3.symm, rfl⟩
    | panic m =>
      simp only [reduceCtorEq, false_iff]
      rintro ⟨r2, r3, h1, h2, h3⟩
      cases h1; rw [hx] at h2; cases h2
    | spin =>
      simp only [reduceCtorEq, false_iff]
      rintro ⟨r2, r3, h1, h2, h3⟩
      cases h1; rw [hx] at h2; cases h2

theorem set_self {α : Type} {l : List α} {k : Nat} {r : α} (h : l[k]? = some r) : l.set k r = l := by
  obtain ⟨h1, rfl⟩ := List.getElem?_eq_some_iff.1 h
  exact List.set_getElem_self h1

/-- time passes and loads are read, any number of times -/
def Others (T : Tracker) : T.R → T.R → Prop := Relation.ReflTransGen T.other

/-- the same endpoints -/
def CellsSame (T : Tracker) (h h' : List T.R) : Prop := h'.length = h.length ∧ ∀ (t : Nat) (r : T.R), h[t]? = some r → ∃ r', h'[t]? = some r' ∧ Others T r r'

/-- what a new endpoint starts with -/
def TBal.Fresh (X : TBal W Req Res Err Res' K DErr BErr) (r : X.T.R) : Prop := ∃ w w', X.init.run w = .ok r w'

/-- the same endpoints and new ones -/
def CellsExt (X : TBal W Req Res Err Res' K DErr BErr) (h h' : List X.T.R) : Prop :=
  (∀ (t : Nat) (r : X.T.R), h[t]? = some r → ∃ r', h'[t]? = some r' ∧ Others X.T r r') ∧ ∀ (t : Nat) (r' : X.T.R), h'[t]? = some r' → h.length ≤ t → ∃ r0, X.Fresh r0 ∧ Others X.T r0 r'

theorem CellsSame.refl (T : Tracker) (h : List T.R) : CellsSame T h h := ⟨rfl, fun _ r hr => ⟨r, hr, .refl⟩⟩

theorem CellsSame.trans {T : Tracker} {a b c : List T.R} (h : CellsSame T a b) (h' : CellsSame T b c) : CellsSame T a c :=
  ⟨h'.1.trans h.1, fun t r hr => by
    obtain ⟨r1, h1, h2⟩ := h.2 t r hr
    obtain ⟨r2, h3, h4⟩ := h'.2 t r1 h1
    exact ⟨r2, h3, h2.trans h4⟩⟩

theorem CellsSame.ext {a b : List X.T.R} (h : CellsSame X.T a b) : CellsExt X a b :=
  ⟨h.2, fun t r' hr hl => by
    have := (List.getElem?_eq_some_iff.1 hr).1
    rw [h.1] at this; omega⟩

theorem CellsExt.trans {a b c : List X.T.R} (h : CellsExt X a b) (h' : CellsExt X b c) : CellsExt X a c := by
  refine ⟨fun t r hr => ?_, fun t r hr hl => ?_⟩
  · obtain ⟨r1, h1, h2⟩ := h.1 t r hr
    obtain ⟨r2, h3, h4⟩ := h'.1 t r1 h1
    exact ⟨r2, h3, h2.trans h4⟩
  · by_cases hb : b.length ≤ t
    · exact h'.2 t r hr hb
    · have hb : t < b.length := by omega
      obtain ⟨r1, h1, h2⟩ := h'.1 t b[t] (List.getElem?_eq_getElem hb)
      rw [hr] at h1; cases h1
      obtain ⟨r0, h3, h4⟩ := h.2 t b[t] (List.getElem?_eq_getElem hb) hl
      exact ⟨r0, h3, h4.trans h2⟩

theorem CellsExt.length {a b : List X.T.R} (h : CellsExt X a b) : a.length ≤ b.length := by
  by_contra hc
  have hb : b.length < a.length := by omega
  obtain ⟨r1, h1, _⟩ := h.1 b.length a[b.length] (List.getElem?_eq_getElem hb)
  have := (List.getElem?_eq_some_iff.1 h1).1
  omega

/-- the load is read without effects other than those of reading it -/
def TBal.Reads (X : TBal W Req Res Err Res' K DErr BErr) : Prop := ∀ {a c b}, X.ld.run a = .ok c b → X.T.other a b

/-- the endpoint's number -/
def TTag (X : TBal W Req Res Err Res' K DErr BErr) (s : X.cfg.S.σ) (t : Nat) : Prop := s.2 = t

theorem inCell_pollReady {s s' : X.cfg.S.σ} {w w' : List X.T.R × W} {p} (h : (X.cfg.S.pollReady s).run w = .ok (p, s') w') :
    w'.1 = w.1 ∧ s'.2 = s.2 ∧ (X.S.pollReady s.1).run w.2 = .ok (p, s'.1) w'.2 := by
  obtain ⟨⟨p1, i⟩, w1, h1, h2⟩ := run_bind_eq_ok.1 h
  cases h2
  obtain ⟨r, r', h3, h4, h5⟩ := atCell_eq_ok.1 h1
  obtain ⟨h6, h7⟩ := snd_eq_ok.1 h4
  simp only at h6 h7
  subst h7
  exact ⟨by rw [h5, set_self h3], rfl, h6⟩

theorem TBal.keeps (X : TBal W Req Res Err Res' K DErr BErr) : KeepsTags X.cfg.S X.cfg.V (fun w w' => CellsSame X.T w.1 w'.1) (TTag X) where
  refl w := CellsSame.refl _ _
  trans := CellsSame.trans
  ready h := by rw [(inCell_pollReady h).1]; exact CellsSame.refl _ _
  tag ht h := (inCell_pollReady h).2.1.trans ht
  order n w := CellsSame.refl _ _

theorem TBal.load_rel (hX : X.Reads) {s : X.cfg.S.σ} {w w' : List X.T.R × W} {c} (h : (X.cfg.L.load s).run w = .ok c w') : CellsSame X.T w.1 w'.1 := by
  obtain ⟨r, r', h3, h4, h5⟩ := atCell_eq_ok.1 h
  obtain ⟨h6, h7⟩ := fst_eq_ok.1 h4
  simp only at h6
  rw [h5]
  refine ⟨by simp, fun t r1 hr => ?_⟩
  by_cases ht : s.2 = t
  · subst ht
    rw [h3] at hr; cases hr
    have := (List.getElem?_eq_some_iff.1 h3).1
    exact ⟨r', by simp [this], .single (hX h6)⟩
  · exact ⟨r1, by rw [List.getElem?_set_ne ht]; exact hr, .refl⟩

/-- the invariant of the balancer itself: endpoint numbers and shared states go together -/
def TOk (b : Balance X.cfg) (cells : List X.T.R) : Prop := b.svcs.Tagged (TTag X) ∧ b.svcs.nextCell = cells.length

theorem disc_poll {d d' : X.cfg.D.δ} {w w' : List X.T.R × W} {p} (h : (X.cfg.D.poll d).run w = .ok (p, d') w') :
    (w'.1 = w.1 ∧ (∀ k v, p ≠ .ready (some (.ok (.insert k v))))) ∨
    ∃ k s r, p = .ready (some (.ok (.insert k (s, w.1.length)))) ∧ w'.1 = w.1 ++ [r] ∧ X.Fresh r := by
  obtain ⟨⟨p1, d1⟩, w1, h1, h2⟩ := run_bind_eq_ok.1 h
  obtain ⟨h3, h4⟩ := snd_eq_ok.1 h1
  rcases p1 with _ | (_ | (e | (⟨k, v⟩ | k)))
  · cases h2; exact Or.inl ⟨h4, fun k v hx => by cases hx⟩
  · cases h2; exact Or.inl ⟨h4, fun k v hx => by cases hx⟩
  · cases h2; exact Or.inl ⟨h4, fun k v hx => by cases hx⟩
  · simp only at h2
    obtain ⟨v', w2, h5, h6⟩ := run_bind_eq_ok.1 h2
    cases h6
    unfold alloc at h5
    obtain ⟨r, w3, h7, h8⟩ := run_bind_eq_ok.1 h5
    obtain ⟨h9, h10⟩ := snd_eq_ok.1 h7
    cases h8
    refine Or.inr ⟨k, v, r, by rw [h10, h4], by simp only; rw [h10, h4], _, _, h9⟩
  · cases h2; exact Or.inl ⟨h4, fun k v hx => by cases hx⟩

theorem update_rel (n : Nat) : ∀ {b b' : Balance X.cfg} {w w' : List X.T.R × W} {r}, TOk b w.1 → (Balance.update n b).run w = .ok (r, b') w' →
    CellsExt X w.1 w'.1 ∧ TOk b' w'.1 ∧ b'.idx = b.idx := by
  induction n with
  | zero => intro b b' w w' r _ h; cases h
  | succ n ih =>
    intro b b' w w' r hb h
    unfold Balance.update at h
    obtain ⟨⟨p, d⟩, w1, h1, h2⟩ := run_bind_eq_ok.1 h
    rcases disc_poll h1 with ⟨e1, e2⟩ | ⟨k, s, r0, rfl, e1, e2⟩
    · have hb1 : TOk b w1.1 := by rw [e1]; exact hb
      have hx1 : CellsExt X w.1 w1.1 := by rw [e1]; exact (CellsSame.refl _ _).ext
      rcases p with _ | (_ | (e | (⟨k, v⟩ | k)))
      · cases h2; exact ⟨hx1, hb1, rfl⟩
      · cases h2; exact ⟨hx1, hb1, rfl⟩
      · cases h2; exact ⟨hx1, hb1, rfl⟩
      · exact absurd rfl (e2 k v)
      · have hb2 : TOk { b with disc := d, svcs := Balance.apply b.svcs (.remove k) } w1.1 := by
          obtain ⟨q1, q2⟩ := Cache.evict_tagged (k := k) hb1.1
          exact ⟨q1, q2.trans hb1.2⟩
        obtain ⟨a1, a2, a3⟩ := ih hb2 h2
        exact ⟨hx1.trans a1, a2, a3⟩
    · have hb2 : TOk { b with disc := d, svcs := Balance.apply b.svcs (.insert k (s, w.1.length)) } w1.1 := by
        obtain ⟨q1, q2⟩ := Cache.push_tagged (P := TTag X) (k := k) (s := (s, w.1.length)) hb.1 hb.2.symm
        exact ⟨q1, by rw [e1]; simp only [List.length_append, List.length_cons, List.length_nil]; rw [← hb.2]; exact q2⟩
      obtain ⟨a1, a2, a3⟩ := ih hb2 h2
      refine ⟨CellsExt.trans ?_ a1, a2, a3⟩
      rw [e1]
      refine ⟨fun t r hr => ⟨r, ?_, .refl⟩, fun t r hr hl => ?_⟩
      · rw [List.getElem?_append_left (List.getElem?_eq_some_iff.1 hr).1]; exact hr
      · have h3 := (List.getElem?_eq_some_iff.1 hr).1
        simp only [List.length_append, List.length_cons, List.length_nil] at h3
        have h4 : t = w.1.length := by omega
        subst h4
        simp at hr
        subst hr
        exact ⟨_, e2, .refl⟩

/-- what a `poll_ready` of the balancer does to the shared states, and how the endpoint is chosen -/
theorem ready_rel (hX : X.Reads) {b b' : Balance X.cfg} {w w' : List X.T.R × W} {p} (hb : TOk b w.1) (h : ((balance X.cfg fuel).pollReady b).run w = .ok (p, b') w') :
    CellsExt X w.1 w'.1 ∧ TOk b' w'.1 ∧
    (p = .ready (.ok ()) → ∃ i, b'.idx = some i ∧ (b.idx = some i ∨ ∃ w0, CellsExt X w.1 w0.1 ∧ CellsSame X.T w0.1 w'.1 ∧ Balance.Picked X.cfg (fun w w' => CellsSame X.T w.1 w'.1) (TTag X) w0 i b' w')) := by
  have h : (b.pollReady fuel).run w = .ok (p, b') w' := h
  unfold Balance.pollReady at h
  obtain ⟨⟨r, b1⟩, w1, h1, h2⟩ := run_bind_eq_ok.1 h
  obtain ⟨q1, q2, q3⟩ := update_rel _ hb h1
  rcases r with e | ⟨⟩
  · cases h2
    exact ⟨q1, q2, fun h => by cases h⟩
  · simp only at h2
    unfold Balance.rest at h2
    obtain ⟨b2, w2, h3, h4⟩ := run_bind_eq_ok.1 h2
    obtain ⟨p1, p2, p3, p4⟩ := Balance.promote_rel X.keeps _ h3
    obtain ⟨s1, s2, s3, s4⟩ := Balance.select_rel X.keeps (fun h => TBal.load_rel hX h) _ (p3 q2.1) h4
    refine ⟨q1.trans (p1.trans s1).ext, ⟨s3, ?_⟩, fun hp => ?_⟩
    · rw [s2, p2, q2.2, s1.1, p1.1]
    · obtain ⟨i, hi, hi'⟩ := s4 hp
      refine ⟨i, hi, ?_⟩
      rcases hi' with hr | hr
      · exact Or.inl (by rw [← q3, ← p4]; exact hr.1)
      · exact Or.inr ⟨w2, q1.trans p1.ext, s1, hr⟩

/-- what a `call` of the balancer does -/
theorem call_rel {b b' : Balance X.cfg} {w w' : List X.T.R × W} {q : Req} {f : X.cfg.S.φ} (hb : TOk b w.1) (h : ((balance X.cfg fuel).call b q).run w = .ok (some f, b') w') :
    ∃ r r' hd, w.1[f.2]? = some r ∧ X.T.handle.run r = .ok hd r' ∧ w'.1 = w.1.set f.2 r' ∧ f.1.2 = some hd ∧ TOk b' w'.1 := by
  obtain ⟨_, e, h⟩ := balance_call h
  cases e
  unfold Balance.call at h
  split at h
  · cases h
  · obtain ⟨⟨f1, c⟩, w1, h1, h2⟩ := run_bind_eq_ok.1 h
    cases h2
    unfold Cache.callReadyIndex at h1
    split at h1
    · cases h1
    · rename_i k s pair ready' hs
      obtain ⟨⟨f2, s'⟩, w2, h3, h4⟩ := run_bind_eq_ok.1 h1
      cases h4
      obtain ⟨⟨f3, i3⟩, w3, h5, h6⟩ := run_bind_eq_ok.1 h3
      cases h6
      obtain ⟨r, r', h7, h8, h9⟩ := atCell_eq_ok.1 h5
      obtain ⟨f0, hd, rfl, h10, h11⟩ := tracked_call h8
      obtain ⟨m1, m2⟩ := IMap.swapRemoveIndex_mem hs
      refine ⟨r, r', hd, h7, h10, h9, rfl, ?_, ?_⟩
      · exact Cache.putBack_tagged ⟨hb.1.1, fun x hx => hb.1.2 x (m2 x hx)⟩ (hb.1.2 _ m1)
      · rw [h9]
        simp only [List.length_set]
        rw [Cache.putBack_next]; exact hb.2

/-- what a poll of a response future does -/
theorem poll_rel {f f' : X.cfg.S.φ} {cells cells' : List X.T.R} {w w' : W} {p} (h : (X.cfg.S.poll f).run (cells, w) = .ok (p, f') (cells', w')) :
    f'.2 = f.2 ∧ ∃ r r', cells[f.2]? = some r ∧ cells' = cells.set f.2 r' ∧
      (((∀ v, p ≠ .ready (.ok v)) ∧ f'.1.2 = f.1.2 ∧ r' = r) ∨
       ∃ v hd, f.1.2 = some hd ∧ f'.1.2 = none ∧ ((p = .ready (.ok (v, some hd)) ∧ r' = r) ∨ (p = .ready (.ok (v, none)) ∧ (X.T.dropH hd).run r = .ok () r'))) := by
  obtain ⟨⟨p2, g⟩, w2, h3, h4⟩ := run_bind_eq_ok.1 h
  cases h4
  obtain ⟨r, r', h5, h6, h7⟩ := atCell_eq_ok.1 h3
  refine ⟨rfl, r, r', h5, h7, ?_⟩
  rcases tracked_poll h6 with ⟨rfl, e1, e2⟩ | ⟨e, rfl, e1, e2⟩ | ⟨v, hd, e1, e2, _, ⟨_, rfl, e3⟩ | ⟨_, rfl, e3⟩⟩
  · exact Or.inl ⟨fun v hv => (by cases hv), e1, e2⟩
  · exact Or.inl ⟨fun v hv => (by cases hv), e1, e2⟩
  · exact Or.inr ⟨_, hd, e1, e2, Or.inl ⟨rfl, e3⟩⟩
  · exact Or.inr ⟨_, hd, e1, e2, Or.inr ⟨rfl, e3⟩⟩

/-! ## Invariants of every endpoint -/

/-- the handle a future has, if it is one of endpoint `t` -/
def futH (X : TBal W Req Res Err Res' K DErr BErr) (t : Nat) (e : Nat × Bool × X.cfg.S.φ) : Option (Nat × X.T.H) := if e.2.2.2 = t then e.2.2.1.2.map (fun h => (e.1, h)) else none

/-- the handle in a response, if it is one of endpoint `t` -/
def outH (X : TBal W Req Res Err Res' K DErr BErr) (t : Nat) (o : Nat × Nat × X.T.H) : Option (Nat × X.T.H) := if o.1 = t then some o.2 else none

/-- the handles of endpoint `t` not dropped yet, with the number of their call -/
def TState.live (x : TState X) (t : Nat) : List (Nat × X.T.H) := x.futs.filterMap (futH X t) ++ x.outs.filterMap (outH X t)

/-- `I` of every endpoint -/
structure TInv (I : X.T.R → List (Nat × X.T.H) → List LoadEv → Nat → Prop) (x : TState X) (log : List (Nat × LoadEv)) : Prop where
  ok : TOk x.bal x.cells
  inv : ∀ (t : Nat) (r : X.T.R), x.cells[t]? = some r → I r (x.live t) (atEndpoint t log) (callsAt t log)
  futs : ∀ e ∈ x.futs, e.2.1 = e.2.2.1.2.isNone ∧ e.2.2.2 < x.cells.length
  outs : ∀ o ∈ x.outs, o.1 < x.cells.length
  log : ∀ e ∈ log, e.1 < x.cells.length

theorem atEndpoint_append (t : Nat) (a b : List (Nat × LoadEv)) : atEndpoint t (a ++ b) = atEndpoint t a ++ atEndpoint t b := List.filterMap_append

theorem atEndpoint_map_same (t : Nat) (l : List LoadEv) : atEndpoint t (l.map (fun e => (t, e))) = l := by
  induction l with
  | nil => rfl
  | cons e l ih =>
    unfold atEndpoint at ih ⊢
    rw [List.map_cons, List.filterMap_cons]
    simp [ih]

theorem atEndpoint_map_ne {t t' : Nat} (h : t' ≠ t) (l : List LoadEv) : atEndpoint t (l.map (fun e => (t', e))) = [] := by
  induction l with
  | nil => rfl
  | cons e l ih =>
    unfold atEndpoint at ih ⊢
    rw [List.map_cons, List.filterMap_cons]
    simp [ih, h]

theorem atEndpoint_none {t : Nat} {log : List (Nat × LoadEv)} (h : ∀ e ∈ log, e.1 < t) : atEndpoint t log = [] := by
  unfold atEndpoint
  rw [List.filterMap_eq_nil_iff]
  intro e he
  rw [if_neg (by have := h e he; omega)]

theorem inv_set {R : Type} {J J' : Nat → R → Prop} {cells : List R} {t0 : Nat} {r' : R} (hold : ∀ (t : Nat) (r : R), cells[t]? = some r → J t r) (hsame : ∀ t, t ≠ t0 → ∀ r, J t r → J' t r) (hnew : J' t0 r') :
    ∀ (t : Nat) (r : R), (cells.set t0 r')[t]? = some r → J' t r := by
  intro t r hr
  by_cases ht : t0 = t
  · subst ht
    rw [List.getElem?_set_self'] at hr
    cases hc : cells[t0]? with
    | none => rw [hc] at hr; cases hr
    | some r1 => rw [hc] at hr; cases hr; exact hnew
  · rw [List.getElem?_set_ne ht] at hr
    exact hsame t (fun h => ht h.symm) r (hold t r hr)

theorem filterMap_split {α β : Type} (f : α → Option β) (l r : List α) (e : α) : (l ++ e :: r).filterMap f = l.filterMap f ++ ((f e).toList ++ r.filterMap f) := by
  rw [List.filterMap_append]
  congr 1
  cases h : f e with
  | none => rw [List.filterMap_cons_none h]; rfl
  | some b => exact List.filterMap_cons_some h

theorem Others.closed {T : Tracker} {I : T.R → List (Nat × T.H) → List LoadEv → Nat → Prop} (hI : LoadClosed T I) {r r' : T.R} (h : Others T r r') {l log c} (hi : I r l log c) : I r' l log c := by
  induction h with
  | refl => exact hi
  | tail _ h ih => exact hI.other ih h

/-- what holds of every endpoint holds while the balancer is polled -/
theorem TInv.ext {I : X.T.R → List (Nat × X.T.H) → List LoadEv → Nat → Prop} (hI : LoadClosed X.T I) (h0 : ∀ r, X.Fresh r → I r [] [] 0) {x : TState X} {log : List (Nat × LoadEv)} (ih : TInv I x log)
    {cells' : List X.T.R} (q1 : CellsExt X x.cells cells') : ∀ (t : Nat) (r : X.T.R), cells'[t]? = some r → I r (x.live t) (atEndpoint t log) (callsAt t log) := by
  intro t r hr
  by_cases ht : t < x.cells.length
  · obtain ⟨r1, h1, h2⟩ := q1.1 t x.cells[t] (List.getElem?_eq_getElem ht)
    rw [hr] at h1; cases h1
    exact h2.closed hI (ih.inv t _ (List.getElem?_eq_getElem ht))
  · obtain ⟨r0, h1, h2⟩ := q1.2 t r hr (by omega)
    have hlog : atEndpoint t log = [] := atEndpoint_none (fun e he => by have := ih.log e he; omega)
    have hlive : x.live t = [] := by
      unfold TState.live
      rw [List.append_eq_nil_iff, List.filterMap_eq_nil_iff, List.filterMap_eq_nil_iff]
      refine ⟨fun e he => ?_, fun o ho => ?_⟩
      · unfold futH; rw [if_neg (by have := (ih.futs e he).2; omega)]
      · unfold outH; rw [if_neg (by have := ih.outs o ho; omega)]
    have hc : callsAt t log = 0 := by unfold callsAt; rw [hlog]; rfl
    rw [hlog, hlive, hc]
    exact h2.closed hI (h0 r0 h1)

theorem TRun.induct {I : X.T.R → List (Nat × X.T.H) → List LoadEv → Nat → Prop} (hI : LoadClosed X.T I) (h0 : ∀ r, X.Fresh r → I r [] [] 0) (hX : X.Reads) {x : TState X} {log : List (Nat × LoadEv)}
    (h : TRun X fuel x log) : TInv I x log := by
  induction h with
  | new d r =>
    refine ⟨⟨⟨fun e he => (by cases he), fun e he => (by cases he)⟩, rfl⟩, fun t r hr => ?_, fun e he => (by cases he), fun e he => (by cases he), fun e he => (by cases he)⟩
    simp at hr
  | ready _ hr ih =>
    rename_i x log w p b' cells' w' _
    obtain ⟨q1, q2, _⟩ := ready_rel hX ih.ok hr
    have hlen := q1.length
    simp only at q1 q2 hlen
    refine ⟨q2, fun t r hr => ?_, fun e he => ⟨(ih.futs e he).1, (ih.futs e he).2.trans_le hlen⟩, fun e he => (ih.outs e he).trans_le hlen, fun e he => (ih.log e he).trans_le hlen⟩
    exact ih.ext hI h0 q1 t r hr
  | call _ hc ih =>
    rename_i x log q w f b' cells' w' _
    obtain ⟨r, r', hd, q1, q2, q3, q4, q5⟩ := call_rel ih.ok hc
    simp only at q1 q3 q5
    subst q3
    have hlt := (List.getElem?_eq_some_iff.1 q1).1
    refine ⟨q5, ?_, ?_, ?_, ?_⟩
    · refine inv_set (J := fun t r => I r (x.live t) (atEndpoint t log) (callsAt t log)) ih.inv ?_ ?_
      · intro t ht r hr
        have e1 : atEndpoint t (log ++ [(f.2, .called (callsAt f.2 log) (stampAt X.T x.cells f.2))]) = atEndpoint t log := by
          rw [atEndpoint_append]; simp [atEndpoint, ht.symm]
        have e2 : TState.live { x with cells := x.cells.set f.2 r', bal := b', futs := x.futs ++ [(callsAt f.2 log, false, f)] } t = x.live t := by
          unfold TState.live
          simp [futH, ht.symm]
        have e3 : callsAt t (log ++ [(f.2, .called (callsAt f.2 log) (stampAt X.T x.cells f.2))]) = callsAt t log := congrArg (List.countP LoadEv.isCall) e1
        rw [e1, e2, e3]
        exact hr
      · have e1 : atEndpoint f.2 (log ++ [(f.2, .called (callsAt f.2 log) (stampAt X.T x.cells f.2))]) = atEndpoint f.2 log ++ [.called (callsAt f.2 log) (X.T.stamp r)] := by
          rw [atEndpoint_append]; simp [atEndpoint, stampAt, q1]
        have e2 : callsAt f.2 (log ++ [(f.2, .called (callsAt f.2 log) (stampAt X.T x.cells f.2))]) = callsAt f.2 log + 1 := by
          rw [callsAt, e1, List.countP_append]; rfl
        rw [e1, e2]
        refine hI.perm (hI.call (ih.inv _ _ q1) q2) ?_
        simp only [TState.live, List.filterMap_append, List.append_assoc]
        have e3 : [(callsAt f.2 log, false, f)].filterMap (futH X f.2) = [(callsAt f.2 log, hd)] := by simp [futH, q4]
        rw [e3]
        exact List.perm_middle.symm
    · intro e he
      simp only [List.length_set]
      rcases List.mem_append.1 he with he | he
      · exact ih.futs e he
      · rw [List.mem_singleton] at he; subst he
        exact ⟨by simp only; rw [q4]; rfl, hlt⟩
    · intro e he; simp only [List.length_set]; exact ih.outs e he
    · intro e he
      simp only [List.length_set]
      rcases List.mem_append.1 he with he | he
      · exact ih.log e he
      · rw [List.mem_singleton] at he; subst he; exact hlt
  | poll _ hf hp ih =>
    rename_i x log w p cells' w' l r n d f f' _
    obtain ⟨ef, r0, r1, q1, rfl, q3⟩ := poll_rel hp
    have hlt := (List.getElem?_eq_some_iff.1 q1).1
    have hfs := ih.futs
    rw [hf] at hfs
    have hd0 : d = f.1.2.isNone := (hfs (n, d, f) (List.mem_append_right _ List.mem_cons_self)).1
    have hmem : ∀ (b : Bool), b = f'.1.2.isNone → ∀ e ∈ l ++ (n, b, f') :: r, e.2.1 = e.2.2.1.2.isNone ∧ e.2.2.2 < (x.cells.set f.2 r1).length := by
      intro b hb e he
      rw [List.length_set]
      rcases List.mem_append.1 he with he | he
      · exact hfs e (List.mem_append_left _ he)
      · rcases List.mem_cons.1 he with rfl | he
        · exact ⟨hb, by simp only; rw [ef]; exact hlt⟩
        · exact hfs e (List.mem_append_right _ (List.mem_cons_of_mem _ he))
    -- the handles of endpoint `t` before and after
    have hold : ∀ t, x.live t = l.filterMap (futH X t) ++ ((futH X t (n, d, f)).toList ++ r.filterMap (futH X t)) ++ x.outs.filterMap (outH X t) := by
      intro t; unfold TState.live; rw [hf, filterMap_split]
    have hne : ∀ t, t ≠ f.2 → futH X t (n, d, f) = none ∧ ∀ b, futH X t (n, b, f') = none := by
      intro t ht
      exact ⟨by simp [futH, ht.symm], fun b => by simp [futH, ef, ht.symm]⟩
    rcases q3 with ⟨hp0, e1, rfl⟩ | ⟨v, hd, e1, e2, hcase⟩
    · have hg : gotOk p d = d := by rcases p with _ | (e | v) <;> first | rfl | exact absurd rfl (hp0 v)
      have hk : kept p n = [] := by rcases p with _ | (e | v) <;> first | rfl | exact absurd rfl (hp0 v)
      have he : ended p n (stampAt X.T x.cells f.2) = [] := by rcases p with _ | (e | v) <;> first | rfl | exact absurd rfl (hp0 v)
      rw [hg, hk, he]
      simp only [List.map_nil, List.append_nil]
      rw [set_self q1]
      have hl : ∀ t, TState.live { x with futs := l ++ (n, d, f') :: r } t = x.live t := by
        intro t
        rw [hold]
        unfold TState.live
        simp only [filterMap_split]
        have : futH X t (n, d, f') = futH X t (n, d, f) := by unfold futH; simp only [ef, e1]
        rw [this]
      refine ⟨ih.ok, fun t r hr => ?_, ?_, ih.outs, ih.log⟩
      · have := ih.inv t r hr
        rw [← hl] at this; exact this
      · have := hmem d (by rw [e1]; exact hd0)
        rw [set_self q1] at this; exact this
    · have hfd : futH X f.2 (n, d, f) = some (n, hd) := by simp [futH, e1]
      have hfn : futH X f.2 (n, true, f') = none := by simp [futH, e2]
      have hok : TOk x.bal (x.cells.set f.2 r1) := ⟨ih.ok.1, by simp only [List.length_set]; exact ih.ok.2⟩
      rcases hcase with ⟨rfl, rfl⟩ | ⟨rfl, hdr⟩
      · simp only [gotOk, kept, ended, List.map_cons, List.map_nil, List.append_nil]
        refine ⟨hok, ?_, hmem true (by rw [e2]; rfl), ?_, ?_⟩
        · refine inv_set (J := fun t r => I r (x.live t) (atEndpoint t log) (callsAt t log)) ih.inv ?_ ?_
          · intro t ht r' hr'
            obtain ⟨n1, n2⟩ := hne t ht
            refine hI.perm hr' ?_
            rw [hold, n1]
            unfold TState.live
            simp only [filterMap_split, n2 true]
            simp [outH, ht.symm]
          · refine hI.perm (ih.inv _ _ q1) ?_
            rw [hold, hfd]
            unfold TState.live
            simp only [filterMap_split, hfn]
            have : outH X f.2 (f.2, n, hd) = some (n, hd) := by simp [outH]
            rw [this]
            simp only [Option.toList_some, Option.toList_none, List.nil_append, List.filterMap_nil, List.append_nil]
            refine List.Perm.trans (l₂ := (n, hd) :: (l.filterMap (futH X f.2) ++ r.filterMap (futH X f.2) ++ x.outs.filterMap (outH X f.2))) ?_ ?_
            · simp only [List.append_assoc]
              exact List.perm_middle
            · rw [← List.append_assoc]
              exact (List.perm_append_singleton _ _).symm
        · intro o ho
          simp only [List.length_set]
          rcases List.mem_append.1 ho with ho | ho
          · exact ih.outs o ho
          · rw [List.mem_singleton] at ho; subst ho; exact hlt
        · intro e he; simp only [List.length_set]; exact ih.log e he
      · simp only [gotOk, kept, ended, List.map_cons, List.map_nil, List.append_nil]
        refine ⟨hok, ?_, hmem true (by rw [e2]; rfl), ?_, ?_⟩
        · refine inv_set (J := fun t r => I r (x.live t) (atEndpoint t log) (callsAt t log)) ih.inv ?_ ?_
          · intro t ht r' hr'
            obtain ⟨n1, n2⟩ := hne t ht
            have e4 : atEndpoint t (log ++ [(f.2, .finished n (stampAt X.T x.cells f.2))]) = atEndpoint t log := by
              rw [atEndpoint_append]; simp [atEndpoint, ht.symm]
            have e5 : callsAt t (log ++ [(f.2, .finished n (stampAt X.T x.cells f.2))]) = callsAt t log := congrArg (List.countP LoadEv.isCall) e4
            rw [e4, e5]
            refine hI.perm hr' ?_
            rw [hold, n1]
            unfold TState.live
            simp only [filterMap_split, n2 true]
            exact List.Perm.refl _
          · have e4 : atEndpoint f.2 (log ++ [(f.2, .finished n (stampAt X.T x.cells f.2))]) = atEndpoint f.2 log ++ [.finished n (X.T.stamp r0)] := by
              rw [atEndpoint_append]; simp [atEndpoint, stampAt, q1]
            have e5 : callsAt f.2 (log ++ [(f.2, .finished n (stampAt X.T x.cells f.2))]) = callsAt f.2 log := by
              rw [callsAt, e4, List.countP_append]; rfl
            rw [e4, e5]
            refine hI.fin (h := hd) (hI.perm (ih.inv _ _ q1) ?_) hdr
            rw [hold, hfd]
            unfold TState.live
            simp only [filterMap_split, hfn, Option.toList_some, Option.toList_none, List.nil_append, List.append_assoc]
            exact List.perm_middle
        · intro o ho; simp only [List.length_set]; exact ih.outs o ho
        · intro e he
          simp only [List.length_set]
          rcases List.mem_append.1 he with he | he
          · exact ih.log e he
          · rw [List.mem_singleton] at he; subst he; exact hlt
  | drop_future _ hf hd ih =>
    rename_i x log l r n d f cells' w w' _
    obtain ⟨r0, r1, q1, q2, q3⟩ := atCell_eq_ok.1 hd
    obtain ⟨q4, _⟩ := fst_eq_ok.1 q2
    simp only at q1 q3 q4
    subst q3
    have hlt := (List.getElem?_eq_some_iff.1 q1).1
    have hfs := ih.futs
    rw [hf] at hfs
    have hd0 : d = f.1.2.isNone := (hfs (n, d, f) (List.mem_append_right _ List.mem_cons_self)).1
    have hmem : ∀ e ∈ l ++ r, e.2.1 = e.2.2.1.2.isNone ∧ e.2.2.2 < (x.cells.set f.2 r1).length := by
      intro e he
      rw [List.length_set]
      rcases List.mem_append.1 he with he | he
      · exact hfs e (List.mem_append_left _ he)
      · exact hfs e (List.mem_append_right _ (List.mem_cons_of_mem _ he))
    have hold : ∀ t, x.live t = l.filterMap (futH X t) ++ ((futH X t (n, d, f)).toList ++ r.filterMap (futH X t)) ++ x.outs.filterMap (outH X t) := by
      intro t; unfold TState.live; rw [hf, filterMap_split]
    have hok : TOk x.bal (x.cells.set f.2 r1) := ⟨ih.ok.1, by simp only [List.length_set]; exact ih.ok.2⟩
    cases hh : f.1.2 with
    | none =>
      rw [hh] at hd0 q4
      simp only [Option.isNone] at hd0
      subst hd0
      cases q4
      rw [if_pos rfl]
      have hl : ∀ t, TState.live { x with futs := l ++ r } t = x.live t := by
        intro t
        rw [hold]
        have : futH X t (n, true, f) = none := by unfold futH; simp [hh]
        rw [this]
        unfold TState.live
        simp
      refine ⟨hok, ?_, hmem, ?_, ?_⟩
      · intro t r hr
        simp only at hr
        rw [set_self q1] at hr
        have := ih.inv t r hr
        rw [← hl] at this; exact this
      · intro o ho; simp only [List.length_set]; exact ih.outs o ho
      · intro o ho; simp only [List.length_set]; exact ih.log o ho
    | some h =>
      rw [hh] at hd0 q4
      simp only [Option.isNone] at hd0
      subst hd0
      rw [if_neg (by simp)]
      refine ⟨hok, ?_, hmem, ?_, ?_⟩
      · refine inv_set (J := fun t r => I r (x.live t) (atEndpoint t log) (callsAt t log)) ih.inv ?_ ?_
        · intro t ht r' hr'
          have e4 : atEndpoint t (log ++ [(f.2, .finished n (stampAt X.T x.cells f.2))]) = atEndpoint t log := by
            rw [atEndpoint_append]; simp [atEndpoint, ht.symm]
          have e5 : callsAt t (log ++ [(f.2, .finished n (stampAt X.T x.cells f.2))]) = callsAt t log := congrArg (List.countP LoadEv.isCall) e4
          rw [e4, e5]
          refine hI.perm hr' ?_
          rw [hold]
          have : futH X t (n, false, f) = none := by simp [futH, ht.symm]
          rw [this]
          unfold TState.live
          simp
        · have e4 : atEndpoint f.2 (log ++ [(f.2, .finished n (stampAt X.T x.cells f.2))]) = atEndpoint f.2 log ++ [.finished n (X.T.stamp r0)] := by
            rw [atEndpoint_append]; simp [atEndpoint, stampAt, q1]
          have e5 : callsAt f.2 (log ++ [(f.2, .finished n (stampAt X.T x.cells f.2))]) = callsAt f.2 log := by
            rw [callsAt, e4, List.countP_append]; rfl
          rw [e4, e5]
          refine hI.fin (h := h) (hI.perm (ih.inv _ _ q1) ?_) q4
          rw [hold]
          have : futH X f.2 (n, false, f) = some (n, h) := by simp [futH, hh]
          rw [this]
          unfold TState.live
          simp only [List.filterMap_append, Option.toList_some, List.append_assoc]
          exact List.perm_middle
      · intro o ho; simp only [List.length_set]; exact ih.outs o ho
      · intro e he
        simp only [List.length_set]
        rcases List.mem_append.1 he with he | he
        · exact ih.log e he
        · rw [List.mem_singleton] at he; subst he; exact hlt
  | drop_response _ hf hd ih =>
    rename_i x log l r t0 n h cells' w w' _
    obtain ⟨r0, r1, q1, q2, q3⟩ := atCell_eq_ok.1 hd
    obtain ⟨q4, _⟩ := fst_eq_ok.1 q2
    simp only at q1 q3 q4
    subst q3
    have hlt := (List.getElem?_eq_some_iff.1 q1).1
    have hos := ih.outs
    rw [hf] at hos
    have hold : ∀ t, x.live t = x.futs.filterMap (futH X t) ++ (l.filterMap (outH X t) ++ ((outH X t (t0, n, h)).toList ++ r.filterMap (outH X t))) := by
      intro t; unfold TState.live; rw [hf, filterMap_split]
    have hok : TOk x.bal (x.cells.set t0 r1) := ⟨ih.ok.1, by simp only [List.length_set]; exact ih.ok.2⟩
    refine ⟨hok, ?_, ?_, ?_, ?_⟩
    · refine inv_set (J := fun t r => I r (x.live t) (atEndpoint t log) (callsAt t log)) ih.inv ?_ ?_
      · intro t ht r' hr'
        have e4 : atEndpoint t (log ++ [(t0, .finished n (stampAt X.T x.cells t0))]) = atEndpoint t log := by
          rw [atEndpoint_append]; simp [atEndpoint, ht.symm]
        have e5 : callsAt t (log ++ [(t0, .finished n (stampAt X.T x.cells t0))]) = callsAt t log := congrArg (List.countP LoadEv.isCall) e4
        rw [e4, e5]
        refine hI.perm hr' ?_
        rw [hold]
        have : outH X t (t0, n, h) = none := by simp [outH, ht.symm]
        rw [this]
        unfold TState.live
        simp
      · have e4 : atEndpoint t0 (log ++ [(t0, .finished n (stampAt X.T x.cells t0))]) = atEndpoint t0 log ++ [.finished n (X.T.stamp r0)] := by
          rw [atEndpoint_append]; simp [atEndpoint, stampAt, q1]
        have e5 : callsAt t0 (log ++ [(t0, .finished n (stampAt X.T x.cells t0))]) = callsAt t0 log := by
          rw [callsAt, e4, List.countP_append]; rfl
        rw [e4, e5]
        refine hI.fin (h := h) (hI.perm (ih.inv _ _ q1) ?_) q4
        rw [hold]
        have : outH X t0 (t0, n, h) = some (n, h) := by simp [outH]
        rw [this]
        unfold TState.live
        simp only [List.filterMap_append, Option.toList_some, ← List.append_assoc]
        simp only [List.append_assoc, List.cons_append, List.nil_append]
        rw [← List.append_assoc, ← List.append_assoc]
        exact List.perm_middle
    · intro e he; simp only [List.length_set]; exact ih.futs e he
    · intro o ho
      simp only [List.length_set]
      rcases List.mem_append.1 ho with ho | ho
      · exact hos o (List.mem_append_left _ ho)
      · exact hos o (List.mem_append_right _ (List.mem_cons_of_mem _ ho))
    · intro e he
      simp only [List.length_set]
      rcases List.mem_append.1 he with he | he
      · exact ih.log e he
      · rw [List.mem_singleton] at he; subst he; exact hlt
  | other _ hc ho ih =>
    rename_i x log t r r' _
    refine ⟨⟨ih.ok.1, by simp only [List.length_set]; exact ih.ok.2⟩, ?_, ?_, ?_, ?_⟩
    · exact inv_set (J := fun t r => I r (x.live t) (atEndpoint t log) (callsAt t log)) ih.inv (fun _ _ _ h => h) (hI.other (ih.inv t r hc) ho)
    · intro e he; simp only [List.length_set]; exact ih.futs e he
    · intro e he; simp only [List.length_set]; exact ih.outs e he
    · intro e he; simp only [List.length_set]; exact ih.log e he

end Tower
