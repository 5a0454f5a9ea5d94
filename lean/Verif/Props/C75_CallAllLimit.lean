import Verif.Model.CallAllLim
import Verif.Proof.LimTo
import Verif.Proof.CallAll1

/-! # C75: `call_all` over a concurrency limit -/

set_option linter.unusedSimpArgs false

namespace Tower
open Act
variable {W Req Res Err : Type} {debug : Bool} {max : Nat} {S : Service W Req Res Err} {R : ReqStream W Req} {K : QueueKind debug S} {V : Sched W}

/-! ## Specification -/

/-- The requests of all `CallAll`s and other users that were handed to the inner service and are not answered or given up. -/
def CAStack.inFlight (x : CAStack R K) : Nat := (x.alls.map (fun c => (K.futs c.queue).length)).sum + x.fs.length

/-- The permits kept by handles that are ready (in a `CallAll` or outside). -/
def CAStack.reserved (x : CAStack R K) : Nat := (x.alls.filterMap (·.service)).countP (·.permit) + x.hs.countP (·.permit)

/-- The permits nobody keeps: free, or assigned to a handle that has not polled since. -/
def CAStack.free (x : CAStack R K) : Nat := x.sem.permits + x.sem.granted.length

/-- The two kinds of queue: of `CallAll` and of `CallAllUnordered`. -/
def Kinds (V : Sched W) (K : QueueKind debug S) : Prop := K = orderedKind debug S V ∨ K = unorderedKind debug S V

/-- What a `CallAll` that is `Pending` waits for outside of itself: its stream was polled and is pending; or the inner service was polled, with a permit, and is pending; or a response is outstanding. -/
def Outside (c : CallAllLim debug S R K) : Prop :=
  (∃ r w w', (R.poll r).run w = .ok (.pending, c.stream) w') ∨
  (∃ i i' n w w', (S.pollReady i).run w = .ok (.pending, i') w' ∧ c.service = some ⟨i', n, true⟩) ∨
  K.futs c.queue ≠ []

/-- the service of a `CallAll` waits in the queue of the limit, and a request is at hand -/
def WaitsLim (c : CallAllLim debug S R K) (sem : Sem) : Prop := c.curr ≠ none ∧ ∃ s, c.service = some s ∧ s.permit = false ∧ s.sem ∈ sem.queue

/-! ## Proofs -/

/-- what the rest sees of steps that change futures `a` to `b` -/
def Moves (debug : Bool) (max : Nat) (S : Service W Req Res Err) (sem : Sem) (a : List S.φ) (sem' : Sem) (b : List S.φ) : Prop :=
  ∀ hs fs next arr, LimTo debug max S sem hs (a ++ fs) next arr → LimTo debug max S sem' hs (b ++ fs) next arr

theorem Moves.trans {sem sem1 sem2 : Sem} {a b c : List S.φ} (h1 : Moves debug max S sem a sem1 b) (h2 : Moves debug max S sem1 b sem2 c) : Moves debug max S sem a sem2 c :=
  fun _ _ _ _ h => h2 _ _ _ _ (h1 _ _ _ _ h)

theorem pollDrop_cases {f f' : S.φ} {p sem sem' w w'} (h : (pollDrop debug S f).run (sem, w) = .ok (p, f') (sem', w')) :
    ((LimSvc debug S).poll f).run (sem, w) = .ok (p, f') (sem, w') ∧ ((p = .pending ∧ sem' = sem) ∨ (∃ v, p = .ready v ∧ sem' = sem.release)) := by
  obtain ⟨⟨p1, f1⟩, ⟨s1, w1⟩, h1, h2⟩ := Act.run_bind_eq_ok.1 h
  have hs : s1 = sem := (snd_eq_ok.1 h1).2
  subst hs
  cases p1 with
  | pending => cases h2; exact ⟨h1, .inl ⟨rfl, rfl⟩⟩
  | ready v => cases h2; exact ⟨h1, .inr ⟨v, rfl, rfl⟩⟩

theorem set_perm {α : Type} {l : List α} {i : Nat} {a : α} (b : α) (h : l[i]? = some a) : l.Perm (a :: l.eraseIdx i) ∧ (l.set i b).Perm (b :: l.eraseIdx i) := by
  obtain ⟨hi, rfl⟩ := List.getElem?_eq_some_iff.1 h
  refine ⟨(List.getElem_cons_eraseIdx_perm hi).symm, ?_⟩
  have hi' : i < (l.set i b).length := by simpa using hi
  have h1 := (List.getElem_cons_eraseIdx_perm hi').symm
  rw [List.eraseIdx_set_eq] at h1
  simpa using h1

theorem pollSome_moves {ψ β : Type} {poll : ψ → Act (Sem × W) (Poll β × ψ)} (view : ψ → S.φ)
    (hp : ∀ {x x' : ψ} {r sem sem' w w'}, (poll x).run (sem, w) = .ok (r, x') (sem', w') → ∃ p, (pollDrop debug S (view x)).run (sem, w) = .ok (p, view x') (sem', w') ∧ (r = .pending ↔ p = .pending)) :
    ∀ (o : List Nat) (q : List ψ) (sem : Sem) (w : W) {r q' sem' w'}, (pollSome poll o q).run (sem, w) = .ok (r, q') (sem', w') →
      Moves debug max S sem (q.map view) sem' (q'.map view) := by
  intro o
  induction o with
  | nil =>
    intro q sem w r q' sem' w' h
    cases q with
    | nil => cases h; exact fun _ _ _ _ h => h
    | cons x q => cases h; exact fun _ _ _ _ h => h
  | cons i o ih =>
    intro q sem w r q' sem' w' h
    cases q with
    | nil => cases h; exact fun _ _ _ _ h => h
    | cons x0 q0 =>
      generalize hqe : x0 :: q0 = q at *
      have hne : q ≠ [] := by rw [← hqe]; simp
      rw [pollSome.eq_3 _ _ _ _ hne] at h
      cases hx : q[i]? with
      | none => rw [hx] at h; exact ih q sem w h
      | some x =>
        rw [hx] at h
        simp only at h
        obtain ⟨⟨r1, x'⟩, ⟨s1, w1⟩, h1, h2⟩ := Act.run_bind_eq_ok.1 h
        obtain ⟨p, h3, h4⟩ := hp h1
        obtain ⟨h5, h6⟩ := pollDrop_cases h3
        obtain ⟨e1, e2⟩ := set_perm x' hx
        have m1 : ∀ hs fs next arr, LimTo debug max S sem hs (q.map view ++ fs) next arr → LimTo debug max S sem hs (view x' :: ((q.eraseIdx i).map view ++ fs)) next arr := by
          intro hs fs next arr hl
          exact (hl.perm (.refl _) ((e1.map view).append_right fs)).poll h5
        cases r1 with
        | pending =>
          have hpp : p = .pending := h4.1 rfl
          obtain ⟨_, rfl⟩ | ⟨v, hv, _⟩ := h6
          · refine Moves.trans ?_ (ih (q.set i x') s1 w1 h2)
            intro hs fs next arr hl
            exact (m1 _ _ _ _ hl).perm (.refl _) (((e2.map view).append_right fs).symm)
          · rw [hpp] at hv; cases hv
        | ready v =>
          obtain ⟨hv, _⟩ | ⟨v', hv, rfl⟩ := h6
          · have := h4.2 hv; cases this
          · cases h2
            intro hs fs next arr hl
            exact (m1 _ _ _ _ hl).drop_future

/-- facts on a kind of queue -/
structure KLaw (debug : Bool) (max : Nat) (K : QueueKind debug S) where
  Inv : K.D.Q → Prop
  empty : K.futs K.D.empty = []
  inv_empty : Inv K.D.empty
  push : ∀ q f, K.futs (K.D.push q f) = K.futs q ++ [f]
  inv_push : ∀ q f, Inv q → Inv (K.D.push q f)
  moves : ∀ {q p q' sem w sem' w'}, (K.D.poll q).run (sem, w) = .ok (p, q') (sem', w') → Moves debug max S sem (K.futs q) sem' (K.futs q')
  inv_poll : ∀ {q p q' sem w sem' w'}, Inv q → (K.D.poll q).run (sem, w) = .ok (p, q') (sem', w') → Inv q' ∧ (p = .pending ∨ p = .ready none → K.D.isEmpty q' = false → K.futs q' ≠ [])

def unorderedKLaw (debug : Bool) (max : Nat) (S : Service W Req Res Err) (V : Sched W) : KLaw debug max (unorderedKind debug S V) where
  Inv _ := True
  empty := rfl
  inv_empty := trivial
  push _ _ := rfl
  inv_push _ _ _ := trivial
  moves {q p q' sem w sem' w'} h := by
    obtain ⟨o, ⟨s1, w1⟩, h1, h2⟩ := Act.run_bind_eq_ok.1 h
    have e1 : s1 = sem := by cases h1; rfl
    subst e1
    have := pollSome_moves (debug := debug) (max := max) (S := S) (poll := pollDrop debug S) id (fun {x x' r sem sem' w w'} h => ⟨r, h, Iff.rfl⟩) o q s1 w1 h2
    simpa using this
  inv_poll {q p q' sem w sem' w'} _ h := by
    refine ⟨trivial, fun _ he h0 => ?_⟩
    have h0' : q' = [] := h0
    subst h0'
    cases he

theorem pollIdx_drop {x x' : Nat × S.φ} {r sem sem' w w'} (h : (pollIdx (pollDrop debug S) x).run (sem, w) = .ok (r, x') (sem', w')) :
    ∃ p, (pollDrop debug S x.2).run (sem, w) = .ok (p, x'.2) (sem', w') ∧ (r = .pending ↔ p = .pending) := by
  obtain ⟨⟨p1, f1⟩, ⟨l1, w1⟩, h1, h2⟩ := Act.run_bind_eq_ok.1 h
  cases h2
  refine ⟨p1, h1, ?_⟩
  cases p1 <;> simp [Poll.map]

theorem ordLoop_moves (V : Sched W) : ∀ (m : Nat) {q : OrdQ S.φ (Except Err Res)} {sem p q' w sem' w'},
    (OrdQ.loop (V.outer Sem) (pollDrop debug S) m q).run (sem, w) = .ok (p, q') (sem', w') → Moves debug max S sem (q.run.map Prod.snd) sem' (q'.run.map Prod.snd) := by
  intro m
  induction m with
  | zero => intro q sem p q' w sem' w' h; cases h
  | succ m ih =>
    intro q sem p q' w sem' w' h
    obtain ⟨o, ⟨s1, w1⟩, h1, h2⟩ := Act.run_bind_eq_ok.1 h
    have e1 : s1 = sem := by cases h1; rfl
    subst e1
    obtain ⟨⟨p2, rn⟩, ⟨s2, w2⟩, h3, h4⟩ := Act.run_bind_eq_ok.1 h2
    have hm := pollSome_moves (debug := debug) (max := max) (S := S) (poll := pollIdx (pollDrop debug S)) Prod.snd (fun h => pollIdx_drop h) o q.run s1 w1 h3
    rcases p2 with _ | (_ | ⟨i, v⟩)
    · cases h4; exact hm
    · cases h4; exact hm
    · simp only at h4
      split at h4
      · cases h4; exact hm
      · exact hm.trans (ih (q := { q with run := rn, done := q.done ++ [(i, v)] }) h4)

/-- what `FuturesUnordered` does to the futures in it -/
theorem pollSome_keys {ψ β κ : Type} {poll : ψ → Act (Sem × W) (Poll β × ψ)} (key : ψ → κ)
    (out : β → κ) (hp : ∀ {x x' : ψ} {r s s'}, (poll x).run s = .ok (r, x') s' → key x' = key x ∧ ∀ v, r = .ready v → out v = key x) :
    ∀ (o : List Nat) (q : List ψ) (s : Sem × W) {r q' s'}, (pollSome poll o q).run s = .ok (r, q') s' →
      (r = .ready none → q' = []) ∧ (r = .pending → q' ≠ [] ∧ q'.map key = q.map key) ∧ (∀ v, r = .ready (some v) → (q.map key).Perm (out v :: q'.map key)) := by
  intro o
  induction o with
  | nil =>
    intro q s r q' s' h
    cases q with
    | nil => cases h; simp
    | cons x q => cases h; simp
  | cons i o ih =>
    intro q s r q' s' h
    cases q with
    | nil => cases h; simp
    | cons x0 q0 =>
      generalize hqe : x0 :: q0 = q at *
      have hne : q ≠ [] := by rw [← hqe]; simp
      rw [pollSome.eq_3 _ _ _ _ hne] at h
      cases hx : q[i]? with
      | none => rw [hx] at h; exact ih q s h
      | some x =>
        rw [hx] at h
        simp only at h
        obtain ⟨⟨r1, x'⟩, s1, h1, h2⟩ := Act.run_bind_eq_ok.1 h
        obtain ⟨hk, hv⟩ := hp h1
        cases r1 with
        | pending =>
          have e : (q.set i x').map key = q.map key := by
            rw [List.map_set, hk]
            apply List.ext_getElem? ; intro j
            rw [List.getElem?_set]
            split
            · rename_i hij; subst hij
              split
              · rw [List.getElem?_map, hx]; rfl
              · rename_i hl; rw [List.getElem?_eq_none]; omega
            · rfl
          have := ih _ _ h2
          rw [e] at this
          exact this
        | ready v =>
          cases h2
          refine ⟨by simp, by simp, ?_⟩
          intro v' hv'
          cases hv'
          rw [hv v rfl, ← List.map_cons]
          exact (set_perm x hx).1.map key

/-- the numbers of the ordered queue: each from `nextOut` on, below `nextIn`, is running or done -/
structure OrdNums {φ α : Type} (q : OrdQ φ α) : Prop where
  all : ∀ k, q.nextOut ≤ k → k < q.nextIn → k ∈ q.run.map Prod.fst ∨ k ∈ q.done.map Prod.fst
  run : ∀ k ∈ q.run.map Prod.fst, q.nextOut ≤ k ∧ k < q.nextIn
  done : ∀ k ∈ q.done.map Prod.fst, q.nextOut ≤ k ∧ k < q.nextIn
  nodup : (q.run.map Prod.fst ++ q.done.map Prod.fst).Nodup
  le : q.nextOut ≤ q.nextIn

theorem pollIdx_key {x x' : Nat × S.φ} {r : Poll (Nat × Except Err Res)} {s s' : Sem × W} (h : (pollIdx (pollDrop debug S) x).run s = .ok (r, x') s') :
    x'.1 = x.1 ∧ ∀ v, r = .ready v → v.1 = x.1 := by
  obtain ⟨⟨p1, f1⟩, ⟨l1, w1⟩, h1, h2⟩ := Act.run_bind_eq_ok.1 h
  cases h2
  refine ⟨rfl, ?_⟩
  intro v hv
  cases p1 with
  | pending => cases hv
  | ready u => cases hv; rfl

theorem pollSome_none_ne {ψ β : Type} {poll : ψ → Act (Sem × W) (Poll β × ψ)} : ∀ (o : List Nat) (q : List ψ) {s q' s'}, q ≠ [] → (pollSome poll o q).run s = .ok (.ready none, q') s' → False := by
  intro o
  induction o with
  | nil => intro q s q' s' hne h; cases q with
    | nil => exact hne rfl
    | cons => cases h
  | cons i o ih =>
    intro q s q' s' hne h
    rw [pollSome.eq_3 _ _ _ _ hne] at h
    cases hx : q[i]? with
    | none => rw [hx] at h; exact ih q hne h
    | some x =>
      rw [hx] at h
      simp only at h
      obtain ⟨⟨r1, x'⟩, s1, h1, h2⟩ := Act.run_bind_eq_ok.1 h
      cases r1 with
      | pending => exact ih _ (by simpa using hne) h2
      | ready v => cases h2

theorem ordLoop_nums (V : Sched W) : ∀ (m : Nat) {q : OrdQ S.φ (Except Err Res)} {p q'} {s s' : Sem × W}, OrdNums q → q.nextOut ∉ q.done.map Prod.fst →
    (OrdQ.loop (V.outer Sem) (pollDrop debug S) m q).run s = .ok (p, q') s' → OrdNums q' ∧ (p = .pending ∨ p = .ready none → ¬ (q'.run = [] ∧ q'.done ≠ [])) := by
  intro m
  induction m with
  | zero => intro q p q' s s' _ _ h; cases h
  | succ m ih =>
    intro q p q' s s' hi hn h
    obtain ⟨o, s1, h1, h2⟩ := Act.run_bind_eq_ok.1 h
    obtain ⟨⟨p2, rn⟩, s2, h3, h4⟩ := Act.run_bind_eq_ok.1 h2
    obtain ⟨k1, k2, k3⟩ := pollSome_keys (poll := pollIdx (pollDrop debug S)) Prod.fst Prod.fst (fun h => pollIdx_key h) o q.run s1 h3
    rcases p2 with _ | (_ | ⟨i, v⟩)
    · cases h4
      obtain ⟨a, b⟩ := k2 rfl
      refine ⟨⟨fun k => by dsimp only; rw [b]; exact hi.all k, fun k => by dsimp only; rw [b]; exact hi.run k, hi.done, by dsimp only; rw [b]; exact hi.nodup, hi.le⟩, fun _ hh => a hh.1⟩
    · cases h4
      have hrn : rn = [] := k1 rfl
      subst hrn
      have hq : q.run = [] := by
        cases ho : o with
        | nil =>
          rw [ho] at h3
          cases hr : q.run with
          | nil => rfl
          | cons a b => rw [hr] at h3; cases h3
        | cons i o' =>
          by_contra hne
          obtain ⟨_, _, hx⟩ : True ∧ True ∧ True := ⟨trivial, trivial, trivial⟩
          exact pollSome_none_ne _ _ hne h3
      refine ⟨⟨fun k => by have := hi.all k; rw [hq] at this; exact this, by simp, hi.done, by have := hi.nodup; rw [hq] at this; exact this, hi.le⟩, fun _ hh => ?_⟩
      obtain ⟨⟨k, v⟩, hk⟩ := List.exists_mem_of_ne_nil _ hh.2
      have hk' := hi.done k (List.mem_map_of_mem (f := Prod.fst) hk)
      have := hi.all q.nextOut (Nat.le_refl _) (by omega)
      rw [hq] at this
      exact hn (by simpa using this)
    · have hp := k3 _ rfl
      dsimp only at hp
      have hmem : ∀ k, k ∈ q.run.map Prod.fst ↔ k = i ∨ k ∈ rn.map Prod.fst := fun k => by rw [hp.mem_iff]; simp
      have hnd : ((i :: rn.map Prod.fst) ++ q.done.map Prod.fst).Nodup := (hp.append_right _).nodup_iff.1 hi.nodup
      have hir := hi.run i ((hmem i).2 (.inl rfl))
      have hni : i ∉ rn.map Prod.fst ∧ i ∉ q.done.map Prod.fst := by
        have h0 : (i :: (rn.map Prod.fst ++ q.done.map Prod.fst)).Nodup := hnd
        have := (List.nodup_cons.1 h0).1
        rw [List.mem_append] at this
        exact ⟨fun h => this (.inl h), fun h => this (.inr h)⟩
      simp only at h4
      split at h4
      · rename_i heq
        cases h4
        refine ⟨⟨?_, ?_, ?_, (List.nodup_cons.1 hnd).2, by dsimp only; omega⟩, by simp⟩
        · intro k h5 h6
          dsimp only at h5 h6 ⊢
          rcases hi.all k (by omega) h6 with h7 | h7
          · rcases (hmem k).1 h7 with rfl | h8
            · omega
            · exact .inl h8
          · exact .inr h7
        · intro k hk
          have := hi.run k ((hmem k).2 (.inr hk))
          have hne : k ≠ i := fun h => hni.1 (h ▸ hk)
          dsimp only; omega
        · intro k hk
          have := hi.done k hk
          have hne : k ≠ i := fun h => hni.2 (h ▸ hk)
          dsimp only; omega
      · rename_i hne
        refine ih (q := { q with run := rn, done := q.done ++ [(i, v)] }) ⟨?_, ?_, ?_, ?_, hi.le⟩ ?_ h4
        · intro k h5 h6
          dsimp only at h5 h6 ⊢
          rcases hi.all k h5 h6 with h7 | h7
          · rcases (hmem k).1 h7 with rfl | h8
            · right; simp
            · exact .inl h8
          · right; simp at h7 ⊢; exact .inl h7
        · intro k hk; exact hi.run k ((hmem k).2 (.inr hk))
        · intro k hk
          simp only [List.map_append, List.mem_append, List.map_cons, List.map_nil, List.mem_singleton] at hk
          rcases hk with hk | rfl
          · exact hi.done k hk
          · exact hir
        · have : (rn.map Prod.fst ++ (q.done ++ [(i, v)]).map Prod.fst).Perm ((i :: rn.map Prod.fst) ++ q.done.map Prod.fst) := by
            rw [List.map_append, ← List.append_assoc]
            exact List.perm_append_comm (l₂ := [i])
          exact this.nodup_iff.2 hnd
        · simp only [List.map_append, List.mem_append, List.map_cons, List.map_nil, List.mem_singleton]
          intro h; rcases h with h | h
          · exact hn h
          · exact hne h.symm


theorem OrdNums.empty {φ α : Type} : OrdNums (⟨[], [], 0, 0⟩ : OrdQ φ α) :=
  ⟨fun k h1 h2 => absurd h2 (Nat.not_lt_zero _), fun k hk => (by cases hk), fun k hk => (by cases hk), List.nodup_nil, Nat.le_refl _⟩

theorem OrdNums.push {φ α : Type} {q : OrdQ φ α} (h : OrdNums q) (f : φ) : OrdNums { q with run := q.run ++ [(q.nextIn, f)], nextIn := q.nextIn + 1 } := by
  have hle := h.le
  refine ⟨?_, ?_, ?_, ?_, by dsimp only; omega⟩
  · intro k h1 h2
    dsimp only at h1 h2 ⊢
    by_cases hk : k = q.nextIn
    · left; simp [hk]
    · rcases h.all k h1 (by omega) with h3 | h3
      · left; rw [List.map_append, List.mem_append]; exact .inl h3
      · exact .inr h3
  · intro k hk
    simp only [List.map_append, List.mem_append, List.map_cons, List.map_nil, List.mem_singleton] at hk
    dsimp only
    rcases hk with hk | rfl
    · have := h.run k hk; omega
    · exact ⟨hle, by omega⟩
  · intro k hk; have := h.done k hk; dsimp only; omega
  · have hp : ((q.run ++ [(q.nextIn, f)]).map Prod.fst ++ q.done.map Prod.fst).Perm (q.nextIn :: (q.run.map Prod.fst ++ q.done.map Prod.fst)) := by
      rw [List.map_append]; simp only [List.map_cons, List.map_nil, List.append_assoc, List.singleton_append]; exact List.perm_middle
    refine hp.nodup_iff.2 (List.nodup_cons.2 ⟨?_, h.nodup⟩)
    rw [List.mem_append]
    rintro (hk | hk)
    · have := h.run _ hk; omega
    · have := h.done _ hk; omega

theorem OrdNums.take {φ α : Type} {q : OrdQ φ α} (h : OrdNums q) {e : Nat × α} (he : q.done.find? (fun e => e.1 == q.nextOut) = some e) :
    OrdNums { q with done := q.done.eraseP (fun e => e.1 == q.nextOut), nextOut := q.nextOut + 1 } := by
  have hm := List.mem_of_find?_eq_some he
  have hq := List.find?_some he
  obtain ⟨a, l1, l2, _, h2, h3, h4⟩ := List.exists_of_eraseP (p := fun e : Nat × α => e.1 == q.nextOut) hm hq
  have ha : a.1 = q.nextOut := by simpa using h2
  have hp : (q.done.map Prod.fst).Perm (q.nextOut :: (l1 ++ l2).map Prod.fst) := by rw [h3, ← ha]; exact List.perm_middle.map Prod.fst
  have hnd := h.nodup
  have hnd2 : (q.nextOut :: (q.run.map Prod.fst ++ (l1 ++ l2).map Prod.fst)).Nodup := ((hp.append_left _).trans List.perm_middle).nodup_iff.1 hnd
  obtain ⟨hni, hnd3⟩ := List.nodup_cons.1 hnd2
  rw [List.mem_append] at hni
  push Not at hni
  have hlt := h.done q.nextOut (hp.mem_iff.2 List.mem_cons_self)
  rw [h4]
  refine ⟨?_, ?_, ?_, hnd3, by dsimp only; omega⟩
  · intro k h5 h6
    dsimp only at h5 h6 ⊢
    rcases h.all k (by omega) h6 with h7 | h7
    · exact .inl h7
    · rcases List.mem_cons.1 (hp.mem_iff.1 h7) with rfl | h8
      · omega
      · exact .inr h8
  · intro k hk
    have := h.run k hk
    have hne : k ≠ q.nextOut := fun e => hni.1 (e ▸ hk)
    dsimp only; omega
  · intro k hk
    have := h.done k (hp.mem_iff.2 (List.mem_cons_of_mem _ hk))
    have hne : k ≠ q.nextOut := fun e => hni.2 (e ▸ hk)
    dsimp only; omega

def orderedKLaw (debug : Bool) (max : Nat) (S : Service W Req Res Err) (V : Sched W) : KLaw debug max (orderedKind debug S V) where
  Inv q := OrdNums q
  empty := rfl
  inv_empty := OrdNums.empty
  push q f := by simp
  inv_push q f h := h.push f
  moves {q p q' sem w sem' w'} h := by
    dsimp only at h
    split at h
    · cases h; exact fun _ _ _ _ h => h
    · exact ordLoop_moves V _ h
  inv_poll {q p q' sem w sem' w'} hi h := by
    dsimp only at h
    split at h
    · rename_i e he
      cases h
      exact ⟨hi.take he, fun hp => by rcases hp with hp | hp <;> cases hp⟩
    · rename_i hn
      have := ordLoop_nums V _ hi (by
        rw [List.mem_map]
        rintro ⟨e, h1, h2⟩
        have := List.find?_eq_none.1 hn e h1
        simp [h2] at this) h
      refine ⟨this.1, fun hp he h0 => this.2 hp ⟨?_, ?_⟩⟩
      · simpa using h0
      · intro hd
        have h0' : q'.run = [] := by simpa using h0
        have : (q'.run.isEmpty && q'.done.isEmpty) = false := he
        rw [h0', hd] at this; cases this

theorem pollAcquire_false {s : Sem} {h : Nat} (hf : (s.pollAcquire h).1 = false) : h ∈ (s.pollAcquire h).2.queue := by
  unfold Sem.pollAcquire at *
  split
  · rename_i h1; rw [if_pos h1] at hf; cases hf
  · rename_i h1; rw [if_neg h1] at hf
    split
    · rename_i h2; exact h2
    · rename_i h2; rw [if_neg h2] at hf
      split
      · rename_i h3; rw [if_pos h3] at hf; cases hf
      · simp

theorem ready_pending {s s' : ConcState S.σ Nat} {sem sem' w w'} (h : ((LimSvc debug S).pollReady s).run (sem, w) = .ok (.pending, s') (sem', w')) :
    (s'.permit = false ∧ s'.sem ∈ sem'.queue) ∨ (∃ i i' n w w', (S.pollReady i).run w = .ok (.pending, i') w' ∧ s' = ⟨i', n, true⟩) := by
  obtain ⟨he, hc⟩ := limReady_cases h
  obtain ⟨i, n, b⟩ := s
  cases b with
  | true =>
    right
    simp only [LimSvc, ConcurrencyLimit, if_true, run_bind, Act.snd] at h
    cases hp : (S.pollReady i).run w with
    | panic m => simp [hp] at h
    | spin => simp [hp] at h
    | ok a w1 =>
      obtain ⟨a, i'⟩ := a
      simp only [hp, run_pure] at h
      cases h
      exact ⟨i, i', n, w, _, hp, rfl⟩
  | false =>
    rcases hc with ⟨hf, _⟩ | ⟨_, h2, rfl⟩
    · cases hf
    · cases hg : (sem.pollAcquire n).1 with
      | false =>
        left
        rw [he]
        exact ⟨h2.trans hg, pollAcquire_false hg⟩
      | true =>
        right
        simp only [LimSvc, ConcurrencyLimit, Bool.false_eq_true, if_false, run_bind, run_lift] at h
        simp only [hg, if_true, Bool.not_true, Bool.and_false, Bool.false_eq_true, if_false, run_bind, Act.snd] at h
        cases hp : (S.pollReady i).run w with
        | panic m => simp [hp] at h
        | spin => simp [hp] at h
        | ok a w1 =>
          obtain ⟨a, i'⟩ := a
          simp only [hp, run_pure] at h
          cases h
          exact ⟨i, i', n, w, _, hp, rfl⟩

theorem pollNext_lim (L : KLaw debug max K) : ∀ (n : Nat) {c c' : CallAllLim debug S R K} {p sem sem' w w' hs fs next arr},
    LimTo debug max S sem (c.service.toList ++ hs) (K.futs c.queue ++ fs) next arr → L.Inv c.queue → (CallAll.pollNext n c).run (sem, w) = .ok (p, c') (sem', w') →
    (∃ arr', LimTo debug max S sem' (c'.service.toList ++ hs) (K.futs c'.queue ++ fs) next arr') ∧ L.Inv c'.queue ∧ (p = .pending → Outside c' ∨ WaitsLim c' sem') := by
  intro n
  induction n with
  | zero => intro c c' p sem sem' w w' hs fs next arr _ _ h; cases h
  | succ n ih =>
    intro c c' p sem sem' w w' hs fs next arr hl hi h
    obtain ⟨⟨p1, q⟩, ⟨s1, w1⟩, h1, h2⟩ := Act.run_bind_eq_ok.1 h
    have hl1 := L.moves h1 _ _ _ _ hl
    obtain ⟨hi1, hstuck⟩ := L.inv_poll hi h1
    have issue : ∀ {c1 : CallAllLim debug S R K} {sem w arr}, c1.curr ≠ none → LimTo debug max S sem (c1.service.toList ++ hs) (K.futs c1.queue ++ fs) next arr → L.Inv c1.queue →
        (CallAll.issue (CallAll.pollNext n) c1).run (sem, w) = .ok (p, c') (sem', w') →
        (∃ arr', LimTo debug max S sem' (c'.service.toList ++ hs) (K.futs c'.queue ++ fs) next arr') ∧ L.Inv c'.queue ∧ (p = .pending → Outside c' ∨ WaitsLim c' sem') := by
      intro c1 sem w arr hcur hl hi h
      unfold CallAll.issue at h
      split at h
      · cases h
      · rename_i sv hsv
        rw [hsv] at hl
        obtain ⟨⟨p2, s2⟩, ⟨l2, w2⟩, h3, h4⟩ := Act.run_bind_eq_ok.1 h
        have hl2 := LimTo.ready hl h3
        rcases p2 with _ | (e | _)
        · cases h4
          refine ⟨⟨_, hl2⟩, hi, fun _ => ?_⟩
          rcases ready_pending h3 with ⟨a, b⟩ | ⟨i, i', m, w3, w3', a, b⟩
          · exact .inr ⟨hcur, _, rfl, a, b⟩
          · exact .inl (.inr (.inl ⟨i, i', m, w3, w3', a, by rw [b]⟩))
        · cases h4
          exact ⟨⟨_, hl2⟩, hi, fun h => by cases h⟩
        · simp only at h4
          split at h4
          · cases h4
          · obtain ⟨⟨f, s3⟩, ⟨l3, w3⟩, h6, h7⟩ := Act.run_bind_eq_ok.1 h4
            have hl3 := LimTo.call hl2 h6
            have hp3 : (f :: (K.futs c1.queue ++ fs)).Perm (K.futs (K.D.push c1.queue f) ++ fs) := by
              rw [L.push, List.append_assoc]
              exact List.perm_middle.symm
            exact ih (c := { c1 with service := some s3, queue := K.D.push c1.queue f, curr := none }) (hl3.perm (.refl _) hp3) (L.inv_push _ _ hi) h7
    have key : p1 = .pending ∨ p1 = .ready none → (CallAll.fetch (CallAll.pollNext n) { c with queue := q }).run (s1, w1) = .ok (p, c') (sem', w') →
        (∃ arr', LimTo debug max S sem' (c'.service.toList ++ hs) (K.futs c'.queue ++ fs) next arr') ∧ L.Inv c'.queue ∧ (p = .pending → Outside c' ∨ WaitsLim c' sem') := by
      intro hp1 hf
      unfold CallAll.fetch at hf
      split at hf
      · split at hf
        · cases hf; exact ⟨⟨_, hl1⟩, hi1, fun h => by cases h⟩
        · rename_i hne
          cases hf; exact ⟨⟨_, hl1⟩, hi1, fun _ => .inl (.inr (.inr (hstuck hp1 (by simpa using hne))))⟩
      · split at hf
        · rename_i rq hcr
          exact issue (c1 := { c with queue := q }) (fun h => by rw [h] at hcr; cases hcr) hl1 hi1 hf
        · obtain ⟨⟨p2, r'⟩, ⟨l2, w2⟩, h3, h4⟩ := Act.run_bind_eq_ok.1 hf
          obtain ⟨h3', rfl⟩ := snd_eq_ok.1 h3
          rcases p2 with _ | (_ | rq)
          · cases h4; exact ⟨⟨_, hl1⟩, hi1, fun _ => .inl (.inl ⟨_, _, _, h3'⟩)⟩
          · exact ih (c := { c with queue := q, stream := r', eof := true }) hl1 hi1 h4
          · exact issue (c1 := { c with queue := q, stream := r', curr := some rq }) (by simp) hl1 hi1 h4
    rcases p1 with _ | (_ | (e | v))
    · exact key (.inl rfl) h2
    · exact key (.inr rfl) h2
    · cases h2; exact ⟨⟨_, hl1⟩, hi1, fun h => by cases h⟩
    · cases h2; exact ⟨⟨_, hl1⟩, hi1, fun h => by cases h⟩


/-- what holds in every history -/
structure CALimInv (L : KLaw debug max K) (x : CAStack R K) : Prop where
  lim : ∃ arr, LimTo debug max S x.sem (x.alls.filterMap (·.service) ++ x.hs) (x.alls.flatMap (fun c => K.futs c.queue) ++ x.fs) x.next arr
  queues : ∀ c ∈ x.alls, L.Inv c.queue

theorem CAHist.inv (L : KLaw debug max K) {x : CAStack R K} (h : CAHist max x) : CALimInv L x := by
  induction h with
  | new i => exact ⟨⟨_, LimTo.new i⟩, by simp⟩
  | @step x x' _ ht ih =>
    obtain ⟨⟨arr, hl⟩, hq⟩ := ih
    rw [filt_eq] at hl
    cases ht with
    | @call_all l r s rs hs =>
      refine ⟨⟨arr, ?_⟩, ?_⟩
      · dsimp only
        rw [hs] at hl
        rw [filt_eq]
        refine hl.perm ?_ ?_
        · rw [List.flatMap_append]
          simp only [List.flatMap_cons, List.flatMap_nil, CallAll.new, Option.toList_some, List.append_nil, List.append_assoc, List.singleton_append]
          exact List.perm_middle.append_left _
        · rw [List.flatMap_append]
          simp only [List.flatMap_cons, List.flatMap_nil, CallAll.new, L.empty, List.append_nil]
          exact .refl _
      · intro c hc
        rcases List.mem_append.1 hc with hc | hc
        · exact hq c hc
        · rw [List.mem_singleton.1 hc]; exact L.inv_empty
    | @poll l r c c' n p sem' w w' ha hr =>
      rw [ha] at hl hq
      have hl2 := hl.perm (flat_split _) (flat_split _)
      obtain ⟨⟨arr', h1⟩, h2, _⟩ := pollNext_lim L n hl2 (hq c (by simp)) hr
      refine ⟨⟨arr', ?_⟩, ?_⟩
      · dsimp only
        rw [filt_eq]
        exact h1.perm (flat_split (fun c : CallAllLim debug S R K => c.service.toList)).symm (flat_split (fun c : CallAllLim debug S R K => K.futs c.queue)).symm
      · intro d hd
        rcases List.mem_append.1 hd with hd | hd
        · exact hq d (List.mem_append_left _ hd)
        · rcases List.mem_cons.1 hd with rfl | hd
          · exact h2
          · exact hq d (List.mem_append_right _ (List.mem_cons_of_mem _ hd))
    | @take l r c c' s sem' w w' ha hr =>
      unfold CallAll.takeService at hr
      split at hr
      · cases hr
      · rename_i s1 hs1
        cases hr
        rw [ha] at hl hq
        have hl2 := hl.perm (flat_split _) (.refl _)
        refine ⟨⟨arr, ?_⟩, ?_⟩
        · dsimp only
          rw [filt_eq]
          refine hl2.perm ?_ ?_
          · refine List.Perm.trans ?_ (flat_split (fun c : CallAllLim debug S R K => c.service.toList)).symm
            rw [hs1]
            simp only [Option.toList_some, Option.toList_none, List.nil_append, List.singleton_append]
            rw [← List.append_assoc]
            exact List.perm_append_comm (l₁ := [_])
          · simp only [List.flatMap_append, List.flatMap_cons]; exact .refl _
        · intro d hd
          rcases List.mem_append.1 hd with hd | hd
          · exact hq d (List.mem_append_left _ hd)
          · rcases List.mem_cons.1 hd with rfl | hd
            · exact hq c (by simp)
            · exact hq d (List.mem_append_right _ (List.mem_cons_of_mem _ hd))
    | @drop l r c ha =>
      rw [ha] at hl hq
      have hl2 := hl.perm (flat_split _) (flat_split _)
      refine ⟨?_, fun d hd => hq d ?_⟩
      · dsimp only
        rw [filt_eq]
        unfold dropCallAll
        cases hs : c.service with
        | none =>
          rw [hs] at hl2
          exact ⟨_, hl2.drop_futures⟩
        | some s =>
          rw [hs] at hl2
          exact ⟨_, (LimTo.drop_handle (s := s) hl2).drop_futures⟩
      · rcases List.mem_append.1 hd with hd | hd
        · exact List.mem_append_left _ hd
        · exact List.mem_append_right _ (List.mem_cons_of_mem _ hd)
    | other ho =>
      rw [← filt_eq] at hl
      exact ⟨hl.other ho, hq⟩

theorem Kinds.law (hK : Kinds V K) (max : Nat) : Nonempty (KLaw debug max K) := by
  rcases hK with rfl | rfl
  · exact ⟨orderedKLaw debug max S V⟩
  · exact ⟨unorderedKLaw debug max S V⟩

/-! ## C75 -/

/-- **C75.** In every history, every permit is in one place: free, kept by a handle that is ready, or with a request in flight. -/
theorem C75_conserved (hK : Kinds V K) {x : CAStack R K} (h : CAHist max x) : x.free + x.reserved + x.inFlight = max := by
  obtain ⟨L⟩ := hK.law max
  obtain ⟨⟨arr, hl⟩, _⟩ := h.inv L
  have := hl.inv.conserved
  simp only [Lim.holders, List.countP_append, List.length_append, List.length_flatMap] at this
  simp only [CAStack.free, CAStack.reserved, CAStack.inFlight]
  omega

/-- **C75.** However many `CallAll`s and other users share the limit, at most `max` requests are in flight. -/
theorem C75_limit (hK : Kinds V K) {x : CAStack R K} (h : CAHist max x) : x.inFlight ≤ max := by
  have := C75_conserved hK h
  omega

/-- **C75.** A `CallAll` that is `Pending` waits for its stream, the inner service or a response, or else for a permit with a request in hand. -/
theorem C75_pending (hK : Kinds V K) {x : CAStack R K} (h : CAHist max x) {c c' : CallAllLim debug S R K} (hc : c ∈ x.alls) {n sem' w w'}
    (hp : (CallAll.pollNext n c).run (x.sem, w) = .ok (.pending, c') (sem', w')) : Outside c' ∨ WaitsLim c' sem' := by
  obtain ⟨L⟩ := hK.law max
  obtain ⟨⟨arr, hl⟩, hq⟩ := h.inv L
  obtain ⟨l, r, ha⟩ := List.append_of_mem hc
  rw [filt_eq, ha] at hl
  exact (pollNext_lim L n (hl.perm (flat_split _) (flat_split _)) (hq c hc) hp).2.2 rfl

/-- **C75.** While it waits for the limit, alone, exactly `max` of its calls are outstanding: the limit is used in full. -/
theorem C75_full (hK : Kinds V K) {x : CAStack R K} (h : CAHist max x) {c c' : CallAllLim debug S R K} (hc : x.alls = [c]) (hh : x.hs = []) (hf : x.fs = []) {n sem' w w'}
    (hp : (CallAll.pollNext n c).run (x.sem, w) = .ok (.pending, c') (sem', w')) (hw : WaitsLim c' sem') : (K.futs c'.queue).length = max := by
  obtain ⟨L⟩ := hK.law max
  obtain ⟨_, s, hs, hpm, hqu⟩ := hw
  have hx' : CAHist max ({ x with sem := sem', alls := [] ++ c' :: [] } : CAStack R K) := .step h (.poll (by rw [hc]; rfl) hp)
  obtain ⟨⟨arr, hl⟩, _⟩ := hx'.inv L
  have hi := hl.inv
  dsimp only at hi
  rw [hh, hf] at hi
  simp only [List.nil_append, List.filterMap_cons, hs, List.filterMap_nil, List.append_nil, List.flatMap_cons, List.flatMap_nil] at hi
  have h0 := hi.busy (by intro h; dsimp only at h; rw [h] at hqu; cases hqu)
  have hg : sem'.granted = [] := by
    by_contra hne
    obtain ⟨g, hg⟩ := List.exists_mem_of_ne_nil _ hne
    have ho := hi.order
    dsimp only at ho
    obtain ⟨t, ht, h5, _⟩ := hi.waiting g (by rw [ho]; exact List.mem_append_left _ hg)
    have : t = s := by simpa using ht
    subst this
    have hnd := hi.nodup
    rw [ho] at hnd
    exact (List.nodup_append.1 hnd).2.2 g hg t.sem hqu h5.symm
  have hcs := hi.conserved
  simp only [Lim.holders, hpm, hg, List.countP_cons, List.countP_nil, List.length_nil] at hcs
  simp at hcs h0
  omega

/-- **C75 (no deadlock).** A `CallAll` alone on its limit never waits for itself: when it is `Pending`, its stream or the inner service is, or a response is outstanding (and will free a permit). -/
theorem C75_no_deadlock (hK : Kinds V K) (hmax : 0 < max) {x : CAStack R K} (h : CAHist max x) {c c' : CallAllLim debug S R K} (hc : x.alls = [c]) (hh : x.hs = []) (hf : x.fs = []) {n sem' w w'}
    (hp : (CallAll.pollNext n c).run (x.sem, w) = .ok (.pending, c') (sem', w')) : Outside c' := by
  rcases C75_pending hK h (by rw [hc]; simp) hp with h1 | h1
  · exact h1
  · have := C75_full hK h hc hh hf hp h1
    exact .inr (.inr fun h => by rw [h] at this; simp at this; omega)

/-- **C75.** When all `CallAll`s, handles and futures are dropped, at whatever moment, all permits are back. -/
theorem C75_returned (hK : Kinds V K) {x : CAStack R K} (h : CAHist max x) (ha : x.alls = []) (hh : x.hs = []) (hf : x.fs = []) : x.sem = Sem.new max := by
  obtain ⟨L⟩ := hK.law max
  obtain ⟨⟨arr, hl⟩, _⟩ := h.inv L
  obtain ⟨y, h1, h2, h3, h4, _⟩ := hl
  rw [ha, hh] at h3
  rw [ha, hf] at h4
  rw [← h2]
  exact C05_all_dropped h1 h3.eq_nil h4.eq_nil

/-! ## Concrete runs -/

namespace Demo75

/-- A service that is always ready; a request is the time at which its response comes. The world is the time. -/
@[reducible] def svc : Service Nat Nat Nat String where
  σ := Unit
  φ := Nat
  pollReady s := pure (.ready (.ok ()), s)
  call s q := pure (q, s)
  poll f := ⟨fun w => if f ≤ w then .ok (.ready (.ok f), f) w else .ok (.pending, f) w⟩
  clone s := s

/-- a stream given as a list -/
@[reducible] def reqs : ReqStream Nat Nat where
  τ := List Nat
  poll r := match r with
    | [] => pure (.ready none, [])
    | q :: r => pure (.ready (some q), r)

def inTurn : Sched Nat := ⟨fun n w => (List.range n, w)⟩

abbrev Ord := orderedKind true svc inTurn
abbrev Unord := unorderedKind true svc inTurn

/-- a `CallAll` on a new limit -/
theorem start (K : QueueKind true svc) (max : Nat) (q : List Nat) : CAHist max (⟨Sem.new max, [CallAll.new ⟨(), 0, false⟩ q], [], [], 1⟩ : CAStack reqs K) :=
  .step (S := svc) (.new ()) (CAStep.call_all (S := svc) (R := reqs) (K := K) (x := ⟨Sem.new max, [], [⟨(), 0, false⟩], [], 1⟩) (l := []) (r := []) (s := ⟨(), 0, false⟩) q rfl)

/-- Three requests, limit 2: the responses to the second and the third come first. They are kept back, and yet all three calls are made: only the first keeps a permit. -/
theorem kept_back : ∃ c' : CallAllLim true svc reqs Ord, ∃ sem',
    (CallAll.pollNext 5 (CallAll.new ⟨(), 0, false⟩ [10, 0, 0] : CallAllLim true svc reqs Ord)).run (Sem.new 2, 5) = .ok (.pending, c') (sem', 5) ∧
    c'.queue.run = [(0, 10)] ∧ c'.queue.done.length = 2 ∧ c'.stream = [] ∧ sem'.permits = 1 := ⟨_, _, rfl, rfl, rfl, rfl, rfl⟩

/-- Limit 1: it waits for the limit with a request in hand, and one response is outstanding. -/
theorem waits : ∃ c' : CallAllLim true svc reqs Unord, ∃ sem', (CallAll.pollNext 5 (CallAll.new ⟨(), 0, false⟩ [10, 0] : CallAllLim true svc reqs Unord)).run (Sem.new 1, 5) = .ok (.pending, c') (sem', 5) ∧
    WaitsLim c' sem' ∧ c'.queue = [10] := ⟨_, _, rfl, ⟨by simp, _, rfl, rfl, by decide⟩, rfl⟩

example : ∃ c' : CallAllLim true svc reqs Unord, c'.queue.length = 1 ∧ Outside c' := by
  obtain ⟨c', sem', h, hw, _⟩ := waits
  exact ⟨c', C75_full (.inr rfl) (start Unord 1 [10, 0]) rfl rfl rfl h hw, C75_no_deadlock (.inr rfl) (by decide) (start Unord 1 [10, 0]) rfl rfl rfl h⟩

/-- later it has yielded both and ended -/
theorem ends : ∃ c1 c2 c3 : CallAllLim true svc reqs Unord, ∃ s1 s2 s3,
    (CallAll.pollNext 5 (CallAll.new ⟨(), 0, false⟩ [10, 0] : CallAllLim true svc reqs Unord)).run (Sem.new 1, 5) = .ok (.pending, c1) (s1, 5) ∧
    (CallAll.pollNext 5 c1).run (s1, 12) = .ok (.ready (some (.ok 10)), c2) (s2, 12) ∧ s2.granted = [0] ∧
    (CallAll.pollNext 5 c2).run (s2, 12) = .ok (.ready (some (.ok 0)), c3) (s3, 12) ∧ s3 = Sem.new 1 := ⟨_, _, _, _, _, _, rfl, rfl, rfl, rfl, rfl⟩

/-- the whole is dropped while a response is outstanding and a request waits -/
example : ∃ x : CAStack reqs Unord, CAHist 1 x ∧ x.alls = [] ∧ x.hs = [] ∧ x.fs = [] ∧ x.sem = Sem.new 1 := by
  obtain ⟨c', sem', h, _⟩ := waits
  have h2 : CAHist 1 (⟨sem', [c'], [], [], 1⟩ : CAStack reqs Unord) := .step (start Unord 1 [10, 0]) (.poll (l := []) (r := []) rfl h)
  have h3 := CAHist.step h2 (.drop (l := []) (r := []) rfl)
  exact ⟨_, h3, rfl, rfl, rfl, C75_returned (.inr rfl) h3 rfl rfl rfl⟩

/-- A service whose readiness fails. -/
@[reducible] def bad : Service Nat Nat Nat String where
  σ := Unit
  φ := Nat
  pollReady s := pure (.ready (.error "down"), s)
  call s q := pure (q, s)
  poll f := pure (.pending, f)
  clone s := s

/-- **C75 (limit of the claim).** When the readiness of the inner service fails, the error is yielded and the `CallAll` ends, but it keeps the permit it had got for the request, until it is dropped or its service is taken: with limit 1 nobody else can go on. -/
theorem C75_failure_keeps_permit : ∃ c1 c2 : CallAllLim true bad reqs (unorderedKind true bad inTurn), ∃ s1,
    (CallAll.pollNext 5 (CallAll.new ⟨(), 0, false⟩ [10] : CallAllLim true bad reqs (unorderedKind true bad inTurn))).run (Sem.new 1, 0) = .ok (.ready (some (.error "down")), c1) (s1, 0) ∧
    (CallAll.pollNext 5 c1).run (s1, 0) = .ok (.ready none, c2) (s1, 0) ∧ s1.permits = 0 ∧ c2.service = some ⟨(), 0, true⟩ ∧ c2.queue = [] := ⟨_, _, _, rfl, rfl, rfl, rfl, rfl⟩

end Demo75
end Tower
