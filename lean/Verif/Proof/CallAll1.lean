import Verif.Spec.CallAllSpec
import Verif.Proof.Load1
import Mathlib.Data.List.Nodup
import Mathlib.Data.List.InsertIdx

/-! # CallAll: proofs -/

namespace Tower
set_option linter.unusedSectionVars false
variable {W Req Res Err : Type}

/-! ## Legal logs -/

theorem caRun_append (log : List (CAEv Req Res Err)) (e : CAEv Req Res Err) : caRun (log ++ [e]) = (caRun log).bind (CASt.step · e) := by
  unfold caRun; rw [List.foldl_append]; rfl

theorem pulledReqs_append (a b : List (CAEv Req Res Err)) : pulledReqs (a ++ b) = pulledReqs a ++ pulledReqs b := by
  induction a with
  | nil => rfl
  | cons e l ih =>
    rw [List.cons_append]
    rcases e with (_ | _ | q) | p | q | ⟨n, p⟩ <;> simp only [pulledReqs, ih, List.cons_append]

theorem calledReqs_append (a b : List (CAEv Req Res Err)) : calledReqs (a ++ b) = calledReqs a ++ calledReqs b := by
  induction a with
  | nil => rfl
  | cons e l ih =>
    rw [List.cons_append]
    rcases e with p | p | q | ⟨n, p⟩ <;> simp only [calledReqs, ih, List.cons_append]

theorem responses_append (a b : List (CAEv Req Res Err)) : responses (a ++ b) = responses a ++ responses b := by
  induction a with
  | nil => rfl
  | cons e l ih =>
    rw [List.cons_append]
    rcases e with p | p | q | ⟨n, (_ | p)⟩ <;> simp only [responses, ih, List.cons_append]

/-- what the state after a legal log says about it -/
structure CAFacts (log : List (CAEv Req Res Err)) (st : CASt Req) : Prop where
  calls : st.calls = (calledReqs log).length
  fin : st.fin = ((responses log).map Prod.fst).reverse
  nodup : st.fin.Nodup
  lt : ∀ n ∈ st.fin, n < st.calls
  held : pulledReqs log = calledReqs log ++ st.held.toList
  eof : st.eof = true ↔ StreamEnded log ∨ ∃ e, ServiceFailed log e
  ended : StreamEnded log → st.held = none

theorem caFacts (log : List (CAEv Req Res Err)) : ∀ st, caRun log = some st → CAFacts log st := by
  induction log using List.reverseRecOn with
  | nil =>
    intro st h
    cases h
    refine ⟨rfl, rfl, List.nodup_nil, (fun n hn => by cases hn), rfl, ?_, fun _ => rfl⟩
    simp [CASt.init, StreamEnded, ServiceFailed]
  | append_singleton log e ih =>
    intro st h
    rw [caRun_append] at h
    cases h1 : caRun log with
    | none => rw [h1] at h; cases h
    | some s =>
      rw [h1] at h
      have f := ih s h1
      have he := f.eof
      have hen := f.ended
      have hnd := f.nodup
      have hlt := f.lt
      rw [f.fin] at hnd hlt
      rw [f.calls] at hlt
      simp only [Option.bind_some] at h
      rcases e with (_ | _ | q) | (_ | (e | _)) | q | ⟨n, (_ | o)⟩ <;> simp only [CASt.step] at h <;> split at h <;> cases h <;> rename_i hc
      all_goals
        refine ⟨?_, ?_, ?_, ?_, ?_, ?_, ?_⟩
      all_goals
        simp only [calledReqs_append, responses_append, pulledReqs_append, calledReqs, responses, pulledReqs, List.append_nil, List.map_append, List.reverse_append, List.length_append,
          List.length_cons, List.length_nil, StreamEnded, ServiceFailed, List.mem_append, List.mem_singleton, f.calls, f.fin, f.held, Option.toList, reduceCtorEq, or_false, Poll.ready.injEq,
          CAEv.ready.injEq, CAEv.pulled.injEq, Except.error.injEq] at *
      all_goals first
        | rfl
        | exact hnd
        | exact hlt
        | exact he
        | exact hen
        | exact fun n hn => Nat.lt_succ_of_lt (hlt n hn)
        | exact ⟨fun _ => Or.inl (Or.inr trivial), fun _ => trivial⟩
        | exact ⟨fun _ => Or.inr ⟨_, Or.inr rfl⟩, fun _ => trivial⟩
        | exact fun _ => hc.2
        | exact fun _ => trivial
        | exact List.nodup_cons.2 ⟨hc.2, hnd⟩
        | exact fun m hm => (List.mem_cons.1 hm).elim (fun h => h ▸ hc.1) (hlt m)
        | (simp only [hc.2, List.append_nil])
        | (simp only [hc.2.1])
        | exact fun h => by have := he.2 (Or.inl h); rw [hc.1] at this; cases this

/-! ## The recorder -/

section
variable {S : Service W Req Res Err} {R : ReqStream W Req} {log log' : List (CAEv Req Res Err)} {w w' : W}

theorem recReady {s s' : S.σ} {p} (h : ((recS S).pollReady s).run (log, w) = .ok (p, s') (log', w')) : log' = log ++ [.ready p] ∧ (S.pollReady s).run w = .ok (p, s') w' := by
  obtain ⟨⟨p1, s1⟩, ⟨l1, w1⟩, h1, h2⟩ := Act.run_bind_eq_ok.1 h
  obtain ⟨h3, h4⟩ := snd_eq_ok.1 h1
  simp only at h3 h4
  subst h4
  cases h2
  exact ⟨rfl, h3⟩

theorem recCall {s s' : S.σ} {q : Req} {f} (h : ((recS S).call s q).run (log, w) = .ok (f, s') (log', w')) :
    log' = log ++ [.called q] ∧ f.1 = (calledReqs log).length ∧ (S.call s q).run w = .ok (f.2, s') w' := by
  obtain ⟨x, ⟨l0, w0⟩, h0, h⟩ := Act.run_bind_eq_ok.1 h
  cases h0
  obtain ⟨⟨p1, s1⟩, ⟨l1, w1⟩, h1, h2⟩ := Act.run_bind_eq_ok.1 h
  obtain ⟨h3, h4⟩ := snd_eq_ok.1 h1
  simp only at h3 h4
  subst h4
  cases h2
  exact ⟨rfl, rfl, h3⟩

theorem recPoll {x x' : Nat × S.φ} {p} (h : ((recS S).poll x).run (log, w) = .ok (p, x') (log', w')) :
    log' = log ++ [.polled x.1 p] ∧ x'.1 = x.1 ∧ (S.poll x.2).run w = .ok (p, x'.2) w' := by
  obtain ⟨⟨p1, s1⟩, ⟨l1, w1⟩, h1, h2⟩ := Act.run_bind_eq_ok.1 h
  obtain ⟨h3, h4⟩ := snd_eq_ok.1 h1
  simp only at h3 h4
  subst h4
  cases h2
  exact ⟨rfl, rfl, h3⟩

theorem recPull {r r' : R.τ} {p} (h : ((recR Res Err R).poll r).run (log, w) = .ok (p, r') (log', w')) : log' = log ++ [.pulled p] ∧ (R.poll r).run w = .ok (p, r') w' := by
  obtain ⟨⟨p1, s1⟩, ⟨l1, w1⟩, h1, h2⟩ := Act.run_bind_eq_ok.1 h
  obtain ⟨h3, h4⟩ := snd_eq_ok.1 h1
  simp only at h3 h4
  subst h4
  cases h2
  exact ⟨rfl, h3⟩
end

/-! ## A `FuturesUnordered` of recorded futures -/

/-- the event is a poll of a future -/
def IsPolled (e : CAEv Req Res Err) : Prop := ∃ n p, e = .polled n p

theorem run_polled_pending {log : List (CAEv Req Res Err)} {st : CASt Req} {n : Nat} (h : caRun log = some st) (h1 : n < st.calls) (h2 : n ∉ st.fin) :
    caRun (log ++ [.polled n .pending]) = some st := by
  rw [caRun_append, h]
  simp [CASt.step, h1, h2]

theorem run_polled_ready {log : List (CAEv Req Res Err)} {st : CASt Req} {n : Nat} (o : Except Err Res) (h : caRun log = some st) (h1 : n < st.calls) (h2 : n ∉ st.fin) :
    caRun (log ++ [.polled n (.ready o)]) = some { st with fin := n :: st.fin } := by
  rw [caRun_append, h]
  simp [CASt.step, h1, h2]

/-- polling of futures that have a key, which says the number of the call -/
theorem pollSome_spec {ψ κ β : Type} {poll : ψ → Act (List (CAEv Req Res Err) × W) (Poll β × ψ)} (key : ψ → κ) (cid : κ → Nat) (res : κ → Except Err Res → β)
    (hp : ∀ {x x' : ψ} {r log log' w w'}, (poll x).run (log, w) = .ok (r, x') (log', w') → key x' = key x ∧ ∃ p, log' = log ++ [.polled (cid (key x)) p] ∧ r = p.map (res (key x))) :
    ∀ (o : List Nat) (q : List ψ) (log : List (CAEv Req Res Err)) (w : W) (st : CASt Req) {r q' log' w'}, caRun log = some st →
      (∀ k ∈ q.map key, cid k < st.calls ∧ cid k ∉ st.fin) → (pollSome poll o q).run (log, w) = .ok (r, q') (log', w') →
      ∃ evs, log' = log ++ evs ∧ (∀ e ∈ evs, IsPolled e) ∧
        ((r = .pending ∧ q ≠ [] ∧ q'.map key = q.map key ∧ caRun log' = some st ∧ responses evs = []) ∨ (r = .ready none ∧ q = [] ∧ q' = [] ∧ evs = []) ∨
          ∃ i k v, (q.map key)[i]? = some k ∧ q'.map key = (q.map key).eraseIdx i ∧ r = .ready (some (res k v)) ∧ caRun log' = some { st with fin := cid k :: st.fin } ∧ responses evs = [(cid k, v)]) := by
  intro o
  induction o with
  | nil =>
    intro q log w st r q' log' w' hst hq h
    cases q with
    | nil => cases h; exact ⟨[], by simp, by simp, Or.inr (Or.inl ⟨rfl, rfl, rfl, rfl⟩)⟩
    | cons x q => cases h; exact ⟨[], by simp, by simp, Or.inl ⟨rfl, by simp, rfl, hst, rfl⟩⟩
  | cons i o ih =>
    intro q log w st r q' log' w' hst hq h
    cases q with
    | nil => cases h; exact ⟨[], by simp, by simp, Or.inr (Or.inl ⟨rfl, rfl, rfl, rfl⟩)⟩
    | cons x0 q0 =>
      generalize hqe : x0 :: q0 = q at *
      have hne : q ≠ [] := by rw [← hqe]; simp
      rw [pollSome.eq_3 _ _ _ _ hne] at h
      cases hx : q[i]? with
      | none => rw [hx] at h; exact ih q log w st hst hq h
      | some x =>
        rw [hx] at h
        simp only at h
        obtain ⟨⟨r1, x'⟩, ⟨l1, w1⟩, h1, h2⟩ := Act.run_bind_eq_ok.1 h
        obtain ⟨hk, p, rfl, rfl⟩ := hp h1
        have hki : (q.map key)[i]? = some (key x) := by rw [List.getElem?_map, hx]; rfl
        have hkx := hq (key x) (List.mem_iff_getElem?.2 ⟨i, hki⟩)
        cases p with
        | pending =>
          have hm : (q.set i x').map key = q.map key := by
            rw [List.map_set, hk]
            obtain ⟨hi, hki'⟩ := List.getElem?_eq_some_iff.1 hki
            rw [← hki']
            exact List.set_getElem_self hi
          obtain ⟨evs, rfl, he, hh⟩ := ih (q.set i x') _ w1 st (run_polled_pending hst hkx.1 hkx.2) (by rw [hm]; exact hq) h2
          refine ⟨.polled (cid (key x)) .pending :: evs, by simp, ?_, ?_⟩
          · intro e hee
            rcases List.mem_cons.1 hee with rfl | hee
            · exact ⟨_, _, rfl⟩
            · exact he e hee
          · rw [hm] at hh
            rcases hh with ⟨rfl, _, h4, h5, h6⟩ | ⟨rfl, h4, _⟩ | ⟨j, k, v, h4, h5, h6, h7, h8⟩
            · exact Or.inl ⟨rfl, hne, h4, h5, h6⟩
            · exact absurd ((List.set_eq_nil_iff _ _).1 h4) hne
            · exact Or.inr (Or.inr ⟨j, k, v, h4, h5, h6, h7, h8⟩)
        | ready v =>
          cases h2
          refine ⟨[.polled (cid (key x)) (.ready v)], rfl, ?_, Or.inr (Or.inr ⟨i, key x, v, hki, ?_, rfl, run_polled_ready v hst hkx.1 hkx.2, rfl⟩)⟩
          · intro e hee
            rw [List.mem_singleton] at hee
            exact ⟨_, _, hee⟩
          · exact (List.eraseIdx_map _ _ _).symm

/-! ## Queues -/

variable {S : Service W Req Res Err} {R : ReqStream W Req}

/-- What is used of a queue of recorded futures: `rs` are the responses given, `n` the number of futures pushed, `y` what the queue has yielded. -/
structure QLaw (D : DriveQ (List (CAEv Req Res Err) × W) (Nat × S.φ) (Except Err Res)) where
  Inv : D.Q → List (Nat × Except Err Res) → Nat → List (Except Err Res) → Prop
  new : Inv D.empty [] 0 []
  push : ∀ {q rs n y} (f : S.φ), Inv q rs n y → Inv (D.push q (n, f)) rs (n + 1) y
  poll : ∀ {q log st y p q' w log' w'}, caRun log = some st → Inv q (responses log) st.calls y → (D.poll q).run (log, w) = .ok (p, q') (log', w') →
    ∃ evs fin, log' = log ++ evs ∧ (∀ e ∈ evs, IsPolled e) ∧ caRun log' = some { st with fin := fin } ∧ Inv q' (responses log') st.calls (y ++ itemOf p)
  empty : ∀ {q rs n y}, Inv q rs n y → (D.isEmpty q = true ↔ y.length = n)
  le : ∀ {q rs n y}, Inv q rs n y → y.length ≤ n
  /-- nothing that could be yielded -/
  Idle : D.Q → Prop
  idle : ∀ {q p q' w w'}, (D.poll q).run w = .ok (p, q') w' → itemOf p = [] → Idle q'

theorem perm_range_mem {a b : List Nat} {n : Nat} (h : (a ++ b).Perm (List.range n)) : ∀ k ∈ a, k < n ∧ k ∉ b := by
  intro k hk
  refine ⟨List.mem_range.1 (h.mem_iff.1 (List.mem_append_left _ hk)), fun hb => ?_⟩
  have := h.nodup_iff.2 List.nodup_range
  exact (List.nodup_append.1 this).2.2 k hk k hb rfl

theorem perm_eraseIdx {α : Type} {a : List α} {i : Nat} {k : α} (h : a[i]? = some k) : a.Perm (k :: a.eraseIdx i) := by
  obtain ⟨hi, rfl⟩ := List.getElem?_eq_some_iff.1 h
  exact (List.getElem_cons_eraseIdx_perm hi).symm

theorem perm_move {a b : List Nat} {i k n : Nat} (h : (a ++ b).Perm (List.range n)) (hk : a[i]? = some k) : (a.eraseIdx i ++ (b ++ [k])).Perm (List.range n) := by
  refine List.Perm.trans ?_ h
  have h1 : (a ++ b).Perm (k :: (a.eraseIdx i ++ b)) := (perm_eraseIdx hk).append_right b
  refine List.Perm.trans ?_ h1.symm
  rw [← List.append_assoc]
  exact List.perm_append_singleton _ _

def unorderedLaw (V : Sched W) (S : Service W Req Res Err) : QLaw (unorderedQ (V.snd (A := List (CAEv Req Res Err))) (recS S).poll) where
  Inv q rs n y := (q.map Prod.fst ++ rs.map Prod.fst).Perm (List.range n) ∧ y = rs.map Prod.snd
  new := ⟨List.Perm.refl _, rfl⟩
  push := by
    intro q rs n y f h
    refine ⟨?_, h.2⟩
    rw [List.map_append, List.range_succ, List.append_assoc]
    refine List.Perm.trans ?_ (h.1.append_right [n])
    rw [List.append_assoc]
    exact List.Perm.append_left _ List.perm_append_comm
  poll := by
    intro q log st y p q' w log' w' hst hi h
    obtain ⟨o, ⟨l1, w1⟩, h1, h2⟩ := Act.run_bind_eq_ok.1 h
    simp only [Act.run_lift, Out.ok.injEq] at h1
    obtain ⟨h1a, h1b⟩ := h1
    have h1b : log = l1 := congrArg Prod.fst h1b
    subst h1b
    have hf := caFacts log st hst
    have hmem : ∀ k ∈ q.map Prod.fst, k < st.calls ∧ k ∉ st.fin := by
      intro k hk
      have := perm_range_mem hi.1 k hk
      exact ⟨this.1, by rw [hf.fin, List.mem_reverse]; exact this.2⟩
    obtain ⟨evs, rfl, he, hh⟩ := pollSome_spec (key := Prod.fst) (cid := id) (res := fun _ o => o) (by
      intro x x' r log log' w w' hx
      obtain ⟨hx1, hx2, _⟩ := recPoll hx
      refine ⟨hx2, r, hx1, ?_⟩
      cases r <;> rfl) o q log _ st hst hmem h2
    rw [responses_append]
    rcases hh with ⟨rfl, _, h4, h5, h6⟩ | ⟨rfl, h4, h5, h6⟩ | ⟨i, k, v, h4, h5, rfl, h7, h8⟩
    · refine ⟨evs, st.fin, rfl, he, h5, ?_, ?_⟩
      · rw [h4, h6, List.append_nil]; exact hi.1
      · rw [h6, List.append_nil]; simpa [itemOf] using hi.2
    · subst h4 h5 h6
      refine ⟨[], st.fin, rfl, he, by simpa using hst, ?_, ?_⟩
      · simpa [responses] using hi.1
      · simpa [itemOf, responses] using hi.2
    · refine ⟨evs, _, rfl, he, h7, ?_, ?_⟩
      · rw [h5, h8, List.map_append]; exact perm_move hi.1 h4
      · rw [h8, List.map_append, ← hi.2]; rfl
  empty := by
    intro q rs n y h
    have h1 := h.1.length_eq
    simp only [List.length_append, List.length_map, List.length_range] at h1
    rw [List.isEmpty_iff, h.2, List.length_map, ← List.length_eq_zero_iff]
    omega
  le := by
    intro q rs n y h
    have h1 := h.1.length_eq
    simp only [List.length_append, List.length_map, List.length_range] at h1
    rw [h.2, List.length_map]
    omega
  Idle _ := True
  idle _ _ := trivial

/-- the invariant of a `FuturesOrdered` -/
structure OrdInv (q : OrdQ (Nat × S.φ) (Except Err Res)) (rs : List (Nat × Except Err Res)) (n : Nat) (y : List (Except Err Res)) : Prop where
  cover : (q.run.map (fun e => e.2.1) ++ rs.map Prod.fst).Perm (List.range n)
  idx : ∀ e ∈ q.run, e.1 = e.2.1
  nextIn : q.nextIn = n
  nextOut : y.length = q.nextOut
  out : ∀ k v, y[k]? = some v → (k, v) ∈ rs
  done : ∀ k v, (k, v) ∈ q.done ↔ (k, v) ∈ rs ∧ q.nextOut ≤ k
  nodup : (q.done.map Prod.fst).Nodup

theorem OrdInv.rsNodup {q : OrdQ (Nat × S.φ) (Except Err Res)} {rs n y} (h : OrdInv q rs n y) : (rs.map Prod.fst).Nodup :=
  (List.nodup_append.1 (h.cover.nodup_iff.2 List.nodup_range)).2.1

theorem OrdInv.rsInj {q : OrdQ (Nat × S.φ) (Except Err Res)} {rs n y} (h : OrdInv q rs n y) {k v v'} (h1 : (k, v) ∈ rs) (h2 : (k, v') ∈ rs) : v = v' := by
  have := List.inj_on_of_nodup_map h.rsNodup h1 h2 rfl
  exact congrArg Prod.snd this

/-- an item is yielded, the next in turn -/
theorem OrdInv.yields {q : OrdQ (Nat × S.φ) (Except Err Res)} {rs n y} (h : OrdInv q rs n y) {v : Except Err Res} (hv : (q.nextOut, v) ∈ rs) (hd : q.done.find? (fun e => e.1 == q.nextOut) = some (q.nextOut, v)) :
    OrdInv { q with done := q.done.eraseP (fun e => e.1 == q.nextOut), nextOut := q.nextOut + 1 } rs n (y ++ [v]) := by
  refine ⟨h.cover, h.idx, h.nextIn, by simp [h.nextOut], ?_, ?_, ?_⟩
  · intro k v' hk
    rcases Nat.lt_or_ge k y.length with hlt | hge
    · rw [List.getElem?_append_left hlt] at hk; exact h.out k v' hk
    · rw [List.getElem?_append_right hge] at hk
      have : k - y.length = 0 := by
        rcases Nat.eq_zero_or_pos (k - y.length) with h0 | h0
        · exact h0
        · rw [List.getElem?_eq_none (by simp only [List.length_cons, List.length_nil]; omega)] at hk; cases hk
      rw [this] at hk
      cases hk
      have : k = q.nextOut := by rw [← h.nextOut]; omega
      rw [this]; exact hv
  · intro k v'
    have hne : ∀ e ∈ q.done, e.1 = q.nextOut → e = (q.nextOut, v) := by
      intro e he h1
      exact List.inj_on_of_nodup_map h.nodup he (List.mem_of_find?_eq_some hd) h1
    simp only
    constructor
    · intro hm
      have hm' := List.mem_of_mem_eraseP hm
      have hk : k ≠ q.nextOut := by
        intro hk
        have h1 := hne _ hm' hk
        have hnd := h.nodup
        have hp : q.done.Perm ((q.nextOut, v) :: q.done.eraseP (fun e => e.1 == q.nextOut)) := by
          have hin := List.mem_of_find?_eq_some hd
          obtain ⟨a, l1, l2, ha, hb, hc, hdd⟩ := List.exists_of_eraseP (p := fun e => e.1 == q.nextOut) hin (by simp)
          rw [hdd, hc]
          have : a = (q.nextOut, v) := hne a (by rw [hc]; simp) (by simpa using hb)
          rw [this]
          exact List.perm_middle
        have h2 := (hp.map Prod.fst).nodup_iff.1 hnd
        rw [List.map_cons, List.nodup_cons] at h2
        exact h2.1 (List.mem_map.2 ⟨_, hm, hk⟩)
      have := (h.done k v').1 hm'
      exact ⟨this.1, by omega⟩
    · rintro ⟨h1, h2⟩
      refine (List.mem_eraseP_of_neg ?_).2 ((h.done k v').2 ⟨h1, by omega⟩)
      simp only [beq_iff_eq]; omega
  · exact h.nodup.sublist (List.eraseP_sublist.map _)

theorem OrdInv.ltOut {q : OrdQ (Nat × S.φ) (Except Err Res)} {rs n y} (h : OrdInv q rs n y) {k : Nat} (hk : k < q.nextOut) : k ∈ rs.map Prod.fst := by
  have hk' : k < y.length := by rw [h.nextOut]; exact hk
  exact List.mem_map.2 ⟨_, h.out k y[k] (List.getElem?_eq_getElem hk'), rfl⟩

/-- a future has answered -/
theorem OrdInv.answered {q : OrdQ (Nat × S.φ) (Except Err Res)} {rs n y} (h : OrdInv q rs n y) {i k k' : Nat} {v : Except Err Res} {r : List (Nat × (Nat × S.φ))}
    (hk : (q.run.map (fun e => (e.1, e.2.1)))[i]? = some (k', k)) (hr : r.map (fun e => (e.1, e.2.1)) = (q.run.map (fun e => (e.1, e.2.1))).eraseIdx i) :
    k' = k ∧ k ∉ rs.map Prod.fst ∧ q.nextOut ≤ k ∧ (r.map (fun e => e.2.1) ++ (rs ++ [(k, v)]).map Prod.fst).Perm (List.range n) ∧ ∀ e ∈ r, e.1 = e.2.1 := by
  have hkk : k' = k := by
    rw [List.getElem?_map] at hk
    cases hq : q.run[i]? with
    | none => rw [hq] at hk; cases hk
    | some e => rw [hq] at hk; cases hk; exact h.idx e (List.mem_of_getElem? hq)
  have hk2 : (q.run.map (fun e => e.2.1))[i]? = some k := by
    have := congrArg (Option.map Prod.snd) hk
    rw [← List.getElem?_map, List.map_map] at this
    exact this
  have hr2 : r.map (fun e => e.2.1) = (q.run.map (fun e => e.2.1)).eraseIdx i := by
    have := congrArg (List.map Prod.snd) hr
    rw [← List.eraseIdx_map, List.map_map, List.map_map] at this
    exact this
  have hnot := perm_range_mem h.cover k (List.mem_of_getElem? hk2)
  refine ⟨hkk, hnot.2, ?_, ?_, ?_⟩
  · by_contra hlt
    exact hnot.2 (h.ltOut (by omega))
  · rw [hr2, List.map_append]; exact perm_move h.cover hk2
  · intro e he
    have h1 : (e.1, e.2.1) ∈ r.map (fun e => (e.1, e.2.1)) := List.mem_map.2 ⟨e, he, rfl⟩
    rw [hr] at h1
    obtain ⟨e', he', h2⟩ := List.mem_map.1 (List.mem_of_mem_eraseIdx h1)
    have := h.idx e' he'
    simp only [Prod.mk.injEq] at h2
    rw [← h2.1, ← h2.2, this]

theorem OrdInv.answeredNext {q : OrdQ (Nat × S.φ) (Except Err Res)} {rs n y} (h : OrdInv q rs n y) {i k' : Nat} {v : Except Err Res} {r : List (Nat × (Nat × S.φ))}
    (hk : (q.run.map (fun e => (e.1, e.2.1)))[i]? = some (k', q.nextOut)) (hr : r.map (fun e => (e.1, e.2.1)) = (q.run.map (fun e => (e.1, e.2.1))).eraseIdx i) :
    OrdInv { q with run := r, nextOut := q.nextOut + 1 } (rs ++ [(q.nextOut, v)]) n (y ++ [v]) := by
  obtain ⟨_, h2, _, h4, h5⟩ := h.answered (v := v) hk hr
  refine ⟨h4, h5, h.nextIn, by simp [h.nextOut], ?_, ?_, h.nodup⟩
  · intro k v' hk
    rcases Nat.lt_or_ge k y.length with hlt | hge
    · rw [List.getElem?_append_left hlt] at hk; exact List.mem_append_left _ (h.out k v' hk)
    · rw [List.getElem?_append_right hge] at hk
      have : k - y.length = 0 := by
        rcases Nat.eq_zero_or_pos (k - y.length) with h0 | h0
        · exact h0
        · rw [List.getElem?_eq_none (by simp only [List.length_cons, List.length_nil]; omega)] at hk; cases hk
      rw [this] at hk
      cases hk
      have : k = q.nextOut := by rw [← h.nextOut]; omega
      rw [this]; exact List.mem_append_right _ (List.mem_singleton.2 rfl)
  · intro k v'
    simp only [List.mem_append, List.mem_singleton, Prod.mk.injEq]
    rw [h.done]
    constructor
    · rintro ⟨h6, h7⟩
      refine ⟨Or.inl h6, ?_⟩
      have : k ≠ q.nextOut := by
        rintro rfl
        exact h2 (List.mem_map.2 ⟨_, h6, rfl⟩)
      omega
    · rintro ⟨h6 | ⟨h6, _⟩, h7⟩
      · exact ⟨h6, by omega⟩
      · omega

theorem OrdInv.answeredLater {q : OrdQ (Nat × S.φ) (Except Err Res)} {rs n y} (h : OrdInv q rs n y) {i k k' : Nat} {v : Except Err Res} {r : List (Nat × (Nat × S.φ))}
    (hk : (q.run.map (fun e => (e.1, e.2.1)))[i]? = some (k', k)) (hr : r.map (fun e => (e.1, e.2.1)) = (q.run.map (fun e => (e.1, e.2.1))).eraseIdx i) :
    OrdInv { q with run := r, done := q.done ++ [(k, v)] } (rs ++ [(k, v)]) n y := by
  obtain ⟨_, h2, h3, h4, h5⟩ := h.answered (v := v) hk hr
  refine ⟨h4, h5, h.nextIn, h.nextOut, fun k v hk => List.mem_append_left _ (h.out k v hk), ?_, ?_⟩
  · intro k1 v'
    simp only [List.mem_append, List.mem_singleton, Prod.mk.injEq]
    rw [h.done]
    constructor
    · rintro (⟨h6, h7⟩ | ⟨rfl, rfl⟩)
      · exact ⟨Or.inl h6, h7⟩
      · exact ⟨Or.inr ⟨rfl, rfl⟩, h3⟩
    · rintro ⟨h6 | h6, h7⟩
      · exact Or.inl ⟨h6, h7⟩
      · exact Or.inr h6
  · rw [List.map_append, List.nodup_append]
    refine ⟨h.nodup, List.nodup_singleton _, ?_⟩
    rintro a ha b hb rfl
    simp only [List.map_cons, List.map_nil, List.mem_singleton] at hb
    subst hb
    obtain ⟨e, he, h6⟩ := List.mem_map.1 ha
    have := ((h.done e.1 e.2).1 he).1
    exact h2 (List.mem_map.2 ⟨_, this, h6⟩)

theorem OrdInv.samekeys {q : OrdQ (Nat × S.φ) (Except Err Res)} {rs n y} (h : OrdInv q rs n y) {r : List (Nat × (Nat × S.φ))}
    (hr : r.map (fun e => (e.1, e.2.1)) = q.run.map (fun e => (e.1, e.2.1))) : OrdInv { q with run := r } rs n y := by
  refine ⟨?_, ?_, h.nextIn, h.nextOut, h.out, h.done, h.nodup⟩
  · have := congrArg (List.map Prod.snd) hr
    rw [List.map_map, List.map_map] at this
    have h2 : r.map (fun e => e.2.1) = q.run.map (fun e => e.2.1) := this
    simp only [h2]
    exact h.cover
  · intro e he
    have h1 : (e.1, e.2.1) ∈ r.map (fun e => (e.1, e.2.1)) := List.mem_map.2 ⟨e, he, rfl⟩
    rw [hr] at h1
    obtain ⟨e', he', h2⟩ := List.mem_map.1 h1
    have := h.idx e' he'
    simp only [Prod.mk.injEq] at h2
    rw [← h2.1, ← h2.2, this]

theorem OrdInv.le {q : OrdQ (Nat × S.φ) (Except Err Res)} {rs n y} (h : OrdInv q rs n y) : q.nextOut ≤ n := by
  by_contra hlt
  have := h.ltOut (k := n) (by omega)
  have := List.mem_range.1 (h.cover.mem_iff.1 (List.mem_append_right _ this))
  omega

theorem ordLoop_spec (V : Sched W) (S : Service W Req Res Err) : ∀ (m : Nat) {q : OrdQ (Nat × S.φ) (Except Err Res)} {log : List (CAEv Req Res Err)} {st : CASt Req} {y p q' w log' w'},
    caRun log = some st → OrdInv q (responses log) st.calls y → (OrdQ.loop (V.snd (A := List (CAEv Req Res Err))) (recS S).poll m q).run (log, w) = .ok (p, q') (log', w') →
    ∃ evs fin, log' = log ++ evs ∧ (∀ e ∈ evs, IsPolled e) ∧ caRun log' = some { st with fin := fin } ∧ OrdInv q' (responses log') st.calls (y ++ itemOf p) := by
  intro m
  induction m with
  | zero => intro q log st y p q' w log' w' _ _ h; cases h
  | succ m ih =>
    intro q log st y p q' w log' w' hst hi h
    obtain ⟨o, ⟨l1, w1⟩, h1, h2⟩ := Act.run_bind_eq_ok.1 h
    simp only [Act.run_lift, Out.ok.injEq] at h1
    obtain ⟨h1a, h1b⟩ := h1
    have h1b : log = l1 := congrArg Prod.fst h1b
    subst h1b
    obtain ⟨⟨r1, r⟩, ⟨l2, w2⟩, h3, h4⟩ := Act.run_bind_eq_ok.1 h2
    have hf := caFacts log st hst
    have hmem : ∀ k ∈ q.run.map (fun e => (e.1, e.2.1)), k.2 < st.calls ∧ k.2 ∉ st.fin := by
      intro k hk
      obtain ⟨e, he, rfl⟩ := List.mem_map.1 hk
      have := perm_range_mem hi.cover e.2.1 (List.mem_map.2 ⟨e, he, rfl⟩)
      exact ⟨this.1, by rw [hf.fin, List.mem_reverse]; exact this.2⟩
    obtain ⟨evs, rfl, he, hh⟩ := pollSome_spec (key := fun e : Nat × (Nat × S.φ) => (e.1, e.2.1)) (cid := Prod.snd) (res := fun k (o : Except Err Res) => (k.1, o)) (by
      intro x x' r log log' w w' hx
      obtain ⟨⟨p, f'⟩, ⟨l3, w3⟩, hx1, hx2⟩ := Act.run_bind_eq_ok.1 hx
      obtain ⟨hx3, hx4, _⟩ := recPoll hx1
      cases hx2
      exact ⟨by rw [hx4], p, hx3, rfl⟩) o q.run log w1 st hst hmem h3
    rcases hh with ⟨rfl, _, h4', h5, h6⟩ | ⟨rfl, h4', h5, h6⟩ | ⟨i, ⟨k', k⟩, v, h4', h5, rfl, h7, h8⟩
    · cases h4
      refine ⟨evs, st.fin, rfl, he, h5, ?_⟩
      rw [responses_append, h6, List.append_nil]
      simp only [itemOf, List.append_nil]
      exact hi.samekeys h4'
    · cases h4
      subst h6
      refine ⟨[], st.fin, rfl, he, by simpa using hst, ?_⟩
      simp only [itemOf, List.append_nil]
      refine hi.samekeys ?_
      rw [h4', h5]
    · simp only at h4
      obtain ⟨rfl, -⟩ := hi.answered (v := v) h4' h5
      split at h4
      · rename_i hnext
        cases h4
        subst hnext
        refine ⟨evs, _, rfl, he, h7, ?_⟩
        rw [responses_append, h8]
        exact hi.answeredNext h4' h5
      · have h9 := hi.answeredLater (v := v) h4' h5
        have h10 : responses (log ++ evs) = responses log ++ [(k', v)] := by rw [responses_append, h8]
        rw [← h10] at h9
        obtain ⟨evs', fin, rfl, he', h11, h12⟩ := ih h7 h9 h4
        refine ⟨evs ++ evs', fin, by rw [List.append_assoc], ?_, h11, h12⟩
        intro e hee
        rcases List.mem_append.1 hee with hee | hee
        · exact he e hee
        · exact he' e hee

theorem ordLoop_idle {W φ α : Type} (V : Sched W) (poll : φ → Act W (Poll α × φ)) : ∀ (m : Nat) {q : OrdQ φ α} {p q' w w'}, (∀ e ∈ q.done, e.1 ≠ q.nextOut) →
    (OrdQ.loop V poll m q).run w = .ok (p, q') w' → itemOf p = [] → ∀ e ∈ q'.done, e.1 ≠ q'.nextOut := by
  intro m
  induction m with
  | zero => intro q p q' w w' _ h; cases h
  | succ m ih =>
    intro q p q' w w' hq h hp
    obtain ⟨o, w1, h1, h2⟩ := Act.run_bind_eq_ok.1 h
    obtain ⟨⟨r1, r⟩, w2, h3, h4⟩ := Act.run_bind_eq_ok.1 h2
    rcases r1 with _ | (_ | ⟨i, v⟩)
    · cases h4; exact hq
    · cases h4; exact hq
    · simp only at h4
      split at h4
      · cases h4; cases hp
      · rename_i hne
        refine ih ?_ h4 hp
        intro e he
        rcases List.mem_append.1 he with he | he
        · exact hq e he
        · rw [List.mem_singleton] at he; subst he; exact hne

def orderedLaw (V : Sched W) (S : Service W Req Res Err) : QLaw (orderedQ (V.snd (A := List (CAEv Req Res Err))) (recS S).poll) where
  Inv := OrdInv
  new := ⟨List.Perm.refl _, (fun e he => by cases he), rfl, rfl, (fun k v h => by cases h), (fun k v => by simp), List.nodup_nil⟩
  push := by
    intro q rs n y f h
    refine ⟨?_, ?_, by simp [h.nextIn], h.nextOut, h.out, h.done, h.nodup⟩
    · rw [List.map_append, List.range_succ, List.append_assoc]
      refine List.Perm.trans ?_ (h.cover.append_right [n])
      rw [List.append_assoc]
      exact List.Perm.append_left _ List.perm_append_comm
    · intro e he
      rcases List.mem_append.1 he with he | he
      · exact h.idx e he
      · rw [List.mem_singleton] at he; subst he; exact h.nextIn
  poll := by
    intro q log st y p q' w log' w' hst hi h
    simp only at h
    split at h
    · rename_i e he
      cases h
      have hk : e.1 = q.nextOut := by simpa using List.find?_some he
      have hmem := List.mem_of_find?_eq_some he
      obtain ⟨k, v⟩ := e
      simp only at hk
      subst hk
      refine ⟨[], st.fin, by simp, by simp, hst, ?_⟩
      exact hi.yields ((hi.done _ _).1 hmem).1 he
    · exact ordLoop_spec V S _ hst hi h
  empty := by
    intro q rs n y h
    simp only [Bool.and_eq_true, List.isEmpty_iff]
    have hle := h.le
    constructor
    · rintro ⟨h1, h2⟩
      rw [h.nextOut]
      by_contra hne
      have hlt : q.nextOut < n := by omega
      have h3 := h.cover.mem_iff.2 (List.mem_range.2 hlt)
      rw [h1] at h3
      simp only [List.map_nil, List.nil_append] at h3
      obtain ⟨e, he, h4⟩ := List.mem_map.1 h3
      have := (h.done e.1 e.2).2 ⟨he, by omega⟩
      rw [h2] at this
      cases this
    · intro h1
      rw [h.nextOut] at h1
      constructor
      · rw [List.eq_nil_iff_forall_not_mem]
        intro e he
        have := perm_range_mem h.cover e.2.1 (List.mem_map.2 ⟨e, he, rfl⟩)
        exact this.2 (h.ltOut (by omega))
      · rw [List.eq_nil_iff_forall_not_mem]
        intro e he
        have h2 := (h.done e.1 e.2).1 he
        have := List.mem_range.1 (h.cover.mem_iff.1 (List.mem_append_right _ (List.mem_map.2 ⟨_, h2.1, rfl⟩)))
        have h3 := h2.2
        simp only at this
        omega

  le := by
    intro q rs n y h
    rw [h.nextOut]; exact h.le
  Idle q := ∀ e ∈ q.done, e.1 ≠ q.nextOut
  idle := by
    intro q p q' w w' h hp
    simp only at h
    split at h
    · cases h; cases hp
    · rename_i hn
      refine ordLoop_idle _ _ _ ?_ h hp
      intro e he h1
      have := List.find?_eq_none.1 hn e he
      simp [h1] at this

/-! ## CallAll -/

variable {D : DriveQ (List (CAEv Req Res Err) × W) (Nat × S.φ) (Except Err Res)}

/-- the invariant; `y` are the responses yielded, without a failure of the service -/
structure CAInv (L : QLaw D) (c : CallAll (recS S) (recR Res Err R) D) (log : List (CAEv Req Res Err)) (st : CASt Req) (y items : List (Except Err Res)) : Prop where
  run : caRun log = some st
  eof : st.eof = c.eof
  held : st.held = c.curr
  queue : L.Inv c.queue (responses log) st.calls y
  items : WithFailure log y items

/-- the last thing that happened is that the stream or the service was not ready -/
def WaitsOn (log : List (CAEv Req Res Err)) : Prop := ∃ l, log = l ++ [.pulled .pending] ∨ log = l ++ [.ready .pending]

/-- what an answer says -/
def AnswerOk (L : QLaw D) (c : CallAll (recS S) (recR Res Err R) D) (log : List (CAEv Req Res Err)) (st : CASt Req) (y : List (Except Err Res)) : Poll (Option (Except Err Res)) → Prop
  | .pending => L.Idle c.queue ∧ (WaitsOn log ∨ (c.eof = true ∧ y.length < st.calls))
  | .ready none => c.eof = true ∧ y.length = st.calls
  | .ready (some _) => True

theorem withFailure_events {log evs : List (CAEv Req Res Err)} {y items} (h : WithFailure log y items) (he : ∀ e, ServiceFailed (log ++ evs) e → ServiceFailed log e) : WithFailure (log ++ evs) y items := by
  rcases h with ⟨h1, h2⟩ | ⟨e, a, b, h1, h2⟩
  · exact Or.inl ⟨fun e hf => h1 e (he e hf), h2⟩
  · exact Or.inr ⟨e, a, b, List.mem_append_left _ h1, h2⟩

theorem withFailure_yield {log : List (CAEv Req Res Err)} {y items z} (h : WithFailure log y items) : WithFailure log (y ++ z) (items ++ z) := by
  rcases h with ⟨h1, h2⟩ | ⟨e, a, b, h1, h2, h3⟩
  · exact Or.inl ⟨h1, by rw [h2]⟩
  · exact Or.inr ⟨e, a, b ++ z, h1, by rw [h2, List.append_assoc], by rw [h3]; simp⟩

theorem polled_no_failure {log evs : List (CAEv Req Res Err)} (he : ∀ e ∈ evs, IsPolled e) : ∀ e, ServiceFailed (log ++ evs) e → ServiceFailed log e := by
  intro e hf
  rcases List.mem_append.1 hf with hf | hf
  · exact hf
  · obtain ⟨n, p, h⟩ := he _ hf; cases h

theorem single_no_failure {log : List (CAEv Req Res Err)} {ev : CAEv Req Res Err} (hev : ∀ e, ev ≠ .ready (.ready (.error e))) : ∀ e, ServiceFailed (log ++ [ev]) e → ServiceFailed log e := by
  intro e hf
  rcases List.mem_append.1 hf with hf | hf
  · exact hf
  · exact absurd (List.mem_singleton.1 hf).symm (hev e)

/-- goal for a piece of the loop -/
def LoopOk (L : QLaw D) (k : CallAll (recS S) (recR Res Err R) D → Act (List (CAEv Req Res Err) × W) (Poll (Option (Except Err Res)) × CallAll (recS S) (recR Res Err R) D)) : Prop :=
  ∀ {c : CallAll (recS S) (recR Res Err R) D} {log st y items w p c' log' w'}, CAInv L c log st y items → (k c).run (log, w) = .ok (p, c') (log', w') →
    ∃ st' y', CAInv L c' log' st' y' (items ++ itemOf p) ∧ AnswerOk L c' log' st' y' p

theorem issue_ok {L : QLaw D} {k : CallAll (recS S) (recR Res Err R) D → Act (List (CAEv Req Res Err) × W) (Poll (Option (Except Err Res)) × CallAll (recS S) (recR Res Err R) D)} (hk : LoopOk L k)
    {c : CallAll (recS S) (recR Res Err R) D} {log st y items w p c' log' w'} (hi : CAInv L c log st y items) (hq : L.Idle c.queue) (he : c.eof = false) (hc : c.curr ≠ none)
    (h : (CallAll.issue k c).run (log, w) = .ok (p, c') (log', w')) : ∃ st' y', CAInv L c' log' st' y' (items ++ itemOf p) ∧ AnswerOk L c' log' st' y' p := by
  have hse : st.eof = false := by rw [hi.eof]; exact he
  have hsh : st.held ≠ none := by rw [hi.held]; exact hc
  unfold CallAll.issue at h
  split at h
  · cases h
  · rename_i s hs
    obtain ⟨⟨p1, s'⟩, ⟨l1, w1⟩, h1, h2⟩ := Act.run_bind_eq_ok.1 h
    obtain ⟨rfl, _⟩ := recReady h1
    rcases p1 with _ | (e | ⟨⟩)
    · cases h2
      refine ⟨{ st with rdy := false }, y, ⟨?_, hi.eof, hi.held, ?_, ?_⟩, hq, Or.inl ⟨log, Or.inr rfl⟩⟩
      · rw [caRun_append, hi.run]; simp [CASt.step, hse, hsh]
      · rw [responses_append]; simpa [responses] using hi.queue
      · simpa [itemOf] using withFailure_events hi.items (single_no_failure (by intro e h; cases h))
    · cases h2
      refine ⟨{ st with eof := true }, y, ⟨?_, rfl, hi.held, ?_, ?_⟩, trivial⟩
      · rw [caRun_append, hi.run]; simp [CASt.step, hse, hsh]
      · rw [responses_append]; simpa [responses] using hi.queue
      · rcases hi.items with ⟨_, hy⟩ | ⟨e', a, b, hf, _⟩
        · refine Or.inr ⟨e, y, [], List.mem_append_right _ (List.mem_singleton.2 rfl), by simp, ?_⟩
          rw [hy]; rfl
        · have := ((caFacts log st hi.run).eof).2 (Or.inr ⟨e', hf⟩)
          rw [hse] at this; cases this
    · simp only at h2
      split at h2
      · rename_i hc'; exact absurd hc' hc
      · rename_i q hq
        obtain ⟨⟨f, s''⟩, ⟨l2, w2⟩, h3, h4⟩ := Act.run_bind_eq_ok.1 h2
        obtain ⟨rfl, hf, _⟩ := recCall h3
        have hr1 : caRun (log ++ [.ready (.ready (.ok ()))]) = some { st with rdy := true } := by
          rw [caRun_append, hi.run]; simp [CASt.step, hse, hsh]
        have hr2 : caRun (log ++ [.ready (.ready (.ok ()))] ++ [.called q]) = some { st with held := none, rdy := false, calls := st.calls + 1 } := by
          rw [caRun_append, hr1]
          have : st.held = some q := by rw [hi.held]; exact hq
          simp [CASt.step, hse, this]
        have hfn : f.1 = st.calls := by
          rw [hf, calledReqs_append, (caFacts log st hi.run).calls]; simp [calledReqs]
        refine hk (y := y) (c := { c with service := some s'', queue := D.push c.queue f, curr := none }) ⟨hr2, hi.eof, rfl, ?_, ?_⟩ h4
        · rw [responses_append, responses_append]
          simp only [responses, List.append_nil]
          obtain ⟨f1, f2⟩ := f
          simp only at hfn
          subst hfn
          exact L.push f2 hi.queue
        · exact withFailure_events (withFailure_events hi.items (single_no_failure (by intro e h; cases h))) (single_no_failure (by intro e h; cases h))

theorem fetch_ok {L : QLaw D} {k : CallAll (recS S) (recR Res Err R) D → Act (List (CAEv Req Res Err) × W) (Poll (Option (Except Err Res)) × CallAll (recS S) (recR Res Err R) D)} (hk : LoopOk L k)
    {c : CallAll (recS S) (recR Res Err R) D} {log st y items w p c' log' w'} (hi : CAInv L c log st y items) (hid : L.Idle c.queue)
    (h : (CallAll.fetch k c).run (log, w) = .ok (p, c') (log', w')) : ∃ st' y', CAInv L c' log' st' y' (items ++ itemOf p) ∧ AnswerOk L c' log' st' y' p := by
  unfold CallAll.fetch at h
  split at h
  · rename_i he
    split at h
    · rename_i hem
      cases h
      exact ⟨st, y, by simpa [itemOf] using hi, he, (L.empty hi.queue).1 hem⟩
    · rename_i hem
      cases h
      refine ⟨st, y, by simpa [itemOf] using hi, hid, Or.inr ⟨he, ?_⟩⟩
      have := L.le hi.queue
      have h2 : y.length ≠ st.calls := fun h2 => hem ((L.empty hi.queue).2 h2)
      omega
  · rename_i he
    have he : c.eof = false := by simpa using he
    have hse : st.eof = false := by rw [hi.eof]; exact he
    split at h
    · rename_i q hq
      exact issue_ok hk hi hid he (by rw [hq]; simp) h
    · rename_i hq
      have hsh : st.held = none := by rw [hi.held]; exact hq
      obtain ⟨⟨p1, r'⟩, ⟨l1, w1⟩, h1, h2⟩ := Act.run_bind_eq_ok.1 h
      obtain ⟨rfl, _⟩ := recPull h1
      rcases p1 with _ | (_ | q)
      · cases h2
        refine ⟨st, y, ⟨?_, hi.eof, hi.held, ?_, ?_⟩, hid, Or.inl ⟨log, Or.inl rfl⟩⟩
        · rw [caRun_append, hi.run]; simp [CASt.step, hse, hsh]
        · rw [responses_append]; simpa [responses] using hi.queue
        · simpa [itemOf] using withFailure_events hi.items (single_no_failure (by intro e h; cases h))
      · refine hk (y := y) (c := { c with stream := r', eof := true }) (st := { st with eof := true }) ⟨?_, rfl, hi.held, ?_, ?_⟩ h2
        · rw [caRun_append, hi.run]; simp [CASt.step, hse, hsh]
        · rw [responses_append]; simpa [responses] using hi.queue
        · exact withFailure_events hi.items (single_no_failure (by intro e h; cases h))
      · refine issue_ok hk (y := y) (c := { c with stream := r', curr := some q }) (st := { st with held := some q }) ⟨?_, hi.eof, rfl, ?_, ?_⟩ hid he (by simp) h2
        · rw [caRun_append, hi.run]; simp [CASt.step, hse, hsh]
        · rw [responses_append]; simpa [responses] using hi.queue
        · exact withFailure_events hi.items (single_no_failure (by intro e h; cases h))

theorem pollNext_ok (L : QLaw D) : ∀ n, LoopOk (R := R) L (CallAll.pollNext n) := by
  intro n
  induction n with
  | zero => intro c log st y items w p c' log' w' _ h; cases h
  | succ n ih =>
    intro c log st y items w p c' log' w' hi h
    obtain ⟨⟨p1, q⟩, ⟨l1, w1⟩, h1, h2⟩ := Act.run_bind_eq_ok.1 h
    obtain ⟨evs, fin, rfl, he, hr, hq⟩ := L.poll hi.run hi.queue h1
    have hw := withFailure_events hi.items (polled_no_failure he)
    rcases p1 with _ | (_ | (e | v))
    · simp only [itemOf, List.append_nil] at hq
      exact fetch_ok ih (c := { c with queue := q }) (st := { st with fin := fin }) ⟨hr, hi.eof, hi.held, hq, hw⟩ (L.idle h1 rfl) h2
    · simp only [itemOf, List.append_nil] at hq
      exact fetch_ok ih (c := { c with queue := q }) (st := { st with fin := fin }) ⟨hr, hi.eof, hi.held, hq, hw⟩ (L.idle h1 rfl) h2
    · cases h2
      exact ⟨{ st with fin := fin }, y ++ [.error e], ⟨hr, hi.eof, hi.held, hq, withFailure_yield hw⟩, trivial⟩
    · cases h2
      exact ⟨{ st with fin := fin }, y ++ [.ok v], ⟨hr, hi.eof, hi.held, hq, withFailure_yield hw⟩, trivial⟩

/-- the invariant holds in every use; after the end nothing is left -/
theorem CARun.inv (L : QLaw D) {s0 : S.σ} {r0 : R.τ} {c log items b} (h : CARun D s0 r0 c log items b) :
    ∃ st y, CAInv L c log st y items ∧ (b = true → c.eof = true ∧ y.length = st.calls) := by
  induction h with
  | new => exact ⟨CASt.init, [], ⟨rfl, rfl, rfl, L.new, Or.inl ⟨(fun e h => by cases h), rfl⟩⟩, fun h => by cases h⟩
  | take _ ht ih =>
    obtain ⟨st, y, hi, hb⟩ := ih
    unfold CallAll.takeService at ht
    split at ht
    · cases ht
    · cases ht
      exact ⟨st, y, ⟨hi.run, hi.eof, hi.held, hi.queue, hi.items⟩, hb⟩
  | poll _ hp ih =>
    rename_i c log items b n w p c' log' w' _
    obtain ⟨st, y, hi, hb⟩ := ih
    obtain ⟨st', y', hi', ha⟩ := pollNext_ok L n hi hp
    refine ⟨st', y', hi', ?_⟩
    intro hbb
    rw [Bool.or_eq_true] at hbb
    rcases hbb with hbb | hbb
    · -- nothing happens after the end
      obtain ⟨he, hl⟩ := hb hbb
      cases n with
      | zero => cases hp
      | succ n =>
        obtain ⟨⟨p1, q⟩, ⟨l1, w1⟩, h1, h2⟩ := Act.run_bind_eq_ok.1 hp
        obtain ⟨evs, fin, rfl, hev, hr, hq⟩ := L.poll hi.run hi.queue h1
        have hle := L.le hq
        rw [List.length_append, hl] at hle
        have hf : ∀ p2, p1 = p2 → itemOf p2 = [] → (CallAll.fetch (CallAll.pollNext n) { c with queue := q }).run (log ++ evs, w1) = .ok (p, c') (log', w') → c'.eof = true ∧ y'.length = st'.calls := by
          intro p2 hp2 hit h2
          subst hp2
          rw [hit, List.append_nil] at hq
          unfold CallAll.fetch at h2
          simp only [if_pos he, if_pos ((L.empty hq).2 hl)] at h2
          cases h2
          exact ha
        rcases p1 with _ | (_ | (e | v))
        · exact hf _ rfl rfl h2
        · exact hf _ rfl rfl h2
        · simp [itemOf] at hle
        · simp [itemOf] at hle
    · rcases p with _ | (_ | v)
      · cases hbb
      · exact ha
      · cases hbb

end Tower
