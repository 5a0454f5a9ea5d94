import Verif.Proof.LiveAll1

/-! # Coming to an end: the queues of `call_all` -/

set_option linter.unusedSimpArgs false

namespace Tower
open Act
variable {W Req Res Err : Type}

section some
variable {ψ β κ : Type} (poll : ψ → Act W (Poll β × ψ)) (key : ψ → κ) (tag : β → κ) (K : ψ → Prop) (T : β → Prop) (P : W → Prop)

/-- what a poll of a `FuturesUnordered` with the futures `p` does -/
inductive SomeOut (o : List Nat) (p : List ψ) : Poll (Option β) × List ψ → Prop
  | none : p = [] → SomeOut o p (.ready none, [])
  | item (i : Nat) (v : β) (q : List ψ) : (p.map key)[i]? = some (tag v) → q.map key = (p.map key).eraseIdx i → (∀ x ∈ q, K x) → T v → SomeOut o p (.ready (some v), q)
  | pending (f : ψ) (t : List ψ) (f' : ψ) (t' : List ψ) (L : List W) : p = f :: t → (f' :: t').map key = p.map key → (∀ x ∈ f' :: t', K x) → Pends poll f L f' →
      (∀ v ∈ L, P v) → (L ≠ [] ↔ 0 ∈ o) → SomeOut o p (.pending, f' :: t')

variable {poll key tag K T P}

theorem map_set_key {p : List ψ} {i : Nat} {x x' : ψ} (hx : p[i]? = some x) (hk : key x' = key x) : (p.set i x').map key = p.map key := by
  rw [List.map_set, hk]
  apply List.ext_getElem?
  intro j
  rw [List.getElem?_set]
  split
  · next h => subst h; rw [List.getElem?_map, hx]; simp [List.getElem?_eq_some_iff.1 hx |>.1]
  · rfl

theorem pollSome_out (hpoll : ∀ x w, K x → calm (poll x) (fun r _ => (r.1 = .pending → K r.2 ∧ key r.2 = key x) ∧ ∀ v, r.1 = .ready v → tag v = key x ∧ T v) w)
    (hP : ∀ x w r w', P w → (poll x).run w = .ok r w' → P w') : ∀ (o : List Nat) (p : List ψ) (w : W), (∀ x ∈ p, K x) → P w →
    calm (pollSome poll o p) (fun r w' => P w' ∧ SomeOut poll key tag K T P o p r) w := by
  intro o
  induction o with
  | nil =>
    intro p w hK hw
    cases p with
    | nil => exact ⟨hw, .none rfl⟩
    | cons f t => exact ⟨hw, .pending f t f t [] rfl rfl hK (.nil f) (by simp) (by simp)⟩
  | cons i o ih =>
    intro p w hK hw
    cases p with
    | nil => exact ⟨hw, .none rfl⟩
    | cons f t =>
      rw [pollSome]
      swap
      · simp
      generalize hp : f :: t = p at hK
      split
      · next hx =>
        have hi : i ≠ 0 := by rintro rfl; rw [← hp] at hx; simp at hx
        refine wpx_mono (ih p w hK hw) fun r w' h => ⟨h.1, ?_⟩
        cases h.2 with
        | none h1 => exact .none h1
        | item j v q h1 h2 h3 h4 => exact .item j v q h1 h2 h3 h4
        | pending f1 t1 f' t' L h1 h2 h3 h4 h5 h6 => exact .pending f1 t1 f' t' L h1 h2 h3 h4 h5 (by rw [h6]; simp [Ne.symm hi])
      · next x hx =>
        have hKx : K x := hK x (List.mem_of_getElem? hx)
        refine calm_bind (hpoll x w hKx).spin fun r w' hr => ?_
        have hf := wpx_ok (hpoll x w hKx) hr
        have hw' := hP x w r w' hw hr
        obtain ⟨r, x'⟩ := r
        cases r with
        | ready v =>
          refine ⟨hw', .item i v _ ?_ ?_ (fun y hy => hK y (List.mem_of_mem_eraseIdx hy)) (hf.2 v rfl).2⟩
          · rw [List.getElem?_map, hx, (hf.2 v rfl).1]; rfl
          · rw [List.eraseIdx_map]
        | pending =>
          obtain ⟨hK', hk'⟩ := hf.1 rfl
          have hset : (p.set i x').map key = p.map key := map_set_key hx hk'
          refine wpx_mono (ih (p.set i x') w' (fun y hy => by rcases List.mem_or_eq_of_mem_set hy with h | h; exacts [hK y h, h ▸ hK']) hw') fun r w'' h => ⟨h.1, ?_⟩
          cases h.2 with
          | none h1 => rw [← hp] at h1; simp at h1
          | item j v q h1 h2 h3 h4 => exact .item j v q (by rw [← hset]; exact h1) (by rw [← hset]; exact h2) h3 h4
          | pending f1 t1 f' t' L h1 h2 h3 h4 h5 h6 =>
            cases i with
            | zero =>
              rw [← hp] at hx h1
              simp only [List.getElem?_cons_zero, Option.some.injEq] at hx
              subst hx
              simp only [List.set_cons_zero, List.cons.injEq] at h1
              obtain ⟨rfl, rfl⟩ := h1
              exact .pending f t f' t' (w :: L) hp.symm (by rw [h2, hset]) h3 (.cons hr h4) (fun v hv => by rcases List.mem_cons.1 hv with rfl | hv; exacts [hw, h5 v hv]) (by simp)
            | succ i =>
              rw [← hp, List.set_cons_succ] at h1
              injection h1 with h7 h8
              subst h7
              exact .pending f t f' t' L hp.symm (by rw [h2, hset]) h3 h4 h5 (by rw [h6]; simp)
end some

section law
variable {F : Fairness W} {V : Sched W} {φ α : Type} {poll : φ → Act W (Poll α × φ)}

/-- what a poll of a queue of rank `m` does -/
inductive QOut {D : DriveQ W φ α} {ψ β : Type} (F : Fairness W) (V : Sched W) (ppoll : ψ → Act W (Poll β × ψ)) (pieces : D.Q → List ψ) (At : D.Q → Nat → Prop) (P : W → Prop) (q : D.Q) (m : Nat) (w : W) :
    Poll (Option α) × D.Q → Prop
  | none (q' : D.Q) : At q' 0 → m = 0 → D.isEmpty q' = true → QOut F V ppoll pieces At P q m w (.ready none, q')
  | item (v : α) (q' : D.Q) (m' : Nat) : At q' m' → m' < m → QOut F V ppoll pieces At P q m w (.ready (some v), q')
  | moved (q' : D.Q) (m' : Nat) : At q' m' → m' < m → QOut F V ppoll pieces At P q m w (.pending, q')
  | same (q' : D.Q) (f : ψ) (t : List ψ) (f' : ψ) (t' : List ψ) (L : List W) : At q' m → pieces q = f :: t → pieces q' = f' :: t' → t'.length = t.length → Finishes F ppoll f → Pends ppoll f L f' →
      (∀ v ∈ L, P v) → (L ≠ [] ↔ 0 ∈ (V.order (pieces q).length w).1) → QOut F V ppoll pieces At P q m w (.pending, q')

/-- after a step of rank `m'` to one of rank `m` -/
theorem QOut.later {D : DriveQ W φ α} {ψ β : Type} {ppoll : ψ → Act W (Poll β × ψ)} {pieces : D.Q → List ψ} {At : D.Q → Nat → Prop} {P : W → Prop} {q q1 : D.Q} {m m1 : Nat} {w w1 : W} {r : Poll (Option α) × D.Q}
    (h : QOut F V ppoll pieces At P q m w r) (h0 : m ≠ 0) (hm : m < m1) : QOut F V ppoll pieces At P q1 m1 w1 r := by
  induction h with
  | none q' h4 h5 h6 => exact absurd h5 h0
  | item u q' m' h4 h5 => exact .item u q' m' h4 (by omega)
  | moved q' m' h4 h5 => exact .moved q' m' h4 (by omega)
  | same q' f t f' t' L h4 => exact .moved q' _ h4 hm

/-- a queue that comes to an end -/
structure QEnds (F : Fairness W) (V : Sched W) (poll : φ → Act W (Poll α × φ)) (D : DriveQ W φ α) where
  ψ : Type
  β : Type
  ppoll : ψ → Act W (Poll β × ψ)
  pieces : D.Q → List ψ
  At : D.Q → Nat → Prop
  new : At D.empty 0
  push : ∀ q m f, At q m → Finishes F poll f → At (D.push q f) (m + 2)
  next : ∀ q m (P : W → Prop) w, At q m → (∀ l w, P w → P (V.order l w).2) → (∀ f w r w', P w → (poll f).run w = .ok r w' → P w') → P w →
    calm (D.poll q) (fun r w' => P w' ∧ QOut F V ppoll pieces At P q m w r) w

def unorderedEnds (F : Fairness W) (V : Sched W) (poll : φ → Act W (Poll α × φ)) : QEnds F V poll (unorderedQ V poll) where
  ψ := φ
  β := α
  ppoll := poll
  pieces q := q
  At q m := (∀ f ∈ q, Finishes F poll f) ∧ m = 2 * q.length
  new := ⟨by simp, rfl⟩
  push q m f h hf := ⟨fun g hg => by
    rcases List.mem_append.1 hg with h1 | h1
    · exact h.1 g h1
    · rw [List.mem_singleton.1 h1]; exact hf, by rw [h.2]; simp; omega⟩
  next q m P w h hV hP hw := by
    obtain ⟨hK, rfl⟩ := h
    show calm (Act.lift (V.order q.length) >>= fun o => pollSome poll o q) _ w
    refine calm_bind (by rw [run_lift]; intro hh; cases hh) fun o w1 ho => ?_
    rw [run_lift] at ho
    injection ho with ho1 ho2
    subst ho1 ho2
    refine wpx_mono (pollSome_out (key := fun _ => ()) (tag := fun _ => ()) (K := fun f => Finishes F poll f) (T := fun _ => True) (P := P) (fun x v hx => wpx_mono (hx.step v) fun r _ h => ⟨fun h1 => ⟨h h1, rfl⟩, fun _ _ => ⟨rfl, trivial⟩⟩)
      hP _ q _ hK (hV _ w hw)) fun r w' h => ⟨h.1, ?_⟩
    cases h.2 with
    | none h1 => subst h1; exact .none _ ⟨by simp, rfl⟩ rfl rfl
    | item i v q' h1 h2 h3 =>
      refine QOut.item (D := unorderedQ V poll) v q' (2 * q'.length) ⟨h3, rfl⟩ ?_
      have hl := congrArg List.length h2
      have hi := (List.getElem?_eq_some_iff.1 h1).1
      rw [List.length_eraseIdx_of_lt hi] at hl
      simp only [List.length_map] at hl hi
      omega
    | pending f t f' t' L h1 h2 h3 h4 h5 h6 =>
      subst h1
      have hl := congrArg List.length h2
      simp only [List.length_map, List.length_cons] at hl
      exact .same _ f t f' t' L ⟨h3, by simp only [List.length_cons]; omega⟩ rfl rfl (by omega) (hK f (by simp)) h4 h5 h6

/-! ## `FuturesOrdered` -/

theorem pollIdx_finishes {f : φ} (h : Finishes F poll f) (k : Nat) : Finishes F (pollIdx poll) (k, f) := by
  refine h.map (fun a b => b = (k, a)) ?_ rfl
  rintro a b w rfl hs
  refine calm_bind hs fun r w' hr => ?_
  obtain ⟨p, a'⟩ := r
  cases p with
  | pending => exact fun _ => ⟨a', w', hr, rfl⟩
  | ready v => intro hh; cases hh

/-- The indices: those that run are in order, and together with those that wait they are all that were given out and have not been returned. -/
structure OrdAt (F : Fairness W) (poll : φ → Act W (Poll α × φ)) (q : OrdQ φ α) : Prop where
  le : q.nextOut ≤ q.nextIn
  fin : ∀ x ∈ q.run, Finishes F (pollIdx poll) x
  sorted : (q.run.map Prod.fst).Pairwise (· < ·)
  nodup : (q.run.map Prod.fst ++ q.done.map Prod.fst).Nodup
  range : ∀ k ∈ q.run.map Prod.fst ++ q.done.map Prod.fst, q.nextOut ≤ k ∧ k < q.nextIn
  all : ∀ k, q.nextOut ≤ k → k < q.nextIn → k ∈ q.run.map Prod.fst ++ q.done.map Prod.fst

/-- a future that runs is finished: its index is that of an output that waits -/
theorem OrdAt.settled {q : OrdQ φ α} (h : OrdAt F poll q) {i : Nat} {v : Nat × α} {r : List (Nat × φ)} (h1 : (q.run.map Prod.fst)[i]? = some v.1) (h2 : r.map Prod.fst = (q.run.map Prod.fst).eraseIdx i)
    (h3 : ∀ x ∈ r, Finishes F (pollIdx poll) x) : OrdAt F poll { q with run := r, done := q.done ++ [v] } := by
  have hperm : (q.run.map Prod.fst ++ q.done.map Prod.fst).Perm (r.map Prod.fst ++ (q.done ++ [v]).map Prod.fst) := by
    rw [h2]
    have hp : (q.run.map Prod.fst).Perm (v.1 :: (q.run.map Prod.fst).eraseIdx i) := by
      obtain ⟨hi, he⟩ := List.getElem?_eq_some_iff.1 h1
      rw [← he]; exact (List.getElem_cons_eraseIdx_perm hi).symm
    refine (hp.append_right _).trans ?_
    simp only [List.map_append, List.map_cons, List.map_nil, ← List.append_assoc, List.cons_append]
    exact (List.perm_append_singleton v.1 _).symm
  exact ⟨h.le, h3, by rw [h2]; exact h.sorted.sublist (List.eraseIdx_sublist _ _), hperm.nodup_iff.1 h.nodup, fun k hk => h.range k (hperm.mem_iff.2 hk), fun k h4 h5 => hperm.mem_iff.1 (h.all k h4 h5)⟩

/-- the output that is next in turn is returned -/
theorem OrdAt.returned {q : OrdQ φ α} (h : OrdAt F poll q) {d : List (Nat × α)} {v : Nat × α} (hv : v.1 = q.nextOut) (hd : q.done.Perm (v :: d)) :
    OrdAt F poll { q with done := d, nextOut := q.nextOut + 1 } := by
  have hperm : (q.run.map Prod.fst ++ q.done.map Prod.fst).Perm (v.1 :: (q.run.map Prod.fst ++ d.map Prod.fst)) :=
    ((hd.map Prod.fst).append_left _).trans (by simpa using List.perm_middle)
  have hn := hperm.nodup_iff.1 h.nodup
  rw [List.nodup_cons] at hn
  refine ⟨(h.range _ (hperm.mem_iff.2 List.mem_cons_self)).2 |> fun h8 => by show q.nextOut + 1 ≤ q.nextIn; omega, h.fin, h.sorted, hn.2, fun k hk => ?_, fun k h4 h5 => ?_⟩
  · have h6 := h.range k (hperm.mem_iff.2 (List.mem_cons_of_mem _ hk))
    have : k ≠ v.1 := fun h7 => hn.1 (h7 ▸ hk)
    exact ⟨by show q.nextOut + 1 ≤ k; omega, h6.2⟩
  · have h4' : q.nextOut + 1 ≤ k := h4
    rcases List.mem_cons.1 (hperm.mem_iff.1 (h.all k (by omega) h5)) with h7 | h7
    · omega
    · exact h7

/-- The rank. -/
def OrdQ.rank (q : OrdQ φ α) : Nat := 2 * q.run.length + q.done.length

theorem length_of_keys {r r' : List (Nat × φ)} (h : r'.map Prod.fst = r.map Prod.fst) : r'.length = r.length := by simpa using congrArg List.length h

theorem ordLoop_out {P : W → Prop} (hV : ∀ l w, P w → P (V.order l w).2) (hP : ∀ f w r w', P w → (poll f).run w = .ok r w' → P w') : ∀ (n : Nat) (q : OrdQ φ α) (w : W), OrdAt F poll q → q.nextOut ∉ q.done.map Prod.fst → q.run.length < n → P w →
    calm (OrdQ.loop V poll n q) (fun r w' => P w' ∧ QOut (D := orderedQ V poll) F V (pollIdx poll) OrdQ.run (fun q m => OrdAt F poll q ∧ m = q.rank) P q q.rank w r) w := by
  intro n
  induction n with
  | zero => intro q w h hn hl; omega
  | succ n ih =>
    intro q w h hn hl hw
    rw [OrdQ.loop]
    refine calm_bind (by rw [run_lift]; intro hh; cases hh) fun o w1 ho => ?_
    rw [run_lift] at ho
    injection ho with ho1 ho2
    subst ho1 ho2
    have hsome := pollSome_out (poll := pollIdx poll) (key := Prod.fst) (tag := Prod.fst) (K := fun f => Finishes F (pollIdx poll) f) (T := fun _ => True) (P := P)
      (fun x v hx => calm_of (hx.spin v) fun r v' hr => by
        have hf := hx.step v
        obtain ⟨p, x'⟩ := r
        have hfr := wpx_ok hf hr
        rw [pollIdx] at hr
        obtain ⟨⟨p1, f1⟩, v1, hr1, hr2⟩ := run_bind_eq_ok.1 hr
        cases hr2
        refine ⟨fun h1 => ⟨hfr h1, rfl⟩, fun u hu => ?_⟩
        cases p1 with
        | pending => cases hu
        | ready u1 => cases hu; exact ⟨rfl, trivial⟩)
      (fun x v r v' hv hr => by
        rw [pollIdx] at hr
        obtain ⟨r1, v1, hr1, hr2⟩ := run_bind_eq_ok.1 hr
        cases hr2
        exact hP _ _ _ _ hv hr1)
      (V.order q.run.length w).1 q.run (V.order q.run.length w).2 h.fin (hV _ w hw)
    refine calm_bind hsome.spin fun r w2 hr => ?_
    obtain ⟨hw2, hout⟩ := wpx_ok hsome hr
    cases hout with
    | none h1 =>
      have hd : q.done = [] := by
        cases hd : q.done with
        | nil => rfl
        | cons e t =>
          exfalso
          have h2 := h.range e.1 (by simp [hd])
          have h3 := h.all q.nextOut (Nat.le_refl _) (by omega)
          rw [h1] at h3
          exact hn (by simpa using h3)
      refine ⟨hw2, .none _ ⟨⟨h.le, by simp, by simp, by simp [hd], by simp [hd], fun k h4 h5 => ?_⟩, by simp [OrdQ.rank, hd]⟩ (by simp [OrdQ.rank, hd, h1]) (by simp [hd])⟩
      have := h.all k h4 h5
      rw [h1, hd] at this
      simp at this
    | pending f t f' t' L h1 h2 h3 h4 h5 h6 =>
      refine ⟨hw2, .same _ f t f' t' L ⟨⟨h.le, h3, by rw [h2]; exact h.sorted, by rw [h2]; exact h.nodup, by rw [h2]; exact h.range, by rw [h2]; exact h.all⟩, ?_⟩ h1 rfl ?_ (h.fin f (by simp [h1])) h4 h5 h6⟩
      · simp only [OrdQ.rank]; rw [length_of_keys h2]
      · have := length_of_keys h2; rw [h1] at this; simpa using this
    | item i v r h1 h2 h3 =>
      have hlen : r.length + 1 = q.run.length := by
        have h4 := congrArg List.length h2
        have hi := (List.getElem?_eq_some_iff.1 h1).1
        rw [List.length_eraseIdx_of_lt hi] at h4
        simp only [List.length_map] at h4 hi
        omega
      have hs := h.settled h1 h2 h3
      dsimp only
      split
      · next hv =>
        refine ⟨hw2, .item _ _ _ ⟨?_, rfl⟩ (by simp only [OrdQ.rank]; omega)⟩
        exact hs.returned (d := q.done) hv (List.perm_append_singleton v _)
      · next hv =>
        refine wpx_mono (ih _ w2 hs (by simpa using ⟨fun x hx => hn (by simpa using ⟨x, hx⟩), fun h4 => hv h4.symm⟩) (by show r.length < n; omega) hw2) fun x w3 hx => ⟨hx.1, ?_⟩
        refine hx.2.later (by simp only [OrdQ.rank, List.length_append, List.length_singleton]; omega) ?_
        simp only [OrdQ.rank, List.length_append, List.length_singleton]; omega

theorem find_eraseP {β : Type} {p : β → Bool} {l : List β} {e : β} (h : l.find? p = some e) : l.Perm (e :: l.eraseP p) := by
  induction l with
  | nil => cases h
  | cons x l ih =>
    cases hx : p x with
    | true => rw [List.find?_cons_of_pos hx] at h; cases h; rw [List.eraseP_cons_of_pos hx]
    | false =>
      rw [List.find?_cons_of_neg (by simp [hx])] at h
      rw [List.eraseP_cons_of_neg (by simp [hx])]
      exact ((ih h).cons x).trans (.swap _ _ _)

def orderedEnds (F : Fairness W) (V : Sched W) (poll : φ → Act W (Poll α × φ)) : QEnds F V poll (orderedQ V poll) where
  ψ := Nat × φ
  β := Nat × α
  ppoll := pollIdx poll
  pieces := OrdQ.run
  At q m := OrdAt F poll q ∧ m = q.rank
  new := ⟨⟨Nat.le_refl _, by simp, by simp, by simp, by simp, fun k _ h => by cases h⟩, rfl⟩
  push q m f h hf := by
    obtain ⟨h, rfl⟩ := h
    have hperm : (q.run.map Prod.fst ++ q.nextIn :: q.done.map Prod.fst).Perm (q.nextIn :: (q.run.map Prod.fst ++ q.done.map Prod.fst)) := List.perm_middle
    refine ⟨⟨Nat.le_succ_of_le h.le, fun x hx => ?_, ?_, ?_, fun k hk => ?_, fun k h4 h5 => ?_⟩, by simp [OrdQ.rank]; omega⟩
    · rcases List.mem_append.1 hx with h1 | h1
      · exact h.fin x h1
      · rw [List.mem_singleton.1 h1]; exact pollIdx_finishes hf _
    · simp only [List.map_append, List.map_cons, List.map_nil, List.pairwise_append, List.pairwise_singleton]
      refine ⟨h.sorted, trivial, fun a ha b hb => ?_⟩
      rw [List.mem_singleton.1 hb]
      exact (h.range a (List.mem_append_left _ ha)).2
    · simp only [List.map_append, List.map_cons, List.map_nil, List.append_assoc, List.singleton_append]
      rw [hperm.nodup_iff, List.nodup_cons]
      exact ⟨fun h1 => absurd (h.range _ h1).2 (Nat.lt_irrefl _), h.nodup⟩
    · simp only [List.map_append, List.map_cons, List.map_nil, List.append_assoc, List.singleton_append] at hk
      have h0 : q.nextOut ≤ q.nextIn := h.le
      rcases List.mem_cons.1 (hperm.mem_iff.1 hk) with h1 | h1
      · subst h1; exact ⟨h0, Nat.lt_succ_self _⟩
      · have := h.range k h1; exact ⟨this.1, Nat.lt_succ_of_lt this.2⟩
    · simp only [List.map_append, List.map_cons, List.map_nil, List.append_assoc, List.singleton_append]
      rw [hperm.mem_iff]
      by_cases h1 : k = q.nextIn
      · simp [h1]
      · exact List.mem_cons_of_mem _ (h.all k h4 (Nat.lt_of_le_of_ne (Nat.lt_succ_iff.1 h5) h1))
  next q m P w h hV hP hw := by
    obtain ⟨h, rfl⟩ := h
    dsimp only
    split
    · next e he =>
      have hk := List.find?_some he
      have hk : e.1 = q.nextOut := by simpa using hk
      have hp : q.done.Perm (e :: q.done.eraseP (fun e => e.1 == q.nextOut)) := find_eraseP he
      refine ⟨hw, .item _ _ _ ⟨h.returned hk hp, rfl⟩ ?_⟩
      have := hp.length_eq
      simp only [OrdQ.rank, List.length_cons] at this ⊢
      omega
    · next he =>
      refine ordLoop_out hV hP _ q w h ?_ (Nat.lt_succ_self _) hw
      intro h1
      obtain ⟨e, h2, h3⟩ := List.mem_map.1 h1
      have := List.find?_eq_none.1 he e h2
      simp [h3] at this

end law
end Tower
