import Verif.Proof.Balance2

/-! # What the balancer does to the world while it is polled -/

namespace Tower
set_option linter.unusedSectionVars false
set_option linter.unusedSimpArgs false
open Act
variable {W Req Res Err K DErr BErr : Type} [DecidableEq K]

/-- `R` holds of the worlds before and after everything an endpoint's `poll_ready` (and the scheduler) does; `P` of an endpoint and its number is kept by `poll_ready` -/
structure KeepsTags (S : Service W Req Res Err) (V : Sched W) (R : W → W → Prop) (P : S.σ → Nat → Prop) : Prop where
  refl : ∀ w, R w w
  trans : ∀ {a b c}, R a b → R b c → R a c
  ready : ∀ {s w p s' w'}, (S.pollReady s).run w = .ok (p, s') w' → R w w'
  tag : ∀ {s t w p s' w'}, P s t → (S.pollReady s).run w = .ok (p, s') w' → P s' t
  order : ∀ n w, R w (V.order n w).2

/-- `P` holds of every endpoint in the cache -/
def Cache.Tagged {S : Service W Req Res Err} (P : S.σ → Nat → Prop) (c : Cache K S) : Prop :=
  (∀ e ∈ c.pending, P e.svc e.rx) ∧ ∀ e ∈ c.ready, P e.2.1 e.2.2.2

section
variable {S : Service W Req Res Err} {V : Sched W} {R : W → W → Prop} {P : S.σ → Nat → Prop} (hk : KeepsTags S V R P)
include hk

theorem PEnt.poll_rel {x : List Nat} {e e' : PEnt K S.σ} {w w' : W} {r} (h : (e.poll S x).run w = .ok (r, e') w') :
    R w w' ∧ (P e.svc e.rx → P e'.svc e'.rx ∧ ∀ k s rx, r = .ready (.ok k s rx) → P s rx) := by
  unfold PEnt.poll at h
  split at h
  · cases h
    exact ⟨hk.refl _, fun hp => ⟨hp, fun k s rx hx => by cases hx⟩⟩
  · obtain ⟨⟨p, s'⟩, w1, h1, h2⟩ := run_bind_eq_ok.1 h
    have hr := hk.ready h1
    rcases p with _ | (er | ⟨⟩)
    · cases h2
      exact ⟨hr, fun hp => ⟨hk.tag hp h1, fun k s rx hx => by cases hx⟩⟩
    · cases h2
      exact ⟨hr, fun hp => ⟨hk.tag hp h1, fun k s rx hx => by cases hx⟩⟩
    · cases h2
      exact ⟨hr, fun hp => ⟨hk.tag hp h1, fun k s rx hx => by cases hx; exact hk.tag hp h1⟩⟩

theorem pollNext_rel {x : List Nat} (o : List Nat) : ∀ {p p' : List (PEnt K S.σ)} {w w' : W} {r}, (pollNext S x o p).run w = .ok (r, p') w' →
    R w w' ∧ ((∀ e ∈ p, P e.svc e.rx) → (∀ e ∈ p', P e.svc e.rx) ∧ ∀ k s rx, r = .ready (some (.ok k s rx)) → P s rx) := by
  induction o with
  | nil =>
    intro p p' w w' r h
    cases p with
    | nil => cases h; exact ⟨hk.refl _, fun hp => ⟨hp, fun k s rx hx => by cases hx⟩⟩
    | cons e p => cases h; exact ⟨hk.refl _, fun hp => ⟨hp, fun k s rx hx => by cases hx⟩⟩
  | cons i is ih =>
    intro p p' w w' r h
    cases p with
    | nil => cases h; exact ⟨hk.refl _, fun hp => ⟨hp, fun k s rx hx => by cases hx⟩⟩
    | cons e0 p =>
      unfold pollNext at h
      split at h
      · exact ih h
      · rename_i e he
        obtain ⟨⟨r1, e'⟩, w1, h1, h2⟩ := run_bind_eq_ok.1 h
        obtain ⟨q1, q2⟩ := PEnt.poll_rel hk h1
        have hm := List.mem_of_getElem? he
        rcases r1 with _ | v
        · obtain ⟨q3, q4⟩ := ih h2
          refine ⟨hk.trans q1 q3, fun hp => q4 ?_⟩
          intro e2 he2
          rcases List.mem_or_eq_of_mem_set he2 with h3 | rfl
          · exact hp _ h3
          · exact (q2 (hp _ hm)).1
        · cases h2
          refine ⟨q1, fun hp => ⟨fun e2 he2 => hp _ (List.mem_of_mem_eraseIdx he2), ?_⟩⟩
          intro k s rx hx
          cases hx
          exact (q2 (hp _ hm)).2 _ _ _ rfl

theorem Cache.pollPendingLoop_rel (n : Nat) : ∀ {c c' : Cache K S} {w w' : W} {r}, (Cache.pollPendingLoop V n c).run w = .ok (r, c') w' →
    R w w' ∧ c'.nextCell = c.nextCell ∧ (c.Tagged P → c'.Tagged P) := by
  induction n with
  | zero => intro c c' w w' r h; cases h
  | succ n ih =>
    intro c c' w w' r h
    unfold Cache.pollPendingLoop at h
    obtain ⟨o, w1, h1, h2⟩ := run_bind_eq_ok.1 h
    cases h1
    obtain ⟨⟨r1, p⟩, w2, h3, h4⟩ := run_bind_eq_ok.1 h2
    obtain ⟨q1, q2⟩ := pollNext_rel hk _ h3
    have q1 := hk.trans (hk.order c.pending.length w) q1
    rcases r1 with _ | (_ | v)
    · cases h4
      exact ⟨q1, rfl, fun ht => ⟨(q2 ht.1).1, ht.2⟩⟩
    · cases h4
      exact ⟨q1, rfl, fun ht => ⟨(q2 ht.1).1, ht.2⟩⟩
    · rcases v with ⟨k, s, rx⟩ | k | ⟨k, e⟩
      · simp only at h4
        split at h4
        · obtain ⟨q3, q4, q5⟩ := ih h4
          refine ⟨hk.trans q1 q3, q4, fun ht => q5 ⟨(q2 ht.1).1, ?_⟩⟩
          intro e he
          have hnew := (q2 ht.1).2 _ _ _ rfl
          simp only [IMap.insert] at he
          split at he
          · obtain ⟨e0, he0, rfl⟩ := List.mem_map.1 he
            split
            · exact hnew
            · exact ht.2 _ he0
          · rcases List.mem_append.1 he with he | he
            · exact ht.2 _ he
            · rw [List.mem_singleton] at he; subst he; exact hnew
        · cases h4
      · obtain ⟨q3, q4, q5⟩ := ih h4
        exact ⟨hk.trans q1 q3, q4, fun ht => q5 ⟨(q2 ht.1).1, ht.2⟩⟩
      · simp only at h4
        split at h4
        · cases h4
          exact ⟨q1, rfl, fun ht => ⟨(q2 ht.1).1, ht.2⟩⟩
        · cases h4

omit hk in
theorem IMap.swapRemoveIndex_mem {A : Type} {m m' : IMap K A} {i : Nat} {e : K × A} (h : m.swapRemoveIndex i = some (e, m')) : e ∈ m ∧ ∀ x ∈ m', x ∈ m := by
  unfold IMap.swapRemoveIndex at h
  split at h
  · rename_i e1 l h1 h2
    cases h
    refine ⟨List.mem_of_getElem? h1, fun x hx => ?_⟩
    rcases List.mem_or_eq_of_mem_set (List.mem_of_mem_dropLast hx) with h3 | rfl
    · exact h3
    · exact List.mem_of_getLast? h2
  · cases h

omit hk in
theorem IMap.swapRemove_mem {A : Type} {m m' : IMap K A} {k : K} {v : A} (h : m.swapRemove k = some (v, m')) : ∀ x ∈ m', x ∈ m := by
  unfold IMap.swapRemove at h
  split at h
  · cases h
  · cases hx : m.swapRemoveIndex _ with
    | none => rw [hx] at h; cases h
    | some y =>
      rw [hx] at h
      cases h
      exact (IMap.swapRemoveIndex_mem (e := y.1) hx).2

omit hk in
theorem Cache.pushPending_tagged {c : Cache K S} {k : K} {s : S.σ} {pair : Nat × Nat} (ht : c.Tagged P) (hp : P s pair.2) : (c.pushPending k s pair).Tagged P ∧ (c.pushPending k s pair).nextCell = c.nextCell := by
  unfold Cache.pushPending
  simp only
  split <;>
  · refine ⟨⟨?_, ht.2⟩, rfl⟩
    intro e he
    rcases List.mem_append.1 he with he | he
    · exact ht.1 _ he
    · rw [List.mem_singleton] at he; subst he; exact hp

omit hk in
theorem Cache.putBack_tagged {c : Cache K S} {k : K} {s : S.σ} {pair : Nat × Nat} (ht : c.Tagged P) (hp : P s pair.2) : (c.putBack k s pair).Tagged P := by
  unfold Cache.putBack
  split
  · exact ht
  · exact (Cache.pushPending_tagged ht hp).1

omit hk in
theorem Cache.putBack_next {c : Cache K S} {k : K} {s : S.σ} {pair : Nat × Nat} : (c.putBack k s pair).nextCell = c.nextCell := by
  unfold Cache.putBack Cache.pushPending
  split
  · rfl
  · simp only
    split <;> rfl

omit hk in
theorem Cache.push_tagged {c : Cache K S} {k : K} {s : S.σ} (ht : c.Tagged P) (hp : P s c.nextCell) : (c.push k s).Tagged P ∧ (c.push k s).nextCell = c.nextCell + 1 :=
  Cache.pushPending_tagged (c := { c with nextCell := c.nextCell + 1 }) ht hp

omit hk in
theorem Cache.evict_tagged {c : Cache K S} {k : K} (ht : c.Tagged P) : (c.evict k).2.Tagged P ∧ (c.evict k).2.nextCell = c.nextCell := by
  have h1 : (c.evictPending k).2.Tagged P ∧ (c.evictPending k).2.nextCell = c.nextCell ∧ (c.evictPending k).2.ready = c.ready := by
    unfold Cache.evictPending
    split
    · exact ⟨ht, rfl, rfl⟩
    · exact ⟨ht, rfl, rfl⟩
  unfold Cache.evict
  simp only
  split
  · rename_i v r hs
    refine ⟨⟨h1.1.1, fun e he => h1.1.2 e (IMap.swapRemove_mem hs e he)⟩, h1.2.1⟩
  · exact ⟨h1.1, h1.2.1⟩

theorem Cache.checkReadyIndex_rel {c c' : Cache K S} {i : Nat} {w w' : W} {r} (h : (c.checkReadyIndex i).run w = .ok (r, c') w') :
    R w w' ∧ c'.nextCell = c.nextCell ∧ (c.Tagged P → c'.Tagged P) ∧
    (r = .ok true → ∃ k s0 q s, c.ready[i]? = some (k, (s0, q)) ∧ (S.pollReady s0).run w = .ok (.ready (.ok ()), s) w' ∧ c'.ready = c.ready.set i (k, (s, q))) := by
  unfold Cache.checkReadyIndex at h
  split at h
  · cases h; exact ⟨hk.refl _, rfl, id, fun h => by cases h⟩
  · rename_i e he
    obtain ⟨⟨p, s'⟩, w1, h1, h2⟩ := run_bind_eq_ok.1 h
    have hr := hk.ready h1
    have hset : c.Tagged P → ∀ x ∈ c.ready.set i (e.1, (s', e.2.2)), P x.2.1 x.2.2.2 := by
      intro ht x hx
      rcases List.mem_or_eq_of_mem_set hx with h3 | rfl
      · exact ht.2 _ h3
      · exact hk.tag (t := e.2.2.2) (ht.2 e (List.mem_of_getElem? he)) h1
    rcases p with _ | (er | ⟨⟩)
    · simp only at h2
      split at h2
      · cases h2
      · rename_i k s pair ready'' hs
        cases h2
        obtain ⟨m1, m2⟩ := IMap.swapRemoveIndex_mem hs
        refine ⟨hr, Cache.putBack_next, fun ht => Cache.putBack_tagged ⟨ht.1, fun x hx => hset ht x (m2 x hx)⟩ (hset ht _ m1), fun h => by cases h⟩
    · simp only at h2
      split at h2
      · cases h2
      · rename_i hs
        cases h2
        obtain ⟨m1, m2⟩ := IMap.swapRemoveIndex_mem hs
        exact ⟨hr, rfl, fun ht => ⟨ht.1, fun x hx => hset ht x (m2 x hx)⟩, fun h => by cases h⟩
    · cases h2
      exact ⟨hr, rfl, fun ht => ⟨ht.1, hset ht⟩, fun _ => ⟨e.1, e.2.1, e.2.2, s', he, h1, rfl⟩⟩

end

namespace Balance
variable {B : BalCfg W Req Res Err K DErr BErr} {R : W → W → Prop} {P : B.S.σ → Nat → Prop} (hk : KeepsTags B.S B.V R P) (hl : ∀ {s w c w'}, (B.L.load s).run w = .ok c w' → R w w')

include hk in
theorem promote_rel (n : Nat) : ∀ {b b' : Balance B} {w w' : W}, (promote n b).run w = .ok b' w' →
    R w w' ∧ b'.svcs.nextCell = b.svcs.nextCell ∧ (b.svcs.Tagged P → b'.svcs.Tagged P) ∧ b'.idx = b.idx := by
  induction n with
  | zero => intro b b' w w' h; cases h
  | succ n ih =>
    intro b b' w w' h
    unfold promote at h
    obtain ⟨⟨p, c⟩, w1, h1, h2⟩ := run_bind_eq_ok.1 h
    obtain ⟨q1, q2, q3⟩ := Cache.pollPendingLoop_rel hk _ h1
    rcases p with _ | (e | ⟨⟩)
    · simp only at h2
      split at h2
      · cases h2; exact ⟨q1, q2, q3, rfl⟩
      · cases h2
    · obtain ⟨q4, q5, q6, q7⟩ := ih h2
      exact ⟨hk.trans q1 q4, q5.trans q2, fun ht => q6 (q3 ht), q7⟩
    · simp only at h2
      split at h2
      · cases h2; exact ⟨q1, q2, q3, rfl⟩
      · cases h2

include hk hl in
theorem p2c_rel {b b' : Balance B} {w w' : W} {o : Option Nat} (h : b.p2c.run w = .ok (o, b') w') : R w w' ∧ b'.svcs = b.svcs := by
  have load : ∀ {i w c w'}, (b.readyIndexLoad i).run w = .ok c w' → R w w' := by
    intro i w c w' h
    unfold readyIndexLoad at h
    split at h
    · cases h
    · exact hl h
  unfold p2c at h
  split at h
  · cases h; exact ⟨hk.refl _, rfl⟩
  · split at h
    · cases h; exact ⟨hk.refl _, rfl⟩
    · split at h
      · cases h
      · split at h
        · cases h
        · obtain ⟨la, w1, h1, h2⟩ := run_bind_eq_ok.1 h
          obtain ⟨lb, w2, h3, h4⟩ := run_bind_eq_ok.1 h2
          cases h4
          exact ⟨hk.trans (load h1) (load h3), rfl⟩

/-- the endpoint at `i` of the ready ones was chosen by `p2c_ready_index`, in a world related to `w`, and found ready -/
def Picked (B : BalCfg W Req Res Err K DErr BErr) (R : W → W → Prop) (P : B.S.σ → Nat → Prop) (w : W) (i : Nat) (b' : Balance B) (w' : W) : Prop :=
  ∃ (b1 b2 : Balance B) (w1 w2 : W) (k : K) (s : B.S.σ) (q : Nat × Nat) (s0 : B.S.σ), R w w1 ∧ R w1 w2 ∧ b1.svcs.Tagged P ∧ b1.p2c.run w1 = .ok (some i, b2) w2 ∧ b1.svcs.ready[i]? = some (k, (s0, q)) ∧
    (B.S.pollReady s0).run w2 = .ok (.ready (.ok ()), s) w' ∧ b'.svcs.ready = b1.svcs.ready.set i (k, (s, q))

/-- the endpoint at the index `i` chosen before was found ready -/
def Rechecked (b : Balance B) (w : W) (i : Nat) (b' : Balance B) (w' : W) : Prop :=
  b.idx = some i ∧ ∃ k s0 q s, b.svcs.ready[i]? = some (k, (s0, q)) ∧ (B.S.pollReady s0).run w = .ok (.ready (.ok ()), s) w' ∧ b'.svcs.ready = b.svcs.ready.set i (k, (s, q))

include hk hl in
theorem select_rel (n : Nat) : ∀ {b b' : Balance B} {w w' : W} {p : Poll (Except BErr Unit)}, b.svcs.Tagged P → (select n b).run w = .ok (p, b') w' →
    R w w' ∧ b'.svcs.nextCell = b.svcs.nextCell ∧ b'.svcs.Tagged P ∧
    (p = .ready (.ok ()) → ∃ i, b'.idx = some i ∧ (Rechecked b w i b' w' ∨ Picked B R P w i b' w')) := by
  induction n with
  | zero => intro b b' w w' p _ h; cases h
  | succ n ih =>
    intro b b' w w' p ht h
    unfold select at h
    obtain ⟨⟨r, b1⟩, w1, h1, h2⟩ := run_bind_eq_ok.1 h
    -- the first half
    have hrec : R w w1 ∧ b1.svcs.nextCell = b.svcs.nextCell ∧ b1.svcs.Tagged P ∧ (r = true → ∃ i, b1.idx = some i ∧ Rechecked b w i b1 w1) := by
      unfold recheck at h1
      split at h1
      · cases h1; exact ⟨hk.refl _, rfl, ht, fun h => by cases h⟩
      · rename_i i hi
        obtain ⟨⟨r1, c⟩, w2, h3, h4⟩ := run_bind_eq_ok.1 h1
        obtain ⟨q1, q2, q3, q4⟩ := Cache.checkReadyIndex_rel hk h3
        rcases r1 with e | (_ | _)
        · cases h4; exact ⟨q1, q2, q3 ht, fun h => by cases h⟩
        · cases h4; exact ⟨q1, q2, q3 ht, fun h => by cases h⟩
        · cases h4; exact ⟨q1, q2, q3 ht, fun _ => ⟨i, rfl, hi, q4 rfl⟩⟩
    obtain ⟨g1, g2, g3, g4⟩ := hrec
    simp only at h2
    split at h2
    · rename_i hr
      cases h2
      obtain ⟨i, hi', hi⟩ := g4 hr
      exact ⟨g1, g2, g3, fun _ => ⟨i, hi', Or.inl hi⟩⟩
    · obtain ⟨⟨found, b2⟩, w2, h3, h4⟩ := run_bind_eq_ok.1 h2
      unfold choose at h3
      obtain ⟨⟨o, b3⟩, w3, h5, h6⟩ := run_bind_eq_ok.1 h3
      obtain ⟨f1, f2⟩ := p2c_rel hk hl h5
      cases o with
      | none =>
        simp only at h6
        split at h6
        · cases h6
          cases h4
          exact ⟨hk.trans g1 f1, by rw [f2]; exact g2, by rw [f2]; exact g3, fun h => by cases h⟩
        · cases h6
      | some i =>
        cases h6
        obtain ⟨e1, e2, e3, e4⟩ := ih (b := { b3 with idx := some i }) (by rw [f2]; exact g3) h4
        refine ⟨hk.trans (hk.trans g1 f1) e1, e2.trans (by simp only; rw [f2]; exact g2), e3, fun hp => ?_⟩
        obtain ⟨j, hj, hj'⟩ := e4 hp
        refine ⟨j, hj, ?_⟩
        rcases hj' with ⟨hi, k, s0, q, s, y1, y2, y3⟩ | ⟨b4, b5, w4, w5, k, s, q, s0, k1, k2, k3, k4, k5, k6, k7⟩
        · cases hi
          exact Or.inr ⟨b1, b3, w1, _, k, s, q, s0, g1, f1, g3, h5, by rw [← f2]; exact y1, y2, by rw [← f2]; exact y3⟩
        · exact Or.inr ⟨b4, b5, w4, w5, k, s, q, s0, hk.trans (hk.trans g1 f1) k1, k2, k3, k4, k5, k6, k7⟩

end Balance
end Tower
