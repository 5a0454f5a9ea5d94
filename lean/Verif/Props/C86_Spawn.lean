import Verif.Model.Spawn
import Verif.Props.C55_Mock
import Verif.Proof.Load1

/-! # C86: mocks on mock tasks (`mock::spawn`) -/

namespace Tower
set_option linter.unusedSimpArgs false
set_option linter.unusedSectionVars false
variable {Req U E : Type} {s : SpSt Req U E} {log : List (MEv Req U E)}

/-! ## Specification -/

/-- The test did something that may make mocks ready: `allow` of at least one call, `send_error`, or the drop of the `Handle`. -/
def MEv.Stirs : MEv Req U E → Prop
  | .allow n _ => 0 < n
  | .sendError _ _ => True
  | .handleDropped _ => True
  | _ => False

/-- The last `poll_ready` of mock `i` returned `Pending`; `since` is what happened after it. -/
def LastPending (log : List (MEv Req U E)) (i : Nat) (since : List (MEv Req U E)) : Prop :=
  ∃ l1 k, log = l1 ++ .poll i k .pending :: since ∧ ∀ k p, .poll i k p ∉ since

/-! ## Proofs -/

/-- what a spawned mock's task is in -/
inductive WSt where
  | idle
  | waiting
  | woken
  deriving DecidableEq

def MEv.wst (i : Nat) (a : WSt) : MEv Req U E → WSt
  | .poll j _ p => if j = i then (match p with | .pending => .waiting | _ => .idle) else a
  | .allow n _ => if n > 0 then (if a = .waiting then .woken else a) else a
  | .sendError _ _ => if a = .waiting then .woken else a
  | .handleDropped _ => if a = .waiting then .woken else a
  | _ => a
def wst (log : List (MEv Req U E)) (i : Nat) : WSt := log.foldl (MEv.wst i) .idle

theorem wst_snoc (log : List (MEv Req U E)) (e : MEv Req U E) (i : Nat) : wst (log ++ [e]) i = MEv.wst i (wst log i) e := by unfold wst; rw [List.foldl_append]; rfl

theorem LastPending.snoc {i : Nat} {since : List (MEv Req U E)} {e : MEv Req U E} (h : ∀ k p, e ≠ .poll i k p) : LastPending (log ++ [e]) i since ↔ ∃ l, since = l ++ [e] ∧ LastPending log i l := by
  constructor
  · rintro ⟨l1, k, h1, h2⟩
    rcases List.eq_nil_or_concat since with rfl | ⟨l3, x, rfl⟩
    · have := (List.append_inj' h1 rfl).2
      injection this with h3; exact absurd h3 (h _ _)
    · rw [List.concat_eq_append] at h1 h2 ⊢
      rw [show l1 ++ MEv.poll i k .pending :: (l3 ++ [x]) = (l1 ++ MEv.poll i k .pending :: l3) ++ [x] by simp] at h1
      obtain ⟨h3, h4⟩ := List.append_inj' h1 rfl
      injection h4 with h4; subst h4
      exact ⟨l3, rfl, l1, k, h3, fun k p hx => h2 k p (List.mem_append_left _ hx)⟩
  · rintro ⟨l, rfl, l1, k, rfl, h2⟩
    refine ⟨l1, k, by simp, fun k' p hx => ?_⟩
    rcases List.mem_append.1 hx with hx | hx
    · exact h2 _ _ hx
    · rw [List.mem_singleton] at hx; exact h _ _ hx.symm

theorem LastPending.poll {i k : Nat} {p : Poll (Except (MErr E) Unit)} {since : List (MEv Req U E)} : LastPending (log ++ [.poll i k p]) i since ↔ p = .pending ∧ since = [] := by
  constructor
  · rintro ⟨l1, k', h1, h2⟩
    rcases List.eq_nil_or_concat since with rfl | ⟨l3, x, rfl⟩
    · have := (List.append_inj' h1 rfl).2
      injection this with h3
      injection h3 with _ _ h4
      exact ⟨h4, rfl⟩
    · exfalso
      rw [List.concat_eq_append] at h1 h2
      rw [show l1 ++ MEv.poll i k' .pending :: (l3 ++ [x]) = (l1 ++ MEv.poll i k' .pending :: l3) ++ [x] by simp] at h1
      obtain ⟨h3, h4⟩ := List.append_inj' h1 rfl
      injection h4 with h4; subst h4
      exact h2 k p (List.mem_append_right _ (by simp))
  · rintro ⟨rfl, rfl⟩
    exact ⟨log, k, rfl, by simp⟩

theorem wst_spec (log : List (MEv Req U E)) (i : Nat) :
    (wst log i = .waiting ↔ ∃ l, LastPending log i l ∧ ∀ e ∈ l, ¬ e.Stirs) ∧ (wst log i = .woken ↔ ∃ l, LastPending log i l ∧ ∃ e ∈ l, e.Stirs) := by
  induction log using List.reverseRecOn with
  | nil =>
    have : ∀ l, ¬ LastPending ([] : List (MEv Req U E)) i l := by
      rintro l ⟨l1, k, h, _⟩
      cases l1 <;> cases h
    exact ⟨⟨(fun h => by cases h), fun ⟨l, h, _⟩ => absurd h (this l)⟩, ⟨(fun h => by cases h), fun ⟨l, h, _⟩ => absurd h (this l)⟩⟩
  | append_singleton log e ih =>
    rw [wst_snoc]
    obtain ⟨ih1, ih2⟩ := ih
    by_cases hp : ∃ k p, e = .poll i k p
    · obtain ⟨k, p, rfl⟩ := hp
      simp only [LastPending.poll]
      simp only [MEv.wst, if_true]
      cases p with
      | pending =>
        refine ⟨⟨fun _ => ⟨[], ⟨rfl, rfl⟩, by simp⟩, fun _ => rfl⟩, ⟨(fun h => by cases h), ?_⟩⟩
        rintro ⟨l, ⟨_, rfl⟩, e, he, _⟩; cases he
      | ready r =>
        refine ⟨⟨(fun h => by cases h), ?_⟩, ⟨(fun h => by cases h), ?_⟩⟩
        · rintro ⟨l, ⟨h, _⟩, _⟩; cases h
        · rintro ⟨l, ⟨h, _⟩, _⟩; cases h
    · have hp' : ∀ k p, e ≠ .poll i k p := fun k p h => hp ⟨k, p, h⟩
      simp only [LastPending.snoc hp']
      by_cases hs : e.Stirs
      · have h1 : MEv.wst i (wst log i) e = if wst log i = .waiting then .woken else wst log i := by
          cases e <;> simp only [MEv.Stirs] at hs <;> simp only [MEv.wst]
          · rw [if_pos hs]
        rw [h1]
        constructor
        · constructor
          · intro h
            split at h
            · cases h
            · exact absurd h ‹_›
          · rintro ⟨_, ⟨l, rfl, hl⟩, h⟩
            exact absurd hs (h e (by simp))
        · constructor
          · intro h
            split at h
            · obtain ⟨l, hl, _⟩ := ih1.1 ‹_›
              exact ⟨_, ⟨l, rfl, hl⟩, e, by simp, hs⟩
            · obtain ⟨l, hl, _⟩ := ih2.1 h
              exact ⟨_, ⟨l, rfl, hl⟩, e, by simp, hs⟩
          · rintro ⟨_, ⟨l, rfl, hl⟩, _⟩
            split
            · rfl
            · rename_i hn
              refine ih2.2 ⟨l, hl, ?_⟩
              by_contra hx
              exact hn (ih1.2 ⟨l, hl, fun e he hse => hx ⟨e, he, hse⟩⟩)
      · have h1 : MEv.wst i (wst log i) e = wst log i := by
          cases e with
          | poll j k p =>
            simp only [MEv.wst]
            rw [if_neg]
            intro hj
            subst hj
            exact hp' _ _ rfl
          | allow n ks => simp only [MEv.Stirs] at hs; simp only [MEv.wst]; rw [if_neg hs]
          | sendError => exact absurd trivial hs
          | handleDropped => exact absurd trivial hs
          | _ => rfl
        rw [h1, ih1, ih2]
        constructor
        · constructor
          · rintro ⟨l, hl, h⟩
            refine ⟨_, ⟨l, rfl, hl⟩, fun e' he => ?_⟩
            rcases List.mem_append.1 he with he | he
            · exact h _ he
            · rw [List.mem_singleton] at he; subst he; exact hs
          · rintro ⟨_, ⟨l, rfl, hl⟩, h⟩
            exact ⟨l, hl, fun e' he => h e' (List.mem_append_left _ he)⟩
        · constructor
          · rintro ⟨l, hl, e', he, h⟩
            exact ⟨_, ⟨l, rfl, hl⟩, e', List.mem_append_left _ he, h⟩
          · rintro ⟨_, ⟨l, rfl, hl⟩, e', he, h⟩
            rcases List.mem_append.1 he with he | he
            · exact ⟨l, hl, e', he, h⟩
            · rw [List.mem_singleton] at he; subst he; exact absurd h hs

/-- the program without its tasks -/
def SpSt.plain (s : SpSt Req U E) : MSt Req U E := ⟨s.w, s.spawns.map (·.inner), s.handle, s.held⟩

theorem Spawn.pollReady_ok {σ W α : Type} {f : Nat → σ → Act W (α × σ)} {x x' : Spawn σ} {p : α} {t t' : List Bool} {w w' : W} (h : (x.pollReady f).run (t, w) = .ok (p, x') (t', w')) :
    t' = t.set x.task false ∧ x'.task = x.task ∧ (f x.task x.inner).run w = .ok (p, x'.inner) w' := by
  unfold Spawn.pollReady at h
  rw [Act.run_bind] at h
  simp only [Act.run_modify] at h
  obtain ⟨⟨p1, s1⟩, ⟨t1, w1⟩, h1, h2⟩ := Act.run_bind_eq_ok.1 h
  have h3 := snd_eq_ok.1 h1
  cases h2
  exact ⟨h3.2, rfl, h3.1⟩

theorem Spawn.call_ok {σ W φ : Type} {f : σ → Req → Act W (φ × σ)} {x x' : Spawn σ} {q : Req} {p : φ} {t t' : List Bool} {w w' : W} (h : (x.call f q).run (t, w) = .ok (p, x') (t', w')) :
    t' = t ∧ x'.task = x.task ∧ (f x.inner q).run w = .ok (p, x'.inner) w' := by
  unfold Spawn.call at h
  obtain ⟨⟨p1, s1⟩, ⟨t1, w1⟩, h1, h2⟩ := Act.run_bind_eq_ok.1 h
  have h3 := snd_eq_ok.1 h1
  cases h2
  exact ⟨h3.2, rfl, h3.1⟩

theorem Spawn.clone_ok {σ W : Type} {f : σ → Act W σ} {x x' : Spawn σ} {t t' : List Bool} {w w' : W} (h : (x.clone f).run (t, w) = .ok x' (t', w')) :
    t' = t ++ [false] ∧ x'.task = t.length ∧ (f x.inner).run w = .ok x'.inner w' := by
  unfold Spawn.clone at h
  obtain ⟨s1, ⟨t1, w1⟩, h1, h2⟩ := Act.run_bind_eq_ok.1 h
  have h3 := snd_eq_ok.1 h1
  obtain ⟨h3, rfl⟩ := h3
  cases h2
  exact ⟨rfl, rfl, h3⟩

theorem Spawn.pollReady_panic {σ W α : Type} {f : Nat → σ → Act W (α × σ)} {x : Spawn σ} {t : List Bool} {w : W} {m : String} (h : (x.pollReady f).run (t, w) = .panic m) : (f x.task x.inner).run w = .panic m := by
  unfold Spawn.pollReady at h
  rw [Act.run_bind] at h
  simp only [Act.run_modify] at h
  rw [Act.run_bind] at h
  unfold Act.snd at h
  dsimp only at h
  cases h1 : (f x.task x.inner).run w with
  | ok a w' => rw [h1] at h; cases h
  | panic m' => rw [h1] at h; dsimp only at h; cases h; rfl
  | spin => rw [h1] at h; cases h

theorem Spawn.call_panic {σ W φ : Type} {f : σ → Req → Act W (φ × σ)} {x : Spawn σ} {q : Req} {t : List Bool} {w : W} {m : String} (h : (x.call f q).run (t, w) = .panic m) : (f x.inner q).run w = .panic m := by
  unfold Spawn.call at h
  rw [Act.run_bind] at h
  unfold Act.snd at h
  dsimp only at h
  cases h1 : (f x.inner q).run w with
  | ok a w' => rw [h1] at h; cases h
  | panic m' => rw [h1] at h; dsimp only at h; cases h; rfl
  | spin => rw [h1] at h; cases h

/-- **C86.** A spawned mock is a mock: what programs do to spawned mocks is what programs can do to mocks, so C55 applies to all of it. -/
theorem C86_is_mock (h : SpRun s log) : MRun s.plain log := by
  induction h with
  | spawn => exact MRun.pair
  | @poll s log l x l' p x' t' w' _ hs hr ih =>
    obtain ⟨_, _, h1⟩ := Spawn.pollReady_ok hr
    have := ih.poll (l := l.map (·.inner)) (l' := l'.map (·.inner)) (by unfold SpSt.plain; rw [hs]; simp) h1
    unfold SpSt.plain at this ⊢
    simpa using this
  | @pollPanics s log l x l' t t' _ hs hr ih => exact ih.pollPanics (l := l.map (·.inner)) (l' := l'.map (·.inner)) (by unfold SpSt.plain; rw [hs]; simp) (Spawn.pollReady_panic hr)
  | @call s log l x l' q f x' t' w' _ hs hr ih =>
    obtain ⟨_, _, h1⟩ := Spawn.call_ok hr
    have := ih.call (l := l.map (·.inner)) (l' := l'.map (·.inner)) (by unfold SpSt.plain; rw [hs]; simp) h1
    unfold SpSt.plain at this ⊢
    simpa using this
  | @callPanics s log l x l' q t _ hs hr ih => exact ih.callPanics (l := l.map (·.inner)) (l' := l'.map (·.inner)) (by unfold SpSt.plain; rw [hs]; simp) (Spawn.call_panic hr)
  | @clone s log x x' t' w' _ hx hr ih =>
    obtain ⟨_, _, h1⟩ := Spawn.clone_ok hr
    have := ih.clone (m := x.inner) (List.mem_map_of_mem hx) h1
    unfold SpSt.plain at this ⊢
    simpa using this
  | @drop s log l x l' w' _ hs hr ih =>
    have := ih.drop (l := l.map (·.inner)) (l' := l'.map (·.inner)) (by unfold SpSt.plain; rw [hs]; simp) hr
    unfold SpSt.plain at this ⊢
    simpa using this
  | recv _ h1 h2 ih => exact ih.recv h1 h2
  | allow _ h1 h2 ih => exact ih.allow h1 h2
  | sendError _ h1 h2 ih => exact ih.sendError h1 h2
  | dropHandle _ h1 h2 ih => exact ih.dropHandle h1 h2
  | dropHandlePanics _ h1 h2 ih => exact ih.dropHandlePanics h1 h2
  | dropRx _ h1 h2 h3 ih => exact ih.dropRx h1 h2 h3
  | respond _ h1 h2 ih => exact ih.respond h1 h2
  | dropResponse _ h1 h2 ih => exact ih.dropResponse h1 h2
  | pollFut _ h1 ih => exact ih.pollFut h1
  | dropFut _ h1 h2 ih => exact ih.dropFut h1 h2

theorem wake_length (ks : List Nat) : ∀ t, (Spawn.wake ks t).length = t.length := by
  unfold Spawn.wake
  induction ks with
  | nil => intro t; rfl
  | cons k ks ih => intro t; rw [List.foldl_cons, ih]; simp

theorem wake_get (ks : List Nat) : ∀ (t : List Bool) (i : Nat), i < t.length → (Spawn.wake ks t)[i]?.getD false = (decide (i ∈ ks) || t[i]?.getD false) := by
  unfold Spawn.wake
  induction ks with
  | nil => intro t i hi; simp
  | cons k ks ih =>
    intro t i hi
    rw [List.foldl_cons, ih _ _ (by simpa using hi)]
    rw [List.getElem?_set]
    by_cases hk : k = i
    · subst hk; simp [hi]
    · rw [if_neg hk]
      have : (i ∈ k :: ks) ↔ i ∈ ks := by simp [Ne.symm hk]
      simp [this]

/-- `P`: the mocks that exist, with their tasks; `n`: the next number of a mock -/
structure SpInv (P : List (Nat × Nat)) (t : List Bool) (n : Nat) (log : List (MEv Req U E)) : Prop where
  lt : ∀ x ∈ P, x.1 < n ∧ x.2 < t.length
  ids : (P.map (·.1)).Nodup
  nodup : (P.map (·.2)).Nodup
  own : ∀ i k, waiting log i = some k → (i, k) ∈ P
  wait : ∀ x ∈ P, wst log x.1 = .waiting ↔ (waiting log x.1).isSome
  flag : ∀ x ∈ P, t[x.2]?.getD false = true ↔ wst log x.1 = .woken
  fresh : ∀ i, n ≤ i → wst log i = .idle

variable {P : List (Nat × Nat)} {t : List Bool} {n : Nat}

theorem SpInv.neutral (h : SpInv P t n log) {e : MEv Req U E} (h1 : ∀ i a, MEv.waiting i a e = a) (h2 : ∀ i a, MEv.wst i a e = a) : SpInv P t n (log ++ [e]) where
  lt := h.lt
  ids := h.ids
  nodup := h.nodup
  own i k hx := by rw [waiting_snoc, h1] at hx; exact h.own i k hx
  wait x hx := by rw [waiting_snoc, wst_snoc, h1, h2]; exact h.wait x hx
  flag x hx := by rw [wst_snoc, h2]; exact h.flag x hx
  fresh i hi := by rw [wst_snoc, h2]; exact h.fresh i hi

theorem SpInv.poll (h : SpInv P t n log) {i k : Nat} (hi : (i, k) ∈ P) (p : Poll (Except (MErr E) Unit)) : SpInv P (t.set k false) n (log ++ [.poll i k p]) where
  lt x hx := by simpa using h.lt x hx
  ids := h.ids
  nodup := h.nodup
  own j k' hx := by
    rw [waiting_snoc] at hx
    simp only [MEv.waiting] at hx
    split at hx
    · rename_i hj
      subst hj
      cases p with
      | pending => cases hx; exact hi
      | ready r => cases hx
    · exact h.own j k' hx
  wait x hx := by
    rw [waiting_snoc, wst_snoc]
    simp only [MEv.waiting, MEv.wst]
    split
    · cases p <;> simp
    · exact h.wait x hx
  flag x hx := by
    rw [wst_snoc]
    simp only [MEv.wst]
    rw [List.getElem?_set]
    by_cases hj : i = x.1
    · have hk : k = x.2 := by
        have := List.inj_on_of_nodup_map h.ids hi hx hj
        rw [← this]
      rw [if_pos hj, if_pos hk]
      have hl := (h.lt x hx).2
      rw [hk, if_pos hl]
      cases p <;> simp
    · rw [if_neg hj, if_neg]
      · exact h.flag x hx
      · intro hk
        have := List.inj_on_of_nodup_map h.nodup hi hx hk
        exact hj (by rw [← this])
  fresh j hj := by
    rw [wst_snoc]
    simp only [MEv.wst]
    rw [if_neg]
    · exact h.fresh j hj
    · have := (h.lt _ hi).1
      simp only at this
      omega

theorem SpInv.wake (h : SpInv P t n log) {e : MEv Req U E} {ks : List Nat} (h1 : ∀ i a, MEv.waiting i a e = none) (h2 : ∀ i a, MEv.wst i a e = if a = .waiting then .woken else a)
    (hk : ∀ k, k ∈ ks ↔ ∃ i, waiting log i = some k) : SpInv P (Spawn.wake ks t) n (log ++ [e]) where
  lt x hx := by rw [wake_length]; exact h.lt x hx
  ids := h.ids
  nodup := h.nodup
  own i k hx := by rw [waiting_snoc, h1] at hx; cases hx
  wait x hx := by
    rw [waiting_snoc, wst_snoc, h1, h2]
    split
    · simp
    · rename_i hn; simpa using hn
  flag x hx := by
    rw [wst_snoc, h2, wake_get _ _ _ (h.lt x hx).2]
    have hx2 : x.2 ∈ ks ↔ wst log x.1 = .waiting := by
      rw [hk, h.wait x hx]
      constructor
      · rintro ⟨j, hj⟩
        have := List.inj_on_of_nodup_map h.nodup (h.own _ _ hj) hx rfl
        rw [← this, hj]; rfl
      · intro hs
        obtain ⟨k, hk'⟩ := Option.isSome_iff_exists.1 hs
        have := List.inj_on_of_nodup_map h.ids (h.own _ _ hk') hx rfl
        refine ⟨x.1, ?_⟩
        rw [hk', ← this]
    rw [Bool.or_eq_true, decide_eq_true_iff, hx2, h.flag x hx]
    split
    · rename_i hw; simp [hw]
    · rename_i hw; simp [hw]
  fresh i hi := by
    rw [wst_snoc, h2, h.fresh i hi]; rfl

theorem SpInv.clone (h : SpInv P t n log) (i : Nat) : SpInv (P ++ [(n, t.length)]) (t ++ [false]) (n + 1) (log ++ [.cloned i n]) where
  lt x hx := by
    rcases List.mem_append.1 hx with hx | hx
    · have := h.lt x hx; simp; omega
    · rw [List.mem_singleton] at hx; subst hx; simp
  ids := by
    rw [List.map_append]
    refine List.nodup_append.2 ⟨h.ids, by simp, ?_⟩
    rintro a ha b hb rfl
    simp only [List.map_cons, List.map_nil, List.mem_singleton] at hb
    obtain ⟨x, hx, rfl⟩ := List.mem_map.1 ha
    have := (h.lt x hx).1
    omega
  nodup := by
    rw [List.map_append]
    refine List.nodup_append.2 ⟨h.nodup, by simp, ?_⟩
    rintro a ha b hb rfl
    simp only [List.map_cons, List.map_nil, List.mem_singleton] at hb
    obtain ⟨x, hx, rfl⟩ := List.mem_map.1 ha
    have := (h.lt x hx).2
    omega
  own j k hx := by
    rw [waiting_snoc] at hx
    exact List.mem_append_left _ (h.own j k hx)
  wait x hx := by
    rw [waiting_snoc, wst_snoc]
    show wst log x.1 = .waiting ↔ (waiting log x.1).isSome
    rcases List.mem_append.1 hx with hx | hx
    · exact h.wait x hx
    · rw [List.mem_singleton] at hx; subst hx
      rw [h.fresh n (Nat.le_refl _)]
      cases hw : waiting log n with
      | none => simp
      | some k => exact absurd (h.lt _ (h.own _ _ hw)).1 (by simp)
  flag x hx := by
    rw [wst_snoc]
    show _ ↔ wst log x.1 = .woken
    rcases List.mem_append.1 hx with hx | hx
    · rw [List.getElem?_append_left (h.lt x hx).2]; exact h.flag x hx
    · rw [List.mem_singleton] at hx; subst hx
      rw [h.fresh n (Nat.le_refl _)]; simp
  fresh j hj := by
    rw [wst_snoc]
    exact h.fresh j (by omega)

theorem SpInv.drop {l r : List (Nat × Nat)} {i k : Nat} (h : SpInv (l ++ (i, k) :: r) t n log) : SpInv (l ++ r) t n (log ++ [.dropped i]) := by
  have hmem : ∀ x ∈ l ++ r, x ∈ l ++ (i, k) :: r := fun x hx => by
    rcases List.mem_append.1 hx with hx | hx
    · exact List.mem_append_left _ hx
    · exact List.mem_append_right _ (List.mem_cons_of_mem _ hx)
  have hsub : (l ++ r).Sublist (l ++ (i, k) :: r) := List.Sublist.append_left (List.sublist_cons_self _ _) _
  have hne : ∀ x ∈ l ++ r, i ≠ x.1 := by
    intro x hx hi
    have h1 := h.ids
    rw [List.map_append, List.map_cons, List.nodup_middle, ← List.map_append] at h1
    exact (List.nodup_cons.1 h1).1 (List.mem_map.2 ⟨x, hx, hi.symm⟩)
  refine ⟨fun x hx => h.lt x (hmem x hx), (hsub.map _).nodup h.ids, (hsub.map _).nodup h.nodup, ?_, ?_, ?_, ?_⟩
  · intro j k' hx
    rw [waiting_snoc] at hx
    simp only [MEv.waiting] at hx
    split at hx
    · cases hx
    · rename_i hj
      have := h.own j k' hx
      rcases List.mem_append.1 this with hh | hh
      · exact List.mem_append_left _ hh
      · rcases List.mem_cons.1 hh with hh | hh
        · cases hh; exact absurd rfl hj
        · exact List.mem_append_right _ hh
  · intro x hx
    rw [waiting_snoc, wst_snoc]
    simp only [MEv.waiting, if_neg (hne x hx)]
    exact h.wait x (hmem x hx)
  · intro x hx
    rw [wst_snoc]
    exact h.flag x (hmem x hx)
  · intro j hj
    rw [wst_snoc]
    exact h.fresh j hj

/-- the mocks that exist, with their tasks -/
def SpSt.pairs (s : SpSt Req U E) : List (Nat × Nat) := s.spawns.map (fun x => (x.inner.id, x.task))

theorem not_panicked_snoc {e : MEv Req U E} (h : ¬ Panicked (log ++ [e])) : ¬ Panicked log := fun hp => h (List.mem_append_left _ hp)

theorem SpRun.inv (h : SpRun s log) : ¬ Panicked log → SpInv s.pairs s.tasks s.w.nextId log := by
  induction h with
  | spawn => exact fun _ => ⟨(by simp [SpSt.pairs, Mock.pair, Mock.world0]), (by simp [SpSt.pairs]), (by simp [SpSt.pairs]), (by intro i k hx; cases hx), (by intro x hx; simp [wst, waiting]), (by
      intro x hx; simp [SpSt.pairs] at hx; subst hx; simp [wst]), fun i _ => rfl⟩
  | @poll s log l x l' p x' t' w' h0 hs hr ih =>
    intro hp
    obtain ⟨rfl, h1, h2⟩ := Spawn.pollReady_ok hr
    have h3 : x'.inner.id = x.inner.id ∧ w'.nextId = s.w.nextId := by
      obtain ⟨_, hc⟩ := Mock.pollReady_ok h2
      rcases hc with ⟨_, _, h4, rfl⟩ | ⟨_, _, _, _, h4, rfl⟩ | ⟨_, _, _, _, h4, rfl⟩ | ⟨_, _, _, _, _, h4, rfl⟩ | ⟨_, _, _, _, _, h4, rfl⟩ <;> rw [h4] <;> exact ⟨rfl, rfl⟩
    have hP : SpSt.pairs { s with w := w', tasks := s.tasks.set x.task false, spawns := l ++ x' :: l' } = s.pairs := by
      unfold SpSt.pairs; rw [hs]; simp [h3.1, h1]
    rw [hP]
    show SpInv s.pairs _ w'.nextId _
    rw [h3.2]
    exact (ih (not_panicked_snoc hp)).poll (by unfold SpSt.pairs; rw [hs]; simp) p
  | pollPanics _ _ _ _ => intro hp; exact absurd (List.mem_append_right _ (by simp)) hp
  | @call s log l x l' q f x' t' w' h0 hs hr ih =>
    intro hp
    obtain ⟨rfl, h1, h2⟩ := Spawn.call_ok hr
    have h3 : x'.inner.id = x.inner.id ∧ w'.nextId = s.w.nextId := by
      obtain ⟨_, hc⟩ := Mock.call_ok h2
      rcases hc with ⟨_, _, h4, rfl⟩ | ⟨_, _, h4, ⟨_, _, rfl⟩ | ⟨_, _, rfl⟩⟩ <;> rw [h4] <;> exact ⟨rfl, rfl⟩
    have hP : SpSt.pairs { s with w := w', tasks := s.tasks, spawns := l ++ x' :: l' } = s.pairs := by
      unfold SpSt.pairs; rw [hs]; simp [h3.1, h1]
    rw [hP]
    show SpInv s.pairs _ w'.nextId _
    rw [h3.2]
    exact (ih (not_panicked_snoc hp)).neutral (fun _ _ => rfl) (fun _ _ => rfl)
  | callPanics _ _ _ _ => intro hp; exact absurd (List.mem_append_right _ (by simp)) hp
  | @clone s log x x' t' w' h0 hx hr ih =>
    intro hp
    obtain ⟨rfl, h1, h2⟩ := Spawn.clone_ok hr
    obtain ⟨_, h3, rfl⟩ := Mock.clone_ok h2
    have hid : x'.inner.id = s.w.nextId := by rw [h3]
    have hP : SpSt.pairs { s with w := { s.w with nextId := s.w.nextId + 1, senders := s.w.senders + 1 }, tasks := s.tasks ++ [false], spawns := s.spawns ++ [x'] } = s.pairs ++ [(s.w.nextId, s.tasks.length)] := by
      unfold SpSt.pairs; simp [hid, h1]
    rw [hP, hid]
    exact (ih (not_panicked_snoc hp)).clone _
  | @drop s log l x l' w' h0 hs hr ih =>
    intro hp
    obtain ⟨_, rfl⟩ := Mock.drop_ok hr
    have := ih (not_panicked_snoc hp)
    have hP : s.pairs = l.map (fun x => (x.inner.id, x.task)) ++ (x.inner.id, x.task) :: l'.map (fun x => (x.inner.id, x.task)) := by
      unfold SpSt.pairs; rw [hs]; simp
    rw [hP] at this
    have h1 := this.drop
    unfold SpSt.pairs
    simpa using h1
  | @recv s log p w' h0 h1 h2 ih =>
    intro hp
    have : w'.nextId = s.w.nextId := by
      rcases Mock.pollRequest_ok h2 with ⟨_, _, _, _, rfl⟩ | ⟨_, _, _, rfl⟩ | ⟨_, _, _, rfl⟩ <;> rfl
    show SpInv s.pairs s.tasks w'.nextId _
    rw [this]
    exact (ih (not_panicked_snoc hp)).neutral (fun _ _ => rfl) (fun _ _ => rfl)
  | @allow s log n ks w' h0 h1 h2 ih =>
    intro hp
    obtain ⟨_, hc⟩ := Mock.allow_ok h2
    have hM := ((C86_is_mock h0).allow h1 h2).last rfl
    simp only [MAllowed] at hM
    rcases hc with ⟨hn, _, rfl⟩ | ⟨rfl, rfl, rfl⟩
    · refine (ih (not_panicked_snoc hp)).wake ?_ ?_ ?_
      · intro i a; simp only [MEv.waiting]; rw [if_pos hn]
      · intro i a; simp only [MEv.wst]; rw [if_pos hn]
      · intro k; rw [hM]; simp [hn]
    · exact (ih (not_panicked_snoc hp)).neutral (fun i a => by simp [MEv.waiting]) (fun i a => by simp [MEv.wst])
  | @sendError s log e ks w' h0 h1 h2 ih =>
    intro hp
    obtain ⟨_, _, rfl⟩ := Mock.sendError_ok h2
    have hM := ((C86_is_mock h0).sendError h1 h2).last rfl
    exact (ih (not_panicked_snoc hp)).wake (fun _ _ => rfl) (fun _ _ => rfl) hM
  | @dropHandle s log ks w' h0 h1 h2 ih =>
    intro hp
    obtain ⟨_, _, rfl⟩ := Mock.dropHandle_ok h2
    have hM := ((C86_is_mock h0).dropHandle h1 h2).last rfl
    exact (ih (not_panicked_snoc hp)).wake (fun _ _ => rfl) (fun _ _ => rfl) hM.1
  | dropHandlePanics _ _ _ _ => intro hp; exact absurd (List.mem_append_right _ (by simp)) hp
  | dropRx h0 h1 h2 h3 ih => intro hp; cases h3; exact (ih (not_panicked_snoc hp)).neutral (fun _ _ => rfl) (fun _ _ => rfl)
  | respond h0 h1 h2 ih => intro hp; cases h2; exact (ih (not_panicked_snoc hp)).neutral (fun _ _ => rfl) (fun _ _ => rfl)
  | dropResponse h0 h1 h2 ih => intro hp; cases h2; exact (ih (not_panicked_snoc hp)).neutral (fun _ _ => rfl) (fun _ _ => rfl)
  | @pollFut s log n p w' h0 h1 ih =>
    intro hp
    have : w'.nextId = s.w.nextId := by
      obtain ⟨_, _, _, hc⟩ := Mock.pollFut_ok h1
      rcases hc with ⟨_, _, _, rfl⟩ | ⟨_, _, _, rfl⟩ | ⟨_, _, _, rfl⟩ <;> rfl
    show SpInv s.pairs s.tasks w'.nextId _
    rw [this]
    exact (ih (not_panicked_snoc hp)).neutral (fun _ _ => rfl) (fun _ _ => rfl)
  | dropFut h0 h1 h2 ih => intro hp; cases h2; exact (ih (not_panicked_snoc hp)).neutral (fun _ _ => rfl) (fun _ _ => rfl)

theorem SpSt.mem_pairs {x : Spawn Mock} (hx : x ∈ s.spawns) : (x.inner.id, x.task) ∈ s.pairs := List.mem_map.2 ⟨x, hx, rfl⟩

/-! ## The theorems -/

/-- **C86.** `is_woken` is true exactly if the last `poll_ready` of this `Spawn` returned `Pending` and since then the test allowed a call, gave an error or dropped the `Handle`. -/
theorem C86_is_woken (h : SpRun s log) (hp : ¬ Panicked log) {x : Spawn Mock} (hx : x ∈ s.spawns) :
    x.isWoken s.tasks = true ↔ ∃ since, LastPending log x.inner.id since ∧ ∃ e ∈ since, e.Stirs := by
  rw [← (wst_spec log x.inner.id).2]
  exact (h.inv hp).flag _ (SpSt.mem_pairs hx)

/-- **C86, no lost wake-up.** If the last `poll_ready` returned `Pending` and `is_woken` is false, `poll_ready` would return `Pending` again: a task that polls only when it is woken misses nothing. -/
theorem C86_no_lost_wakeup (h : SpRun s log) (hp : ¬ Panicked log) {x : Spawn Mock} (hx : x ∈ s.spawns) {since : List (MEv Req U E)} (hl : LastPending log x.inner.id since)
    (hw : x.isWoken s.tasks = false) : ∃ x' t' w', (x.pollReady Mock.pollReady).run (s.tasks, s.w) = .ok (.pending, x') (t', w') := by
  have hi := h.inv hp
  have h1 : wst log x.inner.id = .waiting := by
    rw [(wst_spec log x.inner.id).1]
    refine ⟨since, hl, fun e he hs => ?_⟩
    rw [(C86_is_woken h hp hx).2 ⟨since, hl, e, he, hs⟩] at hw
    cases hw
  have h2 := (hi.wait _ (SpSt.mem_pairs hx)).1 h1
  obtain ⟨k, hk⟩ := Option.isSome_iff_exists.1 h2
  have hM := C86_is_mock h
  obtain ⟨a, b, c, d⟩ := C55_waits hM hk
  obtain ⟨p, m', w', hr, hall⟩ := C55_poll_ready hM (m := x.inner) (List.mem_map_of_mem hx) x.task hp
  have hpen : p = .pending := hall.2.2.2 a b c d
  subst hpen
  refine ⟨{ x with inner := m' }, s.tasks.set x.task false, w', ?_⟩
  unfold Spawn.pollReady
  rw [Act.run_bind]
  simp only [Act.run_modify]
  rw [Act.run_bind_ok (a := (.pending, m')) (w' := (s.tasks.set x.task false, w'))]
  · rfl
  · exact snd_eq_ok.2 ⟨hr, rfl⟩

/-- **C86.** The wakers of the task that the mock's state keeps (`waker_ref_count` minus one): one while the last `poll_ready` was `Pending` and the task was not woken since, else none. -/
theorem C86_wakers_held (h : SpRun s log) (hp : ¬ Panicked log) {x : Spawn Mock} (hx : x ∈ s.spawns) :
    (∃ i, (i, x.task) ∈ s.w.tasks) ↔ ∃ since, LastPending log x.inner.id since ∧ ∀ e ∈ since, ¬ e.Stirs := by
  have hi := h.inv hp
  have hM := (C86_is_mock h).minv
  rw [← (wst_spec log x.inner.id).1, hi.wait _ (SpSt.mem_pairs hx)]
  constructor
  · rintro ⟨i, hk⟩
    have hw := (hM.tasks i x.task).1 hk
    have := List.inj_on_of_nodup_map hi.nodup (hi.own _ _ hw) (SpSt.mem_pairs hx) rfl
    have : i = x.inner.id := congrArg Prod.fst this
    show (waiting log x.inner.id).isSome = true
    rw [← this, hw]; rfl
  · intro hs
    obtain ⟨k, hk⟩ := Option.isSome_iff_exists.1 hs
    have := List.inj_on_of_nodup_map hi.ids (hi.own _ _ hk) (SpSt.mem_pairs hx) rfl
    have hkx : k = x.task := congrArg Prod.snd this
    subst hkx
    exact ⟨x.inner.id, (hM.tasks _ _).2 hk⟩

/-- **C86.** A clone has a task of its own, which is not woken; the tasks of the others are left alone. -/
theorem C86_clone {σ W : Type} {f : σ → Act W σ} {x x' : Spawn σ} {t t' : List Bool} {w w' : W} (h : (x.clone f).run (t, w) = .ok x' (t', w')) :
    x'.isWoken t' = false ∧ ∀ y : Spawn σ, y.task < t.length → y.task ≠ x'.task ∧ y.isWoken t' = y.isWoken t := by
  obtain ⟨rfl, h1, _⟩ := Spawn.clone_ok h
  unfold Spawn.isWoken
  refine ⟨by rw [h1]; simp, fun y hy => ⟨by omega, ?_⟩⟩
  rw [List.getElem?_append_left hy]

/-- **C86.** `poll_ready` of any spawned service clears the flag of its own task and of no other. -/
theorem C86_clears {σ W α : Type} {f : Nat → σ → Act W (α × σ)} {x x' : Spawn σ} {p : α} {t t' : List Bool} {w w' : W} (h : (x.pollReady f).run (t, w) = .ok (p, x') (t', w')) :
    x'.isWoken t' = false ∧ ∀ y : Spawn σ, y.task ≠ x.task → y.isWoken t' = y.isWoken t := by
  obtain ⟨rfl, h1, _⟩ := Spawn.pollReady_ok h
  unfold Spawn.isWoken
  refine ⟨?_, fun y hy => ?_⟩
  · rw [h1, List.getElem?_set, if_pos rfl]; split <;> rfl
  · rw [List.getElem?_set, if_neg (Ne.symm hy)]

/-- **C86.** `Spawn` passes the calls of any service on, and its readiness. -/
theorem C86_same {σ W α φ : Type} (f : Nat → σ → Act W (α × σ)) (g : σ → Req → Act W (φ × σ)) (x : Spawn σ) (q : Req) (t : List Bool) (w : W) :
    (∀ p i w', (f x.task x.inner).run w = .ok (p, i) w' ↔ ∃ t', (x.pollReady f).run (t, w) = .ok (p, ⟨i, x.task⟩) (t', w')) ∧
    (∀ p i w', (g x.inner q).run w = .ok (p, i) w' ↔ (x.call g q).run (t, w) = .ok (p, ⟨i, x.task⟩) (t, w')) := by
  constructor
  · intro p i w'
    constructor
    · intro h
      refine ⟨t.set x.task false, ?_⟩
      unfold Spawn.pollReady
      rw [Act.run_bind]
      simp only [Act.run_modify]
      rw [Act.run_bind_ok (a := (p, i)) (w' := (t.set x.task false, w'))]
      · rfl
      · exact snd_eq_ok.2 ⟨h, rfl⟩
    · rintro ⟨t', h⟩
      exact (Spawn.pollReady_ok h).2.2
  · intro p i w'
    constructor
    · intro h
      unfold Spawn.call
      rw [Act.run_bind_ok (a := (p, i)) (w' := (t, w'))]
      · rfl
      · exact snd_eq_ok.2 ⟨h, rfl⟩
    · intro h
      exact (Spawn.call_ok h).2.2

/-! ## A concrete case -/

namespace Demo86

/-- nothing is allowed; the mock is polled; it is cloned and the clone polled; one call is allowed; the mock is polled again and called -/
def log1 : List (MEv Nat Nat String) := [.allow 0 [], .poll 0 0 .pending, .cloned 0 1, .poll 1 1 .pending]
def log2 : List (MEv Nat Nat String) := log1 ++ [.allow 1 [0, 1]]
def log3 : List (MEv Nat Nat String) := log2 ++ [.poll 0 0 (.ready (.ok ())), .called 0 7 (some 0)]

def w1 : MockW Nat Nat String := { Mock.world0 with rem := 0, tasks := [(0, 0), (1, 1)], nextId := 2, senders := 2 }
def s1 : SpSt Nat Nat String := ⟨w1, [false, false], [⟨⟨0, false⟩, 0⟩, ⟨⟨1, false⟩, 1⟩], true, []⟩
def s2 : SpSt Nat Nat String := { s1 with w := { w1 with rem := 1, tasks := [] }, tasks := [true, true] }
def s3 : SpSt Nat Nat String := { s2 with w := { w1 with rem := 0, tasks := [], slots := [⟨none, true, true⟩], queue := [(0, 7)] }, tasks := [false, true] }

theorem h1 : SpRun s1 log1 := by
  have r0 : SpRun (Req := Nat) (U := Nat) (E := String) _ _ := SpRun.spawn
  have r1 := r0.allow (n := 0) rfl rfl
  have r2 := r1.poll (l := []) rfl rfl
  have r3 := r2.clone (x := ⟨Mock.pair, 0⟩) (by simp [Mock.pair]) rfl
  exact r3.poll (l := [_]) rfl rfl

theorem h2 : SpRun s2 log2 := h1.allow (n := 1) rfl rfl

theorem h3 : SpRun s3 log3 := by
  have r := h2.poll (l := []) rfl rfl
  exact r.call (l := []) (q := 7) rfl rfl

/-- not woken, then woken; the clone stays woken after the other mock took the only call, and polls in vain: a wake-up is not a promise -/
example : (Spawn.mk (Mock.mk 1 false) 1).isWoken s1.tasks = false ∧ (Spawn.mk (Mock.mk 1 false) 1).isWoken s2.tasks = true ∧ (Spawn.mk (Mock.mk 1 false) 1).isWoken s3.tasks = true ∧
    ∃ x' t' w', ((Spawn.mk (Mock.mk 1 false) 1).pollReady Mock.pollReady).run (s3.tasks, s3.w) = .ok (.pending, x') (t', w') := ⟨rfl, rfl, rfl, _, _, _, rfl⟩

example : ∃ since, LastPending log2 0 since ∧ ∃ e ∈ since, e.Stirs :=
  (C86_is_woken h2 (by simp [Panicked, log2, log1]) (x := ⟨⟨0, false⟩, 0⟩) (by simp [s2, s1])).1 rfl

example : ∃ x' t' w', ((Spawn.mk (Mock.mk 1 false) 1).pollReady Mock.pollReady).run (s1.tasks, s1.w) = .ok (.pending, x') (t', w') :=
  C86_no_lost_wakeup h1 (by simp [Panicked, log1]) (by simp [s1]) (since := []) ⟨[.allow 0 [], .poll 0 0 .pending, .cloned 0 1], 1, rfl, by simp⟩ rfl

end Demo86
end Tower
