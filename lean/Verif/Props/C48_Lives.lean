import Verif.Props.C48_CallAll

/-!
# C48, C49: what the log of a `CallAll` is a log of

`C48_legal` says which questions may be asked and when. Here: they are asked of the service and the stream that were given, and of the futures of the calls,
and each question is asked of the state the question before it left.
-/

namespace Tower
set_option linter.unusedSectionVars false
variable {W Req Res Err : Type} {S : Service W Req Res Err} {R : ReqStream W Req}

/-- The log is one life of the stream `r0`, of the service `s0` and of the futures its calls gave: with the states of the service, of the stream and of the futures (number `n` is of call `n`) at the end. The world may be any at each event. -/
inductive CALives (S : Service W Req Res Err) (R : ReqStream W Req) (s0 : S.σ) (r0 : R.τ) : List (CAEv Req Res Err) → S.σ → R.τ → List S.φ → Prop
  | start : CALives S R s0 r0 [] s0 r0 []
  | pulled {log s r fs w p r' w'} : CALives S R s0 r0 log s r fs → (R.poll r).run w = .ok (p, r') w' → CALives S R s0 r0 (log ++ [.pulled p]) s r' fs
  | ready {log s r fs w p s' w'} : CALives S R s0 r0 log s r fs → (S.pollReady s).run w = .ok (p, s') w' → CALives S R s0 r0 (log ++ [.ready p]) s' r fs
  | called {log s r fs w q f s' w'} : CALives S R s0 r0 log s r fs → (S.call s q).run w = .ok (f, s') w' → CALives S R s0 r0 (log ++ [.called q]) s' r (fs ++ [f])
  | polled {log s r fs w n f p f' w'} : CALives S R s0 r0 log s r fs → fs[n]? = some f → (S.poll f).run w = .ok (p, f') w' → CALives S R s0 r0 (log ++ [.polled n p]) s r (fs.set n f')

variable {s0 : S.σ} {r0 : R.τ} {log : List (CAEv Req Res Err)} {items : List (Except Err Res)} {b : Bool}

theorem CALives.length {s r fs} (h : CALives S R s0 r0 log s r fs) : fs.length = (calledReqs log).length := by
  induction h with
  | start => rfl
  | pulled _ _ ih => rw [calledReqs_append]; simpa [calledReqs] using ih
  | ready _ _ ih => rw [calledReqs_append]; simpa [calledReqs] using ih
  | called _ _ ih => rw [calledReqs_append]; simpa [calledReqs] using ih
  | polled _ _ _ ih => rw [calledReqs_append]; simpa [calledReqs] using ih

/-- the futures of a queue are those of the life, each once -/
structure Holds (q : List (Nat × S.φ)) (fs : List S.φ) : Prop where
  nodup : (q.map Prod.fst).Nodup
  val : ∀ x ∈ q, fs[x.1]? = some x.2

theorem Holds.nil {fs : List S.φ} : Holds (S := S) [] fs := ⟨by simp, by simp⟩

theorem Holds.push {q : List (Nat × S.φ)} {fs : List S.φ} (h : Holds q fs) (f : S.φ) : Holds (q ++ [(fs.length, f)]) (fs ++ [f]) := by
  have hl : ∀ x ∈ q, x.1 < fs.length := fun x hx => (List.getElem?_eq_some_iff.1 (h.val x hx)).1
  refine ⟨?_, ?_⟩
  · rw [List.map_append, List.nodup_append]
    refine ⟨h.nodup, by simp, ?_⟩
    intro a ha c hc
    obtain ⟨x, hx, rfl⟩ := List.mem_map.1 ha
    simp only [List.map_cons, List.map_nil, List.mem_singleton] at hc
    have := hl x hx; omega
  · intro x hx
    rcases List.mem_append.1 hx with hx | hx
    · rw [List.getElem?_append_left (hl x hx)]; exact h.val x hx
    · rw [List.mem_singleton] at hx; subst hx; simp

theorem Holds.erase {q : List (Nat × S.φ)} {fs : List S.φ} (h : Holds q fs) {i : Nat} {x : Nat × S.φ} (hx : q[i]? = some x) (f' : S.φ) : Holds (q.eraseIdx i) (fs.set x.1 f') := by
  have hp := perm_eraseIdx hx
  have hn : (x.1 :: (q.eraseIdx i).map Prod.fst).Nodup := (hp.map Prod.fst).nodup_iff.1 h.nodup
  refine ⟨(List.nodup_cons.1 hn).2, fun y hy => ?_⟩
  have hne : x.1 ≠ y.1 := fun he => (List.nodup_cons.1 hn).1 (he ▸ List.mem_map_of_mem hy)
  rw [List.getElem?_set_ne hne]
  exact h.val y (hp.mem_iff.2 (List.mem_cons_of_mem _ hy))

theorem Holds.set {q : List (Nat × S.φ)} {fs : List S.φ} (h : Holds q fs) {i : Nat} {x : Nat × S.φ} (hx : q[i]? = some x) (f' : S.φ) : Holds (q.set i (x.1, f')) (fs.set x.1 f') := by
  have hlt := (List.getElem?_eq_some_iff.1 hx).1
  have hxq := (List.getElem?_eq_some_iff.1 hx).2
  have hfl := (List.getElem?_eq_some_iff.1 (h.val x (List.mem_of_getElem? hx))).1
  refine ⟨?_, ?_⟩
  · have : (q.set i (x.1, f')).map Prod.fst = q.map Prod.fst := by
      rw [List.map_set]
      apply List.ext_getElem?
      intro j
      by_cases hj : i = j
      · subst hj; rw [List.getElem?_set_self (by simpa using hlt), List.getElem?_map, hx]; rfl
      · rw [List.getElem?_set_ne hj]
    rw [this]; exact h.nodup
  · intro y hy
    obtain ⟨j, hj⟩ := List.mem_iff_getElem?.1 hy
    by_cases hij : i = j
    · subst hij
      rw [List.getElem?_set_self hlt] at hj
      cases hj
      exact List.getElem?_set_self hfl
    · rw [List.getElem?_set_ne hij] at hj
      have hne : x.1 ≠ y.1 := by
        intro he
        have h1 : (q.map Prod.fst)[i]? = some x.1 := by rw [List.getElem?_map, hx]; rfl
        have h2 : (q.map Prod.fst)[j]? = some x.1 := by rw [List.getElem?_map, hj, he]; rfl
        have := (List.nodup_iff_injective_getElem.1 h.nodup)
        obtain ⟨a1, a2⟩ := List.getElem?_eq_some_iff.1 h1
        obtain ⟨b1, b2⟩ := List.getElem?_eq_some_iff.1 h2
        have := @this ⟨i, a1⟩ ⟨j, b1⟩ (by simp only [a2, b2])
        exact hij (by simpa using this)
      rw [List.getElem?_set_ne hne]
      exact h.val y (List.mem_of_getElem? hj)

/-- polling of futures seen as recorded futures -/
theorem pollSome_lives {ψ β : Type} {poll : ψ → Act (List (CAEv Req Res Err) × W) (Poll β × ψ)} (view : ψ → Nat × S.φ)
    (hp : ∀ {x x' : ψ} {r log log' w w'}, (poll x).run (log, w) = .ok (r, x') (log', w') →
      (view x').1 = (view x).1 ∧ ∃ p, log' = log ++ [.polled (view x).1 p] ∧ (S.poll (view x).2).run w = .ok (p, (view x').2) w') :
    ∀ (o : List Nat) (q : List ψ) (log : List (CAEv Req Res Err)) (w : W) {s r0' fs r q' log' w'}, CALives S R s0 r0 log s r0' fs → Holds (q.map view) fs →
      (pollSome poll o q).run (log, w) = .ok (r, q') (log', w') → ∃ fs', CALives S R s0 r0 log' s r0' fs' ∧ Holds (q'.map view) fs' := by
  intro o
  induction o with
  | nil =>
    intro q log w s r0' fs r q' log' w' hl hq h
    cases q with
    | nil => cases h; exact ⟨fs, hl, hq⟩
    | cons x q => cases h; exact ⟨fs, hl, hq⟩
  | cons i o ih =>
    intro q log w s r0' fs r q' log' w' hl hq h
    cases q with
    | nil => cases h; exact ⟨fs, hl, hq⟩
    | cons x0 q0 =>
      generalize hqe : x0 :: q0 = q at *
      have hne : q ≠ [] := by rw [← hqe]; simp
      rw [pollSome.eq_3 _ _ _ _ hne] at h
      cases hx : q[i]? with
      | none => rw [hx] at h; exact ih q log w hl hq h
      | some x =>
        rw [hx] at h
        simp only at h
        obtain ⟨⟨r1, x'⟩, ⟨l1, w1⟩, h1, h2⟩ := Act.run_bind_eq_ok.1 h
        obtain ⟨hk, p, rfl, hpoll⟩ := hp h1
        have hvi : (q.map view)[i]? = some (view x) := by rw [List.getElem?_map, hx]; rfl
        have hl' := CALives.polled hl (hq.val _ (List.mem_of_getElem? hvi)) hpoll
        cases r1 with
        | pending =>
          refine ih (q.set i x') _ w1 hl' ?_ h2
          rw [List.map_set, show view x' = ((view x).1, (view x').2) from by rw [← hk]]
          exact hq.set hvi _
        | ready v =>
          cases h2
          refine ⟨_, hl', ?_⟩
          rw [← List.eraseIdx_map]
          exact hq.erase hvi _

/-- What is used of a queue here: the recorded futures it holds. -/
structure QLives (S : Service W Req Res Err) (D : DriveQ (List (CAEv Req Res Err) × W) (Nat × S.φ) (Except Err Res)) where
  futs : D.Q → List (Nat × S.φ)
  empty : futs D.empty = []
  push : ∀ q x, futs (D.push q x) = futs q ++ [x]
  poll : ∀ {R : ReqStream W Req} {s0 : S.σ} {r0 : R.τ} {q log s r fs p q' w log' w'}, CALives S R s0 r0 log s r fs → Holds (futs q) fs → (D.poll q).run (log, w) = .ok (p, q') (log', w') →
    ∃ fs', CALives S R s0 r0 log' s r fs' ∧ Holds (futs q') fs'

variable {V : Sched W}

def unorderedLives (V : Sched W) (S : Service W Req Res Err) : QLives S (unordQ V S) where
  futs q := q
  empty := rfl
  push _ _ := rfl
  poll {R s0 r0 q log s r fs p q' w log' w'} hl hq h := by
    obtain ⟨o, ⟨l1, w1⟩, h1, h2⟩ := Act.run_bind_eq_ok.1 h
    have e1 : l1 = log := by cases h1; rfl
    subst e1
    have := pollSome_lives (S := S) (R := R) (s0 := s0) (r0 := r0) (poll := (recS S).poll) (fun x => x)
      (fun {x x' r log log' w w'} h => by obtain ⟨a, b, c⟩ := recPoll h; exact ⟨b, r, a, c⟩) o q l1 w1 hl (by simpa using hq) h2
    simpa using this

theorem pollIdx_lives {x x' : Nat × (Nat × S.φ)} {r} {log log' : List (CAEv Req Res Err)} {w w' : W} (h : (pollIdx (recS S).poll x).run (log, w) = .ok (r, x') (log', w')) :
    x'.2.1 = x.2.1 ∧ ∃ p, log' = log ++ [.polled x.2.1 p] ∧ (S.poll x.2.2).run w = .ok (p, x'.2.2) w' := by
  obtain ⟨⟨p1, f1⟩, ⟨l1, w1⟩, h1, h2⟩ := Act.run_bind_eq_ok.1 h
  cases h2
  obtain ⟨a, b, c⟩ := recPoll h1
  exact ⟨b, p1, a, c⟩

theorem ordLoop_lives (V : Sched W) : ∀ (m : Nat) {q : OrdQ (Nat × S.φ) (Except Err Res)} {log : List (CAEv Req Res Err)} {s r fs p q' w log' w'}, CALives S R s0 r0 log s r fs → Holds (q.run.map Prod.snd) fs →
    (OrdQ.loop (V.snd (A := List (CAEv Req Res Err))) (recS S).poll m q).run (log, w) = .ok (p, q') (log', w') → ∃ fs', CALives S R s0 r0 log' s r fs' ∧ Holds (q'.run.map Prod.snd) fs' := by
  intro m
  induction m with
  | zero => intro q log s r fs p q' w log' w' _ _ h; cases h
  | succ m ih =>
    intro q log s r fs p q' w log' w' hl hq h
    obtain ⟨o, ⟨l1, w1⟩, h1, h2⟩ := Act.run_bind_eq_ok.1 h
    have e1 : l1 = log := by cases h1; rfl
    subst e1
    obtain ⟨⟨p2, rn⟩, ⟨l2, w2⟩, h3, h4⟩ := Act.run_bind_eq_ok.1 h2
    obtain ⟨fs', a1, a2⟩ := pollSome_lives (S := S) (R := R) (s0 := s0) (r0 := r0) (poll := pollIdx (recS S).poll) Prod.snd (fun h => pollIdx_lives h) o q.run l1 w1 hl hq h3
    rcases p2 with _ | (_ | ⟨i, v⟩)
    · cases h4; exact ⟨fs', a1, a2⟩
    · cases h4; exact ⟨fs', a1, a2⟩
    · simp only at h4
      split at h4
      · cases h4; exact ⟨fs', a1, a2⟩
      · exact ih (q := { q with run := rn, done := q.done ++ [(i, v)] }) a1 a2 h4

def orderedLives (V : Sched W) (S : Service W Req Res Err) : QLives S (ordQ V S) where
  futs q := q.run.map Prod.snd
  empty := rfl
  push q x := by simp
  poll {R s0 r0 q log s r fs p q' w log' w'} hl hq h := by
    dsimp only at h
    split at h
    · cases h; exact ⟨fs, hl, hq⟩
    · exact ordLoop_lives V _ hl hq h

/-- the parts of a `CallAll` are those of the life -/
structure CALiveInv {D : DriveQ (List (CAEv Req Res Err) × W) (Nat × S.φ) (Except Err Res)} (L : QLives S D) (c : CallAll (recS S) (recR Res Err R) D) (s : S.σ) (r : R.τ) (fs : List S.φ) : Prop where
  service : ∀ s', c.service = some s' → s' = s
  stream : c.stream = r
  queue : Holds (L.futs c.queue) fs

theorem pollNext_lives {D : DriveQ (List (CAEv Req Res Err) × W) (Nat × S.φ) (Except Err Res)} (L : QLives S D) : ∀ (n : Nat) {c c' : CallAll (recS S) (recR Res Err R) D} {log : List (CAEv Req Res Err)} {s r fs w p log' w'},
    CALives S R s0 r0 log s r fs → CALiveInv L c s r fs → (CallAll.pollNext n c).run (log, w) = .ok (p, c') (log', w') →
    (∃ s' r' fs', CALives S R s0 r0 log' s' r' fs' ∧ CALiveInv L c' s' r' fs') ∧ (c'.service = none ↔ c.service = none) := by
  intro n
  induction n with
  | zero => intro c c' log s r fs w p log' w' _ _ h; cases h
  | succ n ih =>
    intro c c' log s r fs w p log' w' hl hi h
    obtain ⟨⟨p1, q⟩, ⟨l1, w1⟩, h1, h2⟩ := Act.run_bind_eq_ok.1 h
    obtain ⟨fs1, hl1, hq1⟩ := L.poll hl hi.queue h1
    have issue : ∀ {c1 : CallAll (recS S) (recR Res Err R) D} {l w s r fs}, (c1.service = none ↔ c.service = none) → CALives S R s0 r0 l s r fs → CALiveInv L c1 s r fs →
        (CallAll.issue (CallAll.pollNext n) c1).run (l, w) = .ok (p, c') (log', w') →
        (∃ s' r' fs', CALives S R s0 r0 log' s' r' fs' ∧ CALiveInv L c' s' r' fs') ∧ (c'.service = none ↔ c.service = none) := by
      intro c1 l w s r fs hc hl hi h
      unfold CallAll.issue at h
      split at h
      · cases h
      · rename_i s1 hs1
        have hne : ¬ (c.service = none) := fun hh => by rw [hc.2 hh] at hs1; cases hs1
        have := hi.service _ hs1
        subst this
        obtain ⟨⟨p2, s2⟩, ⟨l2, w2⟩, h3, h4⟩ := Act.run_bind_eq_ok.1 h
        obtain ⟨rfl, h5⟩ := recReady h3
        have hl2 := hl.ready h5
        rcases p2 with _ | (e | _)
        · cases h4
          exact ⟨⟨_, _, _, hl2, fun s' h => by cases h; rfl, hi.stream, hi.queue⟩, by simp [hne]⟩
        · cases h4
          exact ⟨⟨_, _, _, hl2, fun s' h => by cases h; rfl, hi.stream, hi.queue⟩, by simp [hne]⟩
        · simp only at h4
          split at h4
          · cases h4
          · obtain ⟨⟨⟨k, f⟩, s3⟩, ⟨l3, w3⟩, h6, h7⟩ := Act.run_bind_eq_ok.1 h4
            obtain ⟨rfl, hk, h8⟩ := recCall h6
            have hl3 := hl2.called h8
            simp only at hk
            rw [← hl2.length] at hk
            subst hk
            have := ih hl3 (c := { c1 with service := some s3, queue := D.push c1.queue (fs.length, f), curr := none })
              ⟨fun s' h => by cases h; rfl, hi.stream, by rw [L.push]; exact hi.queue.push f⟩ h7
            exact ⟨this.1, by rw [this.2]; simp [hne]⟩
    have key : (CallAll.fetch (CallAll.pollNext n) { c with queue := q }).run (l1, w1) = .ok (p, c') (log', w') →
        (∃ s' r' fs', CALives S R s0 r0 log' s' r' fs' ∧ CALiveInv L c' s' r' fs') ∧ (c'.service = none ↔ c.service = none) := by
      intro hf
      unfold CallAll.fetch at hf
      split at hf
      · split at hf <;> (cases hf; exact ⟨⟨_, _, _, hl1, hi.service, hi.stream, hq1⟩, Iff.rfl⟩)
      · split at hf
        · exact issue (c1 := { c with queue := q }) Iff.rfl hl1 ⟨hi.service, hi.stream, hq1⟩ hf
        · obtain ⟨⟨p2, r'⟩, ⟨l2, w2⟩, h3, h4⟩ := Act.run_bind_eq_ok.1 hf
          obtain ⟨rfl, h5⟩ := recPull h3
          dsimp only at h5
          rw [hi.stream] at h5
          have hl2 := hl1.pulled h5
          rcases p2 with _ | (_ | rq)
          · cases h4; exact ⟨⟨_, _, _, hl2, hi.service, rfl, hq1⟩, Iff.rfl⟩
          · exact ih (c := { c with queue := q, stream := r', eof := true }) hl2 ⟨hi.service, rfl, hq1⟩ h4
          · exact issue (c1 := { c with queue := q, stream := r', curr := some rq }) Iff.rfl hl2 ⟨hi.service, rfl, hq1⟩ h4
    rcases p1 with _ | (_ | (e | v))
    · exact key h2
    · exact key h2
    · cases h2; exact ⟨⟨_, _, _, hl1, hi.service, hi.stream, hq1⟩, Iff.rfl⟩
    · cases h2; exact ⟨⟨_, _, _, hl1, hi.service, hi.stream, hq1⟩, Iff.rfl⟩

theorem CARun.lives {D : DriveQ (List (CAEv Req Res Err) × W) (Nat × S.φ) (Except Err Res)} (L : QLives S D) {c : CallAll (recS S) (recR Res Err R) D} (h : CARun D s0 r0 c log items b) :
    ∃ s r fs, CALives S R s0 r0 log s r fs ∧ CALiveInv L c s r fs := by
  induction h with
  | new => exact ⟨_, _, _, .start, fun s' h => by cases h; rfl, rfl, by show Holds (L.futs D.empty) []; rw [L.empty]; exact Holds.nil⟩
  | poll _ hp ih =>
    obtain ⟨s, r, fs, hl, hi⟩ := ih
    exact (pollNext_lives L _ hl hi hp).1
  | take _ ht ih =>
    obtain ⟨s, r, fs, hl, hi⟩ := ih
    unfold CallAll.takeService at ht
    split at ht
    · cases ht
    · cases ht; exact ⟨s, r, fs, hl, ⟨fun s' h => (by cases h), hi.stream, hi.queue⟩⟩

theorem take_lives {D : DriveQ (List (CAEv Req Res Err) × W) (Nat × S.φ) (Except Err Res)} (L : QLives S D) {c : CallAll (recS S) (recR Res Err R) D} (h : CARun D s0 r0 c log items b) :
    (∃ s r fs, CALives S R s0 r0 log s r fs) ∧ ∀ s c' w, c.takeService.run (log, w) = .ok (s, c') (log, w) → ∃ r fs, CALives S R s0 r0 log s r fs := by
  obtain ⟨s, r, fs, hl, hi⟩ := h.lives L
  refine ⟨⟨s, r, fs, hl⟩, fun s1 c' w ht => ?_⟩
  unfold CallAll.takeService at ht
  split at ht
  · cases ht
  · rename_i s2 hs
    have := hi.service _ hs
    cases ht; subst this
    exact ⟨r, fs, hl⟩

theorem later_lives {D : DriveQ (List (CAEv Req Res Err) × W) (Nat × S.φ) (Except Err Res)} (L : QLives S D) {c : CallAll (recS S) (recR Res Err R) D} (h : CALater (CallAll.new s0 r0) [] c log) (w : W) :
    ∃ s c', c.takeService.run (log, w) = .ok (s, c') (log, w) := by
  have : c.service ≠ none ∧ ∃ items b, CARun D s0 r0 c log items b := by
    induction h with
    | here => exact ⟨by simp [CallAll.new], _, _, .new⟩
    | poll _ hp ih =>
      obtain ⟨a, _, _, hr⟩ := ih
      obtain ⟨s, r, fs, hl, hi⟩ := hr.lives L
      exact ⟨fun hh => a ((pollNext_lives L _ hl hi hp).2.1 hh), _, _, hr.poll hp⟩
  unfold CallAll.takeService
  cases hs : c.service with
  | none => exact absurd hs this.1
  | some s => exact ⟨s, { c with service := none }, rfl⟩

/-- **C48.** Whatever is done with a `CallAll`, all that it asked, it asked of the stream and the service it was made of, and of the futures of the calls it made, and always in the state the last question left them in: its log is one life of them (`CALives`).
The service that is taken out is in the state this life left it in. -/
theorem C48_lives {c : CallAll (recS S) (recR Res Err R) (ordQ V S)} (h : CARun (ordQ V S) s0 r0 c log items b) :
    (∃ s r fs, CALives S R s0 r0 log s r fs) ∧ ∀ s c' w, c.takeService.run (log, w) = .ok (s, c') (log, w) → ∃ r fs, CALives S R s0 r0 log s r fs :=
  take_lives (orderedLives V S) h

/-- **C48.** The service can be taken out at any moment, also after it failed or when the stream has ended, as long as it was not taken. -/
theorem C48_take {c : CallAll (recS S) (recR Res Err R) (ordQ V S)} (h : CALater (CallAll.new s0 r0) [] c log) (w : W) : ∃ s c', c.takeService.run (log, w) = .ok (s, c') (log, w) :=
  later_lives (orderedLives V S) h w

/-- **C49.** The same for `CallAllUnordered`. -/
theorem C49_lives {c : CallAll (recS S) (recR Res Err R) (unordQ V S)} (h : CARun (unordQ V S) s0 r0 c log items b) :
    (∃ s r fs, CALives S R s0 r0 log s r fs) ∧ ∀ s c' w, c.takeService.run (log, w) = .ok (s, c') (log, w) → ∃ r fs, CALives S R s0 r0 log s r fs :=
  take_lives (unorderedLives V S) h

/-- **C49.** The same for `CallAllUnordered`. -/
theorem C49_take {c : CallAll (recS S) (recR Res Err R) (unordQ V S)} (h : CALater (CallAll.new s0 r0) [] c log) (w : W) : ∃ s c', c.takeService.run (log, w) = .ok (s, c') (log, w) :=
  later_lives (unorderedLives V S) h w

namespace CallAllDemo

/-- one answer is still out and the service has failed; it can be taken, and its script is at an end -/
example : ∃ c log, CARun (S := svc) (R := reqs) (ordQ inTurn svc) [.ready (.ok ()), .ready (.error "down")] [5, 10, 25] c log [.error "down"] false ∧ calledReqs log = [5] ∧ responses log = [] ∧
    ∃ c', c.takeService.run (log, 7) = .ok ([], c') (log, 7) ∧ ∃ r fs, CALives svc reqs [.ready (.ok ()), .ready (.error "down")] [5, 10, 25] log [] r fs :=
  have h : CARun (S := svc) (R := reqs) (ordQ inTurn svc) [.ready (.ok ()), .ready (.error "down")] [5, 10, 25] _ _ [.error "down"] false := runs_sound [0] CARun.new (by rfl)
  ⟨_, _, h, rfl, rfl, _, rfl, (C48_lives h).2 _ _ 7 rfl⟩

end CallAllDemo
end Tower
