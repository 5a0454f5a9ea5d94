import Verif.Props.C01_Contract
import Verif.Spec.Trace

/-! # C45: Steer waits for all services and routes by its picker -/

set_option linter.unusedSimpArgs false

namespace Tower
open Act
variable {W Req Res Err : Type}

/-- All histories of a (never cloned) Steer: any sequence of `poll_ready` (also after it has failed) and `call`, in any
worlds, from a Steer over the services `ss`. -/
inductive SteerHist (T : Service W Req Res Err) (pick : Req → List T.σ → W → Nat × W) (ss : List T.σ) :
    SteerState T.σ → Prop
  | new : SteerHist T pick ss (Steer.new ss)
  | ready {x x' : SteerState T.σ} {w w' p} : SteerHist T pick ss x →
      ((Steer T pick).pollReady x).run w = .ok (p, x') w' → SteerHist T pick ss x'
  | call {x x' : SteerState T.σ} {r w w' f} : SteerHist T pick ss x →
      ((Steer T pick).call x r).run w = .ok (f, x') w' → SteerHist T pick ss x'

/-- A service that notes whether it is ready: whether its last `poll_ready` returned `Ready(Ok)` and it was not called since. -/
@[reducible] def Noted (S : Service W Req Res Err) : Service W Req Res Err where
  σ := S.σ × Bool
  φ := S.φ
  pollReady s := do
    let (p, s') ← S.pollReady s.1
    match p with
    | .ready (.ok ()) => pure (.ready (.ok ()), (s', true))
    | .ready (.error e) => pure (.ready (.error e), (s', false))
    | .pending => pure (.pending, (s', false))
  call s r := do
    let (f, s') ← S.call s.1 r
    pure (f, (s', false))
  poll := S.poll
  clone s := (S.clone s.1, false)

/-- the services that are ready are those that are not queued for polling -/
def SteerOk {α : Type} (services : List (α × Bool)) (notReady : List Nat) : Prop :=
  ∀ i s, services[i]? = some s → (s.2 = true ↔ i ∉ notReady)

theorem Noted.ready {S : Service W Req Res Err} {s s' w w' p} (h : ((Noted S).pollReady s).run w = .ok (p, s') w') : s'.2 = true ↔ p = .ready (.ok ()) := by
  obtain ⟨⟨q, t⟩, w1, -, h2⟩ := run_bind_eq_ok.1 h
  match q, h2 with
  | .pending, h2 => cases h2; simp
  | .ready (.error e), h2 => cases h2; simp
  | .ready (.ok ()), h2 => cases h2; simp

theorem steerPoll_ok (S : Service W Req Res Err) (nr : List Nat) (hn : nr.Nodup)
    (ss : List (Noted S).σ) (w w' : W) (p : Poll (Except Err Unit)) (x' : SteerState (Noted S).σ) (h0 : SteerOk ss nr)
    (h : (steerPoll (Noted S) ss nr).run w = .ok (p, x') w') :
    SteerOk x'.services x'.notReady ∧ x'.notReady.Nodup ∧ (p = .ready (.ok ()) ↔ x'.notReady = []) ∧ ∀ (i : Nat) (s : S.σ × Bool), ss[i]? = some s → s.2 = true → x'.services[i]? = some s := by
  induction nr generalizing ss w with
  | nil =>
    simp only [steerPoll, run_pure] at h
    cases h
    exact ⟨h0, hn, by simp, fun _ _ h _ => h⟩
  | cons i rest ih =>
    simp only [steerPoll] at h
    cases hs : ss[i]? with
    | none => simp [hs] at h
    | some s =>
      simp only [hs] at h
      obtain ⟨⟨q, s'⟩, w1, hr, h⟩ := run_bind_eq_ok.1 h
      have hi : i < ss.length := (List.getElem?_eq_some_iff.mp hs).1
      have hsf : ¬ s.2 = true := fun hh => (h0 i s hs).1 hh (by simp)
      have hsr := Noted.ready hr
      have stop : q ≠ .ready (.ok ()) → SteerOk (ss.set i s') (i :: rest) ∧ ∀ (j : Nat) (t : S.σ × Bool), ss[j]? = some t → t.2 = true → (ss.set i s')[j]? = some t := by
        intro hq
        refine ⟨?_, ?_⟩
        · intro j t hj
          by_cases hij : i = j
          · subst hij
            rw [List.getElem?_set_self hi] at hj
            cases hj
            exact ⟨fun hh => absurd (hsr.1 hh) hq, fun hh => absurd (by simp) hh⟩
          · rw [List.getElem?_set_ne hij] at hj
            exact h0 j t hj
        · intro j t hj ht
          have hij : i ≠ j := by rintro rfl; rw [hs] at hj; cases hj; exact hsf ht
          rw [List.getElem?_set_ne hij]; exact hj
      match q with
      | .pending =>
        cases h
        exact ⟨(stop (by simp)).1, hn, by simp, (stop (by simp)).2⟩
      | .ready (.error e) =>
        cases h
        exact ⟨(stop (by simp)).1, hn, by simp, (stop (by simp)).2⟩
      | .ready (.ok ()) =>
        obtain ⟨hn1, hn2⟩ := List.nodup_cons.1 hn
        have key : SteerOk (ss.set i s') rest := by
          intro j t hj
          by_cases hij : i = j
          · subst hij
            rw [List.getElem?_set_self hi] at hj
            cases hj
            exact ⟨fun _ => hn1, fun _ => hsr.2 rfl⟩
          · rw [List.getElem?_set_ne hij] at hj
            rw [h0 j t hj]
            simp [Ne.symm hij]
        obtain ⟨r1, r2, r3, r4⟩ := ih hn2 (ss.set i s') w1 key h
        refine ⟨r1, r2, r3, fun j t hj ht => r4 j t ?_ ht⟩
        have hij : i ≠ j := by rintro rfl; rw [hs] at hj; cases hj; exact hsf ht
        rw [List.getElem?_set_ne hij]; exact hj

/-- what a call that does not panic does -/
theorem steerCall_ok {T : Service W Req Res Err} {pick : Req → List T.σ → W → Nat × W} {x x' : SteerState T.σ} {r w w' f} (h : ((Steer T pick).call x r).run w = .ok (f, x') w') :
    x.notReady = [] ∧ ∃ c c', x.services[(pick r x.services w).1]? = some c ∧ (T.call c r).run (pick r x.services w).2 = .ok (f, c') w' ∧
      x' = ⟨x.services.set (pick r x.services w).1 c', [(pick r x.services w).1]⟩ := by
  simp only [Steer] at h
  split at h
  · rename_i he
    have he : x.notReady = [] := by simpa using he
    simp only [run_bind, run_lift] at h
    generalize (pick r x.services w).1 = i at h ⊢
    generalize (pick r x.services w).2 = w1 at h ⊢
    cases hs : x.services[i]? with
    | none => simp [hs] at h
    | some c =>
      simp only [hs] at h
      obtain ⟨⟨g, c'⟩, w2, hc, h⟩ := run_bind_eq_ok.1 h
      cases h
      exact ⟨he, c, c', rfl, hc, by rw [he]; rfl⟩
  · simp at h

theorem SteerHist.ok {S : Service W Req Res Err} {pick : Req → List (Noted S).σ → W → Nat × W} {ss : List S.σ}
    {x : SteerState (Noted S).σ} (h : SteerHist (Noted S) pick (ss.map (·, false)) x) : SteerOk x.services x.notReady ∧ x.notReady.Nodup := by
  induction h with
  | new =>
    refine ⟨?_, List.nodup_range⟩
    intro i s hi
    have h1 : i < (ss.map (·, false)).length := (List.getElem?_eq_some_iff.mp hi).1
    have h2 : s.2 = false := by
      have := List.mem_of_getElem? hi
      obtain ⟨a, -, rfl⟩ := List.mem_map.1 this
      rfl
    rw [h2]
    exact ⟨by simp, fun hh => absurd (List.mem_range.mpr h1) hh⟩
  | ready _ h ih =>
    obtain ⟨a, b, -⟩ := steerPoll_ok S _ ih.2 _ _ _ _ _ ih.1 h
    exact ⟨a, b⟩
  | @call x x' r w w' f _ h ih =>
    obtain ⟨h1, c, c', h2, h3, rfl⟩ := steerCall_ok h
    obtain ⟨⟨g, d⟩, w1, -, h4⟩ := run_bind_eq_ok.1 h3
    cases h4
    generalize (pick r x.services w).1 = i at h2 ⊢
    have hi : i < x.services.length := (List.getElem?_eq_some_iff.mp h2).1
    refine ⟨?_, by simp⟩
    intro j t hj
    simp only at hj ⊢
    by_cases hij : i = j
    · subst hij
      rw [List.getElem?_set_self hi] at hj
      cases hj
      simp
    · rw [List.getElem?_set_ne hij] at hj
      have := ih.1 j t hj
      rw [this, h1]
      simp [Ne.symm hij]

/-- **C45 (waits for all).** In every history, also after failures: `poll_ready` returns `Ready(Ok)` only if every inner service has itself reported ready since its own last call (and since its own last failure); services
that are ready are not polled again but left as they are. -/
theorem C45_waits_for_all (S : Service W Req Res Err) (pick : Req → List (Noted S).σ → W → Nat × W)
    (ss : List S.σ) (x x' : SteerState (Noted S).σ) (hx : SteerHist (Noted S) pick (ss.map (·, false)) x) (w w' : W) (p : Poll (Except Err Unit))
    (h : ((Steer (Noted S) pick).pollReady x).run w = .ok (p, x') w') :
    (p = .ready (.ok ()) → ∀ s ∈ x'.services, s.2 = true) ∧ (∀ (i : Nat) (s : S.σ × Bool), x.services[i]? = some s → s.2 = true → x'.services[i]? = some s) := by
  obtain ⟨h1, -, h2, h3⟩ := steerPoll_ok S _ hx.ok.2 _ _ _ _ _ hx.ok.1 h
  refine ⟨fun hp s hs => ?_, h3⟩
  obtain ⟨i, hi⟩ := List.getElem?_of_mem hs
  exact (h1 i s hi).2 (by simp [h2.1 hp])

/-- **C45 (calls).** In every history, also after failures: a call that does not panic finds every inner service ready. -/
theorem C45_call_all_ready (S : Service W Req Res Err) (pick : Req → List (Noted S).σ → W → Nat × W)
    (ss : List S.σ) (x x' : SteerState (Noted S).σ) (hx : SteerHist (Noted S) pick (ss.map (·, false)) x) (r : Req) (f : S.φ) (w w' : W)
    (h : ((Steer (Noted S) pick).call x r).run w = .ok (f, x') w') : ∀ s ∈ x.services, s.2 = true := by
  intro s hs
  obtain ⟨i, hi⟩ := List.getElem?_of_mem hs
  exact (hx.ok.1 i s hi).2 (by simp [(steerCall_ok h).1])

/-- **C45 (errors).** `poll_ready` fails only with the error of a service, the first one queued that is not ready. -/
theorem C45_error (S : Service W Req Res Err) (pick : Req → List S.σ → W → Nat × W) (x x' : SteerState S.σ) (w w' : W) (e : Err)
    (h : ((Steer S pick).pollReady x).run w = .ok (.ready (.error e), x') w') :
    ∃ i s s' w1, (x'.services)[i]? = some s' ∧ (S.pollReady s).run w1 = .ok (.ready (.error e), s') w' ∧ i ∈ x'.notReady := by
  obtain ⟨ss, nr⟩ := x
  simp only [Steer] at h
  induction nr generalizing ss w with
  | nil => simp only [steerPoll, run_pure] at h; cases h
  | cons i rest ih =>
    simp only [steerPoll] at h
    cases hs : ss[i]? with
    | none => simp [hs] at h
    | some s =>
      simp only [hs] at h
      obtain ⟨⟨q, s'⟩, w1, hr, h⟩ := run_bind_eq_ok.1 h
      have hi : i < ss.length := (List.getElem?_eq_some_iff.mp hs).1
      match q with
      | .pending => cases h
      | .ready (.error e) => cases h; exact ⟨i, s, s', w, List.getElem?_set_self hi, hr, by simp⟩
      | .ready (.ok ()) => exact ih _ _ h

/-- **C45 (routing).** A call on a ready Steer is exactly a call of the service the picker names, with the
request unchanged; no other service is touched, and only that one has to become ready again. -/
theorem C45_routes (S : Service W Req Res Err) (pick : Req → List S.σ → W → Nat × W) (services : List S.σ)
    (r : Req) (w w1 : W) (i : Nat) (hp : pick r services w = (i, w1)) (hi : i < services.length) :
    ((Steer S pick).call ⟨services, []⟩ r).run w =
      ((S.call services[i] r).run w1).void (fun x => (x.1, ⟨services.set i x.2, [i]⟩)) := by
  simp only [Steer, List.isEmpty_nil, if_true, run_bind, run_lift, hp, List.getElem?_eq_getElem hi]
  cases (S.call services[i] r).run w1 <;> rfl

/-- **C45 (misuse).** `call` panics unless all services are ready. -/
theorem C45_call_unready (S : Service W Req Res Err) (pick : Req → List S.σ → W → Nat × W) (services : List S.σ)
    (i : Nat) (nr : List Nat) (r : Req) (w : W) : ∃ m, ((Steer S pick).call ⟨services, i :: nr⟩ r).run w = .panic m :=
  ⟨_, rfl⟩

namespace Demo45
open Demo
/-- two echo services, ready in worlds ≥ 1 -/
theorem h1 : SteerHist (Noted echo) (fun r ss w => (r % ss.length, w)) ([(), ()].map (·, false)) ⟨[((), true), ((), true)], []⟩ :=
  .ready (w := 1) (w' := 1) (p := .ready (.ok ())) (.ready (w := 0) (w' := 0) (p := .pending) .new rfl) rfl
/-- request 3 goes to the second one -/
theorem h2 : SteerHist (Noted echo) (fun r ss w => (r % ss.length, w)) ([(), ()].map (·, false)) ⟨[((), true), ((), false)], [1]⟩ :=
  .call (r := 3) (w := 1) (w' := 1) (f := _) h1 rfl
end Demo45

end Tower
