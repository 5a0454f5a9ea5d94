import Verif.Model.Middleware
import Verif.Spec.Trace

/-! # C09: LoadShed is always ready and sheds exactly when the inner service is not ready -/

set_option linter.unusedSimpArgs false

namespace Tower
open Act
variable {W Req Res Err : Type}

/-- **C09 (always ready).** `poll_ready` never returns `Pending`. -/
theorem C09_never_pending (S : Service W Req Res Err) (s s' : (LoadShed S).σ) (w w' : W)
    (p : Poll (Except (ShedErr Err) Unit))
    (h : ((LoadShed S).pollReady s).run w = .ok (p, s') w') : p ≠ .pending := by
  simp only [LoadShed, run_bind] at h
  cases hp : (S.pollReady s.inner).run w with
  | panic m => simp [hp] at h
  | spin => simp [hp] at h
  | ok a v =>
    obtain ⟨q, i⟩ := a
    match q with
    | .pending => simp only [hp, run_pure] at h; cases h; simp
    | .ready (.ok ()) => simp only [hp, run_pure] at h; cases h; simp
    | .ready (.error e) => simp only [hp, run_pure] at h; cases h; simp

/-- **C09 (errors).** `poll_ready` fails exactly if the inner `poll_ready` fails, with its error. -/
theorem C09_error (S : Service W Req Res Err) (s : (LoadShed S).σ) (w w' : W) (e : Err) (i : S.σ)
    (h : (S.pollReady s.inner).run w = .ok (.ready (.error e), i) w') :
    ∃ s', ((LoadShed S).pollReady s).run w = .ok (.ready (.error (.inner e)), s') w' :=
  ⟨⟨i, s.isReady⟩, by simp [LoadShed, run_bind, h]⟩

/-- All histories of a LoadShed handle used by a caller that stops after a readiness error.
`ShedHist S b s`: the handle is in state `s`, and `b` says that the most recent `poll_ready` of this handle
found the inner service ready, with no `call` since. -/
inductive ShedHist (S : Service W Req Res Err) : Bool → (LoadShed S).σ → Prop
  | new (i : S.σ) : ShedHist S false ⟨i, false⟩
  | found_ready {b s s' w w' w'' p i} : ShedHist S b s →
      (S.pollReady s.inner).run w = .ok (.ready (.ok ()), i) w' →
      ((LoadShed S).pollReady s).run w = .ok (p, s') w'' → ShedHist S true s'
  | found_pending {b s s' w w' w'' p i} : ShedHist S b s →
      (S.pollReady s.inner).run w = .ok (.pending, i) w' →
      ((LoadShed S).pollReady s).run w = .ok (p, s') w'' → ShedHist S false s'
  | call {b s s' w w' r f} : ShedHist S b s →
      ((LoadShed S).call s r).run w = .ok (f, s') w' → ShedHist S false s'
  | clone {b s} : ShedHist S b s → ShedHist S false ((LoadShed S).clone s)

theorem ShedHist.flag {S : Service W Req Res Err} {b : Bool} {s : (LoadShed S).σ} (h : ShedHist S b s) :
    s.isReady = b := by
  induction h with
  | new i => rfl
  | found_ready _ h1 h2 _ =>
    simp only [LoadShed, run_bind, h1, run_pure] at h2
    cases h2; rfl
  | found_pending _ h1 h2 _ =>
    simp only [LoadShed, run_bind, h1, run_pure] at h2
    cases h2; rfl
  | @call b s s' w w' r f _ h2 ih =>
    simp only [LoadShed] at h2
    split at h2
    · simp only [run_bind] at h2
      cases hc : (S.call s.inner r).run w with
      | panic m => simp [hc] at h2
      | spin => simp [hc] at h2
      | ok a v => 
        simp only [hc, run_pure] at h2
        cases h2; rfl
    · rename_i hn
      simp only [run_pure] at h2
      cases h2
      simpa using hn
  | clone _ _ => rfl

theorem loadShed_drive (S : Service W Req Res Err) (x : S.φ) (ws : List W) :
    (LoadShed S).futOf.drive (some x) ws = (S.futOf.drive x ws).map (mapErr .inner) := by
  induction ws generalizing x with
  | nil => rfl
  | cons w ws ih =>
    simp only [Fut.drive, LoadShed, Service.futOf, run_bind]
    cases (S.poll x).run w with
    | panic m => rfl
    | spin => rfl
    | ok a w' =>
      obtain ⟨p, y⟩ := a
      match p with
      | .pending => exact ih y
      | .ready (.ok r) => rfl
      | .ready (.error r) => rfl

/-- **C09 (forwarding).** In every history, if the most recent `poll_ready` found the inner service ready and
no call happened since, the call is exactly the inner call and its outcome is the inner outcome. -/
theorem C09_forward (S : Service W Req Res Err) (s : (LoadShed S).σ) (h : ShedHist S true s) (r : Req) (w : W) :
    ((LoadShed S).call s r).run w =
      ((S.call s.inner r).run w).void (fun x => (some x.1, ⟨x.2, false⟩)) ∧
    ∀ x ws, (LoadShed S).futOf.drive (some x) ws = (S.futOf.drive x ws).map (mapErr .inner) := by
  refine ⟨?_, loadShed_drive S⟩
  simp only [LoadShed, h.flag, if_true, run_bind]
  cases (S.call s.inner r).run w <;> rfl

/-- **C09 (shedding).** Otherwise nothing of the inner service runs (its state and the world are unchanged)
and the call yields `Overloaded` at its first poll. -/
theorem C09_shed (S : Service W Req Res Err) (s : (LoadShed S).σ) (h : ShedHist S false s) (r : Req) (w : W) :
    ∃ x, ((LoadShed S).call s r).run w = .ok (x, s) w ∧
      ∀ w' ws, (LoadShed S).futOf.drive x (w' :: ws) = .done (.error .overloaded) w' ws := by
  refine ⟨none, ?_, fun _ _ => rfl⟩
  simp [LoadShed, h.flag]

namespace Demo09
/-- ready in odd worlds -/
def odd : Service Nat Nat Nat Nat where
  σ := Unit
  φ := Nat
  pollReady _ := ⟨fun w => .ok (if w % 2 = 1 then .ready (.ok ()) else .pending, ()) w⟩
  call _ r := pure (r, ())
  poll r := pure (.ready (.ok r), r)
  clone := id

example : ShedHist odd true ⟨(), true⟩ :=
  .found_ready (w := 1) (w' := 1) (w'' := 1) (i := ()) (p := .ready (.ok ()))
    (.found_pending (w := 0) (w' := 0) (w'' := 0) (i := ()) (p := .ready (.ok ())) (.new ()) rfl rfl) rfl rfl
example : ShedHist odd false ⟨(), false⟩ :=
  .found_pending (w := 0) (w' := 0) (w'' := 0) (i := ()) (p := .ready (.ok ()))
    (.found_ready (w := 1) (w' := 1) (w'' := 1) (i := ()) (p := .ready (.ok ())) (.new ()) rfl rfl) rfl rfl
end Demo09

end Tower
