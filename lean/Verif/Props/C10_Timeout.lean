import Verif.Model.Middleware
import Verif.Spec.Trace

/-! # C10: the outcome law of Timeout -/

set_option linter.unusedSimpArgs false

namespace Tower
open Act
variable {W Req Res Err : Type}

/-- **C10 (completion).** On every schedule: a Timeout future with deadline `dl` completes with `res` exactly
if the inner future was pending, without the timer firing, at all earlier polls, and at the last one either
the inner future is ready (it is looked at first, so it wins even after the deadline) and `res` is its result,
or it is pending, the timer has fired and `res` is `Elapsed`. -/
theorem C10_completes (C : Clock W) (d : Nat) (S : Service W Req Res Err) (x : S.φ) (dl : Nat) (ws : List W)
    (res : Except (TimeoutErr Err) Res) (w : W) (rest : List W) :
    (Timeout C d S).futOf.drive (x, dl) ws = .done res w rest ↔
    ∃ pre w0 x' posts, ws = pre ++ w0 :: rest ∧ S.futOf.pendings x pre = some (x', posts) ∧
      (∀ p ∈ posts, C.fired dl p = false) ∧
      ((∃ v y, (S.poll x').run w0 = .ok (.ready v, y) w ∧ res = mapErr .inner v) ∨
       (∃ y, (S.poll x').run w0 = .ok (.pending, y) w ∧ C.fired dl w = true ∧ res = .error .elapsed)) := by
  induction ws generalizing x with
  | nil => simp [Fut.drive]
  | cons v ws ih =>
    constructor
    · intro h
      simp only [Fut.drive, Service.futOf, Timeout, run_bind] at h
      cases hp : (S.poll x).run v with
      | panic m => simp [hp] at h
      | spin => simp [hp] at h
      | ok a w' =>
        obtain ⟨p, y⟩ := a
        cases p with
        | ready r =>
          simp [hp] at h
          obtain ⟨rfl, rfl, rfl⟩ := h
          exact ⟨[], v, x, [], rfl, rfl, by simp, .inl ⟨r, y, hp, rfl⟩⟩
        | pending =>
          simp only [hp, run_bind, run_get] at h
          cases hf : C.fired dl w' with
          | true =>
            simp [hf] at h
            obtain ⟨rfl, rfl, rfl⟩ := h
            exact ⟨[], v, x, [], rfl, rfl, by simp, .inr ⟨y, hp, hf, rfl⟩⟩
          | false =>
            simp only [hf, Bool.false_eq_true, if_false, run_pure] at h
            obtain ⟨pre, w0, x', posts, rfl, hpre, hpost, hfin⟩ := (ih y).mp h
            refine ⟨v :: pre, w0, x', w' :: posts, rfl, ?_, ?_, hfin⟩
            · simp only [Fut.pendings, Service.futOf, hp]
              simp only [Service.futOf] at hpre
              simp [hpre]
            · intro p hpm
              rcases List.mem_cons.mp hpm with rfl | hpm
              · exact hf
              · exact hpost p hpm
    · rintro ⟨pre, w0, x', posts, heq, hpre, hpost, hfin⟩
      cases pre with
      | nil =>
        simp only [List.nil_append, List.cons.injEq] at heq
        obtain ⟨rfl, rfl⟩ := heq
        simp only [Fut.pendings, Option.some.injEq, Prod.mk.injEq] at hpre
        obtain ⟨rfl, rfl⟩ := hpre
        simp only [Fut.drive, Service.futOf, Timeout, run_bind]
        rcases hfin with ⟨r, y, hp, rfl⟩ | ⟨y, hp, hf, rfl⟩
        · simp [hp]
        · simp [hp, run_bind, hf]
      | cons v' pre =>
        simp only [List.cons_append, List.cons.injEq] at heq
        obtain ⟨rfl, rfl⟩ := heq
        simp only [Fut.pendings, Service.futOf] at hpre
        cases hp : (S.poll x).run v with
        | panic m => simp [hp] at hpre
        | spin => simp [hp] at hpre
        | ok a w' =>
          obtain ⟨p, y⟩ := a
          cases p with
          | ready r => simp [hp] at hpre
          | pending =>
            simp only [hp, Option.map_eq_some_iff] at hpre
            obtain ⟨⟨z, ps⟩, hz, hzz⟩ := hpre
            simp only [Prod.mk.injEq] at hzz
            obtain ⟨rfl, rfl⟩ := hzz
            have hf : C.fired dl w' = false := hpost w' (by simp)
            simp only [Fut.drive, Service.futOf, Timeout, run_bind, hp, run_get, hf, Bool.false_eq_true,
              if_false, run_pure]
            exact (ih y).mpr ⟨pre, w0, _, _, rfl, hz, fun p hpm => hpost p (by simp [hpm]), hfin⟩

/-- **C10 (pending).** It is pending throughout exactly if the inner future is pending throughout and the
timer was not seen fired. -/
theorem C10_pending (C : Clock W) (d : Nat) (S : Service W Req Res Err) (x : S.φ) (dl : Nat) (ws : List W) :
    (Timeout C d S).futOf.drive (x, dl) ws = .pending ↔
    ∃ x' posts, S.futOf.pendings x ws = some (x', posts) ∧ ∀ p ∈ posts, C.fired dl p = false := by
  induction ws generalizing x with
  | nil => exact ⟨fun _ => ⟨x, [], rfl, by simp⟩, fun _ => rfl⟩
  | cons v ws ih =>
    simp only [Fut.drive, Service.futOf, Timeout, run_bind, Fut.pendings]
    cases hp : (S.poll x).run v with
    | panic m => simp
    | spin => simp
    | ok a w' =>
      obtain ⟨p, y⟩ := a
      cases p with
      | ready r => simp
      | pending =>
        simp only [run_bind, run_get]
        cases hf : C.fired dl w' with
        | true => 
          simp only [if_true, run_pure, Option.map_eq_some_iff]
          constructor
          · intro h; cases h
          · rintro ⟨x', posts, ⟨⟨z, ps⟩, hz, hzz⟩, hpost⟩
            simp only [Prod.mk.injEq] at hzz
            obtain ⟨rfl, rfl⟩ := hzz
            have := hpost w' (by simp)
            simp [hf] at this
        | false =>
          simp only [Bool.false_eq_true, if_false, run_pure, Option.map_eq_some_iff]
          refine (ih y).trans ?_
          constructor
          · rintro ⟨x', posts, h, hpost⟩
            refine ⟨x', w' :: posts, ⟨(x', posts), h, rfl⟩, ?_⟩
            intro p hpm
            rcases List.mem_cons.mp hpm with rfl | hpm
            · exact hf
            · exact hpost p hpm
          · rintro ⟨x', posts, ⟨⟨z, ps⟩, hz, hzz⟩, hpost⟩
            simp only [Prod.mk.injEq] at hzz
            obtain ⟨rfl, rfl⟩ := hzz
            exact ⟨_, _, hz, fun p hpm => hpost p (by simp [hpm])⟩

/-- **C10 (the deadline).** `call` is one inner call, and the deadline is `timeout` after the moment the
inner `call` returned; `poll_ready` has no timeout. -/
theorem C10_call (C : Clock W) (d : Nat) (S : Service W Req Res Err) (s : S.σ) (r : Req) (w : W) :
    ((Timeout C d S).call s r).run w =
      ((S.call s r).run w).mapW (fun x w' => (((x.1, C.now w' + d), x.2), w')) ∧
    ((Timeout C d S).pollReady s).run w =
      ((S.pollReady s).run w).void (fun x => (x.1.map (mapErr .inner), x.2)) := by
  constructor
  · simp only [Timeout, run_bind]
    cases (S.call s r).run w <;> rfl
  · simp only [Timeout, run_bind]
    cases (S.pollReady s).run w <;> rfl

/-- **C10 (never early).** If a call made in world `w` ends in `Elapsed`, then at that moment at least
`timeout` has passed since the call. -/
theorem C10_never_early (C : Clock W) (d : Nat) (S : Service W Req Res Err) (s s' : S.σ) (r : Req)
    (w w' w'' : W) (x : S.φ × Nat) (ws rest : List W)
    (hcall : ((Timeout C d S).call s r).run w = .ok (x, s') w')
    (h : (Timeout C d S).futOf.drive x ws = .done (.error .elapsed) w'' rest) :
    C.now w' + d ≤ C.now w'' := by
  rw [(C10_call C d S s r w).1] at hcall
  cases hc : (S.call s r).run w with
  | panic m => simp [hc, Out.mapW] at hcall
  | spin => simp [hc, Out.mapW] at hcall
  | ok a v =>
    simp only [hc, Out.mapW, Out.ok.injEq, Prod.mk.injEq] at hcall
    obtain ⟨⟨rfl, -⟩, rfl⟩ := hcall
    obtain ⟨pre, w0, x', posts, -, -, -, hfin⟩ := (C10_completes C d S _ _ ws _ _ _).mp h
    rcases hfin with ⟨v, y, -, hv⟩ | ⟨y, -, hf, -⟩
    · cases v <;> simp [mapErr] at hv
    · exact C.sound _ _ hf

namespace Demo10

/-- a service whose response is ready in worlds ≥ 10, clock = world -/
def slow : Service Nat Nat Nat Nat where
  σ := Unit
  φ := Nat
  pollReady _ := pure (.ready (.ok ()), ())
  call _ r := pure (r, ())
  poll r := ⟨fun w => .ok (if w ≥ 10 then .ready (.ok r) else .pending, r) w⟩
  clone := id

def clk : Clock Nat := { now := id, fired := fun d w => decide (d ≤ w), sound := fun d w h => by simpa using h }

/-- called at time 1 with timeout 5: elapsed when polled at 7 -/
example : (Timeout clk 5 slow).futOf.drive ((3 : Nat), 6) [2, 5, 7, 12] = .done (.error .elapsed) 7 [12] := rfl
/-- polled at 5 and then only at 12: the inner result wins after the deadline -/
example : (Timeout clk 5 slow).futOf.drive ((3 : Nat), 6) [2, 5, 12] = .done (.ok 3) 12 [] := rfl
example : (Timeout clk 5 slow).futOf.drive ((3 : Nat), 6) [2, 5] = .pending := rfl
example : ((Timeout clk 5 slow).call () (3 : Nat)).run 1 = .ok ((((3 : Nat), 6), ())) 1 := rfl
end Demo10

end Tower
