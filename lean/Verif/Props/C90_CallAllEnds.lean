import Verif.Proof.LiveAll3
import Verif.Props.C89_Live

/-! # C90: `call_all` comes to an end -/

set_option linter.unusedSimpArgs false

namespace Tower
open Act
variable {W Req Res Err : Type} {F : Fairness W}

/-- **C90, `call_all`.** Over a service that does not hang, and a stream of finitely many requests: the stream of responses ends. Neither the service, nor the stream, nor a response that is in the way of others in the queue, is
waited for forever. -/
theorem C90_ordered {S : Service W Req Res Err} {R : ReqStream W Req} {V : Sched W} {s₀ : S.σ} {r₀ : R.τ} {N fuel : Nat} (hS : NeverHangs F S s₀) (hR : R.Finite F r₀ N) (hF : F.Undisturbed (ByTask S R V))
    (hV : V.Wakes F (ByTask S R V)) (hfuel : N + 3 ≤ fuel) (ws : Nat → W) (hws : F.fair ws) : Drains (CallAll.pollNext fuel) (CallAll.new s₀ r₀ : CallAllOrdered V S R) ws :=
  callAll_drains (orderedEnds F V S.poll) hS hR hF hV hfuel _ _ _ ws (CAt.new _ s₀ r₀ N) hws

/-- **C90, `call_all().unordered()`.** -/
theorem C90_unordered {S : Service W Req Res Err} {R : ReqStream W Req} {V : Sched W} {s₀ : S.σ} {r₀ : R.τ} {N fuel : Nat} (hS : NeverHangs F S s₀) (hR : R.Finite F r₀ N) (hF : F.Undisturbed (ByTask S R V))
    (hV : V.Wakes F (ByTask S R V)) (hfuel : N + 3 ≤ fuel) (ws : Nat → W) (hws : F.fair ws) : Drains (CallAll.pollNext fuel) (CallAll.new s₀ r₀ : CallAllUnordered V S R) ws :=
  callAll_drains (unorderedEnds F V S.poll) hS hR hF hV hfuel _ _ _ ws (CAt.new _ s₀ r₀ N) hws

/-- **C90, over a stack.** `call_all` over any chain of layers around such a service ends. -/
theorem C90_chain {a b : Ty} (c : Chain W a b) (x : Site W a) (hc : c.Served F x) (h : NeverHangs F x.1.S x.1.s) {R : ReqStream W b.Req} {V : Sched W} {r₀ : R.τ} {N fuel : Nat} (hR : R.Finite F r₀ N)
    (hF : F.Undisturbed (ByTask ((ServiceBuilder.new.invokes c).service x).1.S R V)) (hV : V.Wakes F (ByTask ((ServiceBuilder.new.invokes c).service x).1.S R V)) (hfuel : N + 3 ≤ fuel) (ws : Nat → W) (hws : F.fair ws) :
    Drains (CallAll.pollNext fuel) (CallAll.new ((ServiceBuilder.new.invokes c).service x).1.s r₀ : CallAllOrdered V ((ServiceBuilder.new.invokes c).service x).1.S R) ws :=
  C90_ordered (C89_chain c x hc h) hR hF hV hfuel ws hws

/-! ## Examples -/

namespace Demo90
open Demo89

/-- requests that come at certain times -/
@[reducible] def requests : ReqStream Nat Nat where
  τ := List (Nat × Nat)
  poll
    | [] => pure (.ready none, [])
    | (d, q) :: t => do
      let w ← Act.get
      pure (if d ≤ w then (.ready (some q), t) else (.pending, (d, q) :: t))

theorem requests_run (l : List (Nat × Nat)) (w : Nat) : (requests.poll l).run w = match l with
    | [] => .ok (.ready none, []) w
    | (d, q) :: t => .ok (if d ≤ w then (.ready (some q), t) else (.pending, (d, q) :: t)) w := by
  cases l <;> rfl

theorem requests_after {r₀ : requests.τ} {k : Nat} {r : requests.τ} (h : requests.After r₀ k r) : k + List.length r = List.length r₀ := by
  induction h with
  | new => simp
  | @item k r r' q w w' _ hr ih =>
    rw [requests_run] at hr
    match r, hr with
    | (d, q1) :: t, hr =>
      by_cases hd : d ≤ w
      · simp only [hd, if_true] at hr; cases hr; simp only [List.length_cons] at ih; omega
      · simp only [hd, if_false] at hr; cases hr
  | @pending k r r' w w' _ hr ih =>
    rw [requests_run] at hr
    match r, hr with
    | (d, q1) :: t, hr =>
      by_cases hd : d ≤ w
      · simp only [hd, if_true] at hr; cases hr
      · simp only [hd, if_false] at hr; cases hr; exact ih

theorem requests_finite (r₀ : List (Nat × Nat)) : requests.Finite goes r₀ r₀.length where
  atMost k r h := by have := requests_after h; omega
  next k r _ := by
    cases r with
    | nil => exact .now fun w => (nofun : Poll.ready (none : Option Nat) ≠ .pending)
    | cons x t =>
      obtain ⟨d, q⟩ := x
      refine due _ d (· = (d, q) :: t) (fun a w ha => ?_) _ rfl
      subst ha
      rw [requests_run]
      by_cases hd : d ≤ w
      · simp [hd]
      · simp [hd]; omega

/-- the youngest future first -/
def backwards : Sched Nat := ⟨fun l w => ((List.range l).reverse, w)⟩

theorem untouched {w v : Nat} (h : ByTask slow requests backwards w v) : v = w := by
  induction h with
  | refl => rfl
  | ready _ hr ih => cases hr; exact ih
  | call _ hr ih => cases hr; exact ih
  | poll _ hr ih => cases hr; exact ih
  | @stream r v x v' _ hr ih =>
    rw [requests_run] at hr
    cases r <;> (cases hr; exact ih)
  | order _ ih => exact ih

theorem undisturbed : goes.Undisturbed (ByTask slow requests backwards) := fun ws vs g hw _ hg h t => by
  obtain ⟨n, hn⟩ := hw t
  obtain ⟨k, rfl⟩ := hg n
  exact ⟨k, by rw [untouched (h k)]; exact hn⟩

theorem wakes : backwards.Wakes goes (ByTask slow requests backwards) := fun ws l hw hl => by
  refine ⟨fun n => ⟨n, Nat.le_refl n, by simp [backwards]; exact hl⟩, fun vs g hm hg h => undisturbed ws vs g hw hm (fun n => (hg n).2 (by simp [backwards]; exact hl)) h⟩

/-- three requests, the second of which is answered long before the first -/
theorem ends (ws : Nat → Nat) (hw : goes.fair ws) : Drains (CallAll.pollNext 6) (CallAll.new (3 : Nat) [(5, 100), (6, 20), (400, 1)] : CallAllOrdered backwards slow requests) ws :=
  C90_ordered (slow_live _) (requests_finite _) undisturbed wakes (by simp) ws hw

/-- An executor that wakes nothing: it does not end. -/
def asleep : Sched Nat := ⟨fun _ w => ([], w)⟩

/-- the request was sent, and its response is not asked for -/
def stuck : CallAllUnordered asleep slow requests := ⟨some (101 : Nat), [], [(100 : Nat)], true, none⟩

theorem stays_stuck {c : CallAllUnordered asleep slow requests} {ws : Nat → Nat} (h : Drains (CallAll.pollNext 6) c ws) : c ≠ stuck := by
  have key : ∀ w, (CallAll.pollNext 6 stuck).run w = .ok (.pending, stuck) w := fun w => rfl
  induction h with
  | done h => rintro rfl; rw [key] at h; cases h
  | panics h => rintro rfl; rw [key] at h; cases h
  | item h => rintro rfl; rw [key] at h; cases h
  | pending h _ ih => rintro rfl; rw [key] at h; cases h; exact ih rfl

theorem asleep_forever (ws : Nat → Nat) : ¬ Drains (CallAll.pollNext 6) (CallAll.new (0 : Nat) [(0, 100)] : CallAllUnordered asleep slow requests) ws := by
  have key : ∀ w, (CallAll.pollNext 6 (CallAll.new (0 : Nat) [(0, 100)] : CallAllUnordered asleep slow requests)).run w = .ok (.pending, stuck) w := by
    intro w
    cases w <;> rfl
  intro h
  cases h with
  | done h => rw [key] at h; cases h
  | panics h => rw [key] at h; cases h
  | item h => rw [key] at h; cases h
  | pending h h2 => rw [key] at h; cases h; exact stays_stuck h2 rfl

end Demo90
end Tower
