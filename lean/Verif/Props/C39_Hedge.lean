import Verif.Model.Hedge
import Verif.Props.C50_Oneshot

/-! # C39, C40: Hedge -/

set_option linter.unusedSimpArgs false

namespace Tower
open Act
variable {W Req Res Err BErr : Type}

/-! ## Specification devices -/

/-- Waiting for a timer with deadline `dl`. -/
def Clock.sleep (C : Clock W) (dl : Nat) : Fut W Unit where
  φ := Unit
  poll _ := do
    let w ← Act.get
    if C.fired dl w = true then pure (.ready (), ()) else pure (.pending, ())

/-! ## C40: the race -/

/-- **C40 (no hedge).** Without a second future the outcome is exactly that of the primary. -/
theorem C40_alone (cl : Req → W → Option Req × W) (A B : Service W Req Res Err) (a : A.φ) (ws : List W) :
    (Select cl A B).futOf.drive (a, none) ws = A.futOf.drive a ws := by
  induction ws generalizing a with
  | nil => rfl
  | cons w ws ih =>
    simp only [Fut.drive, Select, Service.futOf, run_bind]
    cases (A.poll a).run w with
    | panic m => rfl
    | spin => rfl
    | ok x w' =>
      obtain ⟨p, y⟩ := x
      cases p with
      | pending => exact ih y
      | ready r => rfl

/-- **C40 (the race).** With both: the request completes with `res` exactly if both were pending at all
earlier polls (the hedge being polled right after the primary), and at the last poll either the primary is
ready (it is looked at first, so it wins a tie), or it is pending and the hedge is ready. -/
theorem C40_race (cl : Req → W → Option Req × W) (A B : Service W Req Res Err) (a : A.φ) (b : B.φ) (ws : List W)
    (res : Except Err Res) (w : W) (rest : List W) :
    (Select cl A B).futOf.drive (a, some b) ws = .done res w rest ↔
    ∃ pre w0 a' posts b' posts', ws = pre ++ w0 :: rest ∧ A.futOf.pendings a pre = some (a', posts) ∧
      B.futOf.pendings b posts = some (b', posts') ∧
      ((∃ y, (A.poll a').run w0 = .ok (.ready res, y) w) ∨
       (∃ y w1 z, (A.poll a').run w0 = .ok (.pending, y) w1 ∧ (B.poll b').run w1 = .ok (.ready res, z) w)) := by
  induction ws generalizing a b with
  | nil => simp [Fut.drive]
  | cons v ws ih =>
    constructor
    · intro h
      simp only [Fut.drive, Service.futOf, Select, run_bind] at h
      cases hp : (A.poll a).run v with
      | panic m => simp [hp] at h
      | spin => simp [hp] at h
      | ok x w' =>
        obtain ⟨p, y⟩ := x
        cases p with
        | ready r =>
          simp [hp] at h
          obtain ⟨rfl, rfl, rfl⟩ := h
          exact ⟨[], v, a, [], b, [], rfl, rfl, rfl, .inl ⟨y, hp⟩⟩
        | pending =>
          simp only [hp, run_bind] at h
          cases hq : (B.poll b).run w' with
          | panic m => simp [hq] at h
          | spin => simp [hq] at h
          | ok x2 w2 =>
            obtain ⟨q, z⟩ := x2
            cases q with
            | ready r =>
              simp [hq] at h
              obtain ⟨rfl, rfl, rfl⟩ := h
              exact ⟨[], v, a, [], b, [], rfl, rfl, rfl, .inr ⟨y, w', z, hp, hq⟩⟩
            | pending =>
              simp only [hq, run_pure] at h
              obtain ⟨pre, w0, a', posts, b', posts', rfl, h1, h2, h3⟩ := (ih y z).mp h
              refine ⟨v :: pre, w0, a', w' :: posts, b', w2 :: posts', rfl, ?_, ?_, h3⟩
              · simp only [Fut.pendings, Service.futOf, hp]
                simp only [Service.futOf] at h1
                simp [h1]
              · simp only [Fut.pendings, Service.futOf, hq]
                simp only [Service.futOf] at h2
                simp [h2]
    · rintro ⟨pre, w0, a', posts, b', posts', heq, h1, h2, h3⟩
      cases pre with
      | nil =>
        simp only [List.nil_append, List.cons.injEq] at heq
        obtain ⟨rfl, rfl⟩ := heq
        simp only [Fut.pendings, Option.some.injEq, Prod.mk.injEq] at h1
        obtain ⟨rfl, rfl⟩ := h1
        simp only [Fut.pendings, Option.some.injEq, Prod.mk.injEq] at h2
        obtain ⟨rfl, rfl⟩ := h2
        simp only [Fut.drive, Service.futOf, Select, run_bind]
        rcases h3 with ⟨y, hp⟩ | ⟨y, w1, z, hp, hq⟩
        · simp [hp]
        · simp [hp, run_bind, hq]
      | cons v' pre =>
        simp only [List.cons_append, List.cons.injEq] at heq
        obtain ⟨rfl, rfl⟩ := heq
        simp only [Fut.pendings, Service.futOf] at h1
        cases hp : (A.poll a).run v with
        | panic m => simp [hp] at h1
        | spin => simp [hp] at h1
        | ok x w' =>
          obtain ⟨p, y⟩ := x
          cases p with
          | ready r => simp [hp] at h1
          | pending =>
            simp only [hp, Option.map_eq_some_iff] at h1
            obtain ⟨⟨u, ps⟩, hu, huu⟩ := h1
            simp only [Prod.mk.injEq] at huu
            obtain ⟨rfl, rfl⟩ := huu
            simp only [Fut.pendings, Service.futOf] at h2
            cases hq : (B.poll b).run w' with
            | panic m => simp [hq] at h2
            | spin => simp [hq] at h2
            | ok x2 w2 =>
              obtain ⟨q, z⟩ := x2
              cases q with
              | ready r => simp [hq] at h2
              | pending =>
                simp only [hq, Option.map_eq_some_iff] at h2
                obtain ⟨⟨u2, ps2⟩, hu2, huu2⟩ := h2
                simp only [Prod.mk.injEq] at huu2
                obtain ⟨rfl, rfl⟩ := huu2
                simp only [Fut.drive, Service.futOf, Select, run_bind, hp, hq, run_pure]
                exact (ih y z).mpr ⟨pre, w0, _, _, _, _, rfl, hu, hu2, h3⟩

/-! ## The parts -/

/-- The latency recorder does not change outcomes; a success records the time since the call. -/
theorem C40_latency (into : Err → BErr) (C : Clock W) (record : Nat → W → W) (S : Service W Req Res Err)
    (start : Nat) (x : S.φ) (ws : List W) :
    (Latency into C record S).futOf.drive (start, x) ws =
      (S.futOf.drive x ws).andThen (fun res w rest =>
        match res with
        | .ok r => .done (.ok r) (record (C.now w - start) w) rest
        | .error e => .done (.error (into e)) w rest) := by
  induction ws generalizing x with
  | nil => rfl
  | cons w ws ih =>
    simp only [Fut.drive, Latency, Service.futOf, run_bind]
    cases (S.poll x).run w with
    | panic m => rfl
    | spin => rfl
    | ok a w' =>
      obtain ⟨p, y⟩ := a
      match p with
      | .pending => exact ih y
      | .ready (.ok r) => rfl
      | .ready (.error e) => rfl

theorem latency_ready (into : Err → BErr) (C : Clock W) (record : Nat → W → W) (S : Service W Req Res Err)
    (s : S.σ) (ws : List W) :
    (Latency into C record S).readyFut.drive s ws = (S.readyFut.drive s ws).map (mapErr into) := by
  induction ws generalizing s with
  | nil => rfl
  | cons w ws ih =>
    simp only [Fut.drive, Latency, Service.readyFut, run_bind]
    cases (S.pollReady s).run w with
    | panic m => rfl
    | spin => rfl
    | ok a w' =>
      obtain ⟨p, y⟩ := a
      match p with
      | .pending => exact ih y
      | .ready (.ok ()) => rfl
      | .ready (.error e) => rfl

theorem delay_called (into : Err → BErr) (C : Clock W) (delay : Req → W → Nat × W) (S : Service W Req Res Err)
    (x : (Oneshot S).φ) (ws : List W) :
    (Delay into C delay S).futOf.drive (.called x) ws = ((Oneshot S).drive x ws).map (mapErr into) := by
  induction ws generalizing x with
  | nil => rfl
  | cons w ws ih =>
    simp only [Fut.drive, Delay, Service.futOf, run_bind]
    cases ((Oneshot S).poll x).run w with
    | panic m => rfl
    | spin => rfl
    | ok a w' =>
      obtain ⟨p, y⟩ := a
      match p with
      | .pending => exact ih y
      | .ready (.ok r) => rfl
      | .ready (.error e) => rfl

/-- Delay: wait for the timer, then (in the same poll) behave as a Oneshot on the clone. -/
theorem delay_drive (into : Err → BErr) (C : Clock W) (delay : Req → W → Nat × W) (S : Service W Req Res Err)
    (dl : Nat) (r : Req) (s : S.σ) (ws : List W) :
    (Delay into C delay S).futOf.drive (.delaying dl r s) ws =
      ((C.sleep dl).drive () ws).andThen (fun _ w rest =>
        ((Oneshot S).drive (.notReady s (some r)) (w :: rest)).map (mapErr into)) := by
  induction ws with
  | nil => rfl
  | cons w ws ih =>
    simp only [Service.futOf] at ih
    simp only [Fut.drive, Service.futOf, Clock.sleep, run_bind, run_get]
    simp only [Delay, run_bind, run_get]
    by_cases hf : C.fired dl w = true
    · simp only [hf, if_true, run_pure, Drive.andThen, run_bind, Fut.drive]
      cases ((Oneshot S).poll (.notReady s (some r))).run w with
      | panic m => rfl
      | spin => rfl
      | ok a w' =>
        obtain ⟨p, y⟩ := a
        match p with
        | .pending => exact delay_called into C delay S y ws
        | .ready (.ok r) => rfl
        | .ready (.error e) => rfl
    · simp only [hf, if_false, run_pure, Bool.false_eq_true]
      exact ih

theorem hedgePred_none (ws : List W) :
    (hedgePredFut : Fut W (Except BErr Req)).drive none ws = .pending := by
  induction ws with
  | nil => rfl
  | cons w ws ih => exact ih

/-- `asyncFilter` readiness is the inner readiness -/
theorem asyncFilter_ready {R1 BE : Type} (into : Err → BE) (P : Fut W (Except BE Req))
    (check : R1 → W → P.φ × W) (S : Service W Req Res Err) (s : S.σ) (ws : List W) :
    (AsyncFilter into P check S).readyFut.drive s ws = (S.readyFut.drive s ws).map (mapErr into) := by
  induction ws generalizing s with
  | nil => rfl
  | cons w ws ih =>
    simp only [Fut.drive, AsyncFilter, Service.readyFut, run_bind]
    cases (S.pollReady s).run w with
    | panic m => rfl
    | spin => rfl
    | ok a w' =>
      obtain ⟨p, y⟩ := a
      match p with
      | .pending => exact ih y
      | .ready (.ok ()) => rfl
      | .ready (.error e) => rfl

theorem Drive.map_id {α : Type} (d : Drive W (Except Err α)) : d.map (mapErr id) = d := by
  match d with
  | .done (.ok a) w rest => rfl
  | .done (.error a) w rest => rfl
  | .pending => rfl
  | .panic => rfl
  | .spin => rfl

theorem Drive.map_andThen {α β γ : Type} (d : Drive W α) (f : β → γ) (k : α → W → List W → Drive W β) :
    (d.andThen k).map f = d.andThen (fun a w rest => (k a w rest).map f) := by
  cases d <;> rfl

theorem Drive.andThen_map {α β γ : Type} (d : Drive W α) (f : α → β) (k : β → W → List W → Drive W γ) :
    (d.map f).andThen k = d.andThen (fun a w rest => k (f a) w rest) := by
  cases d <;> rfl

/-- The service behind the hedge's delay. -/
abbrev HedgeCfg.second (into : Err → BErr) (H : HedgeCfg W Req) (S : Service W Req Res Err) :
    Service W Req Res BErr :=
  Delay id H.clock (fun _ => H.delay)
    (AsyncFilter id hedgePredFut (fun r w => (if H.canRetry r w then some r else none, w))
      (Latency into H.clock H.record S))

/-- **C39 (the hedge attempt).** On every schedule the second future does exactly this: wait for the delay
to elapse; then wait until the cloned service is ready (its error is the outcome); then ask `can_retry`; if it
declines, be pending forever, never calling the service; if it agrees, call that ready instance once with the
cloned request, and finish as that attempt does. -/
theorem C39_hedge_attempt (into : Err → BErr) (H : HedgeCfg W Req) (S : Service W Req Res Err) (dl : Nat) (r : Req)
    (s : S.σ) (ws : List W) :
    (H.second into S).futOf.drive (.delaying dl r s) ws =
      ((H.clock.sleep dl).drive () ws).andThen (fun _ w rest =>
        (S.readyFut.drive s (w :: rest)).andThen (fun res w1 rest1 =>
          match res with
          | .error e => .done (.error (into e)) w1 rest1
          | .ok s' =>
            if H.canRetry r w1 = true then
              (S.call s' r).driveIn w1 (fun x w2 =>
                (Latency into H.clock H.record S).futOf.drive (H.clock.now w1, x.1) (w2 :: rest1))
            else .pending)) := by
  refine (delay_drive _ _ _ _ _ _ _ _).trans ?_
  congr 1
  funext _ w rest
  refine (Drive.map_id _).trans ?_
  refine (C50_oneshot _ _ _ _).trans ?_
  have hr := asyncFilter_ready id (hedgePredFut : Fut W (Except BErr Req))
      (fun r w => (if H.canRetry r w then some r else none, w)) (Latency into H.clock H.record S) s (w :: rest)
  rw [Drive.map_id, latency_ready] at hr
  refine (congrArg (fun d => Drive.andThen d _) hr).trans ?_
  refine (Drive.andThen_map _ _ _).trans ?_
  congr 1
  funext res w1 rest1
  cases res with
  | error e => rfl
  | ok s' =>
    simp only [mapErr]
    have hcall := C47_call id (hedgePredFut : Fut W (Except BErr Req))
      (fun r w => (if H.canRetry r w then some r else none, w)) (Latency into H.clock H.record S) s' r w1
    simp only [Act.driveIn, hcall, Drive.map_id]
    refine (C47_outcome _ _ _ _ _ _ _).trans ?_
    cases hc : H.canRetry r w1 with
    | false =>
      have hn := hedgePred_none (BErr := BErr) (Req := Req) (w1 :: rest1)
      exact congrArg (fun d => Drive.andThen d _) hn
    | true =>
      simp only [if_true, Fut.drive, hedgePredFut, run_pure, Drive.andThen, Act.driveIn, Latency, run_bind,
        run_get]
      cases (S.call s' r).run w1 with
      | panic m => rfl
      | spin => rfl
      | ok b w2 =>
        obtain ⟨f, z⟩ := b
        simp only [run_pure]
        exact Drive.map_id _

/-- **C39 (call).** `call` makes exactly the primary call, with the original request, on the primary instance.
A second future exists only if the policy cloned the request and the histogram has enough data points; it is
a clone of the second instance with the cloned request, due `delay` from now. -/
theorem C39_call (into : Err → BErr) (H : HedgeCfg W Req) (S : Service W Req Res Err) (a b : S.σ) (r : Req) (w : W) :
    ((Hedge into H S).call (a, b) r).run w =
      match H.cloneRequest r w with
      | none => ((S.call a r).run w).void (fun x => (((H.clock.now w, x.1), none), (x.2, b)))
      | some r' =>
        let w1 := (H.enough w).2
        if (H.enough w).1 = true then
          let w2 := (H.delay w1).2
          ((S.call a r).run w2).void (fun x =>
            (((H.clock.now w2, x.1), some (.delaying (H.clock.now w2 + (H.delay w1).1) r' (S.clone b))), (x.2, b)))
        else ((S.call a r).run w1).void (fun x => (((H.clock.now w1, x.1), none), (x.2, b))) := by
  simp only [Hedge, Select, run_bind, run_lift, HedgeCfg.selectClone]
  cases hc : H.cloneRequest r w with
  | none =>
    simp only [run_bind, Latency, run_get]
    cases (S.call a r).run w <;> rfl
  | some r' =>
    cases he : (H.enough w).1 with
    | false =>
      simp only [Bool.false_eq_true, if_false, run_bind, Latency, run_get]
      cases (S.call a r).run (H.enough w).2 <;> rfl
    | true =>
      simp only [if_true, run_bind, Delay, run_lift, run_get, run_pure, Latency]
      cases (S.call a r).run (H.delay (H.enough w).2).2 <;> rfl

/-- **C39 (readiness).** Hedge is ready exactly when the primary instance is. -/
theorem C39_ready (into : Err → BErr) (H : HedgeCfg W Req) (S : Service W Req Res Err) (a b : S.σ) (w : W) :
    ((Hedge into H S).pollReady (a, b)).run w =
      ((S.pollReady a).run w).void (fun x => (x.1.map (mapErr into), (x.2, b))) := by
  simp only [Hedge, Select, Latency, Delay, run_bind]
  cases (S.pollReady a).run w with
  | panic m => rfl
  | spin => rfl
  | ok x w' =>
    obtain ⟨p, y⟩ := x
    match p with
    | .pending => rfl
    | .ready (.ok ()) => rfl
    | .ready (.error e) => rfl

/-! ## Counting attempts -/

/-- If each poll does non-negative work, paid for by a potential, the total work is bounded by it. -/
theorem Fut.work_le {α : Type} (ν : W → Int) (F : Fut W α) (J : F.φ → Prop) (pot : F.φ → Int)
    (h0 : ∀ f, 0 ≤ pot f)
    (hs : ∀ f w p f' w', J f → (F.poll f).run w = .ok (p, f') w' →
      J f' ∧ ν w ≤ ν w' ∧ ν w' - ν w + pot f' ≤ pot f)
    (f : F.φ) (hf : J f) (ws : List W) : 0 ≤ F.work ν f ws ∧ F.work ν f ws ≤ pot f := by
  induction ws generalizing f with
  | nil => exact ⟨Int.le_refl _, h0 f⟩
  | cons w ws ih =>
    simp only [Fut.work]
    cases hp : (F.poll f).run w with
    | panic m => exact ⟨Int.le_refl _, h0 f⟩
    | spin => exact ⟨Int.le_refl _, h0 f⟩
    | ok a w' =>
      obtain ⟨p, f'⟩ := a
      obtain ⟨hJ, h1, h2⟩ := hs f w p f' w' hf hp
      cases p with
      | pending =>
        obtain ⟨h3, h4⟩ := ih f' hJ
        simp only
        constructor <;> omega
      | ready a =>
        have := h0 f'
        simp only
        constructor <;> omega

/-- `ν` counts the calls of `S`; bookkeeping of the hedge does not touch it. -/
structure HedgeCounts (ν : W → Int) (H : HedgeCfg W Req) (S : Service W Req Res Err) : Prop where
  calls : CountsCalls ν S
  record : ∀ d w, ν (H.record d w) = ν w
  delay : ∀ w, ν (H.delay w).2 = ν w
  enough : ∀ w, ν (H.enough w).2 = ν w
  arm : ∀ d w, ν (H.clock.arm d w) = ν w

variable {into : Err → BErr} {H : HedgeCfg W Req} {S : Service W Req Res Err} {ν : W → Int}

theorem latency_counts (hν : HedgeCounts ν H S) : CountsCalls ν (Latency into H.clock H.record S) where
  ready s := by
    intro w a w' h
    simp only [Latency, run_bind] at h
    cases hp : (S.pollReady s).run w with
    | panic m => simp [hp] at h
    | spin => simp [hp] at h
    | ok b w1 =>
      have := hν.calls.ready _ _ _ _ hp
      simp only [hp, run_pure] at h; cases h; omega
  call s r := by
    intro w a w' h
    simp only [Latency, run_bind, run_get] at h
    cases hp : (S.call s r).run w with
    | panic m => simp [hp] at h
    | spin => simp [hp] at h
    | ok b w1 =>
      have := hν.calls.call _ _ _ _ _ hp
      simp only [hp, run_pure] at h; cases h; omega
  poll x := by
    intro w a w' h
    simp only [Latency, run_bind] at h
    cases hp : (S.poll x.2).run w with
    | panic m => simp [hp] at h
    | spin => simp [hp] at h
    | ok b w1 =>
      have := hν.calls.poll _ _ _ _ hp
      obtain ⟨p, y⟩ := b
      match p with
      | .pending => simp only [hp, run_pure] at h; cases h; omega
      | .ready (.error e) => simp only [hp, run_pure] at h; cases h; omega
      | .ready (.ok r) =>
        simp only [hp, run_bind, run_get, run_modify, run_pure] at h
        cases h
        have := hν.record (H.clock.now w1 - x.1) w1
        omega

/-- what the check of the hedge may still cost -/
def checkPot {F S' G : Type} : AsyncFilterFut (Option F) S' G → Int
  | .check (some _) _ => 1
  | .check none _ => 0
  | .waitResponse _ => 0

/-- what the oneshot of the hedge may still cost; `g r` bounds the cost of request `r` -/
def oneshotPot {F S' G : Type} (g : Req → Int) : OneshotState S' Req (AsyncFilterFut (Option F) S' G) → Int
  | .notReady _ (some r) => g r
  | .notReady _ none => 0
  | .called x => checkPot x
  | .done => 0

/-- what the second future may still cost -/
def secondPot {F S' G : Type} (g : Req → Int) :
    DelayFut S' Req (OneshotState S' Req (AsyncFilterFut (Option F) S' G)) → Int
  | .delaying _ r _ => g r
  | .called x => oneshotPot g x

theorem filtered_poll_costs (L : Service W Req Res BErr) (hL : CountsCalls ν L)
    (check : Req → W → Option Req × W) (x x' : AsyncFilterFut (Option Req) L.σ L.φ) (w w' : W)
    (p : Poll (Except BErr Res))
    (h : ((AsyncFilter id hedgePredFut check L).poll x).run w = .ok (p, x') w') :
    ν w ≤ ν w' ∧ ν w' - ν w + checkPot x' ≤ checkPot x := by
  match x with
  | .check none s =>
    simp only [AsyncFilter, hedgePredFut, run_bind, run_pure] at h
    cases h
    simp [checkPot]
  | .check (some r) s =>
    simp only [AsyncFilter, hedgePredFut, run_bind, run_pure] at h
    cases hc : (L.call s r).run w with
    | panic m => simp [hc] at h
    | spin => simp [hc] at h
    | ok c w1 =>
      have h1 := hL.call _ _ _ _ _ hc
      simp only [hc] at h
      cases hp : (L.poll c.1).run w1 with
      | panic m => simp [hp] at h
      | spin => simp [hp] at h
      | ok d w2 =>
        have h2 := hL.poll _ _ _ _ hp
        simp only [hp] at h
        cases h
        simp only [checkPot]
        constructor <;> omega
  | .waitResponse y =>
    simp only [AsyncFilter, run_bind] at h
    cases hp : (L.poll y).run w with
    | panic m => simp [hp] at h
    | spin => simp [hp] at h
    | ok d w2 =>
      have h2 := hL.poll _ _ _ _ hp
      simp only [hp, run_pure] at h
      cases h
      simp only [checkPot]
      constructor <;> omega

/-- A Oneshot pays for what the future of its service may cost. -/
theorem oneshot_poll_costs (T : Service W Req Res BErr) (g : Req → Int) (pot : T.φ → Int)
    (hg : ∀ r, 0 ≤ g r) (h0 : ∀ f, 0 ≤ pot f)
    (hr : ∀ s, Costs ν (T.pollReady s) 0)
    (hc : ∀ s r w f s' w', (T.call s r).run w = .ok (f, s') w' → ν w' = ν w ∧ pot f ≤ g r)
    (hp : ∀ f w p f' w', (T.poll f).run w = .ok (p, f') w' → ν w ≤ ν w' ∧ ν w' - ν w + pot f' ≤ pot f)
    (P : OneshotState T.σ Req T.φ → Int)
    (hP : ∀ x, P x = match x with
      | .notReady _ (some r) => g r
      | .notReady _ none => 0
      | .called x => pot x
      | .done => 0)
    (x x' : OneshotState T.σ Req T.φ) (w w' : W) (p : Poll (Except BErr Res))
    (h : ((Oneshot T).poll x).run w = .ok (p, x') w') : ν w ≤ ν w' ∧ ν w' - ν w + P x' ≤ P x := by
  have hpoll : ∀ f w, ∀ (w1 : W) (b : Poll (Except BErr Res) × T.φ), (T.poll f).run w = .ok b w1 →
      ∀ y, (y = OneshotState.called b.2 ∨ y = .done) → ν w ≤ ν w1 ∧ ν w1 - ν w + P y ≤ pot f := by
    intro f w w1 b hb y hy
    have h1 := hp f w b.1 b.2 w1 hb
    have h2 := h0 b.2
    rcases hy with rfl | rfl <;> simp only [hP] <;> constructor <;> omega
  match x with
  | .done => simp [Oneshot] at h
  | .called f =>
    simp only [Oneshot, run_bind] at h
    cases hq : (T.poll f).run w with
    | panic m => simp [hq] at h
    | spin => simp [hq] at h
    | ok b w1 =>
      have h1 := hpoll f w w1 b hq
      obtain ⟨q, f'⟩ := b
      rw [hP (.called f)]
      match q with
      | .pending => simp only [hq, run_pure] at h; cases h; exact h1 _ (.inl rfl)
      | .ready (.error e) => simp only [hq, run_pure] at h; cases h; exact h1 _ (.inl rfl)
      | .ready (.ok a) => simp only [hq, run_pure] at h; cases h; exact h1 _ (.inr rfl)
  | .notReady s o =>
    simp only [Oneshot, run_bind] at h
    cases hq : (T.pollReady s).run w with
    | panic m => simp [hq] at h
    | spin => simp [hq] at h
    | ok b w1 =>
      have h1 := hr s w b w1 hq
      obtain ⟨q, s'⟩ := b
      match q with
      | .pending =>
        simp only [hq, run_pure] at h; cases h
        cases o <;> simp only [hP] <;> constructor <;> omega
      | .ready (.error e) =>
        simp only [hq, run_pure] at h; cases h
        cases o <;> simp only [hP] <;> constructor <;> omega
      | .ready (.ok ()) =>
        cases o with
        | none => simp [hq] at h
        | some r =>
          simp only [hq, run_bind] at h
          cases hcl : (T.call s' r).run w1 with
          | panic m => simp [hcl] at h
          | spin => simp [hcl] at h
          | ok c w2 =>
            obtain ⟨f, z⟩ := c
            have h2 := hc _ _ _ _ _ _ hcl
            simp only [hcl] at h
            cases hq2 : (T.poll f).run w2 with
            | panic m => simp [hq2] at h
            | spin => simp [hq2] at h
            | ok b w3 =>
              have h3 := hpoll f w2 w3 b hq2
              obtain ⟨q, f'⟩ := b
              rw [hP (.notReady s (some r))]
              match q with
              | .pending =>
                simp only [hq2, run_pure] at h; cases h
                have := h3 (.called f') (.inl rfl)
                constructor <;> (try simp only) <;> omega
              | .ready (.error e) =>
                simp only [hq2, run_pure] at h; cases h
                have := h3 (.called f') (.inl rfl)
                constructor <;> (try simp only) <;> omega
              | .ready (.ok a) =>
                simp only [hq2, run_pure] at h; cases h
                have := h3 _ (.inr rfl)
                constructor <;> (try simp only) <;> omega

open Classical in
/-- one if the policy may ever agree to retry `r` -/
noncomputable def HedgeCfg.may (H : HedgeCfg W Req) (r : Req) : Int :=
  if ∃ v, H.canRetry r v = true then 1 else 0

theorem checkPot_nonneg {F S' G : Type} (x : AsyncFilterFut (Option F) S' G) : 0 ≤ checkPot x := by
  match x with
  | .check (some _) _ => simp [checkPot]
  | .check none _ => simp [checkPot]
  | .waitResponse _ => simp [checkPot]

theorem HedgeCfg.may_nonneg (H : HedgeCfg W Req) (r : Req) : 0 ≤ H.may r := by
  unfold HedgeCfg.may; split <;> simp

theorem HedgeCfg.may_le (H : HedgeCfg W Req) (r : Req) : H.may r ≤ 1 := by
  unfold HedgeCfg.may; split <;> simp

theorem second_oneshot_costs (L : Service W Req Res BErr) (hL : CountsCalls ν L)
    (x x' : OneshotState L.σ Req (AsyncFilterFut (Option Req) L.σ L.φ))
    (w w' : W) (p : Poll (Except BErr Res))
    (h : ((Oneshot (AsyncFilter id hedgePredFut
      (fun r w => (if H.canRetry r w then some r else none, w)) L)).poll x).run w = .ok (p, x') w') :
    ν w ≤ ν w' ∧ ν w' - ν w + oneshotPot H.may x' ≤ oneshotPot H.may x := by
  refine oneshot_poll_costs (ν := ν) (AsyncFilter id hedgePredFut
      (fun r w => (if H.canRetry r w then some r else none, w)) L) H.may checkPot H.may_nonneg checkPot_nonneg
      ?_ ?_ ?_ (oneshotPot H.may) ?_ x x' w w' p h
  · intro s w a w' h
    simp only [AsyncFilter, run_bind] at h
    cases hp : (L.pollReady s).run w with
    | panic m => simp [hp] at h
    | spin => simp [hp] at h
    | ok b w1 =>
      have := hL.ready _ _ _ _ hp
      simp only [hp, run_pure] at h; cases h; omega
  · intro s r w f s' w' h
    simp only [AsyncFilter, run_bind, run_lift, run_pure] at h
    cases h
    refine ⟨rfl, ?_⟩
    cases hc : H.canRetry r w with
    | false => simp [checkPot]; exact H.may_nonneg r
    | true =>
      have : H.may r = 1 := by
        unfold HedgeCfg.may; rw [if_pos ⟨w, hc⟩]
      simp [checkPot, this]
  · intro f w p f' w' h
    exact filtered_poll_costs L hL _ f f' w w' p h
  · intro x
    match x with
    | .notReady _ (some r) => rfl
    | .notReady _ none => rfl
    | .called x => rfl
    | .done => rfl

theorem second_poll_costs (L : Service W Req Res BErr) (hL : CountsCalls ν L) (C : Clock W) (hC : ∀ d w, ν (C.arm d w) = ν w) (dly : Req → W → Nat × W)
    (x x' : DelayFut L.σ Req (OneshotState L.σ Req (AsyncFilterFut (Option Req) L.σ L.φ)))
    (w w' : W) (p : Poll (Except BErr Res))
    (h : ((Delay id C dly (AsyncFilter id hedgePredFut
      (fun r w => (if H.canRetry r w then some r else none, w)) L)).poll x).run w = .ok (p, x') w') :
    ν w ≤ ν w' ∧ ν w' - ν w + secondPot H.may x' ≤ secondPot H.may x := by
  have key := @second_oneshot_costs W Req Res BErr H ν L hL
  match x with
  | .delaying dl r s =>
    simp only [Delay, run_bind, run_get] at h
    split at h
    · simp only [run_bind] at h
      split at h
      · rename_i b w1 hb
        simp only [run_pure] at h
        cases h
        exact key _ _ _ _ _ hb
      · cases h
      · cases h
    · simp only [run_bind, run_modify, run_pure] at h
      cases h
      rw [hC]
      exact ⟨Int.le_refl _, by rw [Int.sub_self, Int.zero_add]; exact Int.le_refl _⟩
  | .called y =>
    simp only [Delay, run_bind] at h
    split at h
    · rename_i b w1 hb
      simp only [run_pure] at h
      cases h
      exact key _ _ _ _ _ hb
    · cases h
    · cases h

/-- the potential of both futures -/
noncomputable def hedgePot {A F S' G : Type} (g : Req → Int) :
    A × Option (DelayFut S' Req (OneshotState S' Req (AsyncFilterFut (Option F) S' G))) → Int
  | (_, none) => 0
  | (_, some b) => secondPot g b

theorem secondPot_nonneg {F S' G : Type} (g : Req → Int) (hg : ∀ r, 0 ≤ g r)
    (x : DelayFut S' Req (OneshotState S' Req (AsyncFilterFut (Option F) S' G))) : 0 ≤ secondPot g x := by
  match x with
  | .delaying _ r _ => exact hg r
  | .called (.notReady _ (some r)) => exact hg r
  | .called (.notReady _ none) => simp [secondPot, oneshotPot]
  | .called (.called x) => exact checkPot_nonneg x
  | .called .done => simp [secondPot, oneshotPot]

theorem select_poll_costs (cl : Req → W → Option Req × W) (A B : Service W Req Res BErr) (pot : B.φ → Int)
    (hA : ∀ f, Costs ν (A.poll f) 0)
    (hB : ∀ f w p f' w', (B.poll f).run w = .ok (p, f') w' → ν w ≤ ν w' ∧ ν w' - ν w + pot f' ≤ pot f)
    (P : A.φ × Option B.φ → Int) (hP : ∀ a, P (a, none) = 0) (hP' : ∀ a b, P (a, some b) = pot b)
    (x x' : A.φ × Option B.φ) (w w' : W) (p : Poll (Except BErr Res))
    (h : ((Select cl A B).poll x).run w = .ok (p, x') w') : ν w ≤ ν w' ∧ ν w' - ν w + P x' ≤ P x := by
  obtain ⟨a, o⟩ := x
  simp only [Select, run_bind] at h
  cases hp : (A.poll a).run w with
  | panic m => simp [hp] at h
  | spin => simp [hp] at h
  | ok b w1 =>
    have h1 := hA _ _ _ _ hp
    obtain ⟨q, a'⟩ := b
    cases q with
    | ready r =>
      simp only [hp, run_pure] at h
      cases h
      cases o <;> simp only [hP, hP'] <;> constructor <;> omega
    | pending =>
      cases o with
      | none =>
        simp only [hp, run_pure] at h
        cases h
        simp only [hP]; constructor <;> omega
      | some y =>
        simp only [hp, run_bind] at h
        cases hq : (B.poll y).run w1 with
        | panic m => simp [hq] at h
        | spin => simp [hq] at h
        | ok c w2 =>
          obtain ⟨q2, y'⟩ := c
          have h2 := hB _ _ _ _ _ hq
          cases q2 with
          | pending =>
            simp only [hq, run_pure] at h
            cases h
            simp only [hP']; constructor <;> omega
          | ready r =>
            simp only [hq, run_pure] at h
            cases h
            simp only [hP']; constructor <;> omega

theorem hedge_work_le (hν : HedgeCounts ν H S) (x : (Hedge into H S).φ) (ws : List W) :
    0 ≤ (Hedge into H S).futOf.work ν x ws ∧ (Hedge into H S).futOf.work ν x ws ≤ hedgePot H.may x := by
  have hL := @latency_counts W Req Res Err BErr into H S ν hν
  refine Fut.work_le ν (Hedge into H S).futOf (fun _ => True) (hedgePot H.may) ?_ ?_ x trivial ws
  · rintro ⟨a, o⟩
    cases o with
    | none => simp [hedgePot]
    | some b => exact secondPot_nonneg _ H.may_nonneg b
  · intro f w p f' w' _ h
    refine ⟨trivial, ?_⟩
    exact select_poll_costs H.selectClone (Latency into H.clock H.record S)
      (Delay id H.clock (fun _ => H.delay)
        (AsyncFilter id hedgePredFut (fun r w => (if H.canRetry r w then some r else none, w))
          (Latency into H.clock H.record S))) (secondPot H.may) hL.poll
      (fun f w p f' w' h => second_poll_costs _ hL H.clock hν.arm _ f f' w w' p h)
      (hedgePot H.may) (fun _ => rfl) (fun _ _ => rfl) f f' w w' p h

/-- **C39 (at most two attempts).** `call` calls the inner service exactly once; polling the response, on any
schedule, calls it at most once more. -/
theorem C39_at_most_two (hν : HedgeCounts ν H S) (a b : S.σ) (r : Req) (w w' : W) (x : (Hedge into H S).φ)
    (s' : (Hedge into H S).σ) (h : ((Hedge into H S).call (a, b) r).run w = .ok (x, s') w') (ws : List W) :
    ν w' = ν w + 1 ∧ 0 ≤ (Hedge into H S).futOf.work ν x ws ∧ (Hedge into H S).futOf.work ν x ws ≤ 1 := by
  have hw := hedge_work_le (into := into) hν x ws
  rw [C39_call] at h
  have hcall : ∀ (w1 w' : W) (k : S.φ × S.σ → (Hedge into H S).φ × (Hedge into H S).σ) y,
      ((S.call a r).run w1).void k = .ok y w' → ν w' = ν w1 + 1 ∧ ∃ z, y = k z := by
    intro w1 w' k y h
    cases hc : (S.call a r).run w1 with
    | panic m => simp [hc, Out.void] at h
    | spin => simp [hc, Out.void] at h
    | ok c w2 =>
      have := hν.calls.call _ _ _ _ _ hc
      simp only [hc, Out.void, Out.ok.injEq] at h
      obtain ⟨rfl, rfl⟩ := h
      exact ⟨this, _, rfl⟩
  have hd := hν.delay
  have he := hν.enough
  split at h
  · obtain ⟨h1, z, hz⟩ := hcall _ _ _ _ h
    cases hz
    simp only [hedgePot] at hw
    omega
  · rename_i r' _
    simp only at h
    split at h
    · obtain ⟨h1, z, hz⟩ := hcall _ _ _ _ h
      cases hz
      simp only [hedgePot, secondPot] at hw
      have := H.may_le r'
      have := hd (H.enough w).2
      have := he w
      omega
    · obtain ⟨h1, z, hz⟩ := hcall _ _ _ _ h
      cases hz
      simp only [hedgePot] at hw
      have := he w
      omega

/-- **C39 (when a second attempt is made).** If polling the response of a call did call the inner service,
then: the policy cloned the request, there were enough data points, `can_retry` agreed for the clone at some
moment, and there was a poll, at all polls up to which (inclusive) the primary was pending, in which the delay
(measured from the call) had elapsed. -/
theorem C39_when (hν : HedgeCounts ν H S) (a b : S.σ) (r : Req) (w w' : W) (x : (Hedge into H S).φ)
    (s' : (Hedge into H S).σ) (h : ((Hedge into H S).call (a, b) r).run w = .ok (x, s') w') (ws : List W)
    (hwork : (Hedge into H S).futOf.work ν x ws ≠ 0) :
    ∃ r', H.cloneRequest r w = some r' ∧ (H.enough w).1 = true ∧ (∃ v, H.canRetry r' v = true) ∧
      ∃ pre rest a' posts v, ws = pre ++ rest ∧
        (Latency into H.clock H.record S).futOf.pendings x.1 pre = some (a', posts ++ [v]) ∧
        H.clock.now (H.delay (H.enough w).2).2 + (H.delay (H.enough w).2).1 ≤ H.clock.now v := by
  have hw := hedge_work_le (into := into) hν x ws
  rw [C39_call] at h
  have hcall : ∀ (w1 w' : W) (k : S.φ × S.σ → (Hedge into H S).φ × (Hedge into H S).σ) y,
      ((S.call a r).run w1).void k = .ok y w' → ∃ z, y = k z := by
    intro w1 w' k y h
    cases hc : (S.call a r).run w1 with
    | panic m => simp [hc, Out.void] at h
    | spin => simp [hc, Out.void] at h
    | ok c w2 =>
      simp only [hc, Out.void, Out.ok.injEq] at h
      obtain ⟨rfl, rfl⟩ := h
      exact ⟨_, rfl⟩
  split at h
  · obtain ⟨z, hz⟩ := hcall _ _ _ _ h
    cases hz
    simp only [hedgePot] at hw
    omega
  · rename_i r' hcl
    simp only at h
    split at h
    · rename_i hen
      obtain ⟨z, hz⟩ := hcall _ _ _ _ h
      cases hz
      refine ⟨r', hcl, hen, ?_, ?_⟩
      · simp only [hedgePot, secondPot] at hw
        by_cases hv : ∃ v, H.canRetry r' v = true
        · exact hv
        · have : H.may r' = 0 := by unfold HedgeCfg.may; rw [if_neg hv]
          omega
      · clear hw h
        generalize H.clock.now (H.delay (H.enough w).2).2 + (H.delay (H.enough w).2).1 = dl at hwork ⊢
        have hL := @latency_counts W Req Res Err BErr into H S ν hν
        simp only
        generalize (H.clock.now (H.delay (H.enough w).2).2, z.1) = f at hwork ⊢
        induction ws generalizing f with
        | nil => simp [Fut.work] at hwork
        | cons v ws ih =>
          simp only [Fut.work, Service.futOf, Hedge, Select, run_bind] at hwork
          cases hp : ((Latency into H.clock H.record S).poll f).run v with
          | panic m => simp [hp] at hwork
          | spin => simp [hp] at hwork
          | ok c w1 =>
            have h1 := hL.poll _ _ _ _ hp
            obtain ⟨q, f'⟩ := c
            cases q with
            | ready r => simp [hp] at hwork; omega
            | pending =>
              by_cases hf : H.clock.fired dl w1 = true
              · refine ⟨[v], ws, f', [], w1, rfl, ?_, H.clock.sound _ _ hf⟩
                simp [Fut.pendings, Service.futOf, hp]
              · simp only [hp, Delay, run_bind, run_get, run_modify, hf, if_false, run_pure, Bool.false_eq_true, hν.arm] at hwork
                have h2 : (Hedge into H S).futOf.work ν (f', some (.delaying dl r' (S.clone b))) ws ≠ 0 := by
                  intro h0
                  apply hwork
                  have h3 : ν w1 - ν v = 0 := by omega
                  rw [h3]
                  simp only [Int.zero_add]
                  exact h0
                obtain ⟨pre, rest, a', posts, u, rfl, hpre, hu⟩ := ih f' h2
                refine ⟨v :: pre, rest, a', w1 :: posts, u, rfl, ?_, hu⟩
                simp only [Fut.pendings, Service.futOf, hp]
                simp only [Service.futOf] at hpre
                simp [hpre]
    · obtain ⟨z, hz⟩ := hcall _ _ _ _ h
      cases hz
      simp only [hedgePot] at hw
      omega

/-- after polls that were all pending, one that is ready ends the drive -/
theorem Fut.drive_of_pendings {α : Type} (F : Fut W α) (f : F.φ) (pre : List W) (f' : F.φ) (posts : List W) (w0 w : W) (a : α) (y : F.φ) (rest : List W)
    (h : F.pendings f pre = some (f', posts)) (hp : (F.poll f').run w0 = .ok (.ready a, y) w) : F.drive f (pre ++ w0 :: rest) = .done a w rest := by
  induction pre generalizing f posts with
  | nil =>
    simp only [Fut.pendings, Option.some.injEq, Prod.mk.injEq] at h
    rw [← h.1] at hp
    simp [Fut.drive, hp]
  | cons v vs ih =>
    simp only [Fut.pendings] at h
    rcases hq : (F.poll f).run v with ⟨⟨q, g⟩, v'⟩ | _ | _
    · rw [hq] at h
      cases q with
      | ready _ => simp at h
      | pending =>
        simp only [Option.map_eq_some_iff] at h
        obtain ⟨⟨g', ps⟩, h1, h2⟩ := h
        simp only [Prod.mk.injEq] at h2
        simp only [List.cons_append, Fut.drive, hq]
        exact ih g ps (by rw [h1, h2.1])
    · rw [hq] at h; simp at h
    · rw [hq] at h; simp at h

/-- **C40 (suppressed).** If `can_retry` declines the clone, the second future never completes the request with a response:
all it can report is that the readiness of the second instance failed. -/
theorem C40_suppressed (dl : Nat) (r : Req) (s : S.σ) (ws : List W) (res : Except BErr Res) (w : W)
    (rest : List W) (hno : ∀ v, H.canRetry r v = false)
    (h : (H.second into S).futOf.drive (.delaying dl r s) ws = .done res w rest) :
    ∃ e ws', S.readyFut.drive s ws' = .done (.error e) w rest ∧ res = .error (into e) := by
  rw [C39_hedge_attempt] at h
  simp only [hno, Bool.false_eq_true, if_false] at h
  cases hs : (H.clock.sleep dl).drive () ws with
  | pending => simp [hs, Drive.andThen] at h
  | panic => simp [hs, Drive.andThen] at h
  | spin => simp [hs, Drive.andThen] at h
  | done u w1 rest1 =>
    simp only [hs, Drive.andThen] at h
    cases hr : S.readyFut.drive s (w1 :: rest1) with
    | pending => simp [hr] at h
    | panic => simp [hr] at h
    | spin => simp [hr] at h
    | done q w2 rest2 =>
      simp only [hr] at h
      cases q with
      | ok s' => simp at h
      | error e =>
        simp only [Drive.done.injEq] at h
        obtain ⟨rfl, rfl, rfl⟩ := h
        exact ⟨e, _, hr, rfl⟩

/-- **C40 (suppressed, the request).** So the outcome of a request whose hedge is declined is that of the primary, unless the readiness of the second instance failed first. -/
theorem C40_suppressed_outcome (x : Nat × S.φ) (dl : Nat) (r : Req) (s : S.σ) (ws : List W) (res : Except BErr Res) (w : W)
    (rest : List W) (hno : ∀ v, H.canRetry r v = false)
    (h : (Hedge into H S).futOf.drive (x, some (.delaying dl r s)) ws = .done res w rest) :
    (Latency into H.clock H.record S).futOf.drive x ws = .done res w rest ∨
    ∃ e ws' rest', S.readyFut.drive s ws' = .done (.error e) w rest' ∧ res = .error (into e) := by
  obtain ⟨pre, w0, a', posts, b', posts', rfl, h1, h2, ⟨y, h3⟩ | ⟨y, w1, z, h3, h4⟩⟩ := (C40_race _ _ _ _ _ _ _ _ _).1 h
  · exact .inl (Fut.drive_of_pendings _ _ _ _ _ _ _ _ _ _ h1 h3)
  · obtain ⟨e, ws', h5, h6⟩ := C40_suppressed (into := into) dl r s (posts ++ [w1]) res w [] hno (Fut.drive_of_pendings (H.second into S).futOf _ _ _ _ _ _ _ _ _ h2 h4)
    exact .inr ⟨e, ws', [], h5, h6⟩

/-! ## Concrete cases -/

namespace Demo39

/-- World: (time, calls). The first response is ready at 20, later ones at 12. -/
abbrev WC := Nat × Nat

def inner : Service WC Nat Nat String where
  σ := Unit
  φ := Nat × Nat
  pollReady _ := pure (.ready (.ok ()), ())
  call _ r := ⟨fun w => .ok ((r, w.2), ()) (w.1, w.2 + 1)⟩
  poll x := ⟨fun w => .ok (if w.1 ≥ (if x.2 = 0 then 20 else 12) then .ready (.ok (x.1 + x.2)) else .pending, x) w⟩
  clone := id

def cfg (can : Bool) : HedgeCfg WC Nat where
  clock := { now := Prod.fst, fired := fun d w => decide (d ≤ w.1), sound := fun d w h => by simpa using h }
  cloneRequest r _ := some r
  canRetry _ _ := can
  record _ w := w
  delay w := (5, w)
  enough w := (true, w)

theorem counts (can : Bool) : HedgeCounts (fun w : WC => (w.2 : Int)) (cfg can) inner where
  calls := {
    ready := by intro s w a w' h; injection h with _ h2; subst h2; simp
    call := by intro s r w a w' h; injection h with _ h2; subst h2; simp
    poll := by intro s w a w' h; injection h with _ h2; subst h2; simp }
  record := by intros; rfl
  delay := by intros; rfl
  enough := by intros; rfl
  arm := by intros; rfl

/-- the call at time 1 makes the primary attempt and schedules the hedge for time 6 -/
example : ((Hedge id (cfg true) inner).call ((), ()) (100 : Nat)).run (1, 0) =
    .ok (((1, ((100 : Nat), 0)), some (.delaying 6 (100 : Nat) ())), ((), ())) (1, 1) := rfl
/-- the hedge (sent at 7, when one call had been made) wins -/
example : (Hedge id (cfg true) inner).futOf.drive ((1, ((100 : Nat), 0)), some (.delaying 6 (100 : Nat) ()))
    [(2, 1), (7, 1), (13, 2), (25, 2)] = .done (.ok 101) (13, 2) [(25, 2)] := rfl
example : (Hedge id (cfg true) inner).futOf.work (fun w => (w.2 : Int))
    ((1, ((100 : Nat), 0)), some (.delaying 6 (100 : Nat) ())) [(2, 1), (7, 1), (13, 2), (25, 2)] = 1 := rfl
/-- the policy declines: the primary decides -/
example : (Hedge id (cfg false) inner).futOf.drive ((1, ((100 : Nat), 0)), some (.delaying 6 (100 : Nat) ()))
    [(2, 1), (7, 1), (13, 1), (25, 1)] = .done (.ok 100) (25, 1) [] := rfl

/-- Ready only until time 5. -/
def flaky : Service WC Nat Nat String := { inner with pollReady := fun _ => ⟨fun w => .ok (if w.1 ≤ 5 then .ready (.ok ()) else .ready (.error "down"), ()) w⟩ }

/-- **C40 (finding).** The hedge is due at 6 and its instance fails to become ready: the request fails at 7, although the policy would not have sent the hedge at all and the primary, which is in flight, would have answered at 20. -/
theorem C40_unsent_hedge_fails_request : (Hedge id (cfg false) flaky).futOf.drive ((1, ((100 : Nat), 0)), some (.delaying 6 (100 : Nat) ())) [(2, 1), (7, 1), (25, 1)] = .done (.error "down") (7, 1) [(25, 1)] ∧
    (Latency id (cfg false).clock (cfg false).record flaky).futOf.drive (1, ((100 : Nat), 0)) [(2, 1), (7, 1), (25, 1)] = .done (.ok 100) (25, 1) [] := ⟨rfl, rfl⟩
end Demo39

end Tower
