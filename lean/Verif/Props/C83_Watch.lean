import Verif.Props.C01_Contract
import Verif.Props.C64_BufferUse

/-!
# C83: every stack is a lawful user of what it wraps

What holds of a service in the hands of a single lawful user (`Uses`) holds of it, whatever stack of middleware is put on top. So
`RateLimit` limits the rate under any stack.
-/

set_option linter.unusedSimpArgs false

namespace Tower
open Act
variable {W : Type}

section
variable {Req Res Err : Type} {S : Service W Req Res Err}

/-- without cloning there is one user -/
theorem UsesC.uses {s0 s : S.σ} {m : Mode} {reqs : List Req} (h : UsesC false S s0 s m reqs) : Uses S s0 s m reqs := by
  induction h with
  | new => exact .new
  | clone hc => cases hc
  | ready _ hm hr ih => exact .ready ih hm hr
  | call _ hr ih => exact .call ih hr

theorem wp_alarm {α : Type} {p : Prop} {a : α} {Q : α → W → Prop} {w : W} (hp : p) (h : Q a w) : wp (alarm p a) Q w := by
  unfold alarm
  rw [if_pos hp]
  exact h

/-- the alarm of a service never goes off in the hands of lawful users if `P` holds in their hands -/
theorem Watched.safe {c st : Bool} {good : Res → Prop} {s0 : S.σ} {P : S.σ → List Req → Prop} (h : SafeG ⟨c, st⟩ good S s0)
    (hP : ∀ s m reqs, UsesC c S s0 s m reqs → P s reqs) : SafeG ⟨c, st⟩ good (Watched S P) (s0, []) := by
  obtain ⟨I, hI⟩ := h.inv
  exact SafeInv.safe (cfg := ⟨c, st⟩) (S := Watched S P)
    { H := fun s m => I.H s.1 m ∧ UsesC c S s0 s.1 m s.2
      F := I.F
      ready_ok := by
        rintro ⟨s, reqs⟩ m w ⟨h1, h2⟩ hm
        have h3 := I.ready_ok s m w h1 hm
        unfold wp at h3
        unfold wp
        simp only [run_bind]
        cases hr : (S.pollReady s).run w with
        | panic _ => simp [hr] at h3
        | spin => trivial
        | ok a w' =>
          obtain ⟨p, s'⟩ := a
          simp only [hr] at h3 ⊢
          have hu := UsesC.ready h2 hm hr
          refine wp_alarm (hP _ _ _ hu) ?_
          match p, h3, hu with
          | .pending, h3, hu => exact ⟨⟨h3.1, hu⟩, h3.2⟩
          | .ready (.ok ()), h3, hu => exact ⟨h3, hu⟩
          | .ready (.error e), _, _ => trivial
      call_ok := by
        rintro ⟨s, reqs⟩ r w ⟨h1, h2⟩
        have h3 := I.call_ok s r w h1
        unfold wp at h3
        unfold wp
        simp only [run_bind]
        cases hr : (S.call s r).run w with
        | panic _ => simp [hr] at h3
        | spin => trivial
        | ok a w' =>
          obtain ⟨f, s'⟩ := a
          simp only [hr] at h3 ⊢
          have hu := UsesC.call h2 hr
          exact wp_alarm (hP _ _ _ hu) ⟨h3.1, h3.2, hu⟩
      poll_ok := I.poll_ok
      clone_ok := by
        rintro hc ⟨s, reqs⟩ m hm ⟨h1, h2⟩
        exact ⟨I.clone_ok hc s m hm h1, .clone hc h2 hm⟩ }
    ⟨hI, .new⟩

end

section
variable {Req Res Err Req' Res' Err' : Type}

/-- **C83.** Let `P` hold of a service (its state and the requests it was given) whenever lawful users have it. Then no stack of middleware over it can bring it
to a state in which `P` fails: put an alarm on it that panics if `P` fails, build any stack on top, and use the stack lawfully; nothing ever panics. -/
theorem C83_stack {S : Service W Req Res Err} {c st : Bool} {good : Res → Prop} {s0 : S.σ} {P : S.σ → List Req → Prop} (hS : SafeG ⟨c, st⟩ good S s0)
    (hP : ∀ s m reqs, UsesC c S s0 s m reqs → P s reqs) {cfg : Cfg} {good' : Res' → Prop} {T : Service W Req' Res' Err'} {t : T.σ}
    (stack : Built ⟨c, st⟩ good (Watched S P) (s0, []) → Built cfg good' T t) : SafeG cfg good' T t :=
  (stack (.base (Watched.safe hS hP))).contract

/-- a service with a log keeps the contract -/
theorem Logged.safe {S : Service W Req Res Err} {c st : Bool} {good : Res → Prop} {s : S.σ} (C : Clock W) (t0 : Nat) (l : List Nat) (h : SafeG ⟨c, st⟩ good S s) :
    SafeG ⟨c, st⟩ good (Logged C S) (⟨s, t0, l⟩ : Log S.σ) := by
  obtain ⟨I, hI⟩ := h.inv
  refine SafeInv.safe (S := Logged C S) (cfg := ⟨c, st⟩)
    { H := fun s m => I.H s.svc m, F := I.F, ready_ok := ?_, call_ok := ?_, poll_ok := I.poll_ok, clone_ok := fun hc s m hm h => I.clone_ok hc s.svc m hm h } hI
  · intro s m w h hm
    simp only [wp_bind, wp_get]
    split
    · trivial
    · rw [wp_bind]
      refine wp_mono (I.ready_ok s.svc m w h hm) ?_
      rintro ⟨p, i⟩ w' h'
      match p, h' with
      | .pending, h' => exact h'
      | .ready (.ok ()), h' => exact h'
      | .ready (.error e), _ => trivial
  · intro s r w h
    simp only [wp_bind, wp_get]
    split
    · trivial
    · rw [wp_bind]
      refine wp_mono (I.call_ok s.svc r w h) ?_
      rintro ⟨f, i⟩ w' h'
      exact h'

/-- what a rate limit is for: in no window of `k` periods has the service been called more than `(k + 1) · num` times, and it has been called once for each request -/
def RateOk (R : Rate) (calls : List Nat) (reqs : List Req) : Prop := (∀ a k, callsIn a (a + k * R.per) calls ≤ (k + 1) * R.num) ∧ calls.length = reqs.length

/-- **C83, rate limit.** Whatever stack of middleware is put on a rate limit of `num` per `per`, the wrapped service does not get more than `(k + 1) · num`
requests in any window of `k · per`, and just the requests that came to the rate limit: the stack over the rate limit with an alarm never panics. -/
theorem C83_rate {S : Service W Req Res Err} {c st : Bool} {good : Res → Prop} {s : S.σ} (hS : SafeG ⟨c, st⟩ good S s) (C : Clock W) {R : Rate}
    (hnum : 0 < R.num) (hper : 0 < R.per) (t0 : Nat) {cfg : Cfg} {good' : Res' → Prop} {T : Service W Req' Res' Err'} {t : T.σ}
    (stack : Built ⟨false, st⟩ good (Watched (RateLimit C R (Logged C S)) (fun (x : RateState (Log S.σ)) reqs => RateOk R x.inner.calls reqs))
      ((RateLimit.new R t0 (⟨s, t0, []⟩ : Log S.σ) : RateState (Log S.σ)), []) → Built cfg good' T t) : SafeG cfg good' T t := by
  refine C83_stack (RateLimit.safe C R rfl t0 (Logged.safe C t0 [] hS)) ?_ stack
  intro x m reqs hu
  obtain ⟨h1, h2⟩ := hu.uses.rate
  exact ⟨fun a k => C07_window hnum hper h1 a k, h2⟩

/-- **C83, rate limit under a buffer.** The same for a buffer over any stack over a rate limit: its worker never sees the alarm. -/
theorem C83_rate_buffer {S : Service W Req Res Err} {c st : Bool} {good : Res → Prop} {s : S.σ} (hS : SafeG ⟨c, st⟩ good S s) (C : Clock W) {R : Rate}
    (hnum : 0 < R.num) (hper : 0 < R.per) (t0 : Nat) {cfg : Cfg} {T : Service W Req' Res' Err'} {t : T.σ}
    (stack : Built ⟨false, st⟩ good (Watched (RateLimit C R (Logged C S)) (fun (x : RateState (Log S.σ)) reqs => RateOk R x.inner.calls reqs))
      ((RateLimit.new R t0 (⟨s, t0, []⟩ : Log S.σ) : RateState (Log S.σ)), []) → Built cfg (fun _ => True) T t)
    {bound : Nat} {tr : List (BEv T)} {x : Buf T} (h : BHist T bound t tr x) : .svcPanics ∉ tr :=
  (C64_contract ((C83_rate hS C hnum hper t0 stack).mono (by simp) (by simp) (fun _ h => h)) h).1

end

/-! ## Concrete cases -/

namespace Demo83
open DemoBufRate (rate)

/-- the rate limit over the demo service of C07, with its log -/
abbrev L1 : Service Nat Unit Unit Unit := RateLimit Demo07.clk rate (Logged Demo07.clk Demo07.Free)

/-- the alarm for the rate limit of one call per ten ticks -/
noncomputable abbrev Alarmed : Service Nat Unit Unit Unit :=
  Watched L1 (fun (x : RateState (Log Unit)) reqs => RateOk rate x.inner.calls reqs)

theorem free_safe : SafeG ⟨false, true⟩ (fun _ => True) Demo07.Free () :=
  SafeInv.safe (S := Demo07.Free) (cfg := ⟨false, true⟩)
    { H := fun _ m => m ≠ .failed, F := fun _ => True
      ready_ok := by intro s m w _ _; simp [ReadyPost]
      call_ok := by intro s r w _; simp
      poll_ok := by intro f w _; simp [PollPost]
      clone_ok := by intro h; cases h } (by simp)

/-- load shedding over a timeout over `SpawnReady` (whose background task may not hide the alarm) over the rate limit -/
theorem shed : SafeG ⟨false, true⟩ (fun _ => True) (LoadShed (Timeout Demo07.clk 5 (SpawnReadyLoud 5 ⟨fun w => [w], fun _ => false, id⟩ Alarmed)))
    ⟨.service (some ((RateLimit.new rate 0 (⟨(), 0, []⟩ : Log Unit) : RateState (Log Unit)), [])), false⟩ :=
  C83_rate free_safe Demo07.clk (by decide) (by decide) 0 (fun h => .loadShed true (.timeout Demo07.clk 5 (.spawnReadyLoud 5 _ h)))

/-- a user whom the contract allows nothing else than to wait for readiness can reach the service twice: the calls in the log are at 3 and 13 -/
theorem reached : Uses L1 (RateLimit.new rate 0 (⟨(), 0, []⟩ : Log Unit)) (⟨⟨(), 13, [3, 13]⟩, .limited, 23⟩ : RateState (Log Unit)) .idle [(), ()] :=
  have h1 : Uses L1 (RateLimit.new rate 0 (⟨(), 0, []⟩ : Log Unit)) (⟨⟨(), 3, []⟩, .ready 0 1, 0⟩ : RateState (Log Unit)) (modeAfter (.ready (.ok ()))) [] :=
    .ready (w := 3) (w' := 3) .new (by simp) rfl
  have h2 : Uses L1 _ (⟨⟨(), 3, [3]⟩, .limited, 13⟩ : RateState (Log Unit)) .idle ([] ++ [()]) := .call (w := 3) (w' := 3) h1 rfl
  have h3 : Uses L1 _ (⟨⟨(), 13, [3]⟩, .ready 23 1, 13⟩ : RateState (Log Unit)) (modeAfter (.ready (.ok ()))) ([] ++ [()]) :=
    .ready (w := 13) (w' := 13) h2 (by simp) rfl
  .call (w := 13) (w' := 13) h3 rfl

/-- three calls at one moment break the limit of one per ten ticks -/
theorem goes_off : ¬ RateOk rate [3, 3, 3] [(), (), ()] := by
  intro h
  have := h.1 0 1
  simp [callsIn, rate] at this

/-- **The alarm is not a dummy.** A lawful user of the logged service without a rate limit can call it three times at once, and then the alarm goes off. -/
theorem C83_unlimited_violates : (∃ x : Log Unit, Uses (Logged Demo07.clk Demo07.Free) (⟨(), 0, []⟩ : Log Unit) x .idle [(), (), ()] ∧ ¬ RateOk rate x.calls [(), (), ()]) ∧
    ((Watched (Logged Demo07.clk Demo07.Free) (fun (x : Log Unit) reqs => RateOk rate x.calls reqs)).call ((⟨(), 3, [3, 3]⟩ : Log Unit), [(), ()]) ()).run 3 = .panic "alarm" := by
  refine ⟨⟨⟨(), 3, [3, 3, 3]⟩, ?_, goes_off⟩, ?_⟩
  · have go : ∀ {x : Log Unit} {reqs : List Unit} (_ : Uses (Logged Demo07.clk Demo07.Free) (⟨(), 0, []⟩ : Log Unit) x .idle reqs), x.last ≤ 3 →
        Uses (Logged Demo07.clk Demo07.Free) (⟨(), 0, []⟩ : Log Unit) (⟨(), 3, x.calls ++ [3]⟩ : Log Unit) .idle (reqs ++ [()]) := by
      intro x reqs h hx
      have h1 : Uses (Logged Demo07.clk Demo07.Free) (⟨(), 0, []⟩ : Log Unit) (⟨(), 3, x.calls⟩ : Log Unit) (modeAfter (.ready (.ok ()))) reqs :=
        .ready (w := 3) (w' := 3) h (by simp) (by
          have : ¬ (3 < x.last) := by omega
          simp [run_bind, Demo07.clk, this])
      exact .call (w := 3) (w' := 3) h1 rfl
    exact go (go (go .new (by decide)) (by decide)) (by decide)
  · simp [run_bind, alarm, Demo07.clk, goes_off]

end Demo83

end Tower
