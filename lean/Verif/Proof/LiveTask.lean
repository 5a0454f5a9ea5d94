import Verif.Proof.LiveRetry
import Verif.Model.BufferSvc

/-! # Not hanging: `SpawnReady`, handles of a `Buffer` -/

set_option linter.unusedSimpArgs false

namespace Tower
open Act
variable {W : Type} {F : Fairness W}

local macro "nope" : term => `((by intro hp; cases hp))

section
variable {Q R E : Type} {S : Service W Q R E} {I : Bool → S.σ → Prop}

theorem Live.buffer {V : ChanView W Q S.φ E} (hV : V.Serves F S) : Live F (BufferSvc S V) (fun _ _ => True) := by
  have hres : ∀ (s : BufSt V.α), s.st = .idle ∨ s.st = .acquiring → Finishes F (BufferSvc S V).pollReady s := by
    intro s hs
    refine (hV.reserve s.acq).map (fun a (b : BufSt V.α) => b.acq = a ∧ (b.st = .idle ∨ b.st = .acquiring)) (fun a b w hk _ => ?_) ⟨rfl, hs⟩
    obtain ⟨rfl, hb⟩ := hk
    have hpr : (BufferSvc S V).pollReady b = b.reserve V := by
      obtain ⟨st, a⟩ := b
      rcases hb with hb | hb <;> (cases hb; rfl)
    rw [hpr]
    refine calm_bind nope fun r w' hr => ?_
    obtain ⟨p, a'⟩ := r
    match p with
    | .pending => exact fun _ => ⟨a', w', hr, rfl, .inr rfl⟩
    | .ready true => exact nope
    | .ready false => exact nope
  have hinner : ∀ f, Finishes F S.poll f → Finishes F (BufferSvc S V).poll (.inner f) := fun f hf =>
    hf.map (fun a (b : BufFut V.ρ S.φ E) => b = .inner a) (fun a b w hk hs => by subst hk; exact calm_bind hs fun r w' hr hp => ⟨_, _, pend hr (Poll.map_pending.1 hp), rfl⟩) rfl
  refine Live.of ?_ ?_ ?_ (fun _ _ _ => trivial)
  · rintro b ⟨st, a⟩ -
    cases st with
    | idle => exact hres _ (.inl rfl)
    | acquiring => exact hres _ (.inr rfl)
    | ready => exact Finishes.now fun w => nope
    | closed => exact Finishes.now fun w => nope
  · rintro b s w -
    have : ((BufferSvc S V).pollReady s).run w ≠ .spin := by
      obtain ⟨st, a⟩ := s
      cases st with
      | idle => exact (hres _ (.inl rfl)).spin w
      | acquiring => exact (hres _ (.inr rfl)).spin w
      | ready => exact nope
      | closed => exact nope
    exact calm_of this fun _ _ _ => ⟨fun _ => trivial, fun _ => trivial⟩
  · rintro ⟨st, a⟩ q w -
    cases st with
    | idle => exact trivial
    | acquiring => exact trivial
    | closed => exact ⟨Finishes.now fun w => nope, trivial⟩
    | ready =>
      refine ⟨(hV.rx q w).sim (fun a (b : BufFut V.ρ S.φ E) => V.Rx a ∧ b = .rx (some a)) (fun a b w hk _ => ?_) ⟨.sent q w, rfl⟩, trivial⟩
      obtain ⟨hrx, rfl⟩ := hk
      refine calm_bind nope fun r w' hr => ?_
      obtain ⟨p, r'⟩ := r
      match p with
      | .pending => exact fun _ => .inr ⟨r', w', hr, by
          rw [run_lift] at hr; injection hr with h1 _
          have h2 := ChanView.Rx.pending (V := V) hrx (w := w) (by rw [h1])
          rw [h1] at h2; exact h2, rfl⟩
      | .ready (some (.error e)) => exact nope
      | .ready none => exact nope
      | .ready (some (.ok f)) =>
        have hf : Finishes F S.poll f := hV.sent a w f hrx (by rw [run_lift] at hr; injection hr with h1 _; rw [h1])
        refine calm_bind (hf.spin w') fun o w2 ho hp => .inl (hinner _ ?_)
        exact hf.pending (pend ho (Poll.map_pending.1 hp))

theorem runTask_append : ∀ (l l' : List W) (t : TaskSt S.σ E), (∀ s, t = .running s → ∃ c, I c s) → Live F S I → runTask S (l ++ l') t = runTask S l' (runTask S l t)
  | [], l', t, _, _ => by cases t <;> rfl
  | w :: l, l', t, hI, L => by
    cases t with
    | running s =>
      obtain ⟨c, hc⟩ := hI s rfl
      simp only [List.cons_append]
      rw [runTask, runTask]
      have hsp := (L.ready c s hc).spin w
      have hst := L.pollReady hc w
      cases hr : (S.pollReady s).run w with
      | spin => exact (hsp hr).elim
      | panic m => cases l' <;> rfl
      | ok a w' =>
        have hst := wpx_ok hst hr
        obtain ⟨p, s'⟩ := a
        match p with
        | .pending => exact runTask_append l l' _ (fun s2 h2 => by cases h2; exact ⟨false, hst.2 rfl⟩) L
        | .ready (.ok ()) => cases l' <;> rfl
        | .ready (.error e) => cases l' <;> rfl
    | done r => cases l' <;> rfl
    | failed => cases l' <;> rfl
    | taken => cases l' <;> rfl

/-- the task keeps the contract -/
theorem runTask_keeps (L : Live F S I) : ∀ (l : List W) (s : S.σ) (c : Bool), I c s → match runTask S l (.running s) with
    | .running s' => ∃ c, I c s'
    | .done (.ok s') => I true s'
    | .taken => False
    | _ => True
  | [], s, c, h => ⟨c, h⟩
  | w :: l, s, c, h => by
    rw [runTask]
    have hst := L.pollReady h w
    cases hr : (S.pollReady s).run w with
    | spin => exact ((L.ready c s h).spin w hr).elim
    | panic m => exact trivial
    | ok a w' =>
      have hst := wpx_ok hst hr
      obtain ⟨p, s'⟩ := a
      match p with
      | .pending => exact runTask_keeps L l s' false (hst.2 rfl)
      | .ready (.ok ()) => exact hst.1 rfl
      | .ready (.error e) => exact trivial

/-- the task comes to an end -/
theorem runTask_ends {s : S.σ} {vs : Nat → W} (h : Ends S.pollReady s vs) : ∃ n, ∀ s', runTask S ((List.range n).map vs) (.running s) ≠ .running s' := by
  induction h with
  | @ready a ws v a' w' h1 =>
    refine ⟨1, fun s' hs => ?_⟩
    simp only [List.range_one, List.map_cons, List.map_nil] at hs
    rw [runTask, h1] at hs
    cases v <;> cases hs
  | @panics a ws m h1 =>
    refine ⟨1, fun s' hs => ?_⟩
    simp only [List.range_one, List.map_cons, List.map_nil] at hs
    rw [runTask, h1] at hs
    cases hs
  | @pending a ws a' w' h1 _ ih =>
    obtain ⟨n, hn⟩ := ih
    refine ⟨n + 1, fun s' hs => hn s' ?_⟩
    rw [List.range_succ_eq_map, List.map_cons, runTask, h1] at hs
    simpa [List.map_map, Function.comp_def] using hs

theorem runTask_over : ∀ (l : List W) (t : TaskSt S.σ E), (∀ s, t ≠ .running s) → runTask S l t = t
  | [], t, _ => by cases t <;> rfl
  | w :: l, t, h => by
    cases t with
    | running s => exact (h s rfl).elim
    | done r => rfl
    | failed => rfl
    | taken => rfl

/-- the invariant of the handle -/
def SpawnLive (I : Bool → S.σ → Prop) (b : Bool) : SpawnState S.σ E → Prop
  | .service (some s) => Loose I b s
  | .future (.running s) => b = false ∧ ∃ c, I c s
  | _ => False

variable {rt : Runtime W}

/-- the handle, once a task runs -/
theorem spawn_future_ends (L : Live F S I) (hS : StaysReady S) (fuel : Nat) (m : Nat) : ∀ (ws : Nat → W) (s : S.σ) (c : Bool), I c s →
    (∀ s', runTask S ((List.range m).flatMap (fun i => rt.sched (ws i))) (.running s) ≠ .running s') → Ends (spawnPoll rt S (fuel + 2)) (.future (.running s)) ws := by
  induction m with
  | zero => intro ws s c h hm; exact (hm s rfl).elim
  | succ m ih =>
    intro ws s c h hm
    have hsplit : (List.range (m + 1)).flatMap (fun i => rt.sched (ws i)) = rt.sched (ws 0) ++ (List.range m).flatMap (fun i => rt.sched (ws (i + 1))) := by
      rw [List.range_succ_eq_map, List.flatMap_cons, List.flatMap_map]
    rw [hsplit] at hm
    have hm' : ∀ s', runTask S ((List.range m).flatMap (fun i => rt.sched (ws (i + 1)))) (runTask S (rt.sched (ws 0)) (.running s)) ≠ .running s' := by
      intro s' hs
      rw [← runTask_append (I := I) (F := F) _ _ _ (fun s2 h2 => by cases h2; exact ⟨c, h⟩) L] at hs
      exact hm s' hs
    have hk := runTask_keeps L (rt.sched (ws 0)) s c h
    have hrun : (spawnPoll rt S (fuel + 2) (.future (.running s))).run (ws 0) = (match taskAt rt S (ws 0) (.running s) with
        | .running s => (do Act.modify rt.arm; pure (.pending, .future (.running s)) : Act W (Poll (Except (SpawnErr E) Unit) × SpawnState S.σ E))
        | .failed => pure (.ready (.error .join), .future .taken)
        | .taken => Act.panic "JoinHandle polled after completion"
        | .done (.error e) => pure (.ready (.error (.inner e)), .future .taken)
        | .done (.ok s) => spawnPoll rt S (fuel + 1) (.service (some s))).run (ws 0) := rfl
    cases ht : runTask S (rt.sched (ws 0)) (.running s) with
    | running s1 =>
      rw [ht] at hk hm'
      obtain ⟨c1, hc1⟩ := hk
      by_cases hkill : rt.killed (ws 0) = true
      · have : taskAt rt S (ws 0) (.running s) = .failed := by unfold taskAt; rw [ht]; simp [hkill]
        rw [this] at hrun
        exact .ready hrun
      · have : taskAt rt S (ws 0) (.running s) = .running s1 := by unfold taskAt; rw [ht]; simp [hkill]
        rw [this] at hrun
        exact .pending (hrun.trans rfl) (ih (fun n => ws (n + 1)) s1 c1 hc1 hm')
    | failed =>
      have : taskAt rt S (ws 0) (.running s) = .failed := by unfold taskAt; rw [ht]
      rw [this] at hrun
      exact .ready hrun
    | taken => rw [ht] at hk; exact hk.elim
    | done r =>
      have : taskAt rt S (ws 0) (.running s) = .done r := by unfold taskAt; rw [ht]
      rw [this] at hrun
      rw [ht] at hk
      cases r with
      | error e => exact .ready hrun
      | ok s2 =>
        obtain ⟨s0, u, u', h0⟩ := runTask_done _ _ ht
        simp only at hrun
        rw [spawnPoll] at hrun
        cases hr : (S.pollReady s2).run (ws 0) with
        | spin => exact ((L.ready true s2 hk).spin _ hr).elim
        | panic e => rw [run_bind, hr] at hrun; exact .panics hrun
        | ok a w' =>
          obtain ⟨p, s3⟩ := a
          cases p with
          | pending => exact (hS _ _ _ _ h0 _ _ _ hr).elim
          | ready v => rw [run_bind, hr] at hrun; exact .ready hrun

theorem spawn_future_finishes (L : Live F S I) (hS : StaysReady S) (hR : rt.Runs F) {fuel : Nat} (hf : 2 ≤ fuel) {s : S.σ} {c : Bool} (h : I c s) : Finishes F (spawnPoll rt S fuel) (.future (.running s)) := by
  obtain ⟨fuel, rfl⟩ : ∃ k, fuel = k + 2 := ⟨fuel - 2, by omega⟩
  intro ws hw
  obtain ⟨vs, hvs, hpre⟩ := hR ws hw
  obtain ⟨n, hn⟩ := runTask_ends (L.ready c s h vs hvs)
  obtain ⟨m, l, hm⟩ := hpre n
  refine spawn_future_ends L hS fuel m ws s c h fun s' hs => ?_
  rw [← hm, runTask_append (I := I) (F := F) _ _ _ (fun s2 h2 => by cases h2; exact ⟨c, h⟩) L, runTask_over _ _ hn] at hs
  exact hn s' hs

theorem Live.spawnReady (L : Live F S I) (hS : StaysReady S) (hR : rt.Runs F) {fuel : Nat} (hf : 4 ≤ fuel) : Live F (SpawnReady fuel rt S) (SpawnLive I) := by
  obtain ⟨fuel, rfl⟩ : ∃ k, fuel = k + 4 := ⟨fuel - 4, by omega⟩
  have future : ∀ (n : Nat) s c w, I c s → calm (spawnPoll rt S (n + 2) (.future (.running s))) (fun r _ => (r.1 = .ready (.ok ()) → SpawnLive I true r.2) ∧ (r.1 = .pending → SpawnLive I false r.2)) w := by
    intro n s c w h
    have hk := runTask_keeps L (rt.sched w) s c h
    have hrun : (spawnPoll rt S (n + 2) (.future (.running s))).run w = (match taskAt rt S w (.running s) with
        | .running s => (do Act.modify rt.arm; pure (.pending, .future (.running s)) : Act W (Poll (Except (SpawnErr E) Unit) × SpawnState S.σ E))
        | .failed => pure (.ready (.error .join), .future .taken)
        | .taken => Act.panic "JoinHandle polled after completion"
        | .done (.error e) => pure (.ready (.error (.inner e)), .future .taken)
        | .done (.ok s) => spawnPoll rt S (n + 1) (.service (some s))).run w := rfl
    show wpx _ _ _ _ _
    unfold wpx
    rw [hrun]
    cases ht : runTask S (rt.sched w) (.running s) with
    | running s1 =>
      rw [ht] at hk
      by_cases hkill : rt.killed w = true
      · have : taskAt rt S w (.running s) = .failed := by unfold taskAt; rw [ht]; simp [hkill]
        rw [this]; exact ⟨nope, nope⟩
      · have : taskAt rt S w (.running s) = .running s1 := by unfold taskAt; rw [ht]; simp [hkill]
        rw [this]; exact ⟨nope, fun _ => ⟨rfl, hk⟩⟩
    | failed =>
      have : taskAt rt S w (.running s) = .failed := by unfold taskAt; rw [ht]
      rw [this]; exact ⟨nope, nope⟩
    | taken => rw [ht] at hk; exact hk.elim
    | done r =>
      have : taskAt rt S w (.running s) = .done r := by unfold taskAt; rw [ht]
      rw [this]
      rw [ht] at hk
      cases r with
      | error e => exact ⟨nope, nope⟩
      | ok s2 =>
        obtain ⟨s0, u, u', h0⟩ := runTask_done _ _ ht
        have : calm (spawnPoll rt S (n + 1) (.service (some s2))) (fun r _ => (r.1 = .ready (.ok ()) → SpawnLive I true r.2) ∧ (r.1 = .pending → SpawnLive I false r.2)) w := by
          rw [spawnPoll]
          refine calm_bind ((L.ready true s2 hk).spin w) fun a w' hr => ?_
          have hst := wpx_ok (L.pollReady hk w) hr
          obtain ⟨p, s3⟩ := a
          cases p with
          | pending => exact (hS _ _ _ _ h0 _ _ _ hr).elim
          | ready v => exact ⟨fun hp => .of (hst.1 (Poll.map_mapErr_ok (f := SpawnErr.inner).1 hp)), nope⟩
        exact this
  have step : ∀ b (x : SpawnState S.σ E) w, SpawnLive I b x → calm (spawnPoll rt S (fuel + 4) x) (fun r _ => (r.1 = .ready (.ok ()) → SpawnLive I true r.2) ∧ (r.1 = .pending → SpawnLive I false r.2)) w := by
    intro b x w h
    match x, h with
    | .service (some s), ⟨c, h, _⟩ =>
      rw [spawnPoll]
      refine calm_bind ((L.ready c s h).spin w) fun a w' hr => ?_
      have hst := wpx_ok (L.pollReady h w) hr
      obtain ⟨p, s3⟩ := a
      cases p with
      | pending => exact future (fuel + 1) s3 false w' (hst.2 rfl)
      | ready v => exact ⟨fun hp => .of (hst.1 (Poll.map_mapErr_ok (f := SpawnErr.inner).1 hp)), nope⟩
    | .future (.running s), ⟨_, c, h⟩ => exact future (fuel + 2) s c w h
  refine Live.of ?_ step ?_ ?_
  · intro b x h
    match x, h with
    | .service (some s), ⟨c, h, hb⟩ =>
      intro ws hw
      have hst := step b (.service (some s)) (ws 0) ⟨c, h, hb⟩
      cases hr : (spawnPoll rt S (fuel + 4) (.service (some s))).run (ws 0) with
      | spin => exact (hst.spin hr).elim
      | panic m => exact .panics hr
      | ok a w' =>
        obtain ⟨p, y⟩ := a
        cases p with
        | ready v => exact .ready hr
        | pending =>
          have hy := (wpx_ok hst hr).2 rfl
          refine .pending hr ?_
          -- a pending poll leaves a task
          have hfut : ∃ s', y = .future (.running s') ∧ ∃ c, I c s' := by
            match y, hy with
            | .future (.running s'), ⟨_, hc⟩ => exact ⟨s', rfl, hc⟩
            | .service (some s'), hc =>
              exfalso
              have hno : ∀ (n : Nat) (x : SpawnState S.σ E) w s' w', (spawnPoll rt S n x).run w ≠ .ok (.pending, .service (some s')) w' := by
                intro n
                induction n with
                | zero => intro x w s' w' hh; cases hh
                | succ n ih =>
                  intro x w s' w' hh
                  unfold spawnPoll at hh
                  match x with
                  | .service none => cases hh
                  | .service (some s) =>
                    obtain ⟨⟨p, s1⟩, w1, h1, h2⟩ := run_bind_eq_ok.1 hh
                    cases p with
                    | ready v => cases h2
                    | pending => exact ih _ _ _ _ h2
                  | .future t =>
                    simp only [run_bind, run_get] at hh
                    split at hh
                    · simp [run_bind] at hh
                      cases hh
                    · cases hh
                    · cases hh
                    · cases hh
                    · exact ih _ _ _ _ hh
              exact hno _ _ _ _ _ hr
          obtain ⟨s', rfl, c', hc'⟩ := hfut
          exact spawn_future_finishes L hS hR (by omega) hc' _ (F.tail _ hw)
    | .future (.running s), ⟨_, c, h⟩ => exact spawn_future_finishes L hS hR (by omega) h
  · intro x r w h
    match x, h with
    | .service (some s), ⟨c, h, hb⟩ =>
      cases hb rfl
      refine calm_bind (L.call s r w h).spin fun y w' hy => ?_
      have := wpx_ok (L.call s r w h) hy
      exact ⟨this.1.mapFut (f := fun res => (pure (Tower.mapErr SpawnErr.inner res) : Act W _)) nofun, .of this.2⟩
    | .future (.running s), ⟨hb, _⟩ => cases hb
  · intro b x h
    match x, h with
    | .service (some s), h => exact Loose.weak h
    | .future (.running s), ⟨_, h⟩ => exact ⟨rfl, h⟩
end

end Tower
