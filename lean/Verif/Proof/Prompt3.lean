import Verif.Proof.Prompt

/-! # The three middleware whose loops have no bound of their own -/

set_option linter.unusedSimpArgs false

namespace Tower
open Act
variable {W Req Res Err : Type}

/-- run of a bind that is known to spin -/
theorem Act.bind_spin {α β : Type} {x : Act W α} {f : α → Act W β} {w : W} (hx : x.Returns) (h : (x >>= f).run w = .spin) :
    ∃ a w', x.run w = .ok a w' ∧ (f a).run w' = .spin := by
  rw [Act.run_bind] at h
  cases h1 : x.run w with
  | ok a w' => rw [h1] at h; exact ⟨a, w', rfl, h⟩
  | panic m => rw [h1] at h; cases h
  | spin => exact absurd h1 (hx.spin w)

/-! ## retry -/

section retry
variable {P : RetryPolicy W Req Res Err} {S : Service W Req Res Err}

/-- One turn of the retry loop that comes back to its start: an attempt has an outcome at once, the policy asks for a retry, its future is ready at once, the service is ready at once, and the request is sent again. -/
inductive RetryRound (P : RetryPolicy W Req Res Err) (S : Service W Req Res Err) : RetryFut Req P.π S.σ S.φ P.ρ → W → RetryFut Req P.π S.σ S.φ P.ρ → W → Prop
  | mk {f f' f2 : S.φ} {s s' s'' : S.σ} {p p' p'' : P.π} {req req' : Req} {o : Option Req} {res res' : Except Err Res} {ρ ρ' : P.ρ} {w w1 w2 w3 w4 w5 w6 : W}
      (outcome : (S.poll f).run w = .ok (.ready res, f') w1)
      (again : P.retry p req res w1 = ((some ρ, p', req', res'), w2))
      (waited : P.wait ρ w2 = ((.ready (), ρ'), w3))
      (ready : (S.pollReady s).run w3 = .ok (.ready (.ok ()), s') w4)
      (copy : P.cloneRequest p' req' w4 = ((o, p''), w5))
      (sent : (S.call s' req').run w5 = .ok (f2, s'') w6) :
      RetryRound P S ⟨some req, ⟨p, s⟩, .called f⟩ w ⟨o, ⟨p'', s''⟩, .called f2⟩ w6

/-- `k` such turns in a row -/
inductive RetryRounds (P : RetryPolicy W Req Res Err) (S : Service W Req Res Err) : Nat → RetryFut Req P.π S.σ S.φ P.ρ → W → RetryFut Req P.π S.σ S.φ P.ρ → W → Prop
  | zero {x : RetryFut Req P.π S.σ S.φ P.ρ} {w : W} : RetryRounds P S 0 x w x w
  | more {k : Nat} {x y z : RetryFut Req P.π S.σ S.φ P.ρ} {w v u : W} (first : RetryRound P S x w y v) (rest : RetryRounds P S k y v z u) : RetryRounds P S (k + 1) x w z u

theorem RetryRound.run {x y : RetryFut Req P.π S.σ S.φ P.ρ} {w v : W} (h : RetryRound P S x w y v) (n : Nat) :
    (retryPoll P S (n + 3) x).run w = (retryPoll P S n y).run v := by
  cases h with
  | mk outcome again waited ready copy sent =>
    simp [retryPoll, retryStep, run_bind, outcome, again, waited, ready, copy, sent]

theorem RetryRound.called {x y : RetryFut Req P.π S.σ S.φ P.ρ} {w v : W} (h : RetryRound P S x w y v) : ∃ f, y.st = .called f := by
  cases h; exact ⟨_, rfl⟩

theorem retry_round (h : Prompt S) {n : Nat} {x : RetryFut Req P.π S.σ S.φ P.ρ} {f : S.φ} {w : W} (hx : x.st = .called f)
    (hs : (retryPoll P S (n + 3) x).run w = .spin) : ∃ y v, RetryRound P S x w y v := by
  obtain ⟨rq, ⟨p, s⟩, st⟩ := x
  cases hx
  cases h1 : (S.poll f).run w with
  | panic m => simp [retryPoll, retryStep, run_bind, h1] at hs
  | spin => exact absurd h1 ((h.poll f).spin w)
  | ok a w1 =>
    obtain ⟨q, f'⟩ := a
    cases q with
    | pending => simp [retryPoll, retryStep, run_bind, h1] at hs
    | ready res =>
      cases rq with
      | none => simp [retryPoll, retryStep, run_bind, h1] at hs
      | some req =>
        rcases h2 : P.retry p req res w1 with ⟨⟨o, p', req', res'⟩, w2⟩
        cases o with
        | none => simp [retryPoll, retryStep, run_bind, h1, h2] at hs
        | some ρ =>
          rcases h3 : P.wait ρ w2 with ⟨⟨q, ρ'⟩, w3⟩
          cases q with
          | pending => simp [retryPoll, retryStep, run_bind, h1, h2, h3] at hs
          | ready u =>
            cases h4 : (S.pollReady s).run w3 with
            | panic m => simp [retryPoll, retryStep, run_bind, h1, h2, h3, h4] at hs
            | spin => exact absurd h4 ((h.ready s).spin _)
            | ok a w4 =>
              obtain ⟨q, s'⟩ := a
              match q, h4 with
              | .pending, h4 => simp [retryPoll, retryStep, run_bind, h1, h2, h3, h4] at hs
              | .ready (.error e), h4 => simp [retryPoll, retryStep, run_bind, h1, h2, h3, h4] at hs
              | .ready (.ok ()), h4 =>
                rcases h5 : P.cloneRequest p' req' w4 with ⟨⟨o, p''⟩, w5⟩
                cases h6 : (S.call s' req').run w5 with
                | panic m => simp [retryPoll, retryStep, run_bind, h1, h2, h3, h4, h5, h6] at hs
                | spin => exact absurd h6 ((h.call s' req').spin _)
                | ok a w6 => exact ⟨_, _, .mk h1 h2 h3 h4 h5 h6⟩

theorem retry_spins (h : Prompt S) : ∀ (k : Nat) {x : RetryFut Req P.π S.σ S.φ P.ρ} {f : S.φ} {w : W}, x.st = .called f →
    ((retryPoll P S (3 * k) x).run w = .spin ↔ ∃ y v, RetryRounds P S k x w y v)
  | 0, x, f, w, _ => ⟨fun _ => ⟨x, w, .zero⟩, fun _ => rfl⟩
  | k + 1, x, f, w, hx => by
    have e : 3 * (k + 1) = 3 * k + 3 := by omega
    rw [e]
    constructor
    · intro hs
      obtain ⟨y, v, hr⟩ := retry_round h hx hs
      obtain ⟨g, hy⟩ := hr.called
      rw [hr.run] at hs
      obtain ⟨z, u, hz⟩ := (retry_spins h k hy).1 hs
      exact ⟨z, u, .more hr hz⟩
    · rintro ⟨z, u, hz⟩
      cases hz with
      | more hr rest =>
        obtain ⟨g, hy⟩ := hr.called
        rw [hr.run]
        exact (retry_spins h k hy).2 ⟨_, _, rest⟩

/-- The policy grants at most `μ p` more retries from state `p`, and never more than `bound`. -/
structure RetryBounded (P : RetryPolicy W Req Res Err) (μ : P.π → Nat) (bound : Nat) : Prop where
  top : ∀ p, μ p ≤ bound
  retry : ∀ p q r w ρ p' q' r' w', P.retry p q r w = ((some ρ, p', q', r'), w') → μ p' < μ p
  clone : ∀ p q w o p' w', P.cloneRequest p q w = ((o, p'), w') → μ p' ≤ μ p

/-- iterations left -/
def retryRank (μ : P.π → Nat) (x : RetryFut Req P.π S.σ S.φ P.ρ) : Nat :=
  match x.st with
  | .called _ => 3 * μ x.retry.policy + 1
  | .waiting _ => 3 * μ x.retry.policy + 3
  | .retrying => 3 * μ x.retry.policy + 2

theorem retryStep_returns (h : Prompt S) (x : RetryFut Req P.π S.σ S.φ P.ρ) : (retryStep P S x).Returns := by
  unfold retryStep
  returns_auto [h.poll _, h.ready _, h.call _ _]

theorem retryStep_rank {μ : P.π → Nat} {B : Nat} (hP : RetryBounded P μ B) {x y : RetryFut Req P.π S.σ S.φ P.ρ} {w v : W}
    (hs : (retryStep P S x).run w = .ok (.inr y) v) : retryRank (S := S) μ y < retryRank (S := S) μ x := by
  obtain ⟨rq, ⟨p, s⟩, st⟩ := x
  cases st with
  | called f =>
    simp only [retryStep] at hs
    obtain ⟨⟨q, f'⟩, w1, h1, h2⟩ := run_bind_eq_ok.1 hs
    cases q with
    | pending => simp at h2
    | ready res =>
      cases rq with
      | none => simp at h2
      | some req =>
        rcases h3 : P.retry p req res w1 with ⟨⟨o, p', req', res'⟩, w2⟩
        cases o with
        | none => simp [run_bind, h3] at h2
        | some ρ =>
          simp [run_bind, h3] at h2
          obtain ⟨rfl, -⟩ := h2
          have := hP.retry _ _ _ _ _ _ _ _ _ h3
          simp only [retryRank]
          omega
  | waiting r =>
    simp only [retryStep] at hs
    rcases h3 : P.wait r w with ⟨⟨q, r'⟩, w2⟩
    cases q with
    | pending => simp [run_bind, h3] at hs
    | ready u =>
      simp [run_bind, h3] at hs
      obtain ⟨rfl, -⟩ := hs
      simp only [retryRank]
      omega
  | retrying =>
    simp only [retryStep] at hs
    obtain ⟨⟨q, s'⟩, w1, h1, h2⟩ := run_bind_eq_ok.1 hs
    match q, h2 with
    | .pending, h2 => simp at h2
    | .ready (.error e), h2 => simp at h2
    | .ready (.ok ()), h2 =>
      cases rq with
      | none => simp at h2
      | some req =>
        rcases h3 : P.cloneRequest p req w1 with ⟨⟨o, p'⟩, w2⟩
        simp only [run_bind, run_lift, h3] at h2
        cases h4 : (S.call s' req).run w2 with
        | panic m => simp [h4] at h2
        | spin => simp [h4] at h2
        | ok a w3 =>
          obtain ⟨f, s''⟩ := a
          simp [h4] at h2
          obtain ⟨rfl, -⟩ := h2
          have := hP.clone _ _ _ _ _ _ h3
          simp only [retryRank]
          omega

theorem retryPoll_returns (h : Prompt S) {μ : P.π → Nat} {B : Nat} (hP : RetryBounded P μ B) : ∀ (n : Nat) (x : RetryFut Req P.π S.σ S.φ P.ρ),
    retryRank (S := S) μ x ≤ n → (retryPoll P S n x).Returns
  | 0, x, hn => by
    exfalso
    unfold retryRank at hn
    split at hn <;> omega
  | n + 1, x, hn => by
    refine ⟨fun w => ?_⟩
    unfold retryPoll
    refine Act.Returns.bind_at ((retryStep_returns h x).spin w) fun a w' ha => ?_
    cases a with
    | inl o => exact (Act.Returns.pure _).spin w'
    | inr y => exact (retryPoll_returns h hP n y (by have := retryStep_rank hP ha; omega)).spin w'

theorem Retry.prompt (h : Prompt S) {μ : P.π → Nat} {B fuel : Nat} (hP : RetryBounded P μ B) (hf : 3 * B + 3 ≤ fuel) : Prompt (Retry fuel P S) where
  ready s := .bind (h.ready _) (by returns_auto [])
  call s r := by
    refine .bind (.lift _) ?_
    returns_auto [h.call _ _]
  poll x := retryPoll_returns h hP fuel x (by
    have := hP.top x.retry.policy
    unfold retryRank
    split <;> omega)

end retry

/-! ## reconnect -/

section reconnect
variable {Tgt E1 E2 : Type} {S : Service W Req Res E2} {M : Service W Tgt S.σ E1} {t : Tgt}

/-- One turn of the reconnect loop that comes back to its start: the maker is ready at once, connects at once, and the connection it made fails the first time its readiness is asked for. -/
inductive ReconRound (S : Service W Req Res E2) (M : Service W Tgt S.σ E1) (t : Tgt) : M.σ → W → M.σ → W → Prop
  | mk {m m1 m2 : M.σ} {f f' : M.φ} {s s' : S.σ} {e : E2} {w w1 w2 w3 w4 : W}
      (ready : (M.pollReady m).run w = .ok (.ready (.ok ()), m1) w1)
      (asked : (M.call m1 t).run w1 = .ok (f, m2) w2)
      (connected : (M.poll f).run w2 = .ok (.ready (.ok s), f') w3)
      (failed : (S.pollReady s).run w3 = .ok (.ready (.error e), s') w4) :
      ReconRound S M t m w m2 w4

/-- `k` such turns in a row -/
inductive ReconRounds (S : Service W Req Res E2) (M : Service W Tgt S.σ E1) (t : Tgt) : Nat → M.σ → W → M.σ → W → Prop
  | zero {m : M.σ} {w : W} : ReconRounds S M t 0 m w m w
  | more {k : Nat} {m m1 m2 : M.σ} {w v u : W} (first : ReconRound S M t m w m1 v) (rest : ReconRounds S M t k m1 v m2 u) : ReconRounds S M t (k + 1) m w m2 u

theorem ReconRound.run {m m1 : M.σ} {w v : W} (h : ReconRound S M t m w m1 v) (n : Nat) (o : Option E1) :
    (reconPoll S M t (n + 3) ⟨m, .idle, o⟩).run w = (reconPoll S M t n ⟨m1, .idle, o⟩).run v := by
  cases h with
  | mk ready asked connected failed => simp [reconPoll, run_bind, ready, asked, connected, failed]

theorem recon_round (hM : Prompt M) (hS : Prompt S) {n : Nat} {m : M.σ} {o : Option E1} {w : W}
    (hs : (reconPoll S M t (n + 3) ⟨m, .idle, o⟩).run w = .spin) : ∃ m1 v, ReconRound S M t m w m1 v := by
  cases h1 : (M.pollReady m).run w with
  | panic e => simp [reconPoll, run_bind, h1] at hs
  | spin => exact absurd h1 ((hM.ready m).spin w)
  | ok a w1 =>
    obtain ⟨q, m1⟩ := a
    match q, h1 with
    | .pending, h1 => simp [reconPoll, run_bind, h1] at hs
    | .ready (.error e), h1 => simp [reconPoll, run_bind, h1] at hs
    | .ready (.ok ()), h1 =>
      cases h2 : (M.call m1 t).run w1 with
      | panic e => simp [reconPoll, run_bind, h1, h2] at hs
      | spin => exact absurd h2 ((hM.call _ _).spin _)
      | ok a w2 =>
        obtain ⟨f, m2⟩ := a
        cases h3 : (M.poll f).run w2 with
        | panic e => simp [reconPoll, run_bind, h1, h2, h3] at hs
        | spin => exact absurd h3 ((hM.poll _).spin _)
        | ok a w3 =>
          obtain ⟨q, f'⟩ := a
          match q, h3 with
          | .pending, h3 => simp [reconPoll, run_bind, h1, h2, h3] at hs
          | .ready (.error e), h3 => simp [reconPoll, run_bind, h1, h2, h3] at hs
          | .ready (.ok s), h3 =>
            cases h4 : (S.pollReady s).run w3 with
            | panic e => simp [reconPoll, run_bind, h1, h2, h3, h4] at hs
            | spin => exact absurd h4 ((hS.ready _).spin _)
            | ok a w4 =>
              obtain ⟨q, s'⟩ := a
              match q, h4 with
              | .pending, h4 => simp [reconPoll, run_bind, h1, h2, h3, h4] at hs
              | .ready (.ok ()), h4 => simp [reconPoll, run_bind, h1, h2, h3, h4] at hs
              | .ready (.error e), h4 => exact ⟨_, _, .mk h1 h2 h3 h4⟩

theorem recon_spins (hM : Prompt M) (hS : Prompt S) : ∀ (k : Nat) {m : M.σ} {o : Option E1} {w : W},
    ((reconPoll S M t (3 * k) ⟨m, .idle, o⟩).run w = .spin ↔ ∃ m1 v, ReconRounds S M t k m w m1 v)
  | 0, m, o, w => ⟨fun _ => ⟨m, w, .zero⟩, fun _ => rfl⟩
  | k + 1, m, o, w => by
    have e : 3 * (k + 1) = 3 * k + 3 := by omega
    rw [e]
    constructor
    · intro hs
      obtain ⟨y, v, hr⟩ := recon_round hM hS hs
      rw [hr.run] at hs
      obtain ⟨z, u, hz⟩ := (recon_spins hM hS k).1 hs
      exact ⟨z, u, .more hr hz⟩
    · rintro ⟨z, u, hz⟩
      cases hz with
      | more hr rest =>
        rw [hr.run]
        exact (recon_spins hM hS k).2 ⟨_, _, rest⟩

/-- A connection just made does not fail the first time its readiness is asked for. -/
def FreshReady (S : Service W Req Res E2) (M : Service W Tgt S.σ E1) : Prop :=
  ∀ f w s f' w' e s' w'', (M.poll f).run w = .ok (.ready (.ok s), f') w' → (S.pollReady s).run w' ≠ .ok (.ready (.error e), s') w''

theorem recon_idle (hM : Prompt M) (hS : Prompt S) (hf : FreshReady S M) (n : Nat) (m : M.σ) (o : Option E1) : (reconPoll S M t (n + 3) ⟨m, .idle, o⟩).Returns := by
  refine ⟨fun w hs => ?_⟩
  obtain ⟨m1, v, hr⟩ := recon_round hM hS hs
  cases hr with
  | mk ready asked connected failed => exact hf _ _ _ _ _ _ _ _ connected failed

theorem recon_connected (hM : Prompt M) (hS : Prompt S) (hf : FreshReady S M) (n : Nat) (m : M.σ) (s : S.σ) (o : Option E1) : (reconPoll S M t (n + 4) ⟨m, .connected s, o⟩).Returns := by
  unfold reconPoll
  returns_auto [hS.ready _, recon_idle hM hS hf n _ _]

theorem recon_connecting (hM : Prompt M) (hS : Prompt S) (hf : FreshReady S M) (n : Nat) (m : M.σ) (f : M.φ) (o : Option E1) : (reconPoll S M t (n + 5) ⟨m, .connecting f, o⟩).Returns := by
  unfold reconPoll
  returns_auto [hM.poll _, recon_connected hM hS hf n _ _ _]

theorem Reconnect.prompt {fuel : Nat} (hM : Prompt M) (hS : Prompt S) (hf : FreshReady S M) (hn : 5 ≤ fuel) : Prompt (Reconnect fuel S M t) where
  ready x := by
    obtain ⟨n, rfl⟩ : ∃ n, fuel = n + 5 := ⟨fuel - 5, by omega⟩
    obtain ⟨m, st, o⟩ := x
    cases st with
    | idle => exact recon_idle hM hS hf (n + 2) m o
    | connecting f => exact recon_connecting hM hS hf n m f o
    | connected s => exact recon_connected hM hS hf (n + 1) m s o
  call x r := by
    unfold Reconnect
    returns_auto [hS.call _ _]
  poll x := by
    unfold Reconnect
    returns_auto [hS.poll _]

end reconnect

/-! ## spawn_ready -/

section spawn
variable {S : Service W Req Res Err} {R : Runtime W}

/-- One turn of the loop of `SpawnReady` that comes back to its start: the service is not ready; the task that waits for it has finished, successfully, before its handle is looked at for the first time. -/
inductive SpawnRound (R : Runtime W) (S : Service W Req Res Err) : S.σ → W → S.σ → W → Prop
  | mk {s s1 s2 : S.σ} {w w1 : W}
      (pending : (S.pollReady s).run w = .ok (.pending, s1) w1)
      (finished : taskAt R S w1 (.running s1) = .done (.ok s2)) :
      SpawnRound R S s w s2 w1

/-- `k` such turns in a row -/
inductive SpawnRounds (R : Runtime W) (S : Service W Req Res Err) : Nat → S.σ → W → S.σ → W → Prop
  | zero {s : S.σ} {w : W} : SpawnRounds R S 0 s w s w
  | more {k : Nat} {s s1 s2 : S.σ} {w v u : W} (first : SpawnRound R S s w s1 v) (rest : SpawnRounds R S k s1 v s2 u) : SpawnRounds R S (k + 1) s w s2 u

theorem SpawnRound.run {s s1 : S.σ} {w v : W} (h : SpawnRound R S s w s1 v) (n : Nat) :
    (spawnPoll R S (n + 2) (.service (some s))).run w = (spawnPoll R S n (.service (some s1))).run v := by
  cases h with
  | mk pending finished => simp [spawnPoll, run_bind, pending, finished]

theorem spawn_round (h : Prompt S) {n : Nat} {s : S.σ} {w : W} (hs : (spawnPoll R S (n + 2) (.service (some s))).run w = .spin) : ∃ s1 v, SpawnRound R S s w s1 v := by
  cases h1 : (S.pollReady s).run w with
  | panic e => simp [spawnPoll, run_bind, h1] at hs
  | spin => exact absurd h1 ((h.ready s).spin w)
  | ok a w1 =>
    obtain ⟨q, s1⟩ := a
    cases q with
    | ready r => simp [spawnPoll, run_bind, h1] at hs
    | pending =>
      match h2 : taskAt R S w1 (.running s1) with
      | .running s2 =>
        simp only [spawnPoll, run_bind, h1, h2, run_get] at hs
        cases hs
      | .failed => simp [spawnPoll, run_bind, h1, h2] at hs
      | .taken => simp [spawnPoll, run_bind, h1, h2] at hs
      | .done (.error e) => simp [spawnPoll, run_bind, h1, h2] at hs
      | .done (.ok s2) => exact ⟨_, _, .mk h1 h2⟩

theorem spawn_spins (h : Prompt S) : ∀ (k : Nat) {s : S.σ} {w : W},
    ((spawnPoll R S (2 * k) (.service (some s))).run w = .spin ↔ ∃ s1 v, SpawnRounds R S k s w s1 v)
  | 0, s, w => ⟨fun _ => ⟨s, w, .zero⟩, fun _ => rfl⟩
  | k + 1, s, w => by
    have e : 2 * (k + 1) = 2 * k + 2 := by omega
    rw [e]
    constructor
    · intro hs
      obtain ⟨y, v, hr⟩ := spawn_round h hs
      rw [hr.run] at hs
      obtain ⟨z, u, hz⟩ := (spawn_spins h k).1 hs
      exact ⟨z, u, .more hr hz⟩
    · rintro ⟨z, u, hz⟩
      cases hz with
      | more hr rest =>
        rw [hr.run]
        exact (spawn_spins h k).2 ⟨_, _, rest⟩

/-- Once ready, the service is not pending when asked again (whatever happened in between). -/
def StaysReady (S : Service W Req Res Err) : Prop :=
  ∀ s w s' w', (S.pollReady s).run w = .ok (.ready (.ok ()), s') w' → ∀ v s'' v', (S.pollReady s').run v ≠ .ok (.pending, s'') v'

theorem runTask_done {s2 : S.σ} : ∀ (ws : List W) (s : S.σ), runTask S ws (.running s) = .done (.ok s2) → ∃ s0 w w', (S.pollReady s0).run w = .ok (.ready (.ok ()), s2) w'
  | [], s, h => by simp [runTask] at h
  | w :: ws, s, h => by
    unfold runTask at h
    cases h1 : (S.pollReady s).run w with
    | panic e => simp [h1] at h
    | spin => simp [h1] at h
    | ok a w1 =>
      obtain ⟨q, s1⟩ := a
      match q, h1 with
      | .pending, h1 => simp only [h1] at h; exact runTask_done ws s1 h
      | .ready (.error e), h1 => simp [h1] at h
      | .ready (.ok ()), h1 =>
        simp [h1] at h
        exact ⟨s, w, w1, h ▸ h1⟩

theorem taskAt_done {s s2 : S.σ} {w : W} (h : taskAt R S w (.running s) = .done (.ok s2)) : ∃ s0 w w', (S.pollReady s0).run w = .ok (.ready (.ok ()), s2) w' := by
  unfold taskAt at h
  split at h
  · split at h <;> simp at h
  · exact runTask_done _ _ h

theorem spawn_service (h : Prompt S) (hr : StaysReady S) (n : Nat) (s : S.σ) : (spawnPoll R S (n + 3) (.service (some s))).Returns := by
  refine ⟨fun w hs => ?_⟩
  obtain ⟨s1, v, hround⟩ := spawn_round h hs
  rw [hround.run] at hs
  cases hround with
  | mk pending finished =>
    obtain ⟨s0, u, u', h0⟩ := taskAt_done finished
    unfold spawnPoll at hs
    obtain ⟨⟨q, s''⟩, v', h1, h2⟩ := bind_spin (h.ready _) hs
    cases q with
    | pending => exact hr _ _ _ _ h0 _ _ _ h1
    | ready r => simp at h2

theorem spawn_future (h : Prompt S) (hr : StaysReady S) (n : Nat) (t : TaskSt S.σ Err) : (spawnPoll R S (n + 4) (.future t)).Returns := by
  refine ⟨fun w hs => ?_⟩
  unfold spawnPoll at hs
  simp only [run_bind, run_get] at hs
  revert hs
  match taskAt R S w t with
  | .running s => intro hs; cases hs
  | .failed => intro hs; simp at hs
  | .taken => intro hs; simp at hs
  | .done (.error e) => intro hs; simp at hs
  | .done (.ok s) => exact (spawn_service h hr n s).spin w

theorem spawn_returns {fuel : Nat} (h : Prompt S) (hr : StaysReady S) (hn : 4 ≤ fuel) (x : SpawnState S.σ Err) : (spawnPoll R S fuel x).Returns := by
  obtain ⟨n, rfl⟩ : ∃ n, fuel = n + 4 := ⟨fuel - 4, by omega⟩
  match x with
  | .service none => exact .panic _
  | .service (some s) => exact spawn_service h hr (n + 1) s
  | .future t => exact spawn_future h hr n t

theorem SpawnReady.prompt {fuel : Nat} (h : Prompt S) (hr : StaysReady S) (hn : 4 ≤ fuel) : Prompt (SpawnReady fuel R S) where
  ready x := spawn_returns h hr hn x
  call x r := by
    match x with
    | .service (some s) => exact .bind (h.call _ _) (by returns_auto [])
    | .service none => exact .panic _
    | .future t => exact .panic _
  poll := mapFut_returns h.poll (by returns_auto [])

end spawn

end Tower
