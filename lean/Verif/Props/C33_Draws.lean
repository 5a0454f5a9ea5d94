import Verif.Props.C30_Balance

/-!
# C33: the random numbers behind the choices of a balancer

Successive choices use successive outputs of the balancer's generator: the generator is advanced by every choice between two or more endpoints, by nothing else, and no draw is used for two choices.
-/

namespace Tower
variable {W Req Res Err : Type} {K : Type} [DecidableEq K] {DErr BErr : Type}

/-- The generator's state `r'` is reached from `r` by drawing pairs of indices, one pair after the other. -/
inductive Draws (G : Rng) (r : G.ρ) : G.ρ → Prop
  | refl : Draws G r r
  | draw {r1 r2 n xy} : Draws G r r1 → 2 ≤ n → sampleFloyd2 G r1 n = some (xy, r2) → Draws G r r2

theorem Draws.trans {G : Rng} {r r1 r2 : G.ρ} (h1 : Draws G r r1) (h2 : Draws G r1 r2) : Draws G r r2 := by
  induction h2 with
  | refl => exact h1
  | draw _ hn hs ih => exact .draw ih hn hs

variable {B : BalCfg W Req Res Err K DErr BErr} {fuel : Nat}

/-- How one choice among `n` endpoints uses the generator: no draw if there are less than two, else one, which is used up. -/
def DrawFor (G : Rng) (n : Nat) (r : G.ρ) (o : Option Nat) (r' : G.ρ) : Prop :=
  (n = 0 ∧ o = none ∧ r' = r) ∨ (n = 1 ∧ o = some 0 ∧ r' = r) ∨
  (2 ≤ n ∧ ∃ x y, sampleFloyd2 G r n = some ((x, y), r') ∧ (o = some x ∨ o = some y))

theorem DrawFor.draws {G : Rng} {n : Nat} {r r' : G.ρ} {o : Option Nat} (h : DrawFor G n r o r') : Draws G r r' := by
  rcases h with ⟨_, _, rfl⟩ | ⟨_, _, rfl⟩ | ⟨hn, x, y, h, _⟩
  · exact .refl
  · exact .refl
  · exact .draw .refl hn h

namespace Balance

omit [DecidableEq K] in
theorem p2c_draw {b b' : Balance B} {w w' : W} {o : Option Nat} (hr : b.p2c.run w = .ok (o, b') w') :
    b'.svcs = b.svcs ∧ DrawFor B.G b.svcs.ready.length b.rng o b'.rng := by
  unfold p2c at hr
  by_cases h0 : b.svcs.ready.length = 0
  · rw [if_pos h0] at hr
    cases hr
    exact ⟨rfl, Or.inl ⟨h0, rfl, rfl⟩⟩
  rw [if_neg h0] at hr
  by_cases h1 : b.svcs.ready.length = 1
  · rw [if_pos h1] at hr
    cases hr
    exact ⟨rfl, Or.inr (Or.inl ⟨h1, rfl, rfl⟩)⟩
  rw [if_neg h1] at hr
  split at hr
  · cases hr
  · rename_i x y r' hs
    split at hr
    · cases hr
    · obtain ⟨l1, w1, _, hr⟩ := Act.run_bind_eq_ok.1 hr
      obtain ⟨l2, w2, _, hr⟩ := Act.run_bind_eq_ok.1 hr
      cases hr
      refine ⟨rfl, Or.inr (Or.inr ⟨by omega, x, y, hs, ?_⟩)⟩
      split
      · exact Or.inl rfl
      · exact Or.inr rfl

theorem check_true_length {S : Service W Req Res Err} {c c' : Cache K S} {i : Nat} {w w' : W} (h : (c.checkReadyIndex i).run w = .ok (.ok true, c') w') : c'.ready.length = c.ready.length := by
  unfold Cache.checkReadyIndex at h
  split at h
  · cases h
  · obtain ⟨⟨p, s'⟩, w1, _, h⟩ := Act.run_bind_eq_ok.1 h
    rcases p with _ | (er | ⟨⟩)
    · dsimp only at h; split at h <;> cases h
    · dsimp only at h; split at h <;> cases h
    · cases h; simp

theorem recheck_rng {b b' : Balance B} {w w' : W} {r : Bool} (hr : b.recheck.run w = .ok (r, b') w') : b'.rng = b.rng ∧ (r = true → b'.idx = b.idx ∧ b'.svcs.ready.length = b.svcs.ready.length) := by
  unfold recheck at hr
  cases hi : b.idx with
  | none => rw [hi] at hr; cases hr; exact ⟨rfl, fun h => by cases h⟩
  | some i =>
    simp only [hi] at hr
    obtain ⟨⟨q, c⟩, w1, h1, hr⟩ := Act.run_bind_eq_ok.1 hr
    rcases q with e | (_ | _)
    · cases hr; exact ⟨rfl, fun h => by cases h⟩
    · cases hr; exact ⟨rfl, fun h => by cases h⟩
    · cases hr
      refine ⟨rfl, fun _ => ⟨rfl, ?_⟩⟩
      exact check_true_length h1

/-- what the loop leaves, as far as the generator is concerned -/
theorem select_draws (n : Nat) : ∀ {b b' : Balance B} {w w' : W} {p : Poll (Except BErr Unit)}, (select n b).run w = .ok (p, b') w' →
    Draws B.G b.rng b'.rng ∧ (p = .ready (.ok ()) → (b'.idx = b.idx ∧ b'.svcs.ready.length = b.svcs.ready.length ∧ b'.rng = b.rng) ∨ ∃ r1, Draws B.G b.rng r1 ∧ DrawFor B.G b'.svcs.ready.length r1 b'.idx b'.rng) := by
  induction n with
  | zero => intro b b' w w' p h; cases h
  | succ n ih =>
    intro b b' w w' p h
    unfold select at h
    obtain ⟨⟨r, b1⟩, w1, h1, h⟩ := Act.run_bind_eq_ok.1 h
    obtain ⟨hr, ht⟩ := recheck_rng h1
    cases r with
    | true =>
      simp only [if_true] at h
      cases h
      exact ⟨hr ▸ .refl, fun _ => Or.inl ⟨(ht rfl).1, (ht rfl).2, hr⟩⟩
    | false =>
      simp only [Bool.false_eq_true, if_false] at h
      obtain ⟨⟨fnd, b2⟩, w2, h2, h⟩ := Act.run_bind_eq_ok.1 h
      unfold choose at h2
      obtain ⟨⟨o, b3⟩, w3, h3, h2⟩ := Act.run_bind_eq_ok.1 h2
      obtain ⟨hsv, hd⟩ := p2c_draw h3
      rw [hr] at hd
      cases o with
      | none =>
        dsimp only at h2
        split at h2
        · cases h2
          simp only [Bool.false_eq_true, if_false] at h
          cases h
          exact ⟨hd.draws, fun h => by cases h⟩
        · cases h2
      | some i =>
        cases h2
        simp only [if_true] at h
        obtain ⟨q1, q2⟩ := ih h
        refine ⟨hd.draws.trans q1, fun hp => Or.inr ?_⟩
        rcases q2 hp with ⟨e1, e2, e3⟩ | ⟨r1, e1, e2⟩
        · refine ⟨b.rng, .refl, ?_⟩
          rw [e1, e2, e3]
          simp only [hsv]
          exact hd
        · exact ⟨r1, hd.draws.trans e1, e2⟩

theorem promote_keeps (n : Nat) : ∀ {b b' : Balance B} {w w' : W}, (promote n b).run w = .ok b' w' → b'.rng = b.rng ∧ b'.idx = b.idx := by
  induction n with
  | zero => intro b b' w w' h; cases h
  | succ n ih =>
    intro b b' w w' h
    unfold promote at h
    obtain ⟨⟨p, c⟩, w1, _, h⟩ := Act.run_bind_eq_ok.1 h
    rcases p with _ | (er | ⟨⟩)
    · dsimp only at h; split at h
      · cases h; exact ⟨rfl, rfl⟩
      · cases h
    · exact ih (b := { b with svcs := c }) h
    · dsimp only at h; split at h
      · cases h; exact ⟨rfl, rfl⟩
      · cases h

theorem update_keeps (n : Nat) : ∀ {b b' : Balance B} {w w' : W} {r : Except DErr Unit}, (update n b).run w = .ok (r, b') w' → b'.rng = b.rng ∧ b'.idx = b.idx := by
  induction n with
  | zero => intro b b' w w' r h; cases h
  | succ n ih =>
    intro b b' w w' r h
    unfold update at h
    obtain ⟨⟨p, d⟩, w1, _, h⟩ := Act.run_bind_eq_ok.1 h
    rcases p with _ | (_ | (e | ch))
    · cases h; exact ⟨rfl, rfl⟩
    · cases h; exact ⟨rfl, rfl⟩
    · cases h; exact ⟨rfl, rfl⟩
    · exact ih (b := { b with disc := d, svcs := apply b.svcs ch }) h

end Balance

/-- C33: one `poll_ready` advances the generator by whole draws. If it reports ready, then either the endpoint chosen by an earlier one is kept and the generator is as before, or the endpoint was chosen among
those ready now by the last draw made (`DrawFor`), which is used up: the generator the balancer is left with is the one after this draw. -/
theorem C33_poll_draws {b b' : Balance B} {w w' : W} {p : Poll (Except BErr Unit)} (h : ((balance B fuel).pollReady b).run w = .ok (p, b') w') :
    Draws B.G b.rng b'.rng ∧
    (p = .ready (.ok ()) → (b'.idx = b.idx ∧ b'.rng = b.rng) ∨ ∃ r1, Draws B.G b.rng r1 ∧ DrawFor B.G b'.svcs.ready.length r1 b'.idx b'.rng) := by
  have h : (b.pollReady fuel).run w = .ok (p, b') w' := h
  unfold Balance.pollReady at h
  obtain ⟨⟨r, b1⟩, w1, h1, h⟩ := Act.run_bind_eq_ok.1 h
  obtain ⟨u1, u2⟩ := Balance.update_keeps _ h1
  rcases r with e | ⟨⟩
  · cases h
    exact ⟨u1 ▸ .refl, fun h => by cases h⟩
  · dsimp only at h
    unfold Balance.rest at h
    obtain ⟨b2, w2, h2, h⟩ := Act.run_bind_eq_ok.1 h
    obtain ⟨v1, v2⟩ := Balance.promote_keeps _ h2
    obtain ⟨q1, q2⟩ := Balance.select_draws _ h
    rw [v1, u1, v2, u2] at *
    refine ⟨q1, fun hp => ?_⟩
    rcases q2 hp with ⟨e1, _, e3⟩ | q
    · exact Or.inl ⟨e1, e3⟩
    · exact Or.inr q

/-- C33: a call does not use the generator. -/
theorem C33_call_draws {b b' : Balance B} {w w' : W} {r : Req} {f : Option B.S.φ} (h : ((balance B fuel).call b r).run w = .ok (f, b') w') : b'.rng = b.rng := by
  obtain ⟨_, _, h⟩ := balance_call h
  unfold Balance.call at h
  split at h
  · cases h
  · obtain ⟨⟨f1, c⟩, w1, _, h⟩ := Act.run_bind_eq_ok.1 h
    cases h; rfl

/-- C33: in every history the generator is advanced by whole draws only. -/
theorem C33_history_draws {b b' : Balance B} {log : List (Change K B.S.σ)} (h : BalRun B fuel b log b') : Draws B.G b.rng b'.rng := by
  induction h with
  | refl => exact .refl
  | ready _ h _ ih => exact ih.trans (C33_poll_draws h).1
  | call _ h ih => rw [C33_call_draws h]; exact ih

namespace BalanceDemo

/-- the choice among the three endpoints of `run1` took one draw, of two numbers -/
example : Draws cfg.G (0 : Nat) (2 : Nat) ∧ ∃ r1 : Nat, Draws cfg.G (0 : Nat) r1 ∧ DrawFor cfg.G 3 r1 (some 0) (2 : Nat) := by
  obtain ⟨h1, h2⟩ := C33_poll_draws run1
  refine ⟨h1, ?_⟩
  rcases h2 rfl with ⟨h, _⟩ | h
  · cases h
  · exact h

end BalanceDemo
end Tower
