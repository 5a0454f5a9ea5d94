import Verif.Props.C17_Backoff
import Verif.Props.C35_Rng
import Mathlib.Data.Rat.Lemmas
import Mathlib.Tactic.Positivity
import Mathlib.Tactic.FieldSimp

/-!
# C68: sessions of `ExponentialBackoff`

`MakeBackoff::make_backoff` starts a session; each `next_backoff` gives one delay.
-/

namespace Tower
variable {G : Rng}

/-! ## Specification -/

/-- the first `n` delays of a session; `none` if something panics -/
def ExpBackoff.delays (casts : Nat → F64 → Nat → Nat × Nat) : Nat → ExpBackoff G → Option (List Nat)
  | 0, _ => some []
  | n + 1, b => do
    let (t, b') ← b.next casts
    let ts ← b'.delays casts n
    pure (t :: ts)

/-- a session in progress: `n` delays were given -/
def ExpBackoff.after (casts : Nat → F64 → Nat → Nat × Nat) : Nat → ExpBackoff G → Option (ExpBackoff G)
  | 0, b => some b
  | n + 1, b => do
    let (_, b') ← b.next casts
    b'.after casts n

/-- the `k`-th session that a maker starts (`k = 0, 1, ...`) -/
def ExpMaker.session (m : ExpMaker G) : Nat → ExpBackoff G
  | 0 => m.makeBackoff.1
  | k + 1 => m.makeBackoff.2.session k

/-- what the `k`-th delay would be without jitter, in nanoseconds: `min · 2ᵏ`, at most `max`; the factor stops growing at `2³² - 1` -/
def plainDelay (mn mx k : Nat) : Nat := Nat.min (mn * Nat.min (2 ^ k) (2 ^ 32 - 1)) mx

/-! ## Theorems -/

theorem plainDelay_eq {mn mx : Nat} (h : mx ≤ durMax) (k : Nat) : backoffBase mn mx k = plainDelay mn mx k := backoffBase_eq mn mx k h

/-- one step -/
theorem ExpBackoff.next_spec {casts : Nat → F64 → Nat → Nat × Nat} {b b' : ExpBackoff G} {t : Nat} (h : b.next casts = some (t, b')) (hmx : b.max ≤ durMax) (hle : b.min ≤ b.max) :
    b'.min = b.min ∧ b'.max = b.max ∧ b'.jitter = b.jitter ∧ b'.iterations = (b.iterations + 1) % 2 ^ 32 ∧ plainDelay b.min b.max b.iterations ≤ t ∧ t ≤ b.max ∧ b.min ≤ t ∧
    (b.jitter.isZero = true → t = plainDelay b.min b.max b.iterations ∧ b'.rng = b.rng) ∧
    (b.jitter.isZero = false → b'.rng = (G.nextF64 b.rng).2 ∧ (G.nextF64 b.rng).1 ≠ 0 ∧
      nextBackoff b.min b.max b.iterations (some (casts (plainDelay b.min b.max b.iterations) b.jitter (G.nextF64 b.rng).1)) = some (t, b'.iterations)) := by
  have hb := backoffBase_bounds b.min b.max b.iterations hmx hle
  rw [← plainDelay_eq hmx]
  unfold ExpBackoff.next at h
  split at h
  · rename_i hz
    simp only [Option.bind_eq_bind, Option.bind_eq_some_iff] at h
    obtain ⟨⟨t1, it⟩, h1, h2⟩ := h
    cases h2
    obtain ⟨e1, e2, e3, e4⟩ := nextBackoff_spec h1
    have e5 := e4 rfl
    exact ⟨rfl, rfl, rfl, e1, e2, by omega, by omega, fun _ => ⟨e5, rfl⟩, fun hc => by rw [hz] at hc; cases hc⟩
  · rename_i hz
    simp only at h
    split at h
    · cases h
    · rename_i hv
      simp only [Option.bind_eq_bind, Option.bind_eq_some_iff] at h
      obtain ⟨⟨t1, it⟩, h1, h2⟩ := h
      cases h2
      obtain ⟨e1, e2, e3, e4⟩ := nextBackoff_spec h1
      have e5 : Nat.max (backoffBase b.min b.max b.iterations) b.max = b.max := Nat.max_eq_right hb.2
      rw [e5] at e3
      refine ⟨rfl, rfl, rfl, e1, e2, e3, by omega, fun hc => absurd hc hz, fun _ => ⟨rfl, hv, h1⟩⟩

/-- the delays of a session in progress -/
theorem ExpBackoff.delays_spec {casts : Nat → F64 → Nat → Nat × Nat} : ∀ (n : Nat) (b : ExpBackoff G) (ts : List Nat), b.max ≤ durMax → b.min ≤ b.max → b.delays casts n = some ts →
    ts.length = n ∧ (∀ t ∈ ts, b.min ≤ t ∧ t ≤ b.max) ∧ (b.iterations + n ≤ 2 ^ 32 → ∀ k t, ts[k]? = some t →
      plainDelay b.min b.max (b.iterations + k) ≤ t ∧ (b.jitter.isZero = true → t = plainDelay b.min b.max (b.iterations + k)) ∧
      (b.jitter.isZero = false → ∃ v < 2 ^ 53, v ≠ 0 ∧ ∃ it, nextBackoff b.min b.max (b.iterations + k) (some (casts (plainDelay b.min b.max (b.iterations + k)) b.jitter v)) = some (t, it))) := by
  intro n
  induction n with
  | zero => intro b ts _ _ h; cases h; exact ⟨rfl, by simp, by simp⟩
  | succ n ih =>
    intro b ts hmx hle h
    simp only [ExpBackoff.delays, Option.bind_eq_bind, Option.bind_eq_some_iff] at h
    obtain ⟨⟨t, b'⟩, h1, ts', h2, h3⟩ := h
    cases h3
    obtain ⟨e1, e2, e3, e4, e5, e6, e7, e8, e9⟩ := ExpBackoff.next_spec h1 hmx hle
    obtain ⟨i1, i2, i3⟩ := ih b' ts' (by rw [e2]; exact hmx) (by rw [e1, e2]; exact hle) h2
    refine ⟨by simp [i1], ?_, ?_⟩
    · intro u hu
      rcases List.mem_cons.1 hu with rfl | hu
      · exact ⟨e7, e6⟩
      · have := i2 u hu; rw [e1, e2] at this; exact this
    · intro hn k u hk
      cases k with
      | zero =>
        simp only [List.getElem?_cons_zero, Option.some.injEq] at hk
        subst hk
        refine ⟨e5, fun hz => (e8 hz).1, fun hz => ⟨(G.nextF64 b.rng).1, (C36_f64 G b.rng).1, (e9 hz).2.1, _, (e9 hz).2.2⟩⟩
      | succ k =>
        simp only [List.getElem?_cons_succ] at hk
        have hk2 : k < ts'.length := (List.getElem?_eq_some_iff.1 hk).1
        have e10 : b'.iterations = b.iterations + 1 := by rw [e4]; exact Nat.mod_eq_of_lt (by omega)
        have := i3 (by omega) k u hk
        rw [e1, e2, e3, e10, show b.iterations + 1 + k = b.iterations + (k + 1) by omega] at this
        exact this

theorem ExpMaker.new_ok {mn mx : Nat} {j : F64} {r : G.ρ} {m : ExpMaker G} (h : ExpMaker.new G mn mx j r = .ok m) :
    m = ⟨⟨mn, mx, j⟩, r⟩ ∧ mn ≤ mx ∧ 0 < mx ∧ ∃ q : Rat, j = .fin q ∧ 0 ≤ q ∧ q ≤ 100 := by
  unfold ExpMaker.new at h
  split at h
  · cases h
  · rename_i c hc
    cases h
    have := C18_stores mn mx j c hc
    subst this
    exact ⟨rfl, (C18_accepts_iff mn mx j).1 ⟨_, hc⟩⟩

theorem ExpMaker.session_eq (m : ExpMaker G) (k : Nat) : m.session k = ⟨m.cfg.min, m.cfg.max, m.cfg.jitter, m.rng, 0⟩ := by
  induction k with
  | zero => rfl
  | succ k ih => exact ih

/-- **C68.** In every session of an `ExponentialBackoffMaker` that was accepted, whatever sessions it started before and however the floating point arithmetic rounds: all delays are between `min` and `max`; up to 2³² of them, the `k`-th is at least `min · 2ᵏ` (capped, see `plainDelay`), and it is exactly that if
`jitter` is 0. -/
theorem C68_session (casts : Nat → F64 → Nat → Nat × Nat) {mn mx : Nat} {j : F64} {r : G.ρ} {m : ExpMaker G} (hmx : mx ≤ durMax) (hm : ExpMaker.new G mn mx j r = .ok m) (i n : Nat) {ts : List Nat}
    (h : (m.session i).delays casts n = some ts) :
    ts.length = n ∧ (∀ t ∈ ts, mn ≤ t ∧ t ≤ mx) ∧ (n ≤ 2 ^ 32 → ∀ k t, ts[k]? = some t → plainDelay mn mx k ≤ t ∧ (j = .fin 0 → t = plainDelay mn mx k)) := by
  obtain ⟨rfl, h1, h2, q, rfl, _⟩ := ExpMaker.new_ok hm
  rw [ExpMaker.session_eq] at h
  obtain ⟨a, b, c⟩ := ExpBackoff.delays_spec n _ ts hmx h1 h
  refine ⟨a, b, fun hn k t hk => ?_⟩
  have := c (by simp only; omega) k t hk
  simp only [Nat.zero_add] at this
  exact ⟨this.1, fun hj => this.2.1 (by cases hj; decide)⟩

/-- **C68.** In exact arithmetic the `k`-th delay exceeds the plain one by less than `jitter` times that (or by nothing). -/
theorem C68_jitter {mn mx : Nat} {q : Rat} {r : G.ρ} {m : ExpMaker G} (hmx : mx ≤ durMax) (hm : ExpMaker.new G mn mx (.fin q) r = .ok m) (i n : Nat) {ts : List Nat} (h : (m.session i).delays exactCasts n = some ts)
    (hn : n ≤ 2 ^ 32) (k t : Nat) (hk : ts[k]? = some t) : (t : Rat) ≤ plainDelay mn mx k + plainDelay mn mx k * q := by
  obtain ⟨rfl, h1, h2, q', hq', hq0, hq1⟩ := ExpMaker.new_ok hm
  cases hq'
  rw [ExpMaker.session_eq] at h
  obtain ⟨a, b, c⟩ := ExpBackoff.delays_spec n _ ts hmx h1 h
  have := c (by simp only; omega) k t hk
  simp only [Nat.zero_add] at this
  obtain ⟨c1, c2, c3⟩ := this
  have hnn : (0 : Rat) ≤ plainDelay mn mx k * q := mul_nonneg (Nat.cast_nonneg _) hq0
  cases hz : (F64.fin q).isZero with
  | true => rw [c2 hz]; linarith
  | false =>
    obtain ⟨v, hv, _, it, hnb⟩ := c3 hz
    unfold nextBackoff at hnb
    simp only [Option.bind_eq_bind, Option.bind_eq_some_iff] at hnb
    obtain ⟨jj, hj, hp⟩ := hnb
    rw [plainDelay_eq hmx] at hj hp
    cases hp
    have hle := C17_jitter_at_most mx (plainDelay mn mx k) (v * q.num.toNat) (2 ^ 53 * q.den) jj hj
    have hnum : ((q.num.toNat : Int) : Rat) = q.num := by rw [Int.toNat_of_nonneg (Rat.num_nonneg.2 hq0)]
    have hqe : q * q.den = (q.num.toNat : Nat) := by
      rw [Rat.mul_den_eq_num]; rw [← hnum]; rfl
    have hle' : (jj : Rat) * (2 ^ 53 * q.den) ≤ plainDelay mn mx k * (v * (q.num.toNat : Nat)) := by exact_mod_cast hle
    rw [← hqe] at hle'
    have hden : (0 : Rat) < q.den := by exact_mod_cast q.den_pos
    have hv' : (v : Rat) ≤ 2 ^ 53 := by exact_mod_cast hv.le
    have : (jj : Rat) * (2 ^ 53 * q.den) ≤ (plainDelay mn mx k * q) * (2 ^ 53 * q.den) := by
      refine hle'.trans ?_
      have : (plainDelay mn mx k : Rat) * (v * (q * q.den)) = (plainDelay mn mx k * q * q.den) * v := by ring
      rw [this]
      have : (plainDelay mn mx k : Rat) * q * (2 ^ 53 * q.den) = (plainDelay mn mx k * q * q.den) * 2 ^ 53 := by ring
      rw [this]
      exact mul_le_mul_of_nonneg_left hv' (mul_nonneg hnn hden.le)
    have := le_of_mul_le_mul_right this (by positivity)
    push_cast
    linarith

/-- **C68.** Sessions repeat: whatever the random generator, every session of a maker gives the same delays as its first session, jitter included (`make_backoff` clones the generator and leaves the maker's as it is). -/
theorem C68_sessions_repeat (casts : Nat → F64 → Nat → Nat × Nat) (m : ExpMaker G) (i n : Nat) : (m.session i).delays casts n = (m.session 0).delays casts n := by
  rw [ExpMaker.session_eq, ExpMaker.session_eq]

/-- **C68.** A clone of a session goes on where the session is; it is not reset. -/
theorem C68_clone (casts : Nat → F64 → Nat → Nat × Nat) (b b' : ExpBackoff G) (k n : Nat) (h : b.after casts k = some b') : b'.clone.delays casts n = b'.delays casts n ∧ (b'.jitter.isZero = true →
    b.max ≤ durMax → b.min ≤ b.max → b.iterations + k < 2 ^ 32 → b.jitter.isZero = true ∧ ∃ s, b'.clone.next casts = some (plainDelay b.min b.max (b.iterations + k), s)) := by
  refine ⟨rfl, ?_⟩
  intro hz hmx hle hk
  induction k generalizing b with
  | zero =>
    have hb : b = b' := Option.some.inj h
    rw [← hb] at hz ⊢
    refine ⟨hz, ?_⟩
    show ∃ s, ExpBackoff.next casts b = _
    unfold ExpBackoff.next
    rw [if_pos hz]
    exact ⟨_, by rw [← plainDelay_eq hmx]; rfl⟩
  | succ k ih =>
    simp only [ExpBackoff.after, Option.bind_eq_bind, Option.bind_eq_some_iff] at h
    obtain ⟨⟨t, b1⟩, h1, h2⟩ := h
    obtain ⟨e1, e2, e3, e4, _⟩ := ExpBackoff.next_spec h1 hmx hle
    have e5 : b1.iterations = b.iterations + 1 := by rw [e4]; exact Nat.mod_eq_of_lt (by omega)
    have := ih b1 h2 (by rw [e2]; exact hmx) (by rw [e1, e2]; exact hle) (by omega)
    rw [e1, e2, e3, e5, show b.iterations + 1 + k = b.iterations + (k + 1) by omega] at this
    exact this

/-- **C68.** With `max` below 2⁵⁷ seconds, and exact arithmetic, `next_backoff` of a session panics only when there is jitter and the random number drawn is exactly 0.0 (`debug_assert!`). -/
theorem C68_panics_iff {mn mx : Nat} {q : Rat} {r : G.ρ} {m : ExpMaker G} (hmx : mx < 2 ^ 57 * nsPerSec) (hm : ExpMaker.new G mn mx (.fin q) r = .ok m) (i k : Nat) {b : ExpBackoff G} (h : (m.session i).after exactCasts k = some b) :
    b.next exactCasts = none ↔ q ≠ 0 ∧ (G.nextF64 b.rng).1 = 0 := by
  obtain ⟨rfl, h1, h2, q', hq', hq0, hq1⟩ := ExpMaker.new_ok hm
  cases hq'
  rw [ExpMaker.session_eq] at h
  have hdm : mx ≤ durMax := by unfold durMax nsPerSec at *; omega
  have hb : ∀ k (b0 b : ExpBackoff G), b0.min = mn → b0.max = mx → b0.jitter = .fin q → b0.after exactCasts k = some b → b.min = mn ∧ b.max = mx ∧ b.jitter = .fin q := by
    intro k
    induction k with
    | zero => intro b0 b e1 e2 e3 h; cases h; exact ⟨e1, e2, e3⟩
    | succ k ih =>
      intro b0 b e1 e2 e3 h
      simp only [ExpBackoff.after, Option.bind_eq_bind, Option.bind_eq_some_iff] at h
      obtain ⟨⟨t, b1⟩, h3, h4⟩ := h
      obtain ⟨f1, f2, f3, _⟩ := ExpBackoff.next_spec h3 (by rw [e2]; exact hdm) (by rw [e1, e2]; exact h1)
      exact ih b1 b (f1.trans e1) (f2.trans e2) (f3.trans e3) h4
  obtain ⟨e1, e2, e3⟩ := hb k _ b rfl rfl rfl h
  unfold ExpBackoff.next
  have hz : (b.jitter.isZero = true) ↔ q = 0 := by rw [e3]; simp [F64.isZero]
  split
  · rename_i hzz
    have hq := hz.1 hzz
    have hsome : ∃ t it, nextBackoff b.min b.max b.iterations none = some (t, it) := ⟨_, _, rfl⟩
    obtain ⟨t, it, hs⟩ := hsome
    rw [hs]
    simp [hq]
  · rename_i hzz
    have hq : q ≠ 0 := fun hc => hzz (hz.2 hc)
    simp only
    split
    · rename_i hv
      simp [hv, hq]
    · rename_i hv
      simp only [hv, and_false, iff_false]
      rw [e1, e2, e3]
      have hbb := backoffBase_bounds mn mx b.iterations hdm h1
      generalize hB : backoffBase mn mx b.iterations = B at hbb ⊢
      have hvl := (C36_f64 G b.rng).1
      generalize (G.nextF64 b.rng).1 = v at hvl hv ⊢
      -- the factor is at most 100
      have hfac : v * q.num.toNat ≤ 100 * (2 ^ 53 * q.den) := by
        have hnum : ((q.num.toNat : Int) : Rat) = q.num := by rw [Int.toNat_of_nonneg (Rat.num_nonneg.2 hq0)]
        have hqe : q * q.den = (q.num.toNat : Nat) := by rw [Rat.mul_den_eq_num]; rw [← hnum]; rfl
        have hden : (0 : Rat) < q.den := by exact_mod_cast q.den_pos
        have hn : (q.num.toNat : Rat) ≤ 100 * q.den := by rw [← hqe]; exact mul_le_mul_of_nonneg_right hq1 hden.le
        have hn' : q.num.toNat ≤ 100 * q.den := by exact_mod_cast hn
        calc v * q.num.toNat ≤ 2 ^ 53 * (100 * q.den) := Nat.mul_le_mul hvl.le hn'
          _ = 100 * (2 ^ 53 * q.den) := by ring
      have hdpos : 0 < 2 ^ 53 * q.den := Nat.mul_pos (by norm_num) q.den_pos
      have hdiv : ∀ x, x * (v * q.num.toNat) / (2 ^ 53 * q.den) ≤ x * 100 := by
        intro x
        rw [Nat.div_le_iff_le_mul_add_pred hdpos]
        have := Nat.mul_le_mul_left x hfac
        have e : x * (100 * (2 ^ 53 * q.den)) = 2 ^ 53 * q.den * (x * 100) := by ring
        omega
      have hBs : B / nsPerSec < 2 ^ 57 := by
        rw [Nat.div_lt_iff_lt_mul (by decide)]
        omega
      have hs := hdiv (B / nsPerSec)
      have hn := hdiv (B % nsPerSec)
      have hmod : B % nsPerSec < nsPerSec := Nat.mod_lt _ (by decide)
      have hsome : ∃ t it, nextBackoff mn mx b.iterations (some (exactCasts B (.fin q) v)) = some (t, it) := by
        have hfit : (exactCasts B (.fin q) v).1 + (exactCasts B (.fin q) v).2 / nsPerSec < 2 ^ 64 := by
          have l1 : (exactCasts B (.fin q) v).1 ≤ B / nsPerSec * 100 := (Nat.min_le_left _ _).trans hs
          have l2 : (exactCasts B (.fin q) v).2 ≤ B % nsPerSec * 100 := (Nat.min_le_left _ _).trans hn
          have l3 : (exactCasts B (.fin q) v).2 / nsPerSec ≤ 100 := by
            rw [Nat.div_le_iff_le_mul_add_pred (by decide)]
            have : nsPerSec * 100 = 100 * nsPerSec := by ring
            omega
          omega
        have := C17_no_panic mn mx [some (exactCasts B (.fin q) v)] b.iterations (by
          intro s n hsn
          simp only [List.mem_singleton, Option.some.injEq] at hsn
          rw [← hsn] at hfit
          exact hfit)
        simp only [backoffRun] at this
        cases hnb : nextBackoff mn mx b.iterations (some (exactCasts B (.fin q) v)) with
        | none => rw [hnb] at this; cases this
        | some x => exact ⟨x.1, x.2, rfl⟩
      obtain ⟨t, it, hs⟩ := hsome
      rw [hs]
      simp

/-- **C68.** `ExponentialBackoffMaker::default()` does not panic. It is a maker with delays of 50 ms to `u64::MAX` ms and jitter 0.99 (so the above applies to it). -/
theorem C68_default (r : G.ρ) : ∃ m, ExpMaker.default G r = some m ∧ ExpMaker.new G 50000000 ((2 ^ 64 - 1) * 1000000) (.fin (99 / 100)) r = .ok m ∧ (2 ^ 64 - 1) * 1000000 < 2 ^ 57 * nsPerSec ∧
    ∀ (casts : Nat → F64 → Nat → Nat × Nat) i n ts, (m.session i).delays casts n = some ts → ∀ k t, k < 32 → ts[k]? = some t → 50000000 * 2 ^ k ≤ t := by
  obtain ⟨c, hc⟩ := (C18_accepts_iff 50000000 ((2 ^ 64 - 1) * 1000000) (.fin (99 / 100))).2 ⟨by norm_num, by norm_num, _, rfl, by norm_num, by norm_num⟩
  have hnew : ExpMaker.new G 50000000 ((2 ^ 64 - 1) * 1000000) (.fin (99 / 100)) r = .ok ⟨c, r⟩ := by unfold ExpMaker.new; rw [hc]
  refine ⟨⟨c, r⟩, ?_, hnew, by unfold nsPerSec; norm_num, ?_⟩
  · unfold ExpMaker.default
    rw [show 50 * 10 ^ 6 = 50000000 by norm_num, show (2 ^ 64 - 1) * 10 ^ 6 = (2 ^ 64 - 1) * 1000000 by norm_num, hnew]
  · intro casts i n ts h k t hk ht
    have hkn : k < ts.length := (List.getElem?_eq_some_iff.1 ht).1
    obtain ⟨a, _, _⟩ := C68_session casts (by unfold durMax nsPerSec; norm_num) hnew i n h
    rw [ExpMaker.session_eq] at h
    -- only the first `k + 1` delays matter
    have key : ∀ (n : Nat) (b : ExpBackoff G) (ts : List Nat), b.delays casts n = some ts → ∀ n' ≤ n, b.delays casts n' = some (ts.take n') := by
      intro n
      induction n with
      | zero => intro b ts h n' hn; cases h; obtain rfl : n' = 0 := by omega
                rfl
      | succ n ih =>
        intro b ts h n' hn
        cases n' with
        | zero => rfl
        | succ n' =>
          simp only [ExpBackoff.delays, Option.bind_eq_bind, Option.bind_eq_some_iff] at h ⊢
          obtain ⟨⟨t, b'⟩, h1, ts', h2, h3⟩ := h
          cases h3
          exact ⟨(t, b'), h1, ts'.take n', ih b' ts' h2 n' (by omega), rfl⟩
    have hd := key n _ ts h (k + 1) (by omega)
    have hs := C68_session casts (by unfold durMax nsPerSec; norm_num) hnew i (k + 1) (ts := ts.take (k + 1)) (by rw [ExpMaker.session_eq]; exact hd)
    have := (hs.2.2 (by omega) k t (by rw [List.getElem?_take_of_lt (by omega)]; exact ht)).1
    refine le_trans ?_ this
    unfold plainDelay
    have hp : 2 ^ k ≤ 2 ^ 31 := Nat.pow_le_pow_right (by omega) (by omega)
    rw [show Nat.min (2 ^ k) (2 ^ 32 - 1) = 2 ^ k from Nat.min_eq_left (by omega)]
    refine le_min (le_refl _) ?_
    have := Nat.mul_le_mul_left 50000000 hp
    omega

/-! ## An example -/

namespace Demo68

/-- a generator -/
def rng : Rng := ⟨Nat, fun c => (c % 2 ^ 64, c + 2 ^ 62), fun c => Nat.mod_lt _ (by decide)⟩

/-- 100 ms to 1 s, jitter 0.5, from the random numbers 1/4, 1/2, 3/4 -/
def maker : ExpMaker rng := ⟨⟨100000000, 1000000000, .fin (1 / 2)⟩, (2 ^ 62 : Nat)⟩
theorem maker_ok : ExpMaker.new rng 100000000 1000000000 (.fin (1 / 2)) (2 ^ 62 : Nat) = .ok maker := by
  obtain ⟨c, hc⟩ := (C18_accepts_iff 100000000 1000000000 (.fin (1 / 2))).2 ⟨by norm_num, by norm_num, _, rfl, by norm_num, by norm_num⟩
  unfold ExpMaker.new
  rw [hc, C18_stores _ _ _ _ hc]
  rfl
theorem first : (maker.session 0).delays exactCasts 3 = some [112500000, 250000000, 550000000] := by decide +kernel
example : ([112500000, 250000000, 550000000] : List Nat).length = 3 := (C68_session exactCasts (by decide) maker_ok 0 3 first).1
/-- another session: the same "random" delays -/
example : (maker.session 7).delays exactCasts 3 = some [112500000, 250000000, 550000000] := (C68_sessions_repeat exactCasts maker 7 3).trans first
example : ((550000000 : Nat) : Rat) ≤ plainDelay 100000000 1000000000 2 + plainDelay 100000000 1000000000 2 * (1 / 2) := C68_jitter (by decide) maker_ok 0 3 first (by norm_num) 2 _ rfl

/-- The documentation of `Backoff` says that `Clone` resets the backoff to its default state for the next session. It does not: after one delay of 1 s a clone goes on with 2 s. -/
theorem C68_clone_not_reset : ∃ (m : ExpMaker rng) (b : ExpBackoff rng), ExpMaker.new rng 1000000000 8000000000 (.fin 0) (0 : Nat) = .ok m ∧ (m.session 0).after exactCasts 1 = some b ∧
    (m.session 0).delays exactCasts 1 = some [1000000000] ∧ b.clone.delays exactCasts 1 = some [2000000000] := by
  refine ⟨⟨⟨1000000000, 8000000000, .fin 0⟩, (0 : Nat)⟩, ⟨1000000000, 8000000000, .fin 0, (0 : Nat), 1⟩, rfl, rfl, ?_, ?_⟩ <;> decide +kernel

end Demo68

end Tower
