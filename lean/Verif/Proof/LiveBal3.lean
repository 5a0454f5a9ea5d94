import Verif.Proof.LiveBal2
import Verif.Proof.LiveMw

/-! # A balancer whose discovery provides a good endpoint does not hang -/

set_option linter.unusedSimpArgs false

namespace Tower
open Act
variable {W Req Res Err K DErr BErr : Type} [DecidableEq K]
variable {F : Fairness W} {B : BalCfg W Req Res Err K DErr BErr}

namespace Balance

theorem update_round : ∀ (n : Nat) {b b' : Balance B} {w w' : W} {u}, (update n b).run w = .ok (.ok u, b') w' →
    ∃ chs, Discovered B.D b.disc w chs ∧ DiscRound B.D b.disc w chs b'.disc := by
  intro n
  induction n with
  | zero => intro b b' w w' u h; cases h
  | succ n ih =>
    intro b b' w w' u h
    rw [update] at h
    obtain ⟨⟨p, d⟩, w1, h1, h2⟩ := run_bind_eq_ok.1 h
    have stop : (∀ ch d2 w2, (B.D.poll b.disc).run w ≠ .ok (.ready (some (.ok ch)), d2) w2) → Discovered B.D b.disc w [] := fun h => ⟨_, _, .nil, h⟩
    rcases p with _ | (_ | (e | ch))
    · cases h2
      exact ⟨[], stop (by intro ch d2 w2 h; rw [h1] at h; cases h), .pending h1⟩
    · cases h2
      exact ⟨[], stop (by intro ch d2 w2 h; rw [h1] at h; cases h), .ended h1⟩
    · cases h2
    · obtain ⟨chs, h3, h4⟩ := ih (b := { b with disc := d, svcs := apply b.svcs ch }) h2
      exact ⟨ch :: chs, Discovered.cons h1 h3, .change h1 h4⟩

theorem pollReady_round {fuel : Nat} {b b' : Balance B} {w w' : W} (hi : b.svcs.Inv) (h : (b.pollReady fuel).run w = .ok (.pending, b') w') :
    ∃ chs, Discovered B.D b.disc w chs ∧ DiscRound B.D b.disc w chs b'.disc := by
  unfold pollReady at h
  obtain ⟨⟨r, b1⟩, w1, h1, h2⟩ := run_bind_eq_ok.1 h
  cases r with
  | error e => cases h2
  | ok u =>
    obtain ⟨chs, h3, h4⟩ := update_round fuel h1
    refine ⟨chs, h3, ?_⟩
    obtain ⟨chs', hu⟩ := wpx_ok (update_wpx fuel b w) h1
    have hi1 : b1.svcs.Inv := by
      have : b1.svcs = chs'.foldl apply b.svcs := hu.svcs
      rw [this]; exact CReach.inv hi (foldl_crun (B := B) chs' _)
    dsimp only at h2
    have hr := wpx_ok (rest_wpx b1 w1 hi1) h2
    have hr : RestPost b1 w1 .pending b' w' := hr
    rw [hr.disc]; exact h4

end Balance

theorem DiscRound.after {V : Type} {D : Discover W K V DErr} {d₀ d d' : D.δ} {w : W} {chs : List (Change K V)} (h : DiscRound D d w chs d') : ∀ {l}, D.After d₀ l d → D.After d₀ (l ++ chs) d' := by
  induction h with
  | @change d w ch d1 w1 chs d' h1 _ ih => intro l hl; simpa using ih (.change hl h1)
  | pending h1 => intro l hl; rw [List.append_nil]; exact .pending hl h1
  | ended h1 => intro l hl; rw [List.append_nil]; exact .ended hl h1

/-- A balancer whose discovery provides a good endpoint is ready in the end. -/
theorem balance_ends_provided {fuel N : Nat} {d : B.D.δ} {r : B.G.ρ} (hp : Prompt B.S) (hl : ∀ s, (B.L.load s).Returns) (hD : ∀ d, (B.D.poll d).Returns) (hst : StaysReady B.S) (hF : F.Undisturbed (ByBalancer B))
    (hV : B.V.Wakes F (ByBalancer B)) (hN : ∀ chs d', B.D.After d chs d' → chs.length ≤ N) (hfuel : N < fuel) (hS : ∀ chs d' k s, B.D.After d chs d' → .insert k s ∈ chs → NeverHangs F B.S s)
    {log : List (Change K B.S.σ)} {b : Balance B} (hb : BalRun B fuel (Balance.fromRng B d r) log b) (hk : B.D.Provides F B.S d) :
    Finishes F (balance B fuel).pollReady b := by
  intro ws hws
  by_contra hno
  obtain ⟨bs, ws', h0, h⟩ := not_ends (poll := (balance B fuel).pollReady) (J := fun b => ∃ l, log <+: l ∧ BalRun B fuel (Balance.fromRng B d r) l b) (by
      rintro a w a' w' ⟨l, h1, h2⟩ h3
      obtain ⟨chs, h4, _⟩ := Balance.pollReady_after (h2.log (LogInv.new d r)).inv h2.after h3
      exact ⟨l ++ chs, h1.trans (List.prefix_append _ _), .ready h2 h3 h4⟩) (by
      rintro a w ⟨l, h1, h2⟩ h3
      rcases C34_returns ⟨d, r, h2⟩ h3 with ⟨s, w1, h4⟩ | ⟨s, w1, h4⟩ | h4
      · exact (hp.ready s).spin w1 h4
      · exact (hl s).spin w1 h4
      · obtain ⟨chs, h5, h6⟩ := discovered_of_bound hN _ l a.disc w h2.after rfl
        exact C34_update_returns h5 (by omega) (fun d w => (hD d).spin w) h4) ⟨log, List.prefix_refl _, hb⟩ hno
  -- what is read from discovery meanwhile
  have hstep : ∀ n l, log <+: l → BalRun B fuel (Balance.fromRng B d r) l (bs n) → ∃ chs, (Discovered B.D (bs n).disc (ws n) chs ∧ DiscRound B.D (bs n).disc (ws n) chs (bs (n + 1)).disc) ∧ BalRun B fuel (Balance.fromRng B d r) (l ++ chs) (bs (n + 1)) := by
    intro n l _ h2
    obtain ⟨chs, h4, h5⟩ := Balance.pollReady_round (h2.log (LogInv.new d r)).inv (h n).2
    exact ⟨chs, ⟨h4, h5⟩, .ready h2 (h n).2 h4⟩
  have hdisc : ∀ n, ∃ chs, Discovered B.D (bs n).disc (ws n) chs ∧ DiscRound B.D (bs n).disc (ws n) chs (bs (n + 1)).disc := fun n => by
    obtain ⟨l, h1, h2⟩ := (h n).1
    obtain ⟨chs, h3, _⟩ := hstep n l h1 h2
    exact ⟨chs, h3⟩
  choose ch hch using hdisc
  let logs : Nat → List (Change K B.S.σ) := fun n => Nat.rec log (fun n l => l ++ ch n) n
  have hlogs : ∀ n, log <+: logs n ∧ BalRun B fuel (Balance.fromRng B d r) (logs n) (bs n) := by
    intro n
    induction n with
    | zero => exact ⟨List.prefix_refl _, by rw [h0]; exact hb⟩
    | succ n ih =>
      refine ⟨ih.1.trans (List.prefix_append _ _), ?_⟩
      obtain ⟨chs, h3, h4⟩ := hstep n _ ih.1 ih.2
      cases Discovered.unique (hch n).1 h3.1
      exact h4
  have hlen : ∀ n, (logs n).length ≤ N := fun n => hN _ _ (hlogs n).2.after
  -- the longest
  classical
  have hex : ∃ x, ∃ n, N - (logs n).length = x := ⟨_, 0, rfl⟩
  obtain ⟨m, hm⟩ := Nat.find_spec hex
  have hmin : ∀ n, N - (logs m).length ≤ N - (logs n).length := fun n => by rw [hm]; exact Nat.find_min' hex ⟨n, rfl⟩
  have hq : ∀ n, m ≤ n → logs (n + 1) = logs n := by
    have hpre : ∀ j, (logs m).length ≤ (logs (m + j)).length := by
      intro j
      induction j with
      | zero => exact Nat.le_refl _
      | succ j ih => exact ih.trans (by show _ ≤ (logs (m + j) ++ ch (m + j)).length; simp)
    intro n hn
    obtain ⟨j, rfl⟩ := Nat.exists_eq_add_of_le hn
    have h1 := hmin (m + j + 1)
    have h2 := hpre j
    have h3 := hlen (m + j + 1)
    have h4 := hlen m
    have h5 : (logs (m + j + 1)).length = (logs (m + j)).length + (ch (m + j)).length := by show (logs (m + j) ++ ch (m + j)).length = _; simp
    have : ch (m + j) = [] := List.eq_nil_of_length_eq_zero (by omega)
    show logs (m + j) ++ ch (m + j) = _
    rw [this, List.append_nil]
  obtain ⟨n₁, hn₁⟩ := balance_starves (F := F) hst hF hV hws (logs := logs) (bs := bs) (ws' := ws') (n₀ := m) ⟨d, r, (hlogs 0).2⟩ (fun n => (h n).2) (fun n => ⟨ch n, (hch n).1, rfl⟩) hq
    (fun n k s hks => hS _ _ k s (hlogs n).2.after hks)
  obtain ⟨m2, hm2⟩ := hk ws (fun n => (bs n).disc) logs hws (hlogs 0).2.after (fun n => ⟨ch n, (hch n).2, rfl⟩)
  obtain ⟨k, t, s, hnew, hf⟩ := hm2 (max n₁ m2) (Nat.le_max_right _ _)
  have := holds_len (B := B) (BalReach.newest ⟨d, r, (hlogs (max n₁ m2)).2⟩ hnew hf)
  have h2 := hn₁ (max n₁ m2) (Nat.le_max_left _ _)
  unfold Balance.len at h2
  omega

theorem run_bind_eq_spin {α β : Type} {x : Act W α} {f : α → Act W β} {w : W} (h : (x >>= f).run w = .spin) : x.run w = .spin ∨ ∃ a w', x.run w = .ok a w' ∧ (f a).run w' = .spin := by
  rw [run_bind] at h
  cases hx : x.run w with
  | spin => exact .inl rfl
  | panic m => rw [hx] at h; cases h
  | ok a w' => rw [hx] at h; exact .inr ⟨a, w', rfl, h⟩

/-- what lawful users do is part of its histories -/
theorem balance_reach {fuel : Nat} {d : B.D.δ} {r : B.G.ρ} {c : Bool} {b : Balance B} (h : Reach (balance B fuel) (Balance.fromRng B d r) c b) : ∃ log, BalRun B fuel (Balance.fromRng B d r) log b := by
  refine Reach.rec (S := balance B fuel) (s₀ := Balance.fromRng B d r) (motive := fun _ b _ => ∃ log, BalRun B fuel (Balance.fromRng B d r) log b) ⟨[], .refl⟩ ?_ ?_ ?_ ?_ h
  · rintro _ s s' w w' _ hr ⟨log, h2⟩
    obtain ⟨chs, h4, _⟩ := Balance.pollReady_after (h2.log (LogInv.new d r)).inv h2.after hr
    exact ⟨_, .ready h2 hr h4⟩
  · rintro _ s s' w w' _ hr ⟨log, h2⟩
    obtain ⟨chs, h4, _⟩ := Balance.pollReady_after (h2.log (LogInv.new d r)).inv h2.after hr
    exact ⟨_, .ready h2 hr h4⟩
  · rintro s q f s' w w' _ hc ⟨log, h2⟩
    exact ⟨_, .call h2 hc⟩
  · rintro _ s _ h2
    exact h2

theorem balance_never_hangs {fuel N : Nat} {d : B.D.δ} {r : B.G.ρ} (hp : Prompt B.S) (hl : ∀ s, (B.L.load s).Returns) (hD : ∀ d, (B.D.poll d).Returns) (hst : StaysReady B.S) (hF : F.Undisturbed (ByBalancer B))
    (hV : B.V.Wakes F (ByBalancer B)) (hN : ∀ chs d', B.D.After d chs d' → chs.length ≤ N) (hfuel : N < fuel) (hS : ∀ chs d' k s, B.D.After d chs d' → .insert k s ∈ chs → NeverHangs F B.S s) (hk : B.D.Provides F B.S d) :
    NeverHangs F (balance B fuel) (Balance.fromRng B d r) where
  ready c b hb := by
    obtain ⟨log, hb⟩ := balance_reach hb
    exact balance_ends_provided hp hl hD hst hF hV hN hfuel hS hb hk
  call b q w hb hr := by
    obtain ⟨log, hb⟩ := balance_reach hb
    have hR : BalReach B fuel log b := ⟨d, r, hb⟩
    have hi := (hb.log (LogInv.new d r)).inv
    have hall := hR.all (Pp := fun s => ∃ s₀ b, NeverHangs F B.S s₀ ∧ Reach B.S s₀ b s) (Pr := fun s => ∃ s₀, NeverHangs F B.S s₀ ∧ Reach B.S s₀ true s)
      ⟨fun ⟨s₀, b, h1, h2⟩ h => ⟨s₀, false, h1, .pending h2 h⟩, fun ⟨s₀, b, h1, h2⟩ h => ⟨s₀, h1, .ready h2 h⟩, fun ⟨s₀, h1, h2⟩ h => ⟨s₀, false, h1, .pending h2 h⟩, fun ⟨s₀, h1, h2⟩ h => ⟨s₀, h1, .ready h2 h⟩⟩
      (fun ⟨s₀, h1, h2⟩ h => ⟨s₀, false, h1, .call h2 h⟩) (fun k s h => ⟨s, false, hS _ _ k s hb.after h, .new⟩)
    rcases run_bind_eq_spin hr with h1 | ⟨x, w1, _, h1⟩
    · unfold Balance.call at h1
      cases hidx : b.idx with
      | none => simp only [hidx] at h1; cases h1
      | some i =>
        simp only [hidx] at h1
        rcases run_bind_eq_spin h1 with h2 | ⟨x, w1, _, h2⟩
        · cases he : b.svcs.ready[i]? with
          | none => rw [Cache.callReadyIndex_none he] at h2; cases h2
          | some e =>
            obtain ⟨k, s, p⟩ := e
            obtain ⟨s₀, h4, h5⟩ := hall.2 k p.2 s (hi.get_ready he)
            obtain ⟨c1, c2, c3⟩ := Cache.callReadyIndex_spec hi he q w
            cases hcall : (B.S.call s q).run w with
            | spin => exact h4.call s q w h5 hcall
            | panic m => rw [c1 m hcall] at h2; cases h2
            | ok x w1 =>
              obtain ⟨f, s'⟩ := x
              obtain ⟨c', h6, _⟩ := c3 f s' w1 hcall
              rw [h6] at h2; cases h2
        · cases h2
    · cases h1
  poll b q w f b' w' hb hc := by
    obtain ⟨log, hb⟩ := balance_reach hb
    have hR : BalReach B fuel log b := ⟨d, r, hb⟩
    have hi := (hb.log (LogInv.new d r)).inv
    obtain ⟨g, rfl, hg⟩ := balance_call hc
    obtain ⟨i, k, s, p, s', h1, h2, h3, _⟩ := Balance.call_spec hi hg
    have hall := hR.all (Pp := fun s => ∃ s₀ b, NeverHangs F B.S s₀ ∧ Reach B.S s₀ b s) (Pr := fun s => ∃ s₀, NeverHangs F B.S s₀ ∧ Reach B.S s₀ true s)
      ⟨fun ⟨s₀, b, h1, h2⟩ h => ⟨s₀, false, h1, .pending h2 h⟩, fun ⟨s₀, b, h1, h2⟩ h => ⟨s₀, h1, .ready h2 h⟩, fun ⟨s₀, h1, h2⟩ h => ⟨s₀, false, h1, .pending h2 h⟩, fun ⟨s₀, h1, h2⟩ h => ⟨s₀, h1, .ready h2 h⟩⟩
      (fun ⟨s₀, h1, h2⟩ h => ⟨s₀, false, h1, .call h2 h⟩) (fun k s h => ⟨s, false, hS _ _ k s hb.after h, .new⟩)
    obtain ⟨s₀, h4, h5⟩ := hall.2 k p.2 s (hi.get_ready h2)
    exact (h4.poll s q w g s' w' h5 h3).mapFut (by intro a w hh; cases hh)

end Tower
