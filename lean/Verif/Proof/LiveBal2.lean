import Verif.Proof.BalKeep
import Verif.Proof.Prompt2
import Verif.Props.C30_Balance

/-! # A balancer with a good endpoint comes to an end -/

set_option linter.unusedSimpArgs false

namespace Tower
open Act
variable {W Req Res Err K DErr BErr : Type} [DecidableEq K]
variable {F : Fairness W} {B : BalCfg W Req Res Err K DErr BErr}

/-- what does not come to an end is pending forever -/
theorem not_ends {A V : Type} {poll : A → Act W (Poll V × A)} {J : A → Prop} (hJ : ∀ a w a' w', J a → (poll a).run w = .ok (.pending, a') w' → J a') (hs : ∀ a w, J a → (poll a).run w ≠ .spin) {a : A} {ws : Nat → W} (ha : J a)
    (h : ¬ Ends poll a ws) : ∃ as : Nat → A, ∃ ws' : Nat → W, as 0 = a ∧ ∀ n, J (as n) ∧ (poll (as n)).run (ws n) = .ok (.pending, as (n + 1)) (ws' n) := by
  classical
  let T := { x : A × Nat // J x.1 ∧ ¬ Ends poll x.1 (fun n => ws (x.2 + n)) }
  have step : ∀ x : T, ∃ y : T, ∃ w' : W, y.1.2 = x.1.2 + 1 ∧ (poll x.1.1).run (ws x.1.2) = .ok (.pending, y.1.1) w' := by
    rintro ⟨⟨a, m⟩, h1, h2⟩
    cases hr : (poll a).run (ws m) with
    | spin => exact absurd hr (hs a _ h1)
    | panic msg => exact absurd (Ends.panics (ws := fun n => ws (m + n)) hr) h2
    | ok o w' =>
      obtain ⟨p, a'⟩ := o
      cases p with
      | ready v => exact absurd (Ends.ready (ws := fun n => ws (m + n)) hr) h2
      | pending =>
        refine ⟨⟨(a', m + 1), hJ _ _ _ _ h1 hr, fun h3 => h2 (.pending (ws := fun n => ws (m + n)) hr ?_)⟩, w', rfl, rfl⟩
        refine (?_ : (fun n => ws (m + 1 + n)) = fun n => ws (m + (n + 1))) ▸ h3
        funext n; congr 1; omega
  choose nx wx h1 h2 using step
  let x0 : T := ⟨(a, 0), ha, by simpa using h⟩
  let xs : Nat → T := fun n => Nat.rec x0 (fun _ x => nx x) n
  have hx : ∀ n, (xs n).1.2 = n := by
    intro n
    induction n with
    | zero => rfl
    | succ n ih => show (nx (xs n)).1.2 = _; rw [h1, ih]
  refine ⟨fun n => (xs n).1.1, fun n => wx (xs n), rfl, fun n => ⟨(xs n).2.1, ?_⟩⟩
  have := h2 (xs n)
  rw [hx] at this
  exact this

namespace Balance

theorem update_after {d₀ : B.D.δ} : ∀ (n : Nat) {b b' : Balance B} {l : List (Change K B.S.σ)} {w w' : W} {r}, B.D.After d₀ l b.disc → (update n b).run w = .ok (r, b') w' →
    ∃ chs, Discovered B.D b.disc w chs ∧ B.D.After d₀ (l ++ chs) b'.disc := by
  intro n
  induction n with
  | zero => intro b b' l w w' r _ h; cases h
  | succ n ih =>
    intro b b' l w w' r ha h
    rw [update] at h
    obtain ⟨⟨p, d⟩, w1, h1, h2⟩ := run_bind_eq_ok.1 h
    have stop : (∀ ch d2 w2, (B.D.poll b.disc).run w ≠ .ok (.ready (some (.ok ch)), d2) w2) → Discovered B.D b.disc w [] := fun h => ⟨_, _, .nil, h⟩
    rcases p with _ | (_ | (e | ch))
    · cases h2
      exact ⟨[], stop (by intro ch d2 w2 h; rw [h1] at h; cases h), by rw [List.append_nil]; exact .pending ha h1⟩
    · cases h2
      exact ⟨[], stop (by intro ch d2 w2 h; rw [h1] at h; cases h), by rw [List.append_nil]; exact .ended ha h1⟩
    · cases h2
      exact ⟨[], stop (by intro ch d2 w2 h; rw [h1] at h; cases h), by rw [List.append_nil]; exact .failed ha h1⟩
    · obtain ⟨chs, h3, h4⟩ := ih (b := { b with disc := d, svcs := apply b.svcs ch }) (.change ha h1) h2
      exact ⟨ch :: chs, Discovered.cons h1 h3, by simpa using h4⟩

theorem pollReady_after {d₀ : B.D.δ} {fuel : Nat} {b b' : Balance B} {l : List (Change K B.S.σ)} {w w' : W} {p} (hi : b.svcs.Inv) (ha : B.D.After d₀ l b.disc) (h : (b.pollReady fuel).run w = .ok (p, b') w') :
    ∃ chs, Discovered B.D b.disc w chs ∧ B.D.After d₀ (l ++ chs) b'.disc := by
  unfold pollReady at h
  obtain ⟨⟨r, b1⟩, w1, h1, h2⟩ := run_bind_eq_ok.1 h
  obtain ⟨chs, h3, h4⟩ := update_after fuel ha h1
  refine ⟨chs, h3, ?_⟩
  cases r with
  | error e => cases h2; exact h4
  | ok u =>
    obtain ⟨chs', hu⟩ := wpx_ok (update_wpx fuel b w) h1
    have hi1 : b1.svcs.Inv := by
      have : b1.svcs = chs'.foldl apply b.svcs := hu.svcs
      rw [this]; exact CReach.inv hi (foldl_crun (B := B) chs' _)
    dsimp only at h2
    have hr := wpx_ok (rest_wpx b1 w1 hi1) h2
    have hr : RestPost b1 w1 p b' w' := hr
    rw [hr.disc]; exact h4

end Balance

theorem BalRun.after {fuel : Nat} {d : B.D.δ} {r : B.G.ρ} {log : List (Change K B.S.σ)} {b : Balance B} (h : BalRun B fuel (Balance.fromRng B d r) log b) : B.D.After d log b.disc := by
  induction h with
  | refl => exact .new
  | @ready log b w p b' w' chs h1 hr hd ih =>
    have hi := (h1.log (LogInv.new d r)).inv
    obtain ⟨chs', h2, h3⟩ := Balance.pollReady_after hi ih hr
    cases Discovered.unique hd h2
    exact h3
  | @call log b q w f b' w' h1 hc ih =>
    have hi := (h1.log (LogInv.new d r)).inv
    obtain ⟨f0, hf0, hc0⟩ := balance_call hc
    obtain ⟨i, k, s, p, s', _, _, _, _, _, _, _, h8, _⟩ := Balance.call_spec hi hc0
    rw [h8]; exact ih

theorem discovered_of_bound {d₀ : B.D.δ} {N : Nat} (hN : ∀ chs d, B.D.After d₀ chs d → chs.length ≤ N) : ∀ (m : Nat) (l : List (Change K B.S.σ)) (d : B.D.δ) (w : W), B.D.After d₀ l d → N - l.length = m →
    ∃ chs, Discovered B.D d w chs ∧ l.length + chs.length ≤ N := by
  intro m
  induction m with
  | zero =>
    intro l d w ha hm
    have := hN l d ha
    refine ⟨[], ⟨d, w, .nil, fun ch d2 w2 h => ?_⟩, by simpa using this⟩
    have := hN _ _ (.change ha h)
    simp at this; omega
  | succ m ih =>
    intro l d w ha hm
    have hl := hN l d ha
    by_cases h : ∃ ch d2 w2, (B.D.poll d).run w = .ok (.ready (some (.ok ch)), d2) w2
    · obtain ⟨ch, d2, w2, h⟩ := h
      obtain ⟨chs, h1, h2⟩ := ih (l ++ [ch]) d2 w2 (.change ha h) (by simp; omega)
      exact ⟨ch :: chs, Balance.Discovered.cons h h1, by simp at h2 ⊢; omega⟩
    · exact ⟨[], ⟨d, w, .nil, fun ch d2 w2 h1 => h ⟨ch, d2, w2, h1⟩⟩, by simpa using hl⟩

/-- what a good endpoint is: it does not fail -/
theorem NeverFails.sound {S : Service W Req Res Err} {s : S.σ} (h : NeverFails S s) : Sound S (fun x => ∃ b, Reach S s b x) (Reach S s true) where
  pp := fun ⟨_, h1⟩ h2 => ⟨_, .pending h1 h2⟩
  pr := fun ⟨_, h1⟩ h2 => .ready h1 h2
  rp := fun h1 h2 => ⟨_, .pending h1 h2⟩
  rr := fun h1 h2 => .ready h1 h2
  nofail := by
    rintro x x' w w' e (⟨b, h1⟩ | h1)
    · exact h _ _ _ _ _ _ h1
    · exact h _ _ _ _ _ _ h1
  call := fun h1 h2 => ⟨_, .call h1 h2⟩

theorem BalReach.newest {fuel : Nat} {log : List (Change K B.S.σ)} {b : Balance B} (h : BalReach B fuel log b) {k : K} {t : Nat} {s : B.S.σ} (hn : Newest log k t s) (hs : NeverFails B.S s) : b.svcs.view.Holds k t := by
  obtain ⟨d, r, h⟩ := h
  obtain ⟨pre, post, h1, rfl, h3, h4⟩ := hn
  exact (h.kept hs.sound (LogInv.new d r) pre s post h1 ⟨false, .new⟩ h3 h4).holds

theorem holds_len {c : Cache K B.S} {k : K} {t : Nat} (h : c.view.Holds k t) : 0 < c.len := by
  unfold Cache.len
  rcases h with ⟨s, h⟩ | ⟨s, h⟩
  · have : c.pending ≠ [] := by rintro h1; simp [Cache.view, h1] at h
    have := List.length_pos_iff.2 this
    omega
  · have : c.ready ≠ [] := by rintro h1; simp [Cache.view, h1, IMap.get] at h
    have := List.length_pos_iff.2 this
    omega

/-- A balancer with a good endpoint is ready in the end. -/
theorem balance_ends {fuel N : Nat} {d : B.D.δ} {r : B.G.ρ} (hp : Prompt B.S) (hl : ∀ s, (B.L.load s).Returns) (hD : ∀ d, (B.D.poll d).Returns) (hst : StaysReady B.S) (hF : F.Undisturbed (ByBalancer B))
    (hV : B.V.Wakes F (ByBalancer B)) (hN : ∀ chs d', B.D.After d chs d' → chs.length ≤ N) (hfuel : N < fuel) (hS : ∀ chs d' k s, B.D.After d chs d' → .insert k s ∈ chs → NeverHangs F B.S s)
    {log : List (Change K B.S.σ)} {b : Balance B} (hb : BalRun B fuel (Balance.fromRng B d r) log b) (hk : ∀ chs d', B.D.After d chs d' → log <+: chs → ∃ k t s, Newest chs k t s ∧ NeverFails B.S s) :
    Finishes F (balance B fuel).pollReady b := by
  intro ws hws
  by_contra hno
  obtain ⟨bs, ws', h0, h⟩ := not_ends (poll := (balance B fuel).pollReady) (J := fun b => ∃ l, log <+: l ∧ BalRun B fuel (Balance.fromRng B d r) l b) (by
      rintro a w a' w' ⟨l, h1, h2⟩ h3
      obtain ⟨chs, h4, _⟩ := Balance.pollReady_after (h2.log (LogInv.new d r)).inv h2.after h3
      exact ⟨l ++ chs, h1.trans (List.prefix_append _ _), .ready h2 h3 h4⟩) (by
      rintro a w ⟨l, h1, h2⟩ h3
      rcases C34_returns ⟨d, r, h2⟩ h3 with ⟨s, w1, h4⟩ | ⟨s, w1, h4⟩ | h4
      · exact (hp.ready s).spin w1 h4
      · exact (hl s).spin w1 h4
      · obtain ⟨chs, h5, h6⟩ := discovered_of_bound hN _ l a.disc w h2.after rfl
        exact C34_update_returns h5 (by omega) (fun d w => (hD d).spin w) h4) ⟨log, List.prefix_refl _, hb⟩ hno
  -- what is read from discovery meanwhile
  have hstep : ∀ n l, log <+: l → BalRun B fuel (Balance.fromRng B d r) l (bs n) → ∃ chs, Discovered B.D (bs n).disc (ws n) chs ∧ BalRun B fuel (Balance.fromRng B d r) (l ++ chs) (bs (n + 1)) := by
    intro n l _ h2
    obtain ⟨chs, h4, _⟩ := Balance.pollReady_after (h2.log (LogInv.new d r)).inv h2.after (h n).2
    exact ⟨chs, h4, .ready h2 (h n).2 h4⟩
  have hdisc : ∀ n, ∃ chs, Discovered B.D (bs n).disc (ws n) chs := fun n => by
    obtain ⟨l, h1, h2⟩ := (h n).1
    obtain ⟨chs, h3, _⟩ := hstep n l h1 h2
    exact ⟨chs, h3⟩
  choose ch hch using hdisc
  let logs : Nat → List (Change K B.S.σ) := fun n => Nat.rec log (fun n l => l ++ ch n) n
  have hlogs : ∀ n, log <+: logs n ∧ BalRun B fuel (Balance.fromRng B d r) (logs n) (bs n) := by
    intro n
    induction n with
    | zero => exact ⟨List.prefix_refl _, by rw [h0]; exact hb⟩
    | succ n ih =>
      refine ⟨ih.1.trans (List.prefix_append _ _), ?_⟩
      obtain ⟨chs, h3, h4⟩ := hstep n _ ih.1 ih.2
      cases Discovered.unique (hch n) h3
      exact h4
  have hlen : ∀ n, (logs n).length ≤ N := fun n => hN _ _ (hlogs n).2.after
  -- the longest
  classical
  have hex : ∃ x, ∃ n, N - (logs n).length = x := ⟨_, 0, rfl⟩
  obtain ⟨m, hm⟩ := Nat.find_spec hex
  have hmin : ∀ n, N - (logs m).length ≤ N - (logs n).length := fun n => by rw [hm]; exact Nat.find_min' hex ⟨n, rfl⟩
  have hq : ∀ n, m ≤ n → logs (n + 1) = logs n := by
    have hpre : ∀ j, (logs m).length ≤ (logs (m + j)).length := by
      intro j
      induction j with
      | zero => exact Nat.le_refl _
      | succ j ih => exact ih.trans (by show _ ≤ (logs (m + j) ++ ch (m + j)).length; simp)
    intro n hn
    obtain ⟨j, rfl⟩ := Nat.exists_eq_add_of_le hn
    have h1 := hmin (m + j + 1)
    have h2 := hpre j
    have h3 := hlen (m + j + 1)
    have h4 := hlen m
    have h5 : (logs (m + j + 1)).length = (logs (m + j)).length + (ch (m + j)).length := by show (logs (m + j) ++ ch (m + j)).length = _; simp
    have : ch (m + j) = [] := List.eq_nil_of_length_eq_zero (by omega)
    show logs (m + j) ++ ch (m + j) = _
    rw [this, List.append_nil]
  obtain ⟨n₁, hn₁⟩ := balance_starves (F := F) hst hF hV hws (logs := logs) (bs := bs) (ws' := ws') (n₀ := m) ⟨d, r, (hlogs 0).2⟩ (fun n => (h n).2) (fun n => ⟨ch n, hch n, rfl⟩) hq
    (fun n k s hks => hS _ _ k s (hlogs n).2.after hks)
  obtain ⟨k, t, s, hnew, hf⟩ := hk _ _ (hlogs n₁).2.after (hlogs n₁).1
  have := holds_len (B := B) (BalReach.newest ⟨d, r, (hlogs n₁).2⟩ hnew hf)
  have h2 := hn₁ n₁ (Nat.le_refl _)
  unfold Balance.len at h2
  omega

end Tower
