import Verif.Proof.LiveBal3
import Verif.Props.C90_CallAllEnds

/-! # C91: a balancer keeps its endpoints, and does not hang while it has a good one -/

set_option linter.unusedSimpArgs false

namespace Tower
open Act
variable {W Req Res Err K DErr BErr : Type} [DecidableEq K] {F : Fairness W} {B : BalCfg W Req Res Err K DErr BErr} {fuel : Nat}

/-- **C91, nothing is lost.** Whatever has been done with the balancer, and whatever the other endpoints did: the endpoint that discovery inserted last for a key is held by the balancer, as long as it has not failed and
discovery has not removed the key. -/
theorem C91_kept {log : List (Change K B.S.σ)} {b : Balance B} (h : BalReach B fuel log b) {k : K} {t : Nat} {s : B.S.σ} (hn : Newest log k t s) (hs : NeverFails B.S s) : b.svcs.view.Holds k t :=
  h.newest hn hs

/-- **C91, it starves only if it is empty.** A balancer is polled again and again, and is pending each time. From some time on discovery yields nothing more. No endpoint hangs, and the set of waiting endpoints is polled fairly. Then
from some time on the balancer has no endpoints. (Both what is ready and what waits is counted.) -/
theorem C91_starves (hst : StaysReady B.S) (hF : F.Undisturbed (ByBalancer B)) (hV : B.V.Wakes F (ByBalancer B)) {ws ws' : Nat → W} (hws : F.fair ws) {logs : Nat → List (Change K B.S.σ)} {bs : Nat → Balance B} {n₀ : Nat}
    (h0 : BalReach B fuel (logs 0) (bs 0)) (hrun : ∀ n, ((balance B fuel).pollReady (bs n)).run (ws n) = .ok (.pending, bs (n + 1)) (ws' n))
    (hd : ∀ n, ∃ chs, Discovered B.D (bs n).disc (ws n) chs ∧ logs (n + 1) = logs n ++ chs) (hq : ∀ n, n₀ ≤ n → logs (n + 1) = logs n) (hS : ∀ n k s, .insert k s ∈ logs n → NeverHangs F B.S s) :
    ∃ n₁, ∀ n, n₁ ≤ n → (bs n).len = 0 :=
  balance_starves hst hF hV hws h0 hrun hd hq hS

/-- **C91, the balancer does not hang.** Discovery yields finitely many changes. No endpoint hangs, what is ready stays ready, and the waiting endpoints are polled fairly. Whatever discovery will yet yield, some key will have an endpoint
that does not fail. Then a balancer, at any time of its life, that is polled with `poll_ready` again and again, is ready (or returns the error of discovery, or panics) after finitely many polls. -/
theorem C91_ends {N : Nat} {d : B.D.δ} {r : B.G.ρ} (hp : Prompt B.S) (hl : ∀ s, (B.L.load s).Returns) (hD : ∀ d, (B.D.poll d).Returns) (hst : StaysReady B.S) (hF : F.Undisturbed (ByBalancer B)) (hV : B.V.Wakes F (ByBalancer B))
    (hN : ∀ chs d', B.D.After d chs d' → chs.length ≤ N) (hfuel : N < fuel) (hS : ∀ chs d' k s, B.D.After d chs d' → .insert k s ∈ chs → NeverHangs F B.S s)
    {log : List (Change K B.S.σ)} {b : Balance B} (hb : BalRun B fuel (Balance.fromRng B d r) log b) (hk : ∀ chs d', B.D.After d chs d' → log <+: chs → ∃ k t s, Newest chs k t s ∧ NeverFails B.S s) :
    Finishes F (balance B fuel).pollReady b :=
  balance_ends hp hl hD hst hF hV hN hfuel hS hb hk

/-- **C91, from the beginning.** The same if discovery has not found a good endpoint yet, but will (`Discover.Provides`): a balancer that has just been created does not hang, whatever is done with it: it is ready after finitely
many polls, `call` returns, and every response comes after finitely many polls of its future. So a balancer may stand wherever a service that does not hang is asked for: in the stacks of C89, in a buffer (C92, C93). -/
theorem C91_never_hangs {N : Nat} {d : B.D.δ} {r : B.G.ρ} (hp : Prompt B.S) (hl : ∀ s, (B.L.load s).Returns) (hD : ∀ d, (B.D.poll d).Returns) (hst : StaysReady B.S) (hF : F.Undisturbed (ByBalancer B)) (hV : B.V.Wakes F (ByBalancer B))
    (hN : ∀ chs d', B.D.After d chs d' → chs.length ≤ N) (hfuel : N < fuel) (hS : ∀ chs d' k s, B.D.After d chs d' → .insert k s ∈ chs → NeverHangs F B.S s) (hk : B.D.Provides F B.S d) :
    NeverHangs F (balance B fuel) (Balance.fromRng B d r) :=
  balance_never_hangs hp hl hD hst hF hV hN hfuel hS hk

/-! ## Examples -/

namespace Demo91
open Demo89

/-- not ready before the time `s`, then ready until it is called; 0 is ready -/
@[reducible] def lazy : Service Nat Nat Nat Unit where
  σ := Nat
  φ := Nat
  pollReady s := do
    let w ← Act.get
    pure (if s ≤ w then (.ready (.ok ()), 0) else (.pending, s))
  call _ r := pure (r, r + 1)
  poll := waitFor id .ok
  clone s := s

theorem lazy_run (s w : Nat) : (lazy.pollReady s).run w = .ok (if s ≤ w then (.ready (.ok ()), 0) else (.pending, s)) w := rfl

theorem lazy_stays : StaysReady lazy := by
  intro s w s' w' h v s'' v' h2
  rw [lazy_run] at h
  rw [lazy_run] at h2
  by_cases hs : s ≤ w
  · simp only [hs, if_true] at h; cases h; simp at h2
  · simp only [hs, if_false] at h; cases h

theorem lazy_live (s : Nat) : NeverHangs goes lazy s where
  ready b x _ := by
    refine due _ x (· = x) (fun a w ha => ?_) x rfl
    subst ha
    rw [lazy_run]
    by_cases h : a ≤ w
    · simp [h]
    · simp only [h, if_false]; exact ⟨Nat.lt_of_not_le h, trivial⟩
  call _ _ _ _ := nofun
  poll _ _ _ _ _ _ _ _ := waitFor_ends _ _ _

theorem lazy_sound (s : Nat) : NeverFails lazy s := by
  intro b s' w e s'' w' _ h
  rw [lazy_run] at h
  by_cases hs : s' ≤ w
  · simp only [hs, if_true] at h; cases h
  · simp only [hs, if_false] at h; cases h

theorem lazy_prompt : Prompt lazy where
  ready _ := ⟨fun _ => nofun⟩
  call _ _ := ⟨fun _ => nofun⟩
  poll _ := ⟨fun _ => nofun⟩

/-- changes that come at certain times -/
@[reducible] def disc : Discover Nat Nat Nat Unit where
  δ := List (Nat × Change Nat Nat)
  poll
    | [] => pure (.pending, [])
    | (d, c) :: t => do
      let w ← Act.get
      pure (if d ≤ w then (.ready (some (.ok c)), t) else (.pending, (d, c) :: t))

theorem disc_run (l : List (Nat × Change Nat Nat)) (w : Nat) : (disc.poll l).run w = match l with
    | [] => .ok (.pending, []) w
    | (d, c) :: t => .ok (if d ≤ w then (.ready (some (.ok c)), t) else (.pending, (d, c) :: t)) w := by
  cases l <;> rfl

/-- the oldest endpoint last -/
def backwards : Sched Nat := ⟨fun l w => ((List.range l).reverse, w)⟩

@[reducible] def cfg : BalCfg Nat Nat Nat Unit Nat Unit Unit where
  S := lazy
  D := disc
  L := ⟨Nat, fun s => pure s, fun a b => decide (a ≤ b)⟩
  G := ⟨Nat, fun c => (c % 7, c + 1), fun c => by omega⟩
  V := backwards
  fromErr := id
  fromDisc := id

theorem disc_after {l l' : disc.δ} {chs : List (Change Nat Nat)} (h : disc.After l chs l') : List.map (·.2) l = chs ++ List.map (·.2) l' := by
  induction h with
  | new => rfl
  | @change chs r r' ch w w' _ hr ih =>
    rw [disc_run] at hr
    match r, hr with
    | [], hr => cases hr
    | (d, c) :: t, hr =>
      by_cases hd : d ≤ w
      · simp only [hd, if_true] at hr; cases hr; rw [ih]; simp
      · simp only [hd, if_false] at hr; cases hr
  | @pending chs r r' w w' _ hr ih =>
    rw [disc_run] at hr
    match r, hr with
    | [], hr => cases hr; exact ih
    | (d, c) :: t, hr =>
      by_cases hd : d ≤ w
      · simp only [hd, if_true] at hr; cases hr
      · simp only [hd, if_false] at hr; cases hr; exact ih
  | @ended chs r r' w w' _ hr ih =>
    rw [disc_run] at hr
    match r, hr with
    | [], hr => cases hr
    | (d, c) :: t, hr =>
      by_cases hd : d ≤ w
      · simp only [hd, if_true] at hr; cases hr
      · simp only [hd, if_false] at hr; cases hr
  | @failed chs r r' e w w' _ hr ih =>
    rw [disc_run] at hr
    match r, hr with
    | [], hr => cases hr
    | (d, c) :: t, hr =>
      by_cases hd : d ≤ w
      · simp only [hd, if_true] at hr; cases hr
      · simp only [hd, if_false] at hr; cases hr

theorem untouched {w v : Nat} (h : ByBalancer cfg w v) : v = w := by
  induction h with
  | refl => rfl
  | @disc d v x v' _ hr ih =>
    rw [disc_run] at hr
    cases d <;> (cases hr; exact ih)
  | ready _ hr ih => rw [lazy_run] at hr; cases hr; exact ih
  | order _ ih => exact ih

theorem undisturbed : goes.Undisturbed (ByBalancer cfg) := fun ws vs g hw _ hg h t => by
  obtain ⟨n, hn⟩ := hw t
  obtain ⟨k, rfl⟩ := hg n
  exact ⟨k, by rw [untouched (h k)]; exact hn⟩

theorem wakes : backwards.Wakes goes (ByBalancer cfg) := fun ws l hw hl => by
  refine ⟨fun n => ⟨n, Nat.le_refl n, by simp [backwards]; exact hl⟩, fun vs g hm hg h => undisturbed ws vs g hw hm (fun n => (hg n).2 (by simp [backwards]; exact hl)) h⟩

/-- at 5 an endpoint comes that is slow to get ready; at 7 another one, at 9 it is removed again; at 20 the first one is replaced -/
def script : disc.δ := [(5, .insert 1 400), (7, .insert 2 10), (9, .remove 2), (20, .insert 1 (600 : Nat))]

theorem script_newest {chs d'} (h : disc.After script chs d') (hl : [.insert 1 400] <+: chs) : ∃ k t s, Newest chs k t s ∧ NeverFails lazy s := by
  have h1 : [.insert 1 400, .insert 2 10, .remove 2, .insert 1 600] = chs ++ List.map (·.2) d' := disc_after h
  match chs, hl, h1 with
  | [], hl, _ => simp at hl
  | [a], hl, h1 => simp at h1; obtain ⟨rfl, _⟩ := h1; exact ⟨1, 0, (400 : Nat), ⟨[], [], rfl, rfl, by simp, by simp⟩, lazy_sound _⟩
  | [a, b], hl, h1 => simp at h1; obtain ⟨rfl, rfl, _⟩ := h1; exact ⟨1, 0, (400 : Nat), ⟨[], _, rfl, rfl, by simp, by simp⟩, lazy_sound _⟩
  | [a, b, c], hl, h1 => simp at h1; obtain ⟨rfl, rfl, rfl, _⟩ := h1; exact ⟨1, 0, (400 : Nat), ⟨[], _, rfl, rfl, by simp, by simp⟩, lazy_sound _⟩
  | [a, b, c, d], hl, h1 => simp at h1; obtain ⟨rfl, rfl, rfl, rfl, _⟩ := h1; exact ⟨1, 2, (600 : Nat), ⟨[.insert 1 400, .insert 2 10, .remove 2], [], rfl, rfl, by simp, by simp⟩, lazy_sound _⟩
  | _ :: _ :: _ :: _ :: _ :: _, _, h1 => simp at h1

def b0 : Balance cfg := Balance.fromRng cfg script (0 : Nat)

/-- polled at the time 6: the first endpoint has been found, and is not ready -/
def b1 : Balance cfg where
  disc := [(7, .insert 2 10), (9, .remove 2), (20, .insert 1 (600 : Nat))]
  svcs := { pending := [⟨1, (400 : Nat), 0⟩], txs := [(1, 0)], ready := [], cancelled := [], nextCell := 1 }
  idx := none
  rng := (0 : Nat)

theorem run1 : ((balance cfg 6).pollReady b0).run (6 : Nat) = .ok (.pending, b1) (6 : Nat) := rfl

theorem found1 : Discovered disc script (6 : Nat) [.insert 1 (400 : Nat)] :=
  ⟨[(7, .insert 2 10), (9, .remove 2), (20, .insert 1 (600 : Nat))], (6 : Nat), .snoc (chs := []) .nil rfl, fun ch d2 w2 h => by cases h⟩

theorem reach1 : BalRun cfg 6 (Balance.fromRng cfg script (0 : Nat)) [.insert 1 (400 : Nat)] b1 := .ready (log := []) .refl run1 found1

/-- Polled at any times that go on: the balancer is ready at some time. -/
theorem ends : Finishes goes (balance cfg 6).pollReady b1 := by
  refine C91_ends (N := 4) lazy_prompt (fun s => ⟨fun w h => by cases h⟩) (fun d => ⟨fun w => by rw [disc_run]; cases d <;> simp⟩) lazy_stays undisturbed wakes (fun chs d' h => ?_) (by omega) (fun _ _ _ _ _ _ => lazy_live _) reach1
    (fun chs d' h => script_newest h)
  have := congrArg List.length (disc_after h)
  simp [script] at this
  omega

/-- what is left is an end of what there was -/
theorem disc_suffix {l l' : disc.δ} {chs : List (Change Nat Nat)} (h : disc.After l chs l') : ∃ pre, l = pre ++ l' ∧ chs = List.map (·.2) pre := by
  induction h with
  | new => exact ⟨[], rfl, rfl⟩
  | @change chs r r' ch w w' _ hr ih =>
    obtain ⟨pre, rfl, rfl⟩ := ih
    rw [disc_run] at hr
    match r, hr with
    | [], hr => cases hr
    | (d, c) :: t, hr =>
      by_cases hd : d ≤ w
      · simp only [hd, if_true] at hr; cases hr; exact ⟨pre ++ [(d, ch)], by simp, by simp⟩
      · simp only [hd, if_false] at hr; cases hr
  | @pending chs r r' w w' _ hr ih =>
    rw [disc_run] at hr
    match r, hr with
    | [], hr => cases hr; exact ih
    | (d, c) :: t, hr =>
      by_cases hd : d ≤ w
      · simp only [hd, if_true] at hr; cases hr
      · simp only [hd, if_false] at hr; cases hr; exact ih
  | @ended chs r r' w w' _ hr ih =>
    rw [disc_run] at hr
    match r, hr with
    | [], hr => cases hr
    | (d, c) :: t, hr => by_cases hd : d ≤ w <;> simp only [hd, if_true, if_false] at hr <;> cases hr
  | @failed chs r r' e w w' _ hr ih =>
    rw [disc_run] at hr
    match r, hr with
    | [], hr => cases hr
    | (d, c) :: t, hr => by_cases hd : d ≤ w <;> simp only [hd, if_true, if_false] at hr <;> cases hr

theorem script_first {chs d'} (h : disc.After script chs d') (hc : chs ≠ []) : [.insert 1 400] <+: chs := by
  have h1 : [.insert 1 400, .insert 2 10, .remove 2, .insert 1 600] = chs ++ List.map (·.2) d' := disc_after h
  cases chs with
  | nil => exact absurd rfl hc
  | cons a t => simp at h1; obtain ⟨rfl, _⟩ := h1; exact ⟨t, rfl⟩

/-- time goes by, and the script comes up with its endpoint -/
theorem provides : disc.Provides goes lazy script := by
  intro ws ds logs hw h0 hs
  have hafter : ∀ n, disc.After script (logs n) (ds n) := by
    intro n
    induction n with
    | zero => exact h0
    | succ n ih => obtain ⟨chs, h1, h2⟩ := hs n; rw [h2]; exact h1.after ih
  obtain ⟨m, hm⟩ := hw 5
  have hne : logs (m + 1) ≠ [] := by
    obtain ⟨chs, h1, h2⟩ := hs m
    rw [h2]
    obtain ⟨pre, h3, h4⟩ := disc_suffix (hafter m)
    rw [h4]
    cases pre with
    | cons a t => simp
    | nil =>
      have h3 : script = ds m := h3
      rw [← h3] at h1
      have hrun : (disc.poll script).run (ws m) = .ok (.ready (some (.ok (.insert 1 400))), script.tail) (ws m) := by
        rw [disc_run]; simp [script, hm]
      cases h1 with
      | change h5 _ => simp
      | pending h5 => rw [hrun] at h5; cases h5
      | ended h5 => rw [hrun] at h5; cases h5
  refine ⟨m + 1, fun n hn => script_newest (hafter n) (script_first (hafter n) ?_)⟩
  obtain ⟨j, rfl⟩ := Nat.exists_eq_add_of_le hn
  induction j with
  | zero => exact hne
  | succ j ih =>
    obtain ⟨chs, h1, h2⟩ := hs (m + 1 + j)
    show logs (m + 1 + j + 1) ≠ []
    rw [h2]
    intro h3
    exact ih (by omega) (List.append_eq_nil_iff.1 h3).1

/-- so the new balancer, without any endpoint yet, does not hang -/
theorem never_hangs : NeverHangs goes (balance cfg 6) b0 := by
  refine C91_never_hangs (N := 4) lazy_prompt (fun s => ⟨fun w h => by cases h⟩) (fun d => ⟨fun w => by rw [disc_run]; cases d <;> simp⟩) lazy_stays undisturbed wakes (fun chs d' h => ?_) (by omega) (fun _ _ _ _ _ _ => lazy_live _) provides
  have := congrArg List.length (disc_after h)
  simp [script] at this
  omega

/-- it is held, of course -/
theorem kept : b1.svcs.view.Holds 1 0 := C91_kept ⟨_, _, reach1⟩ (s := (400 : Nat)) ⟨[], [], rfl, rfl, by simp, by simp⟩ (lazy_sound _)

/-! An empty balancer waits forever. -/

def empty : Balance cfg := Balance.fromRng cfg ([] : List (Nat × Change Nat Nat)) (0 : Nat)

theorem empty_waits (w : Nat) : ((balance cfg 6).pollReady empty).run w = .ok (.pending, empty) w := rfl

theorem empty_starves (ws : Nat → Nat) (hw : goes.fair ws) : ∃ n₁ : Nat, ∀ n : Nat, n₁ ≤ n → (empty).len = 0 :=
  C91_starves (fuel := 6) (B := cfg) (logs := fun _ => []) (bs := fun _ => empty) (n₀ := 0) lazy_stays undisturbed wakes hw ⟨([] : List (Nat × Change Nat Nat)), (0 : Nat), .refl⟩ (fun n => empty_waits _)
    (fun n => ⟨[], ⟨_, _, .nil, fun ch d2 w2 h => by cases h⟩, rfl⟩) (fun _ _ => rfl) (fun n k s h => by cases h)

/-- And it is not ready, whatever times it is polled at: without a good endpoint `C91_ends` is false. -/
theorem empty_hangs {b : Balance cfg} {ws : Nat → Nat} (h : Ends (balance cfg 6).pollReady b ws) : b ≠ empty := by
  induction h with
  | ready h => rintro rfl; rw [empty_waits] at h; cases h
  | panics h => rintro rfl; rw [empty_waits] at h; cases h
  | pending h _ ih => rintro rfl; rw [empty_waits] at h; cases h; exact ih rfl

end Demo91
end Tower
