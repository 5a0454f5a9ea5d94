import Verif.Model.HedgeHisto
import Verif.Props.C39_Hedge
import Verif.Props.C41_Histogram
import Verif.Proof.Load1
import Verif.Proof.Wpx

/-!
# C61: a hedge with its histogram

`Hedge` with the `RotatingHistogram` it shares between its recorders and policies (`Model/HedgeHisto.lean`), with any number of requests in flight, and specified by what the hedged service does and when.
-/

set_option linter.unusedSimpArgs false

namespace Tower
open Act
variable {W Req Res Err BErr : Type}

/-! ## Specification -/

/-- the calls made, with the time of each -/
def callsOf : List CallEv → List (Nat × Nat)
  | [] => []
  | .called id t :: l => (id, t) :: callsOf l
  | _ :: l => callsOf l

/-- The latencies observed, in milliseconds, each with the time of the response: a success of call `id` at time `t` has taken the time since the call `id` was made; failures do not count. `cs` are
the calls made so far. -/
def latencies (cs : List (Nat × Nat)) : List CallEv → List (Nat × Nat)
  | [] => []
  | .called id t :: l => latencies (cs ++ [(id, t)]) l
  | .ok id t :: l => (t, millisUp (t - (cs.lookup id).getD 0)) :: latencies cs l
  | .err _ _ :: l => latencies cs l

/-- the latencies observed in the period before the one of time `t`, for periods of length `period` counted from `t0` -/
def lastPeriod (t0 period t : Nat) (ls : List (Nat × Nat)) : List Nat :=
  (ls.filter (fun x => decide (periodOf t0 period x.1 + 1 = periodOf t0 period t))).map Prod.snd

/-- time does not go back while the service runs, and registering a timer takes no time -/
structure ForwardTime (C : Clock W) (S : Service W Req Res Err) : Prop where
  ready : ∀ {s w x w'}, (S.pollReady s).run w = .ok x w' → C.now w ≤ C.now w'
  call : ∀ {s r w x w'}, (S.call s r).run w = .ok x w' → C.now w ≤ C.now w'
  poll : ∀ {f w x w'}, (S.poll f).run w = .ok x w' → C.now w ≤ C.now w'
  arm : ∀ d w, C.now (C.arm d w) = C.now w

/-- the limits of the 64-bit nanoseconds and 32-bit rotations of the histogram: less than `2^32` periods and less than 584 years have passed since `t0` -/
def InRange (t0 period t : Nat) : Prop := t - t0 + period ≤ u64Max ∧ periodOf t0 period t < 2 ^ 32

section
variable (into : Err → BErr) (C : Clock W) (cloneRequest : Req → W → Option Req) (canRetry : Req → W → Bool) (min : Nat) (quantile : List Nat → Nat) (S : Service W Req Res Err)

/-- the hedge -/
@[reducible] def histoHedge : Service (HistoW × W) Req Res BErr := Hedge into (histoCfg C cloneRequest canRetry min quantile) (timedSvc C.now S)

/-- Histories: `HedgeHist period t0 n m s fs w` - the hedge was created at time `t0`; `n` requests have been made, for `m` of which a second attempt was prepared; `s` is the hedge, `fs` are the response
futures that are neither finished nor dropped, `w` is the world. Between two operations the rest of the world may change arbitrarily, but time does not go back; only the hedge uses its histogram. -/
inductive HedgeHist (period t0 : Nat) : Nat → Nat → (histoHedge into C cloneRequest canRetry min quantile S).σ → List (histoHedge into C cloneRequest canRetry min quantile S).φ → HistoW × W → Prop
  | start (s : S.σ) (w : W) : C.now w = t0 → HedgeHist period t0 0 0 (Hedge.new (timedSvc C.now S) s) [] (⟨RotHist.new period t0, [], [], 0⟩, w)
  | env {n m s fs b w} (w' : W) : C.now w ≤ C.now w' → HedgeHist period t0 n m s fs (b, w) → HedgeHist period t0 n m s fs (b, w')
  | ready {n m s fs w w' p s'} : HedgeHist period t0 n m s fs w → ((histoHedge into C cloneRequest canRetry min quantile S).pollReady s).run w = .ok (p, s') w' → HedgeHist period t0 n m s' fs w'
  | call {n m s fs w w' r f s'} : HedgeHist period t0 n m s fs w → ((histoHedge into C cloneRequest canRetry min quantile S).call s r).run w = .ok (f, s') w' →
      HedgeHist period t0 (n + 1) (if f.2.isSome then m + 1 else m) s' (fs ++ [f]) w'
  | pending {n m s fs w w' j f f'} : HedgeHist period t0 n m s fs w → fs[j]? = some f → ((histoHedge into C cloneRequest canRetry min quantile S).poll f).run w = .ok (.pending, f') w' →
      HedgeHist period t0 n m s (fs.set j f') w'
  | done {n m s fs w w' j f f' res} : HedgeHist period t0 n m s fs w → fs[j]? = some f → ((histoHedge into C cloneRequest canRetry min quantile S).poll f).run w = .ok (.ready res, f') w' →
      HedgeHist period t0 n m s (fs.eraseIdx j) w'
  | drop {n m s fs w} (j : Nat) : HedgeHist period t0 n m s fs w → HedgeHist period t0 n m s (fs.eraseIdx j) w
end

/-! ## Code that keeps an invariant -/

/-- `I` is an invariant, `k` says that a future is as it should be, `E` is how the world may change -/
structure Keeps (I : W → Prop) (E : W → W → Prop) (L : Service W Req Res Err) (k : W → L.φ → Prop) : Prop where
  stable : ∀ {w w' f}, k w f → E w w' → k w' f
  ready : ∀ {s w p s' w'}, I w → (L.pollReady s).run w = .ok (p, s') w' → I w' ∧ E w w'
  call : ∀ {s r w f s' w'}, I w → (L.call s r).run w = .ok (f, s') w' → I w' ∧ E w w' ∧ k w' f
  poll : ∀ {f w p f' w'}, I w → k w f → (L.poll f).run w = .ok (p, f') w' → I w' ∧ E w w' ∧ k w' f'

section
variable {I : W → Prop} {E : W → W → Prop} (refl : ∀ w, E w w) (trans : ∀ {a b c}, E a b → E b c → E a c)
include refl trans

/-- the futures of the check of a hedge -/
def kCheck {F S' G : Type} (k : W → G → Prop) (w : W) : AsyncFilterFut F S' G → Prop
  | .check _ _ => True
  | .waitResponse g => k w g

/-- the futures of its oneshot -/
def kShot {S' R G : Type} (k : W → G → Prop) (w : W) : OneshotState S' R G → Prop
  | .called g => k w g
  | _ => True

/-- the futures of its delay -/
def kDelay {S' R G : Type} (k : W → G → Prop) (w : W) : DelayFut S' R G → Prop
  | .called g => k w g
  | _ => True

theorem Keeps.check {L : Service W Req Res Err} {k} (h : Keeps I E L k) (can : Req → W → Bool) :
    Keeps I E (AsyncFilter id hedgePredFut (fun r w => (if can r w then some r else none, w)) L) (kCheck k) where
  stable {w w' f} hk he := by
    cases f with
    | check c s => trivial
    | waitResponse g => exact h.stable hk he
  ready {s w p s' w'} hi hr := by
    obtain ⟨⟨q, s1⟩, w1, h1, h2⟩ := run_bind_eq_ok.1 hr
    cases h2
    exact h.ready hi h1
  call {s r w f s' w'} hi hr := by
    simp only [AsyncFilter, run_bind, run_lift, run_pure] at hr
    cases hr
    exact ⟨hi, refl _, trivial⟩
  poll {f w p f' w'} hi hk hr := by
    cases f with
    | check c s =>
      obtain ⟨⟨q, c'⟩, w1, h1, h2⟩ := run_bind_eq_ok.1 hr
      cases c with
      | none => cases h1; cases h2; exact ⟨hi, refl _, trivial⟩
      | some r =>
        cases h1
        obtain ⟨⟨x, s1⟩, w2, h3, h4⟩ := run_bind_eq_ok.1 h2
        obtain ⟨⟨q2, x'⟩, w3, h5, h6⟩ := run_bind_eq_ok.1 h4
        cases h6
        obtain ⟨i1, e1, k1⟩ := h.call hi h3
        obtain ⟨i2, e2, k2⟩ := h.poll i1 k1 h5
        exact ⟨i2, trans e1 e2, k2⟩
    | waitResponse g =>
      obtain ⟨⟨q, g'⟩, w1, h1, h2⟩ := run_bind_eq_ok.1 hr
      cases h2
      exact h.poll hi hk h1

omit refl in
theorem Keeps.shot {L : Service W Req Res Err} {k} (h : Keeps I E L k) {f f' : (Oneshot L).φ} {w w' p} (hi : I w) (hk : kShot k w f)
    (hr : ((Oneshot L).poll f).run w = .ok (p, f') w') : I w' ∧ E w w' ∧ kShot k w' f' := by
  cases f with
  | notReady s req =>
    obtain ⟨⟨q, s1⟩, w1, h1, h2⟩ := run_bind_eq_ok.1 hr
    obtain ⟨i1, e1⟩ := h.ready hi h1
    match q, h2 with
    | .pending, h2 => cases h2; exact ⟨i1, e1, trivial⟩
    | .ready (.error e), h2 => cases h2; exact ⟨i1, e1, trivial⟩
    | .ready (.ok ()), h2 =>
      cases req with
      | none => cases h2
      | some r =>
        obtain ⟨⟨x, s2⟩, w2, h3, h4⟩ := run_bind_eq_ok.1 h2
        obtain ⟨⟨q2, x'⟩, w3, h5, h6⟩ := run_bind_eq_ok.1 h4
        obtain ⟨i2, e2, k2⟩ := h.call i1 h3
        obtain ⟨i3, e3, k3⟩ := h.poll i2 k2 h5
        match q2, h6 with
        | .pending, h6 => cases h6; exact ⟨i3, trans e1 (trans e2 e3), k3⟩
        | .ready (.error e), h6 => cases h6; exact ⟨i3, trans e1 (trans e2 e3), k3⟩
        | .ready (.ok a), h6 => cases h6; exact ⟨i3, trans e1 (trans e2 e3), trivial⟩
  | called x =>
    obtain ⟨⟨q2, x'⟩, w3, h5, h6⟩ := run_bind_eq_ok.1 hr
    obtain ⟨i3, e3, k3⟩ := h.poll hi hk h5
    match q2, h6 with
    | .pending, h6 => cases h6; exact ⟨i3, e3, k3⟩
    | .ready (.error e), h6 => cases h6; exact ⟨i3, e3, k3⟩
    | .ready (.ok a), h6 => cases h6; exact ⟨i3, e3, trivial⟩
  | done => cases hr

theorem Keeps.delay {L : Service W Req Res Err} {k} (h : Keeps I E L k) (C : Clock W) (harm : ∀ d w, I w → I (C.arm d w) ∧ E w (C.arm d w)) (dl : Req → W → Nat × W)
    (hd : ∀ r w, I w → I (dl r w).2 ∧ E w (dl r w).2) : Keeps I E (Delay (id : Err → Err) C dl L) (kDelay (kShot k)) where
  stable {w w' f} hk he := by
    cases f with
    | delaying => trivial
    | called g =>
      cases g with
      | notReady => trivial
      | called x => exact h.stable hk he
      | done => trivial
  ready {s w p s' w'} hi hr := by cases hr; exact ⟨hi, refl _⟩
  call {s r w f s' w'} hi hr := by
    simp only [Delay, run_bind, run_lift, run_get, run_pure] at hr
    cases hr
    exact ⟨(hd r w hi).1, (hd r w hi).2, trivial⟩
  poll {f w p f' w'} hi hk hr := by
    cases f with
    | delaying d r s =>
      obtain ⟨v, w1, h1, h2⟩ := run_bind_eq_ok.1 hr
      cases h1
      by_cases hf : C.fired d w = true
      · rw [if_pos hf] at h2
        obtain ⟨⟨q, x⟩, w2, h3, h4⟩ := run_bind_eq_ok.1 h2
        cases h4
        exact Keeps.shot (E := E) trans h (f := .notReady s (some r)) hi trivial h3
      · rw [if_neg hf] at h2
        simp only [run_bind, run_modify, run_pure] at h2
        cases h2
        exact ⟨(harm d w hi).1, (harm d w hi).2, trivial⟩
    | called x =>
      obtain ⟨⟨q, x'⟩, w2, h3, h4⟩ := run_bind_eq_ok.1 hr
      cases h4
      exact Keeps.shot (E := E) trans h hi hk h3

omit refl in
theorem Keeps.select {A B : Service W Req Res Err} {ka kb} (hA : Keeps I E A ka) (hB : Keeps I E B kb) (cl : Req → W → Option Req × W) (hc : ∀ r w, I w → I (cl r w).2 ∧ E w (cl r w).2) :
    Keeps I E (Select cl A B) (fun w x => ka w x.1 ∧ ∀ y, x.2 = some y → kb w y) where
  stable {w w' f} hk he := ⟨hA.stable hk.1 he, fun y hy => hB.stable (hk.2 y hy) he⟩
  ready {s w p s' w'} hi hr := by
    obtain ⟨⟨q, a⟩, w1, h1, h2⟩ := run_bind_eq_ok.1 hr
    obtain ⟨⟨q2, b⟩, w2, h3, h4⟩ := run_bind_eq_ok.1 h2
    obtain ⟨i1, e1⟩ := hA.ready hi h1
    obtain ⟨i2, e2⟩ := hB.ready i1 h3
    have : w' = w2 := by
      match q, q2, h4 with
      | .ready (.ok ()), .ready (.ok ()), h4 => cases h4; rfl
      | .ready (.ok ()), .ready (.error _), h4 => cases h4; rfl
      | .ready (.ok ()), .pending, h4 => cases h4; rfl
      | .ready (.error _), _, h4 => cases h4; rfl
      | .pending, .ready (.ok ()), h4 => cases h4; rfl
      | .pending, .ready (.error _), h4 => cases h4; rfl
      | .pending, .pending, h4 => cases h4; rfl
    subst this
    exact ⟨i2, trans e1 e2⟩
  call {s r w f s' w'} hi hr := by
    obtain ⟨c, w1, h1, h2⟩ := run_bind_eq_ok.1 hr
    simp only [run_lift, Out.ok.injEq] at h1
    obtain ⟨hc1, rfl⟩ := h1
    obtain ⟨i1, e1⟩ := hc r w hi
    cases c with
    | some r' =>
      obtain ⟨⟨y, b⟩, w2, h3, h4⟩ := run_bind_eq_ok.1 h2
      obtain ⟨⟨x, a⟩, w3, h5, h6⟩ := run_bind_eq_ok.1 h4
      cases h6
      obtain ⟨i2, e2, k2⟩ := hB.call i1 h3
      obtain ⟨i3, e3, k3⟩ := hA.call i2 h5
      exact ⟨i3, trans e1 (trans e2 e3), k3, fun y hy => by cases hy; exact hB.stable k2 e3⟩
    | none =>
      obtain ⟨⟨x, a⟩, w3, h5, h6⟩ := run_bind_eq_ok.1 h2
      cases h6
      obtain ⟨i3, e3, k3⟩ := hA.call i1 h5
      exact ⟨i3, trans e1 e3, k3, fun y hy => by cases hy⟩
  poll {f w p f' w'} hi hk hr := by
    obtain ⟨⟨q, a⟩, w1, h1, h2⟩ := run_bind_eq_ok.1 hr
    obtain ⟨i1, e1, k1⟩ := hA.poll hi hk.1 h1
    cases q with
    | ready r => cases h2; exact ⟨i1, e1, k1, fun y hy => hB.stable (hk.2 y hy) e1⟩
    | pending =>
      obtain ⟨x, o⟩ := f
      cases o with
      | none => cases h2; exact ⟨i1, e1, k1, fun y hy => by cases hy⟩
      | some y =>
        obtain ⟨⟨q2, b⟩, w2, h3, h4⟩ := run_bind_eq_ok.1 h2
        obtain ⟨i2, e2, k2⟩ := hB.poll i1 (hB.stable (hk.2 y rfl) e1) h3
        match q2, h4 with
        | .pending, h4 => cases h4; exact ⟨i2, trans e1 e2, hA.stable k1 e2, fun y hy => by cases hy; exact k2⟩
        | .ready r, h4 => cases h4; exact ⟨i2, trans e1 e2, hA.stable k1 e2, fun y hy => by cases hy; exact k2⟩

end

/-! ## The invariant of the histogram -/

/-- the values recorded -/
def recordsOf : HistLog → List (Nat × Nat)
  | [] => []
  | (t, .record v) :: l => (t, v) :: recordsOf l
  | (_, .read) :: l => recordsOf l

theorem recordsOf_append (l m : HistLog) : recordsOf (l ++ m) = recordsOf l ++ recordsOf m := by
  induction l with
  | nil => rfl
  | cons x l ih =>
    obtain ⟨t, o⟩ := x
    cases o <;> simp [recordsOf, ih]

theorem callsOf_append (l m : List CallEv) : callsOf (l ++ m) = callsOf l ++ callsOf m := by
  induction l with
  | nil => rfl
  | cons x l ih => cases x <;> simp [callsOf, ih]

theorem latencies_append (l m : List CallEv) : ∀ cs, latencies cs (l ++ m) = latencies cs l ++ latencies (cs ++ callsOf l) m := by
  induction l with
  | nil => intro cs; simp [latencies, callsOf]
  | cons x l ih => intro cs; cases x <;> simp [latencies, callsOf, ih]

theorem runHist_append (l : HistLog) (o : Nat × HistOp) : ∀ (h h1 : RotHist) (rs : List (List Nat)), runHist h l = some (h1, rs) →
    runHist h (l ++ [o]) = (runHist h1 [o]).map (fun x => (x.1, rs ++ x.2)) := by
  induction l with
  | nil => intro h h1 rs hr; cases hr; simp
  | cons x l ih =>
    obtain ⟨t, q⟩ := x
    intro h h1 rs hr
    cases q with
    | record v =>
      simp only [List.cons_append, runHist, Option.bind_eq_bind] at hr ⊢
      cases hc : h.recordAt v t with
      | none => rw [hc] at hr; cases hr
      | some g => rw [hc] at hr; exact ih g h1 rs hr
    | read =>
      simp only [List.cons_append, runHist, Option.bind_eq_bind] at hr ⊢
      cases hc : h.readAt t with
      | none => rw [hc] at hr; cases hr
      | some g =>
        rw [hc] at hr
        simp only [Option.bind_some] at hr ⊢
        cases hd : runHist g.2 l with
        | none => rw [hd] at hr; cases hr
        | some y =>
          rw [hd] at hr
          cases hr
          rw [ih g.2 y.1 y.2 hd]
          cases runHist y.1 [o] <;> simp

theorem rotated_period (h : RotHist) (r : Nat) : (rotated h r).period = h.period := by
  unfold rotated; split <;> rfl

theorem RotHist.maybeRotate_some {h : RotHist} (hp : nanosSat h.period ≠ 0) (t : Nat) : ∃ g, h.maybeRotate t = some g ∧ g.period = h.period := by
  generalize hr : nanosSat (t - h.last) / nanosSat h.period % 2 ^ 32 = r
  exact ⟨_, maybeRotate_eq h t hp r hr, rotated_period h r⟩

theorem RotHist.recordAt_some {h : RotHist} (hp : nanosSat h.period ≠ 0) (v t : Nat) : ∃ g, h.recordAt v t = some g ∧ g.period = h.period := by
  obtain ⟨g, hg, hgp⟩ := RotHist.maybeRotate_some hp t
  unfold RotHist.recordAt
  rw [hg]
  exact ⟨_, rfl, hgp⟩

theorem RotHist.readAt_some {h : RotHist} (hp : nanosSat h.period ≠ 0) (t : Nat) : ∃ vs g, h.readAt t = some (vs, g) ∧ g.period = h.period := by
  obtain ⟨g, hg, hgp⟩ := RotHist.maybeRotate_some hp t
  unfold RotHist.readAt
  rw [hg]
  exact ⟨_, _, rfl, hgp⟩

/-- the invariant -/
structure HInv (period t0 : Nat) (b : HistoW) : Prop where
  run : ∃ rs, runHist (RotHist.new period t0) b.ops = some (b.hist, rs)
  per : b.hist.period = period
  recs : recordsOf b.ops = latencies [] b.ev
  ids : ∀ x ∈ callsOf b.ev, x.1 < b.next

/-- calls are only added -/
def HExt (b b' : HistoW) : Prop := callsOf b.ev <+: callsOf b'.ev

/-- a future of a recorder knows when its call was made -/
def Known {F : Type} (b : HistoW) (x : Nat × Nat × F) : Prop := (callsOf b.ev).lookup x.2.1 = some x.1

theorem lookup_prefix {l m : List (Nat × Nat)} (h : l <+: m) {i t : Nat} (hl : l.lookup i = some t) : m.lookup i = some t := by
  obtain ⟨r, rfl⟩ := h
  induction l with
  | nil => cases hl
  | cons x l ih =>
    obtain ⟨a, b⟩ := x
    simp only [List.cons_append, List.lookup_cons] at hl ⊢
    split
    · rename_i h; rw [h] at hl; exact hl
    · rename_i h; rw [h] at hl; exact ih hl

theorem lookup_new {l : List (Nat × Nat)} {i t : Nat} (h : ∀ x ∈ l, x.1 < i) : (l ++ [(i, t)]).lookup i = some t := by
  induction l with
  | nil => simp
  | cons x l ih =>
    obtain ⟨a, b⟩ := x
    have := h (a, b) (by simp)
    simp only at this
    simp only [List.cons_append, List.lookup_cons]
    rw [show (i == a) = false from by simp; omega]
    exact ih (fun x hx => h x (by simp [hx]))

section
variable {into : Err → BErr} {C : Clock W} {cloneRequest : Req → W → Option Req} {canRetry : Req → W → Bool} {min : Nat} {quantile : List Nat → Nat} {S : Service W Req Res Err}
variable {period t0 : Nat}

theorem HInv.put {b : HistoW} {g : RotHist} {x : Nat × HistOp} {w : W} {ev : List CallEv} {vs : List (List Nat)} (h : HInv period t0 b) (hg : runHist b.hist [x] = some (g, vs))
    (hgp : g.period = b.hist.period) (hrec : recordsOf b.ops ++ recordsOf [x] = latencies [] ev) (hev : callsOf ev = callsOf b.ev) :
    HInv period t0 (putHist (some g) x ({ b with ev := ev }, w)).1 := by
  obtain ⟨rs, hr⟩ := h.run
  refine ⟨⟨rs ++ vs, ?_⟩, ?_, ?_, ?_⟩
  · simp only [putHist]
    rw [runHist_append _ _ _ _ _ hr, hg]
    rfl
  · simp only [putHist, Option.getD_some, hgp, h.per]
  · simp only [putHist, recordsOf_append, hrec]
  · simp only [putHist, hev]; exact h.ids

/-- the times of the operations, from `a` on, in order, up to `T` -/
def upTo (T : Nat) : Nat → HistLog → Prop
  | a, [] => a ≤ T
  | a, (t, _) :: l => a ≤ t ∧ upTo T t l

theorem upTo_mono {T T' : Nat} (h : T ≤ T') : ∀ {l : HistLog} {a : Nat}, upTo T a l → upTo T' a l
  | [], _, hu => Nat.le_trans hu h
  | _ :: _, _, hu => ⟨hu.1, upTo_mono h hu.2⟩

theorem upTo_append {T : Nat} {o : HistOp} : ∀ {l : HistLog} {a : Nat}, upTo T a l → upTo T a (l ++ [(T, o)])
  | [], _, hu => ⟨hu, Nat.le_refl _⟩
  | _ :: _, _, hu => ⟨hu.1, upTo_append hu.2⟩

theorem upTo_le {T : Nat} : ∀ {l : HistLog} {a : Nat}, upTo T a l → a ≤ T
  | [], _, hu => hu
  | _ :: _, _, hu => Nat.le_trans hu.1 (upTo_le hu.2)

theorem upTo_clockOk {T t0 period : Nat} (hr : InRange t0 period T) : ∀ {l : HistLog} {a : Nat}, t0 ≤ a → upTo T a l → clockOk t0 period a l
  | [], _, _, _ => trivial
  | (t, _) :: l, a, ha, hu => by
    have h1 := upTo_le hu.2
    have h2 := periodOf_mono (s := t0) (p := period) h1
    have h3 := hr.1
    have h4 := hr.2
    exact ⟨hu.1, Nat.lt_of_le_of_lt h2 (Nat.lt_of_lt_of_le h4 (Nat.le_add_left _ _)), by have := hu.1; omega, upTo_clockOk hr (Nat.le_trans ha hu.1) hu.2⟩

theorem histoRecord_eq {now : W → Nat} {l : Nat} {w : HistoW × W} {g : RotHist} (hg : w.1.hist.recordAt (millisUp l) (now w.2) = some g) :
    histoRecord now l w = putHist (some g) (now w.2, .record (millisUp l)) w := by
  unfold histoRecord; rw [hg]

theorem histoRead_eq {now : W → Nat} {w : HistoW × W} {g : List Nat × RotHist} (hg : w.1.hist.readAt (now w.2) = some g) :
    histoRead now w = (g.1, putHist (some g.2) (now w.2, .read) w) := by
  unfold histoRead; rw [hg]; rfl

theorem HInv.record {b : HistoW} {w : W} (h : HInv period t0 b) (hp : nanosSat period ≠ 0) {id start : Nat} (hk : (callsOf b.ev).lookup id = some start) :
    HInv period t0 (histoRecord C.now (C.now w - start) ({ b with ev := b.ev ++ [.ok id (C.now w)] }, w)).1 := by
  generalize hl : C.now w - start = l
  obtain ⟨g, hg, hgp⟩ := RotHist.recordAt_some (h := b.hist) (by rw [h.per]; exact hp) (millisUp l) (C.now w)
  rw [histoRecord_eq (w := ({ b with ev := b.ev ++ [.ok id (C.now w)] }, w)) hg]
  refine h.put (vs := []) ?_ hgp ?_ ?_
  · rw [runHist_record _ hg]; rfl
  · simp only [latencies_append, h.recs, recordsOf, latencies, List.nil_append, hk, Option.getD_some, hl]
  · simp only [callsOf_append, callsOf, List.append_nil]

theorem HInv.read {b : HistoW} {w : W} (h : HInv period t0 b) (hp : nanosSat period ≠ 0) : HInv period t0 (histoRead C.now (b, w)).2.1 := by
  obtain ⟨vs, g, hg, hgp⟩ := RotHist.readAt_some (h := b.hist) (by rw [h.per]; exact hp) (C.now w)
  rw [histoRead_eq (w := (b, w)) hg]
  refine h.put (vs := [vs]) (ev := b.ev) ?_ hgp ?_ rfl
  · rw [runHist_read _ hg]; rfl
  · simp only [recordsOf, List.append_nil]; exact h.recs

theorem putHist_ev (o : Option RotHist) (x : Nat × HistOp) (w : HistoW × W) : (putHist o x w).1.ev = w.1.ev := rfl

theorem histoRecord_ev (now : W → Nat) (l : Nat) (w : HistoW × W) : (histoRecord now l w).1.ev = w.1.ev := by
  unfold histoRecord; rw [putHist_ev]

theorem histoRead_ev (now : W → Nat) (w : HistoW × W) : (histoRead now w).2.1.ev = w.1.ev := by
  unfold histoRead; simp only; rw [putHist_ev]

theorem putHist_ops (o : Option RotHist) (x : Nat × HistOp) (w : HistoW × W) : (putHist o x w).1.ops = w.1.ops ++ [x] := rfl

theorem putHist_snd (o : Option RotHist) (x : Nat × HistOp) (w : HistoW × W) : (putHist o x w).2 = w.2 := rfl

theorem histoRecord_ops (now : W → Nat) (l : Nat) (w : HistoW × W) : (histoRecord now l w).1.ops = w.1.ops ++ [(now w.2, .record (millisUp l))] := by
  unfold histoRecord; rw [putHist_ops]

theorem histoRead_ops (now : W → Nat) (w : HistoW × W) : (histoRead now w).2.1.ops = w.1.ops ++ [(now w.2, .read)] := by
  unfold histoRead; simp only; rw [putHist_ops]

theorem putHist_next (o : Option RotHist) (x : Nat × HistOp) (w : HistoW × W) : (putHist o x w).1.next = w.1.next := rfl

theorem histoRead_next (now : W → Nat) (w : HistoW × W) : (histoRead now w).2.1.next = w.1.next := by
  unfold histoRead; simp only; rw [putHist_next]

theorem histoRecord_snd (now : W → Nat) (l : Nat) (w : HistoW × W) : (histoRecord now l w).2 = w.2 := by
  unfold histoRecord; rw [putHist_snd]

theorem histoRead_snd (now : W → Nat) (w : HistoW × W) : (histoRead now w).2.2 = w.2 := by
  unfold histoRead; simp only; rw [putHist_snd]

/-- the invariant of the world -/
structure WInv (C : Clock W) (period t0 : Nat) (w : HistoW × W) : Prop where
  inv : HInv period t0 w.1
  time : upTo (C.now w.2) t0 w.1.ops

/-- how the world may change -/
structure WExt (C : Clock W) (w w' : HistoW × W) : Prop where
  ext : HExt w.1 w'.1
  time : C.now w.2 ≤ C.now w'.2

theorem WExt.refl (w : HistoW × W) : WExt C w w := ⟨List.prefix_rfl, Nat.le_refl _⟩

theorem WExt.trans {a b c : HistoW × W} (h : WExt C a b) (g : WExt C b c) : WExt C a c := ⟨List.IsPrefix.trans h.ext g.ext, Nat.le_trans h.time g.time⟩

theorem WInv.read (hp : nanosSat period ≠ 0) {w : HistoW × W} (h : WInv C period t0 w) : WInv C period t0 (histoRead C.now w).2 ∧ WExt C w (histoRead C.now w).2 := by
  refine ⟨⟨HInv.read h.inv hp, ?_⟩, ⟨?_, ?_⟩⟩
  · rw [histoRead_ops, histoRead_snd]; exact upTo_append h.time
  · simp only [HExt, histoRead_ev]; exact List.prefix_rfl
  · rw [histoRead_snd]

/-- a recorder keeps the invariant -/
theorem latency_keeps (hp : nanosSat period ≠ 0) (hS : ForwardTime C S) :
    Keeps (WInv C period t0) (WExt C) (Latency into C.snd (histoRecord C.now) (timedSvc C.now S)) (fun w x => Known w.1 x) where
  stable {w w' f} hk he := lookup_prefix he.ext hk
  ready {s w p s' w'} hi hr := by
    obtain ⟨⟨q, s1⟩, w1, h1, h2⟩ := run_bind_eq_ok.1 hr
    cases h2
    obtain ⟨h4, h3⟩ := snd_eq_ok.1 h1
    have h5 := hS.ready h4
    refine ⟨⟨h3 ▸ hi.inv, h3 ▸ upTo_mono h5 hi.time⟩, ⟨?_, h5⟩⟩
    simp only [HExt, h3]
    exact List.prefix_rfl
  call {s r w f s' w'} hi hr := by
    obtain ⟨b, w⟩ := w
    obtain ⟨v, w1, h1, h2⟩ := run_bind_eq_ok.1 hr
    cases h1
    obtain ⟨⟨x, s1⟩, w2, h3, h4⟩ := run_bind_eq_ok.1 h2
    cases h4
    simp only [run_bind, run_get, run_modify] at h3
    obtain ⟨⟨y, s2⟩, w3, h5, h6⟩ := run_bind_eq_ok.1 h3
    cases h6
    obtain ⟨h8, h7⟩ := snd_eq_ok.1 h5
    simp only at h7
    obtain ⟨b', w'⟩ := w'
    simp only at h7
    subst h7
    have h9 := hS.call h8
    obtain ⟨hi, ht⟩ := hi
    refine ⟨⟨⟨hi.run, hi.per, ?_, ?_⟩, upTo_mono h9 ht⟩, ⟨?_, h9⟩, ?_⟩
    · simp only [latencies_append, latencies, List.append_nil]; exact hi.recs
    · simp only [callsOf_append, callsOf, List.mem_append, List.mem_singleton]
      rintro x (hx | rfl)
      · have := hi.ids x hx; simp only at this ⊢; omega
      · simp
    · simp only [HExt, callsOf_append]; exact List.prefix_append _ _
    · simp only [Known, callsOf_append, callsOf]
      exact lookup_new hi.ids
  poll {f w p f' w'} hi hk hr := by
    obtain ⟨b, w⟩ := w
    obtain ⟨⟨q, x⟩, ⟨b1, w1⟩, h1, h2⟩ := run_bind_eq_ok.1 hr
    obtain ⟨⟨q0, x0⟩, ⟨b0, w0⟩, h3, h4⟩ := run_bind_eq_ok.1 h1
    obtain ⟨h8, h5⟩ := snd_eq_ok.1 h3
    have h9 := hS.poll h8
    simp only at h5
    subst h5
    obtain ⟨hi, ht⟩ := hi
    match q0, h4 with
    | .pending, h4 => cases h4; cases h2; exact ⟨⟨hi, upTo_mono h9 ht⟩, ⟨List.prefix_rfl, h9⟩, hk⟩
    | .ready (.ok v), h4 =>
      simp only [run_bind, run_modify, run_pure] at h4
      cases h4
      simp only [run_bind, run_get, run_modify, run_pure] at h2
      cases h2
      refine ⟨⟨hi.record hp hk, ?_⟩, ⟨?_, ?_⟩, ?_⟩
      · rw [histoRecord_ops, histoRecord_snd]; exact upTo_append (upTo_mono h9 ht)
      · simp only [HExt, histoRecord_ev, callsOf_append, callsOf, List.append_nil]; exact List.prefix_rfl
      · rw [histoRecord_snd]; exact h9
      · simp only [Known, histoRecord_ev, callsOf_append, callsOf, List.append_nil]; exact hk
    | .ready (.error e), h4 =>
      simp only [run_bind, run_modify, run_pure] at h4
      cases h4
      cases h2
      refine ⟨⟨⟨hi.run, hi.per, ?_, ?_⟩, upTo_mono h9 ht⟩, ⟨?_, h9⟩, ?_⟩
      · simp only [latencies_append, latencies, List.append_nil]; exact hi.recs
      · simp only [callsOf_append, callsOf, List.append_nil]; exact hi.ids
      · simp only [HExt, callsOf_append, callsOf, List.append_nil]; exact List.prefix_rfl
      · simp only [Known, callsOf_append, callsOf, List.append_nil]; exact hk

/-- what is known of the response futures -/
def HedgeKnown (w : HistoW × W) (x : (histoHedge into C cloneRequest canRetry min quantile S).φ) : Prop :=
  Known w.1 x.1 ∧ ∀ y, x.2 = some y → kDelay (kShot (kCheck (fun w x => Known w.1 x))) w y

theorem hedge_keeps (hp : nanosSat period ≠ 0) (hS : ForwardTime C S) :
    Keeps (WInv C period t0) (WExt C) (histoHedge into C cloneRequest canRetry min quantile S) HedgeKnown := by
  have hL := latency_keeps (into := into) (C := C) (S := S) (t0 := t0) hp hS
  refine Keeps.select (I := WInv C period t0) (E := WExt C) WExt.trans hL
    (Keeps.delay (I := WInv C period t0) (E := WExt C) WExt.refl WExt.trans (Keeps.check (I := WInv C period t0) (E := WExt C) WExt.refl WExt.trans hL _) _ ?_ _ ?_) _ ?_
  · intro d w hi
    refine ⟨⟨hi.inv, ?_⟩, ⟨List.prefix_rfl, ?_⟩⟩
    · simp only [hS.arm]; exact hi.time
    · simp only [hS.arm]; exact Nat.le_refl _
  · intro r w hi; exact hi.read hp
  · intro r w hi
    simp only [HedgeCfg.selectClone]
    cases cloneRequest r w.2 with
    | none => exact ⟨hi, WExt.refl _⟩
    | some r' => exact hi.read hp

theorem HedgeHist.inv {n m s fs} {w : HistoW × W} (hp : nanosSat period ≠ 0) (hS : ForwardTime C S) (h : HedgeHist into C cloneRequest canRetry min quantile S period t0 n m s fs w) :
    WInv C period t0 w ∧ ∀ f ∈ fs, HedgeKnown w f := by
  have hk := hedge_keeps (into := into) (C := C) (cloneRequest := cloneRequest) (canRetry := canRetry) (min := min) (quantile := quantile) (S := S) (t0 := t0) hp hS
  induction h with
  | start s w h => exact ⟨⟨⟨⟨[], rfl⟩, rfl, rfl, by intro x hx; cases hx⟩, Nat.le_of_eq h.symm⟩, by intro f hf; cases hf⟩
  | env w' hw _ ih => exact ⟨⟨ih.1.inv, upTo_mono hw ih.1.time⟩, fun f hf => hk.stable (ih.2 f hf) ⟨List.prefix_rfl, hw⟩⟩
  | ready _ hr ih =>
    obtain ⟨i1, e1⟩ := hk.ready ih.1 hr
    exact ⟨i1, fun f hf => hk.stable (ih.2 f hf) e1⟩
  | call _ hr ih =>
    obtain ⟨i1, e1, k1⟩ := hk.call ih.1 hr
    refine ⟨i1, fun f hf => ?_⟩
    rcases List.mem_append.1 hf with h | h
    · exact hk.stable (ih.2 f h) e1
    · rw [List.mem_singleton.1 h]; exact k1
  | pending _ hj hr ih =>
    obtain ⟨i1, e1, k1⟩ := hk.poll ih.1 (ih.2 _ (List.mem_of_getElem? hj)) hr
    refine ⟨i1, fun f hf => ?_⟩
    rcases List.mem_or_eq_of_mem_set hf with h | h
    · exact hk.stable (ih.2 f h) e1
    · rw [h]; exact k1
  | done _ hj hr ih =>
    obtain ⟨i1, e1, k1⟩ := hk.poll ih.1 (ih.2 _ (List.mem_of_getElem? hj)) hr
    exact ⟨i1, fun f hf => hk.stable (ih.2 f (List.mem_of_mem_eraseIdx hf)) e1⟩
  | drop j _ ih => exact ⟨ih.1, fun f hf => ih.2 f (List.mem_of_mem_eraseIdx hf)⟩

theorem nanosSat_pos {p : Nat} (h : 0 < p) : nanosSat p ≠ 0 := by
  have e : u64Max = 18446744073709551615 := rfl
  rw [nanosSat_eq]; omega

/-! ## C61 -/

/-- **C61, the recording changes nothing.** The recorded service answers, goes on and changes the world exactly as the service itself, whatever has been recorded; a call, a success and a failure are recorded
when they happen, and nothing else is. -/
theorem C61_transparent (now : W → Nat) (S : Service W Req Res Err) (h : HistoW) (w : W) :
    (∀ s, ((timedSvc now S).pollReady s).run (h, w) = match (S.pollReady s).run w with | .ok x w' => .ok x (h, w') | .panic m => .panic m | .spin => .spin) ∧
    (∀ s r, ((timedSvc now S).call s r).run (h, w) = match (S.call s r).run w with
      | .ok (x, s') w' => .ok ((h.next, x), s') ({ h with ev := h.ev ++ [.called h.next (now w)], next := h.next + 1 }, w')
      | .panic m => .panic m | .spin => .spin) ∧
    (∀ i x, ((timedSvc now S).poll (i, x)).run (h, w) = match (S.poll x).run w with
      | .ok (.pending, y) w' => .ok (.pending, (i, y)) (h, w')
      | .ok (.ready (.ok v), y) w' => .ok (.ready (.ok v), (i, y)) ({ h with ev := h.ev ++ [.ok i (now w')] }, w')
      | .ok (.ready (.error e), y) w' => .ok (.ready (.error e), (i, y)) ({ h with ev := h.ev ++ [.err i (now w')] }, w')
      | .panic m => .panic m | .spin => .spin) := by
  refine ⟨fun s => ?_, fun s r => ?_, fun i x => ?_⟩
  · simp only [Act.snd]
    cases (S.pollReady s).run w <;> rfl
  · simp only [run_bind, run_get, run_modify, Act.snd]
    cases (S.call s r).run w <;> rfl
  · simp only [run_bind, Act.snd]
    cases (S.poll x).run w with
    | panic m => rfl
    | spin => rfl
    | ok y w' =>
      obtain ⟨p, y⟩ := y
      match p with
      | .pending => rfl
      | .ready (.ok v) => rfl
      | .ready (.error e) => rfl

/-- **C61, what is recorded.** After any history, the values recorded in the histogram are exactly the latencies of the successes of the inner service, first and second attempts alike, in the order of
the responses, each recorded once, at the time of the response; a failed or dropped attempt records nothing. -/
theorem C61_recorded {n m s fs} {w : HistoW × W} (hp : 0 < period) (hS : ForwardTime C S) (h : HedgeHist into C cloneRequest canRetry min quantile S period t0 n m s fs w) :
    recordsOf w.1.ops = latencies [] w.1.ev := (h.inv (nanosSat_pos hp) hS).1.inv.recs

theorem recordedIn_records (s p k : Nat) : ∀ l : HistLog, recordedIn s p k l = ((recordsOf l).filter (fun x => decide (periodOf s p x.1 = k))).map Prod.snd
  | [] => rfl
  | (t, .record v) :: l => by
    simp only [recordedIn, recordsOf, List.filter_cons, recordedIn_records s p k l]
    by_cases h : periodOf s p t = k <;> simp [h]
  | (t, .read) :: l => by simp only [recordedIn, recordsOf, recordedIn_records s p k l]

theorem readIn_last (t0 period t : Nat) (l : HistLog) : readIn t0 period [] l (periodOf t0 period t) = lastPeriod t0 period t (recordsOf l) := by
  unfold lastPeriod
  cases periodOf t0 period t with
  | zero => simp [readIn]
  | succ k => simp only [readIn, recordedIn_records, Nat.add_right_cancel_iff]

/-- what a read returns -/
theorem WInv.reads {w : HistoW × W} (hp : 0 < period) (h : WInv C period t0 w) (hR : InRange t0 period (C.now w.2)) :
    (histoRead C.now w).1 = lastPeriod t0 period (C.now w.2) (latencies [] w.1.ev) := by
  have hpm : period ≤ u64Max := Nat.le_trans (Nat.le_add_left _ _) hR.1
  have hc := upTo_clockOk hR (Nat.le_refl _) (upTo_append (o := .read) h.time)
  obtain ⟨h', e⟩ := C41_window t0 period hp hpm _ hc
  obtain ⟨rs, hr⟩ := h.inv.run
  obtain ⟨vs, g, hg, -⟩ := RotHist.readAt_some (h := w.1.hist) (by rw [h.inv.per]; exact nanosSat_pos hp) (C.now w.2)
  rw [runHist_append _ _ _ _ _ hr, runHist_read _ hg, readsSpec_append] at e
  have e1 := congrArg Prod.snd (Option.some.inj e)
  have e2 := List.append_inj_right' e1 rfl
  rw [histoRead_eq hg, ← h.inv.recs]
  rw [List.nil_append, readIn_last] at e2
  exact List.head_eq_of_cons_eq e2

/-- **C61, when a request is hedged.** A call makes the first attempt at once. A second attempt is prepared exactly if the policy clones the request and at least `min` latencies were observed in the last full
period; it is for the clone, on a clone of the second instance, and due after the given quantile of those latencies. (What a prepared attempt does is `C39_hedge_attempt`.) -/
theorem C61_call {n m s fs} {w w' : HistoW × W} {r f s'} (hp : 0 < period) (hS : ForwardTime C S) (h : HedgeHist into C cloneRequest canRetry min quantile S period t0 n m s fs w)
    (hR : InRange t0 period (C.now w.2)) (hr : ((histoHedge into C cloneRequest canRetry min quantile S).call s r).run w = .ok (f, s') w') :
    let last := lastPeriod t0 period (C.now w.2) (latencies [] w.1.ev)
    callsOf w'.1.ev = callsOf w.1.ev ++ [(w.1.next, C.now w.2)] ∧
    f.2 = (cloneRequest r w.2).bind (fun r' => if min ≤ last.length then some (.delaying (C.now w.2 + quantile last * 1000000) r' (S.clone s.2)) else none) := by
  obtain ⟨hi, -⟩ := h.inv (nanosSat_pos hp) hS
  obtain ⟨a, b⟩ := s
  have e := C39_call into (histoCfg C cloneRequest canRetry min quantile) (timedSvc C.now S) a b r w
  have hr' := e.symm.trans hr
  clear e hr
  have hread := hi.reads hp hR
  have hi1 := (hi.read (nanosSat_pos hp)).1
  have hread1 := hi1.reads hp (by rw [histoRead_snd]; exact hR)
  rw [histoRead_ev, histoRead_snd] at hread1
  have hcall : ∀ (w1 w' : HistoW × W) (k : (timedSvc C.now S).φ × S.σ → (histoHedge into C cloneRequest canRetry min quantile S).φ × (histoHedge into C cloneRequest canRetry min quantile S).σ) y,
      (((timedSvc C.now S).call a r).run w1).void k = .ok y w' → callsOf w'.1.ev = callsOf w1.1.ev ++ [(w1.1.next, C.now w1.2)] ∧ ∃ z, y = k z := by
    intro w1 w' k y h
    cases hc : ((timedSvc C.now S).call a r).run w1 with
    | panic m => rw [hc] at h; cases h
    | spin => rw [hc] at h; cases h
    | ok c w2 =>
      rw [hc] at h
      simp only [Out.void, Out.ok.injEq] at h
      obtain ⟨rfl, rfl⟩ := h
      refine ⟨?_, _, rfl⟩
      simp only [run_bind, run_get, run_modify] at hc
      obtain ⟨⟨y, s2⟩, w3, h5, h6⟩ := run_bind_eq_ok.1 hc
      cases h6
      obtain ⟨-, h7⟩ := snd_eq_ok.1 h5
      rw [h7]
      simp only [callsOf_append, callsOf]
  intro last
  cases hcl : cloneRequest r w.2 with
  | none =>
    simp only [hcl] at hr'
    obtain ⟨h1, z, hz⟩ := hcall _ _ _ _ hr'
    cases hz
    exact ⟨h1, rfl⟩
  | some r' =>
    simp only [hcl, hread, hread1, decide_eq_true_eq] at hr'
    split at hr'
    · rename_i hm
      obtain ⟨h1, z, hz⟩ := hcall _ _ _ _ hr'
      cases hz
      refine ⟨?_, ?_⟩
      · simp only [histoRead_ev, histoRead_snd, histoRead_next] at h1; exact h1
      · simp only [Option.bind_some, histoRead_snd]
        exact (if_pos hm).symm
    · rename_i hm
      obtain ⟨h1, z, hz⟩ := hcall _ _ _ _ hr'
      cases hz
      refine ⟨?_, ?_⟩
      · simp only [histoRead_ev, histoRead_snd, histoRead_next] at h1; exact h1
      · exact (if_neg hm).symm

theorem histo_counts : HedgeCounts (fun w : HistoW × W => ((callsOf w.1.ev).length : Int)) (histoCfg C cloneRequest canRetry min quantile) (timedSvc C.now S) where
  calls := {
    ready := by
      intro s w a w' h
      obtain ⟨-, h3⟩ := snd_eq_ok.1 h
      simp only [h3]; omega
    call := by
      intro s r w a w' h
      simp only [run_bind, run_get, run_modify] at h
      obtain ⟨⟨y, s2⟩, w3, h5, h6⟩ := run_bind_eq_ok.1 h
      cases h6
      obtain ⟨-, h7⟩ := snd_eq_ok.1 h5
      simp only [h7, callsOf_append, callsOf, List.length_append, List.length_singleton]
      omega
    poll := by
      intro f w a w' h
      obtain ⟨⟨q0, x0⟩, w0, h3, h4⟩ := run_bind_eq_ok.1 h
      obtain ⟨-, h5⟩ := snd_eq_ok.1 h3
      match q0, h4 with
      | .pending, h4 => cases h4; simp only [h5]; omega
      | .ready (.ok v), h4 =>
        simp only [run_bind, run_modify, run_pure] at h4
        cases h4
        simp only [h5, callsOf_append, callsOf, List.append_nil]; omega
      | .ready (.error v), h4 =>
        simp only [run_bind, run_modify, run_pure] at h4
        cases h4
        simp only [h5, callsOf_append, callsOf, List.append_nil]; omega }
  record := by intro d w; simp only [histoRecord_ev]
  delay := by intro w; simp only [histoRead_ev]
  enough := by intro w; simp only [histoRead_ev]
  arm := by intros; rfl

variable (into C cloneRequest canRetry min quantile S) in
/-- what a response future may still cost -/
noncomputable def hPot (f : (histoHedge into C cloneRequest canRetry min quantile S).φ) : Int := hedgePot (histoCfg C cloneRequest canRetry min quantile).may f

variable (into C cloneRequest canRetry min quantile S) in
/-- what the response futures may still cost -/
noncomputable def pots (fs : List (histoHedge into C cloneRequest canRetry min quantile S).φ) : Int := (fs.map (hPot into C cloneRequest canRetry min quantile S)).sum

theorem sum_snoc {α : Type} {g : α → Int} (l : List α) (a : α) : ((l ++ [a]).map g).sum = (l.map g).sum + g a := by simp

theorem sum_nonneg {α : Type} {g : α → Int} (h : ∀ a, 0 ≤ g a) : ∀ l : List α, 0 ≤ (l.map g).sum
  | [] => Int.le_refl _
  | a :: l => by have := h a; have := sum_nonneg h l; simp only [List.map_cons, List.sum_cons]; omega

theorem sum_set {α : Type} {g : α → Int} : ∀ {l : List α} {j : Nat} {f f' : α}, l[j]? = some f → ((l.set j f').map g).sum = (l.map g).sum - g f + g f'
  | [], _, _, _, h => by cases h
  | a :: l, 0, f, f', h => by cases h; simp only [List.set_cons_zero, List.map_cons, List.sum_cons]; omega
  | a :: l, j + 1, f, f', h => by
    have := sum_set (g := g) (f' := f') (l := l) (j := j) (f := f) (by simpa using h)
    simp only [List.set_cons_succ, List.map_cons, List.sum_cons, this]; omega

theorem sum_eraseIdx {α : Type} {g : α → Int} : ∀ {l : List α} {j : Nat} {f : α}, l[j]? = some f → ((l.eraseIdx j).map g).sum = (l.map g).sum - g f
  | [], _, _, h => by cases h
  | a :: l, 0, f, h => by cases h; simp only [List.eraseIdx_cons_zero, List.map_cons, List.sum_cons]; omega
  | a :: l, j + 1, f, h => by
    have := sum_eraseIdx (g := g) (l := l) (j := j) (f := f) (by simpa using h)
    simp only [List.eraseIdx_cons_succ, List.map_cons, List.sum_cons, this]; omega

theorem hedgePot_nonneg {A F S' G : Type} {g : Req → Int} (hg : ∀ r, 0 ≤ g r) (x : A × Option (DelayFut S' Req (OneshotState S' Req (AsyncFilterFut (Option F) S' G)))) : 0 ≤ hedgePot g x := by
  obtain ⟨a, o⟩ := x
  cases o with
  | none => exact Int.le_refl _
  | some b => exact secondPot_nonneg _ hg b

theorem hedge_poll_costs {H : HedgeCfg W Req} {ν : W → Int} {S : Service W Req Res Err} (hν : HedgeCounts ν H S) {f f' : (Hedge into H S).φ} {w w' : W} {p}
    (h : ((Hedge into H S).poll f).run w = .ok (p, f') w') : ν w ≤ ν w' ∧ ν w' - ν w + hedgePot H.may f' ≤ hedgePot H.may f := by
  have hL := @latency_counts W Req Res Err BErr into H S ν hν
  exact select_poll_costs H.selectClone (Latency into H.clock H.record S)
      (Delay id H.clock (fun _ => H.delay)
        (AsyncFilter id hedgePredFut (fun r w => (if H.canRetry r w then some r else none, w))
          (Latency into H.clock H.record S))) (secondPot H.may) hL.poll
      (fun f w p f' w' h => second_poll_costs _ hL H.clock hν.arm _ f f' w w' p h)
      (hedgePot H.may) (fun _ => rfl) (fun _ _ => rfl) f f' w w' p h

theorem hedge_call_costs {H : HedgeCfg W Req} {ν : W → Int} {S : Service W Req Res Err} (hν : HedgeCounts ν H S) {s s' : (Hedge into H S).σ} {r : Req} {f : (Hedge into H S).φ} {w w' : W}
    (h : ((Hedge into H S).call s r).run w = .ok (f, s') w') : ν w' = ν w + 1 ∧ hedgePot H.may f ≤ (if f.2.isSome then 1 else 0) := by
  obtain ⟨a, b⟩ := s
  refine ⟨(C39_at_most_two hν a b r w w' f s' h []).1, ?_⟩
  have e := (C39_call into H S a b r w).symm.trans h
  have hcall : ∀ (w1 w' : W) (k : S.φ × S.σ → (Hedge into H S).φ × (Hedge into H S).σ) y, ((S.call a r).run w1).void k = .ok y w' → ∃ z, y = k z := by
    intro w1 w' k y h
    cases hc : (S.call a r).run w1 with
    | panic m => simp [hc, Out.void] at h
    | spin => simp [hc, Out.void] at h
    | ok c w2 =>
      simp only [hc, Out.void, Out.ok.injEq] at h
      exact ⟨_, h.1.symm⟩
  split at e
  · obtain ⟨z, hz⟩ := hcall _ _ _ _ e
    cases hz
    exact Int.le_refl _
  · rename_i r' _
    simp only at e
    split at e
    · obtain ⟨z, hz⟩ := hcall _ _ _ _ e
      cases hz
      exact H.may_le r'
    · obtain ⟨z, hz⟩ := hcall _ _ _ _ e
      cases hz
      exact Int.le_refl _

theorem hPot_nonneg (f) : 0 ≤ hPot into C cloneRequest canRetry min quantile S f := hedgePot_nonneg (histoCfg C cloneRequest canRetry min quantile).may_nonneg _

theorem hPot_poll {f f' p} {w w' : HistoW × W} (h : ((histoHedge into C cloneRequest canRetry min quantile S).poll f).run w = .ok (p, f') w') :
    ((callsOf w.1.ev).length : Int) ≤ (callsOf w'.1.ev).length ∧ ((callsOf w'.1.ev).length : Int) + hPot into C cloneRequest canRetry min quantile S f' ≤ (callsOf w.1.ev).length + hPot into C cloneRequest canRetry min quantile S f := by
  obtain ⟨e1, e2⟩ := hedge_poll_costs histo_counts h
  refine ⟨e1, ?_⟩
  unfold hPot
  simp only at e2
  omega

theorem hPot_call {s s' r f} {w w' : HistoW × W} (h : ((histoHedge into C cloneRequest canRetry min quantile S).call s r).run w = .ok (f, s') w') :
    ((callsOf w'.1.ev).length : Int) = (callsOf w.1.ev).length + 1 ∧ hPot into C cloneRequest canRetry min quantile S f ≤ (if f.2.isSome then 1 else 0) := hedge_call_costs histo_counts h

theorem HedgeHist.count {n m s fs} {w : HistoW × W} (h : HedgeHist into C cloneRequest canRetry min quantile S period t0 n m s fs w) :
    (n : Int) ≤ (callsOf w.1.ev).length ∧ ((callsOf w.1.ev).length : Int) + pots into C cloneRequest canRetry min quantile S fs ≤ n + m := by
  have hc := histo_counts (C := C) (cloneRequest := cloneRequest) (canRetry := canRetry) (min := min) (quantile := quantile) (S := S)
  induction h with
  | start s w h => exact ⟨Int.le_refl _, Int.le_refl _⟩
  | env w' hw _ ih => exact ih
  | @ready n m s fs w w' p s' _ hr ih =>
    have hL := @latency_counts _ _ _ _ BErr into _ _ _ hc
    obtain ⟨⟨q, a⟩, w1, h1, h2⟩ := run_bind_eq_ok.1 hr
    obtain ⟨⟨q2, b⟩, w2, h3, h4⟩ := run_bind_eq_ok.1 h2
    cases h3
    have e1 := hL.ready _ _ _ _ h1
    have : w' = w1 := by
      match q, h4 with
      | .ready (.ok ()), h4 => cases h4; rfl
      | .ready (.error _), h4 => cases h4; rfl
      | .pending, h4 => cases h4; rfl
    subst this
    have := ih.1
    have := ih.2
    constructor <;> omega
  | @call n m s fs w w' r f s' _ hr ih =>
    obtain ⟨e1, e2⟩ := hPot_call hr
    have e3 : pots into C cloneRequest canRetry min quantile S (fs ++ [f]) = pots into C cloneRequest canRetry min quantile S fs + hPot into C cloneRequest canRetry min quantile S f := sum_snoc _ _
    rw [e3]
    have e4 : ((if f.2.isSome then m + 1 else m : Nat) : Int) = m + (if f.2.isSome then 1 else 0) := by
      cases f.2.isSome <;> simp
    generalize (if f.2.isSome then m + 1 else m : Nat) = m' at e4 ⊢
    rw [← Int.sub_eq_iff_eq_add'] at e4
    have e2' := Int.le_trans e2 (Int.le_of_eq e4.symm)
    have := ih.1
    have := ih.2
    constructor <;> omega
  | @pending n m s fs w w' j f f' _ hj hr ih =>
    obtain ⟨e1, e2⟩ := hPot_poll hr
    have e3 : pots into C cloneRequest canRetry min quantile S (fs.set j f') = pots into C cloneRequest canRetry min quantile S fs - hPot into C cloneRequest canRetry min quantile S f + hPot into C cloneRequest canRetry min quantile S f' := sum_set hj
    have := ih.1
    have := ih.2
    constructor <;> omega
  | @done n m s fs w w' j f f' res _ hj hr ih =>
    obtain ⟨e1, e2⟩ := hPot_poll hr
    have e3 : pots into C cloneRequest canRetry min quantile S (fs.eraseIdx j) = pots into C cloneRequest canRetry min quantile S fs - hPot into C cloneRequest canRetry min quantile S f := sum_eraseIdx hj
    have e4 := hPot_nonneg f'
    have := ih.1
    have := ih.2
    constructor <;> omega
  | @drop n m s fs w j _ ih =>
    cases hj : fs[j]? with
    | none => rw [List.eraseIdx_of_length_le (by simpa using hj)]; exact ih
    | some f =>
      have e3 : pots into C cloneRequest canRetry min quantile S (fs.eraseIdx j) = pots into C cloneRequest canRetry min quantile S fs - hPot into C cloneRequest canRetry min quantile S f := sum_eraseIdx hj
      have e4 := hPot_nonneg f
      have := ih.1
      have := ih.2
      constructor <;> omega

/-- **C61, how many attempts.** However the hedge is used: of `n` requests, for `m` of which a second attempt was prepared, the inner service has been called at least `n` and at most `n + m` times; so exactly `n`
times as long as no second attempt was prepared, and never more than twice per request. -/
theorem C61_calls {n m s fs} {w : HistoW × W} (h : HedgeHist into C cloneRequest canRetry min quantile S period t0 n m s fs w) :
    n ≤ (callsOf w.1.ev).length ∧ (callsOf w.1.ev).length ≤ n + m ∧ m ≤ n := by
  obtain ⟨h1, h2⟩ := h.count
  have h3 : 0 ≤ pots into C cloneRequest canRetry min quantile S fs := sum_nonneg hPot_nonneg fs
  refine ⟨by omega, by omega, ?_⟩
  clear h1 h2 h3
  induction h with
  | start => exact Nat.le_refl _
  | env _ _ _ ih => exact ih
  | ready _ _ ih => exact ih
  | call _ _ ih => split <;> omega
  | pending _ _ _ ih => exact ih
  | done _ _ _ ih => exact ih
  | drop _ _ ih => exact ih

end
/-! ## A concrete case -/

namespace Demo61

/-- The world is the time. Requests below 10 are answered at time 3, others at time 112; odd ones fail. -/
def inner : Service Nat Nat Nat String where
  σ := Unit
  φ := Nat × Nat
  pollReady _ := pure (.ready (.ok ()), ())
  call _ r := ⟨fun w => .ok ((r, if r < 10 then 3 else 112), ()) w⟩
  poll x := ⟨fun w => .ok (if x.2 ≤ w then .ready (if x.1 % 2 = 0 then .ok x.1 else .error "odd") else .pending, x) w⟩
  clone := id

@[reducible] def clock : Clock Nat := { now := id, fired := fun d w => decide (d ≤ w), sound := fun d w h => by simpa using h }

theorem forward : ForwardTime clock inner where
  ready h := by cases h; exact Nat.le_refl _
  call h := by cases h; exact Nat.le_refl _
  poll h := by cases h; exact Nat.le_refl _
  arm _ _ := rfl

/-- the second request is cloned; hedged if there is a data point, at once -/
@[reducible] def hedge : Service (HistoW × Nat) Nat Nat String := histoHedge id clock (fun r _ => some r) (fun _ _ => true) 1 (fun _ => 0) inner

abbrev H := HedgeHist id clock (fun r _ => some r) (fun _ _ => true) 1 (fun _ => 0) inner 10 0

def b0 : HistoW := ⟨RotHist.new 10 0, [], [], 0⟩
/-- after the first call, at time 0: the histogram was read, and found empty -/
def b1 : HistoW := ⟨RotHist.new 10 0, [(0, .read)], [.called 0 0], 1⟩
/-- the response at time 3 is recorded -/
def b2 : HistoW := ⟨{ read := [], write := [1], last := 0, period := 10 }, [(0, .read), (3, .record 1)], [.called 0 0, .ok 0 3], 1⟩
/-- after the second call, at time 12 -/
def b3 : HistoW := ⟨{ read := [1], write := [], last := 10, period := 10 }, [(0, .read), (3, .record 1), (12, .read), (12, .read)],
  [.called 0 0, .ok 0 3, .called 1 12], 2⟩
/-- the second attempt, at time 15 -/
def b4 : HistoW := { b3 with ev := b3.ev ++ [.called 2 15], next := 3 }

abbrev f1 : hedge.φ := ((0, (0, (2, 3))), none)
abbrev f2 : hedge.φ := ((12, (1, (40, 112))), some (.delaying 12 (40 : Nat) ()))
abbrev f3 : hedge.φ := ((12, (1, (40, 112))), some (.called (.called (.waitResponse (15, (2, (40, 112)))))))
abbrev s0 : hedge.σ := ((), ())

theorem r1 : histoRead (id : Nat → Nat) (b0, 0) = ([], ({ b0 with ops := [(0, .read)] }, 0)) := by
  rw [histoRead_eq (w := (b0, (0 : Nat))) (g := ([], RotHist.new 10 0)) (by decide +kernel)]; rfl
theorem r2 : histoRecord (id : Nat → Nat) 3 ({ b1 with ev := b1.ev ++ [.ok 0 3] }, 3) = (b2, 3) := by
  rw [histoRecord_eq (w := ({ b1 with ev := b1.ev ++ [.ok 0 3] }, (3 : Nat))) (g := b2.hist) (by decide +kernel),
    show millisUp 3 = 1 by decide +kernel]; rfl
def b25 : HistoW := { b2 with hist := b3.hist, ops := b2.ops ++ [(12, .read)] }
theorem r3 : histoRead (id : Nat → Nat) (b2, 12) = ([1], (b25, 12)) := by
  rw [histoRead_eq (w := (b2, (12 : Nat))) (g := ([1], b3.hist)) (by decide +kernel)]; rfl
theorem r4 : histoRead (id : Nat → Nat) (b25, 12) = ([1], ({ b25 with ops := b25.ops ++ [(12, .read)] }, 12)) := by
  rw [histoRead_eq (w := (b25, (12 : Nat))) (g := ([1], b3.hist)) (by decide +kernel)]; rfl

theorem e1 : (hedge.call s0 (2 : Nat)).run (b0, 0) = .ok (f1, s0) (b1, 0) := by
  refine (C39_call ..).trans ?_
  simp only [r1, List.length_nil, Nat.reduceLeDiff, decide_false, Bool.false_eq_true, if_false]
  rfl
theorem e2 : (hedge.poll f1).run (b1, 3) = .ok (.ready (.ok 2), f1) (b2, 3) :=
  run_bind_eq_ok.2 ⟨(.ready (.ok 2), (0, (0, (2, 3)))), (b2, 3), run_bind_eq_ok.2 ⟨(.ready (.ok 2), (0, (2, 3))), ({ b1 with ev := b1.ev ++ [.ok 0 3] }, 3), rfl,
    by simp only [run_bind, run_get, run_modify, run_pure]; exact congrArg _ r2⟩, rfl⟩
theorem e3 : (hedge.call s0 (40 : Nat)).run (b2, 12) = .ok (f2, s0) (b3, 12) := by
  refine (C39_call ..).trans ?_
  simp only [r3, r4, List.length_singleton, Nat.le_refl, decide_true, if_true]
  rfl
theorem e4 : (hedge.poll f2).run (b3, 15) = .ok (.pending, f3) (b4, 15) := by
  rfl

theorem h1 : H 1 0 s0 [f1] (b1, 0) := HedgeHist.call (HedgeHist.start (C := clock) (S := inner) () (0 : Nat) rfl) e1

theorem h2 : H 1 0 s0 [] (b2, 3) := HedgeHist.done (j := 0) (HedgeHist.env 3 (by decide) h1) rfl e2

theorem h3 : H 2 1 s0 [f2] (b3, 12) := HedgeHist.call (HedgeHist.env 12 (by decide) h2) e3

theorem h4 : H 2 1 s0 [f3] (b4, 15) := HedgeHist.pending (j := 0) (HedgeHist.env 15 (by decide) h3) rfl e4

example : latencies [] b4.ev = [(3, 1)] := by decide
example : lastPeriod 0 10 12 (latencies [] b2.ev) = [1] := by decide
example : (callsOf b4.ev).length = 2 + 1 := by decide
example : InRange 0 10 12 := by unfold InRange periodOf u64Max; omega
/-- a failure is not recorded -/
example : (hedge.poll ((0, (7, (3, 5))), none)).run (b1, 9) = .ok (.ready (.error "odd"), ((0, (7, (3, 5))), none)) ({ b1 with ev := b1.ev ++ [.err 7 9] }, 9) := rfl

end Demo61

end Tower
