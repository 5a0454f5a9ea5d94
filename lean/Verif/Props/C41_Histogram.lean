import Verif.Model.Histogram

/-! # C41: the rotating histogram -/

set_option linter.unusedSimpArgs false

namespace Tower

/-! ## Specification -/

/-- the number of full periods between `start` and `t` -/
def periodOf (start period t : Nat) : Nat := (t - start) / period

/-- the values recorded in period number `k`, in order -/
def recordedIn (start period k : Nat) : HistLog → List Nat
  | [] => []
  | (t, .record v) :: l => if periodOf start period t = k then v :: recordedIn start period k l else recordedIn start period k l
  | (_, .read) :: l => recordedIn start period k l

/-- the clock never goes back, and between two consecutive operations less than `2^32` periods begin, and less than `2^64 - period`
nanoseconds (584 years) pass -/
def clockOk (start period : Nat) : Nat → HistLog → Prop
  | _, [] => True
  | prev, (t, _) :: l => prev ≤ t ∧ periodOf start period t < periodOf start period prev + 2 ^ 32 ∧ t - prev + period ≤ u64Max ∧
      clockOk start period t l

/-- Run a history; the last component is what the reads returned, in order. `none` if some operation panicked. -/
def runHist (h : RotHist) : HistLog → Option (RotHist × List (List Nat))
  | [] => some (h, [])
  | (t, .record v) :: l => do
    let h ← h.recordAt v t
    runHist h l
  | (t, .read) :: l => do
    let (vs, h) ← h.readAt t
    let (h, rs) ← runHist h l
    pure (h, vs :: rs)

/-- what a read in period `k` should return: the initial content in period 0, then what was recorded in the period before; `past` is the history
so far -/
def readIn (start period : Nat) (init : List Nat) (past : HistLog) : Nat → List Nat
  | 0 => init
  | k + 1 => recordedIn start period k past

/-- what the reads of a history should return -/
def readsSpec (start period : Nat) (init : List Nat) (past : HistLog) : HistLog → List (List Nat)
  | [] => []
  | (t, .record v) :: l => readsSpec start period init (past ++ [(t, .record v)]) l
  | (t, .read) :: l =>
    readIn start period init past (periodOf start period t) :: readsSpec start period init (past ++ [(t, .read)]) l

/-! ## Proofs -/

theorem nanosSat_eq (d : Nat) : nanosSat d = min d u64Max := by
  unfold nanosSat
  have := Nat.div_add_mod d 1000000000
  omega

/-- **C41, milliseconds.** Latencies are recorded in milliseconds, rounded up (and saturated at `u64::MAX`). -/
theorem C41_millis (d : Nat) : millisUp d = min ((d + 999999) / 1000000) u64Max := by
  unfold millisUp
  have e : u64Max = 18446744073709551615 := rfl
  omega

theorem recordedIn_append (s p k : Nat) (l m : HistLog) : recordedIn s p k (l ++ m) = recordedIn s p k l ++ recordedIn s p k m := by
  induction l with
  | nil => rfl
  | cons x l ih =>
    obtain ⟨t, o⟩ := x
    cases o with
    | record v => simp only [List.cons_append, recordedIn]; split <;> simp [ih]
    | read => simpa only [List.cons_append, recordedIn] using ih

/-- nothing is recorded in a period that has not begun -/
def Before (s p k : Nat) (l : HistLog) : Prop := ∀ x ∈ l, periodOf s p x.1 ≤ k

theorem recordedIn_future {s p k j : Nat} {l : HistLog} (h : Before s p k l) (hj : k < j) : recordedIn s p j l = [] := by
  induction l with
  | nil => rfl
  | cons x l ih =>
    obtain ⟨t, o⟩ := x
    have h1 := h (t, o) (by simp)
    have h2 := ih (fun y hy => h y (by simp [hy]))
    simp only at h1
    cases o with
    | record v => simp only [recordedIn]; rw [if_neg (by omega), h2]
    | read => simpa only [recordedIn] using h2

theorem maybeRotate_spec {s p k : Nat} {init : List Nat} {past : HistLog} {h : RotHist} {t : Nat} (hp : 0 < p)
    (hP : h.period = p) (hL : h.last = s + k * p) (hW : h.write = recordedIn s p k past) (hR : h.read = readIn s p init past k)
    (hB : Before s p k past) (hk : k ≤ periodOf s p t) (hlt : periodOf s p t < k + 2 ^ 32) (hd : t - h.last ≤ u64Max) (hpm : p ≤ u64Max) :
    ∃ h', h.maybeRotate t = some h' ∧ h'.period = p ∧ h'.last = s + periodOf s p t * p ∧
      h'.write = recordedIn s p (periodOf s p t) past ∧ h'.read = readIn s p init past (periodOf s p t) := by
  have hn : nanosSat h.period = p := by rw [hP, nanosSat_eq]; omega
  have hn' : nanosSat (t - h.last) = t - h.last := by rw [nanosSat_eq]; omega
  have hdiv : (t - h.last) / p = periodOf s p t - k := by
    rw [hL, ← Nat.sub_sub]
    have : (t - s - k * p) / p = (t - s) / p - k := by rw [Nat.mul_comm, Nat.sub_mul_div]
    rw [this]; rfl
  have hrot : nanosSat (t - h.last) / nanosSat h.period % 2 ^ 32 = periodOf s p t - k := by
    rw [hn, hn', hdiv]; exact Nat.mod_eq_of_lt (by omega)
  generalize hq : periodOf s p t = q at *
  unfold RotHist.maybeRotate
  rw [if_neg (by omega)]
  simp only [hrot]
  have hlast : ∀ r, q = k + r → s + k * p + p * r = s + q * p := by
    intro r hr; rw [hr, Nat.add_mul, Nat.mul_comm p r]; omega
  by_cases h2 : q - k ≥ 2
  · rw [if_pos h2]
    refine ⟨_, rfl, hP, ?_, ?_, ?_⟩
    · simp only [RotHist.clear, hL, hP]; exact hlast _ (by omega)
    · simp only [RotHist.clear]; rw [recordedIn_future hB (by omega)]
    · simp only [RotHist.clear]
      obtain ⟨q', rfl⟩ : ∃ q', q = q' + 1 := ⟨q - 1, by omega⟩
      simp only [readIn]; rw [recordedIn_future hB (by omega)]
  · rw [if_neg h2]
    by_cases h1 : q - k = 1
    · rw [if_pos h1]
      have : q = k + 1 := by omega
      refine ⟨_, rfl, hP, ?_, ?_, ?_⟩
      · simp only [RotHist.rotate, hL, hP]; exact hlast _ (by omega)
      · simp only [RotHist.rotate]; rw [recordedIn_future hB (by omega)]
      · simp only [RotHist.rotate]; rw [this]; simp only [readIn]; exact hW
    · rw [if_neg h1]
      have : q = k := by omega
      refine ⟨_, rfl, hP, ?_, ?_, ?_⟩
      · simp only [hL, hP]; exact hlast _ (by omega)
      · rw [this]; exact hW
      · rw [this]; exact hR

theorem periodOf_mono {s p a b : Nat} (h : a ≤ b) : periodOf s p a ≤ periodOf s p b :=
  Nat.div_le_div_right (by omega)

theorem runHist_spec {s p : Nat} {init : List Nat} (hp : 0 < p) (hpm : p ≤ u64Max) :
    ∀ (l : HistLog) (past : HistLog) (h : RotHist) (prev : Nat), s ≤ prev → h.period = p → h.last = s + periodOf s p prev * p →
      h.write = recordedIn s p (periodOf s p prev) past → h.read = readIn s p init past (periodOf s p prev) →
      Before s p (periodOf s p prev) past → clockOk s p prev l →
      ∃ h', runHist h l = some (h', readsSpec s p init past l) := by
  intro l
  induction l with
  | nil => intro past h prev _ _ _ _ _ _ _; exact ⟨h, rfl⟩
  | cons x l ih =>
    obtain ⟨t, o⟩ := x
    intro past h prev hsp hP hL hW hR hB hc
    obtain ⟨c1, c2, c3, c4⟩ := hc
    have hk := periodOf_mono (s := s) (p := p) c1
    have hlast : prev < h.last + p := by
      rw [hL]
      have := Nat.div_add_mod (prev - s) p
      have hm := Nat.mod_lt (prev - s) hp
      unfold periodOf
      rw [Nat.mul_comm ((prev - s) / p) p]
      omega
    obtain ⟨h', e, r1, r2, r3, r4⟩ := maybeRotate_spec (t := t) hp hP hL hW hR hB hk c2 (by omega) hpm
    have hB' : ∀ o, Before s p (periodOf s p t) (past ++ [(t, o)]) := by
      intro o y hy
      simp only [List.mem_append, List.mem_singleton] at hy
      rcases hy with hy | hy
      · exact Nat.le_trans (hB y hy) hk
      · subst hy; exact Nat.le_refl _
    have hread : ∀ o, readIn s p init (past ++ [(t, o)]) (periodOf s p t) = readIn s p init past (periodOf s p t) := by
      intro o
      cases hq : periodOf s p t with
      | zero => rfl
      | succ k =>
        simp only [readIn, recordedIn_append]
        cases o with
        | record v => simp only [recordedIn, hq]; simp
        | read => simp [recordedIn]
    cases o with
    | record v =>
      simp only [runHist, RotHist.recordAt, e, Option.map_some, readsSpec]
      refine ih _ _ t (by omega) r1 r2 ?_ ?_ (hB' _) c4
      · simp only [r3, recordedIn_append, recordedIn, if_true]
      · simp only [r4]; exact (hread _).symm
    | read =>
      have hx := ih (past ++ [(t, .read)]) h' t (by omega) r1 r2 ?_ ?_ (hB' _) c4
      · obtain ⟨h'', e'⟩ := hx
        refine ⟨h'', ?_⟩
        simp only [runHist, RotHist.readAt, e, Option.map_some, readsSpec]
        simp only [Option.bind_eq_bind, Option.bind_some, e', r4]
        rfl
      · simp only [r3, recordedIn_append, recordedIn, List.append_nil]
      · rw [r4]; exact (hread _).symm

/-- **C41.** Whatever is recorded and read, and whenever: no operation panics, and each read returns exactly the values recorded in the rotation
period before the one the read happens in, in the order they were recorded (and nothing in the first period). Here the histogram was created at
`start`, its period is not zero (and less than 584 years), the clock never goes back, and `clockOk` bounds the gaps between operations. -/
theorem C41_window (start period : Nat) (hp : 0 < period) (hpm : period ≤ u64Max) (log : HistLog) (hc : clockOk start period start log) :
    ∃ h', runHist (RotHist.new period start) log = some (h', readsSpec start period [] [] log) :=
  runHist_spec hp hpm log [] _ start (Nat.le_refl _) rfl (by simp [RotHist.new, periodOf]) (by simp [RotHist.new, recordedIn])
    (by simp [RotHist.new, periodOf, readIn]) (by intro x hx; cases hx) hc

theorem newMock_eq (period now : Nat) (hp : 0 < period) (vs : List Nat) :
    RotHist.newMock period now vs = some { RotHist.new period now with read := vs } := by
  have hn : nanosSat period ≠ 0 := by
    rw [nanosSat_eq]
    have e : u64Max = 18446744073709551615 := rfl
    omega
  have hm : ∀ r, RotHist.maybeRotate { read := r, write := [], last := now, period := period } now =
      some { read := r, write := [], last := now, period := period } := by
    intro r
    unfold RotHist.maybeRotate
    rw [if_neg hn]
    simp [nanosSat_eq]
  have key : ∀ (vs acc : List Nat), vs.foldlM (fun h v => (RotHist.maybeRotate h now).map (fun h => { h with read := h.read ++ [v] }))
      ({ read := acc, write := [], last := now, period := period } : RotHist) =
      some { read := acc ++ vs, write := [], last := now, period := period } := by
    intro vs
    induction vs with
    | nil => intro acc; simp
    | cons v vs ih => intro acc; simp only [List.foldlM_cons, hm, Option.map_some]; have := ih (acc ++ [v]); simpa using this
  have := key vs []
  rw [List.nil_append] at this
  exact this

/-- **C41, mock latencies.** A hedge built `new_with_mock_latencies` sees the given latencies during the first period and then what was recorded
in the period before, as `C41_window` says. -/
theorem C41_mock (start period : Nat) (hp : 0 < period) (hpm : period ≤ u64Max) (mock : List Nat) (log : HistLog)
    (hc : clockOk start period start log) :
    ∃ h h', RotHist.newMock period start mock = some h ∧ runHist h log = some (h', readsSpec start period mock [] log) := by
  obtain ⟨h', e⟩ := runHist_spec (init := mock) hp hpm log [] { RotHist.new period start with read := mock } start (Nat.le_refl _) rfl
    (by simp [RotHist.new, periodOf]) (by simp [RotHist.new, recordedIn]) (by simp [periodOf, readIn]) (by intro x hx; cases hx) hc
  exact ⟨_, h', newMock_eq period start hp mock, e⟩

/-- the value `v` was recorded at instant `τ` -/
def Recorded (log : HistLog) (τ v : Nat) : Prop := (τ, HistOp.record v) ∈ log

theorem mem_recordedIn {s p k : Nat} {l : HistLog} {v : Nat} : v ∈ recordedIn s p k l ↔ ∃ τ, Recorded l τ v ∧ periodOf s p τ = k := by
  induction l with
  | nil => simp [recordedIn, Recorded]
  | cons x l ih =>
    obtain ⟨t, o⟩ := x
    simp only [Recorded] at ih
    cases o with
    | read =>
      simp only [recordedIn, ih, Recorded]
      constructor
      · rintro ⟨τ, h1, h2⟩; exact ⟨τ, by simp [h1], h2⟩
      · rintro ⟨τ, h1, h2⟩; exact ⟨τ, by simpa using h1, h2⟩
    | record u =>
      simp only [recordedIn, Recorded]
      constructor
      · intro hv
        split at hv
        · rename_i hk
          simp only [List.mem_cons] at hv
          rcases hv with hv | hv
          · exact ⟨t, by simp [hv], hk⟩
          · obtain ⟨τ, h1, h2⟩ := ih.1 hv; exact ⟨τ, by simp [h1], h2⟩
        · obtain ⟨τ, h1, h2⟩ := ih.1 hv; exact ⟨τ, by simp [h1], h2⟩
      · rintro ⟨τ, h1, h2⟩
        simp only [List.mem_cons, Prod.mk.injEq, HistOp.record.injEq] at h1
        rcases h1 with ⟨rfl, rfl⟩ | h1
        · rw [if_pos h2]; simp
        · have := ih.2 ⟨τ, h1, h2⟩; split <;> simp [this]

theorem readsSpec_append (s p : Nat) (init : List Nat) (l : HistLog) (t : Nat) : ∀ past,
    readsSpec s p init past (l ++ [(t, .read)]) = readsSpec s p init past l ++ [readIn s p init (past ++ l) (periodOf s p t)] := by
  induction l with
  | nil => intro past; simp only [List.nil_append, readsSpec, List.append_nil]
  | cons x l ih =>
    obtain ⟨t', o⟩ := x
    intro past
    cases o <;> simp [readsSpec, ih]

/-- **C41, age.** After any history with such a clock, what a read at `t` sees was recorded less than two periods before `t`, before the current
period; and everything recorded one period to the last full period is there. -/
theorem C41_age (start period t : Nat) (hp : 0 < period) (hpm : period ≤ u64Max) (log : HistLog)
    (hc : clockOk start period start (log ++ [(t, .read)])) (hb : ∀ x ∈ log, start ≤ x.1) (hst : start ≤ t) :
    ∃ h' rs vs, runHist (RotHist.new period start) (log ++ [(t, .read)]) = some (h', rs ++ [vs]) ∧
      (∀ v ∈ vs, ∃ τ, Recorded log τ v ∧ τ ≤ t ∧ t < τ + 2 * period) ∧
      (∀ τ v, Recorded log τ v → start + (periodOf start period t - 1) * period ≤ τ → τ < start + periodOf start period t * period → v ∈ vs) := by
  obtain ⟨h', e⟩ := C41_window start period hp hpm _ hc
  rw [readsSpec_append] at e
  refine ⟨h', _, _, e, ?_, ?_⟩
  · intro v hv
    simp only [List.nil_append] at hv
    cases hq : periodOf start period t with
    | zero => rw [hq] at hv; simp [readIn] at hv
    | succ k =>
      rw [hq] at hv
      obtain ⟨τ, h1, h2⟩ := mem_recordedIn.1 hv
      refine ⟨τ, h1, ?_, ?_⟩
      · have hlt : periodOf start period τ < periodOf start period t := by omega
        by_cases hle : τ ≤ t
        · exact hle
        · have := periodOf_mono (s := start) (p := period) (show t ≤ τ by omega); omega
      · have hs := hb _ h1
        simp only at hs
        unfold periodOf at hq h2
        have a1 := Nat.div_add_mod (t - start) period
        have a2 := Nat.mod_lt (t - start) hp
        have a3 := Nat.div_add_mod (τ - start) period
        rw [hq, Nat.mul_add] at a1
        rw [h2] at a3
        omega
  · intro τ v h1 h2 h3
    simp only [List.nil_append]
    have hs := hb _ h1
    simp only at hs
    cases hq : periodOf start period t with
    | zero => rw [hq] at h3; omega
    | succ k =>
      rw [hq] at h2 h3
      simp only [readIn]
      refine mem_recordedIn.2 ⟨τ, h1, ?_⟩
      unfold periodOf
      have b1 : k * period ≤ τ - start := by simp only [Nat.add_sub_cancel] at h2; omega
      have b2 : τ - start < (k + 1) * period := by omega
      exact Nat.div_eq_of_lt_le b1 b2

/-- **C41, use.** A hedge keeps a clone of the request, i.e. considers hedging, exactly if the user's policy gives one and at least
`min_data_points` values were recorded in the period before the current one. -/
theorem C41_enough {Req : Type} (start period t min : Nat) (hp : 0 < period) (hpm : period ≤ u64Max) (log : HistLog) (r : Req)
    (hc : clockOk start period start (log ++ [(t, .read)])) :
    ∃ h rs h', runHist (RotHist.new period start) log = some (h, rs) ∧
      histoSelectClone (some r) min h t = some (if (readIn start period [] log (periodOf start period t)).length ≥ min then some r else none, h') ∧
      histoSelectClone (none : Option Req) min h t = some (none, h) := by
  obtain ⟨h', e⟩ := C41_window start period hp hpm _ hc
  have split : ∀ (l : HistLog) (h : RotHist) (g : RotHist) (rs : List (List Nat)), runHist h (l ++ [(t, .read)]) = some (g, rs) →
      ∃ h1 r1 vs, runHist h l = some (h1, r1) ∧ h1.readAt t = some (vs, g) ∧ rs = r1 ++ [vs] := by
    intro l
    induction l with
    | nil =>
      intro h g rs hh
      simp only [List.nil_append, runHist, Option.bind_eq_bind] at hh
      cases hr : h.readAt t with
      | none => rw [hr] at hh; simp at hh
      | some x => rw [hr] at hh; simp at hh; exact ⟨h, [], x.1, rfl, by rw [hr, ← hh.1], by simp [hh.2]⟩
    | cons x l ih =>
      obtain ⟨t', o⟩ := x
      intro h g rs hh
      cases o with
      | record v =>
        simp only [List.cons_append, runHist, Option.bind_eq_bind] at hh ⊢
        cases hr : h.recordAt v t' with
        | none => rw [hr] at hh; simp at hh
        | some y => rw [hr] at hh; exact ih y g rs hh
      | read =>
        simp only [List.cons_append, runHist, Option.bind_eq_bind] at hh ⊢
        cases hr : h.readAt t' with
        | none => rw [hr] at hh; simp at hh
        | some y =>
          rw [hr] at hh
          simp only [Option.bind_some] at hh
          cases hr2 : runHist y.2 (l ++ [(t, .read)]) with
          | none => rw [hr2] at hh; simp at hh
          | some z =>
            rw [hr2] at hh
            simp at hh
            obtain ⟨h1, r1, vs, f1, f2, f3⟩ := ih y.2 z.1 z.2 hr2
            refine ⟨h1, y.1 :: r1, vs, by simp [f1], by rw [f2, hh.1], ?_⟩
            rw [← hh.2, f3]; rfl
  obtain ⟨h1, r1, vs, f1, f2, f3⟩ := split log _ _ _ e
  rw [readsSpec_append] at f3
  have hvs : vs = readIn start period [] log (periodOf start period t) := by
    have := List.append_inj_right' f3 rfl
    simpa using this.symm
  refine ⟨h1, r1, h', f1, ?_, rfl⟩
  unfold histoSelectClone
  rw [f2, hvs]; rfl

/-- the histogram after `r` rotations -/
def rotated (h : RotHist) : Nat → RotHist
  | 0 => h
  | 1 => { h with read := h.write, write := [], last := h.last + h.period }
  | r => { h with read := [], write := [], last := h.last + h.period * r }

theorem maybeRotate_eq (h : RotHist) (t : Nat) (h0 : nanosSat h.period ≠ 0) (r : Nat)
    (hr : nanosSat (t - h.last) / nanosSat h.period % 2 ^ 32 = r) : h.maybeRotate t =
      some (rotated h r) := by
  unfold RotHist.maybeRotate
  rw [if_neg h0]
  simp only [hr]
  match r with
  | 0 => rfl
  | 1 => simp [RotHist.rotate, rotated]
  | r + 2 => rw [if_pos (by omega)]; rfl

theorem runHist_record {h h' : RotHist} {t v : Nat} (l : HistLog) (e : h.recordAt v t = some h') : runHist h ((t, .record v) :: l) = runHist h' l := by
  rw [runHist, e]; rfl

theorem runHist_read {h h' : RotHist} {t : Nat} {vs : List Nat} (l : HistLog) (e : h.readAt t = some (vs, h')) :
    runHist h ((t, .read) :: l) = (runHist h' l).map (fun x => (x.1, vs :: x.2)) := by
  rw [runHist, e]
  simp only [Option.bind_eq_bind, Option.bind_some]
  cases runHist h' l <;> rfl

theorem runHist_two {x y z : RotHist} {v g t : Nat} {vs : List Nat} (h1 : x.recordAt v t = some y) (h2 : y.readAt g = some (vs, z)) :
    (runHist x [(t, .record v), (g, .read)]).map (·.2) = some [vs] := by
  rw [runHist_record _ h1, runHist_read _ h2]; rfl

theorem trunc_mod : (2 ^ 32 + 1) % 2 ^ 32 = 1 := by omega

/-- **C41, limits.** With a gap of `2^32 + 1` periods the count of rotations is truncated to 1: a read then sees what was recorded 4294967297
periods ago as if it were fresh. -/
theorem C41_truncation_violates (period gap : Nat) (hp : 0 < period) (hg : gap = (2 ^ 32 + 1) * period) (hpm : gap ≤ u64Max) (v : Nat) :
    (runHist (RotHist.new period 0) [(0, .record v), (gap, .read)]).map (·.2) = some [[v]] := by
  have n0 : nanosSat period = period := by rw [nanosSat_eq]; omega
  have hd : nanosSat gap = gap := by rw [nanosSat_eq]; omega
  have hq : gap / period = 2 ^ 32 + 1 := by rw [hg]; exact Nat.mul_div_cancel _ hp
  have e1 := maybeRotate_eq (RotHist.new period 0) 0 (by simp only [RotHist.new, n0]; omega) 0 (by
    have : nanosSat (0 - (RotHist.new period 0).last) = 0 := by rw [nanosSat_eq]; simp [RotHist.new]
    rw [this]; simp)
  have e2 := maybeRotate_eq { read := [], write := [v], last := 0, period := period } gap (by simp only [n0]; omega) 1
    (by
    have : nanosSat gap / nanosSat period = 2 ^ 32 + 1 := by rw [n0, hd, hq]
    show nanosSat (gap - 0) / nanosSat period % 2 ^ 32 = 1
    exact (congrArg (fun x => nanosSat x / nanosSat period % 2 ^ 32) (Nat.sub_zero gap)).trans ((congrArg (· % 2 ^ 32) this).trans trunc_mod))
  have r1 : (RotHist.new period 0).recordAt v 0 = some { read := [], write := [v], last := 0, period := period } := by
    unfold RotHist.recordAt; rw [e1]; rfl
  have r2 : ∃ h, RotHist.readAt { read := [], write := [v], last := 0, period := period } gap = some ([v], h) := by
    unfold RotHist.readAt; rw [e2]; exact ⟨_, rfl⟩
  obtain ⟨h, r2⟩ := r2
  exact runHist_two r1 r2

/-- **C41, limits.** A period of zero panics at the first use. -/
theorem C41_zero_period_panics (h : RotHist) (now : Nat) (hz : h.period = 0) : h.maybeRotate now = none := by
  unfold RotHist.maybeRotate; rw [hz, if_pos (by rfl)]

/-! ## The hypotheses can be met -/

namespace Demo41
/-- period 10, created at 100; two records in the first period, one in the second, reads in every period -/
def log : HistLog := [(101, .record 7), (105, .read), (109, .record 8), (112, .read), (113, .record 9), (125, .read), (147, .read)]

example : clockOk 100 10 100 log := by
  simp [log, clockOk, periodOf, u64Max]
example : (runHist (RotHist.new 10 100) log).map (·.2) = some [[], [7, 8], [9], []] := by decide +kernel
example : readsSpec 100 10 [] [] log = [[], [7, 8], [9], []] := by decide +kernel
end Demo41

end Tower
