import Verif.Proof.Over

/-! # C80: a concurrency limit under any stack of per-request middleware -/

set_option linter.unusedSimpArgs false

namespace Tower
open Act
variable {W Q0 R0 E0 Q R E : Type} {debug : Bool} {max : Nat} {S : Service W Q0 R0 E0} {T : Service (Sem × W) Q R E} {o : Over debug S T}

/-! ## Specification -/

/-- calls of the innermost service whose response futures exist -/
def OStack.inFlight (o : Over debug S T) (x : OStack T) : Nat := x.fs.countP (fun f => (o.fut f).isSome)

/-- handles of the stack whose limit has a permit for the next call -/
def OStack.reserved (o : Over debug S T) (x : OStack T) : Nat := x.hs.countP (fun t => (o.own t).any (·.permit))

/-- no `load_shed` in the stack -/
def Over.noShed {Q R E : Type} {T : Service (Sem × W) Q R E} : Over debug S T → Bool
  | .base => true
  | .free .. => true
  | .mapRequest _ _ o => o.noShed
  | .mapResponse _ _ o => o.noShed
  | .mapErr _ _ o => o.noShed
  | .mapResult _ _ _ o => o.noShed
  | .andThen _ _ _ _ _ o => o.noShed
  | .thenDo _ _ _ _ _ o => o.noShed
  | .filter _ _ _ o => o.noShed
  | .timeout _ _ _ o => o.noShed
  | .loadShed _ => false
  | .rateLimit _ _ _ o => o.noShed
  | .limit _ _ _ o => o.noShed
  | .either a b => a.noShed && b.noShed
  | .optional o => o.noShed
  | .boxed o => o.noShed

/-! ## Theorems -/

theorem count_filt {α β : Type} (g : α → Option β) (p : β → Bool) (l : List α) : (l.filterMap g).countP p = l.countP (fun a => (g a).any p) := by
  induction l with
  | nil => rfl
  | cons a l ih =>
    rw [List.filterMap_cons, List.countP_cons]
    cases h : g a with
    | none => simp [ih]
    | some b => simp [List.countP_cons, ih]

theorem length_filt {α β : Type} (g : α → Option β) (l : List α) : (l.filterMap g).length = l.countP (fun a => (g a).isSome) := by
  induction l with
  | nil => rfl
  | cons a l ih =>
    rw [List.filterMap_cons, List.countP_cons]
    cases h : g a with
    | none => simp [ih]
    | some b => simp [ih]

/-- **C80 (the limit in the stack).** Whatever users do with the stack, what happens to the limit in it is a history of a `ConcurrencyLimit`: with the same semaphore, and the handles and response futures that exist in the stack. So
C04 - C06 and C73 hold of it. -/
theorem C80_refines {x : OStack T} (h : OverHist o max x) :
    ∃ (y : Lim S) (arr : List Nat), LimHist debug max S y arr ∧ y.sem = x.sem ∧ y.hs.Perm (x.hs.filterMap o.own) ∧ y.fs.Perm (x.fs.filterMap o.fut) ∧ y.next = x.next := by
  obtain ⟨arr, y, h⟩ := h.lims
  exact ⟨y, arr, h⟩

/-- **C80 (bound and conservation).** Free permits, permits assigned to a handle that waits, permits of handles that are ready and calls in flight always add up to `max`; so there are never more than `max` calls in flight. -/
theorem C80_conserved {x : OStack T} (h : OverHist o max x) :
    x.sem.permits + x.sem.granted.length + x.reserved o + x.inFlight o = max ∧ x.inFlight o ≤ max := by
  obtain ⟨arr, h⟩ := h.lims
  have := h.inv.conserved
  simp only [Lim.holders, count_filt, length_filt] at this
  exact ⟨this, by unfold OStack.inFlight; omega⟩

/-- **C80 (nothing leaks).** When no handle and no response future behind the limit is left, all permits are free and nobody waits. -/
theorem C80_all_dropped {x : OStack T} (h : OverHist o max x) (hh : ∀ t ∈ x.hs, o.own t = none) (hf : ∀ f ∈ x.fs, o.fut f = none) : x.sem = Sem.new max := by
  obtain ⟨y, arr, h, h1, h2, h3, -⟩ := C80_refines h
  rw [List.filterMap_eq_nil_iff.2 hh] at h2
  rw [List.filterMap_eq_nil_iff.2 hf] at h3
  rw [← h1]
  exact C05_all_dropped h h2.eq_nil h3.eq_nil

/-- **C80 (calls need a permit).** A call of the stack either does not get to the limit (it was shed, rejected by a filter, or is not behind the limit), and then nothing changes there; or it is one call of the innermost service, made with
the permit the handle had, which from now on belongs to the response future. -/
theorem C80_call {t t' : T.σ} {q : Q} {f : T.φ} {sem sem' : Sem} {w w' : W} (h : (T.call t q).run (sem, w) = .ok (f, t') (sem', w')) :
    sem' = sem ∧
    ((o.fut f = none ∧ o.own t' = o.own t) ∨
     ∃ i n i' q0 f0 w1 w2, o.own t = some ⟨i, n, true⟩ ∧ o.own t' = some ⟨i', n, false⟩ ∧ o.fut f = some f0 ∧ (S.call i q0).run w1 = .ok (f0, i') w2) := by
  rcases o.call_law h with ⟨h1, h2, h3⟩ | ⟨s, s', q0, f0, w1, w2, h1, h2, h3, h4⟩
  · exact ⟨h2, .inl ⟨h3, h1⟩⟩
  · obtain ⟨i, n, b⟩ := s
    cases b with
    | false => cases h4
    | true =>
      obtain ⟨⟨f1, i1⟩, w3, h5, h6⟩ := run_bind_eq_ok.1 h4
      have h7 := snd_eq_ok.1 h5
      have e1 := (Out.ok.inj h6).1
      have e2 := (Out.ok.inj h6).2
      have e3 : f1 = f0 := congrArg Prod.fst e1
      have e4 : (⟨i1, n, false⟩ : ConcState S.σ Nat) = s' := congrArg Prod.snd e1
      subst e3; subst e4
      refine ⟨?_, .inr ⟨i, n, i1, q0, f1, w1, w3.2, h1, h2, h3, h7.1⟩⟩
      have : w3.1 = sem' := congrArg Prod.fst e2
      rw [← this]; exact h7.2

/-- **C80 (readiness means a permit).** Without `load_shed` in the stack, a handle behind the limit that reports `Ready(Ok)` holds a permit. -/
theorem C80_ready (hn : o.noShed = true) {t t' : T.σ} {sem sem' : Sem} {w w' : W} (h : (T.pollReady t).run (sem, w) = .ok (.ready (.ok ()), t') (sem', w')) :
    ∀ s, o.own t' = some s → s.permit = true := by
  have key : ∀ {Q R E : Type} {T : Service (Sem × W) Q R E} (o : Over debug S T), o.noShed = true → ∀ {t t' : T.σ} {x y : Sem × W}, (T.pollReady t).run x = .ok (.ready (.ok ()), t') y →
      ∀ s, o.own t' = some s → s.permit = true := by
    intro Q R E T o
    induction o with
    | base =>
      intro _ t t' x y h s hs
      cases hs
      exact C04_ready_has_permit (S := S) (x := ⟨x.1, [], [], 0⟩) (w := x.2) (sem' := y.1) (w' := y.2) (res := .ok ()) h
    | free => intro _ t t' x y h s hs; cases hs
    | mapRequest f h o ih => intro hn t t' x y h; exact ih hn h
    | mapResponse f h o ih => intro hn t t' x y h; exact ih hn h
    | mapErr f hf o ih =>
      intro hn t t' x y h
      obtain ⟨⟨q, t1⟩, w1, h1, h2⟩ := run_bind_eq_ok.1 h
      match q, h1, h2 with
      | .pending, h1, h2 => exact absurd (congrArg Prod.fst (Out.ok.inj h2).1) (by simp)
      | .ready (.ok ()), h1, h2 => cases h2; exact ih hn h1
      | .ready (.error e), h1, h2 =>
        obtain ⟨e', w2, h3, h4⟩ := run_bind_eq_ok.1 h2
        exact absurd (congrArg Prod.fst (Out.ok.inj h4).1) (by simp)
    | mapResult into f hf o ih =>
      intro hn t t' x y h
      obtain ⟨⟨q, t1⟩, w1, h1, h2⟩ := run_bind_eq_ok.1 h
      match q, h1, h2 with
      | .pending, h1, h2 => exact absurd (congrArg Prod.fst (Out.ok.inj h2).1) (by simp [Poll.map])
      | .ready (.ok ()), h1, h2 => cases h2; exact ih hn h1
      | .ready (.error e), h1, h2 => exact absurd (congrArg Prod.fst (Out.ok.inj h2).1) (by simp [Poll.map, Tower.mapErr])
    | andThen into G f hf hg o ih =>
      intro hn t t' x y h
      obtain ⟨⟨q, t1⟩, w1, h1, h2⟩ := run_bind_eq_ok.1 h
      match q, h1, h2 with
      | .pending, h1, h2 => exact absurd (congrArg Prod.fst (Out.ok.inj h2).1) (by simp [Poll.map])
      | .ready (.ok ()), h1, h2 => cases h2; exact ih hn h1
      | .ready (.error e), h1, h2 => exact absurd (congrArg Prod.fst (Out.ok.inj h2).1) (by simp [Poll.map, Tower.mapErr])
    | thenDo into G f hf hg o ih =>
      intro hn t t' x y h
      obtain ⟨⟨q, t1⟩, w1, h1, h2⟩ := run_bind_eq_ok.1 h
      match q, h1, h2 with
      | .pending, h1, h2 => exact absurd (congrArg Prod.fst (Out.ok.inj h2).1) (by simp [Poll.map])
      | .ready (.ok ()), h1, h2 => cases h2; exact ih hn h1
      | .ready (.error e), h1, h2 => exact absurd (congrArg Prod.fst (Out.ok.inj h2).1) (by simp [Poll.map, Tower.mapErr])
    | filter into check hc o ih =>
      intro hn t t' x y h
      obtain ⟨⟨q, t1⟩, w1, h1, h2⟩ := run_bind_eq_ok.1 h
      match q, h1, h2 with
      | .pending, h1, h2 => exact absurd (congrArg Prod.fst (Out.ok.inj h2).1) (by simp [Poll.map])
      | .ready (.ok ()), h1, h2 => cases h2; exact ih hn h1
      | .ready (.error e), h1, h2 => exact absurd (congrArg Prod.fst (Out.ok.inj h2).1) (by simp [Poll.map, Tower.mapErr])
    | timeout C d hC o ih =>
      intro hn t t' x y h
      obtain ⟨⟨q, t1⟩, w1, h1, h2⟩ := run_bind_eq_ok.1 h
      match q, h1, h2 with
      | .pending, h1, h2 => exact absurd (congrArg Prod.fst (Out.ok.inj h2).1) (by simp [Poll.map])
      | .ready (.ok ()), h1, h2 => cases h2; exact ih hn h1
      | .ready (.error e), h1, h2 => exact absurd (congrArg Prod.fst (Out.ok.inj h2).1) (by simp [Poll.map, Tower.mapErr])
    | loadShed o ih => intro hn; cases hn
    | rateLimit C r hC o ih =>
      intro hn t t' x y h
      obtain ⟨inner, st, sleep⟩ := t
      cases st with
      | ready u m =>
        obtain ⟨⟨q, t1⟩, w1, h1, h2⟩ := run_bind_eq_ok.1 h
        cases h2; exact ih hn h1
      | limited =>
        obtain ⟨w0, _, h0, h⟩ := run_bind_eq_ok.1 h
        cases h0
        split at h
        · obtain ⟨w0, _, h0, h⟩ := run_bind_eq_ok.1 h
          cases h0
          obtain ⟨⟨q, t1⟩, w1, h1, h2⟩ := run_bind_eq_ok.1 h
          cases h2; exact ih hn h1
        · obtain ⟨_, w2, h3, h4⟩ := run_bind_eq_ok.1 h
          exact absurd (congrArg Prod.fst (Out.ok.inj h4).1) (by simp)
    | limit dbg V hV o ih =>
      intro hn t t' x y h
      obtain ⟨inner, a, permit⟩ := t
      cases permit with
      | true =>
        obtain ⟨⟨q, t1⟩, w1, h1, h2⟩ := run_bind_eq_ok.1 h
        cases h2; exact ih hn h1
      | false =>
        obtain ⟨⟨q, a'⟩, w0, h0, h⟩ := run_bind_eq_ok.1 h
        match q, h with
        | .pending, h => exact absurd (congrArg Prod.fst (Out.ok.inj h).1) (by simp)
        | .ready got, h =>
          dsimp only at h
          split at h
          · cases h
          · obtain ⟨⟨q, t1⟩, w1, h1, h2⟩ := run_bind_eq_ok.1 h
            cases h2; exact ih hn h1
    | either a b iha ihb =>
      intro hn t t' x y h
      rw [Over.noShed, Bool.and_eq_true] at hn
      cases t with
      | inl t =>
        obtain ⟨⟨q, t1⟩, w1, h1, h2⟩ := run_bind_eq_ok.1 h
        cases h2; exact iha hn.1 h1
      | inr t =>
        obtain ⟨⟨q, t1⟩, w1, h1, h2⟩ := run_bind_eq_ok.1 h
        cases h2; exact ihb hn.2 h1
    | optional o ih =>
      intro hn t t' x y h
      cases t with
      | none => cases h; intro s hs; cases hs
      | some t =>
        obtain ⟨⟨q, t1⟩, w1, h1, h2⟩ := run_bind_eq_ok.1 h
        match q, h1, h2 with
        | .pending, h1, h2 => exact absurd (congrArg Prod.fst (Out.ok.inj h2).1) (by simp [Poll.map])
        | .ready (.ok ()), h1, h2 => cases h2; exact ih hn h1
        | .ready (.error e), h1, h2 => exact absurd (congrArg Prod.fst (Out.ok.inj h2).1) (by simp [Poll.map, Tower.mapErr])
    | boxed o ih =>
      intro hn t t' x y h
      obtain ⟨⟨q, t1⟩, w1, h1, h2⟩ := run_bind_eq_ok.1 h
      cases h2; exact ih hn h1
  exact key o hn h

theorem mapFut_frees {φ A B : Type} {poll : φ → Act (Sem × W) (Poll A × φ)} {g : A → Act (Sem × W) B} {f f' : Option φ} {p} {x y : Sem × W} (h : (mapFut poll g f).run x = .ok (.ready p, f') y) : f' = none := by
  cases f with
  | none => cases h
  | some f =>
    obtain ⟨⟨q, f1⟩, w1, h1, h2⟩ := run_bind_eq_ok.1 h
    cases q with
    | pending => exact absurd (congrArg Prod.fst (Out.ok.inj h2).1) (by simp)
    | ready a =>
      obtain ⟨b, w2, h3, h4⟩ := run_bind_eq_ok.1 h2
      cases h4; rfl

theorem pollSecond_fut {A Out : Type} {G : Fut (Sem × W) Out} {g : G.φ} {p} {f' : TwoStage A G.φ} {x y : Sem × W} (h : (pollSecond G g).run x = .ok (p, f') y) : ∀ a, f' ≠ .first a := by
  obtain ⟨⟨q, f1⟩, w1, h1, h2⟩ := run_bind_eq_ok.1 h
  cases q with
  | pending => cases h2; exact fun a ha => by cases ha
  | ready a => cases h2; exact fun a ha => by cases ha

/-- **C80 (slots freed by a result).** With `map_response`, `map_err`, `map_result`, `then`, `and_then` or `filter` outermost, a response future that has yielded its result has dropped the limit's one: the slot is free before the future is dropped. -/
theorem C80_map_frees {Q' R' E' : Type} (o : Over debug S T) {x y : Sem × W} :
    (∀ (g : R → Sem × W → R' × (Sem × W)) (hg : FnKeepsSem g) f f' p, ((MapResponse g T).poll f).run x = .ok (.ready p, f') y → (Over.mapResponse g hg o).fut f' = none) ∧
    (∀ (g : E → Sem × W → E' × (Sem × W)) (hg : FnKeepsSem g) f f' p, ((MapErr g T).poll f).run x = .ok (.ready p, f') y → (Over.mapErr g hg o).fut f' = none) ∧
    (∀ into (g : Except E R → Sem × W → Except E' R' × (Sem × W)) (hg : FnKeepsSem g) f f' p, ((MapResult into g T).poll f).run x = .ok (.ready p, f') y → (Over.mapResult into g hg o).fut f' = none) ∧
    (∀ into (G : Fut (Sem × W) (Except E' R')) g hg hG f f' p, ((Then into T G g).poll f).run x = .ok (.ready p, f') y → (Over.thenDo into G g hg hG o).fut f' = none) ∧
    (∀ into (G : Fut (Sem × W) (Except E' R')) g hg hG f f' p, ((AndThen into T G g).poll f).run x = .ok (.ready p, f') y → (Over.andThen into G g hg hG o).fut f' = none) ∧
    (∀ (into : E → E') (check : Q' → Sem × W → Except E' Q × (Sem × W)) (hc : FnKeepsSem check) f f' p, ((Filter into check T).poll f).run x = .ok (.ready p, f') y → (Over.filter into check hc o).fut f' = none) := by
  refine ⟨?_, ?_, ?_, ?_, ?_, ?_⟩
  · intro g hg f f' p h; rw [mapFut_frees h]; rfl
  · intro g hg f f' p h; rw [mapFut_frees h]; rfl
  · intro into g hg f f' p h; rw [mapFut_frees h]; rfl
  · intro into G g hg hG f f' p h
    match f, h with
    | .first f, h =>
      obtain ⟨⟨q, f1⟩, w1, h1, h2⟩ := run_bind_eq_ok.1 h
      match q, h2 with
      | .pending, h2 => exact absurd (congrArg Prod.fst (Out.ok.inj h2).1) (by simp)
      | .ready v, h2 =>
        obtain ⟨g0, w2, h3, h4⟩ := run_bind_eq_ok.1 h2
        have h6 := pollSecond_fut h4
        cases f' with
        | first a => exact absurd rfl (h6 a)
        | second a => rfl
        | done => rfl
    | .second f, h =>
      have h6 := pollSecond_fut h
      cases f' with
      | first a => exact absurd rfl (h6 a)
      | second a => rfl
      | done => rfl
    | .done, h => cases h
  · intro into G g hg hG f f' p h
    match f, h with
    | .first f, h =>
      obtain ⟨⟨q, f1⟩, w1, h1, h2⟩ := run_bind_eq_ok.1 h
      match q, h2 with
      | .pending, h2 => exact absurd (congrArg Prod.fst (Out.ok.inj h2).1) (by simp)
      | .ready (.error e), h2 => cases h2; rfl
      | .ready (.ok v), h2 =>
        obtain ⟨g0, w2, h3, h4⟩ := run_bind_eq_ok.1 h2
        have h6 := pollSecond_fut h4
        cases f' with
        | first a => exact absurd rfl (h6 a)
        | second a => rfl
        | done => rfl
    | .second f, h =>
      have h6 := pollSecond_fut h
      cases f' with
      | first a => exact absurd rfl (h6 a)
      | second a => rfl
      | done => rfl
    | .done, h => cases h
  · intro into check hc f f' p h
    match f, h with
    | .inl (some e), h => cases h; rfl
    | .inl none, h => cases h
    | .inr f, h =>
      obtain ⟨⟨q, f1⟩, w1, h1, h2⟩ := run_bind_eq_ok.1 h
      have e1 := (Out.ok.inj h2).1
      have e2 : q = .ready p := congrArg Prod.fst e1
      have e3 : Sum.inr f1 = f' := congrArg Prod.snd e1
      subst e2; subst e3
      rw [mapFut_frees h1]; rfl

/-- **C80 (slots held by a result).** Directly over the limit, `timeout` does not do that: also after it has yielded its result, or `Elapsed`, the response future holds its slot until it is dropped. -/
theorem C80_timeout_holds (C : Clock (Sem × W)) (d : Nat) (hC : ∀ d x, (C.arm d x).1 = x.1) (f : (Timeout C d (LimSvc debug S)).φ) :
    ((Over.base : Over debug S (LimSvc debug S)).timeout C d hC).fut f ≠ none := by
  intro h; cases h

namespace Demo80

/-- echoes requests; the response is ready in odd worlds (a world is a time) -/
def echo : Service Nat Nat Nat String where
  σ := Unit
  φ := Nat
  pollReady _ := pure (.ready (.ok ()), ())
  call _ r := pure (r, ())
  poll r := ⟨fun w => .ok (if w % 2 = 0 then .pending else .ready (.ok r), r) w⟩
  clone := id

def clock : Clock (Sem × Nat) := ⟨fun x => x.2, fun d x => decide (d ≤ x.2), fun d x h => by simpa using h, fun _ x => x⟩

/-- `ServiceBuilder::new().map_response(|r| r + 1).timeout(5).concurrency_limit(1)` -/
abbrev Tm : Service (Sem × Nat) Nat Nat (TimeoutErr String) := MapResponse (fun r w => (r + 1, w)) (Timeout clock 5 (LimSvc true echo))
def ov : Over true echo Tm := .mapResponse _ (fun _ _ => rfl) (.timeout clock 5 (fun _ _ => rfl) .base)

def x0 : OStack Tm := ⟨⟨1, [], []⟩, [(⟨(), 0, false⟩ : ConcState Unit Nat)], [], 1⟩
def x1 : OStack Tm := ⟨⟨0, [], []⟩, [(⟨(), 0, true⟩ : ConcState Unit Nat)], [], 1⟩
def x2 : OStack Tm := ⟨⟨0, [], []⟩, [(⟨(), 0, false⟩ : ConcState Unit Nat)], [some ((7 : Nat), (5 : Nat))], 1⟩
def x3 : OStack Tm := ⟨⟨0, [], []⟩, [(⟨(), 0, false⟩ : ConcState Unit Nat), (⟨(), 1, false⟩ : ConcState Unit Nat)], [some ((7 : Nat), (5 : Nat))], 2⟩
/-- the clone waits -/
def x4 : OStack Tm := ⟨⟨0, [1], []⟩, [(⟨(), 0, false⟩ : ConcState Unit Nat), (⟨(), 1, false⟩ : ConcState Unit Nat)], [some ((7 : Nat), (5 : Nat))], 2⟩
/-- the response came: the clone has been assigned the permit, though the future was not dropped -/
def x5 : OStack Tm := ⟨⟨0, [], [1]⟩, [(⟨(), 0, false⟩ : ConcState Unit Nat), (⟨(), 1, false⟩ : ConcState Unit Nat)], [none], 2⟩
/-- the clone is ready -/
def x6 : OStack Tm := ⟨⟨0, [], []⟩, [(⟨(), 0, false⟩ : ConcState Unit Nat), (⟨(), 1, true⟩ : ConcState Unit Nat)], [none], 2⟩

theorem h0 : OverHist ov 1 x0 := .new (o := ov) (max := 1) (⟨(), 0, false⟩ : ConcState Unit Nat) () rfl
theorem h1 : OverHist ov 1 x1 := .step h0 (.ready (x := x0) (l := []) (r := []) (t' := (⟨(), 0, true⟩ : ConcState Unit Nat)) (p := .ready (.ok ())) (w := 0) (w' := 0) rfl rfl)
theorem h2 : OverHist ov 1 x2 :=
  .step h1 (.call (x := x1) (l := []) (r := []) (t' := (⟨(), 0, false⟩ : ConcState Unit Nat)) (f := some ((7 : Nat), (5 : Nat))) (q := 7) (w := 0) (w' := 0) rfl rfl)
theorem h3 : OverHist ov 1 x3 := .step h2 (.clone (x := x2) (t := (⟨(), 0, false⟩ : ConcState Unit Nat)) rfl (List.mem_cons_self))
theorem h4 : OverHist ov 1 x4 :=
  .step h3 (.ready (x := x3) (l := [(⟨(), 0, false⟩ : ConcState Unit Nat)]) (r := []) (t' := (⟨(), 1, false⟩ : ConcState Unit Nat)) (p := .pending) (w := 2) (w' := 2) rfl rfl)
theorem h5 : OverHist ov 1 x5 := .step h4 (.poll (x := x4) (l := []) (r := []) (f := some ((7 : Nat), (5 : Nat))) (f' := none) (p := .ready (.ok 8)) (w := 3) (w' := 3) rfl rfl)
theorem h6 : OverHist ov 1 x6 :=
  .step h5 (.ready (x := x5) (l := [(⟨(), 0, false⟩ : ConcState Unit Nat)]) (r := []) (t' := (⟨(), 1, true⟩ : ConcState Unit Nat)) (p := .ready (.ok ())) (w := 4) (w' := 4) rfl rfl)

/-- one call in flight; then none, one permit reserved -/
example : x4.inFlight ov = 1 ∧ x4.reserved ov = 0 ∧ x6.inFlight ov = 0 ∧ x6.reserved ov = 1 := ⟨rfl, rfl, rfl, rfl⟩
example : x6.sem.permits + x6.sem.granted.length + x6.reserved ov + x6.inFlight ov = 1 := (C80_conserved h6).1

/-- the ready clone has its permit, and its call takes it -/
example : ∀ s, ov.own (⟨(), 1, true⟩ : ConcState Unit Nat) = some s → s.permit = true :=
  C80_ready (o := ov) (t := (⟨(), 1, false⟩ : ConcState Unit Nat)) (sem := ⟨0, [], [1]⟩) (sem' := ⟨0, [], []⟩) (w := 4) (w' := 4) rfl rfl
example : ov.fut (some ((3 : Nat), (9 : Nat))) = none ∧ ov.own (⟨(), 1, false⟩ : ConcState Unit Nat) = ov.own (⟨(), 1, true⟩ : ConcState Unit Nat) ∨
    ∃ i n i' q0 f0 w1 w2, ov.own (⟨(), 1, true⟩ : ConcState Unit Nat) = some ⟨i, n, true⟩ ∧ ov.own (⟨(), 1, false⟩ : ConcState Unit Nat) = some ⟨i', n, false⟩ ∧
      ov.fut (some ((3 : Nat), (9 : Nat))) = some f0 ∧ (echo.call i q0).run w1 = .ok (f0, i') w2 :=
  (C80_call (o := ov) (T := Tm) (t := (⟨(), 1, true⟩ : ConcState Unit Nat)) (t' := (⟨(), 1, false⟩ : ConcState Unit Nat)) (f := some ((3 : Nat), (9 : Nat))) (q := 3)
    (sem := ⟨0, [], []⟩) (sem' := ⟨0, [], []⟩) (w := 4) (w' := 4) rfl).2

/-- everything dropped -/
def x7 : OStack Tm := ⟨⟨0, [], []⟩, [(⟨(), 1, true⟩ : ConcState Unit Nat)], [none], 2⟩
def x8 : OStack Tm := ⟨⟨1, [], []⟩, [], [none], 2⟩
def x9 : OStack Tm := ⟨⟨1, [], []⟩, [], [], 2⟩
theorem h7 : OverHist ov 1 x7 := .step h6 (.drop_handle (x := x6) (l := []) rfl)
theorem h8 : OverHist ov 1 x8 := .step h7 (.drop_handle (x := x7) (l := []) (r := []) rfl)
theorem h9 : OverHist ov 1 x9 := .step h8 (.drop_future (x := x8) (l := []) (r := []) rfl)
example : x9.sem = Sem.new 1 := C80_all_dropped h9 (by simp [x9]) (by simp [x9])
/-- all permits are free before the finished response future is dropped -/
example : x8.sem = Sem.new 1 := C80_all_dropped h8 (by simp [x8]) (by intro f hf; rw [List.mem_singleton.1 hf]; rfl)

end Demo80

end Tower
