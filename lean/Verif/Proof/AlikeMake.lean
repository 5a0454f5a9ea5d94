import Verif.Proof.AlikeMw

/-! # Services that are made later: bisimulations of `Reconnect` and `FutureService` -/

namespace Tower
open Act
variable {W : Type}

/-- results of polling a future that makes a service -/
def MadeRel {σ τ φ ψ A : Type} (rf : φ → ψ → Prop) (rs : σ → τ → Prop) (a : Poll (Except A σ) × φ) (b : Poll (Except A τ) × ψ) : Prop :=
  match a.1, b.1 with
  | .pending, .pending => rf a.2 b.2
  | .ready (.ok s), .ready (.ok t) => rs s t
  | .ready (.error e), .ready (.error e') => e = e'
  | _, _ => False

/-! ## Services made later: `Reconnect` and `FutureService` -/

/-- a maker and the same maker with the services it makes exchanged -/
structure MakerAlike {Tgt E1 σ τ : Type} (M : Service W Tgt σ E1) (N : Service W Tgt τ E1) (rm : Bool → M.σ → N.σ → Prop) (rg : M.φ → N.φ → Prop) (rs : σ → τ → Prop) : Prop where
  ready : ∀ m n, rm false m n → Rel (ReadyRel rm) (M.pollReady m) (N.pollReady n)
  call : ∀ m n r, rm true m n → Rel (fun a b => rg a.1 b.1 ∧ rm false a.2 b.2) (M.call m r) (N.call n r)
  poll : ∀ f g, rg f g → Rel (MadeRel rg rs) (M.poll f) (N.poll g)

theorem Alike.makes {Tgt E1 σ : Type} {M N : Service W Tgt σ E1} {rm : Bool → M.σ → N.σ → Prop} {rg : M.φ → N.φ → Prop} (A : Alike M N rm rg) : MakerAlike M N rm rg Eq where
  ready m n h := A.ready _ m n h
  call m n r h := A.call m n r h
  poll f g h := by
    refine Rel.mono (A.poll f g h) ?_
    rintro ⟨p, f'⟩ ⟨q, g'⟩ ⟨h1, h2⟩
    dsimp only at h1 h2; subst h1
    match p, h2 with
    | .pending, h2 => exact h2 rfl
    | .ready (.ok s), _ => exact rfl
    | .ready (.error e), _ => exact rfl

theorem rel_made {σ τ φ A : Type} (poll : φ → Act W (Poll (Except A σ) × φ)) (m : σ → τ) (rs : σ → τ → Prop) (hm : ∀ s, rs s (m s)) (f : φ) :
    Rel (MadeRel (fun x y => y = some x) rs) (poll f) (mapFut poll (fun res => match res with
      | .ok r => do
        let r' ← Act.lift (fun w : W => (m r, w))
        pure (.ok r')
      | .error e => pure (.error e)) (some f)) := by
  intro w
  simp only [mapFut, run_bind]
  cases hx : (poll f).run w with
  | ok a w1 =>
    obtain ⟨p, f'⟩ := a
    match p with
    | .pending => exact ⟨rfl, rfl⟩
    | .ready (.ok s) => exact ⟨hm s, rfl⟩
    | .ready (.error e) => exact ⟨rfl, rfl⟩
  | panic s => exact rfl
  | spin => trivial

theorem makes_mapResponse {Tgt E1 σ τ : Type} (M : Service W Tgt σ E1) (m : σ → τ) (rs : σ → τ → Prop) (hm : ∀ s, rs s (m s)) :
    MakerAlike M (MapResponse (fun s w => (m s, w)) M) (fun _ => Eq) (fun x y => y = some x) rs where
  ready s t h := by subst h; exact Rel.refl' fun a => ⟨rfl, fun _ => rfl, fun _ => rfl⟩
  call s t r h := by
    subst h
    intro w
    simp only [MapResponse, run_bind]
    cases (M.call s r).run w with
    | ok a w1 => exact ⟨⟨rfl, rfl⟩, rfl⟩
    | panic s => exact rfl
    | spin => trivial
  poll f g h := by subst h; exact rel_made M.poll m rs hm f

def ReconStRel {F G σ τ : Type} (rg : F → G → Prop) (rs : Bool → σ → τ → Prop) (b : Bool) : ReconSt F σ → ReconSt G τ → Prop
  | .idle, .idle => True
  | .connecting f, .connecting g => rg f g
  | .connected s, .connected t => Lax rs b s t
  | _, _ => False

def ReconRel {M N F G σ τ E : Type} (rm : Bool → M → N → Prop) (rg : F → G → Prop) (rs : Bool → σ → τ → Prop) (b : Bool) (x : ReconState M F σ E) (y : ReconState N G τ E) : Prop :=
  x.error = y.error ∧ rm false x.maker y.maker ∧ ReconStRel rg rs b x.st y.st

section
variable {Tgt Q R E1 E2 : Type} {S T : Service W Q R E2} {rs : Bool → S.σ → T.σ → Prop} {rf : S.φ → T.φ → Prop}
  {M : Service W Tgt S.σ E1} {N : Service W Tgt T.σ E1} {rm : Bool → M.σ → N.σ → Prop} {rg : M.φ → N.φ → Prop}

theorem Alike.reconPoll (A : Alike S T rs rf) (B : MakerAlike M N rm rg (rs false)) (t : Tgt) (fuel : Nat) : ∀ (b : Bool) (x : ReconState M.σ M.φ S.σ E1) (y : ReconState N.σ N.φ T.σ E1),
    ReconRel rm rg rs b x y → Rel (ReadyRel (ReconRel rm rg rs)) (reconPoll S M t fuel x) (reconPoll T N t fuel y) := by
  induction fuel with
  | zero => intros; exact Rel.spin
  | succ n ih =>
    rintro b ⟨mk, st, er⟩ ⟨mk', st', er'⟩ ⟨h1, h2, h3⟩
    dsimp only at h1 h2 h3; subst h1
    match st, st', h3 with
    | .idle, .idle, _ =>
      simp only [Tower.reconPoll]
      refine Rel.bind (B.ready mk mk' h2) ?_
      rintro ⟨p, m⟩ ⟨q, m'⟩ ⟨e, k1, k2⟩
      dsimp only at e k1 k2; subst e
      match p, k1, k2 with
      | .pending, _, k2 => exact Rel.pure ⟨rfl, (by intro h; cases h), fun _ => ⟨rfl, k2 rfl, trivial⟩⟩
      | .ready (.error e), _, _ => exact Rel.pure ⟨rfl, (by intro h; cases h), by intro h; cases h⟩
      | .ready (.ok ()), k1, _ =>
        refine Rel.bind (B.call m m' t (k1 rfl)) ?_
        rintro ⟨f, m1⟩ ⟨g, m2⟩ ⟨k3, k4⟩
        exact ih false _ _ ⟨rfl, k4, k3⟩
    | .connecting f, .connecting g, h3 =>
      simp only [Tower.reconPoll]
      refine Rel.bind (B.poll f g h3) ?_
      rintro ⟨p, f'⟩ ⟨q, g'⟩ hab
      match p, q, hab with
      | .pending, .pending, hab => exact Rel.pure ⟨rfl, (by intro h; cases h), fun _ => ⟨rfl, h2, hab⟩⟩
      | .ready (.ok s), .ready (.ok s'), hab => exact ih false _ _ ⟨rfl, h2, Or.inr ⟨rfl, hab⟩⟩
      | .ready (.error e), .ready (.error e'), hab =>
        have hab : e = e' := hab
        subst hab
        exact Rel.pure ⟨rfl, (fun _ => ⟨rfl, h2, trivial⟩), by intro h; cases h⟩
    | .connected s, .connected s', h3 =>
      obtain ⟨b', h3⟩ := Lax.some h3
      simp only [Tower.reconPoll]
      refine Rel.bind (A.ready b' s s' h3) ?_
      rintro ⟨p, s1⟩ ⟨q, s2⟩ ⟨e, k1, k2⟩
      dsimp only at e k1 k2; subst e
      match p, k1, k2 with
      | .pending, _, k2 => exact Rel.pure ⟨rfl, (by intro h; cases h), fun _ => ⟨rfl, h2, Or.inr ⟨rfl, k2 rfl⟩⟩⟩
      | .ready (.error e), _, _ => exact ih false _ _ ⟨rfl, h2, trivial⟩
      | .ready (.ok ()), k1, _ => exact Rel.pure ⟨rfl, (fun _ => ⟨rfl, h2, Or.inl (k1 rfl)⟩), by intro h; cases h⟩

def ReconFutRel {φ ψ E : Type} (rf : φ → ψ → Prop) : φ ⊕ Option E → ψ ⊕ Option E → Prop := SumRel rf Eq

theorem Alike.reconnect (A : Alike S T rs rf) (B : MakerAlike M N rm rg (rs false)) (t : Tgt) (fuel : Nat) :
    Alike (Reconnect fuel S M t) (Reconnect fuel T N t) (ReconRel rm rg rs) (ReconFutRel rf) where
  ready b x y h := A.reconPoll B t fuel b x y h
  call := by
    rintro ⟨mk, st, er⟩ ⟨mk', st', er'⟩ r ⟨h1, h2, h3⟩
    dsimp only at h1 h2 h3; subst h1
    cases er with
    | some e =>
      refine Rel.pure ⟨rfl, rfl, h2, ?_⟩
      match st, st', h3 with
      | .idle, .idle, _ => trivial
      | .connecting f, .connecting g, h3 => exact h3
      | .connected s, .connected s', h3 => exact Lax.ff h3
    | none =>
      match st, st', h3 with
      | .idle, .idle, _ => exact Rel.panic
      | .connecting f, .connecting g, h3 => exact Rel.panic
      | .connected s, .connected s', h3 =>
        exact Rel.bind (A.call s s' r (Lax.tt h3)) fun _ _ hab => Rel.pure ⟨hab.1, rfl, h2, Or.inr ⟨rfl, hab.2⟩⟩
  poll x y h := by
    match x, y, h with
    | .inl x, .inl y, h => exact Rel.bind (A.poll x y h) fun _ _ hab => Rel.pure (PollRel.map (rf' := ReconFutRel rf) _ hab fun h => h)
    | .inr (some e), .inr _, rfl => exact Rel.pure ⟨rfl, by intro h; cases h⟩
    | .inr none, .inr _, rfl => exact Rel.panic
  clone b x y h := by
    refine ⟨h.1, h.2.1, ?_⟩
    obtain ⟨_, _, h3⟩ := h
    revert h3
    obtain ⟨_, st, _⟩ := x
    obtain ⟨_, st', _⟩ := y
    intro h3
    match st, st', h3 with
    | .idle, .idle, _ => trivial
    | .connecting f, .connecting g, h3 => exact h3
    | .connected s, .connected s', h3 => exact Lax.ff h3

def FsRel {F G σ τ : Type} (rg : F → G → Prop) (rs : Bool → σ → τ → Prop) (b : Bool) : FsState F σ → FsState G τ → Prop
  | .future f, .future g => b = false ∧ rg f g
  | .service s, .service t => rs b s t
  | _, _ => False

theorem Alike.futureService (A : Alike S T rs rf) (F : Fut W (Except E2 S.σ)) (G : Fut W (Except E2 T.σ)) {rg : F.φ → G.φ → Prop} (B : ∀ f g, rg f g → Rel (MadeRel rg (rs false)) (F.poll f) (G.poll g))
    (cF : F.φ → F.φ) (cG : G.φ → G.φ) (hc : ∀ f g, rg f g → rg (cF f) (cG g)) :
    Alike (FutureService S F cF) (FutureService T G cG) (FsRel rg rs) rf where
  ready b x y h := by
    match x, y, h with
    | .future f, .future g, ⟨_, h⟩ =>
      refine Rel.bind (B f g h) ?_
      rintro ⟨p, f'⟩ ⟨q, g'⟩ hab
      match p, q, hab with
      | .pending, .pending, hab => exact Rel.pure ⟨rfl, (by intro h; cases h), fun _ => ⟨rfl, hab⟩⟩
      | .ready (.ok s), .ready (.ok s'), hab =>
        exact Rel.bind (A.ready false s s' hab) fun _ _ hab => Rel.pure (ReadyRel.imp (rs' := FsRel rg rs) hab fun _ h => h)
      | .ready (.error e), .ready (.error e'), hab =>
        have hab : e = e' := hab
        subst hab
        exact Rel.pure ⟨rfl, (by intro h; cases h), by intro h; cases h⟩
    | .service s, .service s', h => exact Rel.bind (A.ready b s s' h) fun _ _ hab => Rel.pure (ReadyRel.imp (rs' := FsRel rg rs) hab fun _ h => h)
  call x y r h := by
    match x, y, h with
    | .service s, .service s', h => exact Rel.bind (A.call s s' r h) fun _ _ hab => Rel.pure ⟨hab.1, hab.2⟩
  poll x y h := A.poll x y h
  clone b x y h := by
    match x, y, h with
    | .future f, .future g, ⟨_, h⟩ => exact ⟨rfl, hc f g h⟩
    | .service s, .service s', h => exact A.clone b s s' h

end

/-! ## `Steer` -/

/-- two `Steer`s correspond: the same services are queued, those that are not queued are ready -/
def SteerRel {σ τ : Type} (rs : Bool → σ → τ → Prop) (x : SteerState σ) (y : SteerState τ) : Prop :=
  x.notReady = y.notReady ∧ x.services.length = y.services.length ∧
  ∀ (i : Nat) s t, x.services[i]? = some s → y.services[i]? = some t → (i ∉ x.notReady → rs true s t) ∧ ∃ b, rs b s t

section
variable {Q R E : Type} {S T : Service W Q R E} {rs : Bool → S.σ → T.σ → Prop} {rf : S.φ → T.φ → Prop}

theorem SteerRel.set {σ τ : Type} {rs : Bool → σ → τ → Prop} {l : List σ} {l' : List τ} {n n' : List Nat} (h : SteerRel rs ⟨l, n⟩ ⟨l', n⟩) (i : Nat) {s : σ} {t : τ} {b : Bool} (hst : rs b s t)
    (hb : i ∉ n' → b = true) (hn : ∀ j, j ∉ n' → j = i ∨ j ∉ n) : SteerRel rs ⟨l.set i s, n'⟩ ⟨l'.set i t, n'⟩ := by
  refine ⟨rfl, by simpa using h.2.1, ?_⟩
  intro j u v h1 h2
  dsimp only at h1 h2
  rw [List.getElem?_set] at h1 h2
  by_cases hij : i = j
  · subst hij
    have hl : l.length = l'.length := h.2.1
    simp only [if_true] at h1 h2
    split at h1
    · rename_i hlt
      rw [if_pos (hl ▸ hlt)] at h2
      cases h1; cases h2
      exact ⟨fun hj => hb hj ▸ hst, b, hst⟩
    · cases h1
  · rw [if_neg hij] at h1 h2
    obtain ⟨h3, h4⟩ := h.2.2 j u v h1 h2
    refine ⟨fun hj => ?_, h4⟩
    rcases hn j hj with rfl | hj
    · exact absurd rfl hij
    · exact h3 hj

theorem Alike.steerPoll (A : Alike S T rs rf) (n : List Nat) : ∀ (l : List S.σ) (l' : List T.σ), SteerRel rs ⟨l, n⟩ ⟨l', n⟩ →
    Rel (ReadyRel fun _ => SteerRel rs) (steerPoll S l n) (steerPoll T l' n) := by
  induction n with
  | nil => intro l l' h; exact Rel.pure ⟨rfl, fun _ => h, fun _ => h⟩
  | cons i rest ih =>
    intro l l' h
    have hl : l.length = l'.length := h.2.1
    simp only [Tower.steerPoll]
    cases hs : l[i]? with
    | none =>
      rw [show l'[i]? = none by rw [List.getElem?_eq_none_iff] at hs ⊢; omega]
      exact Rel.panic
    | some s =>
      obtain ⟨t, ht⟩ : ∃ t, l'[i]? = some t := by
        have := (List.getElem?_eq_some_iff.1 hs).1
        exact ⟨l'[i]'(by omega), List.getElem?_eq_getElem _⟩
      rw [ht]
      obtain ⟨_, b, hst⟩ := h.2.2 i s t hs ht
      refine Rel.bind (A.ready b s t hst) ?_
      rintro ⟨p, s1⟩ ⟨q, t1⟩ ⟨e, k1, k2⟩
      dsimp only at e k1 k2; subst e
      match p, k1, k2 with
      | .pending, _, k2 =>
        exact Rel.pure ⟨rfl, (by intro h; cases h), fun _ => h.set i (k2 rfl) (fun hi => absurd List.mem_cons_self hi) fun j hj => Or.inr hj⟩
      | .ready (.error e), _, _ => exact Rel.pure ⟨rfl, (by intro h; cases h), by intro h; cases h⟩
      | .ready (.ok ()), k1, _ =>
        refine ih _ _ (h.set i (k1 rfl) (fun _ => rfl) fun j hj => ?_)
        by_cases hji : j = i
        · exact Or.inl hji
        · exact Or.inr (by simp [hji, hj])

/-- A `Steer` whose picker looks only at the request, the number of services and the world; the services are not cloned (a clone of a `Steer` breaks the contract, C03). -/
theorem Alike.steer (A : Alike S T rs rf) (hS : ∀ s, S.clone s = s) (hT : ∀ t, T.clone t = t) (pick : Q → Nat → W → Nat × W) :
    Alike (Steer S fun r l => pick r l.length) (Steer T fun r l => pick r l.length) (fun _ => SteerRel rs) rf where
  ready b x y h := by
    obtain ⟨l, n⟩ := x
    obtain ⟨l', n'⟩ := y
    obtain rfl : n = n' := h.1
    exact A.steerPoll n l l' h
  call x y r h := by
    obtain ⟨l, n⟩ := x
    obtain ⟨l', n'⟩ := y
    obtain rfl : n = n' := h.1
    have hl : l.length = l'.length := h.2.1
    cases n with
    | cons i rest => exact Rel.panic
    | nil =>
      simp only [Steer, List.isEmpty_nil, if_true, hl]
      refine Rel.lift fun i => ?_
      cases hs : l[i]? with
      | none =>
        rw [show l'[i]? = none by rw [List.getElem?_eq_none_iff] at hs ⊢; omega]
        exact Rel.panic
      | some s =>
        obtain ⟨t, ht⟩ : ∃ t, l'[i]? = some t := by
          have := (List.getElem?_eq_some_iff.1 hs).1
          exact ⟨l'[i]'(by omega), List.getElem?_eq_getElem _⟩
        rw [ht]
        refine Rel.bind (A.call s t r ((h.2.2 i s t hs ht).1 (by simp))) ?_
        rintro ⟨x, s1⟩ ⟨y, t1⟩ ⟨h3, h4⟩
        exact Rel.pure ⟨h3, h.set i h4 (fun hi => absurd (by simp) hi) fun j hj => Or.inr (by simp)⟩
  poll x y h := A.poll x y h
  clone b x y h := by
    show SteerRel rs ⟨x.services.map S.clone, _⟩ ⟨y.services.map T.clone, _⟩
    rw [show S.clone = id from funext hS, show T.clone = id from funext hT, List.map_id, List.map_id]
    exact h

end

end Tower
