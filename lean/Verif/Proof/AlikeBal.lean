import Verif.Proof.AlikeLoad
import Verif.Proof.AlikeCall
import Verif.Proof.AlikeMake

/-! # Bisimulations of the cache of services and of the balancer -/

namespace Tower
open Act
variable {W : Type} {K : Type} [DecidableEq K]

section
variable {V V' : Type} {rv : V → V' → Prop}

/-- maps with the same keys in the same places, and values that correspond -/
abbrev MapRel (rv : V → V' → Prop) : IMap K V → IMap K V' → Prop := List.Forall₂ fun a b => a.1 = b.1 ∧ rv a.2 b.2

theorem MapRel.contains {m : IMap K V} {m' : IMap K V'} (h : MapRel rv m m') (k : K) : m.contains k = m'.contains k := by
  induction h with
  | nil => rfl
  | cons a b ih => simp only [IMap.contains, List.any_cons] at ih ⊢; rw [a.1, ih]

theorem MapRel.insert {m : IMap K V} {m' : IMap K V'} (h : MapRel rv m m') (k : K) {v : V} {v' : V'} (hv : rv v v') : MapRel rv (m.insert k v) (m'.insert k v') := by
  simp only [IMap.insert, h.contains k]
  split
  · clear * - h hv
    induction h with
    | nil => exact .nil
    | cons a b ih =>
      refine .cons ?_ ih
      dsimp only
      rw [← a.1]
      split
      · exact ⟨rfl, hv⟩
      · exact ⟨a.1, a.2⟩
  · exact forall₂_snoc h ⟨rfl, hv⟩

theorem forall₂_dropLast {α β : Type} {r : α → β → Prop} {l : List α} {l' : List β} (h : List.Forall₂ r l l') : List.Forall₂ r l.dropLast l'.dropLast := by
  rw [List.dropLast_eq_take, List.dropLast_eq_take, h.length_eq]
  exact List.forall₂_take _ h

theorem forall₂_last {α β : Type} {r : α → β → Prop} {l : List α} {l' : List β} (h : List.Forall₂ r l l') :
    (l.getLast? = none ∧ l'.getLast? = none) ∨ ∃ a b, l.getLast? = some a ∧ l'.getLast? = some b ∧ r a b := by
  rw [List.getLast?_eq_getElem?, List.getLast?_eq_getElem?, h.length_eq]
  exact forall₂_get h _

theorem swapRemoveIndex_set {V : Type} (m : IMap K V) (i : Nat) {x e : K × V} (h : m[i]? = some x) : IMap.swapRemoveIndex (m.set i e) i = (m.swapRemoveIndex i).map (fun r => (e, r.2)) := by
  obtain ⟨hi, _⟩ := List.getElem?_eq_some_iff.1 h
  have h1 : (List.set m i e)[i]? = some e := by rw [List.getElem?_set]; simp [hi]
  simp only [IMap.swapRemoveIndex, h, h1]
  rw [List.getLast?_eq_getElem?, List.getLast?_eq_getElem?, List.length_set, List.getElem?_set, List.getElem?_eq_getElem (by omega : m.length - 1 < m.length)]
  by_cases hl : i = m.length - 1
  · rw [if_pos hl, if_pos hi]
    simp only [Option.map_some, List.set_set, Option.some.injEq, Prod.mk.injEq, true_and]
    rw [List.dropLast_eq_take, List.dropLast_eq_take, List.length_set, List.length_set, List.take_set_of_le (by omega), List.take_set_of_le (by omega)]
  · rw [if_neg hl]
    simp only [Option.map_some, List.set_set]

theorem MapRel.swapRemoveIndex {m : IMap K V} {m' : IMap K V'} (h : MapRel rv m m') (i : Nat) :
    (m.swapRemoveIndex i = none ∧ m'.swapRemoveIndex i = none) ∨
    ∃ k v v' n n', m.swapRemoveIndex i = some ((k, v), n) ∧ m'.swapRemoveIndex i = some ((k, v'), n') ∧ rv v v' ∧ MapRel rv n n' := by
  simp only [IMap.swapRemoveIndex]
  rcases forall₂_get h i with ⟨h1, h2⟩ | ⟨⟨k, v⟩, ⟨k', v'⟩, h1, h2, h3, h4⟩
  · exact .inl (by rw [h1, h2]; exact ⟨rfl, rfl⟩)
  · dsimp only at h3 h4; subst h3
    rcases forall₂_last h with ⟨h5, h6⟩ | ⟨a, b, h5, h6, h7⟩
    · exact .inl (by rw [h1, h2, h5, h6]; exact ⟨rfl, rfl⟩)
    · exact .inr ⟨k, v, v', _, _, by rw [h1, h5], by rw [h2, h6], h4, forall₂_dropLast (forall₂_set h i h7)⟩

theorem MapRel.index {m : IMap K V} {m' : IMap K V'} (h : MapRel rv m m') (k : K) : m.index k = m'.index k := by
  simp only [IMap.index]
  induction h with
  | nil => rfl
  | cons a b ih => rw [List.findIdx?_cons, List.findIdx?_cons, ih, a.1]

theorem MapRel.swapRemove {m : IMap K V} {m' : IMap K V'} (h : MapRel rv m m') (k : K) :
    (m.swapRemove k = none ∧ m'.swapRemove k = none) ∨ ∃ v v' n n', m.swapRemove k = some (v, n) ∧ m'.swapRemove k = some (v', n') ∧ rv v v' ∧ MapRel rv n n' := by
  simp only [IMap.swapRemove, h.index k]
  cases m'.index k with
  | none => exact .inl ⟨rfl, rfl⟩
  | some i =>
    rcases h.swapRemoveIndex i with ⟨h1, h2⟩ | ⟨k', v, v', n, n', h1, h2, h3, h4⟩
    · exact .inl (by simp [h1, h2])
    · exact .inr ⟨v, v', n, n', by simp [h1], by simp [h2], h3, h4⟩
end

section
variable {Q R E : Type} {S T : Service W Q R E} {rs : Bool → S.σ → T.σ → Prop} {rf : S.φ → T.φ → Prop}

def PEntRel {σ τ : Type} (rs : Bool → σ → τ → Prop) (a : PEnt K σ) (b : PEnt K τ) : Prop := a.key = b.key ∧ a.rx = b.rx ∧ ∃ f, rs f a.svc b.svc

/-- the same keys in the same places; the ready services are ready -/
structure CacheRel (rs : Bool → S.σ → T.σ → Prop) (c : Cache K S) (d : Cache K T) : Prop where
  pending : List.Forall₂ (PEntRel rs) c.pending d.pending
  txs : c.txs = d.txs
  ready : MapRel (fun a b => rs true a.1 b.1 ∧ a.2 = b.2) c.ready d.ready
  cancelled : c.cancelled = d.cancelled
  nextCell : c.nextCell = d.nextCell

def PResRel {σ τ : Type} (rs : Bool → σ → τ → Prop) : PRes K σ E → PRes K τ E → Prop
  | .ok k s rx, .ok k' t rx' => k = k' ∧ rx = rx' ∧ rs true s t
  | .canceled k, .canceled k' => k = k'
  | .inner k e, .inner k' e' => k = k' ∧ e = e'
  | _, _ => False

theorem CacheRel.empty : CacheRel (K := K) rs (Cache.empty K S) (Cache.empty K T) := ⟨.nil, rfl, .nil, rfl, rfl⟩

theorem CacheRel.cancel {c : Cache K S} {d : Cache K T} (h : CacheRel rs c d) (t : Nat) : CacheRel rs (c.cancel t) (d.cancel t) :=
  ⟨h.pending, h.txs, h.ready, by simp only [Cache.cancel, h.cancelled], h.nextCell⟩

theorem CacheRel.pushPending {c : Cache K S} {d : Cache K T} (h : CacheRel rs c d) (k : K) {s : S.σ} {t : T.σ} {b : Bool} (hst : rs b s t) (pair : Nat × Nat) :
    CacheRel rs (c.pushPending k s pair) (d.pushPending k t pair) := by
  obtain ⟨p, x, r, a, n⟩ := c
  obtain ⟨p', x', r', a', n'⟩ := d
  obtain ⟨h1, h2, h3, h4, h5⟩ := h
  dsimp only at h1 h2 h3 h4 h5; subst h2 h4 h5
  simp only [Cache.pushPending]
  cases x.get k with
  | none => exact ⟨forall₂_snoc h1 ⟨rfl, rfl, b, hst⟩, rfl, h3, rfl, rfl⟩
  | some old => exact ⟨forall₂_snoc h1 ⟨rfl, rfl, b, hst⟩, rfl, h3, rfl, rfl⟩

theorem CacheRel.push {c : Cache K S} {d : Cache K T} (h : CacheRel rs c d) (k : K) {s : S.σ} {t : T.σ} {b : Bool} (hst : rs b s t) : CacheRel rs (c.push k s) (d.push k t) := by
  have h' : CacheRel rs { c with nextCell := c.nextCell + 1 } { d with nextCell := d.nextCell + 1 } := ⟨h.pending, h.txs, h.ready, h.cancelled, by simp only [h.nextCell]⟩
  simp only [Cache.push, ← h.nextCell]
  rw [← h.nextCell] at h'
  exact h'.pushPending k hst _

theorem CacheRel.evict {c : Cache K S} {d : Cache K T} (h : CacheRel rs c d) (k : K) : CacheRel rs (c.evict k).2 (d.evict k).2 := by
  have h1 : (c.evictPending k).1 = (d.evictPending k).1 ∧ CacheRel rs (c.evictPending k).2 (d.evictPending k).2 := by
    obtain ⟨p, x, r, a, n⟩ := c
    obtain ⟨p', x', r', a', n'⟩ := d
    obtain ⟨h1, h2, h3, h4, h5⟩ := h
    dsimp only at h1 h2 h3 h4 h5; subst h2 h4 h5
    simp only [Cache.evictPending]
    cases x.swapRemove k with
    | none => exact ⟨rfl, h1, rfl, h3, rfl, rfl⟩
    | some y => exact ⟨rfl, h1, rfl, h3, rfl, rfl⟩
  simp only [Cache.evict]
  rcases h1.2.ready.swapRemove k with ⟨h2, h3⟩ | ⟨v, v', n, n', h2, h3, h4, h5⟩
  · rw [h2, h3]; exact h1.2
  · rw [h2, h3]; exact ⟨h1.2.pending, h1.2.txs, h5, h1.2.cancelled, h1.2.nextCell⟩

theorem Alike.pent (A : Alike S T rs rf) (cs : List Nat) (a : PEnt K S.σ) (b : PEnt K T.σ) (h : PEntRel rs a b) :
    Rel (fun x y => match x.1, y.1 with | .pending, .pending => PEntRel rs x.2 y.2 | .ready v, .ready v' => PResRel rs v v' | _, _ => False) (a.poll S cs) (b.poll T cs) := by
  obtain ⟨k, s, rx⟩ := a
  obtain ⟨k', t, rx'⟩ := b
  obtain ⟨h1, h2, f, h3⟩ := h
  dsimp only at h1 h2 h3; subst h1 h2
  simp only [PEnt.poll]
  by_cases hc : rx ∈ cs
  · rw [if_pos hc, if_pos hc]; exact Rel.pure (show PResRel rs (.canceled k) (.canceled k) from rfl)
  · rw [if_neg hc, if_neg hc]
    refine Rel.bind (A.ready f s t h3) ?_
    rintro ⟨p, s1⟩ ⟨q, t1⟩ ⟨e, k1, k2⟩
    dsimp only at e k1 k2; subst e
    match p, k1, k2 with
    | .pending, _, k2 =>
      dsimp only
      rw [if_neg hc, if_neg hc]
      exact Rel.pure (show PEntRel rs ⟨k, s1, rx⟩ ⟨k, t1, rx⟩ from ⟨rfl, rfl, false, k2 rfl⟩)
    | .ready (.error e), _, _ => exact Rel.pure (show PResRel rs (.inner k e) (.inner k e) from ⟨rfl, rfl⟩)
    | .ready (.ok ()), k1, _ => exact Rel.pure (show PResRel rs (.ok k s1 rx) (.ok k t1 rx) from ⟨rfl, rfl, k1 rfl⟩)

def NextRel (rs : Bool → S.σ → T.σ → Prop) (x : Poll (Option (PRes K S.σ E)) × List (PEnt K S.σ)) (y : Poll (Option (PRes K T.σ E)) × List (PEnt K T.σ)) : Prop :=
  List.Forall₂ (PEntRel rs) x.2 y.2 ∧
  match x.1, y.1 with
  | .pending, .pending => True
  | .ready none, .ready none => True
  | .ready (some v), .ready (some v') => PResRel rs v v'
  | _, _ => False

theorem Alike.pollNext (A : Alike S T rs rf) (cs : List Nat) (is : List Nat) : ∀ (l : List (PEnt K S.σ)) (l' : List (PEnt K T.σ)), List.Forall₂ (PEntRel rs) l l' →
    Rel (NextRel rs) (pollNext S cs is l) (pollNext T cs is l') := by
  induction is with
  | nil =>
    intro l l' hl
    cases hl with
    | nil => exact Rel.pure ⟨.nil, trivial⟩
    | cons a b => exact Rel.pure ⟨.cons a b, trivial⟩
  | cons i is ih =>
    intro l l' hl
    rcases forall₂_get hl i with ⟨h1, h2⟩ | ⟨x, y, h1, h2, hxy⟩
    · cases hl with
      | nil => exact Rel.pure ⟨.nil, trivial⟩
      | cons a b =>
        simp only [Tower.pollNext, h1, h2]
        exact ih _ _ (.cons a b)
    · cases hl with
      | nil => simp at h1
      | cons a b =>
        simp only [Tower.pollNext, h1, h2]
        refine Rel.bind (A.pent cs x y hxy) ?_
        rintro ⟨p, x'⟩ ⟨q, y'⟩ hab
        match p, q, hab with
        | .pending, .pending, hab => exact ih _ _ (forall₂_set (.cons a b) i hab)
        | .ready v, .ready v', hab => exact Rel.pure ⟨forall₂_eraseIdx (.cons a b) i, hab⟩

theorem Alike.pollPendingLoop (A : Alike S T rs rf) (V : Sched W) (n : Nat) : ∀ (c : Cache K S) (d : Cache K T), CacheRel rs c d →
    Rel (fun a b => a.1 = b.1 ∧ CacheRel rs a.2 b.2) (c.pollPendingLoop V n) (d.pollPendingLoop V n) := by
  induction n with
  | zero => intros; exact Rel.spin
  | succ n ih =>
    rintro ⟨p, x, r, a, nc⟩ ⟨p', x', r', a', nc'⟩ ⟨h1, h2, h3, h4, h5⟩
    dsimp only at h1 h2 h3 h4 h5; subst h2 h4 h5
    simp only [Cache.pollPendingLoop, h1.length_eq]
    refine Rel.lift fun o => ?_
    refine Rel.bind (A.pollNext a o p p' h1) ?_
    rintro ⟨u, l⟩ ⟨u', l'⟩ ⟨hl, hab⟩
    match u, u', hab with
    | .pending, .pending, _ => exact Rel.pure ⟨rfl, hl, rfl, h3, rfl, rfl⟩
    | .ready none, .ready none, _ => exact Rel.pure ⟨rfl, hl, rfl, h3, rfl, rfl⟩
    | .ready (some (.ok k s rx)), .ready (some (.ok k' t rx')), ⟨e1, e2, hst⟩ =>
      subst e1 e2
      dsimp only
      cases x.swapRemove k with
      | none => exact Rel.panic
      | some tx => exact ih _ _ ⟨hl, rfl, h3.insert k ⟨hst, rfl⟩, rfl, rfl⟩
    | .ready (some (.canceled _)), .ready (some (.canceled _)), _ => exact ih _ _ ⟨hl, rfl, h3, rfl, rfl⟩
    | .ready (some (.inner k e)), .ready (some (.inner k' e')), ⟨e1, e2⟩ =>
      subst e1 e2
      dsimp only
      cases x.swapRemove k with
      | none => exact Rel.panic
      | some tx => exact Rel.pure ⟨rfl, hl, rfl, h3, rfl, rfl⟩

theorem CacheRel.putBack {c : Cache K S} {d : Cache K T} (h : CacheRel rs c d) (k : K) {s : S.σ} {t : T.σ} {b : Bool} (hst : rs b s t) (pair : Nat × Nat) :
    CacheRel rs (c.putBack k s pair) (d.putBack k t pair) := by
  obtain ⟨p, x, r, a, n⟩ := c
  obtain ⟨p', x', r', a', n'⟩ := d
  obtain rfl : x = x' := h.txs
  simp only [Cache.putBack, Cache.pendingContains]
  by_cases hk : IMap.contains x k = true
  · simp only [hk, if_true]; exact h
  · simp only [hk, if_false, Bool.false_eq_true]; exact h.pushPending k hst pair

theorem Alike.checkReadyIndex (A : Alike S T rs rf) {c : Cache K S} {d : Cache K T} (h : CacheRel rs c d) (i : Nat) :
    Rel (fun a b => a.1 = b.1 ∧ CacheRel rs a.2 b.2) (c.checkReadyIndex i) (d.checkReadyIndex i) := by
  simp only [Cache.checkReadyIndex]
  rcases forall₂_get h.ready i with ⟨h1, h2⟩ | ⟨⟨k, s, pr⟩, ⟨k', t, pr'⟩, h1, h2, h3, h4, h5⟩
  · rw [h1, h2]; exact Rel.pure ⟨rfl, h⟩
  · dsimp only at h3 h4 h5; subst h3 h5
    rw [h1, h2]
    refine Rel.bind (A.ready true s t h4) ?_
    rintro ⟨p, s1⟩ ⟨q, t1⟩ ⟨e, k1, k2⟩
    dsimp only at e k1 k2; subst e
    match p, k1, k2 with
    | .ready (.ok ()), k1, _ => exact Rel.pure ⟨rfl, h.pending, h.txs, forall₂_set h.ready i ⟨rfl, k1 rfl, rfl⟩, h.cancelled, h.nextCell⟩
    | .pending, _, k2 =>
      dsimp only
      rw [swapRemoveIndex_set _ i h1, swapRemoveIndex_set _ i h2]
      rcases h.ready.swapRemoveIndex i with ⟨h6, h7⟩ | ⟨k, v, v', n, n', h6, h7, h8, h9⟩
      · rw [h6, h7]; exact Rel.panic
      · rw [h6, h7]
        have hh : CacheRel rs { c with ready := n } { d with ready := n' } := ⟨h.pending, h.txs, h9, h.cancelled, h.nextCell⟩
        exact Rel.pure ⟨rfl, hh.putBack _ (k2 rfl) _⟩
    | .ready (.error e), _, _ =>
      dsimp only
      rw [swapRemoveIndex_set _ i h1, swapRemoveIndex_set _ i h2]
      rcases h.ready.swapRemoveIndex i with ⟨h6, h7⟩ | ⟨k, v, v', n, n', h6, h7, h8, h9⟩
      · rw [h6, h7]; exact Rel.panic
      · rw [h6, h7]
        exact Rel.pure ⟨rfl, h.pending, h.txs, h9, h.cancelled, h.nextCell⟩

theorem Alike.callReadyIndex (A : Alike S T rs rf) {c : Cache K S} {d : Cache K T} (h : CacheRel rs c d) (i : Nat) (r : Q) :
    Rel (fun a b => rf a.1 b.1 ∧ CacheRel rs a.2 b.2) (c.callReadyIndex i r) (d.callReadyIndex i r) := by
  simp only [Cache.callReadyIndex]
  rcases h.ready.swapRemoveIndex i with ⟨h6, h7⟩ | ⟨k, ⟨s, pr⟩, ⟨t, pr'⟩, n, n', h6, h7, ⟨h8, h8'⟩, h9⟩
  · rw [h6, h7]; exact Rel.panic
  · dsimp only at h8 h8'; subst h8'
    rw [h6, h7]
    have hh : CacheRel rs { c with ready := n } { d with ready := n' } := ⟨h.pending, h.txs, h9, h.cancelled, h.nextCell⟩
    exact Rel.bind (A.call s t r h8) fun _ _ hab => Rel.pure ⟨hab.1, hh.putBack k hab.2 pr⟩

end
/-! ## The balancer -/

section
variable {Q R E DErr BErr M : Type} {S T : Service W Q R E} {rs : Bool → S.σ → T.σ → Prop} {rf : S.φ → T.φ → Prop}

/-- results of a discovery -/
def DiscRes {σ τ δ δ' : Type} (rs : Bool → σ → τ → Prop) (rd : δ → δ' → Prop) (a : Poll (Option (Except DErr (Change K σ))) × δ) (b : Poll (Option (Except DErr (Change K τ))) × δ') : Prop :=
  rd a.2 b.2 ∧
  match a.1, b.1 with
  | .pending, .pending => True
  | .ready none, .ready none => True
  | .ready (some (.error e)), .ready (some (.error e')) => e = e'
  | .ready (some (.ok (.remove k))), .ready (some (.ok (.remove k'))) => k = k'
  | .ready (some (.ok (.insert k s))), .ready (some (.ok (.insert k' t))) => k = k' ∧ rs false s t
  | _, _ => False

/-- two balancers over services that correspond, that are discovered in the same way and have the same load when they are ready -/
structure BalPair (S T : Service W Q R E) (rs : Bool → S.σ → T.σ → Prop) (K DErr BErr M : Type) where
  D : Discover W K S.σ DErr
  D' : Discover W K T.σ DErr
  rd : D.δ → D'.δ → Prop
  disc : ∀ x y, rd x y → Rel (DiscRes rs rd) (D.poll x) (D'.poll y)
  ld : S.σ → Act W M
  ld' : T.σ → Act W M
  load : ∀ s t, rs true s t → Rel Eq (ld s) (ld' t)
  le : M → M → Bool
  G : Rng
  V : Sched W
  fromErr : E → BErr
  fromDisc : DErr → BErr

variable {P : BalPair S T rs K DErr BErr M}
abbrev BalPair.one (P : BalPair S T rs K DErr BErr M) : BalCfg W Q R E K DErr BErr := ⟨S, P.D, ⟨M, P.ld, P.le⟩, P.G, P.V, P.fromErr, P.fromDisc⟩
abbrev BalPair.two (P : BalPair S T rs K DErr BErr M) : BalCfg W Q R E K DErr BErr := ⟨T, P.D', ⟨M, P.ld', P.le⟩, P.G, P.V, P.fromErr, P.fromDisc⟩

structure BalRel (P : BalPair S T rs K DErr BErr M) (x : Balance P.one) (y : Balance P.two) : Prop where
  disc : P.rd x.disc y.disc
  svcs : CacheRel rs x.svcs y.svcs
  idx : x.idx = y.idx
  rng : x.rng = y.rng

theorem Alike.balUpdate (n : Nat) : ∀ (x : Balance P.one) (y : Balance P.two), BalRel P x y → Rel (fun a b => a.1 = b.1 ∧ BalRel P a.2 b.2) (Balance.update n x) (Balance.update n y) := by
  induction n with
  | zero => intros; exact Rel.spin
  | succ n ih =>
    intro x y h
    simp only [Balance.update]
    refine Rel.bind (P.disc _ _ h.disc) ?_
    rintro ⟨p, d⟩ ⟨q, d'⟩ ⟨hd, hab⟩
    match p, q, hab with
    | .pending, .pending, _ => exact Rel.pure ⟨rfl, hd, h.svcs, h.idx, h.rng⟩
    | .ready none, .ready none, _ => exact Rel.pure ⟨rfl, hd, h.svcs, h.idx, h.rng⟩
    | .ready (some (.error e)), .ready (some (.error e')), hab =>
      have hab : e = e' := hab
      subst hab
      exact Rel.pure ⟨rfl, hd, h.svcs, h.idx, h.rng⟩
    | .ready (some (.ok (.remove k))), .ready (some (.ok (.remove k'))), hab =>
      have hab : k = k' := hab
      subst hab
      exact ih _ _ ⟨hd, h.svcs.evict k, h.idx, h.rng⟩
    | .ready (some (.ok (.insert k s))), .ready (some (.ok (.insert k' t))), hab =>
      obtain ⟨e, hst⟩ := hab
      subst e
      exact ih _ _ ⟨hd, h.svcs.push k hst, h.idx, h.rng⟩

theorem Alike.balPromote (A : Alike S T rs rf) (n : Nat) : ∀ (x : Balance P.one) (y : Balance P.two), BalRel P x y → Rel (BalRel P) (Balance.promote n x) (Balance.promote n y) := by
  induction n with
  | zero => intros; exact Rel.spin
  | succ n ih =>
    intro x y h
    simp only [Balance.promote, Cache.pollPending, h.svcs.pending.length_eq]
    refine Rel.bind (A.pollPendingLoop P.V _ _ _ h.svcs) ?_
    rintro ⟨p, c⟩ ⟨q, d⟩ ⟨e, hc⟩
    dsimp only at e hc; subst e
    have hb : BalRel P { x with svcs := c } { y with svcs := d } := ⟨h.disc, hc, h.idx, h.rng⟩
    match p with
    | .ready (.ok ()) =>
      dsimp only
      rw [hc.pending.length_eq]
      split
      · exact Rel.pure hb
      · exact Rel.panic
    | .pending =>
      dsimp only
      rw [hc.pending.length_eq]
      split
      · exact Rel.pure hb
      · exact Rel.panic
    | .ready (.error _) => exact ih _ _ hb

theorem Alike.balLoad (x : Balance P.one) (y : Balance P.two) (h : BalRel P x y) (i : Nat) : Rel (Eq (α := M)) (x.readyIndexLoad i) (y.readyIndexLoad i) := by
  simp only [Balance.readyIndexLoad]
  rcases forall₂_get h.svcs.ready i with ⟨h1, h2⟩ | ⟨⟨k, s, pr⟩, ⟨k', t, pr'⟩, h1, h2, h3, h4, h5⟩
  · rw [h1, h2]; exact Rel.panic
  · rw [h1, h2]; exact P.load s t h4

theorem Alike.balP2c (x : Balance P.one) (y : Balance P.two) (h : BalRel P x y) : Rel (fun a b => a.1 = b.1 ∧ BalRel P a.2 b.2) x.p2c y.p2c := by
  simp only [Balance.p2c, h.svcs.ready.length_eq, h.rng]
  split
  · exact Rel.pure ⟨rfl, h⟩
  · split
    · exact Rel.pure ⟨rfl, h⟩
    · cases sampleFloyd2 P.G y.rng y.svcs.ready.length with
      | none => exact Rel.panic
      | some v =>
        obtain ⟨⟨a, b⟩, r⟩ := v
        dsimp only
        by_cases hab : a = b
        · rw [if_pos hab, if_pos hab]; exact Rel.panic
        · rw [if_neg hab, if_neg hab]
          refine Rel.bind (Alike.balLoad x y h a) ?_
          rintro la _ ⟨⟩
          refine Rel.bind (Alike.balLoad x y h b) ?_
          rintro lb _ ⟨⟩
          exact Rel.pure ⟨rfl, h.disc, h.svcs, h.idx, rfl⟩

theorem Alike.balChoose (x : Balance P.one) (y : Balance P.two) (h : BalRel P x y) : Rel (fun a b => a.1 = b.1 ∧ BalRel P a.2 b.2) x.choose y.choose := by
  simp only [Balance.choose]
  refine Rel.bind (Alike.balP2c x y h) ?_
  rintro ⟨i, x1⟩ ⟨j, y1⟩ ⟨e, h1⟩
  dsimp only at e h1; subst e
  cases i with
  | some i => exact Rel.pure ⟨rfl, h1.disc, h1.svcs, rfl, h1.rng⟩
  | none =>
    dsimp only
    rw [h1.svcs.ready.length_eq]
    split
    · exact Rel.pure ⟨rfl, h1.disc, h1.svcs, rfl, h1.rng⟩
    · exact Rel.panic

theorem Alike.balRecheck (A : Alike S T rs rf) (x : Balance P.one) (y : Balance P.two) (h : BalRel P x y) : Rel (fun a b => a.1 = b.1 ∧ BalRel P a.2 b.2) x.recheck y.recheck := by
  simp only [Balance.recheck, h.idx]
  cases y.idx with
  | none => exact Rel.pure ⟨rfl, h⟩
  | some i =>
    refine Rel.bind (A.checkReadyIndex h.svcs i) ?_
    rintro ⟨r, c⟩ ⟨r', d⟩ ⟨e, hc⟩
    dsimp only at e hc; subst e
    match r with
    | .ok true => exact Rel.pure ⟨rfl, h.disc, hc, rfl, h.rng⟩
    | .ok false => exact Rel.pure ⟨rfl, h.disc, hc, rfl, h.rng⟩
    | .error _ => exact Rel.pure ⟨rfl, h.disc, hc, rfl, h.rng⟩

theorem Alike.balSelect (A : Alike S T rs rf) (n : Nat) : ∀ (x : Balance P.one) (y : Balance P.two), BalRel P x y →
    Rel (fun a b => a.1 = b.1 ∧ BalRel P a.2 b.2) (Balance.select n x) (Balance.select n y) := by
  induction n with
  | zero => intros; exact Rel.spin
  | succ n ih =>
    intro x y h
    simp only [Balance.select]
    refine Rel.bind (A.balRecheck x y h) ?_
    rintro ⟨r, x1⟩ ⟨r', y1⟩ ⟨e, h1⟩
    dsimp only at e h1; subst e
    cases r with
    | true => exact Rel.pure ⟨rfl, h1⟩
    | false =>
      dsimp only
      simp only [Bool.false_eq_true, if_false]
      refine Rel.bind (Alike.balChoose x1 y1 h1) ?_
      rintro ⟨r, x2⟩ ⟨r', y2⟩ ⟨e, h2⟩
      dsimp only at e h2; subst e
      cases r with
      | true => exact ih _ _ h2
      | false => exact Rel.pure ⟨rfl, h2⟩

theorem Alike.balance (A : Alike S T rs rf) (P : BalPair S T rs K DErr BErr M) (fuel : Nat) : Alike (balance P.one fuel) (balance P.two fuel) (fun _ => BalRel P) (OptRel rf) where
  ready b x y h := by
    refine Rel.mono (r := fun a b => a.1 = b.1 ∧ BalRel P a.2 b.2) ?_ fun a b hab => ⟨hab.1, fun _ => hab.2, fun _ => hab.2⟩
    refine Rel.bind (Alike.balUpdate fuel x y h) ?_
    rintro ⟨r, x1⟩ ⟨r', y1⟩ ⟨e, h1⟩
    dsimp only at e h1; subst e
    match r with
    | .error e => exact Rel.pure ⟨rfl, h1⟩
    | .ok () =>
      simp only [Balance.rest, h1.svcs.pending.length_eq]
      refine Rel.bind (A.balPromote _ x1 y1 h1) ?_
      intro x2 y2 h2
      rw [h2.svcs.ready.length_eq]
      exact A.balSelect _ x2 y2 h2
  call x y r h := by
    have hc : Rel (fun a b => rf a.1 b.1 ∧ BalRel P a.2 b.2) (x.call r) (y.call r) := by
      simp only [Balance.call, h.idx]
      cases y.idx with
      | none => exact Rel.panic
      | some i => exact Rel.bind (A.callReadyIndex h.svcs i r) fun a b hab => Rel.pure ⟨hab.1, h.disc, hab.2, rfl, h.rng⟩
    refine Rel.bind hc ?_
    rintro ⟨f, x'⟩ ⟨g, y'⟩ ⟨h1, h2⟩
    exact Rel.pure ⟨h1, h2⟩
  poll x y h := rel_mapFut _ A.poll x y h
  clone b x y h := h

end
end Tower
