import Verif.Proof.BufferSlot
import Verif.Props.C92_BufferAnswers

/-! # C93: whoever waits for a slot of a buffer gets one -/

namespace Tower
variable {W Req Res Err : Type} {S : Service W Req Res Err} {bound : Nat} {svc : S.σ} {F : Fairness W} {ws : Nat → W} {xs : Nat → Buf S} {ks : Nat → Wakers} {evs : Nat → Option (BEv S)}

/-! ## Lemmas -/

theorem BufLife.binv (L : BufLife S bound svc ws xs ks evs) (n : Nat) : ∃ tr, BufInv tr (xs n) ∧ WakeInv tr (xs n) (ks n) ∧ Queued (xs n) := by
  obtain ⟨tr, h, _⟩ := L.hist n
  exact ⟨tr, BHist.inv h.hist, h.wakeInv, BHist.queued h.hist⟩

theorem BufLife.bound_eq (L : BufLife S bound svc ws xs ks evs) (n : Nat) : (xs n).bound = bound := by
  induction n with
  | zero => rw [L.start]; rfl
  | succ n ih =>
    cases he : evs n with
    | none => rw [(L.wake n he).1]; exact ih
    | some ev =>
      have key : ∀ {x y : Buf S} {ev}, BStep x ev y → y.bound = x.bound := by
        intro x y ev hs
        cases hs with
        | worker hs => cases hs <;> rfl
        | death hs => cases hs <;> rfl
        | future hs => cases hs <;> rfl
        | handle hs => cases hs <;> rfl
      rw [key (L.step n _ he).1]; exact ih

/-- a handle that waits waits in the sense of the events -/
theorem BufLife.waitsAt (L : BufLife S bound svc ws xs ks evs) {n : Nat} {h : BHandle} (hm : h ∈ (xs n).hs) (hst : h.st = .acquiring) : WaitsAt evs h.name n := by
  induction n with
  | zero => rw [L.start] at hm; simp [Buf.init] at hm; subst hm; cases hst
  | succ n ih =>
    have keep : h ∈ (xs n).hs → (evs n ≠ some (.dropHandle h.name) ∧ ∀ v, evs n ≠ some (.ready h.name (.ready v))) → WaitsAt evs h.name (n + 1) := by
      intro h1 h2
      obtain ⟨j, h3, h4, h5⟩ := ih h1
      refine ⟨j, by omega, h4, fun k h6 h7 => ?_⟩
      by_cases hk : k = n
      · rw [hk]; exact h2
      · exact h5 k h6 (by omega)
    cases he : evs n with
    | none => rw [(L.wake n he).1] at hm; exact keep hm (by rw [he]; exact ⟨nofun, nofun⟩)
    | some ev =>
      obtain ⟨tr, hI, _⟩ := L.binv n
      rcases acquiring_was hI.sem (L.step n _ he).1 hm hst with ⟨h1, h2, h3⟩ | h1
      · exact keep h1 (by rw [he]; exact ⟨fun h => h2 (Option.some.inj h), fun v h => h3 v (Option.some.inj h)⟩)
      · exact ⟨n, by omega, by rw [he, h1], fun k _ _ => by omega⟩

/-- and one that is ready is ready -/
theorem BufLife.hasSlot (L : BufLife S bound svc ws xs ks evs) {n : Nat} {h : BHandle} (hm : h ∈ (xs n).hs) (hst : h.st = .ready) : HasSlot evs h.name n := by
  induction n with
  | zero => rw [L.start] at hm; simp [Buf.init] at hm; subst hm; cases hst
  | succ n ih =>
    have keep : h ∈ (xs n).hs → (evs n ≠ some (.dropHandle h.name) ∧ ∀ i r, evs n ≠ some (.accept h.name i r)) → HasSlot evs h.name (n + 1) := by
      intro h1 h2
      obtain ⟨j, h3, h4, h5⟩ := ih h1
      refine ⟨j, by omega, h4, fun k h6 h7 => ?_⟩
      by_cases hk : k = n
      · rw [hk]; exact h2
      · exact h5 k h6 (by omega)
    cases he : evs n with
    | none => rw [(L.wake n he).1] at hm; exact keep hm (by rw [he]; exact ⟨nofun, nofun⟩)
    | some ev =>
      obtain ⟨tr, hI, _⟩ := L.binv n
      rcases ready_was hI.sem (L.step n _ he).1 hm hst with ⟨h1, h2, h3⟩ | h1
      · exact keep h1 (by rw [he]; exact ⟨fun h => h2 (Option.some.inj h), fun i r h => h3 i r (Option.some.inj h)⟩)
      · exact ⟨n, by omega, by rw [he, h1], fun k _ _ => by omega⟩

/-- what holds until something happens holds when it happens for the first time -/
theorem until_first {P Q : Nat → Prop} {n m : Nat} (hn : P n) (hm : n ≤ m) (hq : Q m) (hstep : ∀ k, n ≤ k → P k → ¬ Q k → P (k + 1)) : ∃ k, n ≤ k ∧ P k ∧ Q k := by
  classical
  obtain ⟨d, rfl⟩ := Nat.exists_eq_add_of_le hm
  induction d generalizing n with
  | zero => exact ⟨n, Nat.le_refl _, hn, hq⟩
  | succ d ih =>
    by_cases h : Q n
    · exact ⟨n, Nat.le_refl _, hn, h⟩
    · obtain ⟨k, h1, h2⟩ := ih (n := n + 1) (hstep n (Nat.le_refl _) hn h) (fun k hk => hstep k (by omega)) (by omega) (by rwa [show n + 1 + d = n + (d + 1) by omega])
      exact ⟨k, by omega, h2⟩

/-! ## Theorems -/

/-- **C93.** A buffer (with a bound of at least one) around a service that does not hang: if those who are woken poll, and those whose handle is ready call it or drop it, then a handle whose `poll_ready` returned `Pending` is at last told `Ready` (or is dropped). -/
theorem C93_slot (L : BufLife S bound svc ws xs ks evs) (Fr : BufFair F ws xs ks evs) (U : BufUsers ks evs) (hS : NeverHangs F S svc) (hb : 0 < bound) {nm n : Nat} (hp : evs n = some (.ready nm .pending)) :
    ∃ m, n < m ∧ (evs m = some (.dropHandle nm) ∨ ∃ v, evs m = some (.ready nm (.ready v))) := by
  by_contra hcon
  push Not at hcon
  -- it waits for ever
  have hacq : ∀ m, n < m → (⟨nm, .acquiring⟩ : BHandle) ∈ (xs m).hs := by
    have : ∀ d, (⟨nm, .acquiring⟩ : BHandle) ∈ (xs (n + 1 + d)).hs := by
      intro d
      induction d with
      | zero =>
        have key : ∀ {x y : Buf S}, BStep x (.ready nm .pending) y → (⟨nm, .acquiring⟩ : BHandle) ∈ y.hs := by
          intro x y hs
          generalize he : BEv.ready nm .pending = ev at hs
          cases hs with
          | worker hs => cases hs <;> cases he
          | death hs => cases hs <;> cases he
          | future hs => cases hs <;> cases he
          | handle hs =>
            cases hs
            case ready a l r e =>
              injection he with he1 he2
              subst he1
              have : (x.pollReady a).2.1 = ⟨a.name, .acquiring⟩ := by
                revert he2
                unfold Buf.pollReady Buf.reserve
                cases a.st <;> simp only [] <;> (try split) <;> (try split) <;> simp_all
              show _ ∈ l ++ (x.pollReady a).2.1 :: r
              rw [this]; simp
            all_goals cases he
        exact key (L.step n _ hp).1
      | succ d ih =>
        rw [← Nat.add_assoc]
        cases he : evs (n + 1 + d) with
        | none => rw [(L.wake _ he).1]; exact ih
        | some ev =>
          obtain ⟨h1, h2⟩ := hcon (n + 1 + d) (by omega)
          exact acquiring_keeps (L.step _ _ he).1 ih (fun h => h1 (h ▸ he)) fun v h => h2 v (h ▸ he)
    intro m hm
    have := this (m - (n + 1)); rwa [show n + 1 + (m - (n + 1)) = m by omega] at this
  -- in the queue
  have hqueue : ∀ m, n < m → nm ∈ (xs m).sem.queue := by
    intro m hm
    by_contra hnq
    obtain ⟨tr, hI, hW, hQ⟩ := L.binv m
    have hk : (ks m).handles nm = true := (hW.hand.acq _ (hacq m hm) rfl).resolve_right hnq
    have hg : (xs m).closed = true ∨ nm ∈ (xs m).sem.granted := (hQ _ (hacq m hm) rfl).imp_right fun h => h.resolve_right hnq
    obtain ⟨m', hm', he⟩ := U.polls nm m (L.waitsAt (hacq m hm) rfl) hk
    obtain ⟨k, hk1, hk2, hk3⟩ := until_first (P := fun k => (xs k).closed = true ∨ nm ∈ (xs k).sem.granted) (Q := fun k => evs k = some (.dropHandle nm) ∨ ∃ p, evs k = some (.ready nm p)) hg hm' he (by
      intro k hk hP hQ
      push Not at hQ
      cases he : evs k with
      | none => rw [(L.wake _ he).1]; exact hP
      | some ev =>
        obtain ⟨tr, hI, _⟩ := L.binv k
        exact hP.imp (closed_keeps (L.step _ _ he).1) fun h => granted_keeps hI.sem (L.step _ _ he).1 h (fun h' => hQ.1 (h' ▸ he)) fun p h' => hQ.2 p (h' ▸ he))
    obtain ⟨h1, h2⟩ := hcon k (by omega)
    rcases hk3 with hk3 | ⟨p, hk3⟩
    · exact h1 hk3
    · cases p with
      | ready v => exact h2 v hk3
      | pending =>
        obtain ⟨tr, hI, _⟩ := L.binv k
        cases hc : (xs k).closed with
        | true => exact closed_poll (L.step _ _ hk3).1 hc
        | false => exact absurd (granted_poll hI.sem (L.step _ _ hk3).1 (hk2.resolve_left (by rw [hc]; simp)) hc).2 nofun
  have hopen : ∀ m, n < m → (xs m).closed = false := by
    intro m hm
    obtain ⟨tr, hI, _⟩ := L.binv m
    cases hc : (xs m).closed with
    | false => rfl
    | true => have := hqueue m hm; rw [hI.sem.closedq hc] at this; cases this
  -- if somebody gives up a slot, it comes nearer
  have hfrees : ∀ m ev, n < m → evs m = some ev → Frees (xs m) ev (xs (m + 1)) → (xs (m + 1)).sem.queue.idxOf nm < (xs m).sem.queue.idxOf nm := by
    intro m ev hm _ hf
    obtain ⟨tr, hI, _⟩ := L.binv m
    exact hf.place hI.sem (hqueue m hm) (hqueue (m + 1) (by omega))
  have hdropped : ∀ {x y : Buf S} {a : BHandle}, SemInv x → BStep x (.dropHandle a.name) y → a ∈ x.hs → a.st = .ready ∨ (a.name ∈ x.sem.granted ∧ a.st ≠ .ready) → Frees x (.dropHandle a.name) y := by
    intro x y a hI hs ha hst
    generalize he : BEv.dropHandle a.name = ev at hs
    cases hs with
    | worker hs => cases hs <;> cases he
    | death hs => cases hs <;> cases he
    | future hs => cases hs <;> cases he
    | handle hs =>
      cases hs
      case drop b l r e =>
        injection he with he
        have hab : a = b := hI.same ha (by rw [e]; simp) he
        subst hab
        rcases hst with hst | ⟨hst, hns⟩
        · exact .inr (.inl ⟨a, ha, hst, rfl, by simp only [hst, if_true]⟩)
        · exact .inr (.inr ⟨a.name, hst, rfl, by simp only [hns, if_false]⟩)
      all_goals cases he
  -- a message in the channel is received
  have hmsg : ∀ m, n < m → (xs m).queue ≠ [] → ∃ k ev, m ≤ k ∧ evs k = some ev ∧ Frees (xs k) ev (xs (k + 1)) := by
    intro m hm hq
    obtain ⟨m0, hm0⟩ := List.exists_mem_of_ne_nil _ hq
    obtain ⟨tr, hI, _⟩ := L.binv m
    have hP : ∀ {k} {tr : List (BEv S)}, BufInv tr (xs k) → m0 ∈ (xs k).queue → (xs k).shots m0.id = .waiting := fun hI h => (hI.msg.pW m0 (by simp [Buf.pend, h])).1
    have hlt : m0.id < (xs m).calls := hI.msg.lt m0 (hI.msg.memP (by simp [Buf.pend, hm0]))
    have hdead : (xs m).pc ≠ .dead := by
      intro hp
      have := (hI.ctl.dying (.inr (.inr hp))).1
      rw [hopen m hm, hp] at this
      rcases this with h | h <;> cases h
    have hgone : ∃ k, m ≤ k ∧ m0 ∉ (xs k).queue := by
      by_contra hall
      push Not at hall
      exact no_eternal_wait L Fr hS.ready hlt hdead fun k hk => by obtain ⟨tr, hI, _⟩ := L.binv k; exact hP hI (hall k hk)
    obtain ⟨k, hk, hk'⟩ := hgone
    by_contra hnf
    push Not at hnf
    have : ∀ d, m0 ∈ (xs (m + d)).queue := by
      intro d
      induction d with
      | zero => exact hm0
      | succ d ih =>
        rw [← Nat.add_assoc]
        cases he : evs (m + d) with
        | none => rw [(L.wake _ he).1]; exact ih
        | some ev =>
          by_contra hno
          exact hnf (m + d) ev (by omega) he (frees_message (L.step _ _ he).1 ih hno fun hh => by have := hacq (m + d) (by omega); rw [hh] at this; cases this)
    exact hk' (by have := this (k - m); rwa [show m + (k - m) = k by omega] at this)
  -- a ready handle is called or dropped
  have hready : ∀ m a, n < m → a ∈ (xs m).hs → a.st = .ready → ∃ k ev, m ≤ k ∧ evs k = some ev ∧ Frees (xs k) ev (xs (k + 1)) := by
    intro m a hm ha hst
    obtain ⟨m', hm', he⟩ := U.calls _ m (L.hasSlot ha hst)
    obtain ⟨k, hk1, hk2, hk3⟩ := until_first (P := fun k => a ∈ (xs k).hs) (Q := fun k => evs k = some (.dropHandle a.name) ∨ ∃ i r, evs k = some (.accept a.name i r)) ha hm' he (by
      intro k hk hP hQ
      push Not at hQ
      cases he : evs k with
      | none => rw [(L.wake _ he).1]; exact hP
      | some ev => exact ready_keeps (L.step _ _ he).1 hP hst (fun h' => hQ.1 (h' ▸ he)) fun i r h' => hQ.2 i r (h' ▸ he))
    obtain ⟨tr, hI, _⟩ := L.binv k
    rcases hk3 with hk3 | ⟨i, r, hk3⟩
    · exact ⟨k, _, hk1, hk3, hdropped hI.sem (L.step _ _ hk3).1 hk2 (.inl hst)⟩
    · have key : ∀ {x y : Buf S}, BStep x (.accept a.name i r) y → y.queue ≠ [] := by
        intro x y hs
        generalize he : BEv.accept a.name i r = ev at hs
        cases hs with
        | worker hs => cases hs <;> cases he
        | death hs => cases hs <;> cases he
        | future hs => cases hs <;> cases he
        | handle hs =>
          cases hs
          case call => simp
          all_goals cases he
      obtain ⟨k', ev, h1, h2⟩ := hmsg (k + 1) (by omega) (key (L.step _ _ hk3).1)
      exact ⟨k', ev, by omega, h2⟩
  -- so somebody does
  have hprog : ∀ m, n < m → ∃ k ev, m ≤ k ∧ evs k = some ev ∧ Frees (xs k) ev (xs (k + 1)) := by
    intro m hm
    obtain ⟨tr, hI, hW, _⟩ := L.binv m
    by_cases hq : (xs m).queue = []
    · by_cases hr : ∃ a ∈ (xs m).hs, a.st = .ready
      · obtain ⟨a, ha, hst⟩ := hr; exact hready m a hm ha hst
      · have h0 := hI.sem.conserved
        have h1 := hI.sem.busy (List.ne_nil_of_mem (hqueue m hm))
        have h2 : (xs m).reserved = 0 := by
          unfold Buf.reserved
          rw [List.countP_eq_zero]
          intro a ha
          push Not at hr
          simpa using hr a ha
        rw [h1, h2, hq, L.bound_eq m] at h0
        simp only [List.length_nil, Nat.zero_add, Nat.add_zero] at h0
        obtain ⟨a, ha⟩ := List.exists_mem_of_ne_nil (xs m).sem.granted (by intro h; rw [h] at h0; simp at h0; omega)
        obtain ⟨b, hb1, hb2, hb3⟩ := hI.sem.waiting a (List.mem_append_left _ ha)
        subst hb2
        have hk : (ks m).handles b.name = true := (hW.hand.acq b hb1 hb3).resolve_right fun h => (List.nodup_append.1 hI.sem.nodup).2.2 _ ha _ h rfl
        obtain ⟨m', hm', he⟩ := U.polls _ m (L.waitsAt hb1 hb3) hk
        obtain ⟨k, hk1, hk2, hk3⟩ := until_first (P := fun k => b.name ∈ (xs k).sem.granted) (Q := fun k => evs k = some (.dropHandle b.name) ∨ ∃ p, evs k = some (.ready b.name p)) ha hm' he (by
          intro k hk hP hQ
          push Not at hQ
          cases he : evs k with
          | none => rw [(L.wake _ he).1]; exact hP
          | some ev =>
            obtain ⟨tr, hI, _⟩ := L.binv k
            exact granted_keeps hI.sem (L.step _ _ he).1 hP (fun h' => hQ.1 (h' ▸ he)) fun p h' => hQ.2 p (h' ▸ he))
        obtain ⟨tr, hI, _⟩ := L.binv k
        rcases hk3 with hk3 | ⟨p, hk3⟩
        · obtain ⟨c, hc1, hc2, hc3⟩ := hI.sem.waiting _ (List.mem_append_left _ hk2)
          rw [← hc2] at hk2 hk3
          exact ⟨k, _, hk1, hk3, hdropped hI.sem (L.step _ _ hk3).1 hc1 (.inr ⟨hk2, by rw [hc3]; simp⟩)⟩
        · obtain ⟨k', ev, h3, h4⟩ := hready (k + 1) _ (by omega) (granted_poll hI.sem (L.step _ _ hk3).1 hk2 (hopen k (by omega))).1 rfl
          exact ⟨k', ev, by omega, h4⟩
    · exact hmsg m hm hq
  refine no_descent (fun m => (xs m).sem.queue.idxOf nm) (n + 1) (fun m hm => ?_) fun m hm => ?_
  · cases he : evs m with
    | none => rw [(L.wake _ he).1]
    | some ev =>
      obtain ⟨tr, hI, _⟩ := L.binv m
      exact place_le hI.sem (L.step _ _ he).1 (hqueue m (by omega)) (hqueue (m + 1) (by omega))
  · obtain ⟨k, ev, h1, h2, h3⟩ := hprog m (by omega)
    exact ⟨k, h1, hfrees k ev (by omega) h2 h3⟩

/-- as long as the worker lives and the service does not fail, `poll_ready` of a handle does not fail -/
theorem handle_never_fails (L : BufLife S bound svc ws xs ks evs) (hd : ∀ m, evs m ≠ some .workerDropped ∧ evs m ≠ some .svcPanics) (hf : ∀ m e, evs m ≠ some (.svcFailed e)) {nm m : Nat} {e : BufErr Err}
    (h : evs m = some (.ready nm (.ready (.error e)))) : False := by
  obtain ⟨tr, hb, ht⟩ := L.bhist m
  have hc : (xs m).closed = true := by
    have key : ∀ {x y : Buf S}, SemInv x → BStep x (.ready nm (.ready (.error e))) y → x.closed = true := by
      intro x y hI hs
      generalize he : BEv.ready nm (.ready (.error e)) = ev at hs
      cases hs with
      | worker hs => cases hs <;> cases he
      | death hs => cases hs <;> cases he
      | future hs => cases hs <;> cases he
      | handle hs =>
        cases hs
        case ready a l r e' =>
          injection he with he1 he2
          cases hst : a.st with
          | closed => exact hI.hclosed a (by rw [e']; simp) hst
          | ready => rw [Buf.pollReady, hst] at he2; cases he2
          | idle =>
            rw [Buf.pollReady, hst] at he2
            revert he2
            simp only [Buf.reserve]
            split
            · intro _; assumption
            · split <;> intro h <;> cases h
          | acquiring =>
            rw [Buf.pollReady, hst] at he2
            revert he2
            simp only [Buf.reserve]
            split
            · intro _; assumption
            · split <;> intro h <;> cases h
        all_goals cases he
    exact key (BHist.inv hb).sem (L.step _ _ h).1
  have hI := BHist.inv hb
  rcases hI.ctl.closed hc with h1 | h1
  · obtain ⟨e', h1⟩ := Option.ne_none_iff_exists'.1 h1
    obtain ⟨j, _, h2⟩ := (ht _).1 (hI.ctl.errTr e' (hI.ctl.f_err e' h1).1); exact hf j e' h2
  · rcases (hI.ctl.dying h1).2 with h2 | h2
    · obtain ⟨j, _, h3⟩ := (ht _).1 h2; exact (hd j).2 h3
    · obtain ⟨j, _, h3⟩ := (ht _).1 h2; exact (hd j).1 h3

/-- C93: and if the handle is not dropped, the service does not fail and the worker does not die, then what it is told is `Ready(Ok)`: it has a slot. -/
theorem C93_granted (L : BufLife S bound svc ws xs ks evs) (Fr : BufFair F ws xs ks evs) (U : BufUsers ks evs) (hS : NeverHangs F S svc) (hb : 0 < bound) {nm n : Nat} (hp : evs n = some (.ready nm .pending))
    (hd : ∀ m, evs m ≠ some .workerDropped ∧ evs m ≠ some .svcPanics) (hf : ∀ m e, evs m ≠ some (.svcFailed e)) (hk : ∀ m, evs m ≠ some (.dropHandle nm)) : ∃ m, n < m ∧ evs m = some (.ready nm (.ready (.ok ()))) := by
  obtain ⟨m, hm, h⟩ := C93_slot L Fr U hS hb hp
  obtain ⟨v, h⟩ := h.resolve_left (hk m)
  cases v with
  | ok u => exact ⟨m, hm, h⟩
  | error e => exact (handle_never_fails L hd hf h).elim

/-! ## A concrete case: two handles of a buffer for one request -/

section Demo

abbrev ba : BHandle := ⟨0, .idle⟩
abbrev b0 : Buf warm := Buf.init warm 1 (0 : Nat)
abbrev b1 : Buf warm := { b0 with hs := [⟨0, .ready⟩], sem := ⟨0, [], []⟩ }
abbrev b2 : Buf warm := { b1 with hs := [⟨0, .ready⟩, ⟨1, .idle⟩], nextName := 2 }
abbrev b3 : Buf warm := { b2 with hs := [⟨0, .ready⟩, ⟨1, .acquiring⟩], sem := ⟨0, [1], []⟩ }
abbrev b4 : Buf warm := { b3 with hs := [⟨0, .idle⟩, ⟨1, .acquiring⟩], queue := [lm], shots := Function.update b3.shots 0 .waiting, futs := Function.update b3.futs 0 .rx, calls := 1 }
abbrev b5 : Buf warm := { b4 with pc := .next }
abbrev b6 : Buf warm := { b5 with pc := .recv }
abbrev b7 : Buf warm := { b6 with queue := [], sem := ⟨0, [], [1]⟩, pc := .check lm }
abbrev b8 : Buf warm := { b7 with hs := [⟨0, .idle⟩, ⟨1, .ready⟩], sem := ⟨0, [], []⟩ }
abbrev b9 : Buf warm := { b8 with hs := [⟨0, .idle⟩], sem := ⟨1, [], []⟩ }
abbrev b10 : Buf warm := { b9 with pc := .got lm }
abbrev b11 : Buf warm := { b10 with svc := (0 : Nat), pc := .call lm }
abbrev b12 : Buf warm := { b11 with svc := (1 : Nat), pc := .reply lm (8 : Nat) }
abbrev b13 : Buf warm := { b12.send 0 (.ok (8 : Nat)) with pc := .next }
abbrev b14 : Buf warm := { b13 with pc := .recv }
abbrev b15 : Buf warm := { b14 with pc := .parked }

def bx : Nat → Buf warm
  | 0 => b0 | 1 => b1 | 2 => b2 | 3 => b3 | 4 => b4 | 5 => b5 | 6 => b6 | 7 => b7 | 8 => b8 | 9 => b9 | 10 => b10 | 11 => b11 | 12 => b12
  | 13 => b13 | 14 => b14 | _ => b15

def be : Nat → Option (BEv warm)
  | 0 => some (.ready 0 (.ready (.ok ())))
  | 1 => some (.clone 0 1)
  | 2 => some (.ready 1 .pending)
  | 3 => some (.accept 0 0 7)
  | 4 | 5 | 6 => some .tau
  | 7 => some (.ready 1 (.ready (.ok ())))
  | 8 => some (.dropHandle 1)
  | 9 | 10 => some .tau
  | 11 => some (.dispatch 0 7 (8 : Nat))
  | 12 | 13 | 14 => some .tau
  | _ => none

def bk : Nat → Wakers
  | 0 => .init
  | n + 1 => match be n with
    | none => bk n
    | some ev => (bx n).wakes ev (bx (n + 1)) (bk n)

theorem bsteps : ∀ n ev, be n = some ev → BStep (bx n) ev (bx (n + 1))
  | 0, _, rfl => .handle (HStep.ready (x := b0) (h := ⟨0, .idle⟩) (l := []) (r := []) rfl)
  | 1, _, rfl => .handle (HStep.clone (x := b1) (h := ⟨0, .ready⟩) (by simp))
  | 2, _, rfl => .handle (HStep.ready (x := b2) (h := ⟨1, .idle⟩) (l := [⟨0, .ready⟩]) (r := []) rfl)
  | 3, _, rfl => .handle (HStep.call (x := b3) (h := ⟨0, .ready⟩) (l := []) (r := [⟨1, .acquiring⟩]) rfl rfl)
  | 4, _, rfl => .worker (.start rfl)
  | 5, _, rfl => .worker (.fresh rfl rfl)
  | 6, _, rfl => .worker (.recv rfl rfl)
  | 7, _, rfl => .handle (HStep.ready (x := b7) (h := ⟨1, .acquiring⟩) (l := [⟨0, .idle⟩]) (r := []) rfl)
  | 8, _, rfl => .handle (HStep.drop (x := b8) (h := ⟨1, .ready⟩) (l := [⟨0, .idle⟩]) (r := []) rfl)
  | 9, _, rfl => .worker (.wanted rfl rfl)
  | 10, _, rfl => .worker (.svc_ready (w := ()) (w' := ()) rfl rfl rfl)
  | 11, _, rfl => .worker (WStep.svc_call (x := b11) (m := lm) (f := (8 : Nat)) (s' := (1 : Nat)) (w := ()) (w' := ()) rfl rfl)
  | 12, _, rfl => .worker (WStep.reply (x := b12) (m := lm) (f := (8 : Nat)) rfl)
  | 13, _, rfl => .worker (.fresh rfl rfl)
  | 14, _, rfl => .worker (.empty rfl rfl (by intro h; cases h) (by intro h; cases h))

theorem by_time15 {P : Nat → Prop} (h : ∀ n, n < 15 → P n) (h' : ∀ n, P (n + 15)) (n : Nat) : P n := by
  by_cases hn : n < 15
  · exact h n hn
  · obtain ⟨k, rfl⟩ := Nat.exists_eq_add_of_le (Nat.le_of_not_lt hn)
    rw [Nat.add_comm]; exact h' k

theorem bk_late (n : Nat) : bk (n + 15) = bk 15 := by
  induction n with
  | zero => rfl
  | succ n ih => rw [← ih]; rfl

theorem slot_life : BufLife warm 1 (0 : Nat) (fun _ => ()) bx bk be where
  start := rfl
  startWakers := rfl
  step n ev he := by
    refine ⟨bsteps n ev he, ?_, ?_⟩
    · revert n
      refine by_time15 (fun n hn => ?_) fun n he => by cases he
      intro _
      interval_cases n <;> first | exact fun _ _ => rfl | exact nofun | exact fun _ => nofun
    · show (match be n with | none => bk n | some ev => (bx n).wakes ev (bx (n + 1)) (bk n)) = _
      rw [he]
  wake n he := by
    have h1 : bx (n + 1) = bx n := by
      revert n
      refine by_time15 (fun n hn => ?_) fun n _ => rfl
      intro he
      interval_cases n <;> first | rfl | cases he
    have h2 : bk (n + 1) = bk n := by
      show (match be n with | none => bk n | some ev => (bx n).wakes ev (bx (n + 1)) (bk n)) = _
      rw [he]
    rw [h2]
    exact ⟨h1, id, rfl, fun _ => id, fun _ => id⟩
  svcWorld n := by
    revert n
    refine by_time15 (fun n hn => ?_) fun n => ?_
    · rintro ⟨m, h1, h2, h3⟩
      interval_cases n <;> first | cases h1 | skip
      exact .inr (.inl ⟨_, (), rfl, by simp [be]⟩)
    · rintro ⟨m, h1, _⟩; cases h1
  futWorld n i f hf := by
    refine ⟨fun he => ?_, fun v he => ⟨_, f, (), rfl⟩⟩
    exfalso
    revert n
    refine by_time15 (fun n hn => ?_) fun n _ he => by cases he
    intro _ he
    interval_cases n <;> cases he

theorem slot_fair : BufFair always (S := warm) (fun _ => ()) bx bk be where
  runs n := by
    revert n
    refine by_time15 (fun n hn => ?_) fun n h _ _ => ?_
    · exact fun _ _ _ => ⟨14, .tau, by omega, rfl, .inl (.empty rfl rfl (by intro h; cases h) (by intro h; cases h))⟩
    · rw [bk_late n] at h; cases h rfl
  svcWakes n := by
    revert n
    refine by_time15 (fun n hn => ?_) fun n _ h => absurd rfl h
    intro hp hc
    refine ⟨4, ?_, .inl rfl⟩
    interval_cases n <;> first | omega | cases hp
  svcFair _ _ _ := trivial
  futFair _ _ _ _ := trivial

theorem slot_users : BufUsers (S := warm) bk be where
  polls nm n hw _ := by
    obtain ⟨j, hj, he, hk⟩ := hw
    have hj2 : j = 2 ∧ nm = 1 := by
      clear hk hj
      revert j
      refine by_time15 (fun j hj => ?_) fun j he => by cases he
      intro he
      interval_cases j <;> cases he
      exact ⟨rfl, rfl⟩
    obtain ⟨rfl, rfl⟩ := hj2
    by_cases hn : n ≤ 7
    · exact ⟨7, hn, .inr ⟨_, rfl⟩⟩
    · exact absurd rfl ((hk 7 (by omega) (by omega)).2 (.ok ()))
  calls nm n hw := by
    obtain ⟨j, hj, he, hk⟩ := hw
    have hj2 : (j = 0 ∧ nm = 0) ∨ (j = 7 ∧ nm = 1) := by
      clear hk hj
      revert j
      refine by_time15 (fun j hj => ?_) fun j he => by cases he
      intro he
      interval_cases j <;> cases he
      · exact .inl ⟨rfl, rfl⟩
      · exact .inr ⟨rfl, rfl⟩
    rcases hj2 with ⟨rfl, rfl⟩ | ⟨rfl, rfl⟩
    · by_cases hn : n ≤ 3
      · exact ⟨3, hn, .inr ⟨_, _, rfl⟩⟩
      · exact absurd rfl ((hk 3 (by omega) (by omega)).2 0 7)
    · by_cases hn : n ≤ 8
      · exact ⟨8, hn, .inl rfl⟩
      · exact absurd rfl (hk 8 (by omega) (by omega)).1

example : ∃ m, 2 < m ∧ (be m = some (.dropHandle 1) ∨ ∃ v, be m = some (.ready 1 (.ready v))) :=
  C93_slot slot_life slot_fair slot_users (warm_live 0) (by decide) rfl

/-- the bound is needed: with a bound of zero (which `tower` does not accept) everybody waits -/
example : ((Buf.init warm 0 (0 : Nat)).pollReady ⟨0, .idle⟩).1 = .pending := rfl

/-! ### With a handle that keeps its slot, the others wait for ever -/

def gx : Nat → Buf warm | 0 => b0 | 1 => b1 | 2 => b2 | _ => b3
def ge : Nat → Option (BEv warm) | 0 => some (.ready 0 (.ready (.ok ()))) | 1 => some (.clone 0 1) | 2 => some (.ready 1 .pending) | _ => none

example : (∀ n ev, ge n = some ev → BStep (gx n) ev (gx (n + 1))) ∧ ge 2 = some (.ready 1 .pending) ∧ ∀ m, 2 < m → ge m = none ∧ gx m = b3 := by
  refine ⟨fun n ev he => ?_, rfl, fun m hm => ?_⟩
  · match n, he with
    | 0, rfl => exact bsteps 0 _ rfl
    | 1, rfl => exact bsteps 1 _ rfl
    | 2, rfl => exact bsteps 2 _ rfl
  · match m, hm with
    | m + 3, _ => exact ⟨rfl, rfl⟩

end Demo

end Tower
