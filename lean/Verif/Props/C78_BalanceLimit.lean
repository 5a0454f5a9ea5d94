import Verif.Model.BalLim
import Verif.Proof.Linear2
import Verif.Proof.LimTo
import Verif.Props.C77_Linear

/-! # C78: `Balance` with endpoints under a concurrency limit -/

namespace Tower
open Act
set_option linter.unusedSectionVars false
set_option linter.unusedSimpArgs false
variable {W Req Res Err : Type} {K : Type} [DecidableEq K] {DErr BErr : Type} {C : BlCfg W Req Res Err K DErr BErr} {max : Nat}

/-! ## Specification -/

/-- The endpoints in the balancers that are under the limit. -/
def BlStack.limited (x : BlStack C) : List (ConcState C.B.S.σ Nat) := (x.bals.flatMap (fun b => b.svcs.pending.map (·.svc) ++ b.svcs.ready.map (·.2.1))).filterMap Sum.getLeft?

/-- Requests given to inner services under the limit whose futures exist: those of the balancers and those of other users. -/
def BlStack.inFlight (x : BlStack C) : Nat := (x.futs.filterMap Sum.getLeft?).length + x.fs.length

/-- The permits kept by endpoints of the balancers and by handles of other users. -/
def BlStack.reserved (x : BlStack C) : Nat := x.limited.countP (·.permit) + x.hs.countP (·.permit)

/-- The permits nobody keeps: free, or assigned to a handle that has not polled since. -/
def BlStack.free (x : BlStack C) : Nat := x.sem.permits + x.sem.granted.length

/-! ## Proofs -/

section
variable {debug : Bool} {S : Service W Req Res Err}

theorem lim_name_ready {s s' : ConcState S.σ Nat} {p sem sem' n n' w w'} (h : ((LimSvc debug (S.snd Nat)).pollReady s).run (sem, (n, w)) = .ok (p, s') (sem', (n', w'))) : n' = n := by
  obtain ⟨i, m, b⟩ := s
  cases b with
  | true =>
    obtain ⟨a, ⟨s1, n1, w1⟩, h1, h2⟩ := run_bind_eq_ok.1 h
    have := (snd_eq_ok.1 (snd_eq_ok.1 h1).1).2
    cases h2; exact this
  | false =>
    obtain ⟨⟨q, a⟩, ⟨s1, n1, w1⟩, h1, h2⟩ := run_bind_eq_ok.1 h
    have e : n1 = n := by have := (Out.ok.inj h1).2; exact (congrArg (fun x => x.2.1) this).symm
    cases q with
    | pending => cases h2; exact e
    | ready got =>
      dsimp only at h2
      split at h2
      · cases h2
      · obtain ⟨b, ⟨s2, n2, w2⟩, h3, h4⟩ := run_bind_eq_ok.1 h2
        have := (snd_eq_ok.1 (snd_eq_ok.1 h3).1).2
        cases h4; exact this.trans e

theorem lim_name_call {s s' : ConcState S.σ Nat} {q : Req} {f : S.φ} {sem sem' n n' w w'} (h : ((LimSvc debug (S.snd Nat)).call s q).run (sem, (n, w)) = .ok (f, s') (sem', (n', w'))) : n' = n := by
  obtain ⟨i, m, b⟩ := s
  cases b with
  | false => cases h
  | true =>
    obtain ⟨a, ⟨s1, n1, w1⟩, h1, h2⟩ := run_bind_eq_ok.1 h
    have := (snd_eq_ok.1 (snd_eq_ok.1 h1).1).2
    cases h2; exact this

/-- the limit's history, with handles and futures among the endpoints and their futures -/
def mixR (debug : Bool) (max : Nat) (S : Service W Req Res Err) (H : List (ConcState S.σ Nat)) (G : List S.φ) (hs : List (ConcState S.σ Nat ⊕ S.σ)) (fs : List (S.φ ⊕ S.φ)) (w : Sem × (Nat × W)) : Prop :=
  ∃ arr, LimTo debug max (S.snd Nat) w.1 (hs.filterMap Sum.getLeft? ++ H) (fs.filterMap Sum.getLeft? ++ G) w.2.1 arr

variable {H : List (ConcState S.σ Nat)} {G : List S.φ}

theorem mix_poll {hs : List (ConcState S.σ Nat ⊕ S.σ)} {f f' : S.φ ⊕ S.φ} {fs w p w'} (h : mixR debug max S H G hs (f :: fs) w) (hr : ((mixSvc debug S).poll f).run w = .ok (p, f') w') :
    mixR debug max S H G hs (f' :: fs) w' := by
  obtain ⟨arr, h⟩ := h
  cases f with
  | inl g =>
    obtain ⟨a, w1, h1, h2⟩ := run_bind_eq_ok.1 hr
    have e := snd_eq_ok.1 h1
    have e1 := (snd_eq_ok.1 e.1).2
    cases h2
    obtain ⟨s1, n1, w1⟩ := w
    obtain ⟨s2, n2, w2⟩ := w'
    dsimp only at e1; subst e1
    exact ⟨_, LimTo.poll (S := S.snd Nat) (f := g) h h1⟩
  | inr g =>
    obtain ⟨a, w1, h1, h2⟩ := run_bind_eq_ok.1 hr
    have e := snd_eq_ok.1 h1
    have e1 := (snd_eq_ok.1 e.1).2
    cases h2
    refine ⟨arr, ?_⟩
    rw [e.2, e1]; exact h

theorem mix_frame (debug : Bool) (max : Nat) (S : Service W Req Res Err) (d : S.σ → W → W) (H : List (ConcState S.σ Nat)) (G : List S.φ) : Frame (mixSvc debug S) (mixDrop d) (mixR debug max S H G) where
  perm := by
    rintro hs hs' fs fs' w ⟨arr, h⟩ h1 h2
    exact ⟨arr, h.perm ((h1.filterMap _).append_right _) ((h2.filterMap _).append_right _)⟩
  ready := by
    rintro s hs fs w p s' w' ⟨arr, h⟩ hr
    cases s with
    | inl s =>
      obtain ⟨a, w1, h1, h2⟩ := run_bind_eq_ok.1 hr
      cases h2
      obtain ⟨s1, n1, w1⟩ := w
      obtain ⟨s2, n2, w2⟩ := w'
      have := lim_name_ready h1
      subst this
      exact ⟨_, LimTo.ready (S := S.snd Nat) (s := s) h h1⟩
    | inr s =>
      obtain ⟨a, w1, h1, h2⟩ := run_bind_eq_ok.1 hr
      have e := snd_eq_ok.1 h1
      have e1 := (snd_eq_ok.1 e.1).2
      cases h2
      refine ⟨arr, ?_⟩
      rw [e.2, e1]; exact h
  call := by
    rintro s hs fs w q f s' w' ⟨arr, h⟩ hr
    cases s with
    | inl s =>
      obtain ⟨a, w1, h1, h2⟩ := run_bind_eq_ok.1 hr
      cases h2
      obtain ⟨s1, n1, w1⟩ := w
      obtain ⟨s2, n2, w2⟩ := w'
      have := lim_name_call h1
      subst this
      exact ⟨_, LimTo.call (S := S.snd Nat) (s := s) h h1⟩
    | inr s =>
      obtain ⟨a, w1, h1, h2⟩ := run_bind_eq_ok.1 hr
      have e := snd_eq_ok.1 h1
      have e1 := (snd_eq_ok.1 e.1).2
      cases h2
      refine ⟨arr, ?_⟩
      rw [e.2, e1]; exact h
  poll := mix_poll
  drop := by
    rintro s hs fs w ⟨arr, h⟩
    cases s with
    | inl s => exact ⟨_, LimTo.drop_handle (S := S.snd Nat) (s := s) h⟩
    | inr s => exact ⟨arr, h⟩

end

theorem bl_frame (C : BlCfg W Req Res Err K DErr BErr) (max : Nat) (H : List (ConcState C.B.S.σ Nat)) (G : List C.B.S.φ) : BFrame C.bal (mixDrop C.dtor) (fun _ => []) (mixR C.debug max C.B.S H G) where
  svc := mix_frame C.debug max C.B.S C.dtor H G
  order := fun n h => h
  load := by
    rintro hs fs w s m w' ⟨arr, h⟩ hr
    refine ⟨arr, ?_⟩
    cases s with
    | inl s =>
      have e := snd_eq_ok.1 hr
      have e1 := (snd_eq_ok.1 e.1).2
      rw [e.2, e1]; exact h
    | inr s =>
      have e := snd_eq_ok.1 hr
      have e1 := (snd_eq_ok.1 e.1).2
      rw [e.2, e1]; exact h
  disc := by
    rintro x hs fs w p x' w' ⟨arr, h⟩ hr
    obtain ⟨⟨r, y⟩, w1, h1, h2⟩ := run_bind_eq_ok.1 hr
    have e := snd_eq_ok.1 h1
    have e1 := (snd_eq_ok.1 e.1).2
    have h : LimTo C.debug max (C.B.S.snd Nat) w1.1 (hs.filterMap Sum.getLeft? ++ H) (fs.filterMap Sum.getLeft? ++ G) w1.2.1 arr := by rw [e.2, e1]; exact h
    rcases r with _ | (_ | (_ | (⟨k, s⟩ | k)))
    · cases h2; exact ⟨arr, h⟩
    · cases h2; exact ⟨arr, h⟩
    · cases h2; exact ⟨arr, h⟩
    · obtain ⟨z, w2, h3, h4⟩ := run_bind_eq_ok.1 h2
      cases h4
      unfold limitNew at h3
      split at h3
      · cases h3
        exact ⟨arr, h.with_semaphore s⟩
      · cases h3
        exact ⟨arr, h⟩
    · cases h2; exact ⟨arr, h⟩

/-- what a ready endpoint satisfies: it has a permit -/
def HasPermit {σ : Type} : ConcState σ Nat ⊕ σ → Prop
  | .inl s => s.permit = true
  | .inr _ => True

theorem mix_onReady (debug : Bool) (S : Service W Req Res Err) : OnReady (mixSvc debug S) HasPermit := by
  intro s w s' w' hr
  cases s with
  | inl s =>
    obtain ⟨⟨p, s1⟩, w1, h1, h2⟩ := run_bind_eq_ok.1 hr
    cases h2
    exact C04_ready_has_permit (S := S.snd Nat) (x := ⟨w.1, [], [], 0⟩) h1
  | inr s =>
    obtain ⟨⟨p, s1⟩, w1, h1, h2⟩ := run_bind_eq_ok.1 hr
    cases h2
    trivial

theorem flat_mid {α β : Type} (f : α → List β) {l r : List α} {c : α} : ((l ++ c :: r).flatMap f).Perm (f c ++ (l ++ r).flatMap f) := by
  have := flat_split f (l := l) (r := r) (c := c) (t := [])
  simpa using this

theorem held_nil {B : BalCfg W Req Res Err K DErr BErr} (b : Balance B) : b.held (fun _ => []) = b.svcs.held := rfl

/-- what holds in every history -/
theorem BlHist.inv {x : BlStack C} (h : BlHist C max x) :
    (∃ arr, LimTo C.debug max (C.B.S.snd Nat) x.sem ((x.bals.flatMap (fun b => b.svcs.held)).filterMap Sum.getLeft? ++ x.hs) (x.futs.filterMap Sum.getLeft? ++ x.fs) x.next arr) ∧ ∀ b ∈ x.bals, b.svcs.RK ∧ b.svcs.RP (S := C.bal.S) HasPermit := by
  induction h with
  | new i => exact ⟨⟨_, LimTo.new (S := C.B.S.snd Nat) i⟩, fun b hb => by cases hb⟩
  | @step x x' _ ht ih =>
    obtain ⟨hl', hb⟩ := ih
    have hl : ∀ w, mixR C.debug max C.B.S x.hs x.fs (x.bals.flatMap (fun b => b.svcs.held)) x.futs (x.sem, (x.next, w)) := fun w => hl'
    have F := bl_frame C max x.hs x.fs
    have O := mix_onReady C.debug C.B.S
    have part : ∀ {l r : List (Balance C.bal)} {b b' : Balance C.bal}, x.bals = l ++ b :: r → b'.svcs.RK ∧ b'.svcs.RP (S := C.bal.S) HasPermit → ∀ b1 ∈ l ++ b' :: r, b1.svcs.RK ∧ b1.svcs.RP (S := C.bal.S) HasPermit := by
      intro l r b b' hs hb' b1 h1
      rcases List.mem_append.1 h1 with h2 | h2
      · exact hb b1 (by rw [hs]; exact List.mem_append_left _ h2)
      · rcases List.mem_cons.1 h2 with rfl | h2
        · exact hb'
        · exact hb b1 (by rw [hs]; exact List.mem_append_right _ (List.mem_cons_of_mem _ h2))
    cases ht with
    | new d r =>
      refine ⟨?_, ?_⟩
      · have := hl'
        dsimp only
        rw [List.flatMap_append]
        simpa [Balance.fromRng, Cache.empty, Cache.held] using this
      · intro b hm
        rcases List.mem_append.1 hm with h1 | h1
        · exact hb b h1
        · rw [List.mem_singleton] at h1; subst h1
          exact ⟨List.nodup_nil, fun e he => by cases he⟩
    | @ready l r b b' fuel p sem' next' w w' hs hr =>
      obtain ⟨h1, h2⟩ := hb b (by rw [hs]; simp)
      have h3 := hl w
      rw [hs] at h3
      have h4 := F.svc.permL h3 (flat_mid _)
      obtain ⟨h5, h6⟩ := wpx_ok (F.pollReady (b := b) h1 h4) hr
      have h7 := wpx_ok (O.pollReady (B := C.bal) h2) hr
      refine ⟨?_, part hs ⟨h5, h7⟩⟩
      have h8 := F.svc.permL h6 (flat_mid (fun b : Balance C.bal => b.svcs.held) (c := b')).symm
      exact h8
    | @call l r b b' f q sem' next' w w' hs hr =>
      obtain ⟨h1, h2⟩ := hb b (by rw [hs]; simp)
      have h3 := hl w
      rw [hs] at h3
      have h4 := F.svc.permL h3 (flat_mid _)
      obtain ⟨h5, h6⟩ := wpx_ok (F.call (b := b) h1 h4) hr
      have h7 := wpx_ok (OnReady.call (B := C.bal) h2) hr
      refine ⟨?_, part hs ⟨h5, h7⟩⟩
      have h8 := F.svc.perm h6 (flat_mid (fun b : Balance C.bal => b.svcs.held) (c := b')).symm (List.perm_append_comm (l₁ := [f]))
      exact h8
    | @poll l r f f' p sem' next' w w' hs hr =>
      have h3 := hl w
      rw [hs] at h3
      have h4 := F.svc.perm h3 (.refl _) List.perm_middle
      have h5 := F.svc.perm (mix_poll h4 hr) (.refl _) List.perm_middle.symm
      exact ⟨h5, hb⟩
    | @drop_future l r f hs =>
      refine ⟨?_, hb⟩
      obtain ⟨arr, h3⟩ := hl'
      rw [hs] at h3
      have h4 := h3.perm (.refl _) ((List.perm_middle.filterMap _).append_right _)
      cases f with
      | inl g => exact ⟨arr, LimTo.drop_future (S := C.B.S.snd Nat) (f := g) h4⟩
      | inr g => exact ⟨arr, h4⟩
    | @drop_balance l r b w sem' next' w' hs hd =>
      have h3 := hl w
      rw [hs] at h3
      have h4 := F.svc.dropAll (F.svc.permL h3 (flat_mid _))
      rw [hd] at h4
      refine ⟨h4, fun b1 h1 => hb b1 ?_⟩
      rw [hs]
      rcases List.mem_append.1 h1 with h2 | h2
      · exact List.mem_append_left _ h2
      · exact List.mem_append_right _ (List.mem_cons_of_mem _ h2)
    | other ho =>
      refine ⟨?_, hb⟩
      obtain ⟨arr, h4⟩ := hl'
      exact h4.other ho

/-! ## C78 -/

/-- **C78.** In every history, every permit is in one place: free, kept by an endpoint or by a handle of another user, or with a request in flight. -/
theorem C78_conserved {x : BlStack C} (h : BlHist C max x) : x.free + x.reserved + x.inFlight = max := by
  obtain ⟨arr, hl⟩ := h.inv.1
  have := hl.inv.conserved
  simp only [Lim.holders, List.countP_append, List.length_append] at this
  simp only [BlStack.free, BlStack.reserved, BlStack.inFlight, BlStack.limited]
  simp only [Cache.held] at this
  omega

/-- **C78.** At most `max` requests are in flight at the endpoints that share the limit and at other users of it together. -/
theorem C78_limit {x : BlStack C} (h : BlHist C max x) : x.inFlight ≤ max := by
  have := C78_conserved h
  omega

/-- **C78.** Every endpoint of a balancer that counts as ready and is under the limit keeps a permit, whether or not the balancer is used. -/
theorem C78_ready_holds {x : BlStack C} (h : BlHist C max x) {b : Balance C.bal} (hb : b ∈ x.bals) {k s t} (he : (k, ((Sum.inl s : ConcState C.B.S.σ Nat ⊕ C.B.S.σ), t)) ∈ b.svcs.ready) : s.permit = true :=
  (h.inv.2 b hb).2 _ he

/-- **C78.** So the ready endpoints under the limit are never more than its permits, less the requests in flight and what is free. -/
theorem C78_ready_bound {x : BlStack C} (h : BlHist C max x) :
    ((x.bals.flatMap (fun b => b.svcs.ready.map (·.2.1))).filterMap Sum.getLeft?).length + x.free + x.inFlight ≤ max := by
  have h1 := C78_conserved h
  suffices hh : ((x.bals.flatMap (fun b => b.svcs.ready.map (·.2.1))).filterMap Sum.getLeft?).length ≤ x.limited.countP (·.permit) by
    simp only [BlStack.reserved] at h1; omega
  have hp := h.inv.2
  unfold BlStack.limited
  generalize x.bals = bs at hp
  induction bs with
  | nil => simp
  | cons b bs ih =>
    have h2 := ih (fun b' hb' => hp b' (List.mem_cons_of_mem _ hb'))
    simp only [List.flatMap_cons, List.filterMap_append, List.length_append, List.countP_append]
    have h3 := (hp b List.mem_cons_self).2
    have h4 : ∀ l : IMap K (C.bal.S.σ × (Nat × Nat)), (∀ e ∈ l, HasPermit (σ := C.B.S.σ) e.2.1) →
        ((l.map (·.2.1)).filterMap (Sum.getLeft? (α := ConcState C.B.S.σ Nat) (β := C.B.S.σ))).length = ((l.map (·.2.1)).filterMap (Sum.getLeft? (α := ConcState C.B.S.σ Nat) (β := C.B.S.σ))).countP (·.permit) := by
      intro l hl
      refine (List.countP_eq_length.2 ?_).symm
      intro s hs
      obtain ⟨y, hy, hy2⟩ := List.mem_filterMap.1 hs
      obtain ⟨e, he, rfl⟩ := List.mem_map.1 hy
      have := hl e he
      generalize e.2.1 = z at this hy2
      cases z with
      | inl z => cases hy2; exact this
      | inr z => cases hy2
    have h5 := h4 b.svcs.ready h3
    exact (Nat.add_le_add (le_of_eq h5) h2).trans (Nat.add_le_add_right (Nat.le_add_left _ _) _)

/-- **C78.** When the balancers, the response futures and the other handles are gone, all permits are back and nobody waits: endpoints that were removed, replaced, failed or dropped while waiting have not kept any. -/
theorem C78_returned {x : BlStack C} (h : BlHist C max x) (h1 : x.bals = []) (h2 : x.futs = []) (h3 : x.hs = []) (h4 : x.fs = []) : x.sem = Sem.new max := by
  obtain ⟨arr, y, a, b, c, d, _⟩ := h.inv.1
  rw [h1, h3] at c
  rw [h2, h4] at d
  have b : y.sem = x.sem := b
  rw [← b]
  exact C05_all_dropped a c.eq_nil d.eq_nil

/-- **C78.** An endpoint that discovery removes while it is ready gives its permit back at once. -/
theorem C78_removed {x : BlStack C} (h : BlHist C max x) {b : Balance C.bal} (hb : b ∈ x.bals) {k s t} (he : (k, ((Sum.inl s : ConcState C.B.S.σ Nat ⊕ C.B.S.σ), t)) ∈ b.svcs.ready)
    {c' sem' next' w w'} (hr : (Balance.applyD (B := C.bal) (mixDrop C.dtor) b.svcs (.remove k)).run (x.sem, (x.next, w)) = .ok c' (sem', (next', w'))) :
    sem' = x.sem.release ∧ k ∉ c'.ready.map (·.1) := by
  have hk := (h.inv.2 b hb).1
  have hp := C78_ready_holds h hb he
  obtain ⟨arr, hl⟩ := h.inv.1
  obtain ⟨r, w1, h1, h2⟩ := run_bind_eq_ok.1 hr
  cases h2
  have h2 := (b.svcs.evictPending_held k).2
  unfold Cache.evictD at h1
  generalize b.svcs.evictPending k = z at h1 h2
  obtain ⟨bo, c1⟩ := z
  dsimp only at h1 h2
  rw [h2] at h1
  split at h1
  · rename_i s1 t1 m' hsw
    have hpm := IMap.swapRemove_some hsw
    have e := IMap.nodup_val hk he (hpm.mem_iff.2 List.mem_cons_self)
    cases e
    cases h1
    constructor
    · have hm : s ∈ (x.bals.flatMap (fun b => b.svcs.held)).filterMap Sum.getLeft? ++ x.hs := by
        refine List.mem_append_left _ (List.mem_filterMap.2 ⟨.inl s, List.mem_flatMap.2 ⟨b, hb, ?_⟩, rfl⟩)
        exact List.mem_append_right _ (List.mem_map_of_mem he)
      have hn := hl.inv.not_waiting (s := s) hm hp
      have ho := hl.inv.order
      dsimp only at ho
      have hg : s.sem ∉ x.sem.granted := fun h => hn (by rw [ho]; exact List.mem_append_left _ h)
      have hq : s.sem ∉ x.sem.queue := fun h => hn (by rw [ho]; exact List.mem_append_right _ h)
      show dropConc x.sem s = _
      unfold dropConc
      rw [if_pos hp, Sem.dropAcquire, if_neg hg, List.erase_of_not_mem hq]
    · have hn := (hpm.map Prod.fst).nodup_iff.1 hk
      exact (List.nodup_cons.1 hn).1
  · rename_i hsw
    exact absurd (List.mem_map_of_mem he) (IMap.swapRemove_none hsw)

/-! ## Concrete cases -/

/-- **C78.** The discovery that wraps the services says what the discovery says, in the same world; a service it hands out is under the limit, with a new handle that has no permit, if it is to be limited, and else it is left alone. -/
theorem C78_same_discovery {V : Type} (lim : K → V → Bool) (D : Discover W K V DErr) (d : D.δ) (sem : Sem) (n : Nat) (w : W) :
    ((limDisc lim D).poll d).run (sem, (n, w)) = match (D.poll d).run w with
      | .ok (.ready (some (.ok (.insert k s))), d') w' => if lim k s then .ok (.ready (some (.ok (.insert k (.inl ⟨s, n, false⟩)))), d') (sem, (n + 1, w')) else .ok (.ready (some (.ok (.insert k (.inr s)))), d') (sem, (n, w'))
      | .ok (p, d') w' => .ok (mapDisc .inr p, d') (sem, (n, w'))
      | .panic m => .panic m
      | .spin => .spin := by
  have h0 : ((limDisc lim D).poll d).run (sem, (n, w)) = (((D.poll d).snd (A := Nat)).snd >>= fun r => _).run (sem, (n, w)) := rfl
  rw [h0]
  cases h : (D.poll d).run w with
  | ok r w' =>
    have h1 : (((D.poll d).snd (A := Nat)).snd (A := Sem)).run (sem, (n, w)) = .ok r (sem, (n, w')) := by unfold Act.snd; dsimp only; rw [h]
    rw [Act.run_bind_ok h1]
    obtain ⟨p, d'⟩ := r
    rcases p with _ | (_ | (_ | (_ | _)))
    · rfl
    · rfl
    · rfl
    · rename_i k s
      unfold limitNew
      dsimp only
      cases lim k s <;> rfl
    · rfl
  | panic m =>
    have h1 : (((D.poll d).snd (A := Nat)).snd (A := Sem)).run (sem, (n, w)) = .panic m := by unfold Act.snd; dsimp only; rw [h]
    rw [Act.run_bind, h1]
  | spin =>
    have h1 : (((D.poll d).snd (A := Nat)).snd (A := Sem)).run (sem, (n, w)) = .spin := by unfold Act.snd; dsimp only; rw [h]
    rw [Act.run_bind, h1]

namespace Demo78

/-- a service that is always ready -/
@[reducible] def svc : Service Unit Nat Nat String where
  σ := Nat
  φ := Nat
  pollReady s := pure (.ready (.ok ()), s)
  call s r := pure (r, s + 1)
  poll f := pure (.ready (.ok f), f)
  clone s := s

/-- a discovery that hands out the changes of a list, and is pending at its end and where it says so -/
@[reducible] def disc : Discover Unit Nat Nat String where
  δ := List (Option (Change Nat Nat))
  poll d := match d with
    | [] => pure (.pending, [])
    | none :: d => pure (.pending, d)
    | some c :: d => pure (.ready (some (.ok c)), d)

/-- endpoints with keys below 10 are under the limit -/
@[reducible] def cfg : BlCfg Unit Nat Nat String Nat String String where
  B := { S := svc, D := disc, L := ⟨Nat, fun s => pure s, fun a b => decide (a ≤ b)⟩, G := ⟨Nat, fun n => (n % 2 ^ 64, n + 1), fun n => Nat.mod_lt _ (by norm_num)⟩,
         V := ⟨fun _ w => ([], w)⟩, fromErr := id, fromDisc := id }
  lim k _ := decide (k < 10)
  order n _ := (List.range n, ())
  debug := true
  dtor _ w := w

/-- two endpoints under the limit and one that is not; later the first is removed -/
def d0 : List (Option (Change Nat Nat)) := [some (.insert 5 3), some (.insert 12 9), some (.insert 6 4), none, some (.remove 5)]

def b1 : Balance cfg.bal :=
  ⟨[some (.remove 5)], { pending := [], txs := [], ready := [(5, (.inl ⟨3, 1, true⟩, (0, 0))), (12, (.inr 9, (1, 1))), (6, (.inl ⟨4, 2, true⟩, (2, 2)))], cancelled := [], nextCell := 3 }, some 0, 2⟩

/-- the balancer became ready once and is not used any more -/
def x1 : BlStack cfg := ⟨⟨0, [], []⟩, 3, [b1], [], [⟨0, 0, false⟩], []⟩

theorem hx1 : BlHist cfg 2 x1 :=
  .step (.step (.new (C := cfg) (0 : Nat)) (.new (C := cfg) d0 (0 : Nat))) (.ready (l := []) (r := []) (fuel := 6) (p := .ready (.ok ())) (b' := b1) (sem' := ⟨0, [], []⟩) (next' := 3) (w := ()) (w' := ()) rfl rfl)

/-- **C78, finding.** No request is in flight, and yet no permit is free: an idle balancer keeps a permit for every ready endpoint, not only for the one it has chosen. Another user of the limit has to wait. -/
theorem C78_idle_balancer_blocks : BlHist cfg 2 x1 ∧ x1.inFlight = 0 ∧ x1.free = 0 ∧
    ((LimSvc true (svc.snd Nat)).pollReady ⟨0, 0, false⟩).run (x1.sem, (3, ())) = .ok (.pending, ⟨0, 0, false⟩) (⟨0, [0], []⟩, (3, ())) := ⟨hx1, rfl, rfl, rfl⟩

example : x1.free + x1.reserved + x1.inFlight = 2 := C78_conserved hx1

/-- the other user waits -/
def x2 : BlStack cfg := { x1 with sem := ⟨0, [0], []⟩ }
theorem hx2 : BlHist cfg 2 x2 :=
  .step hx1 (.other (C := cfg) (arr := []) (.ready (debug := true) (S := svc.snd Nat) (l := []) (r := []) (s := ⟨0, 0, false⟩) (s' := ⟨0, 0, false⟩) (p := .pending) (w := (3, ())) (w' := (3, ())) (sem' := ⟨0, [0], []⟩) rfl rfl))

/-- discovery removes endpoint 5: its permit goes to the user that waits -/
def b3 : Balance cfg.bal :=
  ⟨[], { pending := [], txs := [], ready := [(6, (.inl ⟨4, 2, true⟩, (2, 2))), (12, (.inr 9, (1, 1)))], cancelled := [], nextCell := 3 }, some 0, 2⟩
def x3 : BlStack cfg := { x2 with sem := ⟨0, [], [0]⟩, bals := [b3] }
theorem hx3 : BlHist cfg 2 x3 :=
  .step hx2 (.ready (l := []) (r := []) (fuel := 6) (p := .ready (.ok ())) (b' := b3) (sem' := ⟨0, [], [0]⟩) (next' := 3) (w := ()) (w' := ()) rfl rfl)
example : (⟨0, [], [0]⟩ : Sem) = x2.sem.release :=
  (C78_removed hx2 (b := b1) (k := 5) (s := ⟨3, 1, true⟩) (t := (0, 0)) (by simp [x2, x1]) (by simp [b1]) (w := ()) (w' := ()) (next' := 3)
    (c' := { b1.svcs with ready := [(6, (.inl ⟨4, 2, true⟩, (2, 2))), (12, (.inr 9, (1, 1)))] }) rfl).1

/-- a request, the drop of the balancer with the request in flight, and the rest: everything comes back -/
example : ∃ x : BlStack cfg, BlHist cfg 2 x ∧ x.sem = Sem.new 2 := by
  have h4 := hx3.step (.call (l := []) (r := []) (b := b3) (f := .inl (7 : Nat)) (q := 7) (sem' := ⟨0, [], [0]⟩) (next' := 3) (w := ()) (w' := ()) rfl rfl)
  have h5 := h4.step (.drop_balance (l := []) (r := []) (w := ()) (w' := ()) (sem' := ⟨0, [], [0]⟩) (next' := 3) rfl rfl)
  have h6 := h5.step (.drop_future (l := []) (r := []) (f := .inl (7 : Nat)) rfl)
  have h7 := h6.step (.other (C := cfg) (arr := []) (.drop_handle (debug := true) (S := svc.snd Nat) (l := []) (r := []) (s := ⟨0, 0, false⟩) rfl rfl))
  exact ⟨_, h7, C78_returned h7 rfl rfl rfl rfl⟩

end Demo78
end Tower
