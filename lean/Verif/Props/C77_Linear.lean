import Verif.Model.Named
import Verif.Proof.Linear
import Verif.Proof.Load1
import Mathlib.Data.List.Range

/-! # C77: `ReadyCache` and `Balance` never lose, duplicate or leak a service -/

namespace Tower
open Act
set_option linter.unusedSectionVars false
set_option linter.unusedSimpArgs false
variable {W Req Res Err : Type} {K : Type} [DecidableEq K] {S : Service W Req Res Err} {V : Sched W} {d : S.σ → W → W}

/-! ## Specification -/

/-- every service given is in one of the places named by `held` or dropped, and only once -/
def Accounted (held : List Nat) (l : DropLog) : Prop := (held ++ l.dropped).Perm (List.range l.given)

/-! ## Proofs -/

theorem named_frame (d : S.σ → W → W) : Frame S.named (noteDrop d) (fun hs _ w => Accounted (hs.map (·.1)) w.1) where
  perm := by
    intro hs hs' fs fs' w h h1 _
    exact ((h1.map _).symm.append_right _).trans h
  ready := by
    intro s hs fs w p s' w' h hr
    obtain ⟨a, w1, h1, h2⟩ := run_bind_eq_ok.1 hr
    obtain ⟨_, h3⟩ := snd_eq_ok.1 h1
    cases h2
    dsimp only; rw [h3]; exact h
  call := by
    intro s hs fs w p f s' w' h hr
    obtain ⟨a, w1, h1, h2⟩ := run_bind_eq_ok.1 hr
    obtain ⟨_, h3⟩ := snd_eq_ok.1 h1
    cases h2
    dsimp only; rw [h3]; exact h
  poll := by
    intro hs f fs w p f' w' h hr
    obtain ⟨_, h3⟩ := snd_eq_ok.1 hr
    rw [h3]; exact h
  drop := by
    intro s hs fs w h
    refine List.Perm.trans ?_ h
    simp only [noteDrop, List.map_cons, List.cons_append]
    rw [← List.append_assoc]
    exact List.perm_append_comm (l₂ := [s.1])

theorem Accounted.push {held : List Nat} {l : DropLog} (h : Accounted held l) : Accounted (l.given :: held) { l with given := l.given + 1 } := by
  unfold Accounted at *
  rw [List.range_succ, List.cons_append]
  exact (h.cons _).trans (List.perm_append_comm (l₁ := [l.given]))

theorem NcHist.inv {c : Cache K S.named} {w : DropLog × W} (h : NcHist V S d c w) : c.RK ∧ Accounted (c.held.map (·.1)) w.1 := by
  have F := named_frame d
  have nil : ∀ {hs : List (Nat × S.σ)} {w : DropLog × W}, Accounted (hs.map (·.1)) w.1 → Accounted ((hs ++ [] : List (Nat × S.σ)).map (·.1)) w.1 := by
    intro hs w h; rwa [List.append_nil]
  induction h with
  | new w => exact ⟨List.nodup_nil, List.Perm.refl _⟩
  | @push c w k s _ ih =>
    refine ⟨Cache.push_RK _ _ _ ih.1, ?_⟩
    exact F.permL (fs := []) (w := (({ w.1 with given := w.1.given + 1 } : DropLog), w.2)) (hs := (w.1.given, s) :: c.held) ih.2.push (Cache.push_held c k _)
  | evict _ hr ih =>
    have := wpx_ok (F.evict (hs := []) (fs := []) ih.1 (nil ih.2)) hr
    rwa [List.append_nil] at this
  | poll _ hr ih =>
    have := wpx_ok (F.pollPendingLoop (hs := []) (fs := []) _ (fun n h => h) _ _ _ ih.1 (nil ih.2)) hr
    rwa [List.append_nil] at this
  | check _ hr ih =>
    have := wpx_ok (F.checkReadyIndex (hs := []) (fs := []) ih.1 (nil ih.2)) hr
    rwa [List.append_nil] at this
  | check_key _ hr ih =>
    have := wpx_ok (F.checkReady (hs := []) (fs := []) ih.1 (nil ih.2)) hr
    rwa [List.append_nil] at this
  | call _ hr ih =>
    have := wpx_ok (F.callReadyIndex (hs := []) (fs := []) ih.1 (nil ih.2)) hr
    rwa [List.append_nil] at this
  | call_key _ hr ih =>
    have := wpx_ok (F.callReady (hs := []) (fs := []) ih.1 (nil ih.2)) hr
    rwa [List.append_nil] at this
  | @tamper c w i k n s t s' _ he ih =>
    obtain ⟨l, r, hl, _, hset, _⟩ := split_at he
    obtain ⟨h1, h2⟩ := ih
    constructor
    · unfold Cache.RK at h1 ⊢; dsimp only; rw [hset]; rw [hl] at h1; simpa using h1
    · have : (({ c with ready := c.ready.set i (k, ((n, s'), t)) } : Cache K S.named).held).map (·.1) = c.held.map (·.1) := by
        unfold Cache.held; dsimp only; rw [hset, hl]; simp
      rw [this]; exact h2
  | world w' _ ih => exact ih

/-- C77, `ReadyCache`: whatever the user does (pushes, evictions, polls, checks and calls, in any order), with any services, any scheduling of the pending ones and anything else going on: every service that was
pushed is either in the cache (pending or ready), exactly once, or it was dropped, exactly once. -/
theorem C77_cache {c : Cache K S.named} {w : DropLog × W} (h : NcHist V S d c w) : Accounted (c.pending.map (·.svc.1) ++ c.ready.map (·.2.1.1)) w.1 := by
  have := h.inv.2
  unfold Cache.held at this
  rwa [List.map_append, List.map_map, List.map_map] at this

/-- C77: so no service that was dropped is still in the cache, and none is dropped twice. -/
theorem C77_cache_once {c : Cache K S.named} {w : DropLog × W} (h : NcHist V S d c w) :
    w.1.dropped.Nodup ∧ ∀ n ∈ w.1.dropped, n < w.1.given ∧ n ∉ c.pending.map (·.svc.1) ∧ n ∉ c.ready.map (·.2.1.1) := by
  have hp := C77_cache h
  have hn := hp.nodup_iff.2 List.nodup_range
  obtain ⟨_, h2, h3⟩ := List.nodup_append'.1 hn
  refine ⟨h2, fun n hm => ⟨List.mem_range.1 (hp.mem_iff.1 (List.mem_append_right _ hm)), ?_, ?_⟩⟩
  · intro hx; exact h3 (List.mem_append_left _ hx) hm
  · intro hx; exact h3 (List.mem_append_right _ hx) hm

/-- C77: when the cache is dropped, every service ever pushed has been dropped, exactly once. -/
theorem C77_cache_dropped {c : Cache K S.named} {w : DropLog × W} (h : NcHist V S d c w) :
    (dropAll (noteDrop d) c.held w).1.dropped.Perm (List.range w.1.given) := by
  have key : ∀ (l : List (Nat × S.σ)) (w : DropLog × W), (dropAll (noteDrop d) l w).1 = ⟨w.1.given, w.1.dropped ++ l.map (·.1)⟩ := by
    intro l
    induction l with
    | nil => intro w; simp [dropAll]
    | cons s l ih => intro w; show (dropAll (noteDrop d) l (noteDrop d s w)).1 = _; rw [ih]; simp [noteDrop]
  rw [key]
  exact List.perm_append_comm.trans h.inv.2

/-- C77: `evict(k)` drops the ready service for `k` at once (and only it); it does not drop a pending one: that stays in the cache until it is polled. -/
theorem C77_evict {c : Cache K S.named} {w : DropLog × W} (h : NcHist V S d c w) {k : K} {r w'} (hr : (c.evictD (noteDrop d) k).run w = .ok r w') :
    r.2.pending = c.pending ∧ (∀ n s t, (k, ((n, s), t)) ∈ c.ready → w'.1.dropped = w.1.dropped ++ [n]) ∧ (k ∉ c.ready.map (·.1) → w' = w) := by
  have hk := h.inv.1
  have hp : (c.evictPending k).2.pending = c.pending := by
    unfold Cache.evictPending; cases c.txs.swapRemove k <;> rfl
  have h2 := (c.evictPending_held k).2
  unfold Cache.evictD at hr
  generalize c.evictPending k = x at hr hp h2
  obtain ⟨b, c1⟩ := x
  dsimp only at hr hp h2
  rw [h2] at hr
  split at hr
  · rename_i s t m' hsw
    have hpm := IMap.swapRemove_some hsw
    cases hr
    refine ⟨hp, ?_, ?_⟩
    · intro n s1 t1 hm
      have := IMap.nodup_val hk hm (hpm.mem_iff.2 List.mem_cons_self)
      cases this; rfl
    · intro hk'; exact absurd (List.mem_map_of_mem (hpm.mem_iff.2 List.mem_cons_self)) hk'
  · rename_i hsw
    cases hr
    refine ⟨hp, ?_, fun _ => rfl⟩
    intro n s1 t1 hm
    exact absurd (List.mem_map_of_mem hm) (IMap.swapRemove_none hsw)

theorem pollNextD_none {drop : S.σ → W → W} {cn : List Nat} : ∀ {is : List Nat} {p p' : List (PEnt K S.σ)} {w w' : W},
    (pollNextD S drop cn is p).run w = .ok (.ready none, p') w' → p' = [] := by
  intro is
  induction is with
  | nil => intro p p' w w' h; cases p <;> cases h; rfl
  | cons i is ih =>
    intro p p' w w' h
    cases p with
    | nil => cases h; rfl
    | cons e p =>
      unfold pollNextD at h
      split at h
      · exact ih h
      · obtain ⟨⟨r, e'⟩, w1, _, h2⟩ := run_bind_eq_ok.1 h
        rcases r with _ | (_ | _ | _)
        · exact ih h2
        · cases h2
        · cases h2
        · cases h2

/-- C77: if `poll_pending` says that no service is pending, none is: those that were evicted have been dropped. -/
theorem C77_none_pending {drop : S.σ → W → W} {c c' : Cache K S} {w w' : W} (hr : (c.pollPendingD drop V).run w = .ok (.ready (.ok ()), c') w') : c'.pending = [] := by
  unfold Cache.pollPendingD at hr
  generalize c.pending.length + 1 = n at hr
  induction n generalizing c w with
  | zero => cases hr
  | succ n ih =>
    unfold Cache.pollPendingLoopD at hr
    obtain ⟨o, w1, _, hr⟩ := run_bind_eq_ok.1 hr
    obtain ⟨⟨r, p⟩, w2, h2, hr⟩ := run_bind_eq_ok.1 hr
    rcases r with _ | (_ | (_ | _ | _))
    · cases hr
    · cases hr; exact pollNextD_none h2
    · dsimp only at hr
      split at hr
      · obtain ⟨_, _, _, hr⟩ := run_bind_eq_ok.1 hr; exact ih hr
      · cases hr
    · exact ih hr
    · dsimp only at hr
      split at hr <;> cases hr

/-! ### the balancer -/

variable {DErr BErr : Type} {B : BalCfg W Req Res Err K DErr BErr}

theorem named_bframe (B : BalCfg W Req Res Err K DErr BErr) (d : B.S.σ → W → W) : BFrame B.named (noteDrop d) (fun _ => []) (fun hs _ w => Accounted (hs.map (·.1)) w.1) where
  svc := named_frame d
  order := fun n h => h
  load := by
    intro hs fs w s m w' h hr
    obtain ⟨_, h3⟩ := snd_eq_ok.1 hr
    rw [h3]; exact h
  disc := by
    intro x hs fs w p x' w' h hr
    obtain ⟨⟨r, y⟩, w1, h1, h2⟩ := run_bind_eq_ok.1 hr
    obtain ⟨_, h3⟩ := snd_eq_ok.1 h1
    rw [← h3] at h
    rcases r with _ | (_ | (_ | (⟨k, s⟩ | k)))
    · cases h2; exact h
    · cases h2; exact h
    · cases h2; exact h
    · cases h2; exact h.push
    · cases h2; exact h

theorem NbHist.inv {d : B.S.σ → W → W} {b : Balance B.named} {w : DropLog × W} (h : NbHist B d b w) : b.svcs.RK ∧ Accounted (b.svcs.held.map (·.1)) w.1 := by
  have F := named_bframe B d
  have toF : ∀ {b : Balance B.named} {w : DropLog × W}, Accounted (b.svcs.held.map (·.1)) w.1 → Accounted ((b.held (fun _ => []) ++ [] : List (Nat × B.S.σ)).map (·.1)) w.1 := by
    intro b w h; rw [List.append_nil]; exact h
  have fro : ∀ {b : Balance B.named} {w : DropLog × W}, Accounted ((b.held (fun _ => []) ++ [] : List (Nat × B.S.σ)).map (·.1)) w.1 → Accounted (b.svcs.held.map (·.1)) w.1 := by
    intro b w h; rw [List.append_nil] at h; exact h
  induction h with
  | new x r w => exact ⟨List.nodup_nil, List.Perm.refl _⟩
  | ready _ hr ih =>
    obtain ⟨h1, h2⟩ := wpx_ok (F.pollReady (hs := []) (fs := []) ih.1 (toF ih.2)) hr
    exact ⟨h1, fro h2⟩
  | call _ hr ih =>
    obtain ⟨h1, h2⟩ := wpx_ok (F.call (hs := []) (fs := []) ih.1 (toF ih.2)) hr
    exact ⟨h1, fro h2⟩
  | world w' _ ih => exact ih

/-- C77, `Balance`: in every state, every endpoint that discovery has handed out is in the balancer, pending or ready, exactly once, or it was dropped, exactly once. -/
theorem C77_balance {d : B.S.σ → W → W} {b : Balance B.named} {w : DropLog × W} (h : NbHist B d b w) :
    Accounted (b.svcs.pending.map (·.svc.1) ++ b.svcs.ready.map (·.2.1.1)) w.1 := by
  have := h.inv.2
  unfold Cache.held at this
  rwa [List.map_append, List.map_map, List.map_map] at this

/-- C77: with a destructor that does nothing the operations that say when services are dropped are those of `Model/ReadyCache.lean` and `Model/Balance.lean`. -/
theorem C77_same_code_cache (c : Cache K S) :
    (∀ k, c.evictD (fun _ w => w) k = pure (c.evict k)) ∧
    c.pollPendingD (fun _ w => w) V = c.pollPending V ∧
    (∀ i, c.checkReadyIndexD (fun _ w => w) i = c.checkReadyIndex i) ∧
    (∀ k, c.checkReadyD (fun _ w => w) k = c.checkReady k) ∧
    (∀ i q, c.callReadyIndexD (fun _ w => w) i q = c.callReadyIndex i q) ∧
    (∀ k q, c.callReadyD (fun _ w => w) k q = c.callReady k q) := by
  have hput : ∀ (c : Cache K S) k s t, c.putBackD (fun _ w => w) k s t = pure (c.putBack k s t) := by
    intro c k s t; unfold Cache.putBackD Cache.putBack; split <;> rfl
  have hnext : ∀ cn (is : List Nat) (p : List (PEnt K S.σ)), pollNextD S (fun _ w => w) cn is p = pollNext S cn is p := by
    intro cn is
    induction is with
    | nil => intro p; cases p <;> rfl
    | cons i is ih =>
      intro p
      cases p with
      | nil => rfl
      | cons e p =>
        unfold pollNextD pollNext
        cases (e :: p)[i]? with
        | none => exact ih _
        | some e0 =>
          dsimp only
          refine congrArg _ ?_
          funext ⟨r, e'⟩
          rcases r with _ | (_ | _ | _)
          · exact ih _
          · rfl
          · rfl
          · rfl
  have hins : ∀ (m : IMap K (S.σ × (Nat × Nat))) k v, Cache.insertReadyD (S := S) (fun _ w => w) m k v = pure (m.insert k v) := by
    intro m k v; unfold Cache.insertReadyD; split <;> rfl
  have hloop : ∀ n (c : Cache K S), c.pollPendingLoopD (fun _ w => w) V n = c.pollPendingLoop V n := by
    intro n
    induction n with
    | zero => intro c; rfl
    | succ n ih =>
      intro c
      unfold Cache.pollPendingLoopD Cache.pollPendingLoop
      refine congrArg _ ?_
      funext o
      rw [hnext]
      refine congrArg _ ?_
      funext ⟨r, p⟩
      rcases r with _ | (_ | (_ | _ | _))
      · rfl
      · rfl
      · rename_i k s rx
        dsimp only
        cases c.txs.swapRemove k with
        | some x => dsimp only; rw [hins]; exact ih _
        | none => rfl
      · exact ih _
      · rfl
  have hcheck : ∀ i, c.checkReadyIndexD (fun _ w => w) i = c.checkReadyIndex i := by
    intro i
    unfold Cache.checkReadyIndexD Cache.checkReadyIndex
    cases c.ready[i]? with
    | none => rfl
    | some e =>
      dsimp only
      refine congrArg _ ?_
      funext ⟨p, s'⟩
      rcases p with _ | (_ | ⟨⟩)
      · dsimp only
        cases IMap.swapRemoveIndex (c.ready.set i (e.1, (s', e.2.2))) i with
        | none => rfl
        | some x => obtain ⟨⟨k, s, t⟩, m⟩ := x; dsimp only; rw [hput]; rfl
      · dsimp only
        cases IMap.swapRemoveIndex (c.ready.set i (e.1, (s', e.2.2))) i with
        | none => rfl
        | some x => rfl
      · rfl
  have hcall : ∀ i q, c.callReadyIndexD (fun _ w => w) i q = c.callReadyIndex i q := by
    intro i q
    unfold Cache.callReadyIndexD Cache.callReadyIndex
    cases c.ready.swapRemoveIndex i with
    | none => rfl
    | some x =>
      obtain ⟨⟨k, s, t⟩, m⟩ := x
      dsimp only
      refine congrArg _ ?_
      funext ⟨f, s'⟩
      rw [hput]; rfl
  refine ⟨?_, hloop _ c, hcheck, ?_, hcall, ?_⟩
  · intro k
    unfold Cache.evictD Cache.evict
    dsimp only
    cases (c.evictPending k).2.ready.swapRemove k with
    | none => rfl
    | some x => rfl
  · intro k
    unfold Cache.checkReadyD Cache.checkReady
    cases c.ready.index k with
    | some i => exact hcheck _
    | none => rfl
  · intro k q
    unfold Cache.callReadyD Cache.callReady
    cases c.ready.index k with
    | some i => exact hcall _ q
    | none => rfl

/-- What discovery says, whatever is done to the services it hands out. -/
def mapDisc {V V' : Type} (f : V → V') : Poll (Option (Except DErr (Change K V))) → Poll (Option (Except DErr (Change K V')))
  | .pending => .pending
  | .ready none => .ready none
  | .ready (some (.error e)) => .ready (some (.error e))
  | .ready (some (.ok (.remove k))) => .ready (some (.ok (.remove k)))
  | .ready (some (.ok (.insert k v))) => .ready (some (.ok (.insert k (f v))))

/-- C77: the discovery that names the services says what the discovery says, in the same world; a service it hands out gets the next name. -/
theorem C77_same_discovery {V : Type} (D : Discover W K V DErr) (d : D.δ) (l : DropLog) (w : W) :
    (D.named.poll d).run (l, w) = match (D.poll d).run w with
      | .ok (p, d') w' => .ok (mapDisc (fun s => (l.given, s)) p, d') ({ l with given := l.given + (match p with | .ready (some (.ok (.insert _ _))) => 1 | _ => 0) }, w')
      | .panic m => .panic m
      | .spin => .spin := by
  have h0 : (D.named.poll d).run (l, w) = ((D.poll d).snd >>= fun r => _).run (l, w) := rfl
  rw [h0]
  cases h : (D.poll d).run w with
  | ok r w' =>
    have h1 : ((D.poll d).snd (A := DropLog)).run (l, w) = .ok r (l, w') := by unfold Act.snd; dsimp only; rw [h]
    rw [Act.run_bind_ok h1]
    obtain ⟨p, d'⟩ := r
    rcases p with _ | (_ | (_ | (_ | _))) <;> rfl
  | panic m =>
    have h1 : ((D.poll d).snd (A := DropLog)).run (l, w) = .panic m := by unfold Act.snd; dsimp only; rw [h]
    rw [Act.run_bind, h1]
  | spin =>
    have h1 : ((D.poll d).snd (A := DropLog)).run (l, w) = .spin := by unfold Act.snd; dsimp only; rw [h]
    rw [Act.run_bind, h1]

/-- C77: the same for the balancer. -/
theorem C77_same_code_balance (b : Balance B) (fuel : Nat) (q : Req) :
    b.pollReadyD (fun _ w => w) fuel = b.pollReady fuel ∧ b.callD (fun _ w => w) q = b.call q := by
  have hup : ∀ n (b : Balance B), b.updateD (fun _ w => w) n = b.update n := by
    intro n
    induction n with
    | zero => intro b; rfl
    | succ n ih =>
      intro b
      unfold Balance.updateD Balance.update
      refine congrArg _ ?_
      funext ⟨p, x⟩
      rcases p with _ | (_ | (_ | (⟨k, s⟩ | k)))
      · rfl
      · rfl
      · rfl
      · exact ih _
      · dsimp only [Balance.applyD]
        rw [(C77_same_code_cache (V := B.V) b.svcs).1 k]
        exact ih _
  have hpr : ∀ n (b : Balance B), b.promoteD (fun _ w => w) n = b.promote n := by
    intro n
    induction n with
    | zero => intro b; rfl
    | succ n ih =>
      intro b
      unfold Balance.promoteD Balance.promote
      rw [(C77_same_code_cache (V := B.V) b.svcs).2.1]
      refine congrArg _ ?_
      funext ⟨p, c⟩
      rcases p with _ | (_ | ⟨⟩)
      · rfl
      · exact ih _
      · rfl
  have hre : ∀ (b : Balance B), b.recheckD (fun _ w => w) = b.recheck := by
    intro b
    unfold Balance.recheckD Balance.recheck
    cases b.idx with
    | none => rfl
    | some i =>
      dsimp only
      rw [(C77_same_code_cache (V := B.V) b.svcs).2.2.1 i]
      refine congrArg _ ?_
      funext ⟨r, c⟩
      rcases r with _ | (_ | _) <;> rfl
  have hsel : ∀ n (b : Balance B), b.selectD (fun _ w => w) n = b.select n := by
    intro n
    induction n with
    | zero => intro b; rfl
    | succ n ih =>
      intro b
      unfold Balance.selectD Balance.select
      rw [hre]
      refine congrArg _ ?_
      funext ⟨r, b1⟩
      cases r with
      | true => rfl
      | false =>
        show (b1.choose >>= _) = (b1.choose >>= _)
        refine congrArg _ ?_
        funext ⟨r, b2⟩
        cases r with
        | true => exact ih _
        | false => rfl
  constructor
  · unfold Balance.pollReadyD Balance.pollReady
    rw [hup]
    refine congrArg _ ?_
    funext ⟨r, b1⟩
    rcases r with _ | ⟨⟩
    · rfl
    · show b1.restD _ = b1.rest
      unfold Balance.restD Balance.rest
      rw [hpr]
      refine congrArg _ ?_
      funext b2
      exact hsel _ _
  · unfold Balance.callD Balance.call
    cases b.idx with
    | none => rfl
    | some i =>
      dsimp only
      rw [(C77_same_code_cache (V := B.V) b.svcs).2.2.2.2.1 i q]

/-! ## Concrete cases -/

namespace Demo77

/-- a service that becomes ready when polled twice (`0 → 1 → ready`) and fails when its state is 9; a call makes it unready -/
@[reducible] def svc : Service Unit Nat Nat String where
  σ := Nat
  φ := Nat
  pollReady s := if s = 9 then pure (.ready (.error "broken"), 9) else if s = 0 then pure (.pending, 1) else pure (.ready (.ok ()), s)
  call _ r := pure (r, 0)
  poll f := pure (.ready (.ok f), f)
  clone s := s

/-- the destructor does nothing else -/
def dtor : Nat → Unit → Unit := fun _ w => w

/-- polls the first two futures -/
def sched : Sched Unit := ⟨fun _ w => ([0, 1], w)⟩

abbrev C := Cache Nat svc.named

/-- service 0 is ready; service 1 was pushed for the same key and waits -/
def c2 : C := { pending := [⟨5, (1, 0), 1⟩], txs := [(5, 1)], ready := [(5, ((0, 3), (0, 0)))], cancelled := [], nextCell := 2 }

def c1 : C := { pending := [], txs := [], ready := [(5, ((0, 3), (0, 0)))], cancelled := [], nextCell := 1 }
theorem h1 (V : Sched Unit) (hV : V = sched ∨ V = ⟨fun _ w => ([0], w)⟩) : NcHist V svc dtor c1 (⟨1, []⟩, ()) := by
  rcases hV with rfl | rfl
  · exact .poll (r := (.ready (.ok ()), c1)) (.push (S := svc) 5 3 (.new (S := svc) ())) rfl
  · exact .poll (r := (.ready (.ok ()), c1)) (.push (S := svc) 5 3 (.new (S := svc) ())) rfl
theorem h2 : NcHist sched svc dtor c2 (⟨2, []⟩, ()) := .push (S := svc) (c := c1) (w := (⟨1, []⟩, ())) 5 0 (h1 _ (Or.inl rfl))

/-- `evict` drops service 0; service 1, which waits, is still there -/
def c3 : C := { pending := [⟨5, (1, 0), 1⟩], txs := [], ready := [], cancelled := [1], nextCell := 2 }
theorem h3 : NcHist sched svc dtor c3 (⟨2, [0]⟩, ()) := .evict (k := 5) (r := (true, _)) h2 rfl

example : Accounted [1] ⟨2, [0]⟩ := C77_cache h3

/-- it is dropped when it is polled -/
def c4 : C := { pending := [], txs := [], ready := [], cancelled := [1], nextCell := 2 }
theorem h4 : NcHist sched svc dtor c4 (⟨2, [0, 1]⟩, ()) := .poll (r := (.ready (.ok ()), _)) h3 rfl

example : c4.pending = [] := C77_none_pending (S := svc.named) (V := sched.withLog DropLog) (drop := noteDrop dtor) (c := c3) (w := (⟨2, [0]⟩, ())) (w' := (⟨2, [0, 1]⟩, ())) rfl

/-- without the eviction: service 0 is called while the newer one waits, and is dropped after the call -/
def c5 : C := { pending := [⟨5, (1, 0), 1⟩], txs := [(5, 1)], ready := [], cancelled := [], nextCell := 2 }
theorem h5 : NcHist sched svc dtor c5 (⟨2, [0]⟩, ()) := .call_key (k := 5) (q := 7) (r := ((7 : Nat), c5)) h2 rfl

/-- or the newer one becomes ready and takes its place, and it is dropped then -/
def sched1 : Sched Unit := ⟨fun _ w => ([0], w)⟩
def c6 : C := { pending := [⟨5, (1, 1), 1⟩], txs := [(5, 1)], ready := [(5, ((0, 3), (0, 0)))], cancelled := [], nextCell := 2 }
def c7 : C := { pending := [], txs := [], ready := [(5, ((1, 1), (1, 1)))], cancelled := [], nextCell := 2 }
theorem h6 : NcHist sched1 svc dtor c6 (⟨2, []⟩, ()) :=
  .poll (r := (.pending, c6)) (.push (S := svc) (c := c1) (w := (⟨1, []⟩, ())) 5 0 (h1 _ (Or.inr rfl))) rfl
theorem h7 : NcHist sched1 svc dtor c7 (⟨2, [0]⟩, ()) := .poll (r := (.ready (.ok ()), _)) h6 rfl

/-- a service that fails is dropped; then the cache is dropped, and with it the other one -/
def c8 : C := { pending := [], txs := [], ready := [(5, ((1, 1), (1, 1)))], cancelled := [], nextCell := 3 }
theorem h8 : NcHist sched1 svc dtor c8 (⟨3, [0, 2]⟩, ()) := .poll (r := (.ready (.error (6, "broken")), _)) (.push (S := svc) 6 9 h7) rfl
example : (dropAll (noteDrop dtor) c8.held (⟨3, [0, 2]⟩, ())).1.dropped = [0, 2, 1] := rfl
example : (dropAll (noteDrop dtor) c8.held (⟨3, [0, 2]⟩, ())).1.dropped.Perm [0, 1, 2] := C77_cache_dropped h8

/-- a discovery that hands out the changes of a list, and is pending at the end and between two lists -/
@[reducible] def disc : Discover Unit Nat Nat String where
  δ := List (Option (Change Nat Nat))
  poll d := match d with
    | [] => pure (.pending, [])
    | none :: d => pure (.pending, d)
    | some c :: d => pure (.ready (some (.ok c)), d)

@[reducible] def cfg : BalCfg Unit Nat Nat String Nat String String where
  S := svc
  D := disc
  L := ⟨Nat, fun s => pure s, fun a b => decide (a ≤ b)⟩
  G := ⟨Nat, fun n => (n % 2 ^ 64, n + 1), fun n => Nat.mod_lt _ (by norm_num)⟩
  V := sched
  fromErr := id
  fromDisc := id

/-- two endpoints; then the first is replaced and the second is removed -/
def d0 : List (Option (Change Nat Nat)) := [some (.insert 5 3), some (.insert 6 4), none, some (.insert 5 2), some (.remove 6)]
def b1 : Balance cfg.named := ⟨[some (.insert 5 2), some (.remove 6)], { pending := [], txs := [], ready := [(5, ((0, 3), (0, 0))), (6, ((1, 4), (1, 1)))], cancelled := [], nextCell := 2 }, some 0, 2⟩
theorem hb1 : NbHist cfg dtor b1 (⟨2, []⟩, ()) := .ready (fuel := 5) (r := (.ready (.ok ()), b1)) (.new (B := cfg) d0 0 ()) rfl
def b2 : Balance cfg.named := ⟨[], { pending := [], txs := [], ready := [(5, ((2, 2), (2, 2)))], cancelled := [], nextCell := 3 }, some 0, 2⟩
theorem hb2 : NbHist cfg dtor b2 (⟨3, [1, 0]⟩, ()) := .ready (fuel := 5) (r := (.ready (.ok ()), b2)) hb1 rfl
example : Accounted [2] ⟨3, [1, 0]⟩ := C77_balance hb2

end Demo77
end Tower
