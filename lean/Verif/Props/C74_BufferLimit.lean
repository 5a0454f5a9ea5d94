import Verif.Model.BufferLim
import Verif.Props.C19_Buffer
import Verif.Props.C73_LimitWake

/-!
# C74: a buffer around a concurrency limit

`ServiceBuilder::new().buffer(bound).concurrency_limit(max)`: what the bound of the buffer and the limit mean together, for any history of handles, worker, response futures and panics.
-/

set_option linter.unusedSimpArgs false
set_option linter.unusedVariables false

namespace Tower
variable {W Req Res Err : Type} {debug : Bool} {bound max : Nat} {S : Service W Req Res Err} {i0 : S.σ}

/-! ## What a step of the stack is for the buffer -/

theorem BLStep.buf {x y : BufLim debug S} {ev} (ha : ¬ x.buf.dying → x.handle = [x.buf.svc]) (h : BLStep x ev y) : BStep x.buf ev y.buf := by
  have nd : ∀ {p : WPc (LimSvc debug S).φ Req Err}, x.buf.pc = p → p ≠ .unwinding → p ≠ .dropping ∧ p ≠ .dead → ¬ x.buf.dying := by
    intro p h1 h2 h3 h4
    rcases h4 with h4 | h4 | h4
    · exact h2 (h1 ▸ h4)
    · exact h3.1 (h1 ▸ h4)
    · exact h3.2 (h1 ▸ h4)
  have hs : ∀ {p : WPc (LimSvc debug S).φ Req Err} {s}, x.buf.pc = p → p ≠ .unwinding → p ≠ .dropping ∧ p ≠ .dead → x.handle = [s] → s = x.buf.svc := by
    intro p s h1 h2 h3 h4
    rw [ha (nd h1 h2 h3)] at h4
    exact (List.cons.inj h4).1.symm
  cases h with
  | handle h => exact .handle h
  | worker h => exact .worker h
  | svc_ready h1 h2 h3 h4 => obtain rfl := hs h1 (by simp) (by simp) h3; exact .worker (.svc_ready h1 h2 h4)
  | svc_pending h1 h2 h3 h4 => obtain rfl := hs h1 (by simp) (by simp) h3; exact .worker (.svc_pending h1 h2 h4)
  | svc_failed h1 h2 h3 h4 => obtain rfl := hs h1 (by simp) (by simp) h3; exact .worker (.svc_failed h1 h2 h4)
  | svc_call h1 h2 h3 => obtain rfl := hs h1 (by simp) (by simp) h2; exact .worker (.svc_call h1 h3)
  | reply h1 h2 => exact .worker (.reply h1)
  | reply_unwanted h1 h2 h3 => exact .worker (.reply h1)
  | ready_panics h1 h2 h3 h4 h5 => obtain rfl := hs h1 (by simp) (by simp) h3; exact .death (.ready_panics h1 h2 h4)
  | call_panics h1 h2 h3 h4 => obtain rfl := hs h1 (by simp) (by simp) h2; exact .death (.call_panics h1 h4)
  | death h => exact .death h
  | drained h1 h2 h3 => exact .death (.drained h1 h2)
  | future h => exact .future h
  | inner_pending h1 h2 h3 => exact .future (.inner_pending h1 h3)
  | @inner_done i w v f f' l r sem' w' h1 h2 h3 =>
    cases v with
    | ok a => exact .future (.inner_ok h1 h3)
    | error e => exact .future (.inner_err h1 h3)
  | drop_future h1 h2 h3 => exact .future (.drop h1 h2)
  | drop_waiting h1 h2 h3 => exact .future (.drop h1 h2)

/-- the limit, as `Model/LimWake.lean` has it -/
@[reducible] def BufLim.lim (x : BufLim debug S) : Lim S := ⟨x.sem, x.handle, x.live.map Prod.snd, 1⟩

/-- What holds after every history. -/
structure BLInv (bound max : Nat) (i0 : S.σ) (tr : List (BEv (LimSvc debug S))) (x : BufLim debug S) : Prop where
  hist : BHist (LimSvc debug S) bound ⟨i0, 0, false⟩ tr x.buf
  lim : ∃ arr, LimWake debug max S x.lim arr x.woken ∧ (x.buf.cur ≠ none → ∀ s ∈ x.handle, s.permit = false → 0 ∈ arr)
  names : ∀ s ∈ x.handle, s.sem = 0
  alive : ¬ x.buf.dying → x.handle = [x.buf.svc]
  dropping : x.buf.pc ≠ .dead → ∃ s, x.handle = [s]
  dead : x.buf.pc = .dead → x.handle = []
  callp : ∀ m, x.buf.pc = .call m → ∀ s ∈ x.handle, s.permit = true
  nodup : (x.live.map Prod.fst).Nodup
  mem : ∀ j, j ∈ x.live.map Prod.fst ↔ j ∈ (dispatched tr).map (·.id) ∧ (.dropFut j ∉ tr ∨ ∃ p, x.buf.pc.replying = some p ∧ p.1.id = j)
  inn : ∀ j f, x.buf.futs j = .inner f → (j, f) ∈ x.live
  sent : ∀ j f, x.buf.futs j = .rx → x.buf.shots j = .sent (.ok f) → (j, f) ∈ x.live
  rep : ∀ m f, x.buf.pc = .reply m f → (m.id, f) ∈ x.live

/-- steps that do not touch the limit -/
theorem BLInv.same {tr : List (BEv (LimSvc debug S))} {x : BufLim debug S} {ev} {b : Buf (LimSvc debug S)} (h : BLInv bound max i0 tr x) (hb : BStep x.buf ev b)
    (hcur : b.cur ≠ none → x.buf.cur ≠ none) (hsvc : b.svc = x.buf.svc) (hdead : b.pc = .dead → x.buf.pc = .dead) (hdrop : x.buf.dying → b.dying) (hdrop' : b.pc ≠ .dead → x.buf.pc ≠ .dead)
    (hcall : ∀ m, b.pc = .call m → x.buf.pc = .call m) (hd : dispatches [ev] = []) (hf : ∀ j, ev ≠ .dropFut j) (hr : b.pc.replying = x.buf.pc.replying)
    (hinn : ∀ j f, b.futs j = .inner f → x.buf.futs j = .inner f ∨ (x.buf.futs j = .rx ∧ x.buf.shots j = .sent (.ok f)))
    (hsent : ∀ j f, b.futs j = .rx → b.shots j = .sent (.ok f) → x.buf.futs j = .rx ∧ x.buf.shots j = .sent (.ok f)) : BLInv bound max i0 (tr ++ [ev]) { x with buf := b } where
  hist := .snoc h.hist hb
  lim := by
    obtain ⟨arr, h1, h2⟩ := h.lim
    exact ⟨arr, h1, fun hc => h2 (hcur hc)⟩
  names := h.names
  alive := fun hn => by dsimp only; rw [hsvc]; exact h.alive (fun hx => hn (hdrop hx))
  dropping := fun hp => h.dropping (hdrop' hp)
  dead := fun hp => h.dead (hdead hp)
  callp := fun m hp => h.callp m (hcall m hp)
  nodup := h.nodup
  mem := fun j => by
    dsimp only
    rw [h.mem j, hr]
    have e1 : dispatched (tr ++ [ev]) = dispatched tr := by simp [dispatched, dispatches_append, hd]
    have e2 : BEv.dropFut j ∈ tr ++ [ev] ↔ BEv.dropFut j ∈ tr := by
      rw [mem_snoc]; exact ⟨fun h => h.resolve_right (fun he => hf j he.symm), .inl⟩
    rw [e1, e2]
  inn := fun j f hj => by
    rcases hinn j f hj with h1 | h1
    · exact h.inn j f h1
    · exact h.sent j f h1.1 h1.2
  sent := fun j f h1 h2 => by
    obtain ⟨h3, h4⟩ := hsent j f h1 h2
    exact h.sent j f h3 h4
  rep := fun m f hp => by
    dsimp only at hp
    have h1 : x.buf.pc.replying = some (m, f) := by rw [← hr, hp]; rfl
    have h2 : x.buf.pc = .reply m f := by
      revert h1; cases x.buf.pc <;> simp [WPc.replying]
    exact h.rep m f h2

theorem BLInv.init : BLInv bound max i0 [] (⟨Buf.init (LimSvc debug S) bound ⟨i0, 0, false⟩, Sem.new max, [⟨i0, 0, false⟩], [], []⟩ : BufLim debug S) where
  hist := .nil
  lim := ⟨[], .new i0, by simp [Buf.init]⟩
  names := by simp
  alive := fun _ => rfl
  dropping := by simp [Buf.init]
  dead := by simp [Buf.init]
  callp := by simp [Buf.init]
  nodup := by simp
  mem := by simp [dispatched, dispatches]
  inn := by simp [Buf.init]
  sent := by simp [Buf.init]
  rep := by simp [Buf.init]

theorem BLInv.handleStep {tr : List (BEv (LimSvc debug S))} {x : BufLim debug S} {ev} {b : Buf (LimSvc debug S)} (h : BLInv bound max i0 tr x) (hs : HStep x.buf ev b) :
    BLInv bound max i0 (tr ++ [ev]) { x with buf := b } := by
  have hb := BStep.handle hs
  cases hs with
  | call h1 h2 =>
    refine h.same hb id rfl id id (fun h => by simp_all) (fun _ => id) rfl (by simp) rfl ?_ ?_
    · intro j f hj
      dsimp only at hj
      by_cases he : j = x.buf.calls
      · subst he; simp at hj
      · rw [Function.update_of_ne he] at hj; exact .inl hj
    · intro j f hj hj'
      dsimp only at hj hj'
      by_cases he : j = x.buf.calls
      · subst he; simp at hj'
      · rw [Function.update_of_ne he] at hj hj'; exact ⟨hj, hj'⟩
  | call_closed h1 h2 =>
    refine h.same hb id rfl id id (fun h => by simp_all) (fun _ => id) rfl (by simp) rfl ?_ ?_
    · intro j f hj
      dsimp only at hj
      by_cases he : j = x.buf.calls
      · subst he; simp at hj
      · rw [Function.update_of_ne he] at hj; exact .inl hj
    · intro j f hj hj'
      dsimp only at hj hj'
      by_cases he : j = x.buf.calls
      · subst he; simp at hj
      · rw [Function.update_of_ne he] at hj; exact ⟨hj, hj'⟩
  | _ => exact h.same hb id rfl id id (fun h => by simp_all) (fun _ => id) rfl (by simp) rfl (fun _ _ => .inl) (fun _ _ h1 h2 => ⟨h1, h2⟩)

theorem send_sent {b : Buf (LimSvc debug S)} {k : Nat} {v : Shot (LimSvc debug S).φ Err} (hv : ∀ f : (LimSvc debug S).φ, v ≠ .sent (.ok f)) {j : Nat} {f : (LimSvc debug S).φ}
    (h : Function.update b.shots k v j = .sent (.ok f)) : b.shots j = .sent (.ok f) := by
  by_cases he : j = k
  · subst he; rw [Function.update_self] at h; exact absurd h (hv f)
  · rwa [Function.update_of_ne he] at h

theorem BLInv.workerStep {tr : List (BEv (LimSvc debug S))} {x : BufLim debug S} {ev} {b : Buf (LimSvc debug S)} (h : BLInv bound max i0 tr x) (hs : WStep x.buf ev b)
    (hg : ∀ m, x.buf.pc = .got m → x.buf.failed ≠ none) (hc : ∀ m, x.buf.pc ≠ .call m) (hr : ∀ m f, x.buf.pc ≠ .reply m f) :
    BLInv bound max i0 (tr ++ [ev]) { x with buf := b } := by
  have hb := BStep.worker hs
  have hsend : ∀ (k : Nat) (e : Err) (f : (LimSvc debug S).φ), (if x.buf.cancelled k = true then Shot.gone else .sent (.error e)) ≠ Shot.sent (.ok f) := by
    intro k e f; split <;> simp
  cases hs with
  | svc_ready h1 h2 h3 => exact absurd h2 (hg _ h1)
  | svc_pending h1 h2 h3 => exact absurd h2 (hg _ h1)
  | svc_failed h1 h2 h3 => exact absurd h2 (hg _ h1)
  | svc_call h1 h2 => exact absurd h1 (hc _)
  | reply h1 => exact absurd h1 (hr _ _)
  | notify h1 h2 =>
    exact h.same hb id rfl (by simp [h1]) (by simp [h1, Buf.dying]) (by simp [h1]) (by simp) rfl (by simp) (by simp [h1, WPc.replying]) (fun _ _ => .inl)
      (fun j f a b => ⟨a, send_sent (hsend _ _) b⟩)
  | notify_first h1 h2 =>
    exact h.same hb id rfl (by simp [h1]) (by simp [h1, Buf.dying]) (by simp [h1]) (by simp) rfl (by simp) (by simp [h1, WPc.replying]) (fun _ _ => .inl)
      (fun j f a b => ⟨a, send_sent (hsend _ _) b⟩)
  | unwanted h1 h2 =>
    exact h.same hb id rfl (by simp [h1]) (by simp [h1, Buf.dying]) (by simp [h1]) (by simp) rfl (by simp) (by simp [h1, WPc.replying]) (fun _ _ => .inl)
      (fun j f a b => ⟨a, send_sent (by simp) b⟩)
  | resume h1 h2 =>
    exact h.same hb (by simp) rfl (by simp [h1]) (by simp [h1, Buf.dying]) (by simp [h1]) (by simp) rfl (by simp) (by simp [h1, WPc.replying]) (fun _ _ => .inl) (fun _ _ h1 h2 => ⟨h1, h2⟩)
  | start h1 => exact h.same hb id rfl (by simp [h1]) (by simp [h1, Buf.dying]) (by simp [h1]) (by simp) rfl (by simp) (by simp [h1, WPc.replying]) (fun _ _ => .inl) (fun _ _ h1 h2 => ⟨h1, h2⟩)
  | fresh h1 => exact h.same hb id rfl (by simp [h1]) (by simp [h1, Buf.dying]) (by simp [h1]) (by simp) rfl (by simp) (by simp [h1, WPc.replying]) (fun _ _ => .inl) (fun _ _ h1 h2 => ⟨h1, h2⟩)
  | wanted h1 => exact h.same hb id rfl (by simp [h1]) (by simp [h1, Buf.dying]) (by simp [h1]) (by simp) rfl (by simp) (by simp [h1, WPc.replying]) (fun _ _ => .inl) (fun _ _ h1 h2 => ⟨h1, h2⟩)
  | recv h1 => exact h.same hb id rfl (by simp [h1]) (by simp [h1, Buf.dying]) (by simp [h1]) (by simp) rfl (by simp) (by simp [h1, WPc.replying]) (fun _ _ => .inl) (fun _ _ h1 h2 => ⟨h1, h2⟩)
  | empty h1 => exact h.same hb id rfl (by simp [h1]) (by simp [h1, Buf.dying]) (by simp [h1]) (by simp) rfl (by simp) (by simp [h1, WPc.replying]) (fun _ _ => .inl) (fun _ _ h1 h2 => ⟨h1, h2⟩)
  | finish h1 => exact h.same hb id rfl (by simp [h1]) (by simp [h1, Buf.dying]) (by simp [h1]) (by simp) rfl (by simp) (by simp [h1, WPc.replying]) (fun _ _ => .inl) (fun _ _ h1 h2 => ⟨h1, h2⟩)
  | expose h1 => exact h.same hb id rfl (by simp [h1]) (by simp [h1, Buf.dying]) (by simp [h1]) (by simp) rfl (by simp) (by simp [h1, WPc.replying]) (fun _ _ => .inl) (fun _ _ h1 h2 => ⟨h1, h2⟩)
  | exposed_before h1 => exact h.same hb id rfl (by simp [h1]) (by simp [h1, Buf.dying]) (by simp [h1]) (by simp) rfl (by simp) (by simp [h1, WPc.replying]) (fun _ _ => .inl) (fun _ _ h1 h2 => ⟨h1, h2⟩)
  | close h1 => exact h.same hb id rfl (by simp [h1]) (by simp [h1, Buf.dying]) (by simp [h1]) (by simp) rfl (by simp) (by simp [h1, WPc.replying]) (fun _ _ => .inl) (fun _ _ h1 h2 => ⟨h1, h2⟩)

theorem dropMsgs_sent {b : Buf (LimSvc debug S)} {ms : List (Msg Req)} {j : Nat} {f : (LimSvc debug S).φ} (h : (b.dropMsgs ms).shots j = .sent (.ok f)) : b.shots j = .sent (.ok f) := by
  simp only [Buf.dropMsgs] at h
  split at h
  · cases h
  · exact h

theorem BLInv.deathStep {tr : List (BEv (LimSvc debug S))} {x : BufLim debug S} {ev} {b : Buf (LimSvc debug S)} (h : BLInv bound max i0 tr x) (hs : DStep x.buf ev b)
    (hg : ∀ m, x.buf.pc ≠ .got m) (hc : ∀ m, x.buf.pc ≠ .call m) (hq : x.buf.pc = .dropping → x.buf.queue ≠ []) :
    BLInv bound max i0 (tr ++ [ev]) { x with buf := b } := by
  have hb := BStep.death hs
  cases hs with
  | ready_panics h1 => exact absurd h1 (hg _)
  | call_panics h1 => exact absurd h1 (hc _)
  | drained h1 h2 => exact absurd h2 (hq h1)
  | dropped h1 =>
    exact h.same hb (by simp) rfl (by simp) (by simp [h1, Buf.dying]) (by simp [h1]) (by simp) rfl (by simp) (by simp [h1, WPc.replying]) (fun _ _ => .inl)
      (fun j f a b => ⟨a, dropMsgs_sent b⟩)
  | closes h1 =>
    exact h.same hb id rfl (by simp) (by simp [h1, Buf.dying]) (by simp [h1]) (by simp) rfl (by simp) (by simp [h1, WPc.replying]) (fun _ _ => .inl) (fun _ _ h1 h2 => ⟨h1, h2⟩)
  | dropped_done h1 =>
    exact h.same hb id rfl (by simp) (by simp [h1, Buf.dying]) (by simp [h1]) (by simp) rfl (by simp) (by simp [h1, WPc.replying]) (fun _ _ => .inl) (fun _ _ h1 h2 => ⟨h1, h2⟩)
  | drain h1 h2 =>
    exact h.same hb id rfl id id (by simp [Buf.dropMsg, h1]) (fun _ => id) rfl (by simp) rfl (fun _ _ => .inl) (fun j f a b => ⟨a, send_sent (by simp) b⟩)
  | free h1 h2 =>
    exact h.same hb id rfl id id (by simp [Buf.dropMsgs, h1]) (fun _ => id) rfl (by simp) rfl (fun _ _ => .inl) (fun j f a b => ⟨a, dropMsgs_sent b⟩)

theorem upd_inner {b : Buf (LimSvc debug S)} {k : Nat} {v : BFut (LimSvc debug S).φ Err} (hv : ∀ f, v ≠ .inner f) {j : Nat} {f : (LimSvc debug S).φ}
    (h : Function.update b.futs k v j = .inner f) : b.futs j = .inner f := by
  by_cases he : j = k
  · subst he; rw [Function.update_self] at h; exact absurd h (hv f)
  · rwa [Function.update_of_ne he] at h

theorem upd_rx {b : Buf (LimSvc debug S)} {k : Nat} {v : BFut (LimSvc debug S).φ Err} (hv : v ≠ .rx) {j : Nat} (h : Function.update b.futs k v j = .rx) : b.futs j = .rx := by
  by_cases he : j = k
  · subst he; rw [Function.update_self] at h; exact absurd h hv
  · rwa [Function.update_of_ne he] at h

theorem BLInv.futureStep {tr : List (BEv (LimSvc debug S))} {x : BufLim debug S} {ev} {b : Buf (LimSvc debug S)} (h : BLInv bound max i0 tr x) (hs : FStep x.buf ev b)
    (hd : ∀ i, ev ≠ .dropFut i) (hi : ∀ i p f, ev = .poll i p → x.buf.futs i ≠ .inner f) :
    BLInv bound max i0 (tr ++ [ev]) { x with buf := b } := by
  have hb := BStep.future hs
  cases hs with
  | inner_pending h1 h2 => exact absurd h1 (hi _ _ _ rfl)
  | inner_ok h1 h2 => exact absurd h1 (hi _ _ _ rfl)
  | inner_err h1 h2 => exact absurd h1 (hi _ _ _ rfl)
  | drop h1 h2 => exact absurd rfl (hd _)
  | waiting h1 h2 => exact h.same hb id rfl id id (fun h => by simp_all) (fun _ => id) rfl (by simp) rfl (fun _ _ => .inl) (fun _ _ h1 h2 => ⟨h1, h2⟩)
  | @arrived i f h1 h2 =>
    refine h.same hb id rfl id id (fun h => by simp_all) (fun _ => id) rfl (by simp) rfl ?_ (fun j f a b => ⟨upd_rx (by simp) a, b⟩)
    intro j g hj
    dsimp only at hj
    by_cases he : j = i
    · subst he; rw [Function.update_self] at hj; cases hj; exact .inr ⟨h1, h2⟩
    · rw [Function.update_of_ne he] at hj; exact .inl hj
  | _ => exact h.same hb id rfl id id (fun h => by simp_all) (fun _ => id) rfl (by simp) rfl (fun _ _ hj => .inl (upd_inner (by simp) hj)) (fun j f a b => ⟨upd_rx (by simp) a, b⟩)

/-! ## Steps of the limit -/

theorem mem_split {j k : Nat} {f g : S.φ} {l r : List (Nat × S.φ)} : (j, g) ∈ l ++ (k, f) :: r ↔ (j, g) ∈ l ++ r ∨ (j = k ∧ g = f) := by
  simp only [List.mem_append, List.mem_cons, Prod.mk.injEq]; tauto

theorem keep_other {j k : Nat} {f f' g : S.φ} {l r : List (Nat × S.φ)} (h : (j, g) ∈ l ++ (k, f) :: r) (hj : j ≠ k) : (j, g) ∈ l ++ (k, f') :: r :=
  mem_split.2 (.inl ((mem_split.1 h).resolve_right (fun h => hj h.1)))

theorem after_polled {woken : List Nat} {n : Nat} : LimEv.after ⟨some n, 0, []⟩ woken = woken.filter (· ≠ n) := by
  simp only [LimEv.after, List.append_nil, ne_eq, Option.some.injEq]

theorem after_woke {woken wk : List Nat} {k : Nat} : LimEv.after ⟨none, k, wk⟩ woken = woken ++ wk := by
  simp [LimEv.after]

/-- `poll_ready` of the limit, as seen by `LimWake` -/
theorem BLInv.limReady {tr : List (BEv (LimSvc debug S))} {x : BufLim debug S} (h : BLInv bound max i0 tr x) {w p sem' w'} {s s' : ConcState S.σ Nat} (hh : x.handle = [s])
    (hr : ((LimSvc debug S).pollReady s).run (x.sem, w) = .ok (p, s') (sem', w')) :
    s'.sem = 0 ∧ ∃ arr, LimWake debug max S ⟨sem', [s'], x.live.map Prod.snd, 1⟩ arr (x.woken.filter (· ≠ s.sem)) ∧ (s'.permit = false → 0 ∈ arr) ∧ (p = .ready (.ok ()) → s'.permit = true) := by
  obtain ⟨arr, h1, _⟩ := h.lim
  have h0 : s.sem = 0 := h.names s (by rw [hh]; exact List.mem_cons_self)
  have hstep := LimStep.ready (debug := debug) (S := S) (x := x.lim) (arr := arr) (l := []) (r := []) (by simpa [BufLim.lim] using hh) hr
  have hw := LimWake.step h1 hstep
  rw [after_polled] at hw
  have hs : s'.sem = s.sem := (limReady_cases hr).1
  refine ⟨by rw [hs, h0], _, by simpa [BufLim.lim] using hw, ?_, ?_⟩
  · intro hp
    simp only [hp, h0]
    split
    · simp_all
    · split
      · assumption
      · simp
  · rintro rfl
    exact C04_ready_has_permit (x := ⟨x.sem, [], [], 0⟩) hr

/-- steps of the worker that leave the response futures alone -/
theorem BLInv.svc {tr : List (BEv (LimSvc debug S))} {x : BufLim debug S} {ev} {y : BufLim debug S} (h : BLInv bound max i0 tr x) (hs : BLStep x ev y) (hl : y.live = x.live)
    (hd : dispatches [ev] = []) (hf : ∀ j, ev ≠ .dropFut j) (hr : x.buf.pc.replying = none) (hr' : y.buf.pc.replying = none) (hfu : y.buf.futs = x.buf.futs)
    (hsh : ∀ j f, y.buf.shots j = .sent (.ok f) → x.buf.shots j = .sent (.ok f))
    (hlim : ∃ arr, LimWake debug max S y.lim arr y.woken ∧ (y.buf.cur ≠ none → ∀ s ∈ y.handle, s.permit = false → 0 ∈ arr)) (hn : ∀ s ∈ y.handle, s.sem = 0)
    (ha : ¬ y.buf.dying → y.handle = [y.buf.svc]) (hdr : y.buf.pc ≠ .dead → ∃ s, y.handle = [s]) (hde : y.buf.pc = .dead → y.handle = [])
    (hc : ∀ m, y.buf.pc = .call m → ∀ s ∈ y.handle, s.permit = true) : BLInv bound max i0 (tr ++ [ev]) y where
  hist := .snoc h.hist (hs.buf h.alive)
  lim := hlim
  names := hn
  alive := ha
  dropping := hdr
  dead := hde
  callp := hc
  nodup := by rw [hl]; exact h.nodup
  mem := fun j => by
    rw [hl, h.mem j, hr, hr']
    have e1 : dispatched (tr ++ [ev]) = dispatched tr := by simp [dispatched, dispatches_append, hd]
    have e2 : BEv.dropFut j ∈ tr ++ [ev] ↔ BEv.dropFut j ∈ tr := by
      rw [mem_snoc]; exact ⟨fun h => h.resolve_right (fun he => hf j he.symm), .inl⟩
    rw [e1, e2]
  inn := fun j f => by rw [hfu, hl]; exact h.inn j f
  sent := fun j f h1 h2 => by rw [hl]; rw [hfu] at h1; exact h.sent j f h1 (hsh j f h2)
  rep := fun m f hp => by rw [hp] at hr'; cases hr'

theorem BLInv.step {tr : List (BEv (LimSvc debug S))} {x y : BufLim debug S} {ev} (h : BLInv bound max i0 tr x) (hs : BLStep x ev y) : BLInv bound max i0 (tr ++ [ev]) y := by
  have hs0 := hs
  have hb := hs.buf h.alive
  have hI := BHist.inv h.hist
  have hE := BHist.ev h.hist
  have curnone : x.buf.pc ≠ .parked → x.buf.pc ≠ .next → x.buf.cur = none := by
    intro h1 h2
    cases hc : x.buf.cur with
    | none => rfl
    | some m =>
      rcases hI.ctl.cur (by rw [hc]; simp) with h3 | h3
      · exact absurd h3 h1
      · exact absurd h3 h2
  cases hs with
  | handle hs => exact h.handleStep hs
  | worker hs h1 h2 h3 => exact h.workerStep hs h1 h2 h3
  | death hs h1 h2 h3 => exact h.deathStep hs h1 h2 h3
  | future hs h1 h2 => exact h.futureStep hs h1 h2
  | svc_ready h1 h2 h3 h4 =>
    obtain ⟨a, arr, b, c, d⟩ := h.limReady h3 h4
    exact h.svc hs0 rfl rfl (by simp) (by simp [h1, WPc.replying]) (by simp [WPc.replying]) rfl (fun _ _ => id) ⟨arr, b, fun hc => absurd (curnone (by simp [h1]) (by simp [h1])) hc⟩
      (by simp [a]) (fun _ => rfl) (by simp) (by simp) (fun _ _ => by simp [d rfl])
  | svc_pending h1 h2 h3 h4 =>
    obtain ⟨a, arr, b, c, d⟩ := h.limReady h3 h4
    exact h.svc hs0 rfl rfl (by simp) (by simp [h1, WPc.replying]) (by simp [WPc.replying]) rfl (fun _ _ => id) ⟨arr, b, fun _ => by simpa using c⟩
      (by simp [a]) (fun _ => rfl) (by simp) (by simp) (by simp)
  | svc_failed h1 h2 h3 h4 =>
    obtain ⟨a, arr, b, c, d⟩ := h.limReady h3 h4
    exact h.svc hs0 rfl rfl (by simp) (by simp [h1, WPc.replying]) (by simp [WPc.replying]) rfl (fun _ _ => id) ⟨arr, b, fun hc => absurd (curnone (by simp [h1]) (by simp [h1])) hc⟩
      (by simp [a]) (fun _ => rfl) (by simp) (by simp) (by simp)
  | @ready_panics m w msg i s sem' h1 h2 h3 h4 h5 =>
    obtain ⟨arr, a, _⟩ := h.lim
    have hw := LimWake.step a (LimStep.ready_panics (debug := debug) (x := x.lim) (arr := arr) (l := []) (r := []) (i := i) (by simpa [BufLim.lim] using h3) h5)
    rw [after_polled] at hw
    exact h.svc hs0 rfl rfl (by simp) (by simp [h1, WPc.replying]) (by simp [WPc.replying]) rfl (fun _ _ h => send_sent (by simp) h) ⟨_, hw, fun _ => by simp⟩
      (by simpa using h.names s (by rw [h3]; simp)) (fun hd => absurd (.inl rfl) hd) (fun _ => ⟨_, rfl⟩) (by simp) (by simp)
  | @call_panics m w msg i s h1 h2 h3 h4 =>
    obtain ⟨arr, a, _⟩ := h.lim
    have hw := LimWake.step a (LimStep.call_panics (debug := debug) (x := x.lim) (arr := arr) (l := []) (r := []) (i := i) (by simpa [BufLim.lim] using h2) h3)
    rw [after_woke] at hw
    exact h.svc hs0 rfl rfl (by simp) (by simp [h1, WPc.replying]) (by simp [WPc.replying]) rfl (fun _ _ h => send_sent (by simp) h)
      ⟨_, hw, fun hc => absurd (curnone (by simp [h1]) (by simp [h1])) hc⟩
      (by simpa using h.names s (by rw [h2]; simp)) (fun hd => absurd (.inl rfl) hd) (fun _ => ⟨_, rfl⟩) (by simp) (by simp)
  | @drained s h1 h2 h3 =>
    obtain ⟨arr, a, _⟩ := h.lim
    refine h.svc hs0 rfl rfl (by simp) (by simp [h1, WPc.replying]) (by simp [WPc.replying]) rfl (fun _ _ => id) ?_
      (by simp) (fun hd => absurd (.inr (.inr rfl)) hd) (by simp) (fun _ => rfl) (by simp)
    by_cases hp : s.permit = true
    · have hw := LimWake.step a (LimStep.drop_ready (debug := debug) (x := x.lim) (arr := arr) (l := []) (r := []) (by simpa [BufLim.lim] using h3) hp)
      rw [after_woke] at hw
      refine ⟨arr.erase s.sem, ?_, fun _ => by simp⟩
      simpa [BufLim.lim, dropLimit, hp] using hw
    · have hw := LimWake.step a (LimStep.drop_handle (debug := debug) (x := x.lim) (arr := arr) (l := []) (r := []) (by simpa [BufLim.lim] using h3) (by simpa using hp))
      rw [after_woke] at hw
      refine ⟨arr.erase s.sem, ?_, fun _ => by simp⟩
      simpa [BufLim.lim, dropLimit, hp] using hw
  | @svc_call m w f s s' sem' w' h1 h2 h3 =>
    obtain ⟨arr, a, _⟩ := h.lim
    have hw := LimWake.step a (LimStep.call (debug := debug) (x := x.lim) (arr := arr) (l := []) (r := []) (by simpa [BufLim.lim] using h2) h3)
    rw [after_woke, List.append_nil] at hw
    have hn := h.names s (by rw [h2]; simp)
    have hc0 := curnone (by simp [h1]) (by simp [h1])
    have hP : m ∈ x.buf.pend := by simp [Buf.pend, h1, WPc.pend]
    have hnew : ∀ m' ∈ dispatched tr, m'.id ≠ m.id := fun m' hm' => Nat.ne_of_lt (hI.msg.dp hm' hP)
    have hnl : m.id ∉ x.live.map Prod.fst := by
      rw [h.mem]; rintro ⟨h4, _⟩
      obtain ⟨m', h5, h6⟩ := List.mem_map.1 h4
      exact hnew m' h5 h6
    have hdd : dispatched (tr ++ [(BEv.dispatch m.id m.req f : BEv (LimSvc debug S))]) = dispatched tr ++ [m] := by simp [dispatched, dispatches_append, dispatches]
    refine ⟨.snoc h.hist hb, ⟨arr, by simpa [BufLim.lim] using hw, fun hc => absurd hc0 hc⟩, by simpa [(limCall_cases h3).1] using hn, fun _ => rfl, by simp, by simp, by simp, ?_, ?_, ?_, ?_, ?_⟩
    · dsimp only
      rw [List.map_append, List.nodup_append]
      refine ⟨h.nodup, List.nodup_singleton _, ?_⟩
      intro j hj k hk he
      rw [List.map_singleton, List.mem_singleton] at hk
      subst hk; subst he
      exact hnl hj
    · intro j
      have hr0 : x.buf.pc.replying = none := by rw [h1]; rfl
      have := h.mem j
      rw [hr0] at this
      rw [hdd]
      simp only [List.map_append, List.map_cons, List.map_nil, mem_snoc, WPc.replying, this, List.mem_append, List.mem_singleton, reduceCtorEq, or_false, false_and, exists_false, Option.some.injEq]
      constructor
      · rintro (⟨h4, h5⟩ | rfl)
        · exact ⟨.inl h4, .inl h5⟩
        · exact ⟨.inr rfl, .inr ⟨_, rfl, rfl⟩⟩
      · rintro ⟨h4 | h4, h5 | ⟨p, rfl, h5⟩⟩
        · exact .inl ⟨h4, h5⟩
        · exact .inr h5.symm
        · exact .inr h4
        · exact .inr h4
    · intro j g hj; exact List.mem_append_left _ (h.inn j g hj)
    · intro j g hj hj'; exact List.mem_append_left _ (h.sent j g hj hj')
    · intro m' f' hp
      cases hp
      exact List.mem_append_right _ List.mem_cons_self
  | @reply m f h1 h2 =>
    have hr0 : x.buf.pc.replying = some (m, f) := by rw [h1]; rfl
    obtain ⟨arr, a, hcu⟩ := h.lim
    have hfu : x.buf.futs m.id = .rx := by
      rcases (hI.msg.rW m f hr0).2.1 with h3 | h3
      · exact h3
      · simp [Buf.cancelled, h3] at h2
    have hnd : BEv.dropFut m.id ∉ tr := by rw [← hE.drop, hfu]; simp
    refine ⟨.snoc h.hist hb, ⟨arr, a, hcu⟩, h.names, fun _ => h.alive (by simp [Buf.dying, h1]), fun _ => h.dropping (by simp [h1]), by simp, by simp, h.nodup, ?_, h.inn, ?_, by simp⟩
    · intro j
      have := h.mem j
      rw [hr0] at this
      simp only [mem_snoc, WPc.replying, dispatched, dispatches_append, dispatches, this, reduceCtorEq, or_false, false_and, exists_false, Option.some.injEq, List.append_nil]
      constructor
      · rintro ⟨h4, h5 | ⟨p, rfl, h5⟩⟩
        · exact ⟨h4, h5⟩
        · exact ⟨h4, by rw [← h5]; exact hnd⟩
      · rintro ⟨h4, h5⟩; exact ⟨h4, .inl h5⟩
    · intro j g hj hj'
      dsimp only [Buf.send] at hj hj'
      by_cases he : j = m.id
      · subst he
        rw [Function.update_self, h2] at hj'
        simp at hj'
        subst hj'
        exact h.rep m f h1
      · rw [Function.update_of_ne he] at hj'
        exact h.sent j g hj hj'
  | @reply_unwanted m f l r h1 h2 h3 =>
    have hr0 : x.buf.pc.replying = some (m, f) := by rw [h1]; rfl
    obtain ⟨arr, a, hcu⟩ := h.lim
    have hw := LimWake.step a (LimStep.drop_future (debug := debug) (x := x.lim) (arr := arr) (l := l.map Prod.snd) (f := f) (r := r.map Prod.snd) (by simp [BufLim.lim, h3]))
    rw [after_woke] at hw
    have hfu : x.buf.futs m.id = .dropped := by
      rcases (hI.msg.rW m f hr0).2.1 with h4 | h4
      · simp [Buf.cancelled, h4] at h2
      · exact h4
    have hnd : BEv.dropFut m.id ∈ tr := by rw [← hE.drop, hfu]
    have hnod := h.nodup
    rw [h3] at hnod
    have hmm := h.mem
    have hi := h.inn
    have hse := h.sent
    rw [h3] at hmm hi hse
    simp only [List.map_append, List.map_cons] at hnod hmm
    have hnl : m.id ∉ l.map Prod.fst ++ r.map Prod.fst := (List.nodup_middle.1 hnod |> List.nodup_cons.1).1
    refine ⟨.snoc h.hist hb, ⟨arr, by simpa [BufLim.lim] using hw, hcu⟩, h.names, fun _ => h.alive (by simp [Buf.dying, h1]), fun _ => h.dropping (by simp [h1]), by simp, by simp, ?_, ?_, ?_, ?_, by simp⟩
    · simpa using (List.nodup_middle.1 hnod |> List.nodup_cons.1).2
    · intro j
      have := hmm j
      rw [hr0] at this
      simp only [mem_snoc, WPc.replying, dispatched, dispatches_append, dispatches, reduceCtorEq, or_false, false_and, exists_false, Option.some.injEq, List.append_nil, List.map_append]
      by_cases he : j = m.id
      · subst he
        simp only [hnl, hnd, not_true, and_false]
      · have e : j ∈ l.map Prod.fst ++ m.id :: r.map Prod.fst ↔ j ∈ l.map Prod.fst ++ r.map Prod.fst := by simp [he]
        rw [← e, this]
        constructor
        · rintro ⟨h4, h5 | ⟨p, h5, h6⟩⟩
          · exact ⟨h4, h5⟩
          · cases h5; exact absurd h6.symm he
        · rintro ⟨h4, h5⟩; exact ⟨h4, .inl h5⟩
    · intro j g hj
      dsimp only [Buf.send] at hj
      rcases mem_split.1 (hi j g hj) with h4 | ⟨rfl, _⟩
      · exact h4
      · rw [hfu] at hj; cases hj
    · intro j g hj hj'
      dsimp only [Buf.send] at hj hj'
      by_cases he : j = m.id
      · subst he; rw [hfu] at hj; cases hj
      · rw [Function.update_of_ne he] at hj'
        exact (mem_split.1 (hse j g hj hj')).resolve_right (fun h => he h.1)
  | @inner_pending i w f f' l r sem' w' h1 h2 h3 =>
    obtain ⟨arr, a, hcu⟩ := h.lim
    have hw := LimWake.step a (LimStep.poll (debug := debug) (x := x.lim) (arr := arr) (l := l.map Prod.snd) (r := r.map Prod.snd) (by simp [BufLim.lim, h2]) h3)
    rw [after_woke, List.append_nil] at hw
    have e : ∀ g, (l ++ (i, g) :: r).map Prod.fst = x.live.map Prod.fst := by intro g; rw [h2]; simp
    have hi := h.inn
    have hse := h.sent
    have hre := h.rep
    rw [h2] at hi hse hre
    refine ⟨.snoc h.hist hb, ⟨arr, by simpa [BufLim.lim] using hw, hcu⟩, h.names, h.alive, h.dropping, h.dead, h.callp, ?_, ?_, ?_, ?_, ?_⟩
    · dsimp only; rw [e]; exact h.nodup
    · intro j
      dsimp only
      rw [e, h.mem j]
      simp [dispatched, dispatches_append, dispatches]
    · intro j g hj
      dsimp only at hj
      by_cases he : j = i
      · subst he; rw [Function.update_self] at hj; cases hj; exact List.mem_append_right _ List.mem_cons_self
      · rw [Function.update_of_ne he] at hj; exact keep_other (hi j g hj) he
    · intro j g hj hj'
      dsimp only at hj
      have he : j ≠ i := by rintro rfl; simp at hj
      rw [Function.update_of_ne he] at hj; exact keep_other (hse j g hj hj') he
    · intro m g hp
      have he : m.id ≠ i := by
        rintro rfl
        rcases (hI.msg.rW m g (by dsimp only at hp; rw [hp]; rfl)).2.1 with h4 | h4 <;> rw [h1] at h4 <;> cases h4
      exact keep_other (hre m g hp) he
  | @inner_done i w v f f' l r sem' w' h1 h2 h3 =>
    obtain ⟨arr, a, hcu⟩ := h.lim
    have hw := LimWake.step a (LimStep.poll (debug := debug) (x := x.lim) (arr := arr) (l := l.map Prod.snd) (r := r.map Prod.snd) (by simp [BufLim.lim, h2]) h3)
    rw [after_woke, List.append_nil] at hw
    have e : ∀ g, (l ++ (i, g) :: r).map Prod.fst = x.live.map Prod.fst := by intro g; rw [h2]; simp
    have hi := h.inn
    have hse := h.sent
    have hre := h.rep
    rw [h2] at hi hse hre
    refine ⟨.snoc h.hist hb, ⟨arr, by simpa [BufLim.lim] using hw, hcu⟩, h.names, h.alive, h.dropping, h.dead, h.callp, ?_, ?_, ?_, ?_, ?_⟩
    · dsimp only; rw [e]; exact h.nodup
    · intro j
      dsimp only
      rw [e, h.mem j]
      simp [dispatched, dispatches_append, dispatches]
    · intro j g hj
      dsimp only at hj
      have he : j ≠ i := by rintro rfl; simp at hj
      rw [Function.update_of_ne he] at hj; exact keep_other (hi j g hj) he
    · intro j g hj hj'
      dsimp only at hj
      have he : j ≠ i := by rintro rfl; simp at hj
      rw [Function.update_of_ne he] at hj; exact keep_other (hse j g hj hj') he
    · intro m g hp
      have he : m.id ≠ i := by
        rintro rfl
        rcases (hI.msg.rW m g (by dsimp only at hp; rw [hp]; rfl)).2.1 with h4 | h4 <;> rw [h1] at h4 <;> cases h4
      exact keep_other (hre m g hp) he
  | @drop_future i f l r h1 h2 h3 h4 =>
    obtain ⟨arr, a, hcu⟩ := h.lim
    have hw := LimWake.step a (LimStep.drop_future (debug := debug) (x := x.lim) (arr := arr) (l := l.map Prod.snd) (f := f) (r := r.map Prod.snd) (by simp [BufLim.lim, h3]))
    rw [after_woke] at hw
    have hnod := h.nodup
    rw [h3] at hnod
    have hmm := h.mem
    have hi := h.inn
    have hse := h.sent
    have hre := h.rep
    rw [h3] at hmm hi hse hre
    simp only [List.map_append, List.map_cons] at hnod hmm
    have hnl : i ∉ l.map Prod.fst ++ r.map Prod.fst := (List.nodup_middle.1 hnod |> List.nodup_cons.1).1
    have hnr : ∀ p, x.buf.pc.replying = some p → p.1.id ≠ i := by
      intro p hp
      have h5 : x.buf.pc = .reply p.1 p.2 := by
        revert hp; cases x.buf.pc <;> simp [WPc.replying]; rintro rfl; exact ⟨rfl, rfl⟩
      exact h4 _ _ h5
    refine ⟨.snoc h.hist hb, ⟨arr, by simpa [BufLim.lim] using hw, hcu⟩, h.names, h.alive, h.dropping, h.dead, h.callp, ?_, ?_, ?_, ?_, ?_⟩
    · simpa using (List.nodup_middle.1 hnod |> List.nodup_cons.1).2
    · intro j
      have := hmm j
      simp only [mem_snoc, dispatched, dispatches_append, dispatches, List.append_nil, List.map_append, BEv.dropFut.injEq]
      by_cases he : j = i
      · subst he
        simp only [hnl, or_true, not_true, false_or, false_iff]
        rintro ⟨_, p, h5, h6⟩
        exact hnr p h5 h6
      · have e : j ∈ l.map Prod.fst ++ i :: r.map Prod.fst ↔ j ∈ l.map Prod.fst ++ r.map Prod.fst := by simp [he]
        rw [← e, this]
        simp [he, dispatched]
    · intro j g hj
      dsimp only at hj
      have he : j ≠ i := by rintro rfl; simp at hj
      rw [Function.update_of_ne he] at hj
      exact (mem_split.1 (hi j g hj)).resolve_right (fun h => he h.1)
    · intro j g hj hj'
      dsimp only at hj
      have he : j ≠ i := by rintro rfl; simp at hj
      rw [Function.update_of_ne he] at hj
      exact (mem_split.1 (hse j g hj hj')).resolve_right (fun h => he h.1)
    · intro m g hp
      exact (mem_split.1 (hre m g hp)).resolve_right (fun h => h4 m g hp h.1)
  | @drop_waiting i h1 h2 h3 =>
    obtain ⟨arr, a, hcu⟩ := h.lim
    have hnr : i ∈ x.live.map Prod.fst → ∃ m g, x.buf.pc = .reply m g ∧ m.id = i := fun hi => h3.resolve_left (fun hn => hn hi)
    refine ⟨.snoc h.hist hb, ⟨arr, a, hcu⟩, h.names, h.alive, h.dropping, h.dead, h.callp, h.nodup, ?_, ?_, ?_, h.rep⟩
    · intro j
      have := h.mem j
      simp only [mem_snoc, dispatched, dispatches_append, dispatches, List.append_nil, BEv.dropFut.injEq]
      by_cases he : j = i
      · subst he
        constructor
        · intro hj
          obtain ⟨m, g, h4, h5⟩ := hnr hj
          exact ⟨(this.1 hj).1, .inr ⟨(m, g), by rw [h4]; rfl, h5⟩⟩
        · rintro ⟨h4, h5 | h5⟩
          · exact absurd (.inr rfl) h5
          · exact this.2 ⟨h4, .inr h5⟩
      · simpa [he, dispatched] using this
    · intro j g hj
      dsimp only at hj
      have he : j ≠ i := by rintro rfl; simp at hj
      rw [Function.update_of_ne he] at hj
      exact h.inn j g hj
    · intro j g hj hj'
      dsimp only at hj
      have he : j ≠ i := by rintro rfl; simp at hj
      rw [Function.update_of_ne he] at hj
      exact h.sent j g hj hj'

theorem BLHist.inv {tr : List (BEv (LimSvc debug S))} {x : BufLim debug S} (h : BLHist debug bound max S i0 tr x) : BLInv bound max i0 tr x := by
  induction h with
  | new => exact BLInv.init
  | step h hs ih => exact ih.step hs

/-! ## The theorems -/

section
variable {tr : List (BEv (LimSvc debug S))} {x : BufLim debug S}

/-- **C74.** What users, worker and executor do is a history of a buffer around a service, so that all that was proved of the buffer (C19–C25, C64) holds; and what happens to the limit is a history of one handle of a concurrency limit and its response futures,
so that all that was proved of the limit (C04–C06, C73) holds. -/
theorem C74_both (h : BLHist debug bound max S i0 tr x) :
    BHist (LimSvc debug S) bound ⟨i0, 0, false⟩ tr x.buf ∧ ∃ arr, LimWake debug max S ⟨x.sem, x.handle, x.live.map Prod.snd, 1⟩ arr x.woken := by
  obtain ⟨arr, h1, _⟩ := h.inv.lim
  exact ⟨h.inv.hist, arr, h1⟩

/-- **C74 (in flight).** At most `max` requests are in flight below the limit: dispatched to the inner service with a response future that the caller has not dropped. (A response future that returned its response counts until it is dropped.) -/
theorem C74_in_flight (h : BLHist debug bound max S i0 tr x) (l : List (Msg Req)) (hn : l.Nodup) (hl : ∀ m ∈ l, m ∈ dispatched tr ∧ .dropFut m.id ∉ tr) : l.length ≤ max := by
  have hi := h.inv
  obtain ⟨arr, h1, _⟩ := hi.lim
  have h2 := C04_bound h1.hist
  have hinj := (BHist.inv hi.hist).msg
  have hid : (l.map (·.id)).Nodup := by
    rw [List.nodup_map_iff_inj_on hn]
    intro a ha b hb he
    exact hinj.inj (hinj.memD (hl a ha).1) (hinj.memD (hl b hb).1) he
  have hsub : l.map (·.id) ⊆ x.live.map Prod.fst := by
    intro j hj
    obtain ⟨m, hm, rfl⟩ := List.mem_map.1 hj
    exact (hi.mem _).2 ⟨List.mem_map_of_mem (hl m hm).1, .inl (hl m hm).2⟩
  have h3 := (List.subperm_of_subset hid hsub).length_le
  simp only [List.length_map] at h2 h3
  omega

/-- **C74 (outstanding).** At most `bound + 1 + max` accepted requests are outstanding (not dropped by their callers, and either dispatched or still waiting): `bound` in the channel, one with the worker, `max` below the limit. -/
theorem C74_outstanding (h : BLHist debug bound max S i0 tr x) (l : List (Msg Req)) (hn : l.Nodup)
    (hl : ∀ m ∈ l, m ∈ accepted tr ∧ .dropFut m.id ∉ tr ∧ (m ∈ dispatched tr ∨ x.buf.Resolves m.id .pending)) : l.length ≤ bound + 1 + max := by
  classical
  have h1 := C74_in_flight h (l.filter (fun m => m ∈ dispatched tr)) (hn.filter _) (fun m hm => by
    obtain ⟨h1, h2⟩ := List.mem_filter.1 hm
    exact ⟨by simpa using h2, (hl m h1).2.1⟩)
  have h2 := C19_backlog h.inv.hist (l.filter (fun m => ¬ m ∈ dispatched tr)) (hn.filter _) (fun m hm => by
    obtain ⟨h1, h2⟩ := List.mem_filter.1 hm
    have h2 : m ∉ dispatched tr := by simpa using h2
    obtain ⟨h3, h4, h5⟩ := hl m h1
    exact ⟨h3, h2, h4, h5.resolve_left h2⟩)
  have h3 := List.length_eq_length_filter_add (l := l) (fun m => decide (m ∈ dispatched tr))
  have h4 : (l.filter (fun m => decide (¬ m ∈ dispatched tr))) = l.filter (fun m => !decide (m ∈ dispatched tr)) := by
    congr 1; funext m; simp
  rw [h4] at h2
  omega

theorem replying_none {pc : WPc (LimSvc debug S).φ Req Err} (h : pc = .parked ∨ pc = .next) : pc.replying = none := by
  rcases h with h | h <;> rw [h] <;> rfl

/-- **C74 (waits).** The worker waits for a permit for the request it holds only while `max` requests are in flight below the limit, with response futures their callers have not dropped; or its task has been woken since it last asked,
and will be given a permit. A request never waits with capacity left and nobody told. -/
theorem C74_waits (h : BLHist debug bound max S i0 tr x) {m : Msg Req} (hc : x.buf.cur = some m) (hp : ∀ s ∈ x.handle, s.permit = false) :
    (0 ∈ x.woken ∧ x.lim.wouldGet 0 = true) ∨ ∃ l : List (Msg Req), l.Nodup ∧ l.length = max ∧ ∀ m ∈ l, m ∈ dispatched tr ∧ .dropFut m.id ∉ tr := by
  have hi := h.inv
  have hpc := (BHist.inv hi.hist).ctl.cur (by rw [hc]; simp)
  have hh : x.handle = [x.buf.svc] := hi.alive (by rcases hpc with h | h <;> simp [Buf.dying, h])
  obtain ⟨arr, h1, h2⟩ := hi.lim
  have h0 : 0 ∈ arr := h2 (by rw [hc]; simp) x.buf.svc (by rw [hh]; exact List.mem_cons_self) (hp _ (by rw [hh]; exact List.mem_cons_self))
  by_cases hw : 0 ∈ x.woken
  · exact .inl ⟨hw, C73_not_in_vain h1 h0 hw⟩
  · right
    have hin := h1.hist.inv
    have harr : ∀ n ∈ arr, n = 0 := by
      intro n hn
      obtain ⟨s, hs, h3, _⟩ := hin.waiting n hn
      rw [← h3]; exact hi.names s hs
    have h3 := C73_rest h1 (by intro n hn ha; rw [harr n ha] at hn; exact hw hn) (List.ne_nil_of_mem h0)
    have h4 : x.lim.holders = 0 := by
      simp only [Lim.holders, BufLim.lim]
      rw [List.countP_eq_zero]
      intro s hs
      simp [hp s hs]
    have h5 : x.live.length = max := by
      rw [h4] at h3; simpa [BufLim.lim] using h3
    have hmem : ∀ j ∈ x.live.map Prod.fst, ∃ m ∈ dispatched tr, m.id = j ∧ .dropFut j ∉ tr := by
      intro j hj
      obtain ⟨h6, h7⟩ := (hi.mem j).1 hj
      obtain ⟨m, h8, h9⟩ := List.mem_map.1 h6
      refine ⟨m, h8, h9, h7.resolve_right ?_⟩
      rw [replying_none hpc]; simp
    classical
    refine ⟨(dispatched tr).filter (fun m => BEv.dropFut m.id ∉ tr), ?_, ?_, ?_⟩
    · exact (List.Nodup.of_map _ ((C20_once hi.hist).2.imp Nat.ne_of_lt)).filter _
    · apply Nat.le_antisymm
      · exact C74_in_flight h _ ((List.Nodup.of_map _ ((C20_once hi.hist).2.imp Nat.ne_of_lt)).filter _) (fun m hm => by
          obtain ⟨h6, h7⟩ := List.mem_filter.1 hm
          exact ⟨h6, by simpa using h7⟩)
      · have hsub : x.live.map Prod.fst ⊆ ((dispatched tr).filter (fun m => BEv.dropFut m.id ∉ tr)).map (·.id) := by
          intro j hj
          obtain ⟨m, h6, rfl, h7⟩ := hmem j hj
          exact List.mem_map_of_mem (List.mem_filter.2 ⟨h6, by simpa using h7⟩)
        have := (List.subperm_of_subset hi.nodup hsub).length_le
        simp only [List.length_map] at this
        omega
    · intro m hm
      obtain ⟨h6, h7⟩ := List.mem_filter.1 hm
      exact ⟨h6, by simpa using h7⟩

/-- **C74 (returned).** When the worker is gone and the response futures of all dispatched requests were dropped, the limit has all its permits and nobody waits, whatever panicked or failed before. -/
theorem C74_returned (h : BLHist debug bound max S i0 tr x) (hd : x.buf.pc = .dead) (hf : ∀ m ∈ dispatched tr, .dropFut m.id ∈ tr) : x.sem = Sem.new max := by
  have hi := h.inv
  obtain ⟨arr, h1, _⟩ := hi.lim
  have hl : x.live = [] := by
    cases hx : x.live with
    | nil => rfl
    | cons p l =>
      obtain ⟨h2, h3⟩ := (hi.mem p.1).1 (by rw [hx]; simp)
      obtain ⟨m, h4, h5⟩ := List.mem_map.1 h2
      rcases h3 with h3 | ⟨q, h3, _⟩
      · exact absurd (h5 ▸ hf m h4) h3
      · rw [hd] at h3; cases h3
  exact C05_all_dropped (x := x.lim) h1.hist (hi.dead hd) (by simp [BufLim.lim, hl])

/-- **C74 (no permit is lost).** Free permits, permits assigned to the waiting worker, the permit of a worker about to call, and requests in flight always add up to `max`. -/
theorem C74_conserved (h : BLHist debug bound max S i0 tr x) :
    x.sem.permits + x.sem.granted.length + x.handle.countP (·.permit) + x.live.length = max ∧ (x.live.map Prod.fst).Nodup ∧
    ∀ j, j ∈ x.live.map Prod.fst ↔ j ∈ (dispatched tr).map (·.id) ∧ (.dropFut j ∉ tr ∨ ∃ m f, x.buf.pc = .reply m f ∧ m.id = j) := by
  have hi := h.inv
  obtain ⟨arr, h1, _⟩ := hi.lim
  have h2 := (C05_conserved h1.hist).1
  refine ⟨by simpa [Lim.holders, BufLim.lim] using h2, hi.nodup, fun j => ?_⟩
  rw [hi.mem j]
  constructor
  · rintro ⟨h3, h4 | ⟨p, h4, h5⟩⟩
    · exact ⟨h3, .inl h4⟩
    · refine ⟨h3, .inr ⟨p.1, p.2, ?_, h5⟩⟩
      revert h4; cases x.buf.pc <;> simp [WPc.replying]; rintro rfl; exact ⟨rfl, rfl⟩
  · rintro ⟨h3, h4 | ⟨m, f, h4, h5⟩⟩
    · exact ⟨h3, .inl h4⟩
    · exact ⟨h3, .inr ⟨(m, f), by rw [h4]; rfl, h5⟩⟩

/-- **C74 (nothing is left out).** In every state, what the code can do next is a step of the stack: drop any response future; poll one that has the limit's; send a reply; poll and call the limit, with any outcome. -/
theorem C74_total (h : BLHist debug bound max S i0 tr x) :
    (∀ j, x.buf.futs j ≠ .none → x.buf.futs j ≠ .dropped → ∃ y, BLStep x (.dropFut j) y) ∧
    (∀ j (f : S.φ) w p f' sem' w', x.buf.futs j = .inner f → ((LimSvc debug S).poll f).run (x.sem, w) = .ok (p, f') (sem', w') → ∃ q y, BLStep x (.poll j q) y) ∧
    (∀ m (f : S.φ), x.buf.pc = .reply m f → ∃ y, BLStep x .tau y) ∧
    (∀ m, x.buf.pc = .got m → x.buf.failed = none → ∃ s : ConcState S.σ Nat, x.handle = [s] ∧ ∀ w : W, ((LimSvc debug S).pollReady s).run (x.sem, w) ≠ .spin → ∃ ev y, BLStep x ev y) ∧
    (∀ m, x.buf.pc = .call m → ∃ s : ConcState S.σ Nat, x.handle = [s] ∧ s.permit = true ∧ ∀ w : W, ((LimSvc debug S).call s m.req).run (x.sem, w) ≠ .spin → ∃ ev y, BLStep x ev y) := by
  have hi := h.inv
  refine ⟨?_, ?_, ?_, ?_, ?_⟩
  · intro j h1 h2
    by_cases h3 : ∃ m g, x.buf.pc = .reply m g ∧ m.id = j
    · exact ⟨_, .drop_waiting h1 h2 (.inr h3)⟩
    · by_cases h4 : j ∈ x.live.map Prod.fst
      · obtain ⟨⟨j', f⟩, h5, rfl⟩ := List.mem_map.1 h4
        obtain ⟨l, r, h6⟩ := List.append_of_mem h5
        exact ⟨_, .drop_future h1 h2 h6 (fun m g h7 h8 => h3 ⟨m, g, h7, h8⟩)⟩
      · exact ⟨_, .drop_waiting h1 h2 (.inl h4)⟩
  · intro j f w p f' sem' w' h1 h2
    obtain ⟨l, r, h3⟩ := List.append_of_mem (hi.inn j f h1)
    cases p with
    | pending => exact ⟨_, _, .inner_pending h1 h3 h2⟩
    | ready v => exact ⟨_, _, .inner_done h1 h3 h2⟩
  · intro m f h1
    cases hc : x.buf.cancelled m.id with
    | false => exact ⟨_, .reply h1 hc⟩
    | true =>
      obtain ⟨l, r, h3⟩ := List.append_of_mem (hi.rep m f h1)
      exact ⟨_, .reply_unwanted h1 hc h3⟩
  · intro m h1 h2
    have hh := hi.alive (by simp [Buf.dying, h1])
    refine ⟨_, hh, fun w hw => ?_⟩
    cases hr : ((LimSvc debug S).pollReady x.buf.svc).run (x.sem, w) with
    | spin => exact absurd hr hw
    | ok a w' =>
      obtain ⟨p, s'⟩ := a
      obtain ⟨sem', w'⟩ := w'
      cases p with
      | pending => exact ⟨_, _, .svc_pending h1 h2 hh hr⟩
      | ready v =>
        cases v with
        | ok u => exact ⟨_, _, .svc_ready h1 h2 hh hr⟩
        | error e => exact ⟨_, _, .svc_failed h1 h2 hh hr⟩
    | panic msg =>
      have hp : ∃ sem', (x.buf.svc.permit = true ∧ sem' = x.sem) ∨ (x.buf.svc.permit = false ∧ x.sem.pollAcquire x.buf.svc.sem = (true, sem')) := by
        cases hb : x.buf.svc.permit with
        | true => exact ⟨_, .inl ⟨rfl, rfl⟩⟩
        | false =>
          cases ha : x.sem.pollAcquire x.buf.svc.sem with
          | mk g sem' =>
            cases g with
            | true => exact ⟨_, .inr ⟨rfl, rfl⟩⟩
            | false => simp [LimSvc, ConcurrencyLimit, hb, ha, Act.run_bind, Act.run_lift, Act.run_pure] at hr
      obtain ⟨sem', hp⟩ := hp
      exact ⟨_, _, .ready_panics (i := i0) h1 h2 hh hr hp⟩
  · intro m h1
    have hh := hi.alive (by simp [Buf.dying, h1])
    have hp := hi.callp m h1 x.buf.svc (by rw [hh]; exact List.mem_cons_self)
    refine ⟨_, hh, hp, fun w hw => ?_⟩
    cases hr : ((LimSvc debug S).call x.buf.svc m.req).run (x.sem, w) with
    | spin => exact absurd hr hw
    | ok a w' =>
      obtain ⟨f, s'⟩ := a
      obtain ⟨sem', w'⟩ := w'
      exact ⟨_, _, .svc_call h1 hh hr⟩
    | panic msg => exact ⟨_, _, .call_panics (i := i0) h1 hh hp hr⟩

end

namespace Demo74
open DemoBuf

/-- a buffer with one slot around a limit of one: the first request is in flight, the worker waits with the second, the third is in the channel -/
theorem full : ∃ (tr : List (BEv (LimSvc true dsvc))) (x : BufLim true dsvc), BLHist true 1 1 dsvc () tr x ∧ x.buf.cur = some ⟨1, 8⟩ ∧ (∀ s ∈ x.handle, s.permit = false) ∧ 0 ∉ x.woken ∧
    dispatched tr = [⟨0, 7⟩] ∧ accepted tr = [⟨0, 7⟩, ⟨1, 8⟩, ⟨2, 9⟩] ∧
    -- then the caller of the first drops its response future, and the worker is told
    ∃ y, BLStep x (.dropFut 0) y ∧ y.woken = [0] := by
  have r := (BLHist.new (debug := true) (bound := 1) (max := 1) (S := dsvc) (i := ())).step (.handle (.ready (l := []) rfl))
  have r := r.step (.handle (.call (l := []) (q := 7) rfl rfl))
  have r := r.step (.worker (.start rfl) (fun _ h => nomatch h) (fun _ h => nomatch h) (fun _ _ h => nomatch h))
  have r := r.step (.worker (.fresh rfl rfl) (fun _ h => nomatch h) (fun _ h => nomatch h) (fun _ _ h => nomatch h))
  have r := r.step (.worker (.recv rfl rfl) (fun _ h => nomatch h) (fun _ h => nomatch h) (fun _ _ h => nomatch h))
  have r := r.step (.worker (.wanted rfl rfl) (fun _ h => nomatch h) (fun _ h => nomatch h) (fun _ _ h => nomatch h))
  have r := r.step (.svc_ready (w := 1) rfl rfl rfl rfl)
  have r := r.step (.svc_call (w := 1) rfl rfl rfl)
  have r := r.step (.reply rfl rfl)
  have r := r.step (.handle (.ready (l := []) rfl))
  have r := r.step (.handle (.call (l := []) (q := 8) rfl rfl))
  have r := r.step (.worker (.fresh rfl rfl) (fun _ h => nomatch h) (fun _ h => nomatch h) (fun _ _ h => nomatch h))
  have r := r.step (.worker (.recv rfl rfl) (fun _ h => nomatch h) (fun _ h => nomatch h) (fun _ _ h => nomatch h))
  have r := r.step (.handle (.ready (l := []) rfl))
  have r := r.step (.handle (.call (l := []) (q := 9) rfl rfl))
  have r := r.step (.worker (.wanted rfl rfl) (fun _ h => nomatch h) (fun _ h => nomatch h) (fun _ _ h => nomatch h))
  have r := r.step (.svc_pending (w := 1) rfl rfl rfl rfl)
  refine ⟨_, _, r, rfl, ?_, ?_, rfl, rfl, _, .drop_future (l := []) (r := []) (f := (7 : Nat)) (fun h => nomatch h) (fun h => nomatch h) rfl (fun _ _ h => nomatch h), rfl⟩
  · intro s hs
    obtain rfl := List.mem_singleton.1 hs
    rfl
  · exact (by decide : (0 : Nat) ∉ ([] : List Nat))

/-- one request is dispatched, its caller drops the response future, then the executor drops the worker: all is given back -/
theorem gone : ∃ (tr : List (BEv (LimSvc true dsvc))) (x : BufLim true dsvc), BLHist true 1 1 dsvc () tr x ∧ x.buf.pc = .dead ∧ dispatched tr = [⟨0, 7⟩] ∧ (∀ m ∈ dispatched tr, .dropFut m.id ∈ tr) ∧ x.sem = Sem.new 1 := by
  have r := (BLHist.new (debug := true) (bound := 1) (max := 1) (S := dsvc) (i := ())).step (.handle (.ready (l := []) rfl))
  have r := r.step (.handle (.call (l := []) (q := 7) rfl rfl))
  have r := r.step (.worker (.start rfl) (fun _ h => nomatch h) (fun _ h => nomatch h) (fun _ _ h => nomatch h))
  have r := r.step (.worker (.fresh rfl rfl) (fun _ h => nomatch h) (fun _ h => nomatch h) (fun _ _ h => nomatch h))
  have r := r.step (.worker (.recv rfl rfl) (fun _ h => nomatch h) (fun _ h => nomatch h) (fun _ _ h => nomatch h))
  have r := r.step (.worker (.wanted rfl rfl) (fun _ h => nomatch h) (fun _ h => nomatch h) (fun _ _ h => nomatch h))
  have r := r.step (.svc_ready (w := 1) rfl rfl rfl rfl)
  have r := r.step (.svc_call (w := 1) rfl rfl rfl)
  have r := r.step (.reply rfl rfl)
  have r := r.step (.drop_future (i := 0) (l := []) (r := []) (f := (7 : Nat)) (fun h => nomatch h) (fun h => nomatch h) rfl (fun _ _ h => nomatch h))
  have r := r.step (.worker (.fresh rfl rfl) (fun _ h => nomatch h) (fun _ h => nomatch h) (fun _ _ h => nomatch h))
  have r := r.step (.worker (.empty rfl rfl (fun h => nomatch h) (fun h => nomatch h)) (fun _ h => nomatch h) (fun _ h => nomatch h) (fun _ _ h => nomatch h))
  have r := r.step (.death (.dropped rfl) (fun _ h => nomatch h) (fun _ h => nomatch h) (fun h => nomatch h))
  have r := r.step (.death (.closes rfl) (fun _ h => nomatch h) (fun _ h => nomatch h) (fun h => nomatch h))
  have r := r.step (.drained rfl rfl rfl)
  refine ⟨_, _, r, rfl, rfl, ?_, C74_returned r rfl ?_⟩ <;>
  · intro m hm
    obtain rfl := List.mem_singleton.1 (show m ∈ [(⟨0, 7⟩ : Msg Nat)] from hm)
    simp

end Demo74

end Tower
