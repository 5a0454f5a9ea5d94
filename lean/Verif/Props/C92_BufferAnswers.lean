import Verif.Proof.BufferLive2
import Mathlib.Tactic.IntervalCases

/-! # C92: every request a buffer accepted is answered -/

set_option linter.unusedSimpArgs false

namespace Tower
open Act
variable {W Req Res Err : Type} {S : Service W Req Res Err} {bound : Nat} {svc : S.σ} {F : Fairness W} {ws : Nat → W} {xs : Nat → Buf S} {ks : Nat → Wakers} {evs : Nat → Option (BEv S)}

/-! ## Lemmas -/

theorem accept_state {x y : Buf S} {h i : Nat} {r : Req} (hs : BStep x (.accept h i r) y) : i < y.calls ∧ y.futs i = .rx ∧ y.pc = x.pc := by
  cases hs with
  | worker hs => cases hs
  | death hs => cases hs
  | future hs => cases hs
  | handle hs => cases hs; exact ⟨Nat.lt_succ_self _, Function.update_self _ _ _, rfl⟩

/-- how a response future changes -/
theorem fut_step {x y : Buf S} {ev : BEv S} {tr : List (BEv S)} {i : Nat} (hI : BufInv tr x) (hs : BStep x ev y) (hi : x.futs i ≠ .none) (h1 : ∀ p, ev ≠ .poll i p) (h2 : ev ≠ .dropFut i) :
    y.futs i = x.futs i ∨ ∃ f, x.futs i = .rx ∧ x.shots i = .sent (.ok f) ∧ y.futs i = .inner f := by
  have hcalls : i ≠ x.calls := fun h => hi (hI.msg.fnone i (by omega))
  cases hs with
  | worker hs => rw [hs.kept.2.1]; exact .inl rfl
  | death hs => cases hs <;> exact .inl rfl
  | handle hs =>
    cases hs
    case call => exact .inl (Function.update_of_ne hcalls _ _)
    case call_closed => exact .inl (Function.update_of_ne hcalls _ _)
    all_goals exact .inl rfl
  | future hs =>
    cases hs
    case arrived j f h3 h4 =>
      by_cases hj : i = j
      · subst hj; exact .inr ⟨f, h3, h4, Function.update_self _ _ _⟩
      · exact .inl (Function.update_of_ne hj _ _)
    case waiting => exact .inl rfl
    case drop j _ _ =>
      by_cases hj : i = j
      · subst hj; exact absurd rfl h2
      · exact .inl (Function.update_of_ne hj _ _)
    all_goals exact .inl (Function.update_of_ne (fun hj => by subst hj; exact absurd rfl (h1 _)) _ _)

theorem Finishes.desc {f0 f : S.φ} (h : Finishes F S.poll f0) (hd : Desc S f0 f) : Finishes F S.poll f := by
  induction hd with
  | refl => exact h
  | @step f f' w w' _ hr ih =>
    intro ws hws
    have := ih (wcons w ws) (F.cons w ws hws)
    cases this with
    | ready h3 => rw [wcons, hr] at h3; cases h3
    | panics h3 => rw [wcons, hr] at h3; cases h3
    | pending h3 h4 =>
      rw [wcons, hr] at h3
      injection h3 with h3 _
      injection h3 with _ h3
      rw [h3]; exact h4

/-! ## Theorems -/

/-- **C92.** A buffer around a service that does not hang, whose worker is polled when it is woken: if a call is accepted before the worker died, then from some time on its response future does not wait for the buffer any more, whatever all the other
handles and futures do. -/
theorem C92_answered (L : BufLife S bound svc ws xs ks evs) (Fr : BufFair F ws xs ks evs) (hS : NeverHangs F S svc) {n h i : Nat} {r : Req} (ha : evs n = some (.accept h i r))
    (hd : ∀ m, m < n → evs m ≠ some .workerDropped ∧ evs m ≠ some .svcPanics) : ∃ m, ∀ k, m ≤ k → (xs k).shots i ≠ .waiting := by
  obtain ⟨h1, -, h3⟩ := accept_state (L.step n _ ha).1
  have hdead : (xs (n + 1)).pc ≠ .dead := by
    intro hp
    obtain ⟨tr, hb, ht⟩ := L.bhist n
    rcases ((BHist.inv hb).ctl.dying (.inr (.inr (h3 ▸ hp)))).2 with h4 | h4
    · obtain ⟨m, h5, h6⟩ := (ht _).1 h4; exact (hd m h5).2 h6
    · obtain ⟨m, h5, h6⟩ := (ht _).1 h4; exact (hd m h5).1 h6
  by_cases hw : ∃ m, n + 1 ≤ m ∧ (xs m).shots i ≠ .waiting
  · obtain ⟨m, hm, hm'⟩ := hw
    have hcalls : i < (xs m).calls := by
      have : ∀ d, i < (xs (n + 1 + d)).calls := by
        intro d
        induction d with
        | zero => exact h1
        | succ d ih =>
          rw [← Nat.add_assoc]
          cases he : evs (n + 1 + d) with
          | none => rw [(L.wake _ he).1]; exact ih
          | some ev =>
            have hs := (L.step _ _ he).1
            cases hs with
            | worker hs => rw [hs.kept.2.2]; exact ih
            | death hs => rw [hs.calls]; exact ih
            | handle hs => exact Nat.lt_of_lt_of_le ih (users_keep ih (.inl hs)).2.2.2.2.2.1
            | future hs => exact Nat.lt_of_lt_of_le ih (users_keep ih (.inr hs)).2.2.2.2.2.1
      have := this (m - (n + 1)); rwa [show n + 1 + (m - (n + 1)) = m by omega] at this
    refine ⟨m, fun k hk => ?_⟩
    have := (L.decided hcalls hm' (k - m)).2
    rwa [show m + (k - m) = k by omega] at this
  · push Not at hw
    exact (no_eternal_wait L Fr hS.ready h1 hdead hw).elim

/-- C92: its response future, if it is polled again and again and not dropped, gives a response (or an error). -/
theorem C92_response (L : BufLife S bound svc ws xs ks evs) (Fr : BufFair F ws xs ks evs) (hS : NeverHangs F S svc) {n h i : Nat} {r : Req} (ha : evs n = some (.accept h i r))
    (hd : ∀ m, m < n → evs m ≠ some .workerDropped ∧ evs m ≠ some .svcPanics) (hk : ∀ m, evs m ≠ some (.dropFut i))
    (hp : (∀ m v, evs m ≠ some (.poll i (.ready v))) → ∀ m, ∃ k, m ≤ k ∧ evs k = some (.poll i .pending)) : ∃ m v, evs m = some (.poll i (.ready v)) := by
  by_contra hcon
  push Not at hcon
  have hp := hp hcon
  obtain ⟨M, hM⟩ := C92_answered L Fr hS ha hd
  obtain ⟨-, hrx, -⟩ := accept_state (L.step n _ ha).1
  have hinv : ∀ n, ∃ tr, BufInv tr (xs n) ∧ BHist S bound svc tr (xs n) := fun n => by obtain ⟨tr, h, _⟩ := L.bhist n; exact ⟨tr, BHist.inv h, h⟩
  have pend : ∀ {x y : Buf S}, BStep x (.poll i .pending) y → (x.futs i = .rx ∧ x.shots i = .waiting ∧ y.futs i = .rx) ∨ ∃ f f', x.futs i = .inner f ∧ y.futs i = .inner f' := by
    intro x y hs
    cases hs with
    | worker hs => cases hs
    | death hs => cases hs
    | handle hs => cases hs
    | future hs =>
      cases hs with
      | waiting h1 h2 => exact .inl ⟨h1, h2, h1⟩
      | inner_pending h1 h2 => exact .inr ⟨_, _, h1, Function.update_self _ _ _⟩
  -- the future is `rx`, then `inner`
  have hstate : ∀ d, (xs (n + 1 + d)).futs i = .rx ∨ ∃ f, (xs (n + 1 + d)).futs i = .inner f := by
    intro d
    induction d with
    | zero => exact .inl hrx
    | succ d ih =>
      obtain ⟨tr, hI, _⟩ := hinv (n + 1 + d)
      rw [← Nat.add_assoc]
      cases he : evs (n + 1 + d) with
      | none => rw [(L.wake _ he).1]; exact ih
      | some ev =>
        have hs := (L.step _ _ he).1
        by_cases hev : ∃ p, ev = .poll i p
        · obtain ⟨p, rfl⟩ := hev
          cases p with
          | ready v => exact absurd he (hcon _ v)
          | pending =>
            rcases pend hs with ⟨_, _, h1⟩ | ⟨_, f', _, h1⟩
            · exact .inl h1
            · exact .inr ⟨f', h1⟩
        · rcases fut_step hI hs (by rcases ih with h1 | ⟨f, h1⟩ <;> rw [h1] <;> simp) (fun p hp' => hev ⟨p, hp'⟩) (fun h1 => hk _ (h1 ▸ he)) with h1 | ⟨f, _, _, h1⟩
          · rw [h1]; exact ih
          · exact .inr ⟨f, h1⟩
  obtain ⟨n₁, hn₁, he₁⟩ := hp (max M (n + 1))
  have hin : ∀ d, ∃ f, (xs (n₁ + d)).futs i = .inner f := by
    intro d
    induction d with
    | zero =>
      rcases pend (L.step _ _ he₁).1 with ⟨_, h1, _⟩ | ⟨f, _, h1, _⟩
      · exact absurd h1 (hM n₁ (by omega))
      · exact ⟨f, h1⟩
    | succ d ih =>
      obtain ⟨f, ih⟩ := ih
      obtain ⟨tr, hI, _⟩ := hinv (n₁ + d)
      rw [← Nat.add_assoc]
      cases he : evs (n₁ + d) with
      | none => rw [(L.wake _ he).1]; exact ⟨f, ih⟩
      | some ev =>
        have hs := (L.step _ _ he).1
        by_cases hev : ∃ p, ev = .poll i p
        · obtain ⟨p, rfl⟩ := hev
          cases p with
          | ready v => exact absurd he (hcon _ v)
          | pending =>
            rcases pend hs with ⟨h1, _⟩ | ⟨_, f', _, h1⟩
            · rw [ih] at h1; cases h1
            · exact ⟨f', h1⟩
        · rcases fut_step hI hs (by rw [ih]; simp) (fun p hp' => hev ⟨p, hp'⟩) (fun h1 => hk _ (h1 ▸ he)) with h1 | ⟨f, h1, _⟩
          · rw [h1]; exact ⟨f, ih⟩
          · rw [ih] at h1; cases h1
  have hin : ∀ m, n₁ ≤ m → ∃ f, (xs m).futs i = .inner f := fun m hm => by have := hin (m - n₁); rwa [show n₁ + (m - n₁) = m by omega] at this
  -- it is polled again and again
  let p : Nat → Prop := fun m => (∃ f, (xs m).futs i = .inner f) ∧ ∃ p, evs m = some (.poll i p)
  obtain ⟨g, hg, hgp⟩ := enumerate p n₁ fun m hm => by
    obtain ⟨k, h1, h2⟩ := hp m
    exact ⟨k, h1, hin k (by omega), _, h2⟩
  have hfair : F.fair (fun k => ws (g (n₁ + k))) := Fairness.shift (ws := fun k => ws (g k)) (Fr.futFair i g hg hgp) n₁
  have hgN : ∀ k, n₁ ≤ g (n₁ + k) := fun k => by have := hg.id_le (n₁ + k); simp only [id] at this; omega
  have hat : ∀ k, evs (g (n₁ + k)) = some (.poll i .pending) := by
    intro k
    obtain ⟨_, p, h1⟩ := (hgp _).1 ⟨n₁ + k, rfl⟩
    cases p with
    | pending => exact h1
    | ready v => exact absurd h1 (hcon _ v)
  have hsame : ∀ k d, g (n₁ + k) + 1 + d ≤ g (n₁ + (k + 1)) → (xs (g (n₁ + k) + 1 + d)).futs i = (xs (g (n₁ + k) + 1)).futs i := by
    intro k d
    induction d with
    | zero => exact fun _ => rfl
    | succ d ih =>
      intro hd
      rw [← ih (by omega)]
      have hn := enumerate_gap hg hgp (n₁ + k) (g (n₁ + k) + 1 + d) (by omega) (by rw [show n₁ + k + 1 = n₁ + (k + 1) by omega]; omega)
      obtain ⟨f, hf⟩ := hin (g (n₁ + k) + 1 + d) (by have := hgN k; omega)
      obtain ⟨tr, hI, _⟩ := hinv (g (n₁ + k) + 1 + d)
      cases he : evs (g (n₁ + k) + 1 + d) with
      | none =>
        show (xs (g (n₁ + k) + 1 + d + 1)).futs i = _
        rw [(L.wake _ he).1]
      | some ev =>
        rcases fut_step hI (L.step _ _ he).1 (by rw [hf]; simp) (fun p hp' => hn ⟨⟨f, hf⟩, p, hp' ▸ he⟩) (fun h1 => hk _ (h1 ▸ he)) with h1 | ⟨f', h1, _⟩
        · exact h1
        · rw [hf] at h1; cases h1
  choose a ha' using fun k => hin (g (n₁ + k)) (hgN k)
  have hrun : ∀ k, ∃ w', (S.poll (a k)).run (ws (g (n₁ + k))) = .ok (.pending, a (k + 1)) w' := by
    intro k
    obtain ⟨f', w', h1, h2⟩ := (L.futWorld _ i _ (ha' k)).1 (hat k)
    have hlt : g (n₁ + k) < g (n₁ + (k + 1)) := hg (by omega)
    have h3 := hsame k (g (n₁ + (k + 1)) - g (n₁ + k) - 1) (by omega)
    rw [show g (n₁ + k) + 1 + (g (n₁ + (k + 1)) - g (n₁ + k) - 1) = g (n₁ + (k + 1)) by omega, h2, ha' (k + 1)] at h3
    injection h3 with h3
    exact ⟨w', by rw [h3]; exact h1⟩
  choose ws' hrun using hrun
  obtain ⟨tr, hI, hb⟩ := hinv (g (n₁ + 0))
  obtain ⟨m, f0, h1, -, h2⟩ := hI.msg.inn i _ (ha' 0)
  obtain ⟨s, w, s', w', h3, h4⟩ := hb.issued m f0 h1
  exact pending_forever (poll := S.poll) a ws' hrun ((hS.poll s _ w f0 s' w' h3 h4).desc h2 _ hfair)

/-- C92: and it is passed on to the service, unless its response future is dropped, the service fails, or the worker dies. -/
theorem C92_dispatched (L : BufLife S bound svc ws xs ks evs) (Fr : BufFair F ws xs ks evs) (hS : NeverHangs F S svc) {n h i : Nat} {r : Req} (ha : evs n = some (.accept h i r))
    (hd : ∀ m, evs m ≠ some .workerDropped ∧ evs m ≠ some .svcPanics) (hk : ∀ m, evs m ≠ some (.dropFut i)) (hf : ∀ m e, evs m ≠ some (.svcFailed e)) : ∃ m f, evs m = some (.dispatch i r f) := by
  obtain ⟨M, hM⟩ := C92_answered L Fr hS ha (fun m _ => hd m)
  obtain ⟨tr, hb, ht⟩ := L.bhist (max M (n + 1))
  have hI := BHist.inv hb
  have hacc : (⟨i, r⟩ : Msg Req) ∈ accepted tr := by
    have h1 : BEv.accept h i r ∈ tr := (ht _).2 ⟨n, by omega, ha⟩
    clear ht hI hb hM
    induction tr with
    | nil => cases h1
    | cons e t ih =>
      rcases List.mem_cons.1 h1 with h2 | h2
      · subst h2; simp [accepted]
      · have := ih h2
        cases e <;> simp [accepted, this]
  by_cases hD : (⟨i, r⟩ : Msg Req) ∈ (dispatches tr).map (·.1)
  · obtain ⟨⟨m', f⟩, h1, h2⟩ := List.mem_map.1 hD
    dsimp only at h2
    subst h2
    have h3 : BEv.dispatch i r f ∈ tr := by
      clear hD hacc ht hI hb
      induction tr with
      | nil => cases h1
      | cons e t ih =>
        cases e with
        | dispatch j q f' =>
          simp only [dispatches, List.mem_cons, Prod.mk.injEq, Msg.mk.injEq] at h1
          rcases h1 with ⟨⟨rfl, rfl⟩, rfl⟩ | h1
          · exact List.mem_cons_self
          · exact List.mem_cons_of_mem _ (ih h1)
        | _ => exact List.mem_cons_of_mem _ (ih h1)
    obtain ⟨m, _, h4⟩ := (ht _).1 h3
    exact ⟨m, f, h4⟩
  · exfalso
    have hw := hM (max M (n + 1)) (by omega)
    by_cases hP : (⟨i, r⟩ : Msg Req) ∈ (xs (max M (n + 1))).pend
    · exact hw (hI.msg.pW _ hP).1
    · rcases hI.msg.fate _ hacc hD hP with h1 | ⟨e, h1, _⟩ | ⟨h1, _⟩
      · obtain ⟨m, _, h2⟩ := (ht _).1 (((BHist.ev hb).drop i).1 h1); exact hk m h2
      · obtain ⟨m, _, h2⟩ := (ht _).1 (hI.ctl.errTr e (hI.ctl.f_err e h1).1); exact hf m e h2
      · rcases (hI.ctl.dying h1).2 with h2 | h2
        · obtain ⟨m, _, h3⟩ := (ht _).1 h2; exact (hd m).2 h3
        · obtain ⟨m, _, h3⟩ := (ht _).1 h2; exact (hd m).1 h3

/-- C92: when all handles of the buffer have been dropped, its worker comes to its end. -/
theorem C92_ends (L : BufLife S bound svc ws xs ks evs) (Fr : BufFair F ws xs ks evs) (hS : NeverHangs F S svc) {n : Nat} (hh : (xs n).hs = []) : ∃ m, n ≤ m ∧ ((xs m).pc = .done ∨ (xs m).pc = .dead) :=
  worker_comes_to_end L Fr hS.ready hh

/-! ## A concrete case: a service that is not ready at once -/

section Demo

/-- ready after so many polls -/
@[reducible] def warm : Service Unit Nat Nat String where
  σ := Nat
  φ := Nat
  pollReady s := pure (match s with | 0 => (.ready (.ok ()), 0) | n + 1 => (.pending, n))
  call _ r := pure (r + 1, 1)
  poll f := pure (.ready (.ok f), f)
  clone s := s

def always : Fairness Unit := ⟨fun _ => True, ⟨fun _ => (), trivial⟩, fun _ _ _ => trivial, fun _ _ => trivial⟩

theorem warm_live (s : Nat) : NeverHangs always warm s where
  ready b s _ := by
    have : ∀ (n : Nat) ws, Ends warm.pollReady n ws := by
      intro n
      induction n with
      | zero => exact fun ws => .ready rfl
      | succ n ih => exact fun ws => .pending rfl (ih _)
    exact fun ws _ => this s ws
  call s r w _ := by intro h; cases h
  poll s r w f s' w' _ h ws _ := .ready rfl

abbrev lm : Msg Nat := ⟨0, 7⟩
abbrev l0 : Buf warm := Buf.init warm 1 (1 : Nat)
abbrev l1 : Buf warm := { l0 with hs := [(l0.pollReady ⟨0, .idle⟩).2.1], sem := (l0.pollReady ⟨0, .idle⟩).2.2 }
abbrev l2 : Buf warm := { l1 with hs := [⟨0, .idle⟩], queue := [lm], shots := Function.update l1.shots 0 .waiting, futs := Function.update l1.futs 0 .rx, calls := 1 }
abbrev l3 : Buf warm := { l2 with pc := .next }
abbrev l4 : Buf warm := { l3 with pc := .recv }
abbrev l5 : Buf warm := { l4 with queue := [], sem := l4.sem.release, pc := .check lm }
abbrev l6 : Buf warm := { l5 with pc := .got lm }
abbrev l7 : Buf warm := { l6 with svc := (0 : Nat), cur := some lm, pc := .parked }
abbrev l9 : Buf warm := { l7 with pc := .next }
abbrev l10 : Buf warm := { l9 with cur := none, pc := .check lm }
abbrev l11 : Buf warm := { l10 with pc := .got lm }
abbrev l12 : Buf warm := { l11 with svc := (0 : Nat), pc := .call lm }
abbrev l13 : Buf warm := { l12 with svc := (1 : Nat), pc := .reply lm (8 : Nat) }
abbrev l14 : Buf warm := { l13.send 0 (.ok (8 : Nat)) with pc := .next }
abbrev l15 : Buf warm := { l14 with pc := .recv }
abbrev l16 : Buf warm := { l15 with pc := .parked }
abbrev l17 : Buf warm := { l16 with futs := Function.update l16.futs 0 (.inner (8 : Nat)) }
abbrev l18 : Buf warm := { l17 with futs := Function.update l17.futs 0 .finished }

def lx : Nat → Buf warm
  | 0 => l0 | 1 => l1 | 2 => l2 | 3 => l3 | 4 => l4 | 5 => l5 | 6 => l6 | 7 => l7 | 8 => l7 | 9 => l9 | 10 => l10 | 11 => l11 | 12 => l12
  | 13 => l13 | 14 => l14 | 15 => l15 | 16 => l16 | 17 => l17 | _ => l18

def le : Nat → Option (BEv warm)
  | 0 => some (.ready 0 (.ready (.ok ())))
  | 1 => some (.accept 0 0 7)
  | 2 | 3 | 4 | 5 => some .tau
  | 6 => some .svcPending
  | 7 => none
  | 8 | 9 | 10 | 11 => some .tau
  | 12 => some (.dispatch 0 7 (8 : Nat))
  | 13 | 14 | 15 | 16 => some .tau
  | 17 => some (.poll 0 (.ready (.ok 8)))
  | _ => none

/-- the service uses its waker at time 7 -/
def lk : Nat → Wakers
  | 0 => .init
  | n + 1 => match le n with
    | none => if n = 7 then { lk n with worker := true } else lk n
    | some ev => (lx n).wakes ev (lx (n + 1)) (lk n)

theorem lsteps : ∀ n ev, le n = some ev → BStep (lx n) ev (lx (n + 1))
  | 0, _, rfl => .handle (HStep.ready (x := l0) (h := ⟨0, .idle⟩) (l := []) (r := []) rfl)
  | 1, _, rfl => .handle (.call (h := ⟨0, .ready⟩) (l := []) (r := []) rfl rfl)
  | 2, _, rfl => .worker (.start rfl)
  | 3, _, rfl => .worker (.fresh rfl rfl)
  | 4, _, rfl => .worker (.recv rfl rfl)
  | 5, _, rfl => .worker (.wanted rfl rfl)
  | 6, _, rfl => .worker (.svc_pending (w := ()) (w' := ()) rfl rfl rfl)
  | 8, _, rfl => .worker (.start rfl)
  | 9, _, rfl => .worker (.resume rfl rfl)
  | 10, _, rfl => .worker (.wanted rfl rfl)
  | 11, _, rfl => .worker (.svc_ready (w := ()) (w' := ()) rfl rfl rfl)
  | 12, _, rfl => .worker (WStep.svc_call (x := l12) (m := lm) (f := (8 : Nat)) (s' := (1 : Nat)) (w := ()) (w' := ()) rfl rfl)
  | 13, _, rfl => .worker (WStep.reply (x := l13) (m := lm) (f := (8 : Nat)) rfl)
  | 14, _, rfl => .worker (.fresh rfl rfl)
  | 15, _, rfl => .worker (.empty rfl rfl (by intro h; cases h) (by intro h; cases h))
  | 16, _, rfl => .future (.arrived rfl rfl)
  | 17, _, rfl => .future (.inner_ok (w := ()) (w' := ()) (f' := (8 : Nat)) rfl rfl)

/-- nothing but what is in the list happens -/
theorem by_time {P : Nat → Prop} (h : ∀ n, n < 18 → P n) (h' : ∀ n, P (n + 18)) (n : Nat) : P n := by
  by_cases hn : n < 18
  · exact h n hn
  · obtain ⟨k, rfl⟩ := Nat.exists_eq_add_of_le (Nat.le_of_not_lt hn)
    rw [Nat.add_comm]; exact h' k

theorem lk_late (n : Nat) : (lk (n + 16)).worker = false := by
  have h : ∀ n, lk (n + 18) = lk 18 := by
    intro n
    induction n with
    | zero => rfl
    | succ n ih =>
      show (if n + 18 = 7 then { lk (n + 18) with worker := true } else lk (n + 18)) = lk 18
      rw [if_neg (by omega), ih]
  match n with
  | 0 => rfl
  | 1 => rfl
  | n + 2 => rw [show n + 2 + 16 = n + 18 by omega, h n]; rfl

theorem demo_life : BufLife warm 1 (1 : Nat) (fun _ => ()) lx lk le where
  start := rfl
  startWakers := rfl
  step n ev he := by
    refine ⟨lsteps n ev he, ?_, ?_⟩
    · revert n
      refine by_time (fun n hn => ?_) fun n he => by cases he
      intro _
      interval_cases n <;> first | exact fun _ _ => rfl | exact nofun | exact fun _ => nofun
    · show (match le n with | none => if n = 7 then { lk n with worker := true } else lk n | some ev => (lx n).wakes ev (lx (n + 1)) (lk n)) = _
      rw [he]
  wake n he := by
    have h1 : lx (n + 1) = lx n := by
      revert n
      refine by_time (fun n hn => ?_) fun n _ => rfl
      intro he
      interval_cases n <;> first | rfl | cases he
    have h2 : lk (n + 1) = if n = 7 then { lk n with worker := true } else lk n := by
      show (match le n with | none => if n = 7 then { lk n with worker := true } else lk n | some ev => (lx n).wakes ev (lx (n + 1)) (lk n)) = _
      rw [he]
    rw [h2]
    refine ⟨h1, ?_⟩
    split <;> exact ⟨fun h => by first | exact h | rfl, rfl, fun _ h => h, fun _ h => h⟩
  svcWorld n := by
    revert n
    refine by_time (fun n hn => ?_) fun n => ?_
    · rintro ⟨m, h1, h2, h3⟩
      interval_cases n <;> first | cases h1 | skip
      · exact .inl ⟨(), rfl, rfl⟩
      · exact .inr (.inl ⟨_, (), rfl, by simp [le]⟩)
    · rintro ⟨m, h1, _⟩; cases h1
  futWorld n i f hf := by
    refine ⟨fun he => ?_, fun v he => ⟨_, f, (), rfl⟩⟩
    exfalso
    revert n
    refine by_time (fun n hn => ?_) fun n _ he => by cases he
    intro _ he
    interval_cases n <;> cases he

theorem demo_fair : BufFair always (S := warm) (fun _ => ()) lx lk le where
  runs n := by
    revert n
    refine by_time (fun n hn => ?_) fun n h _ _ => ?_
    · intro h _ _
      by_cases h16 : n < 16
      · refine ⟨15, .tau, by omega, rfl, .inl (.empty rfl rfl (by intro h; cases h) (by intro h; cases h))⟩
      · obtain ⟨k, rfl⟩ := Nat.exists_eq_add_of_le (Nat.le_of_not_lt h16)
        have h1 := lk_late k
        rw [Nat.add_comm] at h1
        have h2 : (lx (16 + k)).pc = .parked := by
          have : k < 2 := by omega
          interval_cases k <;> rfl
        rw [h h2] at h1; cases h1
    · have h1 := lk_late (n + 2)
      rw [show n + 2 + 16 = n + 18 by omega, h rfl] at h1; cases h1
  svcWakes n := by
    revert n
    refine by_time (fun n hn => ?_) fun n _ h => absurd rfl h
    intro hp hc
    by_cases h8 : n ≤ 8
    · exact ⟨8, h8, .inl rfl⟩
    · interval_cases n <;> first | exact absurd rfl hc | cases hp
  svcFair _ _ _ := trivial
  futFair _ _ _ _ := trivial

example : ∃ m f, le m = some (.dispatch 0 7 f) := by
  refine C92_dispatched demo_life demo_fair (warm_live 1) (n := 1) rfl ?_ ?_ ?_
  · refine by_time (fun n hn => ?_) fun n => ⟨nofun, nofun⟩
    interval_cases n <;> simp [le]
  · refine by_time (fun n hn => ?_) fun n => nofun
    interval_cases n <;> simp [le]
  · intro n e
    revert n
    refine by_time (fun n hn => ?_) fun n => nofun
    interval_cases n <;> simp [le]

example : ∃ m v, le m = some (.poll 0 (.ready v)) := by
  refine C92_response demo_life demo_fair (warm_live 1) (n := 1) rfl ?_ ?_ fun h => absurd rfl (h 17 (.ok 8))
  · intro m hm; interval_cases m; simp [le]
  · refine by_time (fun n hn => ?_) fun n => nofun
    interval_cases n <;> simp [le]

/-! ### Without a fair executor: a worker that is never polled answers nothing -/

def ux : Nat → Buf warm | 0 => l0 | 1 => l1 | _ => l2
def ue : Nat → Option (BEv warm) | 0 => some (.ready 0 (.ready (.ok ()))) | 1 => some (.accept 0 0 7) | _ => none
def uk : Nat → Wakers | 0 => .init | 1 => l0.wakes (.ready 0 (.ready (.ok ()))) l1 .init | _ => l1.wakes (.accept 0 0 7) l2 (l0.wakes (.ready 0 (.ready (.ok ()))) l1 .init)

theorem unpolled_life : BufLife warm 1 (1 : Nat) (fun _ => ()) ux uk ue where
  start := rfl
  startWakers := rfl
  step := by
    intro n ev he
    match n, he with
    | 0, rfl => exact ⟨lsteps 0 _ rfl, nofun, rfl⟩
    | 1, rfl => exact ⟨lsteps 1 _ rfl, nofun, rfl⟩
  wake := by
    intro n he
    match n, he with
    | n + 2, _ => exact ⟨rfl, id, rfl, fun _ => id, fun _ => id⟩
  svcWorld n h := by
    obtain ⟨m, h, _⟩ := h
    match n, h with
    | 0, h => cases h
    | 1, h => cases h
    | n + 2, h => cases h
  futWorld n i f hf := by
    match n with
    | 0 => exact ⟨nofun, fun v h => by cases h⟩
    | 1 => exact ⟨nofun, fun v h => by cases h⟩
    | n + 2 => exact ⟨nofun, fun v h => by cases h⟩

/-- its request waits for ever -/
example : ue 1 = some (.accept 0 0 7) ∧ ∀ k, 2 ≤ k → (ux k).shots 0 = .waiting := by
  refine ⟨rfl, fun k hk => ?_⟩
  match k, hk with
  | n + 2, _ => rfl

end Demo

end Tower
