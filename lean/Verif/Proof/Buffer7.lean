import Verif.Proof.Buffer6

/-! # Buffer: the worker left alone -/

set_option linter.unusedSimpArgs false

namespace Tower
variable {W Req Res Err : Type} {S : Service W Req Res Err}

/-- how far the worker is from the end of its `poll` -/
def WPc.rank {φ Req E : Type} (busy : Bool) : WPc φ Req E → Nat
  | .parked => if busy then 9 else 3
  | .next => if busy then 8 else 2
  | .check _ => 7
  | .got _ => 6
  | .fail1 .. => 5
  | .fail2 .. => 4
  | .call _ => 4
  | .fail3 _ => 3
  | .reply .. => 3
  | .recv => 1
  | .done | .unwinding | .dropping | .dead => 0

def Buf.wm (x : Buf S) : Nat := 7 * x.queue.length + x.pc.rank x.cur.isSome

theorem Buf.wm_le (x : Buf S) : x.wm ≤ 7 * x.queue.length + 9 := by
  unfold Buf.wm
  cases x.pc <;> simp [WPc.rank] <;> split <;> omega

theorem CtlInv.curnone {tr : List (BEv S)} {x : Buf S} (h : CtlInv tr x) (h1 : x.pc ≠ .parked) (h2 : x.pc ≠ .next) : x.cur = none := by
  cases hc : x.cur with
  | none => rfl
  | some m =>
    rcases h.cur (by rw [hc]; simp) with h3 | h3
    · exact absurd h3 h1
    · exact absurd h3 h2

theorem WStep.wm {x y : Buf S} {tr ev} (hC : CtlInv tr x) (hs : WStep x ev y) (hp : y.pc ≠ .parked) : y.wm < x.wm := by
  have hc : x.pc ≠ .parked → x.pc ≠ .next → x.cur = none := hC.curnone
  cases hs
  case start h1 => simp only [Buf.wm, h1, WPc.rank]; split <;> omega
  case empty => simp at hp
  case svc_pending => simp at hp
  case resume m h1 h2 => simp [Buf.wm, h1, h2, WPc.rank]
  case fresh h1 h2 => simp [Buf.wm, h1, h2, WPc.rank]
  case recv m q h1 h2 =>
    simp [Buf.wm, h1, h2, WPc.rank, Sem.release]; omega
  all_goals
    have hcn := hc (by simp [*]) (by simp [*])
    simp [Buf.wm, WPc.rank, Buf.send, Buf.dropMsg, Buf.close, *]

theorem WRun.run {x y : Buf S} {tr} (h : WRun x tr y) : BRun x tr y := by
  induction h with
  | nil => exact .nil
  | snoc _ hs ih => exact .snoc ih (.worker hs)

theorem WRun.trans {x y z : Buf S} {t u : List (BEv S)} (h : WRun x t y) (h' : WRun y u z) : WRun x (t ++ u) z := by
  induction h' with
  | nil => simpa using h
  | snoc _ hs ih => rw [← List.append_assoc]; exact .snoc ih hs

theorem WRun.one {x y : Buf S} {ev} (h : WStep x ev y) : WRun x [ev] y := by
  simpa using WRun.snoc .nil h

theorem WStep.kept {x y : Buf S} {ev} (hs : WStep x ev y) : y.hs = x.hs ∧ y.futs = x.futs ∧ y.calls = x.calls := by
  cases hs <;> exact ⟨rfl, rfl, rfl⟩

theorem WStep.alive {x y : Buf S} {ev} (hs : WStep x ev y) : ¬ y.dying := by
  cases hs <;> simp [Buf.dying]

/-- events of the worker are not those of handles or futures -/
theorem WStep.inside {x y : Buf S} {ev} (hs : WStep x ev y) : (∀ n i r, ev ≠ .accept n i r) ∧ (∀ i, ev ≠ .dropFut i) ∧ ∀ i p, ev ≠ .poll i p := by
  cases hs <;> simp

theorem WRun.kept {x y : Buf S} {tr} (h : WRun x tr y) : y.hs = x.hs ∧ y.futs = x.futs ∧ y.calls = x.calls ∧ (¬ x.dying → ¬ y.dying) ∧
    (∀ n i r, .accept n i r ∉ tr) ∧ (∀ i, .dropFut i ∉ tr) ∧ ∀ i p, .poll i p ∉ tr := by
  induction h with
  | nil => simp
  | snoc _ hs ih =>
    obtain ⟨h1, h2, h3⟩ := hs.kept
    obtain ⟨h4, h5, h6⟩ := hs.inside
    obtain ⟨i1, i2, i3, _, i4, i5, i6⟩ := ih
    refine ⟨by rw [h1, i1], by rw [h2, i2], by rw [h3, i3], fun _ => hs.alive, ?_, ?_, ?_⟩
    · intro n i r hm; rcases mem_snoc.1 hm with hm | hm
      · exact i4 n i r hm
      · exact h4 n i r hm.symm
    · intro i hm; rcases mem_snoc.1 hm with hm | hm
      · exact i5 i hm
      · exact h5 i hm.symm
    · intro i p hm; rcases mem_snoc.1 hm with hm | hm
      · exact i6 i p hm
      · exact h6 i p hm.symm

/-- a worker that took a message gets rid of it -/
theorem got_progress {x : Buf S} {m : Msg Req} (h : Answers S x.svc) (hp : x.pc = .got m) (hc : x.cur = none) (hf : x.failed = none) :
    ∃ tr y, WRun x tr y ∧ y.wm < x.wm := by
  generalize hs : x.svc = s at h
  induction h generalizing x with
  | now hr =>
    rename_i s v s' w w'
    subst hs
    cases v with
    | ok u => exact ⟨_, _, .one (.svc_ready hp hf hr), by simp [Buf.wm, hp, hc, WPc.rank]⟩
    | error e => exact ⟨_, _, .one (.svc_failed hp hf hr), by simp [Buf.wm, hp, hc, WPc.rank]⟩
  | @later s s' w w' hr ha ih =>
    subst hs
    -- parked, polled again, the message is looked at again
    have s1 : WStep x .svcPending { x with svc := s', cur := some m, pc := .parked } := .svc_pending hp hf hr
    have s2 : WStep ({ x with svc := s', cur := some m, pc := .parked } : Buf S) .tau { x with svc := s', cur := some m, pc := .next } := .start rfl
    have s3 : WStep ({ x with svc := s', cur := some m, pc := .next } : Buf S) .tau { x with svc := s', cur := none, pc := .check m } := .resume rfl rfl
    have r3 := ((WRun.one s1).snoc s2).snoc s3
    cases hcan : x.cancelled m.id with
    | true =>
      have s4 : WStep ({ x with svc := s', cur := none, pc := .check m } : Buf S) .tau _ := .unwanted rfl (by simpa [Buf.cancelled] using hcan)
      exact ⟨_, _, r3.snoc s4, by simp [Buf.wm, hp, hc, WPc.rank, Buf.dropMsg]⟩
    | false =>
      have s4 : WStep ({ x with svc := s', cur := none, pc := .check m } : Buf S) .tau { x with svc := s', cur := none, pc := .got m } :=
        .wanted rfl (by simpa [Buf.cancelled] using hcan)
      obtain ⟨tr, y, h1, h2⟩ := ih (x := { x with svc := s', cur := none, pc := .got m }) rfl rfl hf rfl
      refine ⟨_, y, (r3.snoc s4).trans h1, ?_⟩
      simpa [Buf.wm, hp, hc, WPc.rank] using h2

/-- the worker goes on -/
theorem worker_progress {x : Buf S} {tr} (hC : BufInv tr x) (hco : Cooperative S) (hh : x.hs = [] ∨ x.failed ≠ none) (hd : ¬ x.dying) :
    (∃ tr' y, WRun x tr' y ∧ y.wm < x.wm) ∨ x.pc = .done ∨ (x.pc = .recv ∧ x.queue = [] ∧ x.hs ≠ []) := by
  have hI := hC.ctl
  have wm {ev y} (hs : WStep x ev y) (hp : y.pc ≠ .parked) : ∃ tr' y, WRun x tr' y ∧ y.wm < x.wm :=
    ⟨_, _, .one hs, hs.wm hI hp⟩
  cases hp : x.pc with
  | parked => exact .inl (wm (.start hp) (by simp))
  | next =>
    cases hc : x.cur with
    | none => exact .inl (wm (.fresh hp hc) (by simp))
    | some m => exact .inl (wm (.resume hp hc) (by simp))
  | check m =>
    cases hc : x.cancelled m.id with
    | true => exact .inl (wm (.unwanted hp hc) (by simp))
    | false => exact .inl (wm (.wanted hp hc) (by simp))
  | recv =>
    cases hq : x.queue with
    | cons m q => exact .inl (wm (.recv hp hq) (by simp))
    | nil =>
      by_cases h0 : x.hs = []
      · exact .inl (wm (.finish hp hq (.inl h0)) (by simp))
      · exact .inr (.inr ⟨rfl, rfl, h0⟩)
  | got m =>
    cases hf : x.failed with
    | some e => exact .inl (wm (.notify hp hf) (by simp))
    | none => exact .inl (got_progress (hco.ready x.svc) hp (hI.curnone (by simp [hp]) (by simp [hp])) hf)
  | call m =>
    obtain ⟨f, s', w, w', h1⟩ := hco.call x.svc m.req
    exact .inl (wm (.svc_call hp h1) (by simp))
  | reply m f => exact .inl (wm (.reply hp) (by simp))
  | fail1 m e =>
    cases he : x.err with
    | none => exact .inl (wm (.expose hp he) (by simp))
    | some e' => exact .inl (wm (.exposed_before hp he) (by simp))
  | fail2 m e => exact .inl (wm (.close hp) (by simp))
  | fail3 m =>
    cases hf : x.failed with
    | none => exact absurd hf (hI.fail3 m hp)
    | some e => exact .inl (wm (.notify_first hp hf) (by simp))
  | done => exact .inr (.inl rfl)
  | unwinding => exact absurd (.inl hp) hd
  | dropping => exact absurd (.inr (.inl hp)) hd
  | dead => exact absurd (.inr (.inr hp)) hd

/-- failed stays failed -/
theorem WStep.failed {x y : Buf S} {tr ev} (hC : CtlInv tr x) (hs : WStep x ev y) (h : x.failed ≠ none) : y.failed ≠ none := by
  cases hs
  case close => simp
  all_goals exact h

theorem WRun.failed {x y : Buf S} {tr tr'} (hC : BufInv tr x) (hr : WRun x tr' y) (h : x.failed ≠ none) : y.failed ≠ none := by
  induction hr with
  | nil => exact h
  | snoc hr hs ih => exact hs.failed (hC.run hr.run).ctl ih

/-- a worker that nobody disturbs comes to an end, or has nothing to do -/
theorem worker_drains {x : Buf S} {tr} (hC : BufInv tr x) (hco : Cooperative S) (hh : x.hs = [] ∨ x.failed ≠ none) (hd : ¬ x.dying) :
    ∃ tr' y, WRun x tr' y ∧ (y.pc = .done ∨ (y.pc = .recv ∧ y.queue = [] ∧ y.hs ≠ [])) := by
  induction hn : x.wm using Nat.strongRecOn generalizing x tr with
  | ind n ih =>
    rcases worker_progress hC hco hh hd with ⟨tr1, y, h1, h2⟩ | h1
    · have hk := h1.kept
      have hh' : y.hs = [] ∨ y.failed ≠ none := by
        rcases hh with hh | hh
        · exact .inl (by rw [hk.1, hh])
        · exact .inr (h1.failed hC hh)
      obtain ⟨tr2, z, h3, h4⟩ := ih y.wm (hn ▸ h2) (hC.run h1.run) hh' (hk.2.2.2.1 hd) rfl
      exact ⟨_, z, h1.trans h3, h4⟩
    · exact ⟨[], x, .nil, h1⟩

end Tower
