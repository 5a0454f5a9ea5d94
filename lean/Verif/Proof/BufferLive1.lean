import Verif.Spec.BufferLiveSpec
import Verif.Proof.BufferWake2
import Verif.Proof.Buffer7

/-! # Buffer: a waiting request comes nearer to its answer -/

set_option linter.unusedSimpArgs false

namespace Tower
variable {W Req Res Err : Type} {S : Service W Req Res Err} {bound : Nat} {svc : S.σ} {tr : List (BEv S)} {x y : Buf S} {i : Nat} {ev : BEv S}

/-- where the requests are whose oneshot channel is undecided -/
def Located (x : Buf S) : Prop := ∀ i, x.shots i = .waiting → (∃ m ∈ x.pend, m.id = i) ∨ ∃ m f, x.pc = .reply m f ∧ m.id = i

theorem Located.step (h : Located x) (hC : CtlInv tr x) (hs : BStep x ev y) : Located y := by
  have hcn := hC.curnone
  have upd : ∀ {j i : Nat} {v : Shot S.φ Err}, v ≠ .waiting → Function.update x.shots j v i = .waiting → i ≠ j ∧ x.shots i = .waiting := by
    intro j i v hv hi
    by_cases hij : i = j
    · subst hij; rw [Function.update_self] at hi; exact absurd hi hv
    · rw [Function.update_of_ne hij] at hi; exact ⟨hij, hi⟩
  have hsend : ∀ (j : Nat) (v : Except Err S.φ), (if x.cancelled j = true then Shot.gone else Shot.sent v) ≠ .waiting := by
    intro j v; split <;> simp
  intro i hi
  cases hs with
  | future hs =>
    cases hs <;> exact h i hi
  | handle hs =>
    cases hs
    case call h' l r q h1 h2 =>
      by_cases hij : i = x.calls
      · exact .inl ⟨⟨x.calls, q⟩, by simp [Buf.pend], hij.symm⟩
      · have hi' : x.shots i = .waiting := by
          have : Function.update x.shots x.calls .waiting i = .waiting := hi
          rwa [Function.update_of_ne hij] at this
        rcases h i hi' with ⟨m, h3, h4⟩ | h3
        · refine .inl ⟨m, ?_, h4⟩
          show m ∈ x.pc.pend ++ x.cur.toList ++ (x.queue ++ [⟨x.calls, q⟩])
          rw [← List.append_assoc]
          exact List.mem_append_left _ h3
        · exact .inr h3
    all_goals exact h i hi
  | death hs =>
    cases hs
    case ready_panics m w msg h1 h2 h3 =>
      obtain ⟨h4, h5⟩ := upd (by simp) hi
      rcases h i h5 with ⟨m', h6, h7⟩ | ⟨m', f, h6, _⟩
      · refine .inl ⟨m', ?_, h7⟩
        simp only [Buf.pend, h1, WPc.pend, Buf.dropMsg, List.mem_append, List.mem_singleton, List.not_mem_nil, false_or] at h6 ⊢
        rcases h6 with (h6 | h6) | h6
        · subst h6; exact absurd h7.symm h4
        · exact .inl h6
        · exact .inr h6
      · rw [h1] at h6; cases h6
    case call_panics m w msg h1 h3 =>
      obtain ⟨h4, h5⟩ := upd (by simp) hi
      rcases h i h5 with ⟨m', h6, h7⟩ | ⟨m', f, h6, _⟩
      · refine .inl ⟨m', ?_, h7⟩
        simp only [Buf.pend, h1, WPc.pend, Buf.dropMsg, List.mem_append, List.mem_singleton, List.not_mem_nil, false_or] at h6 ⊢
        rcases h6 with (h6 | h6) | h6
        · subst h6; exact absurd h7.symm h4
        · exact .inl h6
        · exact .inr h6
      · rw [h1] at h6; cases h6
    case dropped h1 =>
      have hi' : (if i ∈ x.cur.toList.map (·.id) then Shot.gone else x.shots i) = .waiting := hi
      split at hi'
      · cases hi'
      · rename_i hn
        rcases h i hi' with ⟨m', h6, h7⟩ | ⟨m', f, h6, _⟩
        · refine .inl ⟨m', ?_, h7⟩
          simp only [Buf.pend, h1, WPc.pend, Buf.dropMsgs, List.mem_append, List.not_mem_nil, false_or, Option.toList] at h6 ⊢
          rcases h6 with h6 | h6
          · exact absurd (List.mem_map.2 ⟨m', h6, h7⟩) hn
          · exact h6
        · rw [h1] at h6; cases h6
    case dropped_done h1 =>
      rcases h i hi with ⟨m', h6, h7⟩ | ⟨m', f, h6, _⟩
      · exact .inl ⟨m', by simpa [Buf.pend, h1, WPc.pend] using h6, h7⟩
      · rw [h1] at h6; cases h6
    case closes h1 =>
      rcases h i hi with ⟨m', h6, h7⟩ | ⟨m', f, h6, _⟩
      · exact .inl ⟨m', by simpa [Buf.pend, h1, WPc.pend, Buf.close] using h6, h7⟩
      · rw [h1] at h6; cases h6
    case drain m q h1 h2 =>
      obtain ⟨h4, h5⟩ := upd (by simp) hi
      rcases h i h5 with ⟨m', h6, h7⟩ | ⟨m', f, h6, _⟩
      · refine .inl ⟨m', ?_, h7⟩
        simp only [Buf.pend, h1, h2, WPc.pend, Buf.dropMsg, List.mem_append, List.mem_cons, List.not_mem_nil, false_or] at h6 ⊢
        rcases h6 with h6 | h6 | h6
        · exact .inl h6
        · subst h6; exact absurd h7.symm h4
        · exact .inr h6
      · rw [h1] at h6; cases h6
    case drained h1 h2 =>
      rcases h i hi with ⟨m', h6, h7⟩ | ⟨m', f, h6, _⟩
      · exact .inl ⟨m', by simpa [Buf.pend, h1, WPc.pend] using h6, h7⟩
      · rw [h1] at h6; cases h6
    case free h1 h2 =>
      have hi' : (if i ∈ x.queue.map (·.id) then Shot.gone else x.shots i) = .waiting := hi
      split at hi'
      · cases hi'
      · rename_i hn
        rcases h i hi' with ⟨m', h6, h7⟩ | ⟨m', f, h6, _⟩
        · refine .inl ⟨m', ?_, h7⟩
          simp only [Buf.pend, h1, WPc.pend, Buf.dropMsgs, List.mem_append, List.not_mem_nil, false_or, or_false] at h6 ⊢
          rcases h6 with h6 | h6
          · exact h6
          · exact absurd (List.mem_map.2 ⟨m', h6, h7⟩) hn
        · rw [h1] at h6; cases h6
  | worker hs =>
    cases hs
    case start h1 =>
      rcases h i hi with ⟨m', h6, h7⟩ | ⟨m', f, h6, _⟩
      · exact .inl ⟨m', by simpa [Buf.pend, h1, WPc.pend] using h6, h7⟩
      · rw [h1] at h6; cases h6
    case resume m h1 h2 =>
      rcases h i hi with ⟨m', h6, h7⟩ | ⟨m', f, h6, _⟩
      · exact .inl ⟨m', by simpa [Buf.pend, h1, h2, WPc.pend] using h6, h7⟩
      · rw [h1] at h6; cases h6
    case fresh h1 h2 =>
      rcases h i hi with ⟨m', h6, h7⟩ | ⟨m', f, h6, _⟩
      · exact .inl ⟨m', by simpa [Buf.pend, h1, h2, WPc.pend] using h6, h7⟩
      · rw [h1] at h6; cases h6
    case recv m q h1 h2 =>
      have hc := hcn (by simp [h1]) (by simp [h1])
      rcases h i hi with ⟨m', h6, h7⟩ | ⟨m', f, h6, _⟩
      · exact .inl ⟨m', by simpa [Buf.pend, h1, h2, hc, WPc.pend] using h6, h7⟩
      · rw [h1] at h6; cases h6
    case unwanted m h1 h2 =>
      obtain ⟨h4, h5⟩ := upd (by simp) hi
      rcases h i h5 with ⟨m', h6, h7⟩ | ⟨m', f, h6, _⟩
      · refine .inl ⟨m', ?_, h7⟩
        simp only [Buf.pend, h1, WPc.pend, Buf.dropMsg, List.mem_append, List.mem_singleton, List.not_mem_nil, false_or] at h6 ⊢
        rcases h6 with (h6 | h6) | h6
        · subst h6; exact absurd h7.symm h4
        · exact .inl h6
        · exact .inr h6
      · rw [h1] at h6; cases h6
    case notify m e h1 h2 =>
      obtain ⟨h4, h5⟩ := upd (hsend _ _) hi
      rcases h i h5 with ⟨m', h6, h7⟩ | ⟨m', f, h6, _⟩
      · refine .inl ⟨m', ?_, h7⟩
        simp only [Buf.pend, h1, WPc.pend, Buf.send, List.mem_append, List.mem_singleton, List.not_mem_nil, false_or] at h6 ⊢
        rcases h6 with (h6 | h6) | h6
        · subst h6; exact absurd h7.symm h4
        · exact .inl h6
        · exact .inr h6
      · rw [h1] at h6; cases h6
    case notify_first m e h1 h2 =>
      obtain ⟨h4, h5⟩ := upd (hsend _ _) hi
      rcases h i h5 with ⟨m', h6, h7⟩ | ⟨m', f, h6, _⟩
      · refine .inl ⟨m', ?_, h7⟩
        simp only [Buf.pend, h1, WPc.pend, Buf.send, List.mem_append, List.mem_singleton, List.not_mem_nil, false_or] at h6 ⊢
        rcases h6 with (h6 | h6) | h6
        · subst h6; exact absurd h7.symm h4
        · exact .inl h6
        · exact .inr h6
      · rw [h1] at h6; cases h6
    case reply m f h1 =>
      obtain ⟨h4, h5⟩ := upd (hsend _ _) hi
      rcases h i h5 with ⟨m', h6, h7⟩ | ⟨m', f, h6, h7⟩
      · exact .inl ⟨m', by simpa [Buf.pend, h1, WPc.pend, Buf.send] using h6, h7⟩
      · rw [h1] at h6; cases h6; exact absurd h7.symm h4
    case svc_call m w w' f s' h1 h2 =>
      rcases h i hi with ⟨m', h6, h7⟩ | ⟨m', f, h6, _⟩
      · simp only [Buf.pend, h1, WPc.pend, List.mem_append, List.mem_singleton] at h6
        rcases h6 with (h6 | h6) | h6
        · subst h6; exact .inr ⟨_, f, rfl, h7⟩
        · exact .inl ⟨m', by simp [Buf.pend, WPc.pend, Option.mem_toList.1 h6], h7⟩
        · exact .inl ⟨m', by simp [Buf.pend, WPc.pend, h6], h7⟩
      · rw [h1] at h6; cases h6
    case svc_pending m w w' s' h1 h2 h3 =>
      have hc := hcn (by simp [h1]) (by simp [h1])
      rcases h i hi with ⟨m', h6, h7⟩ | ⟨m', f, h6, _⟩
      · exact .inl ⟨m', by simpa [Buf.pend, h1, hc, WPc.pend] using h6, h7⟩
      · rw [h1] at h6; cases h6
    case close m e h1 =>
      rcases h i hi with ⟨m', h6, h7⟩ | ⟨m', f, h6, _⟩
      · exact .inl ⟨m', by simpa [Buf.pend, h1, WPc.pend, Buf.close] using h6, h7⟩
      · rw [h1] at h6; cases h6
    all_goals
      rcases h i hi with ⟨m', h6, h7⟩ | ⟨m', f, h6, _⟩
      · exact .inl ⟨m', by simpa [Buf.pend, WPc.pend, *] using h6, h7⟩
      · simp_all

theorem BHist.located {tr : List (BEv S)} {x : Buf S} (h : BHist S bound svc tr x) : Located x := by
  unfold BHist at h
  induction h with
  | nil => intro i hi; simp [Buf.init] at hi
  | snoc hr hs ih => exact ih.step (BHist.inv hr).ctl hs

/-! ## The measure -/

/-- how many requests up to number `i` are in the channel -/
def Buf.ahead (x : Buf S) (i : Nat) : Nat := x.queue.countP (fun m => m.id ≤ i)

/-- how far the worker is from the next message -/
def WPc.stage {φ Req E : Type} (busy : Bool) : WPc φ Req E → Nat
  | .parked => if busy then 6 else 3
  | .next => if busy then 6 else 2
  | .check _ | .got _ => 6
  | .fail1 .. => 5
  | .fail2 .. => 4
  | .call _ => 4
  | .fail3 _ => 3
  | .reply .. => 3
  | .recv => 1
  | .unwinding => 1
  | .done | .dropping | .dead => 0

/-- how far the worker is from the next poll of the service -/
def WPc.loop {φ Req E : Type} : WPc φ Req E → Nat
  | .parked => 3
  | .next => 2
  | .check _ => 1
  | _ => 0

def Buf.big (x : Buf S) (i : Nat) : Nat := 6 * x.ahead i + x.pc.stage x.cur.isSome
def Buf.fine (x : Buf S) (i : Nat) : Nat := 4 * x.big i + x.pc.loop

theorem ahead_pop {q : List (Msg Req)} {m : Msg Req} {i : Nat} (h : m.id ≤ i) : (m :: q).countP (fun m => m.id ≤ i) = q.countP (fun m => m.id ≤ i) + 1 := by
  simp [List.countP_cons, h]

/-- the first message in the channel was accepted no later than a waiting one -/
theorem head_le (hI : BufInv tr x) (hl : Located x) (hw : x.shots i = .waiting) {m : Msg Req} {q : List (Msg Req)} (hq : x.queue = m :: q) (hc : x.cur = none) (hp : x.pc.pend = []) (hr : ∀ m f, x.pc ≠ .reply m f) :
    m.id ≤ i := by
  have hpend : x.pend = m :: q := by simp [Buf.pend, hp, hc, hq]
  rcases hl i hw with ⟨m', h1, h2⟩ | ⟨m', f, h1, _⟩
  · rw [hpend, List.mem_cons] at h1
    rcases h1 with h1 | h1
    · rw [← h2, h1]
    · have := (hI.msg.head hpend).1 m' h1
      omega
  · exact absurd h1 (hr _ _)

/-- nothing waits in an empty buffer -/
theorem not_empty (hl : Located x) (hw : x.shots i = .waiting) (hq : x.queue = []) (hc : x.cur = none) (hp : x.pc.pend = []) (hr : ∀ m f, x.pc ≠ .reply m f) : False := by
  rcases hl i hw with ⟨m', h1, h2⟩ | ⟨m', f, h1, _⟩
  · simp [Buf.pend, hp, hc, hq] at h1
  · exact absurd h1 (hr _ _)

/-- the worker has something to do for a request up to number `i`, or for all -/
structure Busy (i : Nat) (x y : Buf S) : Prop where
  head : ∀ m q, x.queue = m :: q → x.cur = none → x.pc = .recv ∨ x.pc = .dropping → m.id ≤ i
  recv : x.pc = .recv → x.queue = [] → y.pc ≠ .parked ∧ y.pc ≠ .done
  drop : x.pc = .dropping → x.queue = [] → y.pc ≠ .dead
  done : x.pc ≠ .done
  dead : x.pc ≠ .dead

/-- a request that waits keeps the worker busy -/
theorem busy_of_waiting (hI : BufInv tr x) (hl : Located x) (hw : x.shots i = .waiting) (hd : x.pc ≠ .dead) : Busy i x y where
  head m q hq hc hp := head_le hI hl hw hq hc (by rcases hp with h | h <;> rw [h] <;> rfl) (by rcases hp with h | h <;> rw [h] <;> simp)
  recv h1 h2 := (not_empty hl hw h2 (hI.ctl.curnone (by simp [h1]) (by simp [h1])) (by rw [h1]; rfl) (by simp [h1])).elim
  drop h1 h2 := (not_empty hl hw h2 (hI.ctl.curnone (by simp [h1]) (by simp [h1])) (by rw [h1]; rfl) (by simp [h1])).elim
  done h1 := not_empty hl hw (hI.done h1).1 (hI.ctl.curnone (by simp [h1]) (by simp [h1])) (by rw [h1]; rfl) (by simp [h1])
  dead := hd

theorem WStep.nearer (hI : BufInv tr x) (hB : Busy i x y) (hs : WStep x ev y) :
    (ev ≠ .svcPending → y.fine i < x.fine i) ∧ y.big i ≤ x.big i := by
  have hcn := hI.ctl.curnone
  cases hs
  case start h1 =>
    cases hb : x.cur <;> simp [Buf.fine, Buf.big, Buf.ahead, h1, hb, WPc.stage, WPc.loop]; omega
  case resume m h1 h2 => simp [Buf.fine, Buf.big, Buf.ahead, h1, h2, WPc.stage, WPc.loop]
  case fresh h1 h2 => simp [Buf.fine, Buf.big, Buf.ahead, h1, h2, WPc.stage, WPc.loop]; omega
  case recv m q h1 h2 =>
    have hc := hcn (by simp [h1]) (by simp [h1])
    have := ahead_pop (q := q) (hB.head _ _ h2 hc (.inl h1))
    simp only [Buf.fine, Buf.big, Buf.ahead, h1, h2, hc, this, WPc.stage, WPc.loop]
    exact ⟨fun _ => by omega, by omega⟩
  case empty h1 h2 h3 h4 => exact absurd rfl (hB.recv h1 h2).1
  case finish h1 h2 h3 => exact absurd rfl (hB.recv h1 h2).2
  case svc_pending m w w' s' h1 h2 h3 => simp [Buf.big, Buf.ahead, h1, WPc.stage]
  all_goals
    have hc := hcn (by simp [*]) (by simp [*])
    simp [Buf.fine, Buf.big, Buf.ahead, WPc.stage, WPc.loop, Buf.send, Buf.dropMsg, Buf.close, *] <;> try omega

theorem DStep.nearer (hI : BufInv tr x) (hB : Busy i x y) (hs : DStep x ev y) :
    y.fine i < x.fine i ∧ y.big i ≤ x.big i ∧ y.pc ≠ .dead := by
  have hcn := hI.ctl.curnone
  cases hs
  case dropped h1 => cases hb : x.cur <;> simp [Buf.fine, Buf.big, Buf.ahead, h1, hb, WPc.stage, WPc.loop, Buf.dropMsgs] <;> omega
  case dropped_done h1 => exact absurd h1 hB.done
  case drain m q h1 h2 =>
    have hc := hcn (by simp [h1]) (by simp [h1])
    have := ahead_pop (q := q) (hB.head _ _ h2 hc (.inr h1))
    simp only [Buf.fine, Buf.big, Buf.ahead, Buf.dropMsg, h1, h2, hc, this, WPc.stage, WPc.loop]
    exact ⟨by omega, by omega, by simp⟩
  case drained h1 h2 => exact absurd rfl (hB.drop h1 h2)
  case free h1 h2 => exact absurd h1 hB.dead
  all_goals
    have hc := hcn (by simp [*]) (by simp [*])
    simp [Buf.fine, Buf.big, Buf.ahead, WPc.stage, WPc.loop, Buf.send, Buf.dropMsg, Buf.close, *] <;> try omega

/-- what the users do does not move the worker, nor anything in front of request `i` -/
theorem users_keep (hi : i < x.calls) (hs : HStep x ev y ∨ FStep x ev y) :
    y.pc = x.pc ∧ y.cur = x.cur ∧ y.svc = x.svc ∧ y.failed = x.failed ∧ y.ahead i = x.ahead i ∧ x.calls ≤ y.calls ∧ y.shots i = x.shots i ∧ ev ≠ .svcPending := by
  rcases hs with hs | hs
  · cases hs
    case call h' l r q h1 h2 =>
      refine ⟨rfl, rfl, rfl, rfl, ?_, Nat.le_succ _, Function.update_of_ne (Nat.ne_of_lt hi) _ _, by simp⟩
      simp only [Buf.ahead, List.countP_append, List.countP_singleton]
      rw [if_neg (by simpa using hi)]; rfl
    case call_closed => exact ⟨rfl, rfl, rfl, rfl, rfl, Nat.le_succ _, rfl, by simp⟩
    all_goals exact ⟨rfl, rfl, rfl, rfl, rfl, Nat.le_refl _, rfl, by simp⟩
  · cases hs <;> exact ⟨rfl, rfl, rfl, rfl, rfl, Nat.le_refl _, rfl, by simp⟩

/-- what is decided stays decided -/
theorem decided_step (hi : i < x.calls) (hw : x.shots i ≠ .waiting) (hs : BStep x ev y) : i < y.calls ∧ y.shots i ≠ .waiting := by
  have upd : ∀ {j : Nat} {v : Shot S.φ Err}, v ≠ .waiting → Function.update x.shots j v i ≠ .waiting := by
    intro j v hv
    by_cases hij : i = j
    · subst hij; rw [Function.update_self]; exact hv
    · rw [Function.update_of_ne hij]; exact hw
  have hsend : ∀ (j : Nat) (v : Except Err S.φ), (if x.cancelled j = true then Shot.gone else Shot.sent v) ≠ .waiting := by
    intro j v; split <;> simp
  have hms : ∀ ms : List (Msg Req), (x.dropMsgs ms).shots i ≠ .waiting := by
    intro ms
    show (if i ∈ ms.map (·.id) then Shot.gone else x.shots i) ≠ .waiting
    split
    · simp
    · exact hw
  cases hs with
  | handle hs =>
    have := users_keep hi (.inl hs)
    exact ⟨Nat.lt_of_lt_of_le hi this.2.2.2.2.2.1, by rw [this.2.2.2.2.2.2.1]; exact hw⟩
  | future hs =>
    have := users_keep hi (.inr hs)
    exact ⟨Nat.lt_of_lt_of_le hi this.2.2.2.2.2.1, by rw [this.2.2.2.2.2.2.1]; exact hw⟩
  | death hs =>
    cases hs
    case dropped => exact ⟨hi, hms _⟩
    case free => exact ⟨hi, hms _⟩
    case ready_panics => exact ⟨hi, upd (by simp)⟩
    case call_panics => exact ⟨hi, upd (by simp)⟩
    case drain => exact ⟨hi, upd (by simp)⟩
    all_goals exact ⟨hi, hw⟩
  | worker hs =>
    cases hs
    case unwanted => exact ⟨hi, upd (by simp)⟩
    case notify => exact ⟨hi, upd (hsend _ _)⟩
    case notify_first => exact ⟨hi, upd (hsend _ _)⟩
    case reply => exact ⟨hi, upd (hsend _ _)⟩
    all_goals exact ⟨hi, hw⟩

end Tower
