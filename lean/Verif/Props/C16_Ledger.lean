import Verif.Model.Budget
import Mathlib.Data.List.Rotate

/-!
# C16 with expiry: threads share one ledger

The bound of C16 on the balance needs that no slot expires meanwhile. What holds in every interleaving, expiry included, is that no update is lost, doubled or put in
two slots: the budget is always a ledger of the updates, cut into windows by the `swap`s of `expire`.
-/

namespace Tower

/-- A run of any number of threads using one budget, as `TpsStep` allows, with a record of it. `cur`: deposits made minus withdrawals taken since the latest window was
closed. `windows`: the same for the windows closed before, oldest first. `ring`: what has been written to the ring of slots, oldest first: `some c` for a closed window
with total `c`, `none` for a window in which nothing happened. -/
inductive TpsTrace (reserve w d : Int) (s0 : TpsConc) : Int → List Int → List (Option Int) → TpsConc → Prop
  | start : TpsTrace reserve w d s0 0 [] [] s0
  | deposit {cur : Int} {windows : List Int} {ring : List (Option Int)} {s : TpsConc} : TpsTrace reserve w d s0 cur windows ring s → TpsTrace reserve w d s0 (cur + d) windows ring { s with writer := s.writer + d }
  | take {cur : Int} {windows : List Int} {ring : List (Option Int)} {s : TpsConc} {i : Nat} : TpsTrace reserve w d s0 cur windows ring s → s.threads[i]? = some TpsPc.granted →
      TpsTrace reserve w d s0 (cur - w) windows ring { s with writer := s.writer - w, threads := s.threads.set i .idle }
  | close {cur : Int} {windows : List Int} {ring : List (Option Int)} {s : TpsConc} {i : Nat} : TpsTrace reserve w d s0 cur windows ring s → s.threads[i]? = some TpsPc.idle → s.locked = false →
      TpsTrace reserve w d s0 0 (windows ++ [cur]) ring { s with writer := 0, locked := true, threads := s.threads.set i (.committing s.writer) }
  | store {cur : Int} {windows : List Int} {ring : List (Option Int)} {s : TpsConc} {i : Nat} {c : Int} : TpsTrace reserve w d s0 cur windows ring s → s.threads[i]? = some (TpsPc.committing c) →
      TpsTrace reserve w d s0 cur windows (ring ++ [some c]) { s with slots := s.slots.set s.index c, index := (s.index + 1) % s.slots.length, threads := s.threads.set i .zeroing }
  | skip {cur : Int} {windows : List Int} {ring : List (Option Int)} {s : TpsConc} {i : Nat} : TpsTrace reserve w d s0 cur windows ring s → s.threads[i]? = some TpsPc.zeroing →
      TpsTrace reserve w d s0 cur windows (ring ++ [none]) { s with slots := s.slots.set s.index 0, index := (s.index + 1) % s.slots.length }
  /-- the steps that write neither the writer nor a slot -/
  | enter {cur : Int} {windows : List Int} {ring : List (Option Int)} {s : TpsConc} {i : Nat} : TpsTrace reserve w d s0 cur windows ring s → s.threads[i]? = some TpsPc.idle → s.locked = false →
      TpsTrace reserve w d s0 cur windows ring { s with threads := s.threads.set i .expired }
  | unlock {cur : Int} {windows : List Int} {ring : List (Option Int)} {s : TpsConc} {i : Nat} : TpsTrace reserve w d s0 cur windows ring s → s.threads[i]? = some TpsPc.zeroing →
      TpsTrace reserve w d s0 cur windows ring { s with locked := false, threads := s.threads.set i .expired }
  | loadWriter {cur : Int} {windows : List Int} {ring : List (Option Int)} {s : TpsConc} {i : Nat} : TpsTrace reserve w d s0 cur windows ring s → s.threads[i]? = some TpsPc.expired →
      TpsTrace reserve w d s0 cur windows ring { s with threads := s.threads.set i (.summing s.writer 0) }
  | loadSlot {cur : Int} {windows : List Int} {ring : List (Option Int)} {s : TpsConc} {i : Nat} {j : Nat} {acc : Int} {x : Int} : TpsTrace reserve w d s0 cur windows ring s → s.threads[i]? = some (TpsPc.summing acc j) → s.slots[j]? = some x →
      TpsTrace reserve w d s0 cur windows ring { s with threads := s.threads.set i (.summing (acc + x) (j + 1)) }
  | grant {cur : Int} {windows : List Int} {ring : List (Option Int)} {s : TpsConc} {i : Nat} {acc : Int} : TpsTrace reserve w d s0 cur windows ring s → s.threads[i]? = some (TpsPc.summing acc s.slots.length) → acc + reserve ≥ w →
      TpsTrace reserve w d s0 cur windows ring { s with threads := s.threads.set i .granted }
  | deny {cur : Int} {windows : List Int} {ring : List (Option Int)} {s : TpsConc} {i : Nat} {acc : Int} : TpsTrace reserve w d s0 cur windows ring s → s.threads[i]? = some (TpsPc.summing acc s.slots.length) → ¬ (acc + reserve ≥ w) →
      TpsTrace reserve w d s0 cur windows ring { s with threads := s.threads.set i .idle }

/-- totals of closed windows that are not yet in the ring -/
def TpsConc.inFlight (s : TpsConc) : List Int := s.threads.filterMap (fun pc => match pc with | .committing c => some c | _ => none)

/-- `TpsBudget::new`, with threads that do nothing yet -/
def TpsConc.Fresh (s : TpsConc) : Prop := s.writer = 0 ∧ s.index = 0 ∧ s.locked = false ∧ (∀ x ∈ s.slots, x = 0) ∧ s.slots ≠ [] ∧ ∀ pc ∈ s.threads, pc = .idle

variable {reserve w d : Int}

/-- holds the lock -/
def TpsPc.holds : TpsPc → Bool
  | .committing _ => true
  | .zeroing => true
  | _ => false

def TpsPc.total : TpsPc → Option Int
  | .committing c => some c
  | _ => none

theorem TpsConc.inFlight_eq (s : TpsConc) : s.inFlight = s.threads.filterMap TpsPc.total := by
  unfold TpsConc.inFlight
  congr 1

theorem set_split {α : Type} {l : List α} {i : Nat} {a : α} (h : l[i]? = some a) : ∃ p q, l = p ++ a :: q ∧ ∀ b, l.set i b = p ++ b :: q := by
  obtain ⟨hi, ha⟩ := List.getElem?_eq_some_iff.mp h
  refine ⟨l.take i, l.drop (i + 1), ?_, fun b => ?_⟩
  · rw [← ha, List.cons_getElem_drop_succ, List.take_append_drop]
  · rw [List.set_eq_take_append_cons_drop, if_pos hi]

theorem rotate_set {l : List Int} {i : Nat} (hi : i < l.length) (c : Int) : (l.set i c).rotate ((i + 1) % l.length) = (l.rotate i).drop 1 ++ [c] := by
  have h1 : (l.set i c).rotate ((i + 1) % l.length) = (l.set i c).rotate (i + 1) := by
    conv_rhs => rw [← List.rotate_mod]
    simp
  rw [h1, List.rotate_eq_drop_append_take (by simp; omega), List.rotate_eq_drop_append_take (by omega)]
  have h2 : (l.set i c).drop (i + 1) = l.drop (i + 1) := by rw [List.drop_set_of_lt (by omega)]
  have h3 : (l.set i c).take (i + 1) = l.take i ++ [c] := by
    rw [List.set_eq_take_append_cons_drop, if_pos hi, List.take_append, List.length_take, List.take_of_length_le (by simp; omega)]
    have : i + 1 - min i l.length = 1 := by omega
    rw [this]; simp
  rw [h2, h3, List.drop_append_of_le_length (by simp; omega), List.drop_drop]
  simp

theorem ring_snoc {L : Nat} (hL : 0 < L) (ring : List (Option Int)) (o : Option Int) :
    ((List.replicate L (0 : Int) ++ ring.map (fun (x : Option Int) => x.getD 0)).drop ring.length).drop 1 ++ [o.getD 0] =
    (List.replicate L (0 : Int) ++ (ring ++ [o]).map (fun (x : Option Int) => x.getD 0)).drop (ring ++ [o]).length := by
  have h : (ring ++ [o]).length ≤ (List.replicate L (0 : Int) ++ ring.map (fun (x : Option Int) => x.getD 0)).length := by
    simp only [List.length_append, List.length_replicate, List.length_map, List.length_singleton]; omega
  rw [List.map_append, ← List.append_assoc, List.drop_append_of_le_length h, List.drop_drop]
  simp only [List.length_append, List.length_singleton, List.map_cons, List.map_nil]

/-- what is always so -/
structure TpsBook (L : Nat) (cur : Int) (windows : List Int) (ring : List (Option Int)) (s : TpsConc) : Prop where
  writer : s.writer = cur
  len : s.slots.length = L
  idx : s.index < L
  lock : s.threads.countP TpsPc.holds = if s.locked then 1 else 0
  windows : windows = ring.filterMap id ++ s.threads.filterMap TpsPc.total
  ring : s.slots.rotate s.index = (List.replicate L 0 ++ ring.map (fun (x : Option Int) => x.getD 0)).drop ring.length

/-- a thread that does not hold the lock, before and after its step -/
theorem TpsBook.move {L : Nat} {cur : Int} {windows : List Int} {ring : List (Option Int)} {s : TpsConc} (h : TpsBook L cur windows ring s) {i : Nat} {a b : TpsPc}
    (hi : s.threads[i]? = some a) (ha : a.holds = false) (hb : b.holds = false) (ha' : a.total = none) (hb' : b.total = none) {s' : TpsConc}
    (hs' : s' = { s with threads := s.threads.set i b }) : TpsBook L cur windows ring s' := by
  subst hs'
  obtain ⟨p, q, hp, hs⟩ := set_split hi
  have h4 := h.lock
  have h5 := h.windows
  rw [hp] at h4 h5
  refine ⟨h.writer, h.len, h.idx, ?_, ?_, h.ring⟩
  · simp only [hs]; simpa [List.countP_append, List.countP_cons, ha, hb] using h4
  · simp only [hs]; simpa [List.filterMap_append, List.filterMap_cons, ha', hb'] using h5

theorem TpsTrace.book {s0 s : TpsConc} (h0 : s0.Fresh) {cur : Int} {windows : List Int} {ring : List (Option Int)} (h : TpsTrace reserve w d s0 cur windows ring s) :
    TpsBook s0.slots.length cur windows ring s := by
  induction h with
  | start =>
    obtain ⟨h1, h2, h3, h4, h5, h6⟩ := h0
    refine ⟨h1, rfl, by rw [h2]; exact List.length_pos_of_ne_nil h5, ?_, ?_, ?_⟩
    · rw [h3, List.countP_eq_zero.mpr]
      · rfl
      · intro pc hpc; rw [h6 pc hpc]; simp [TpsPc.holds]
    · simp only [List.filterMap_nil, List.nil_append]
      symm
      rw [List.filterMap_eq_nil_iff]
      intro pc hpc; rw [h6 pc hpc]; rfl
    · rw [h2]
      simp only [List.rotate_zero, List.map_nil, List.append_nil, List.length_nil, List.drop_zero]
      exact List.eq_replicate_iff.mpr ⟨rfl, h4⟩
  | deposit _ ih => exact { ih with writer := by simp [ih.writer] }
  | @take cur windows ring s i _ hi ih =>
    obtain ⟨p, q, hp, hs⟩ := set_split hi
    have h4 := ih.lock
    have h5 := ih.windows
    rw [hp] at h4 h5
    refine ⟨by simp [ih.writer], ih.len, ih.idx, ?_, ?_, ih.ring⟩
    · simp only [hs]; simpa [List.countP_append, List.countP_cons, TpsPc.holds] using h4
    · simp only [hs]; simpa [List.filterMap_append, List.filterMap_cons, TpsPc.total] using h5
  | @close cur windows ring s i _ hi hl ih =>
    obtain ⟨p, q, hp, hs⟩ := set_split hi
    have h4 := ih.lock
    have h5 := ih.windows
    rw [hp, hl] at h4
    rw [hp] at h5
    simp only [List.countP_append, List.countP_cons, TpsPc.holds] at h4
    have hp0 : p.countP TpsPc.holds = 0 := by
      simp at h4; simpa [List.countP_eq_zero] using h4.1
    have hq0 : q.countP TpsPc.holds = 0 := by
      simp at h4; simpa [List.countP_eq_zero] using h4.2
    have none_of : ∀ l : List TpsPc, l.countP TpsPc.holds = 0 → l.filterMap TpsPc.total = [] := by
      intro l hl
      rw [List.filterMap_eq_nil_iff]
      intro pc hpc
      have := List.countP_eq_zero.mp hl pc hpc
      cases pc <;> simp_all [TpsPc.holds, TpsPc.total]
    refine ⟨rfl, ih.len, ih.idx, ?_, ?_, ih.ring⟩
    · simp only [hs, List.countP_append, List.countP_cons, TpsPc.holds, hp0, hq0]; simp
    · rw [h5]
      simp only [hs, List.filterMap_append, List.filterMap_cons, TpsPc.total, none_of p hp0, none_of q hq0, ih.writer]
      simp
  | @store cur windows ring s i c _ hi ih =>
    obtain ⟨p, q, hp, hs⟩ := set_split hi
    have h4 := ih.lock
    have h5 := ih.windows
    rw [hp] at h4 h5
    simp only [List.countP_append, List.countP_cons, TpsPc.holds] at h4
    have hle : p.countP TpsPc.holds + q.countP TpsPc.holds = 0 := by
      simp only [if_true] at h4; split at h4 <;> omega
    have none_of : ∀ l : List TpsPc, l.countP TpsPc.holds = 0 → l.filterMap TpsPc.total = [] := by
      intro l hl
      rw [List.filterMap_eq_nil_iff]
      intro pc hpc
      have := List.countP_eq_zero.mp hl pc hpc
      cases pc <;> simp_all [TpsPc.holds, TpsPc.total]
    have hp0 := none_of p (by omega)
    have hq0 := none_of q (by omega)
    have hlen := ih.len
    have hidx := ih.idx
    refine ⟨ih.writer, by simp [hlen], Nat.mod_lt _ (by omega) |>.trans_le (by simp [hlen]), ?_, ?_, ?_⟩
    · simp only [hs, List.countP_append, List.countP_cons, TpsPc.holds]; exact h4
    · rw [h5]
      simp only [hs, List.filterMap_append, List.filterMap_cons, TpsPc.total, hp0, hq0]
      simp
    · simp only
      rw [rotate_set (by rw [hlen]; exact hidx), ih.ring]
      exact ring_snoc (o := some c) (Nat.lt_of_le_of_lt (Nat.zero_le _) hidx) _ 
  | @skip cur windows ring s i _ hi ih =>
    have hlen := ih.len
    have hidx := ih.idx
    refine ⟨ih.writer, by simp [hlen], Nat.mod_lt _ (by omega) |>.trans_le (by simp [hlen]), ih.lock, ?_, ?_⟩
    · rw [ih.windows]; simp
    · simp only
      rw [rotate_set (by rw [hlen]; exact hidx), ih.ring]
      exact ring_snoc (o := none) (Nat.lt_of_le_of_lt (Nat.zero_le _) hidx) _
  | enter _ hi hl ih => exact ih.move hi rfl rfl rfl rfl rfl
  | loadWriter _ hi ih => exact ih.move hi rfl rfl rfl rfl rfl
  | loadSlot _ hi _ ih => exact ih.move hi rfl rfl rfl rfl rfl
  | grant _ hi _ ih => exact ih.move hi rfl rfl rfl rfl rfl
  | deny _ hi _ ih => exact ih.move hi rfl rfl rfl rfl rfl
  | @unlock cur windows ring s i _ hi ih =>
    obtain ⟨p, q, hp, hs⟩ := set_split hi
    have h4 := ih.lock
    have h5 := ih.windows
    rw [hp] at h4 h5
    simp only [List.countP_append, List.countP_cons, TpsPc.holds] at h4
    refine ⟨ih.writer, ih.len, ih.idx, ?_, ?_, ih.ring⟩
    · simp only [hs, List.countP_append, List.countP_cons, TpsPc.holds]
      simp only [if_true] at h4
      simp only [Bool.false_eq_true, if_false]
      split at h4 <;> omega
    · simp only [hs]; simpa [List.filterMap_append, List.filterMap_cons, TpsPc.total] using h5

/-- every interleaving has such a record -/
theorem C16_recorded {s0 s : TpsConc} {e : Bool} (h : TpsSteps reserve w d s0 e s) : ∃ cur windows ring, TpsTrace reserve w d s0 cur windows ring s := by
  induction h with
  | refl => exact ⟨_, _, _, .start⟩
  | step _ hs ih =>
    obtain ⟨cur, windows, ring, h⟩ := ih
    cases hs with
    | enter h1 h2 => exact ⟨_, _, _, h.enter h1 h2⟩
    | swap h1 h2 => exact ⟨_, _, _, h.close h1 h2⟩
    | store h1 => exact ⟨_, _, _, h.store h1⟩
    | zero h1 => exact ⟨_, _, _, h.skip h1⟩
    | unlock h1 => exact ⟨_, _, _, h.unlock h1⟩
    | loadWriter h1 => exact ⟨_, _, _, h.loadWriter h1⟩
    | loadSlot h1 h2 => exact ⟨_, _, _, h.loadSlot h1 h2⟩
    | grant h1 h2 => exact ⟨_, _, _, h.grant h1 h2⟩
    | deny h1 h2 => exact ⟨_, _, _, h.deny h1 h2⟩
    | take h1 => exact ⟨_, _, _, h.take h1⟩
    | deposit => exact ⟨_, _, _, h.deposit⟩

/-- **C16, with expiry.** Whatever the threads do, and in whatever order, in a budget that was new: the writer holds exactly the updates made since the latest window was closed; each
closed window goes into the ring with the exact total of its updates, once, in order, at most one of them being on its way; the ring, read from the oldest slot on, holds the last
windows (as many as there are slots), a slot for each. So no update is ever lost, doubled or attributed to two windows. -/
theorem C16_ledger {s0 s : TpsConc} (h0 : s0.Fresh) {cur : Int} {windows : List Int} {ring : List (Option Int)} (h : TpsTrace reserve w d s0 cur windows ring s) :
    s.writer = cur ∧ windows = ring.filterMap id ++ s.inFlight ∧ s.inFlight.length ≤ 1 ∧
    s.slots.rotate s.index = (List.replicate s0.slots.length 0 ++ ring.map (fun (x : Option Int) => x.getD 0)).drop ring.length := by
  have hb := h.book h0
  refine ⟨hb.writer, by rw [s.inFlight_eq]; exact hb.windows, ?_, hb.ring⟩
  rw [s.inFlight_eq]
  have h1 : ∀ l : List TpsPc, (l.filterMap TpsPc.total).length ≤ l.countP TpsPc.holds := by
    intro l
    induction l with
    | nil => simp
    | cons a l ih => cases a <;> simp only [List.filterMap_cons, TpsPc.total, TpsPc.holds, List.countP_cons, List.length_cons] <;> simp only [Bool.false_eq_true, if_true, if_false] <;> omega
  refine (h1 _).trans ?_
  rw [hb.lock]
  split <;> simp

/-- **C16, with expiry: the balance.** The balance is the reserve plus all updates ever made, less the total that is just being moved into the ring and less the windows that the ring
has forgotten: those before the last ten (as many as there are slots). -/
theorem C16_balance {s0 s : TpsConc} (h0 : s0.Fresh) {cur : Int} {windows : List Int} {ring : List (Option Int)} (h : TpsTrace reserve w d s0 cur windows ring s) :
    reserve + s.slots.sum + s.writer = reserve + (cur + windows.sum) - s.inFlight.sum - ((ring.take (ring.length - s0.slots.length)).map (fun (x : Option Int) => x.getD 0)).sum := by
  obtain ⟨h1, h2, -, h4⟩ := C16_ledger h0 h
  have h5 : s.slots.sum = ((List.replicate s0.slots.length 0 ++ ring.map (fun (x : Option Int) => x.getD 0)).drop ring.length).sum := by
    rw [← h4, List.rotate_eq_drop_append_take (Nat.le_of_lt (by rw [(h.book h0).len]; exact (h.book h0).idx)), List.sum_append]
    conv_lhs => rw [← List.take_append_drop s.index s.slots, List.sum_append]
    omega
  have h6 : ∀ l : List (Option Int), (l.filterMap id).sum = (l.map (fun (x : Option Int) => x.getD 0)).sum := by
    intro l
    induction l with
    | nil => rfl
    | cons a l ih => cases a with
      | none => simpa using ih
      | some x => rw [List.filterMap_cons_some (f := id) (a := some x) (b := x) rfl, List.sum_cons, ih]; rfl
  have zeros : ∀ n, (List.replicate n (0 : Int)).sum = 0 := by
    intro n
    induction n with
    | zero => rfl
    | succ n ih => rw [List.replicate_succ, List.sum_cons, ih]; rfl
  have h7 : ((List.replicate s0.slots.length (0 : Int) ++ ring.map (fun (x : Option Int) => x.getD 0)).drop ring.length).sum +
      ((ring.take (ring.length - s0.slots.length)).map (fun (x : Option Int) => x.getD 0)).sum = (ring.map (fun (x : Option Int) => x.getD 0)).sum := by
    have h8 : ((List.replicate s0.slots.length (0 : Int) ++ ring.map (fun (x : Option Int) => x.getD 0)).take ring.length).sum +
        ((List.replicate s0.slots.length (0 : Int) ++ ring.map (fun (x : Option Int) => x.getD 0)).drop ring.length).sum =
        (ring.map (fun (x : Option Int) => x.getD 0)).sum := by
      rw [← List.sum_append, List.take_append_drop, List.sum_append, zeros]; simp
    have h9 : ((List.replicate s0.slots.length (0 : Int) ++ ring.map (fun (x : Option Int) => x.getD 0)).take ring.length).sum =
        ((ring.take (ring.length - s0.slots.length)).map (fun (x : Option Int) => x.getD 0)).sum := by
      rw [List.take_append, List.sum_append, List.take_replicate, zeros, List.length_replicate, List.map_take]
      simp
    rw [h9] at h8
    omega
  have h10 := congrArg List.sum h2
  rw [List.sum_append, h6] at h10
  rw [h5, h1]
  omega

/-! ## A concrete interleaving -/

/-- Two slots, one withdrawing thread and one that closes a window meanwhile: a deposit in the first window, a withdrawal that straddles its end, another deposit; then the first window
is on its way to the ring while the writer has the later updates. -/
example : ∃ s, TpsTrace 1 1 5 ⟨0, [0, 0], 0, false, [.idle, .idle]⟩ 4 [5] [] s ∧ TpsConc.Fresh ⟨0, [0, 0], 0, false, [.idle, .idle]⟩ ∧ s.inFlight = [5] ∧ s.writer = 4 := by
  have h1 : TpsTrace 1 1 5 ⟨0, [0, 0], 0, false, [.idle, .idle]⟩ 0 [] [] _ := TpsTrace.start.enter (i := 0) rfl rfl
  have h2 := h1.deposit.loadWriter (i := 0) rfl
  have h3 := h2.loadSlot (i := 0) (j := 0) (x := 0) rfl rfl
  have h4 := h3.loadSlot (i := 0) (j := 1) (x := 0) rfl rfl
  have h5 := h4.grant (i := 0) rfl (by decide)
  have h6 := h5.close (i := 1) rfl rfl
  have h7 := (h6.take (i := 0) rfl).deposit
  exact ⟨_, h7, ⟨rfl, rfl, rfl, by decide, by decide, by decide⟩, rfl, rfl⟩

end Tower
