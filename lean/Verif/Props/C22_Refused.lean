import Verif.Props.C19_Buffer

/-! # C22: what a handle that was told of a failure does when it is used again -/

set_option linter.unusedSimpArgs false

namespace Tower
variable {W Req Res Err : Type} {S : Service W Req Res Err} {bound : Nat} {svc : S.σ} {tr : List (BEv S)} {x : Buf S}

/-- the event is an answer `Ready(Err(_))` to `poll_ready` of handle `n` -/
def BEv.isFailure (n : Nat) : BEv S → Prop
  | .ready n' (.ready (.error _)) => n' = n
  | _ => False

/-- handles that were told of a failure are closed, and then the channel is -/
structure FailInv (tr : List (BEv S)) (x : Buf S) : Prop where
  closed : ∀ k ∈ x.hs, k.st = .closed → x.closed = true
  told : ∀ k ∈ x.hs, (∃ ev ∈ tr, ev.isFailure k.name) → k.st = .closed
  fresh : ∀ n, x.nextName ≤ n → ¬ ∃ ev ∈ tr, ev.isFailure n

theorem FailInv.of_same {x y : Buf S} {tr ev} (h : FailInv tr x) (h1 : y.hs = x.hs) (h2 : y.nextName = x.nextName) (hc : x.closed = true → y.closed = true)
    (h3 : ∀ n, ¬ ev.isFailure n) : FailInv (tr ++ [ev]) y := by
  have key : ∀ n, (∃ e ∈ tr ++ [ev], e.isFailure n) → ∃ e ∈ tr, e.isFailure n := by
    rintro n ⟨e, he, hf⟩
    simp only [List.mem_append, List.mem_singleton] at he
    rcases he with he | rfl
    · exact ⟨e, he, hf⟩
    · exact absurd hf (h3 n)
  refine ⟨?_, ?_, ?_⟩
  · intro k hk hs; rw [h1] at hk; exact hc (h.closed k hk hs)
  · intro k hk hf; rw [h1] at hk; exact h.told k hk (key _ hf)
  · intro n hn hf; rw [h2] at hn; exact h.fresh n hn (key _ hf)

/-- one handle changes -/
theorem FailInv.upd {x y : Buf S} {tr ev} (h : FailInv tr x) (hI : SemInv x) {k k' : BHandle} {l r : List BHandle} (hl : x.hs = l ++ k :: r)
    (hy : y.hs = l ++ k' :: r) (hn : k'.name = k.name) (hx : y.nextName = x.nextName) (hc : y.closed = x.closed)
    (h1 : ∀ n, n ≠ k.name → ¬ ev.isFailure n) (h2 : ev.isFailure k.name → k'.st = .closed) (h3 : k.st = .closed → k'.st = .closed) (h4 : k'.st = .closed → x.closed = true) :
    FailInv (tr ++ [ev]) y := by
  have hnd := hI.names
  rw [hl] at hnd
  simp only [List.map_append, List.map_cons] at hnd
  have hk : k ∈ x.hs := by rw [hl]; simp
  have hmem : ∀ j ∈ y.hs, j = k' ∨ (j ∈ x.hs ∧ j.name ≠ k.name) := by
    intro j hj
    rw [hy] at hj
    rcases List.mem_append.1 hj with hj | hj
    · right
      refine ⟨by rw [hl]; simp [hj], fun he => ?_⟩
      exact (List.nodup_append.1 hnd).2.2 j.name (List.mem_map.2 ⟨j, hj, rfl⟩) k.name (by simp) he
    · rcases List.mem_cons.1 hj with hj | hj
      · exact .inl hj
      · right
        refine ⟨by rw [hl]; simp [hj], fun he => ?_⟩
        have := (List.nodup_cons.1 (List.nodup_append.1 hnd).2.1).1
        exact this (he ▸ List.mem_map.2 ⟨j, hj, rfl⟩)
  refine ⟨?_, ?_, ?_⟩
  · intro j hj hs
    rw [hc]
    rcases hmem j hj with rfl | ⟨h5, _⟩
    · exact h4 hs
    · exact h.closed j h5 hs
  · rintro j hj ⟨e, he, hf⟩
    simp only [List.mem_append, List.mem_singleton] at he
    rcases hmem j hj with rfl | ⟨h5, h6⟩
    · rw [hn] at hf
      rcases he with he | rfl
      · exact h3 (h.told k hk ⟨e, he, hf⟩)
      · exact h2 hf
    · rcases he with he | rfl
      · exact h.told j h5 ⟨e, he, hf⟩
      · exact absurd hf (h1 _ h6)
  · rintro n hn' ⟨e, he, hf⟩
    rw [hx] at hn'
    have := hI.fresh k hk
    simp only [List.mem_append, List.mem_singleton] at he
    rcases he with he | rfl
    · exact h.fresh n hn' ⟨e, he, hf⟩
    · exact h1 n (by omega) hf

theorem pollReady_failure (x : Buf S) (k : BHandle) : ((∃ e, (x.pollReady k).1 = .ready (.error e)) → (x.pollReady k).2.1.st = .closed) ∧
    (k.st = .closed → (x.pollReady k).2.1.st = .closed) ∧ ((x.pollReady k).2.1.st = .closed → k.st = .closed ∨ x.closed = true) := by
  unfold Buf.pollReady
  cases hst : k.st <;> simp only [hst]
  case closed => simp [hst]
  case ready => simp [hst]
  all_goals
    unfold Buf.reserve
    split
    · rename_i hc; simp [hc]
    · split <;> simp

theorem FailInv.step {x y : Buf S} {tr ev} (h : FailInv tr x) (hI : SemInv x) (hs : BStep x ev y) : FailInv (tr ++ [ev]) y := by
  cases hs with
  | worker hs => cases hs <;> exact h.of_same rfl rfl (by first | exact fun h => h | exact fun _ => rfl) (by simp [BEv.isFailure])
  | death hs => cases hs <;> exact h.of_same rfl rfl (by first | exact fun h => h | exact fun _ => rfl) (by simp [BEv.isFailure])
  | future hs => cases hs <;> exact h.of_same rfl rfl (by simp) (by simp [BEv.isFailure])
  | handle hs =>
    cases hs
    case ready k l r hl =>
      obtain ⟨p1, p2, p3⟩ := pollReady_failure x k
      refine h.upd hI hl rfl (pollReady_name x k) rfl rfl ?_ ?_ p2 ?_
      · intro n hn
        have := Ne.symm hn
        cases (x.pollReady k).1 with
        | pending => simp [BEv.isFailure]
        | ready v => cases v <;> simp [BEv.isFailure, this]
      · intro hf
        apply p1
        cases hp : (x.pollReady k).1 with
        | pending => simp [hp, BEv.isFailure] at hf
        | ready v =>
          cases v with
          | ok u => simp [hp, BEv.isFailure] at hf
          | error e => exact ⟨e, rfl⟩
      · intro hc
        rcases p3 hc with hc | hc
        · exact h.closed k (by rw [hl]; simp) hc
        · exact hc
    case call k l r q hl hc =>
      refine h.upd (k' := { k with st := .idle }) hI hl rfl rfl rfl rfl (fun n hn => by simp [BEv.isFailure]) (by simp [BEv.isFailure]) ?_ (by simp)
      intro hst; simp [Buf.callOutcome, hst] at hc
    case call_closed k l r q hl hc => exact h.of_same rfl rfl (by simp) (by simp [BEv.isFailure])
    case call_panics k hk hc => exact h.of_same rfl rfl (by simp) (by simp [BEv.isFailure])
    case clone k hk =>
      have key : ∀ n, (∃ e ∈ tr ++ [BEv.clone k.name x.nextName], e.isFailure n) → ∃ e ∈ tr, (e : BEv S).isFailure n := by
        rintro n ⟨e, he, hf⟩
        simp only [List.mem_append, List.mem_singleton] at he
        rcases he with he | rfl
        · exact ⟨e, he, hf⟩
        · simp [BEv.isFailure] at hf
      refine ⟨?_, ?_, ?_⟩
      · intro j hj hst
        simp only [List.mem_append, List.mem_singleton] at hj
        rcases hj with hj | rfl
        · exact h.closed j hj hst
        · simp at hst
      · intro j hj hf
        simp only [List.mem_append, List.mem_singleton] at hj
        rcases hj with hj | rfl
        · exact h.told j hj (key _ hf)
        · exact absurd (key _ hf) (h.fresh _ (Nat.le_refl _))
      · intro n hn hf
        exact h.fresh n (by simp only at hn; omega) (key _ hf)
    case drop k l r hl =>
      have key : ∀ n, (∃ e ∈ tr ++ [BEv.dropHandle k.name], e.isFailure n) → ∃ e ∈ tr, (e : BEv S).isFailure n := by
        rintro n ⟨e, he, hf⟩
        simp only [List.mem_append, List.mem_singleton] at he
        rcases he with he | rfl
        · exact ⟨e, he, hf⟩
        · simp [BEv.isFailure] at hf
      have sub : ∀ j ∈ l ++ r, j ∈ x.hs := by
        intro j hj
        rw [hl]
        simp only [List.mem_append, List.mem_cons] at hj ⊢
        rcases hj with hj | hj
        · exact .inl hj
        · exact .inr (.inr hj)
      exact ⟨fun j hj hst => h.closed j (sub j hj) hst, fun j hj hf => h.told j (sub j hj) (key _ hf), fun n hn hf => h.fresh n hn (key _ hf)⟩

theorem BHist.failInv (h : BHist S bound svc tr x) : FailInv tr x := by
  induction h with
  | nil => constructor <;> simp [Buf.init]
  | snoc h hs ih => exact ih.step (BHist.inv h).sem hs

/-- **C22.** A handle whose `poll_ready` has once returned an error stays failed, whatever happens in between: `poll_ready` returns an error that is justified by the failure of the service or the death of the worker;
`call` does not panic and sends nothing, it returns a future that resolves with such an error. -/
theorem C22_refused (h : BHist S bound svc tr x) {n : Nat} {e : BufErr Err} (he : .ready n (.ready (.error e)) ∈ tr) (hn : ∃ k ∈ x.hs, k.name = n) :
    (∀ p y, BStep x (.ready n p) y → ∃ e', p = .ready (.error e') ∧ Justified tr e') ∧
    (∀ y, ¬ BStep x (.callPanics n) y) ∧ (∀ i q y, ¬ BStep x (.accept n i q) y) ∧
    ∀ q, ∃ y e', BStep x (.refuse n x.calls q) y ∧ Justified tr e' ∧ y.Resolves x.calls (.ready (.error e')) := by
  have hF := h.failInv
  have hC := (BHist.inv h).ctl
  have all : ∀ k ∈ x.hs, k.name = n → k.st = .closed := fun k hk hkn => hF.told k hk ⟨_, he, by simp [BEv.isFailure, hkn]⟩
  obtain ⟨k, hk, hkn⟩ := hn
  have hxc := hF.closed k hk (all k hk hkn)
  have hj := hC.workerError hxc
  refine ⟨?_, ?_, ?_, ?_⟩
  · intro p y hs
    obtain ⟨k', hk', hn', rfl⟩ := ready_event hs
    have := all k' hk' (hn')
    exact ⟨x.workerError, by simp [Buf.pollReady, this], hj⟩
  · intro y hs
    cases hs with
    | worker hs => cases hs
    | death hs => cases hs
    | future hs => cases hs
    | handle hs =>
      cases hs
      case call_panics k' hk' hc =>
        simp [Buf.callOutcome, all k' hk' rfl] at hc
  · intro i q y hs
    cases hs with
    | worker hs => cases hs
    | death hs => cases hs
    | future hs => cases hs
    | handle hs =>
      cases hs
      case call k' l r hl hc =>
        simp [Buf.callOutcome, all k' (by rw [hl]; simp) rfl] at hc
  · intro q
    obtain ⟨l, r, hl⟩ := List.append_of_mem hk
    subst hkn
    refine ⟨_, x.workerError, .handle (.call_closed (q := q) hl (by simp [Buf.callOutcome, all k hk rfl])), hj, ?_, ?_⟩
    · exact ⟨_, .future (.failed (by simp))⟩
    · intro p z hs
      cases hs with
      | worker hs => cases hs
      | death hs => cases hs
      | handle hs => cases hs
      | future hs =>
        cases hs <;> simp_all

/-- the hypotheses: the worker is dropped, a handle sees it in `poll_ready` -/
example : ∃ (tr : List (BEv DemoBuf.dsvc)) (x : Buf DemoBuf.dsvc), BHist DemoBuf.dsvc 1 () tr x ∧ .ready 0 (.ready (.error .closed)) ∈ tr ∧ ∃ k ∈ x.hs, k.name = 0 := by
  have r := BRun.one (x := Buf.init DemoBuf.dsvc 1 ()) (.death (.dropped rfl))
  have r := r.snoc (.death (.closes rfl))
  have r := r.snoc (.handle (.ready (l := []) rfl))
  exact ⟨_, _, r, List.mem_append_right _ (List.mem_singleton.2 rfl), ⟨0, .closed⟩, List.mem_singleton.2 rfl, rfl⟩

end Tower
