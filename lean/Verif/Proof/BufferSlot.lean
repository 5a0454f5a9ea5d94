import Verif.Proof.BufferLive2
import Verif.Spec.BufferSlotSpec
import Verif.Props.C73_LimitWake

/-! # Buffer: whoever waits for a slot gets one -/

set_option linter.unusedSimpArgs false

namespace Tower
variable {W Req Res Err : Type} {S : Service W Req Res Err} {x y : Buf S} {ev : BEv S} {nm : Nat}

theorem SemInv.same (h : SemInv x) {a b : BHandle} (ha : a ∈ x.hs) (hb : b ∈ x.hs) (hn : a.name = b.name) : a = b :=
  List.inj_on_of_nodup_map h.names ha hb hn

theorem SemInv.split {l r : List BHandle} {a : BHandle} (h : SemInv x) (e : x.hs = l ++ a :: r) {b : BHandle} (hb : b ∈ l ++ r) : b.name ≠ a.name := by
  have hn := h.names
  rw [e, List.map_append, List.map_cons] at hn
  have h1 := (List.nodup_middle.1 hn)
  intro he
  exact (List.nodup_cons.1 h1).1 (by rw [← List.map_append]; exact he ▸ List.mem_map_of_mem hb)

/-- what a poll does to the semaphore -/
theorem poll_sem (x : Buf S) (h : BHandle) : (x.pollReady h).2.2 = x.sem ∨ (x.closed = false ∧ (x.pollReady h).2.2 = (x.sem.pollAcquire h.name).2) ∨
    (x.closed = true ∧ (x.pollReady h).2.2 = Sem.release { x.sem with granted := x.sem.granted.erase h.name }) := by
  have key : (x.reserve h).2.2 = x.sem ∨ (x.closed = false ∧ (x.reserve h).2.2 = (x.sem.pollAcquire h.name).2) ∨
    (x.closed = true ∧ (x.reserve h).2.2 = Sem.release { x.sem with granted := x.sem.granted.erase h.name }) := by
    unfold Buf.reserve
    cases hc : x.closed with
    | true =>
      simp only [if_true]
      split
      · exact .inr (.inr ⟨trivial, rfl⟩)
      · exact .inl rfl
    | false =>
      simp only [Bool.false_eq_true, if_false]
      refine .inr (.inl ⟨trivial, ?_⟩)
      rcases hp : x.sem.pollAcquire h.name with ⟨b, s⟩
      cases b <;> rfl
  unfold Buf.pollReady
  cases h.st
  · exact key
  · exact key
  · exact .inl rfl
  · exact .inl rfl

/-- nobody is overtaken -/
theorem place_le (hI : SemInv x) (hs : BStep x ev y) (h1 : nm ∈ x.sem.queue) (h2 : nm ∈ y.sem.queue) : y.sem.queue.idxOf nm ≤ x.sem.queue.idxOf nm := by
  have hrel : ∀ {s : Sem}, s = x.sem.release → nm ∈ s.queue → s.queue.idxOf nm ≤ x.sem.queue.idxOf nm := by
    rintro s rfl hm; have := (semMove_release hI.nodup).moves nm hm h1; omega
  cases hs with
  | worker hs =>
    cases hs
    case recv => exact hrel rfl h2
    case close => cases h2
    all_goals exact Nat.le_refl _
  | death hs =>
    cases hs
    case closes => cases h2
    case drain => exact hrel rfl h2
    case free => cases h2
    all_goals exact Nat.le_refl _
  | future hs => cases hs <;> exact Nat.le_refl _
  | handle hs =>
    cases hs
    case ready h l r hh =>
      have h2 : nm ∈ (x.pollReady h).2.2.queue := h2
      show (x.pollReady h).2.2.queue.idxOf nm ≤ _
      rcases poll_sem x h with h3 | ⟨_, h3⟩ | ⟨h4, _⟩
      · rw [h3]
      · rw [h3] at h2 ⊢; have := (semMove_acquire h.name hI.nodup).moves nm h2 h1; simpa using this
      · rw [hI.closedq h4] at h1; cases h1
    case drop h l r hh =>
      by_cases hst : h.st = .ready
      · exact hrel (by simp only [hst, if_true]) h2
      · have h2 : nm ∈ (if h.st = .ready then x.sem.release else x.sem.dropAcquire h.name).queue := h2
        show (if h.st = .ready then x.sem.release else x.sem.dropAcquire h.name).queue.idxOf nm ≤ _
        rw [if_neg hst] at h2 ⊢
        have := (semMove_drop h.name hI.nodup).moves nm h2 h1; omega
    all_goals exact Nat.le_refl _

/-- the step gives up a slot -/
def Frees (x : Buf S) (ev : BEv S) (y : Buf S) : Prop :=
  (∃ m q, x.queue = m :: q ∧ y.queue = q ∧ y.sem = x.sem.release) ∨ (∃ h ∈ x.hs, h.st = .ready ∧ ev = .dropHandle h.name ∧ y.sem = x.sem.release) ∨ ∃ n, n ∈ x.sem.granted ∧ ev = .dropHandle n ∧ y.sem = x.sem.dropAcquire n

theorem Frees.place (hI : SemInv x) (h : Frees x ev y) (h1 : nm ∈ x.sem.queue) (h2 : nm ∈ y.sem.queue) : y.sem.queue.idxOf nm < x.sem.queue.idxOf nm := by
  rcases h with ⟨m, q, _, _, h3⟩ | ⟨h, _, _, _, h3⟩ | ⟨n, h4, _, h3⟩
  · rw [h3] at h2 ⊢; have := (semMove_release hI.nodup).moves nm h2 h1; dsimp only at this; omega
  · rw [h3] at h2 ⊢; have := (semMove_release hI.nodup).moves nm h2 h1; dsimp only at this; omega
  · rw [h3] at h2 ⊢; have := (semMove_drop n hI.nodup).moves nm h2 h1; dsimp only at this; rw [if_pos h4] at this; omega

/-- a message leaves the channel -/
theorem frees_message (hs : BStep x ev y) {m : Msg Req} (h1 : m ∈ x.queue) (h2 : m ∉ y.queue) (hh : x.hs ≠ []) : Frees x ev y := by
  cases hs with
  | worker hs => cases hs <;> first | exact absurd h1 h2 | exact .inl ⟨_, _, by assumption, rfl, rfl⟩
  | death hs => cases hs <;> first | exact absurd h1 h2 | exact .inl ⟨_, _, by assumption, rfl, rfl⟩ | contradiction
  | future hs => cases hs <;> exact absurd h1 h2
  | handle hs => cases hs <;> first | exact absurd h1 h2 | exact absurd (List.mem_append_left _ h1) h2

/-- a ready handle stays ready until it is called or dropped -/
theorem ready_keeps (hs : BStep x ev y) {h : BHandle} (hm : h ∈ x.hs) (hr : h.st = .ready) (h1 : ev ≠ .dropHandle h.name) (h2 : ∀ i r, ev ≠ .accept h.name i r) : h ∈ y.hs := by
  have other : ∀ {l r : List BHandle} {a b : BHandle}, x.hs = l ++ a :: r → (h = a → h = b) → h ∈ l ++ b :: r := by
    intro l r a b e hab
    rw [e] at hm
    rcases List.mem_append.1 hm with h3 | h3
    · exact List.mem_append_left _ h3
    · rcases List.mem_cons.1 h3 with h3 | h3
      · exact List.mem_append_right _ (by rw [← hab h3]; exact List.mem_cons_self)
      · exact List.mem_append_right _ (List.mem_cons_of_mem _ h3)
  cases hs with
  | worker hs => rw [hs.kept.1]; exact hm
  | death hs => cases hs <;> exact hm
  | future hs => cases hs <;> exact hm
  | handle hs =>
    cases hs
    case ready a l r e => exact other e fun ha => by subst ha; simp [Buf.pollReady, hr]
    case call a l r q e _ => exact other e fun ha => by subst ha; exact absurd rfl (h2 _ _)
    case clone => exact List.mem_append_left _ hm
    case drop a l r e =>
      rw [e] at hm
      show h ∈ l ++ r
      rcases List.mem_append.1 hm with h3 | h3
      · exact List.mem_append_left _ h3
      · rcases List.mem_cons.1 h3 with h3 | h3
        · subst h3; exact absurd rfl h1
        · exact List.mem_append_right _ h3
    all_goals exact hm

/-- where a ready handle comes from -/
theorem ready_was (hI : SemInv x) (hs : BStep x ev y) {h : BHandle} (hm : h ∈ y.hs) (hr : h.st = .ready) :
    (h ∈ x.hs ∧ ev ≠ .dropHandle h.name ∧ ∀ i r, ev ≠ .accept h.name i r) ∨ ev = .ready h.name (.ready (.ok ())) := by
  cases hs with
  | worker hs => rw [hs.kept.1] at hm; refine .inl ⟨hm, ?_, ?_⟩ <;> cases hs <;> simp
  | death hs => refine .inl ⟨by cases hs <;> exact hm, ?_, ?_⟩ <;> cases hs <;> simp
  | future hs => refine .inl ⟨by cases hs <;> exact hm, ?_, ?_⟩ <;> cases hs <;> simp
  | handle hs =>
    cases hs
    case ready a l r e =>
      have hm : h ∈ l ++ (x.pollReady a).2.1 :: r := hm
      by_cases ho : h ∈ l ++ r
      · exact .inl ⟨by rw [e]; exact (List.perm_middle.mem_iff).2 (List.mem_cons_of_mem _ ho), by simp, by simp⟩
      · have h3 : h = (x.pollReady a).2.1 := (List.mem_cons.1 (List.perm_middle.mem_iff.1 hm)).resolve_right ho
        right
        have : h.name = a.name ∧ (x.pollReady a).1 = .ready (.ok ()) := by
          subst h3
          revert hr
          unfold Buf.pollReady Buf.reserve
          cases hst : a.st <;> simp only [] <;> (try split) <;> (try split) <;> simp_all
        rw [this.1, this.2]
    case call a l r q e _ =>
      have hm : h ∈ l ++ ({ a with st := .idle } : BHandle) :: r := hm
      have ho : h ∈ l ++ r := (List.mem_cons.1 (List.perm_middle.mem_iff.1 hm)).resolve_left (by rintro rfl; cases hr)
      refine .inl ⟨by rw [e]; exact (List.perm_middle.mem_iff).2 (List.mem_cons_of_mem _ ho), by simp, fun i r he => ?_⟩
      injection he with he
      exact hI.split e ho he.symm
    case call_closed => exact .inl ⟨hm, by simp, by simp⟩
    case call_panics => exact .inl ⟨hm, by simp, by simp⟩
    case clone =>
      refine .inl ⟨(List.mem_append.1 hm).resolve_right fun h3 => ?_, by simp, by simp⟩
      rw [List.mem_singleton.1 h3] at hr; cases hr
    case drop a l r e =>
      have ho : h ∈ l ++ r := hm
      refine .inl ⟨by rw [e]; exact (List.perm_middle.mem_iff).2 (List.mem_cons_of_mem _ ho), fun he => ?_, by simp⟩
      injection he with he
      exact hI.split e ho he.symm

/-- where a waiting handle comes from -/
theorem acquiring_was (hI : SemInv x) (hs : BStep x ev y) {h : BHandle} (hm : h ∈ y.hs) (hr : h.st = .acquiring) :
    (h ∈ x.hs ∧ ev ≠ .dropHandle h.name ∧ ∀ v, ev ≠ .ready h.name (.ready v)) ∨ ev = .ready h.name .pending := by
  cases hs with
  | worker hs => rw [hs.kept.1] at hm; refine .inl ⟨hm, ?_, ?_⟩ <;> cases hs <;> simp
  | death hs => refine .inl ⟨by cases hs <;> exact hm, ?_, ?_⟩ <;> cases hs <;> simp
  | future hs => refine .inl ⟨by cases hs <;> exact hm, ?_, ?_⟩ <;> cases hs <;> simp
  | handle hs =>
    cases hs
    case ready a l r e =>
      have hm : h ∈ l ++ (x.pollReady a).2.1 :: r := hm
      by_cases ho : h ∈ l ++ r
      · refine .inl ⟨by rw [e]; exact (List.perm_middle.mem_iff).2 (List.mem_cons_of_mem _ ho), by simp, fun v he => ?_⟩
        injection he with he
        exact hI.split e ho he.symm
      · have h3 : h = (x.pollReady a).2.1 := (List.mem_cons.1 (List.perm_middle.mem_iff.1 hm)).resolve_right ho
        right
        have : h.name = a.name ∧ (x.pollReady a).1 = .pending := by
          subst h3
          revert hr
          unfold Buf.pollReady Buf.reserve
          cases hst : a.st <;> simp only [] <;> (try split) <;> (try split) <;> simp_all
        rw [this.1, this.2]
    case call a l r q e _ =>
      have hm : h ∈ l ++ ({ a with st := .idle } : BHandle) :: r := hm
      have ho : h ∈ l ++ r := (List.mem_cons.1 (List.perm_middle.mem_iff.1 hm)).resolve_left (by rintro rfl; cases hr)
      exact .inl ⟨by rw [e]; exact (List.perm_middle.mem_iff).2 (List.mem_cons_of_mem _ ho), by simp, by simp⟩
    case call_closed => exact .inl ⟨hm, by simp, by simp⟩
    case call_panics => exact .inl ⟨hm, by simp, by simp⟩
    case clone =>
      refine .inl ⟨(List.mem_append.1 hm).resolve_right fun h3 => ?_, by simp, by simp⟩
      rw [List.mem_singleton.1 h3] at hr; cases hr
    case drop a l r e =>
      have ho : h ∈ l ++ r := hm
      refine .inl ⟨by rw [e]; exact (List.perm_middle.mem_iff).2 (List.mem_cons_of_mem _ ho), fun he => ?_, by simp⟩
      injection he with he
      exact hI.split e ho he.symm

/-- a waiting handle waits until it is dropped or told that it is ready -/
theorem acquiring_keeps (hs : BStep x ev y) (hm : ⟨nm, .acquiring⟩ ∈ x.hs) (h1 : ev ≠ .dropHandle nm) (h2 : ∀ v, ev ≠ .ready nm (.ready v)) : (⟨nm, .acquiring⟩ : BHandle) ∈ y.hs := by
  have other : ∀ {l r : List BHandle} {a b : BHandle}, x.hs = l ++ a :: r → (⟨nm, .acquiring⟩ = a → ⟨nm, .acquiring⟩ = b) → (⟨nm, .acquiring⟩ : BHandle) ∈ l ++ b :: r := by
    intro l r a b e hab
    rw [e] at hm
    rcases List.mem_append.1 hm with h3 | h3
    · exact List.mem_append_left _ h3
    · rcases List.mem_cons.1 h3 with h3 | h3
      · exact List.mem_append_right _ (by rw [← hab h3]; exact List.mem_cons_self)
      · exact List.mem_append_right _ (List.mem_cons_of_mem _ h3)
  cases hs with
  | worker hs => rw [hs.kept.1]; exact hm
  | death hs => cases hs <;> exact hm
  | future hs => cases hs <;> exact hm
  | handle hs =>
    cases hs
    case ready a l r e =>
      refine other e fun ha => ?_
      subst ha
      revert h2
      simp only [Buf.pollReady, Buf.reserve]
      split
      · intro h2; exact absurd rfl (h2 _)
      · split
        · intro h2; exact absurd rfl (h2 _)
        · intro _; rfl
    case call a l r q e hc => exact other e fun ha => by subst ha; cases hc
    case clone => exact List.mem_append_left _ hm
    case drop a l r e =>
      rw [e] at hm
      show _ ∈ l ++ r
      rcases List.mem_append.1 hm with h3 | h3
      · exact List.mem_append_left _ h3
      · rcases List.mem_cons.1 h3 with h3 | h3
        · subst h3; exact absurd rfl h1
        · exact List.mem_append_right _ h3
    all_goals exact hm

theorem release_granted (s : Sem) {a : Nat} (h : a ∈ s.granted) : a ∈ s.release.granted := by
  unfold Sem.release; split
  · exact h
  · exact List.mem_append_left _ h

theorem release_or (s : Sem) {a : Nat} (h : a ∈ s.granted ∨ a ∈ s.queue) : a ∈ s.release.granted ∨ a ∈ s.release.queue := by
  rcases h with h | h
  · exact .inl (release_granted s h)
  · unfold Sem.release
    split
    · rename_i e; rw [e] at h; cases h
    · rename_i b q e
      rw [e] at h
      rcases List.mem_cons.1 h with h | h
      · exact .inl (List.mem_append_right _ (List.mem_singleton.2 h))
      · exact .inr h

/-- a slot that was granted stays granted until the handle is polled or dropped -/
theorem granted_keeps (hI : SemInv x) (hs : BStep x ev y) (h : nm ∈ x.sem.granted) (h1 : ev ≠ .dropHandle nm) (h2 : ∀ p, ev ≠ .ready nm p) : nm ∈ y.sem.granted := by
  cases hs with
  | worker hs => cases hs <;> first | exact h | exact release_granted _ h
  | death hs =>
    cases hs <;> first | exact h | exact release_granted _ h | skip
    obtain ⟨a, ha, _⟩ := hI.waiting nm (List.mem_append_left _ h)
    simp_all
  | future hs => cases hs <;> exact h
  | handle hs =>
    cases hs
    case ready a l r e =>
      have hne : nm ≠ a.name := by rintro rfl; exact h2 _ rfl
      show nm ∈ (x.pollReady a).2.2.granted
      rcases poll_sem x a with h3 | ⟨_, h3⟩ | ⟨_, h3⟩
      · rw [h3]; exact h
      · rw [h3]
        unfold Sem.pollAcquire
        split
        · exact (List.mem_erase_of_ne hne).2 h
        · split
          · exact h
          · split <;> exact h
      · rw [h3]; exact release_granted _ ((List.mem_erase_of_ne hne).2 h)
    case drop a l r e =>
      have hne : nm ≠ a.name := by rintro rfl; exact h1 rfl
      show nm ∈ (if a.st = .ready then x.sem.release else x.sem.dropAcquire a.name).granted
      split
      · exact release_granted _ h
      · unfold Sem.dropAcquire
        split
        · exact release_granted _ ((List.mem_erase_of_ne hne).2 h)
        · exact h
    all_goals exact h

/-- a handle that was granted a slot is ready when it is polled -/
theorem granted_poll (hI : SemInv x) (hs : BStep x (.ready nm p) y) (h : nm ∈ x.sem.granted) (hc : x.closed = false) : (⟨nm, .ready⟩ : BHandle) ∈ y.hs ∧ p = .ready (.ok ()) := by
  obtain ⟨b, hb, hbn, hbs⟩ := hI.waiting nm (List.mem_append_left _ h)
  generalize he : BEv.ready nm p = ev at hs
  cases hs with
  | worker hs => cases hs <;> cases he
  | death hs => cases hs <;> cases he
  | future hs => cases hs <;> cases he
  | handle hs =>
    cases hs <;> cases he
    rename_i a l r e
    have : a = b := hI.same (by rw [e]; simp) hb hbn.symm
    subst this
    have h1 : x.pollReady a = (.ready (.ok ()), ⟨a.name, .ready⟩, { x.sem with granted := x.sem.granted.erase a.name }) := by
      simp [Buf.pollReady, hbs, Buf.reserve, hc, Sem.pollAcquire, h]
    refine ⟨?_, by rw [h1]⟩
    show _ ∈ l ++ (x.pollReady a).2.1 :: r
    rw [h1]; simp

/-- a poll of a closed buffer is not pending -/
theorem closed_poll (hs : BStep x (.ready nm .pending) y) (hc : x.closed = true) : False := by
  generalize he : BEv.ready nm .pending = ev at hs
  cases hs with
  | worker hs => cases hs <;> cases he
  | death hs => cases hs <;> cases he
  | future hs => cases hs <;> cases he
  | handle hs =>
    cases hs
    case ready a l r e =>
      injection he with _ he
      revert he
      unfold Buf.pollReady Buf.reserve
      cases a.st <;> simp [hc]
    all_goals cases he

theorem closed_keeps (hs : BStep x ev y) (hc : x.closed = true) : y.closed = true := by
  cases hs with
  | worker hs => cases hs <;> first | exact hc | rfl
  | death hs => cases hs <;> first | exact hc | rfl
  | future hs => cases hs <;> exact hc
  | handle hs => cases hs <;> exact hc

/-- a waiting handle is in the queue, or was granted a slot, or the channel is closed -/
def Queued (x : Buf S) : Prop := ∀ h ∈ x.hs, h.st = .acquiring → x.closed = true ∨ h.name ∈ x.sem.granted ∨ h.name ∈ x.sem.queue

theorem Queued.step (hQ : Queued x) (hI : SemInv x) (hs : BStep x ev y) : Queued y := by
  intro h hm hst
  rcases acquiring_was hI hs hm hst with ⟨hm', h1, h2⟩ | h1
  · rcases hQ h hm' hst with h3 | h3
    · exact .inl (closed_keeps hs h3)
    · rcases h3 with h3 | h3
      · by_cases hp : ev = .ready h.name .pending
        · subst hp
          cases hc : x.closed with
          | true => exact (closed_poll hs hc).elim
          | false => exact absurd (granted_poll hI hs h3 hc).2 nofun
        · exact .inr (.inl (granted_keeps hI hs h3 h1 fun p => by cases p with | pending => exact hp | ready v => exact h2 v))
      · cases hs with
        | worker hs => cases hs <;> first | exact .inr (.inr h3) | exact .inr (release_or _ (.inr h3)) | exact .inl rfl
        | death hs =>
          cases hs <;> first | exact .inr (.inr h3) | exact .inr (release_or _ (.inr h3)) | exact .inl rfl | skip
          obtain ⟨a, ha, _⟩ := hI.waiting _ (List.mem_append_right _ h3)
          simp_all
        | future hs => cases hs <;> exact .inr (.inr h3)
        | handle hs =>
          cases hs
          case ready a l r e =>
            right
            show h.name ∈ (x.pollReady a).2.2.granted ∨ h.name ∈ (x.pollReady a).2.2.queue
            rcases poll_sem x a with h4 | ⟨_, h4⟩ | ⟨h5, _⟩
            · rw [h4]; exact .inr h3
            · rw [h4]
              unfold Sem.pollAcquire
              split
              · exact .inr h3
              · split
                · exact .inr h3
                · split
                  · exact .inr h3
                  · exact .inr (List.mem_append_left _ h3)
            · rw [hI.closedq h5] at h3; cases h3
          case drop a l r e =>
            have hne : h.name ≠ a.name := by intro he; exact h1 (by rw [he])
            right
            show h.name ∈ (if a.st = .ready then x.sem.release else x.sem.dropAcquire a.name).granted ∨ h.name ∈ (if a.st = .ready then x.sem.release else x.sem.dropAcquire a.name).queue
            split
            · exact release_or _ (.inr h3)
            · unfold Sem.dropAcquire
              split
              · exact release_or _ (.inr h3)
              · exact .inr ((List.mem_erase_of_ne hne).2 h3)
          all_goals exact .inr (.inr h3)
  · subst h1
    cases hc : y.closed with
    | true => exact .inl rfl
    | false =>
    right
    generalize he : BEv.ready h.name .pending = ev at hs
    cases hs with
    | worker hs => cases hs <;> cases he
    | death hs => cases hs <;> cases he
    | future hs => cases hs <;> cases he
    | handle hs =>
      cases hs
      case ready a l r e =>
        injection he with he1 he2
        have hc : x.closed = false := hc
        have he2 := he2.symm
        have key : x.reserve a = (.pending, ⟨a.name, .acquiring⟩, (x.sem.pollAcquire a.name).2) ∧ (x.pollReady a).2.2 = (x.sem.pollAcquire a.name).2 ∧ (x.sem.pollAcquire a.name).1 = false := by
          revert he2
          unfold Buf.pollReady Buf.reserve
          rcases hp : x.sem.pollAcquire a.name with ⟨b, s⟩
          cases a.st <;> cases b <;> simp [hc]
        show h.name ∈ (x.pollReady a).2.2.granted ∨ h.name ∈ (x.pollReady a).2.2.queue
        rw [key.2.1, he1]
        have h5 := key.2.2
        revert h5
        unfold Sem.pollAcquire
        split
        · simp
        · split
          · intro _; right; assumption
          · split
            · simp
            · intro _; right; simp
      all_goals cases he

theorem BHist.queued {bound : Nat} {svc : S.σ} {tr : List (BEv S)} (h : BHist S bound svc tr x) : Queued x := by
  unfold BHist at h
  induction h with
  | nil => intro h hm hst; simp [Buf.init] at hm; subst hm; cases hst
  | snoc hr hs ih => exact ih.step (BHist.inv hr).sem hs

end Tower
