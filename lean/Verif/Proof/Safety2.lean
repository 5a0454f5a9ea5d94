import Verif.Proof.Safety

/-!
# Each middleware keeps the service contract (lemmas), second part
-/

namespace Tower

variable {W : Type}

open Act

section mw
variable {Req Res Err : Type} {cfg : Cfg} {good : Res → Prop}

theorem Timeout.safe (C : Clock W) (d : Nat) {S : Service W Req Res Err} {s : S.σ}
    (h : SafeG cfg good S s) : SafeG cfg good (Timeout C d S) s := by
  obtain ⟨I, hI⟩ := h.inv
  exact SafeInv.safe (S := Timeout C d S)
    { H := I.H, F := fun x => I.F x.1, clone_ok := I.clone_ok
      ready_ok := by
        intro s m w hs hm
        simp only [Timeout, wp_bind]
        refine wp_mono (I.ready_ok s m w hs hm) ?_
        rintro ⟨p, s'⟩ w' h
        simp only [wp_pure]; exact ReadyPost.map (p := p) _ h (fun h => h) (fun h => h) id
      call_ok := by
        intro s r w hs
        simp only [Timeout, wp_bind]
        refine wp_mono (I.call_ok s r w hs) ?_
        rintro ⟨x, s'⟩ w' h
        exact h
      poll_ok := by
        intro x w hx
        simp only [Timeout, wp_bind]
        refine wp_mono (I.poll_ok x.1 w hx) ?_
        rintro ⟨p, x'⟩ w' h
        match p, h with
        | .pending, h =>
          simp only [wp_bind, wp_get]
          split
          · trivial
          · exact h
        | .ready (.ok r), h => exact h
        | .ready (.error e), _ => trivial } hI

/-- LoadShed is sticky whatever the inner service does. -/
theorem LoadShed.safe {c st st' : Bool} {S : Service W Req Res Err} {s : S.σ}
    (h : SafeG ⟨c, st⟩ good S s) : SafeG ⟨c, st'⟩ good (LoadShed S) ⟨s, false⟩ := by
  obtain ⟨I, hI⟩ := h.inv
  exact SafeInv.safe (cfg := ⟨c, st'⟩) (S := LoadShed S)
    { H := fun s _ => (s.isReady = true → I.H s.inner .ready) ∧ (∃ m, m ≠ Mode.failed ∧ I.H s.inner m)
      F := fun x => match x with | some x => I.F x | none => True
      ready_ok := by
        rintro s m w ⟨_, m', hm', hs⟩ hm
        simp only [LoadShed, wp_bind]
        refine wp_mono (I.ready_ok s.inner m' w hs hm') ?_
        rintro ⟨p, s'⟩ w' h
        match p, h with
        | .pending, h => exact ⟨by simp, .idle, by simp, h.1⟩
        | .ready (.ok ()), h => exact ⟨fun _ => h, .ready, by simp, h⟩
        | .ready (.error e), _ => trivial
      call_ok := by
        rintro s r w ⟨hs, m', hm', hs'⟩
        simp only [LoadShed]
        split
        · rename_i hr
          simp only [wp_bind]
          refine wp_mono (I.call_ok s.inner r w (hs hr)) ?_
          rintro ⟨x, s'⟩ w' h
          exact ⟨h.1, by simp, .idle, by simp, h.2⟩
        · exact ⟨trivial, hs, m', hm', hs'⟩
      poll_ok := by
        rintro (_ | x) w hx
        · trivial
        · simp only [LoadShed, wp_bind]
          refine wp_mono (I.poll_ok x w hx) ?_
          rintro ⟨p, x'⟩ w' h
          simp only [wp_pure]; exact PollPost.map (p := p) _ h (fun h => h)
      clone_ok := by
        rintro hc s m hm ⟨_, m', hm', hs⟩
        exact ⟨by simp [LoadShed], .idle, by simp, I.clone_ok hc _ m' hm' hs⟩ }
    ⟨by simp, .idle, by simp, hI⟩

theorem RateLimit.safe {c st c' : Bool} (C : Clock W) (R : Rate) {S : Service W Req Res Err} {s : S.σ}
    (hc' : c' = false) (now : Nat)
    (h : SafeG ⟨c, st⟩ good S s) : SafeG ⟨c', st⟩ good (RateLimit C R S) (RateLimit.new R now s) := by
  obtain ⟨I, hI⟩ := h.inv
  exact SafeInv.safe (cfg := ⟨c', st⟩) (S := RateLimit C R S)
    { H := fun s m => I.H s.inner m ∧ (m = .ready → s.st ≠ .limited)
      F := I.F
      ready_ok := by
        rintro s m w ⟨hs, hl⟩ hm
        simp only [RateLimit]
        split
        · rename_i u k hst
          simp only [wp_bind]
          refine wp_mono (I.ready_ok s.inner m w hs hm) ?_
          rintro ⟨p, s'⟩ w' h
          simp only [wp_pure]; exact ReadyPost.imp h (fun h => ⟨h, by simp [hst]⟩) (fun h => ⟨h, by simp⟩) id
        · rename_i hst
          have hmr : m ≠ .ready := fun hmr => hl hmr hst
          rw [wp_bind, wp_get]
          split
          · simp only [wp_bind, wp_get]
            refine wp_mono (I.ready_ok s.inner m w hs hm) ?_
            rintro ⟨p, s'⟩ w' h
            simp only [wp_pure]; exact ReadyPost.imp h (fun h => ⟨h, by simp⟩) (fun h => ⟨h, by simp⟩) id
          · have hmi : m = .idle := by cases m <;> simp_all
            subst hmi
            exact ⟨⟨hs, by simp⟩, by simp⟩
      call_ok := by
        rintro s r w ⟨hs, hl⟩
        simp only [RateLimit]
        rw [wp_bind, wp_get]
        cases hst : s.st with
        | limited => exact absurd hst (hl rfl)
        | ready u k =>
          simp only [rateTake]
          generalize (if C.now w ≥ u then (C.now w + R.per, R.num) else (u, k)) = um
          split
          · rename_i heq
            split at heq <;> simp at heq
          · simp only [wp_bind]
            refine wp_mono (I.call_ok s.inner r w hs) ?_
            rintro ⟨x, s'⟩ w' h
            exact ⟨h.1, h.2, by simp⟩
      poll_ok := I.poll_ok
      clone_ok := by intro hc; exact absurd hc (by simp [hc']) }
    ⟨hI, by simp⟩

theorem ConcurrencyLimit.safe (debug : Bool) (V : SemView W) (hV : V.NeverClosed)
    {S : Service W Req Res Err} {s : S.σ} (a : V.α)
    (h : SafeG cfg good S s) : SafeG cfg good (ConcurrencyLimit debug V S) ⟨s, a, false⟩ := by
  obtain ⟨I, hI⟩ := h.inv
  exact SafeInv.safe (S := ConcurrencyLimit debug V S)
    { H := fun s m => I.H s.inner m ∧ (m = .ready → s.permit = true)
      F := I.F
      ready_ok := by
        rintro s m w ⟨hs, hl⟩ hm
        simp only [ConcurrencyLimit]
        split
        · rename_i hp
          simp only [wp_bind]
          refine wp_mono (I.ready_ok s.inner m w hs hm) ?_
          rintro ⟨p, s'⟩ w' h
          simp only [wp_pure]; exact ReadyPost.imp h (fun h => ⟨h, fun _ => hp⟩) (fun h => ⟨h, by simp⟩) id
        · rename_i hp
          have hmi : m = .idle := by cases m <;> simp_all
          subst hmi
          rw [wp_bind, wp_lift]
          have hv := hV s.sem w
          split
          · exact ⟨⟨hs, by simp⟩, by simp⟩
          · rename_i got heq
            cases got with
            | false => exact absurd heq hv
            | true =>
              simp only [Bool.not_true, Bool.and_false, Bool.false_eq_true, ↓reduceIte, wp_bind]
              refine wp_mono (I.ready_ok s.inner .idle _ hs hm) ?_
              rintro ⟨p, s'⟩ w' h
              simp only [wp_pure]; exact ReadyPost.imp h (fun h => ⟨h, fun _ => rfl⟩) (fun h => ⟨h, by simp⟩) id
      call_ok := by
        rintro s r w ⟨hs, hl⟩
        simp only [ConcurrencyLimit, hl rfl, if_true, wp_bind]
        refine wp_mono (I.call_ok s.inner r w hs) ?_
        rintro ⟨x, s'⟩ w' h
        exact ⟨h.1, h.2, by simp⟩
      poll_ok := I.poll_ok
      clone_ok := by
        rintro hc s m hm ⟨hs, _⟩
        exact ⟨I.clone_ok hc _ m hm hs, by simp⟩ }
    ⟨hI, by simp⟩

theorem Filter.safe {R1 BErr : Type} (into : Err → BErr) (check : R1 → W → Except BErr Req × W)
    {S : Service W Req Res Err} {s : S.σ} {c st : Bool}
    (h : SafeG ⟨c, st⟩ good S s) : SafeG ⟨c, st⟩ good (Filter into check S) s := by
  obtain ⟨I, hI⟩ := h.inv
  exact SafeInv.safe (S := Filter into check S)
    { H := fun s m => I.H s m ∨ (m = .idle ∧ I.H s .ready)
      F := fun x => match x with
        | .inl (some _) => True
        | .inl none => False
        | .inr x => MapF I.F x
      ready_ok := by
        intro s m w hs hm
        simp only [Filter, wp_bind]
        have : ∃ m', m' ≠ Mode.failed ∧ (m = .ready → m' = .ready) ∧ I.H s m' := by
          rcases hs with hs | ⟨h1, h2⟩
          · exact ⟨m, hm, id, hs⟩
          · exact ⟨.ready, by simp, by simp, h2⟩
        obtain ⟨m', hm', hmm, hs⟩ := this
        refine wp_mono (I.ready_ok s m' w hs hm') ?_
        rintro ⟨p, s'⟩ w' h
        simp only [wp_pure]
        exact ReadyPost.map (p := p) into h (fun h => Or.inl h) (fun h => Or.inl h) hmm
      call_ok := by
        intro s r w hs
        have hs : I.H s .ready := by simpa using hs
        simp only [Filter]
        rw [wp_bind, wp_lift]
        split
        · simp only [wp_bind]
          refine wp_mono (I.call_ok s _ _ hs) ?_
          rintro ⟨x, s'⟩ w' h
          exact ⟨⟨x, rfl, h.1⟩, .inl h.2⟩
        · simp only [wp_pure]; exact ⟨trivial, by simp [hs]⟩
      poll_ok := by
        rintro (x | x) w hx
        · cases x with
          | some e => trivial
          | none => exact hx.elim
        · simp only [Filter, wp_bind]
          refine wp_mono (mapFut_post (good' := good) (f := fun res => pure (mapErr into res)) hx I.poll_ok ?_) ?_
          · rintro (e | r) w' h r' hr'
            · cases hr'
            · cases hr'; exact h r rfl
          · rintro ⟨p, x'⟩ w' h
            simp only [wp_pure]; exact PollPost.imp (p := p) h (fun h => h)
      clone_ok := by
        intro hc s m hm hs
        refine .inl ?_
        rcases hs with hs | ⟨_, hs⟩
        · exact I.clone_ok hc s m hm hs
        · exact I.clone_ok hc s .ready (by simp) hs }
    (.inl hI)

theorem AsyncFilter.safe {R1 BErr : Type} {c st : Bool} (into : Err → BErr) (P : Fut W (Except BErr Req))
    (check : R1 → W → P.φ × W) (hP : ∀ r w, FutSafe P (fun _ => True) (check r w).1)
    {S : Service W Req Res Err} {s : S.σ}
    (h : SafeG ⟨true, st⟩ good S s) : SafeG ⟨c, st⟩ good (AsyncFilter into P check S) s := by
  obtain ⟨I, hI⟩ := h.inv
  exact SafeInv.safe (cfg := ⟨c, st⟩) (S := AsyncFilter into P check S)
    { H := I.H
      F := fun x => match x with
        | .check c s => FutSafe P (fun _ => True) c ∧ I.H s .ready
        | .waitResponse x => I.F x
      ready_ok := by
        intro s m w hs hm
        simp only [AsyncFilter, wp_bind]
        refine wp_mono (I.ready_ok s m w hs hm) ?_
        rintro ⟨p, s'⟩ w' h
        simp only [wp_pure]; exact ReadyPost.map into h id id id
      call_ok := by
        intro s r w hs
        simp only [AsyncFilter, wp_bind, wp_lift, wp_pure]
        exact ⟨⟨hP r w, hs⟩, I.clone_ok rfl s .ready (by simp) hs⟩
      poll_ok := by
        rintro (⟨c, s⟩ | x) w hx
        · simp only [AsyncFilter, wp_bind]
          refine wp_mono (hx.1.poll w) ?_
          rintro ⟨p, c'⟩ w' h
          match p, h with
          | .pending, h => exact ⟨h, hx.2⟩
          | .ready (.error e), _ => trivial
          | .ready (.ok r), _ =>
            simp only [wp_bind]
            refine wp_mono (I.call_ok s r w' hx.2) ?_
            rintro ⟨x, s'⟩ w'' h
            refine wp_mono (I.poll_ok x w'' h.1) ?_
            rintro ⟨p, x'⟩ w' h
            simp only [wp_pure]; exact PollPost.map (p := p) _ h (fun h => h)
        · simp only [AsyncFilter, wp_bind]
          refine wp_mono (I.poll_ok x w hx) ?_
          rintro ⟨p, x'⟩ w' h
          simp only [wp_pure]; exact PollPost.map (p := p) _ h (fun h => h)
      clone_ok := by intro _ s m hm hs; exact I.clone_ok rfl s m hm hs } hI

/-- Invariant of Retry's response future. -/
def RetryFutInv (P : RetryPolicy W Req Res Err) {S : Service W Req Res Err} {cfg : Cfg}
    (I : SafeInv cfg good S) (x : RetryFut Req P.π S.σ S.φ P.ρ) : Prop :=
  (∃ m, m ≠ Mode.failed ∧ I.H x.retry.service m) ∧
  match x.st with
  | .called f => I.F f
  | .waiting _ => x.request ≠ none
  | .retrying => x.request ≠ none

theorem retryStep_wp (P : RetryPolicy W Req Res Err)
    (hP : ∀ π req res w, (P.retry π req res w).1.1 = none →
      OkGood good res → OkGood good (P.retry π req res w).1.2.2.2)
    {S : Service W Req Res Err} {cfg : Cfg}
    (I : SafeInv cfg good S) (x : RetryFut Req P.π S.σ S.φ P.ρ) (hx : RetryFutInv P I x) (w : W) :
    wp (retryStep P S x) (fun r _ => match r with
      | .inl out => PollPost good (RetryFutInv P I) out
      | .inr x' => RetryFutInv P I x') w := by
  obtain ⟨request, ⟨pol, svc⟩, st⟩ := x
  obtain ⟨⟨m, hm, hs⟩, hst⟩ := hx
  cases st with
  | called f =>
    simp only [retryStep]
    rw [wp_bind]
    refine wp_mono (I.poll_ok f w hst) ?_
    rintro ⟨p, f'⟩ w' h
    match p, h with
    | .pending, h => exact ⟨⟨m, hm, hs⟩, h⟩
    | .ready res, h =>
      have hres : OkGood good res := by
        match res, h with
        | .ok r, h => exact h
        | .error e, _ => trivial
      cases request with
      | none =>
        simp only [wp_pure]
        match res, h with
        | .ok r, h => exact h
        | .error e, _ => trivial
      | some req =>
        simp only
        rw [wp_bind, wp_lift]
        have hp := hP pol req res w'
        generalize (P.retry pol req res w') = out at hp ⊢
        obtain ⟨⟨o, π', req', res'⟩, w''⟩ := out
        cases o with
        | some ρ => exact ⟨⟨m, hm, hs⟩, by simp⟩
        | none =>
          have := hp rfl hres
          simp only [wp_pure]
          cases res' with
          | ok r => exact this
          | error e => trivial
  | waiting r =>
    simp only [retryStep]
    rw [wp_bind, wp_lift]
    cases hpp : (P.wait r w).1.1 with
    | pending => exact ⟨⟨m, hm, hs⟩, hst⟩
    | ready u => exact ⟨⟨m, hm, hs⟩, hst⟩
  | retrying =>
    simp only [retryStep]
    rw [wp_bind]
    refine wp_mono (I.ready_ok svc m w hs hm) ?_
    rintro ⟨p, s'⟩ w' h
    match p, h with
    | .pending, h => exact ⟨⟨.idle, by simp, h.1⟩, hst⟩
    | .ready (.error e), _ => trivial
    | .ready (.ok ()), h =>
      cases request with
      | none => exact absurd rfl hst
      | some req =>
        simp only [wp_bind, wp_lift]
        refine wp_mono (I.call_ok s' req _ h) ?_
        rintro ⟨f, s''⟩ w'' h
        exact ⟨⟨.idle, by simp, h.2⟩, h.1⟩

theorem retryPoll_wp (P : RetryPolicy W Req Res Err)
    (hP : ∀ π req res w, (P.retry π req res w).1.1 = none →
      OkGood good res → OkGood good (P.retry π req res w).1.2.2.2)
    {S : Service W Req Res Err} {cfg : Cfg}
    (I : SafeInv cfg good S) (n : Nat) (x : RetryFut Req P.π S.σ S.φ P.ρ) (hx : RetryFutInv P I x) (w : W) :
    wp (retryPoll P S n x) (fun r _ => PollPost good (RetryFutInv P I) r) w := by
  induction n generalizing x w with
  | zero => trivial
  | succ n ih =>
    simp only [retryPoll, wp_bind]
    refine wp_mono (retryStep_wp P hP I x hx w) ?_
    rintro (out | x') w' h
    · exact h
    · exact ih x' h w'

theorem Retry.safe {c st : Bool} (fuel : Nat) (P : RetryPolicy W Req Res Err)
    (hP : ∀ π req res w, (P.retry π req res w).1.1 = none →
      OkGood good res → OkGood good (P.retry π req res w).1.2.2.2)
    (π : P.π) {S : Service W Req Res Err} {s : S.σ}
    (h : SafeG ⟨true, st⟩ good S s) : SafeG ⟨c, st⟩ good (Retry fuel P S) ⟨π, s⟩ := by
  obtain ⟨I, hI⟩ := h.inv
  exact SafeInv.safe (cfg := ⟨c, st⟩) (S := Retry fuel P S)
    { H := fun s m => I.H s.service m
      F := RetryFutInv P I
      ready_ok := by
        intro s m w hs hm
        simp only [Retry, wp_bind]
        refine wp_mono (I.ready_ok s.service m w hs hm) ?_
        rintro ⟨p, s'⟩ w' h
        simp only [wp_pure]; exact ReadyPost.imp h id id id
      call_ok := by
        intro s r w hs
        simp only [Retry, wp_bind, wp_lift]
        refine wp_mono (I.call_ok s.service r _ hs) ?_
        rintro ⟨x, s'⟩ w' h
        exact ⟨⟨⟨.idle, by simp, I.clone_ok rfl s' .idle (by simp) h.2⟩, h.1⟩, h.2⟩
      poll_ok := by
        intro x w hx
        exact retryPoll_wp P hP I fuel x hx w
      clone_ok := by intro _ s m hm hs; exact I.clone_ok rfl _ m hm hs } hI

/-- invariant of Steer -/
def SteerInv {S : Service W Req Res Err} {cfg : Cfg} (I : SafeInv cfg good S) (services : List S.σ)
    (notReady : List Nat) : Prop :=
  (∀ i ∈ notReady, i < services.length) ∧
  ∀ i s, services[i]? = some s → (i ∉ notReady → I.H s .ready) ∧ ∃ m, m ≠ Mode.failed ∧ I.H s m

theorem steerPoll_wp {S : Service W Req Res Err} {cfg : Cfg} (I : SafeInv cfg good S)
    (nr : List Nat) (services : List S.σ) (h : SteerInv I services nr) (w : W) :
    wp (steerPoll S services nr) (fun r _ => match r with
      | (.ready (.ok ()), s') => SteerInv I s'.services s'.notReady ∧ s'.notReady = []
      | (.ready (.error _), _) => True
      | (.pending, s') => SteerInv I s'.services s'.notReady ∧ nr ≠ []) w := by
  induction nr generalizing services w with
  | nil => exact ⟨h, rfl⟩
  | cons i rest ih =>
    have hi := h.1 i (by simp)
    have hget : services[i]? = some services[i] := by simp [hi]
    obtain ⟨m, hm, hs⟩ := (h.2 i _ hget).2
    simp only [steerPoll, hget]
    rw [wp_bind]
    refine wp_mono (I.ready_ok _ m w hs hm) ?_
    rintro ⟨p, s'⟩ w' h'
    match p, h' with
    | .ready (.error e), _ => trivial
    | .pending, h' =>
      refine ⟨⟨by simpa using h.1, ?_⟩, by simp⟩
      intro j t hj
      by_cases hij : i = j
      · subst hij
        simp only [List.getElem?_set_self hi, Option.some.injEq] at hj
        subst hj
        exact ⟨by simp, .idle, by simp, h'.1⟩
      · rw [List.getElem?_set_ne hij] at hj
        exact h.2 j t hj
    | .ready (.ok ()), h' =>
      simp only
      have key : SteerInv I (services.set i s') rest := by
        refine ⟨fun j hj => by simpa using h.1 j (by simp [hj]), ?_⟩
        intro j t hj
        by_cases hij : i = j
        · subst hij
          simp only [List.getElem?_set_self hi, Option.some.injEq] at hj
          subst hj
          exact ⟨fun _ => h', .ready, by simp, h'⟩
        · rw [List.getElem?_set_ne hij] at hj
          refine ⟨fun hn => (h.2 j t hj).1 ?_, (h.2 j t hj).2⟩
          simp [hn, Ne.symm hij]
      refine wp_mono (ih _ key w') ?_
      rintro ⟨q, t⟩ w'' h''
      match q, h'' with
      | .ready (.error e), _ => trivial
      | .pending, h'' => exact ⟨h''.1, by simp⟩
      | .ready (.ok ()), h'' => exact h''

/-- Steer without clones: sticky whatever the inner services do. `hpick`: the picker's index is in range. -/
theorem Steer.safe {c st st' : Bool} {S : Service W Req Res Err} (pick : Req → List S.σ → W → Nat × W)
    (hpick : ∀ r l w, l ≠ [] → (pick r l w).1 < l.length) {ss : List S.σ} (hne : ss ≠ [])
    (h : ∀ s ∈ ss, SafeG ⟨c, st⟩ good S s) :
    SafeG ⟨false, st'⟩ good (Steer S pick) (Steer.new ss) := by
  let I := SafeInv.canonical ⟨c, st⟩ good S
  have hI : ∀ s, SafeG ⟨c, st⟩ good S s → I.H s .idle := fun s h => ⟨⟨[(s, .idle)], []⟩, 0, rfl, h⟩
  exact SafeInv.safe (cfg := ⟨false, st'⟩) (S := Steer S pick)
    { H := fun x m => SteerInv I x.services x.notReady ∧ x.services ≠ [] ∧ (m = .ready → x.notReady = [])
      F := I.F
      ready_ok := by
        rintro ⟨services, nr⟩ m w ⟨hs, hn, hr⟩ hm
        have hlen : wp (steerPoll S services nr) (fun r _ => r.2.services.length = services.length) w := by
          have : ∀ (nr : List Nat) (l : List S.σ) (w : W), SteerInv I l nr →
              wp (steerPoll S l nr) (fun r _ => r.2.services.length = l.length) w := by
            intro nr
            induction nr with
            | nil => intro l w _; exact rfl
            | cons i rest ih =>
              intro l w h
              have hi := h.1 i (by simp)
              have hget : l[i]? = some l[i] := by simp [hi]
              obtain ⟨m, hm, hs⟩ := (h.2 i _ hget).2
              simp only [steerPoll, hget]
              rw [wp_bind]
              refine wp_mono (I.ready_ok _ m w hs hm) ?_
              rintro ⟨p, s'⟩ w' h'
              match p, h' with
              | .ready (.error e), _ => simp
              | .pending, h' => simp
              | .ready (.ok ()), h' =>
                have key : SteerInv I (l.set i s') rest := by
                  refine ⟨fun j hj => by simpa using h.1 j (by simp [hj]), ?_⟩
                  intro j t hj
                  by_cases hij : i = j
                  · subst hij
                    simp only [List.getElem?_set_self hi, Option.some.injEq] at hj
                    subst hj
                    exact ⟨fun _ => h', .ready, by simp, h'⟩
                  · rw [List.getElem?_set_ne hij] at hj
                    refine ⟨fun hn => (h.2 j t hj).1 ?_, (h.2 j t hj).2⟩
                    simp [hn, Ne.symm hij]
                exact wp_mono (ih _ w' key) (fun a w h => by simpa using h)
          exact this nr services w hs
        refine wp_mono (wp_and (steerPoll_wp I nr services hs w) hlen) ?_
        rintro ⟨p, x'⟩ w' ⟨h, hl⟩
        have hne : x'.services ≠ [] := by
          intro h0; rw [h0] at hl; exact hn (List.length_eq_zero_iff.mp hl.symm)
        match p, h with
        | .ready (.ok ()), h => exact ⟨h.1, hne, fun _ => h.2⟩
        | .ready (.error e), _ => trivial
        | .pending, h => exact ⟨⟨h.1, hne, by simp⟩, fun _ hmr => h.2 (hr hmr)⟩
      call_ok := by
        rintro ⟨services, nr⟩ r w ⟨hs, hn, hr⟩
        have hr := hr rfl
        simp only at hr hn hs
        subst hr
        simp only [Steer, List.isEmpty_nil, if_true]
        rw [wp_bind, wp_lift]
        have hi := hpick r services w hn
        generalize (pick r services w).1 = i at hi
        generalize (pick r services w).2 = w1
        have hget : services[i]? = some services[i] := by simp [hi]
        simp only [hget]
        rw [wp_bind]
        refine wp_mono (I.call_ok _ r w1 ((hs.2 i _ hget).1 (by simp))) ?_
        rintro ⟨x, s'⟩ w' h
        refine ⟨h.1, ⟨by simpa using hi, ?_⟩, by simpa using hn, by simp⟩
        intro j t hj
        by_cases hij : i = j
        · subst hij
          simp only [List.getElem?_set_self hi, Option.some.injEq] at hj
          subst hj
          exact ⟨by simp, .idle, by simp, h.2⟩
        · rw [List.getElem?_set_ne hij] at hj
          refine ⟨fun _ => (hs.2 j t hj).1 (by simp), (hs.2 j t hj).2⟩
      poll_ok := I.poll_ok
      clone_ok := by intro hc; exact absurd hc (by simp) }
    ⟨⟨by simp [Steer.new], fun i s hi => by
      have hmem : s ∈ ss := List.mem_of_getElem? hi
      have hlt : i < ss.length := (List.getElem?_eq_some_iff.mp hi).1
      exact ⟨fun hn => absurd (List.mem_range.mpr hlt) hn, .idle, by simp, hI s (h s hmem)⟩⟩, hne, by simp⟩

/-- invariant of Reconnect -/
def ReconInv {Tgt E1 : Type} {S : Service W Req Res Err} {M : Service W Tgt S.σ E1} {cfg cfg' : Cfg}
    {gm : S.σ → Prop} (I : SafeInv cfg good S) (J : SafeInv cfg' gm M) (m : Mode)
    (x : ReconState M.σ M.φ S.σ E1) : Prop :=
  (∃ m', m' ≠ Mode.failed ∧ J.H x.maker m') ∧
  (match x.st with
   | .idle => True
   | .connecting f => J.F f
   | .connected s => ∃ m', m' ≠ Mode.failed ∧ I.H s m') ∧
  (m = .ready → x.error ≠ none ∨ ∃ s, x.st = .connected s ∧ I.H s .ready)

theorem reconPoll_wp {Tgt E1 : Type} {S : Service W Req Res Err} {M : Service W Tgt S.σ E1} {cfg cfg' : Cfg}
    (I : SafeInv cfg good S) (J : SafeInv cfg' (fun s => I.H s .idle) M) (t : Tgt) (n : Nat)
    (x : ReconState M.σ M.φ S.σ E1) (hx : ReconInv I J .idle x) (w : W) :
    wp (reconPoll S M t n x) (fun r _ => match r with
      | (.ready (.ok ()), x') => ReconInv I J .ready x'
      | (.ready (.error _), _) => True
      | (.pending, x') => ReconInv I J .idle x') w := by
  induction n generalizing x w with
  | zero => trivial
  | succ n ih =>
    obtain ⟨⟨m', hm', hmk⟩, hst, _⟩ := hx
    obtain ⟨mk, st, err⟩ := x
    unfold reconPoll
    cases st with
    | idle =>
      simp only
      rw [wp_bind]
      refine wp_mono (J.ready_ok _ m' w hmk hm') ?_
      rintro ⟨p, mk'⟩ w' h
      match p, h with
      | .ready (.error e), _ => trivial
      | .pending, h => exact ⟨⟨.idle, by simp, h.1⟩, trivial, by simp⟩
      | .ready (.ok ()), h =>
        simp only
        rw [wp_bind]
        refine wp_mono (J.call_ok _ t w' h) ?_
        rintro ⟨f, mk''⟩ w'' h
        exact ih _ ⟨⟨.idle, by simp, h.2⟩, h.1, by simp⟩ _
    | connecting f =>
      simp only at hst ⊢
      rw [wp_bind]
      refine wp_mono (J.poll_ok _ w hst) ?_
      rintro ⟨p, f'⟩ w' h
      match p, h with
      | .ready (.error e), _ => exact ⟨⟨m', hm', hmk⟩, trivial, fun _ => .inl (by simp)⟩
      | .pending, h => exact ⟨⟨m', hm', hmk⟩, h, by simp⟩
      | .ready (.ok s), h => exact ih ⟨mk, .connected s, err⟩ ⟨⟨m', hm', hmk⟩, ⟨.idle, by simp, h⟩, by simp⟩ _
    | connected s =>
      simp only at hst ⊢
      obtain ⟨ms, hms, hs⟩ := hst
      rw [wp_bind]
      refine wp_mono (I.ready_ok _ ms w hs hms) ?_
      rintro ⟨p, s'⟩ w' h
      match p, h with
      | .ready (.error e), _ => exact ih ⟨mk, .idle, err⟩ ⟨⟨m', hm', hmk⟩, trivial, by simp⟩ _
      | .pending, h => exact ⟨⟨m', hm', hmk⟩, ⟨.idle, by simp, h.1⟩, by simp⟩
      | .ready (.ok ()), h =>
        exact ⟨⟨m', hm', hmk⟩, ⟨.ready, by simp, h⟩, fun _ => .inr ⟨s', rfl, h⟩⟩

theorem ReconInv.weaken {Tgt E1 : Type} {S : Service W Req Res Err} {M : Service W Tgt S.σ E1}
    {cfg cfg' : Cfg} {gm : S.σ → Prop} {I : SafeInv cfg good S} {J : SafeInv cfg' gm M} {m : Mode}
    {x : ReconState M.σ M.φ S.σ E1} (h : ReconInv I J m x) : ReconInv I J .idle x :=
  ⟨h.1, h.2.1, by simp⟩

/-- The two starting points of Reconnect. -/
theorem Reconnect.safe_of_inv {Tgt E1 : Type} {c st c' st' : Bool} (fuel : Nat) {S : Service W Req Res Err}
    {M : Service W Tgt S.σ E1} (t : Tgt) {x : ReconState M.σ M.φ S.σ E1}
    (I : SafeInv ⟨c, st⟩ good S) (J : SafeInv ⟨c', st'⟩ (fun s => I.H s .idle) M)
    (hx : ReconInv I J .idle x) :
    SafeG ⟨false, false⟩ good (Reconnect fuel S M t) x := by
  exact SafeInv.safe (cfg := ⟨false, false⟩) (S := Reconnect fuel S M t)
    { H := fun x m => ReconInv I J m x
      F := fun x => match x with
        | .inl f => I.F f
        | .inr (some _) => True
        | .inr none => False
      ready_ok := by
        intro x m w hx hm
        refine wp_mono (reconPoll_wp I J t fuel x hx.weaken w) ?_
        rintro ⟨p, x'⟩ w' h
        match p, h with
        | .ready (.ok ()), h => exact h
        | .ready (.error e), _ => trivial
        | .pending, h => exact ⟨h, by simp⟩
      call_ok := by
        rintro ⟨mk, st, err⟩ r w ⟨hmk, hst, hr⟩
        simp only [Reconnect]
        cases err with
        | some e => exact ⟨trivial, hmk, hst, by simp⟩
        | none =>
          rcases hr rfl with h | ⟨s, h1, h2⟩
          · exact absurd rfl h
          · simp only at h1
            subst h1
            simp only
            rw [wp_bind]
            refine wp_mono (I.call_ok s r w h2) ?_
            rintro ⟨f, s'⟩ w' h
            exact ⟨h.1, hmk, ⟨.idle, by simp, h.2⟩, by simp⟩
      poll_ok := by
        rintro (f | e) w hx
        · simp only [Reconnect, wp_bind]
          refine wp_mono (I.poll_ok f w hx) ?_
          rintro ⟨p, x'⟩ w' h
          simp only [wp_pure]; exact PollPost.map (p := p) _ h (fun h => h)
        · cases e with
          | some e => trivial
          | none => exact hx.elim
      clone_ok := by intro hc; exact absurd hc (by simp) } hx

/-- Reconnect keeps the contract (without stickiness) if the maker keeps its own and makes services that
keep theirs. -/
theorem Reconnect.safe {Tgt E1 : Type} {c st c' st' : Bool} (fuel : Nat) {S : Service W Req Res Err}
    {M : Service W Tgt S.σ E1} (t : Tgt) {mk : M.σ}
    (h : SafeG ⟨c', st'⟩ (fun s => SafeG ⟨c, st⟩ good S s) M mk) :
    SafeG ⟨false, false⟩ good (Reconnect fuel S M t) (Reconnect.new mk) := by
  have h' : SafeG ⟨c', st'⟩ (fun s => (SafeInv.canonical ⟨c, st⟩ good S).H s .idle) M mk :=
    h.mono id id (fun s h => ⟨⟨[(s, .idle)], []⟩, 0, rfl, h⟩)
  obtain ⟨J, hJ⟩ := h'.inv
  exact Reconnect.safe_of_inv fuel t _ J ⟨⟨.idle, by simp, hJ⟩, trivial, by simp⟩

theorem Reconnect.safe_withConnection {Tgt E1 : Type} {c st c' st' : Bool} (fuel : Nat)
    {S : Service W Req Res Err} {M : Service W Tgt S.σ E1} (t : Tgt) {mk : M.σ} {conn : S.σ}
    (h : SafeG ⟨c', st'⟩ (fun s => SafeG ⟨c, st⟩ good S s) M mk) (hc : SafeG ⟨c, st⟩ good S conn) :
    SafeG ⟨false, false⟩ good (Reconnect fuel S M t) (Reconnect.withConnection conn mk) := by
  have h' : SafeG ⟨c', st'⟩ (fun s => (SafeInv.canonical ⟨c, st⟩ good S).H s .idle) M mk :=
    h.mono id id (fun s h => ⟨⟨[(s, .idle)], []⟩, 0, rfl, h⟩)
  obtain ⟨J, hJ⟩ := h'.inv
  exact Reconnect.safe_of_inv fuel t (SafeInv.canonical ⟨c, st⟩ good S) J
    ⟨⟨.idle, by simp, hJ⟩, ⟨.idle, by simp, ⟨⟨[(conn, .idle)], []⟩, 0, rfl, hc⟩⟩, by simp⟩

/-- invariant of SpawnReady -/
def SpawnInv {S : Service W Req Res Err} {cfg : Cfg} (I : SafeInv cfg good S) (m : Mode) :
    SpawnState S.σ Err → Prop
  | .service (some s) => ∃ m', m' ≠ Mode.failed ∧ I.H s m' ∧ (m = .ready → m' = .ready)
  | .service none => False
  | .future (.running s) => m = .idle ∧ I.H s .idle
  | .future (.done (.ok s)) => m = .idle ∧ I.H s .ready
  | .future (.done (.error _)) => m = .idle
  | .future .failed => m = .idle
  | .future .taken => False

theorem runTask_inv {S : Service W Req Res Err} {cfg : Cfg} (I : SafeInv cfg good S) (ws : List W)
    (t : TaskSt S.σ Err) (h : SpawnInv I .idle (.future t)) : SpawnInv I .idle (.future (runTask S ws t)) := by
  induction ws generalizing t with
  | nil => simpa [runTask] using h
  | cons w ws ih =>
    match t, h with
    | .running s, h =>
      have hs := I.ready_ok s .idle w h.2 (by simp)
      unfold wp at hs
      unfold runTask
      split <;> (rename_i heq; simp only [heq] at hs)
      · exact h
      · exact ih _ ⟨rfl, hs.1⟩
      · exact ⟨rfl, hs⟩
      · exact rfl
    | .done r, h => cases r <;> exact h
    | .failed, h => exact h
    | .taken, h => exact h

theorem taskAt_inv {S : Service W Req Res Err} {cfg : Cfg} (I : SafeInv cfg good S) (R : Runtime W) (w : W)
    (t : TaskSt S.σ Err) (h : SpawnInv I .idle (.future t)) : SpawnInv I .idle (.future (taskAt R S w t)) := by
  have := runTask_inv I (R.sched w) t h
  unfold taskAt
  split
  · rename_i heq
    rw [heq] at this
    split
    · exact rfl
    · exact this
  · exact this

theorem spawnPoll_wp {S : Service W Req Res Err} {cfg : Cfg} (I : SafeInv cfg good S) (R : Runtime W)
    (n : Nat) (m : Mode) (x : SpawnState S.σ Err) (hx : SpawnInv I m x) (w : W) :
    wp (spawnPoll R S n x) (fun r _ => match r with
      | (.ready (.ok ()), x') => SpawnInv I .ready x'
      | (.ready (.error _), _) => True
      | (.pending, x') => SpawnInv I .idle x' ∧ (cfg.sticky = true → m ≠ .ready)) w := by
  induction n generalizing x w m with
  | zero => trivial
  | succ n ih =>
    match x, hx with
    | .service (some s), ⟨m', hm', hs, hr⟩ =>
      simp only [spawnPoll]
      rw [wp_bind]
      refine wp_mono (I.ready_ok s m' w hs hm') ?_
      rintro ⟨p, s'⟩ w' h
      match p, h with
      | .ready (.ok ()), h => exact ⟨.ready, by simp, h, fun _ => rfl⟩
      | .ready (.error e), _ => trivial
      | .pending, h =>
        refine wp_mono (ih .idle (.future (.running s')) ⟨rfl, h.1⟩ w') ?_
        rintro ⟨q, x'⟩ w'' h'
        match q, h' with
        | .ready (.ok ()), h' => exact h'
        | .ready (.error e), _ => trivial
        | .pending, h' => exact ⟨h'.1, fun hs hm => h.2 hs (hr hm)⟩
    | .service none, hx => exact hx.elim
    | .future t, hx =>
      have hmi : m = .idle := by
        cases t with
        | running s => exact hx.1
        | failed => exact hx
        | taken => exact hx.elim
        | done r => cases r with
          | ok s => exact hx.1
          | error e => exact hx
      subst hmi
      simp only [spawnPoll]
      rw [wp_bind, wp_get]
      have := taskAt_inv I R w t hx
      generalize taskAt R S w t = t' at this ⊢
      match t', this with
      | .running s, this => exact ⟨this, by simp⟩
      | .failed, _ => trivial
      | .taken, this => exact this.elim
      | .done (.error e), _ => trivial
      | .done (.ok s), this => exact ih .idle (.service (some s)) ⟨.ready, by simp, this.2, by simp⟩ w

theorem SpawnReady.safe {c st : Bool} (fuel : Nat) (R : Runtime W) {S : Service W Req Res Err} {s : S.σ}
    (h : SafeG ⟨c, st⟩ good S s) :
    SafeG ⟨false, st⟩ good (SpawnReady fuel R S) (.service (some s)) := by
  obtain ⟨I, hI⟩ := h.inv
  exact SafeInv.safe (cfg := ⟨false, st⟩) (S := SpawnReady fuel R S)
    { H := fun x m => SpawnInv I m x
      F := MapF I.F
      ready_ok := by
        intro x m w hx hm
        refine wp_mono (spawnPoll_wp I R fuel m x hx w) ?_
        rintro ⟨p, x'⟩ w' h
        match p, h with
        | .ready (.ok ()), h => exact h
        | .ready (.error e), _ => trivial
        | .pending, h => exact h
      call_ok := by
        intro x r w hx
        match x, hx with
        | .service (some s), ⟨m', hm', hs, hr⟩ =>
          have := hr rfl
          subst this
          simp only [SpawnReady, wp_bind]
          refine wp_mono (I.call_ok s r w hs) ?_
          rintro ⟨f, s'⟩ w' h
          exact ⟨⟨f, rfl, h.1⟩, .idle, by simp, h.2, by simp⟩
        | .service none, hx => exact hx.elim
        | .future (.running s), hx => exact absurd hx.1 (by simp)
        | .future (.done (.ok s)), hx => exact absurd hx.1 (by simp)
        | .future (.done (.error s)), hx => cases hx
        | .future .failed, hx => cases hx
        | .future .taken, hx => exact hx.elim
      poll_ok := by
        intro x w hx
        refine mapFut_post hx I.poll_ok ?_
        rintro (e | r) w' h r' hr'
        · cases hr'
        · cases hr'; exact h r rfl
      clone_ok := by intro hc; exact absurd hc (by simp) }
    ⟨.idle, by simp, hI, by simp⟩

/-! ### hedge -/

theorem Latency.safe {BErr : Type} (into : Err → BErr) (C : Clock W) (record : Nat → W → W)
    {S : Service W Req Res Err} {s : S.σ}
    (h : SafeG cfg good S s) : SafeG cfg good (Latency into C record S) s := by
  obtain ⟨I, hI⟩ := h.inv
  exact SafeInv.safe (S := Latency into C record S)
    { H := I.H, F := fun x => I.F x.2, clone_ok := I.clone_ok
      ready_ok := by
        intro s m w hs hm
        simp only [Latency, wp_bind]
        refine wp_mono (I.ready_ok s m w hs hm) ?_
        rintro ⟨p, s'⟩ w' h
        simp only [wp_pure]; exact ReadyPost.map (p := p) _ h (fun h => h) (fun h => h) id
      call_ok := by
        intro s r w hs
        simp only [Latency, wp_bind, wp_get]
        refine wp_mono (I.call_ok s r w hs) ?_
        rintro ⟨x, s'⟩ w' h
        exact h
      poll_ok := by
        intro x w hx
        simp only [Latency, wp_bind]
        refine wp_mono (I.poll_ok x.2 w hx) ?_
        rintro ⟨p, x'⟩ w' h
        match p, h with
        | .pending, h => exact h
        | .ready (.ok r), h => exact h
        | .ready (.error e), _ => trivial } hI

/-- invariant of Delay's future -/
def DelayInv {st : Bool} {S : Service W Req Res Err} (I : SafeInv ⟨true, st⟩ good S) :
    DelayFut S.σ Req (Oneshot S).φ → Prop
  | .delaying _ _ s => I.H s .idle
  | .called x => FutSafe (Oneshot S) (OkGood good) x

theorem Delay.safe {BErr : Type} {c st st' : Bool} (into : Err → BErr) (C : Clock W)
    (delay : Req → W → Nat × W) {S : Service W Req Res Err} {s : S.σ}
    (h : SafeG ⟨true, st⟩ good S s) : SafeG ⟨c, st'⟩ good (Delay into C delay S) s := by
  obtain ⟨I, hI⟩ := h.inv
  exact SafeInv.safe (cfg := ⟨c, st'⟩) (S := Delay into C delay S)
    { H := fun s _ => I.H s .idle
      F := DelayInv I
      ready_ok := by intro s m w hs hm; exact hs
      call_ok := by
        intro s r w hs
        simp only [Delay, wp_bind, wp_lift, wp_get, wp_pure]
        exact ⟨I.clone_ok rfl s .idle (by simp) hs, hs⟩
      poll_ok := by
        have key : ∀ x w, FutSafe (Oneshot S) (OkGood good) x →
            wp (do let (p, x') ← (Oneshot S).poll x
                   pure (p.map (mapErr into), DelayFut.called x'))
            (fun r _ => PollPost good (DelayInv I) r) w := by
          intro x w hx
          rw [wp_bind]
          refine wp_mono (hx.poll w) ?_
          rintro ⟨p, x'⟩ w' h
          match p, h with
          | .pending, h => exact h
          | .ready (.ok r), h => exact h
          | .ready (.error e), _ => trivial
        rintro (⟨dl, r, s⟩ | x) w hx
        · simp only [Delay]
          rw [wp_bind, wp_get]
          split
          · exact key _ w (oneshot_inv I (by simp) hx r)
          · exact hx
        · exact key x w hx
      clone_ok := by intro _ s m hm hs; exact I.clone_ok rfl s .idle (by simp) hs } hI

theorem Select.safe {st : Bool} (cloneReq : Req → W → Option Req × W) {A B : Service W Req Res Err}
    {c : Bool} {a : A.σ} {b : B.σ} (ha : SafeG ⟨c, st⟩ good A a) (hb : SafeG ⟨c, st⟩ good B b) :
    SafeG ⟨c, st⟩ good (Select cloneReq A B) (a, b) := by
  obtain ⟨I, hI⟩ := ha.inv
  obtain ⟨J, hJ⟩ := hb.inv
  exact SafeInv.safe (S := Select cloneReq A B)
    { H := fun s m => (∃ m1, m1 ≠ Mode.failed ∧ I.H s.1 m1 ∧ (m = .ready → m1 = .ready)) ∧
        (∃ m2, m2 ≠ Mode.failed ∧ J.H s.2 m2 ∧ (m = .ready → m2 = .ready))
      F := fun x => I.F x.1 ∧ (match x.2 with | some y => J.F y | none => True)
      ready_ok := by
        rintro ⟨a, b⟩ m w ⟨⟨m1, hm1, h1, hr1⟩, ⟨m2, hm2, h2, hr2⟩⟩ hm
        simp only [Select]
        rw [wp_bind]
        refine wp_mono (I.ready_ok a m1 w h1 hm1) ?_
        rintro ⟨p, a'⟩ w' hp
        rw [wp_bind]
        refine wp_mono (J.ready_ok b m2 w' h2 hm2) ?_
        rintro ⟨q, b'⟩ w'' hq
        match p, q, hp, hq with
        | .ready (.ok ()), .ready (.ok ()), hp, hq =>
          exact ⟨⟨.ready, by simp, hp, fun _ => rfl⟩, ⟨.ready, by simp, hq, fun _ => rfl⟩⟩
        | .ready (.error e), _, _, _ => trivial
        | .ready (.ok ()), .ready (.error e), _, _ => trivial
        | .pending, .ready (.error e), _, _ => trivial
        | .ready (.ok ()), .pending, hp, hq =>
          exact ⟨⟨⟨.ready, by simp, hp, by simp⟩, ⟨.idle, by simp, hq.1, by simp⟩⟩,
            fun hs hmr => hq.2 hs (hr2 hmr)⟩
        | .pending, .ready (.ok ()), hp, hq =>
          exact ⟨⟨⟨.idle, by simp, hp.1, by simp⟩, ⟨.ready, by simp, hq, by simp⟩⟩,
            fun hs hmr => hp.2 hs (hr1 hmr)⟩
        | .pending, .pending, hp, hq =>
          exact ⟨⟨⟨.idle, by simp, hp.1, by simp⟩, ⟨.idle, by simp, hq.1, by simp⟩⟩,
            fun hs hmr => hp.2 hs (hr1 hmr)⟩
      call_ok := by
        rintro ⟨a, b⟩ r w ⟨⟨m1, hm1, h1, hr1⟩, ⟨m2, hm2, h2, hr2⟩⟩
        have := hr1 rfl; subst this
        have := hr2 rfl; subst this
        simp only [Select]
        rw [wp_bind, wp_lift]
        split
        · simp only [wp_bind]
          refine wp_mono (J.call_ok b _ _ h2) ?_
          rintro ⟨y, b'⟩ w' hy
          refine wp_mono (I.call_ok a _ _ h1) ?_
          rintro ⟨x, a'⟩ w'' hx
          exact ⟨⟨hx.1, hy.1⟩, ⟨.idle, by simp, hx.2, by simp⟩, ⟨.idle, by simp, hy.2, by simp⟩⟩
        · simp only [wp_bind]
          refine wp_mono (I.call_ok a _ _ h1) ?_
          rintro ⟨x, a'⟩ w'' hx
          exact ⟨⟨hx.1, trivial⟩, ⟨.idle, by simp, hx.2, by simp⟩, ⟨.ready, by simp, h2, by simp⟩⟩
      poll_ok := by
        rintro ⟨x, y⟩ w ⟨hx, hy⟩
        simp only [Select]
        rw [wp_bind]
        refine wp_mono (I.poll_ok x w hx) ?_
        rintro ⟨p, x'⟩ w' hp
        match p, hp with
        | .ready (.ok r), hp => exact hp
        | .ready (.error e), _ => trivial
        | .pending, hp =>
          cases y with
          | none => exact ⟨hp, trivial⟩
          | some y =>
            simp only
            rw [wp_bind]
            refine wp_mono (J.poll_ok y w' hy) ?_
            rintro ⟨q, y'⟩ w'' hq
            match q, hq with
            | .ready (.ok r), hq => exact hq
            | .ready (.error e), _ => trivial
            | .pending, hq => exact ⟨hp, hq⟩
      clone_ok := by
        rintro hc ⟨a, b⟩ m hm ⟨⟨m1, hm1, h1, _⟩, ⟨m2, hm2, h2, _⟩⟩
        exact ⟨⟨.idle, by simp, I.clone_ok hc a m1 hm1 h1, by simp⟩,
          ⟨.idle, by simp, J.clone_ok hc b m2 hm2 h2, by simp⟩⟩ }
    ⟨⟨.idle, by simp, hI, by simp⟩, ⟨.idle, by simp, hJ, by simp⟩⟩

theorem hedgePredFut_safe {R BErr : Type} (o : Option R) :
    FutSafe (hedgePredFut (W := W) (Req := R) (BErr := BErr)) (fun _ => True) o := by
  intro ws
  induction ws generalizing o with
  | nil => trivial
  | cons w ws ih =>
    cases o with
    | none => exact ih none
    | some r => trivial

theorem SafeG.cloned {st : Bool} {S : Service W Req Res Err} {s : S.σ} (h : SafeG ⟨true, st⟩ good S s) :
    SafeG ⟨true, st⟩ good S (S.clone s) := by
  obtain ⟨I, hI⟩ := h.inv
  exact I.safe (I.clone_ok rfl s .idle (by simp) hI)

theorem Hedge.safe {BErr : Type} {st : Bool} (into : Err → BErr) (H : HedgeCfg W Req)
    {S : Service W Req Res Err} {s : S.σ} (h : SafeG ⟨true, st⟩ good S s) :
    SafeG ⟨false, st⟩ good (Hedge into H S) (Hedge.new S s) := by
  unfold Hedge Hedge.new
  apply Select.safe
  · exact (Latency.safe into H.clock H.record h.cloned).mono (by simp) id (fun _ => id)
  · apply Delay.safe (st := st)
    apply AsyncFilter.safe (st := st)
    · intro r w; exact hedgePredFut_safe _
    · exact Latency.safe into H.clock H.record h

end mw

end Tower
