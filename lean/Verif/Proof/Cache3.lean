import Verif.Proof.Cache2

/-! # poll_pending -/

namespace Tower
set_option linter.unusedSectionVars false
variable {W Req Res Err : Type} {K : Type} [DecidableEq K] {S : Service W Req Res Err}

theorem PollSteps.trans {E : W → W → Prop} {v v1 v2 : View K S.σ} {w w1 w2 : W} {es es'} (h : PollSteps S E v w es v1 w1)
    (h' : PollSteps S E v1 w1 es' v2 w2) : PollSteps S E v w (es ++ es') v2 w2 := by
  induction h' with
  | nil => simpa using h
  | env _ he ih => exact .env ih he
  | snoc _ he ih => rw [← List.append_assoc]; exact .snoc ih he

/-- a panic of a service -/
def SvcPanic (S : Service W Req Res Err) (m : String) : Prop := ∃ s w, (S.pollReady s).run w = .panic m

theorem upd_self {σ : Type} (f : K → Option (Nat × σ)) (k : K) (v) : View.upd f k v k = v := by simp [View.upd]
theorem upd_ne {σ : Type} (f : K → Option (Nat × σ)) {k k' : K} (v) (h : k' ≠ k) : View.upd f k v k' = f k' := by simp [View.upd, h]

/-- every waiting service satisfies `Pp`, every ready one `Pr` -/
def View.All {σ : Type} (v : View K σ) (Pp Pr : σ → Prop) : Prop := (∀ k t s, v.pend k = some (t, s) → Pp s) ∧ (∀ k t s, v.rdy k = some (t, s) → Pr s)

/-- `poll_ready` keeps this up -/
structure PollClosed (S : Service W Req Res Err) (Pp Pr : S.σ → Prop) : Prop where
  pp : ∀ {s s' w w'}, Pp s → (S.pollReady s).run w = .ok (.pending, s') w' → Pp s'
  pr : ∀ {s s' w w'}, Pp s → (S.pollReady s).run w = .ok (.ready (.ok ()), s') w' → Pr s'
  rp : ∀ {s s' w w'}, Pr s → (S.pollReady s).run w = .ok (.pending, s') w' → Pp s'
  rr : ∀ {s s' w w'}, Pr s → (S.pollReady s).run w = .ok (.ready (.ok ()), s') w' → Pr s'

theorem View.All.upd_pend {σ : Type} {f g : K → Option (Nat × σ)} {n : Nat} {Pp Pr : σ → Prop} (h : View.All ⟨f, g, n⟩ Pp Pr) {k : K} {o : Option (Nat × σ)}
    (ho : ∀ t s, o = some (t, s) → Pp s) : View.All ⟨View.upd f k o, g, n⟩ Pp Pr := by
  refine ⟨fun k' t s hx => ?_, h.2⟩
  by_cases hk : k' = k
  · subst hk; change View.upd f k' o k' = _ at hx; rw [upd_self] at hx; exact ho t s hx
  · change View.upd f k o k' = _ at hx; rw [upd_ne _ _ hk] at hx; exact h.1 k' t s hx

theorem View.All.upd_rdy {σ : Type} {f g : K → Option (Nat × σ)} {n : Nat} {Pp Pr : σ → Prop} (h : View.All ⟨f, g, n⟩ Pp Pr) {k : K} {o : Option (Nat × σ)}
    (ho : ∀ t s, o = some (t, s) → Pr s) : View.All ⟨f, View.upd g k o, n⟩ Pp Pr := by
  refine ⟨h.1, fun k' t s hx => ?_⟩
  by_cases hk : k' = k
  · subst hk; change View.upd g k' o k' = _ at hx; rw [upd_self] at hx; exact ho t s hx
  · change View.upd g k o k' = _ at hx; rw [upd_ne _ _ hk] at hx; exact h.2 k' t s hx

theorem View.All.demote {σ : Type} {v : View K σ} {Pp Pr : σ → Prop} (h : v.All Pp Pr) {k : K} {t : Nat} {s : σ} (hs : Pp s) : (v.demote k t s).All Pp Pr := by
  unfold View.demote
  apply View.All.upd_rdy _ (fun t s hx => by cases hx)
  split
  · apply View.All.upd_pend (f := v.pend) (g := v.rdy) (n := v.count) h
    intro t s hx; cases hx; exact hs
  · exact h

theorem PollSteps.all {S : Service W Req Res Err} {E : W → W → Prop} {v v' : View K S.σ} {w w' : W} {es} (h : PollSteps S E v w es v' w') {Pp Pr : S.σ → Prop}
    (hc : PollClosed S Pp Pr) (hv : v.All Pp Pr) : v'.All Pp Pr := by
  induction h with
  | nil => exact hv
  | env _ _ ih => exact ih
  | snoc hs he ih =>
    rename_i v1 _ _ _ _
    cases he with
    | still h1 h2 =>
      exact View.All.upd_pend (f := v1.pend) (g := v1.rdy) (n := v1.count) ih (fun t s hx => by cases hx; exact hc.pp (ih.1 _ _ _ h1) h2)
    | promoted h1 h2 =>
      exact View.All.upd_rdy (View.All.upd_pend (f := v1.pend) (g := v1.rdy) (n := v1.count) ih (fun t s hx => by cases hx))
        (fun t s hx => by cases hx; exact hc.pr (ih.1 _ _ _ h1) h2)
    | failed h1 h2 =>
      exact View.All.upd_pend (f := v1.pend) (g := v1.rdy) (n := v1.count) ih (fun t s hx => by cases hx)

/-- a panic of a service in a state satisfying `Pp` or `Pr` -/
def SvcPanicG (S : Service W Req Res Err) (Pp Pr : S.σ → Prop) (m : String) : Prop := ∃ s w, (Pp s ∨ Pr s) ∧ (S.pollReady s).run w = .panic m

theorem SvcPanicG.panic {Pp Pr : S.σ → Prop} {m : String} (h : SvcPanicG S Pp Pr m) : SvcPanic S m := by
  obtain ⟨s, w, _, h⟩ := h; exact ⟨s, w, h⟩

theorem PollClosed.top : PollClosed S (fun _ => True) (fun _ => True) := ⟨fun _ _ => trivial, fun _ _ => trivial, fun _ _ => trivial, fun _ _ => trivial⟩

theorem View.All.top {σ : Type} (v : View K σ) : v.All (fun _ => True) (fun _ => True) := ⟨fun _ _ _ _ => trivial, fun _ _ _ _ => trivial⟩

/-- a service does not return -/
def SvcSpin (S : Service W Req Res Err) : Prop := ∃ s w, (S.pollReady s).run w = .spin

namespace Cache

/-- the situation in which `poll_next` returns a future's output: the future polled last, and what it answered -/
def Answer (S : Service W Req Res Err) (x : List Nat) (e : PEnt K S.σ) (w1 : W) : PRes K S.σ Err → W → Prop
  | .canceled k, w' => e.rx ∈ x ∧ k = e.key ∧ w' = w1
  | .ok k s rx, w' => e.rx ∉ x ∧ k = e.key ∧ rx = e.rx ∧ (S.pollReady e.svc).run w1 = .ok (.ready (.ok ()), s) w'
  | .inner k er, w' => e.rx ∉ x ∧ k = e.key ∧ ∃ s, (S.pollReady e.svc).run w1 = .ok (.ready (.error er), s) w'

/-- key and cell of a pending future -/
def _root_.Tower.PEnt.name {σ : Type} (e : PEnt K σ) : K × Nat := (e.key, e.rx)

/-- what `poll_next` leaves -/
def NextPost (E : W → W → Prop) (c : Cache K S) (w : W) (o : List Nat) (r : Poll (Option (PRes K S.σ Err))) (p' : List (PEnt K S.σ)) (w' : W) : Prop :=
  match r with
  | .ready none => p' = [] ∧ c.pending = [] ∧ w' = w
  | .pending => ∃ es, Inv { c with pending := p' } ∧ PollSteps S E c.view w es (view { c with pending := p' }) w' ∧ p' ≠ [] ∧
      p'.map PEnt.name = c.pending.map PEnt.name ∧ (∀ ev ∈ es, ∃ k t, ev = .still k t) ∧
      (∀ i ∈ o, ∀ e, p'[i]? = some e → e.rx ∉ c.cancelled ∧ .still e.key e.rx ∈ es)
  | .ready (some v) => ∃ es l e q w1, Inv { c with pending := l ++ e :: q } ∧ PollSteps S E c.view w es (view { c with pending := l ++ e :: q }) w1 ∧
      (l ++ e :: q).length = c.pending.length ∧ (∀ ev ∈ es, ∃ k t, ev = .still k t) ∧ p' = l ++ q ∧ Answer S c.cancelled e w1 v w'

theorem entPoll_wpx {Pp Pr : S.σ → Prop} {x : List Nat} {e : PEnt K S.σ} (w : W) {Q} (hg : e.rx ∉ x → Pp e.svc) (hc : e.rx ∈ x → Q (.ready (.canceled e.key), e) w)
    (hp : e.rx ∉ x → ∀ s' w', (S.pollReady e.svc).run w = .ok (.pending, s') w' → Q (.pending, { e with svc := s' }) w')
    (ho : e.rx ∉ x → ∀ s' w', (S.pollReady e.svc).run w = .ok (.ready (.ok ()), s') w' → Q (.ready (.ok e.key s' e.rx), { e with svc := s' }) w')
    (he : e.rx ∉ x → ∀ er s' w', (S.pollReady e.svc).run w = .ok (.ready (.error er), s') w' → Q (.ready (.inner e.key er), { e with svc := s' }) w') :
    Act.wpx (SvcPanicG S Pp Pr) (SvcSpin S) (e.poll S x) Q w := by
  unfold PEnt.poll
  by_cases hx : e.rx ∈ x
  · rw [if_pos hx]; exact hc hx
  · rw [if_neg hx, Act.wpx_bind]
    refine Act.wpx_mono (Act.wpx_self (fun m hm => ⟨_, _, Or.inl (hg hx), hm⟩) (fun hm => ⟨_, _, hm⟩)) ?_
    rintro ⟨r, s'⟩ w' hr
    rcases r with _ | (er | ⟨⟩)
    · simp only [if_neg hx]; exact hp hx s' w' hr
    · exact he hx er s' w' hr
    · exact ho hx s' w' hr

theorem pollNext_wpx {E : W → W → Prop} {Pp Pr : S.σ → Prop} (hcl : PollClosed S Pp Pr) (o : List Nat) : ∀ (c : Cache K S) (w : W), c.Inv → c.view.All Pp Pr →
    Act.wpx (SvcPanicG S Pp Pr) (SvcSpin S) (pollNext S c.cancelled o c.pending) (fun a w' => NextPost E c w o a.1 a.2 w') w := by
  induction o with
  | nil =>
    intro c w h hv
    cases hp : c.pending with
    | nil => exact ⟨rfl, hp, rfl⟩
    | cons e p =>
      refine ⟨[], ?_, ?_, by simp, by simp [hp], by simp, by simp⟩
      · rw [← hp]; exact h
      · rw [← hp]; exact .nil
  | cons i is ih =>
    intro c w h hv
    cases hp : c.pending with
    | nil => exact ⟨rfl, hp, rfl⟩
    | cons e0 p0 =>
      rw [← hp]
      have hne : c.pending ≠ [] := by rw [hp]; simp
      have hun : ∀ Q, Act.wpx (SvcPanicG S Pp Pr) (SvcSpin S) (match c.pending[i]? with
          | none => pollNext S c.cancelled is c.pending
          | some e => (e.poll S c.cancelled >>= fun a => match a.1 with
            | .pending => pollNext S c.cancelled is (c.pending.set i a.2)
            | .ready v => pure (.ready (some v), c.pending.eraseIdx i))) Q w →
          Act.wpx (SvcPanicG S Pp Pr) (SvcSpin S) (pollNext S c.cancelled (i :: is) c.pending) Q w := by
        intro Q hQ
        rw [hp]
        simp only [pollNext]
        rw [← hp]
        cases hi : c.pending[i]? with
        | none => rw [hi] at hQ; exact hQ
        | some e =>
          rw [hi] at hQ
          simp only [Act.wpx_bind] at hQ ⊢
          refine Act.wpx_mono hQ ?_
          rintro ⟨r, e'⟩ w' hr
          cases r <;> exact hr
      apply hun
      cases hi : c.pending[i]? with
      | none =>
        refine Act.wpx_mono (ih c w h hv) ?_
        rintro ⟨r, p'⟩ w' hr
        unfold NextPost at hr ⊢
        rcases r with _ | (_ | v)
        · obtain ⟨es, a, b, d, f, g, j⟩ := hr
          refine ⟨es, a, b, d, f, g, ?_⟩
          intro i' hi' e he
          rcases List.mem_cons.1 hi' with rfl | hi'
          · have h1 : i' < p'.length := (List.getElem?_eq_some_iff.1 he).1
            rw [List.getElem?_eq_none_iff] at hi
            have h2 := congrArg List.length f
            simp only [List.length_map] at h2
            omega
          · exact j i' hi' e he
        · exact hr
        · exact hr
      | some e =>
        obtain ⟨l, q, hlq, hl, hset, herase⟩ := split_at hi
        have hcq : c = { c with pending := l ++ e :: q } := by rw [← hlq]
        simp only
        rw [Act.wpx_bind]
        have finish : ∀ (v : PRes K S.σ Err) w', Answer S c.cancelled e w v w' →
            NextPost E c w (i :: is) (.ready (some v)) (c.pending.eraseIdx i) w' := by
          intro v w' ha
          refine ⟨[], l, e, q, w, by rw [← hcq]; exact h, by rw [← hcq]; exact .nil, by rw [hlq], by simp, herase, ha⟩
        refine entPoll_wpx w (fun hx => hv.1 e.key e.rx e.svc (h.pend_iff.2 ⟨by rw [hlq]; simp, hx⟩)) ?_ ?_ ?_ ?_
        · intro hx
          exact finish _ _ ⟨hx, rfl, rfl⟩
        · intro hx s' w' hr
          simp only
          obtain ⟨j1, j2⟩ := setPend_spec h hlq hx s'
          rw [hset]
          have step : PollSteps S E c.view w [.still e.key e.rx] (view { c with pending := l ++ { e with svc := s' } :: q }) w' := by
            rw [j2]
            have hpe : c.view.pend e.key = some (e.rx, e.svc) := h.pend_iff.2 ⟨by rw [hlq]; simp, hx⟩
            exact .snoc (es := []) .nil (.still hpe hr)
          refine Act.wpx_mono (ih { c with pending := l ++ { e with svc := s' } :: q } w' j1 (step.all hcl hv)) ?_
          rintro ⟨r, p'⟩ w2 hr2
          have hlen : (l ++ { e with svc := s' } :: q).length = c.pending.length := by rw [hlq]; simp
          unfold NextPost at hr2 ⊢
          rcases r with _ | (_ | v)
          · obtain ⟨es, a, b, d, f, g, jj⟩ := hr2
            have hname : (l ++ { e with svc := s' } :: q).map PEnt.name = c.pending.map PEnt.name := by rw [hlq]; simp [PEnt.name]
            refine ⟨_, a, step.trans b, d, by rw [f]; exact hname, ?_, ?_⟩
            · intro ev hev
              rcases List.mem_append.1 hev with hev | hev
              · simp only [List.mem_singleton] at hev; exact ⟨_, _, hev⟩
              · exact g ev hev
            · intro i' hi' e2 he2
              rcases List.mem_cons.1 hi' with rfl | hi'
              · have hn : e2.name = e.name := by
                  have h1 : (p'.map PEnt.name)[i']? = some e2.name := by rw [List.getElem?_map, he2]; rfl
                  have h2 : (c.pending.map PEnt.name)[i']? = some e.name := by rw [List.getElem?_map, hi]; rfl
                  rw [f.trans hname, h2] at h1
                  exact (Option.some.inj h1).symm
                simp only [PEnt.name, Prod.mk.injEq] at hn
                rw [hn.1, hn.2]
                exact ⟨hx, by simp⟩
              · obtain ⟨h1, h2⟩ := jj i' hi' e2 he2
                exact ⟨h1, List.mem_append.2 (Or.inr h2)⟩
          · obtain ⟨a, b, d⟩ := hr2
            simp at b
          · obtain ⟨es, l', e', q', w1, a, b, d, f, g, j⟩ := hr2
            refine ⟨_, l', e', q', w1, a, step.trans b, by rw [d]; exact hlen, ?_, g, j⟩
            intro ev hev
            rcases List.mem_append.1 hev with hev | hev
            · simp only [List.mem_singleton] at hev; exact ⟨_, _, hev⟩
            · exact f ev hev
        · intro hx s' w' hr
          exact finish _ _ ⟨hx, rfl, rfl, hr⟩
        · intro hx er s' w' hr
          exact finish _ _ ⟨hx, rfl, s', hr⟩

end Cache
end Tower
