import Verif.Core

/-!
# The `Service` contract as a property of traces

`tower-service/src/lib.rs:322-352`: "Once `poll_ready` returns `Poll::Ready(Ok(()))`, a request may be
dispatched to the service using `call`. Until a request is dispatched, repeated calls to `poll_ready`
must return either `Poll::Ready(Ok(()))` or `Poll::Ready(Err(_))`", "If `Poll::Ready(Err(_))` is
returned, the service is no longer able to service requests", "Implementations are permitted to panic
if `call` is invoked without obtaining `Poll::Ready(Ok(()))`".
-/

namespace Tower

/-- What a caller knows about a handle. -/
inductive Mode where
  | idle    -- `call` not allowed
  | ready   -- the latest `poll_ready` since the last `call` returned `Ready(Ok(()))`
  | failed  -- `poll_ready` returned an error
  deriving DecidableEq, Repr

/-- What variant of the contract is considered. -/
structure Cfg where
  /-- handles may be cloned -/
  clone : Bool
  /-- `poll_ready` must not return `Pending` in ready mode -/
  sticky : Bool

/-- One operation of a caller; the world in which it runs is arbitrary and chosen by the environment. -/
inductive Op (W Req : Type) where
  | ready (h : Nat) (w : W)
  | call (h : Nat) (r : Req) (w : W)
  | poll (f : Nat) (w : W)
  | clone (h : Nat)

/-- All handles and futures that a caller holds. A finished future is `none`. -/
structure Sess {W Req Res Err : Type} (S : Service W Req Res Err) where
  hs : List (S.σ × Mode)
  fs : List (Option S.φ)

/-- Verdict on one operation. -/
inductive Step (α : Type) where
  | next (a : α)
  | illegal    -- the caller broke the contract (or named a nonexistent handle)
  | stop       -- the code did not return within the fuel of its model
  | violated   -- the service panicked, or broke stickiness

variable {W Req Res Err : Type}

open Classical in
/-- Execute one caller operation. -/
noncomputable def Sess.step (cfg : Cfg) (good : Res → Prop) (S : Service W Req Res Err) (x : Sess S) :
    Op W Req → Step (Sess S)
  | .ready h w =>
    match x.hs[h]? with
    | none => .illegal
    | some (_, .failed) => .illegal
    | some (s, m) =>
      match (S.pollReady s).run w with
      | .panic _ => .violated
      | .spin => .stop
      | .ok (.ready (.ok ()), s') _ => .next { x with hs := x.hs.set h (s', .ready) }
      | .ok (.ready (.error _), s') _ => .next { x with hs := x.hs.set h (s', .failed) }
      | .ok (.pending, s') _ =>
        if cfg.sticky = true ∧ m = .ready then .violated
        else .next { x with hs := x.hs.set h (s', .idle) }
  | .call h r w =>
    match x.hs[h]? with
    | some (s, .ready) =>
      match (S.call s r).run w with
      | .panic _ => .violated
      | .spin => .stop
      | .ok (f, s') _ => .next { hs := x.hs.set h (s', .idle), fs := x.fs ++ [some f] }
    | _ => .illegal
  | .poll i w =>
    match x.fs[i]? with
    | some (some f) =>
      match (S.poll f).run w with
      | .panic _ => .violated
      | .spin => .stop
      | .ok (.pending, f') _ => .next { x with fs := x.fs.set i (some f') }
      | .ok (.ready (.ok r), _) _ =>
        if good r then .next { x with fs := x.fs.set i none } else .violated
      | .ok (.ready (.error _), _) _ => .next { x with fs := x.fs.set i none }
    | _ => .illegal
  | .clone h =>
    match x.hs[h]? with
    | none => .illegal
    | some (_, .failed) => .illegal
    | some (s, _) =>
      if cfg.clone = true then .next { x with hs := x.hs ++ [(S.clone s, .idle)] } else .illegal

/-- No operation sequence leads to a violation. -/
def Sess.Safe (cfg : Cfg) (good : Res → Prop) (S : Service W Req Res Err) : Sess S → List (Op W Req) → Prop
  | _, [] => True
  | x, op :: ops =>
    match x.step cfg good S op with
    | .next x' => Sess.Safe cfg good S x' ops
    | .illegal => True
    | .stop => True
    | .violated => False

/-- **The contract**: whatever a contract-abiding caller does, starting from one fresh handle `s`, and
whatever the environment does, the service never panics (and is sticky if `cfg.sticky`); and each
response it gives satisfies `good` (for services that make services: the made service keeps its own
contract). -/
def SafeG (cfg : Cfg) (good : Res → Prop) (S : Service W Req Res Err) (s : S.σ) : Prop :=
  ∀ ops, Sess.Safe cfg good S ⟨[(s, .idle)], []⟩ ops

/-- The contract with nothing demanded of responses. -/
def Safe (cfg : Cfg) (S : Service W Req Res Err) (s : S.σ) : Prop := SafeG cfg (fun _ => True) S s

/-! ## Invariants: the proof device -/

/-- What an invariant must give after `poll_ready` in mode `m`. -/
def ReadyPost {σ : Type} (cfg : Cfg) (m : Mode) (H : σ → Mode → Prop) :
    Poll (Except Err Unit) × σ → Prop
  | (.ready (.ok ()), s') => H s' .ready
  | (.ready (.error _), _) => True
  | (.pending, s') => H s' .idle ∧ (cfg.sticky = true → m ≠ .ready)

/-- What an invariant must give after polling a response future. -/
def PollPost {φ : Type} (good : Res → Prop) (F : φ → Prop) : Poll (Except Err Res) × φ → Prop
  | (.pending, f') => F f'
  | (.ready (.ok r), _) => good r
  | (.ready (.error _), _) => True

theorem ReadyPost.map {σ σ' E E' : Type} {cfg : Cfg} {m m' : Mode} {H : σ → Mode → Prop}
    {H' : σ' → Mode → Prop} {p : Poll (Except E Unit)} {s : σ} {s' : σ'} (f : E → E')
    (h : ReadyPost cfg m H (p, s)) (hr : H s .ready → H' s' .ready) (hi : H s .idle → H' s' .idle)
    (hm : m' = .ready → m = .ready) :
    ReadyPost cfg m' H' (p.map (mapErr f), s') := by
  match p, h with
  | .pending, h => exact ⟨hi h.1, fun hs hm' => h.2 hs (hm hm')⟩
  | .ready (.ok ()), h => exact hr h
  | .ready (.error e), _ => trivial

theorem ReadyPost.imp {σ σ' E : Type} {cfg : Cfg} {m m' : Mode} {H : σ → Mode → Prop}
    {H' : σ' → Mode → Prop} {p : Poll (Except E Unit)} {s : σ} {s' : σ'}
    (h : ReadyPost cfg m H (p, s)) (hr : H s .ready → H' s' .ready) (hi : H s .idle → H' s' .idle)
    (hm : m' = .ready → m = .ready) :
    ReadyPost cfg m' H' (p, s') := by
  match p, h with
  | .pending, h => exact ⟨hi h.1, fun hs hm' => h.2 hs (hm hm')⟩
  | .ready (.ok ()), h => exact hr h
  | .ready (.error e), _ => trivial

theorem PollPost.map {φ φ' E E' : Type} {good : Res → Prop} {F : φ → Prop} {F' : φ' → Prop}
    {p : Poll (Except E Res)} {x : φ} {x' : φ'} (f : E → E')
    (h : PollPost good F (p, x)) (hf : F x → F' x') : PollPost good F' (p.map (mapErr f), x') := by
  match p, h with
  | .pending, h => exact hf h
  | .ready (.ok r), h => exact h
  | .ready (.error e), _ => trivial

theorem PollPost.imp {φ φ' E : Type} {good : Res → Prop} {F : φ → Prop} {F' : φ' → Prop}
    {p : Poll (Except E Res)} {x : φ} {x' : φ'}
    (h : PollPost good F (p, x)) (hf : F x → F' x') : PollPost good F' (p, x') := by
  match p, h with
  | .pending, h => exact hf h
  | .ready (.ok r), h => exact h
  | .ready (.error e), _ => trivial

/-- A world-independent inductive invariant for handles (`H`, by caller's mode) and futures (`F`). -/
structure SafeInv (cfg : Cfg) (good : Res → Prop) (S : Service W Req Res Err) where
  H : S.σ → Mode → Prop
  F : S.φ → Prop
  ready_ok : ∀ s m w, H s m → m ≠ .failed → Act.wp (S.pollReady s) (fun r _ => ReadyPost cfg m H r) w
  call_ok : ∀ s r w, H s .ready → Act.wp (S.call s r) (fun x _ => F x.1 ∧ H x.2 .idle) w
  poll_ok : ∀ f w, F f → Act.wp (S.poll f) (fun r _ => PollPost good F r) w
  clone_ok : cfg.clone = true → ∀ s m, m ≠ .failed → H s m → H (S.clone s) .idle

namespace SafeInv
variable {cfg : Cfg} {good : Res → Prop} {S : Service W Req Res Err}

/-- session invariant -/
def Holds (I : SafeInv cfg good S) (x : Sess S) : Prop :=
  (∀ h ∈ x.hs, h.2 ≠ Mode.failed → I.H h.1 h.2) ∧ (∀ f, some f ∈ x.fs → I.F f)

theorem safe_of_holds (I : SafeInv cfg good S) (ops : List (Op W Req)) :
    ∀ x, I.Holds x → Sess.Safe cfg good S x ops := by
  induction ops with
  | nil => intro x _; trivial
  | cons op ops ih =>
    intro x hx
    unfold Sess.Safe
    cases op with
    | ready h w =>
      simp only [Sess.step]
      split
      · rename_i x' heq
        split at heq
        · cases heq
        · cases heq
        · rename_i s m hnf hget
          have hmem : (s, m) ∈ x.hs := List.mem_of_getElem? hget
          have hm : m ≠ .failed := by
            intro hm; subst hm; exact hnf rfl
          have hH := I.ready_ok s m w (hx.1 _ hmem hm) hm
          unfold Act.wp at hH
          apply ih
          split at heq <;> try (cases heq; done)
          all_goals (rename_i hrun; simp only [hrun, ReadyPost] at hH)
          · cases heq
            refine ⟨fun h' hh' hf => ?_, hx.2⟩
            rcases List.mem_or_eq_of_mem_set hh' with hh' | hh'
            · exact hx.1 _ hh' hf
            · subst hh'; exact hH
          · cases heq
            refine ⟨fun h' hh' hf => ?_, hx.2⟩
            rcases List.mem_or_eq_of_mem_set hh' with hh' | hh'
            · exact hx.1 _ hh' hf
            · subst hh'; exact absurd rfl hf
          · split at heq
            · cases heq
            · cases heq
              refine ⟨fun h' hh' hf => ?_, hx.2⟩
              rcases List.mem_or_eq_of_mem_set hh' with hh' | hh'
              · exact hx.1 _ hh' hf
              · subst hh'; exact hH.1
      · trivial
      · trivial
      · rename_i heq
        split at heq
        · cases heq
        · cases heq
        · rename_i s m hnf hget
          have hmem : (s, m) ∈ x.hs := List.mem_of_getElem? hget
          have hm : m ≠ .failed := by
            intro hm; subst hm; exact hnf rfl
          have hH := I.ready_ok s m w (hx.1 _ hmem hm) hm
          unfold Act.wp at hH
          split at heq <;> try (cases heq; done)
          all_goals (rename_i hrun; simp only [hrun, ReadyPost] at hH)
          split at heq
          · rename_i hs; exact hH.2 hs.1 hs.2
          · cases heq
    | call h r w =>
      simp only [Sess.step]
      split
      · rename_i x' heq
        split at heq
        · rename_i s hget
          have hH := I.call_ok s r w (hx.1 _ (List.mem_of_getElem? hget) (by simp))
          unfold Act.wp at hH
          apply ih
          split at heq <;> try (cases heq; done)
          rename_i hrun
          simp only [hrun] at hH
          cases heq
          refine ⟨fun h' hh' hf => ?_, fun f hf => ?_⟩
          · rcases List.mem_or_eq_of_mem_set hh' with hh' | hh'
            · exact hx.1 _ hh' hf
            · subst hh'; exact hH.2
          · simp only [List.mem_append, List.mem_singleton, Option.some.injEq] at hf
            rcases hf with hf | hf
            · exact hx.2 _ hf
            · subst hf; exact hH.1
        · cases heq
      · trivial
      · trivial
      · rename_i heq
        split at heq
        · rename_i s hget
          have hH := I.call_ok s r w (hx.1 _ (List.mem_of_getElem? hget) (by simp))
          unfold Act.wp at hH
          split at heq <;> try (cases heq; done)
          rename_i hrun
          simp only [hrun] at hH
        · cases heq
    | poll i w =>
      have key : ∀ y, x.step cfg good S (.poll i w) = y →
          (∀ x', y = .next x' → I.Holds x') ∧ y ≠ .violated := by
        intro y hy
        simp only [Sess.step] at hy
        split at hy
        · rename_i f hget
          have hF := I.poll_ok f w (hx.2 _ (List.mem_of_getElem? hget))
          unfold Act.wp at hF
          have hset : ∀ o : Option S.φ, (∀ g, o = some g → I.F g) →
              I.Holds { x with fs := x.fs.set i o } := by
            intro o ho
            refine ⟨hx.1, fun g hg => ?_⟩
            rcases List.mem_or_eq_of_mem_set hg with hg | hg
            · exact hx.2 _ hg
            · exact ho g hg.symm
          split at hy <;> (rename_i hrun; simp only [hrun, PollPost] at hF)
          · subst hy; simp
          · subst hy
            refine ⟨fun x' h => ?_, by simp⟩
            cases h
            exact hset _ (by intro g hg; cases hg; exact hF)
          · rw [if_pos hF] at hy
            subst hy
            refine ⟨fun x' h => ?_, by simp⟩
            cases h
            exact hset _ (by simp)
          · subst hy
            refine ⟨fun x' h => ?_, by simp⟩
            cases h
            exact hset _ (by simp)
        · subst hy; simp
      have hk := key _ rfl
      split
      · rename_i x' heq
        exact ih _ (hk.1 _ heq)
      · trivial
      · trivial
      · rename_i heq
        exact hk.2 heq
    | clone h =>
      simp only [Sess.step]
      split
      · rename_i x' heq
        split at heq
        · cases heq
        · cases heq
        · rename_i s m hnf hget
          split at heq
          · rename_i hc
            cases heq
            apply ih
            have hm : m ≠ .failed := by
              intro hm; subst hm; exact hnf rfl
            refine ⟨fun h' hh' hf => ?_, hx.2⟩
            simp only [List.mem_append, List.mem_singleton] at hh'
            rcases hh' with hh' | hh'
            · exact hx.1 _ hh' hf
            · subst hh'
              exact I.clone_ok hc s m hm (hx.1 _ (List.mem_of_getElem? hget) hm)
          · cases heq
      · trivial
      · trivial
      · rename_i heq
        split at heq
        · cases heq
        · cases heq
        · split at heq <;> cases heq

theorem safe (I : SafeInv cfg good S) {s : S.σ} (h : I.H s .idle) : SafeG cfg good S s := fun ops =>
  I.safe_of_holds ops _ ⟨by simpa using h, by simp⟩

end SafeInv

/-- A session all of whose futures are safe. -/
private def AllSafe (cfg : Cfg) (good : Res → Prop) (S : Service W Req Res Err) (x : Sess S) : Prop :=
  ∀ ops, Sess.Safe cfg good S x ops

private theorem AllSafe.next {cfg : Cfg} {good : Res → Prop} {S : Service W Req Res Err} {x y : Sess S} (h : AllSafe cfg good S x)
    {op : Op W Req} (hs : x.step cfg good S op = .next y) : AllSafe cfg good S y := fun ops => by
  have := h (op :: ops)
  simpa [Sess.Safe, hs] using this

private theorem AllSafe.ok {cfg : Cfg} {good : Res → Prop} {S : Service W Req Res Err} {x : Sess S} (h : AllSafe cfg good S x)
    {op : Op W Req} (hs : x.step cfg good S op = .violated) : False := by
  have := h [op]
  simp [Sess.Safe, hs] at this

/-- The strongest invariant: components of sessions none of whose futures is violated. -/
def SafeInv.canonical (cfg : Cfg) (good : Res → Prop) (S : Service W Req Res Err) : SafeInv cfg good S where
  H s m := ∃ (x : Sess S) (i : Nat), x.hs[i]? = some (s, m) ∧ ∀ ops, Sess.Safe cfg good S x ops
  F f := ∃ (x : Sess S) (i : Nat), x.fs[i]? = some (some f) ∧ ∀ ops, Sess.Safe cfg good S x ops
  ready_ok := by
    rintro s m w ⟨x, i, hi, hx⟩ hm
    have hlt : i < x.hs.length := (List.getElem?_eq_some_iff.mp hi).1
    have hv : x.step cfg good S (.ready i w) ≠ .violated := fun h => AllSafe.ok hx h
    have hn : ∀ y, x.step cfg good S (.ready i w) = .next y → AllSafe cfg good S y := fun y h => AllSafe.next hx h
    unfold Act.wp
    cases m with
    | failed => exact absurd rfl hm
    | idle =>
      simp only [Sess.step, hi] at hv hn
      cases hrun : (S.pollReady s).run w with
      | panic msg => simp [hrun] at hv
      | spin => trivial
      | ok r w' =>
        obtain ⟨p, s'⟩ := r
        match p with
        | .pending =>
          simp [hrun] at hn
          exact ⟨⟨_, i, by simp [hlt], hn⟩, by simp⟩
        | .ready (.ok ()) =>
          simp [hrun] at hn
          exact ⟨_, i, by simp [hlt], hn⟩
        | .ready (.error e) => trivial
    | ready =>
      simp only [Sess.step, hi] at hv hn
      cases hrun : (S.pollReady s).run w with
      | panic msg => simp [hrun] at hv
      | spin => trivial
      | ok r w' =>
        obtain ⟨p, s'⟩ := r
        match p with
        | .pending =>
          by_cases hst : cfg.sticky = true
          · simp [hrun, hst] at hv
          · simp [hrun, hst] at hn
            exact ⟨⟨_, i, by simp [hlt], hn⟩, fun h => absurd h hst⟩
        | .ready (.ok ()) =>
          simp [hrun] at hn
          exact ⟨_, i, by simp [hlt], hn⟩
        | .ready (.error e) => trivial
  call_ok := by
    rintro s r w ⟨x, i, hi, hx⟩
    have hlt : i < x.hs.length := (List.getElem?_eq_some_iff.mp hi).1
    have hv : x.step cfg good S (.call i r w) ≠ .violated := fun h => AllSafe.ok hx h
    have hn : ∀ y, x.step cfg good S (.call i r w) = .next y → AllSafe cfg good S y := fun y h => AllSafe.next hx h
    simp only [Sess.step, hi] at hv hn
    unfold Act.wp
    cases hrun : (S.call s r).run w with
    | panic msg => simp [hrun] at hv
    | spin => trivial
    | ok r w' =>
      simp [hrun] at hn
      exact ⟨⟨_, x.fs.length, by simp, hn⟩, ⟨_, i, by simp [hlt], hn⟩⟩
  poll_ok := by
    rintro f w ⟨x, i, hi, hx⟩
    have hlt : i < x.fs.length := (List.getElem?_eq_some_iff.mp hi).1
    have hv : x.step cfg good S (.poll i w) ≠ .violated := fun h => AllSafe.ok hx h
    have hn : ∀ y, x.step cfg good S (.poll i w) = .next y → AllSafe cfg good S y := fun y h => AllSafe.next hx h
    simp only [Sess.step, hi] at hv hn
    unfold Act.wp
    cases hrun : (S.poll f).run w with
    | panic msg => simp [hrun] at hv
    | spin => trivial
    | ok r w' =>
      obtain ⟨p, f'⟩ := r
      cases p with
      | pending =>
        simp [hrun] at hn
        exact ⟨_, i, by simp [hlt], hn⟩
      | ready a =>
        cases a with
        | error e => trivial
        | ok a =>
          by_cases hg : good a
          · exact hg
          · simp [hrun, hg] at hv
  clone_ok := by
    rintro hc s m hm ⟨x, i, hi, hx⟩
    have hn : ∀ y, x.step cfg good S (.clone i) = .next y → AllSafe cfg good S y := fun y h => AllSafe.next hx h
    cases m with
    | failed => exact absurd rfl hm
    | idle =>
      simp [Sess.step, hi, hc] at hn
      exact ⟨_, x.hs.length, by simp, hn⟩
    | ready =>
      simp [Sess.step, hi, hc] at hn
      exact ⟨_, x.hs.length, by simp, hn⟩

/-- The trace property and the existence of an invariant are the same thing. -/
theorem safe_iff_inv {cfg : Cfg} {good : Res → Prop} {S : Service W Req Res Err} {s : S.σ} :
    SafeG cfg good S s ↔ ∃ I : SafeInv cfg good S, I.H s .idle :=
  ⟨fun h => ⟨SafeInv.canonical cfg good S, ⟨⟨[(s, .idle)], []⟩, 0, rfl, h⟩⟩, fun ⟨I, h⟩ => I.safe h⟩

theorem SafeG.inv {cfg : Cfg} {good : Res → Prop} {S : Service W Req Res Err} {s : S.σ}
    (h : SafeG cfg good S s) : ∃ I : SafeInv cfg good S, I.H s .idle := safe_iff_inv.mp h

/-- Asking less: no clones, no stickiness, a weaker predicate on responses. -/
theorem SafeG.mono {c c' st st' : Bool} {good good' : Res → Prop} {S : Service W Req Res Err} {s : S.σ}
    (h : SafeG ⟨c, st⟩ good S s) (hc : c' = true → c = true) (hst : st' = true → st = true)
    (hg : ∀ r, good r → good' r) : SafeG ⟨c', st'⟩ good' S s := by
  obtain ⟨I, hI⟩ := h.inv
  refine SafeInv.safe (cfg := ⟨c', st'⟩)
    { H := I.H, F := I.F, ready_ok := ?_, call_ok := I.call_ok, poll_ok := ?_, clone_ok := ?_ } hI
  · intro s m w hs hm
    refine Act.wp_mono (I.ready_ok s m w hs hm) ?_
    rintro ⟨p, s'⟩ w' h
    match p, h with
    | .pending, h => exact ⟨h.1, fun hh => h.2 (hst hh)⟩
    | .ready (.ok ()), h => exact h
    | .ready (.error e), _ => trivial
  · intro f w hf
    refine Act.wp_mono (I.poll_ok f w hf) ?_
    rintro ⟨p, s'⟩ w' h
    match p, h with
    | .pending, h => exact h
    | .ready (.ok r), h => exact hg r h
    | .ready (.error e), _ => trivial
  · intro hcc; exact I.clone_ok (hc hcc)

theorem SafeG.toSafe {cfg : Cfg} {good : Res → Prop} {S : Service W Req Res Err} {s : S.σ}
    (h : SafeG cfg good S s) : Safe cfg S s :=
  SafeG.mono (c := cfg.clone) (st := cfg.sticky) h id id (fun _ _ => trivial)

/-! ## Plain futures -/

/-- A future keeps its contract: polled (in arbitrary worlds) until it is ready, it never panics and
its output satisfies `good`. -/
def Fut.Safe {α : Type} (F : Fut W α) (good : α → Prop) : F.φ → List W → Prop
  | _, [] => True
  | f, w :: ws => Act.wp (F.poll f) (fun r _ =>
      match r with
      | (.pending, f') => Fut.Safe F good f' ws
      | (.ready a, _) => good a) w

/-- `f` keeps the future contract on every schedule. -/
def FutSafe {α : Type} (F : Fut W α) (good : α → Prop) (f : F.φ) : Prop := ∀ ws, Fut.Safe F good f ws

theorem FutSafe.poll {α : Type} {F : Fut W α} {good : α → Prop} {f : F.φ} (h : FutSafe F good f) (w : W) :
    Act.wp (F.poll f) (fun r _ =>
      match r with
      | (.pending, f') => FutSafe F good f'
      | (.ready a, _) => good a) w := by
  have h1 := h [w]
  have h2 := fun ws => h (w :: ws)
  simp only [Fut.Safe] at h1 h2
  unfold Act.wp at *
  cases hr : (F.poll f).run w with
  | panic m => simp [hr] at h1
  | spin => trivial
  | ok r w' =>
    obtain ⟨p, f'⟩ := r
    simp only [hr] at h1 h2
    cases p with
    | pending => exact fun ws => h2 ws
    | ready a => exact h1

end Tower
