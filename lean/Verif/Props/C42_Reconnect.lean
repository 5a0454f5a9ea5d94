import Verif.Model.Middleware
import Verif.Spec.Trace
import Verif.Contract

/-! # C42, C43: Reconnect

The maker and the connections are watched: each of their operations appends an event to a log (kept next to
the world). Connections are numbered in the order in which they are established. -/

set_option linter.unusedSimpArgs false

namespace Tower
open Act
variable {W Tgt Req Res E1 E2 : Type}

/-! ## Specification -/

/-- What Reconnect does to its maker and its connections. -/
inductive REv (E1 : Type) where
  /-- the maker's `poll_ready` returned `Ready(Ok)` (true), or anything else -/
  | maker (ok : Bool)
  /-- a connection attempt is started: the maker's `call` -/
  | attempt
  /-- the attempt succeeded: connection `n` exists -/
  | connected (n : Nat)
  /-- the attempt failed -/
  | failed (e : E1)
  /-- `poll_ready` of connection `n`: `Ready(Ok)` (true) or `Pending` -/
  | connReady (n : Nat) (ok : Bool)
  /-- `poll_ready` of connection `n` failed -/
  | connLost (n : Nat)
  /-- a request is dispatched to connection `n` -/
  | connCall (n : Nat)
  deriving DecidableEq

/-- Where the lifecycle stands. -/
inductive RPhase where
  /-- no connection; `ready`: the maker's latest `poll_ready` succeeded -/
  | idle (ready : Bool)
  | connecting
  /-- connection `n` is the only one; `ready`: its latest `poll_ready` succeeded, no request since -/
  | conn (n : Nat) (ready : Bool)
  deriving DecidableEq

/-- The allowed lifecycle; `none` is a violation. The number is that of the next connection. -/
def rstep : Option (Nat × RPhase) → REv E1 → Option (Nat × RPhase)
  | some (n, .idle _), .maker ok => some (n, .idle ok)
  | some (n, .idle true), .attempt => some (n, .connecting)
  | some (n, .connecting), .connected m => if m = n then some (n + 1, .conn n false) else none
  | some (n, .connecting), .failed _ => some (n, .idle false)
  | some (n, .conn m _), .connReady m' ok => if m' = m then some (n, .conn m ok) else none
  | some (n, .conn m _), .connLost m' => if m' = m then some (n, .idle false) else none
  | some (n, .conn m true), .connCall m' => if m' = m then some (n, .conn m false) else none
  | _, _ => none

/-- The lifecycle after a log, starting without a connection. -/
def rphase (log : List (REv E1)) : Option (Nat × RPhase) := log.foldl rstep (some (0, .idle false))

/-- The errors of the failed attempts, in order. -/
def failures (log : List (REv E1)) : List E1 :=
  log.filterMap (fun e => match e with | .failed e => some e | _ => none)

/-- The connections established so far. -/
def connections (log : List (REv E1)) : Nat := (log.filter (fun e => match e with | .connected _ => true | _ => false)).length

/-- Run code of the maker or a connection, and log: `k` sees the result and the log. -/
def Act.logged {α β : Type} (x : Act W α) (k : α → List (REv E1) → β × List (REv E1)) :
    Act (W × List (REv E1)) β :=
  ⟨fun w => match x.run w.1 with
    | .ok a w' => .ok (k a w.2).1 (w', w.2 ++ (k a w.2).2)
    | .panic m => .panic m
    | .spin => .spin⟩

/-- A watched connection: it carries its number. -/
@[reducible] def watchConn (E1 : Type) (S : Service W Req Res E2) : Service (W × List (REv E1)) Req Res E2 where
  σ := Nat × S.σ
  φ := S.φ
  pollReady s := (S.pollReady s.2).logged (fun x _ =>
    ((x.1, (s.1, x.2)), match x.1 with
      | .ready (.ok ()) => [.connReady s.1 true]
      | .pending => [.connReady s.1 false]
      | .ready (.error _) => [.connLost s.1]))
  call s r := (S.call s.2 r).logged (fun x _ => ((x.1, (s.1, x.2)), [.connCall s.1]))
  poll f := (S.poll f).logged (fun x _ => (x, []))
  clone := id

/-- A watched maker: it numbers the connections it makes. -/
@[reducible] def watchMaker (S : Service W Req Res E2) (M : Service W Tgt S.σ E1) :
    Service (W × List (REv E1)) Tgt (watchConn E1 S).σ E1 where
  σ := M.σ
  φ := M.φ
  pollReady s := (M.pollReady s).logged (fun x _ =>
    (x, match x.1 with
      | .ready (.ok ()) => [.maker true]
      | _ => [.maker false]))
  call s t := (M.call s t).logged (fun x _ => (x, [.attempt]))
  poll f := (M.poll f).logged (fun x log =>
    match x.1 with
    | .pending => ((.pending, x.2), [])
    | .ready (.ok s) => ((.ready (.ok (connections log, s)), x.2), [.connected (connections log)])
    | .ready (.error e) => ((.ready (.error e), x.2), [.failed e]))
  clone := id

/-- Reconnect over watched parts. -/
abbrev watched (fuel : Nat) (S : Service W Req Res E2) (M : Service W Tgt S.σ E1) (t : Tgt) :
    Service (W × List (REv E1)) Req Res (ReconErr E1 E2) :=
  Reconnect fuel (watchConn E1 S) (watchMaker S M) t

/-- The error that a response future of Reconnect reports on behalf of a connection attempt. -/
def reportOf {F : Type} : F ⊕ Option E1 → List E1
  | .inr (some e) => [e]
  | _ => []

/-- Histories of a Reconnect under a contract-abiding caller: current state, log, the caller's mode, and the
connect errors handed to response futures so far. With `strict`, the caller does not poll readiness again once
it has `Ready(Ok)`, but calls. -/
inductive ReconHist (strict : Bool) (fuel : Nat) (S : Service W Req Res E2) (M : Service W Tgt S.σ E1) (t : Tgt) :
    (watched fuel S M t).σ → List (REv E1) → Mode → List E1 → Prop
  | new (mk : M.σ) : ReconHist strict fuel S M t (Reconnect.new (M := (watchMaker S M).σ) mk) [] .idle []
  /-- `with_connection`: connection 0 was made by somebody else, recorded as if by an attempt -/
  | with_connection (conn : S.σ) (mk : M.σ) : ReconHist strict fuel S M t
      (Reconnect.withConnection (M := (watchMaker S M).σ) (S := Nat × S.σ) (0, conn) mk)
      [.maker true, .attempt, .connected 0] .idle []
  | ready {x log m rep w p x' w' log'} : ReconHist strict fuel S M t x log m rep → m ≠ .failed →
      (strict = true → m ≠ .ready) →
      ((watched fuel S M t).pollReady x).run (w, log) = .ok (p, x') (w', log') →
      ReconHist strict fuel S M t x' log'
        (match p with | .ready (.ok ()) => .ready | .pending => .idle | .ready (.error _) => .failed) rep
  | call {x log rep r w f x' w' log'} : ReconHist strict fuel S M t x log .ready rep →
      ((watched fuel S M t).call x r).run (w, log) = .ok (f, x') (w', log') →
      ReconHist strict fuel S M t x' log' .idle (rep ++ reportOf f)

/-! ## Proofs -/

/-- the code's state agrees with the lifecycle -/
def RAgree {M F S E : Type} (x : ReconState M F (Nat × S) E) (log : List (REv E)) : Prop :=
  match x.st with
  | .idle => ∃ b, rphase log = some (connections log, .idle b)
  | .connecting _ => rphase log = some (connections log, .connecting)
  | .connected s => ∃ b, rphase log = some (connections log, .conn s.1 b)

theorem rphase_snoc (log : List (REv E1)) (e : REv E1) : rphase (log ++ [e]) = rstep (rphase log) e := by
  simp [rphase]

theorem connections_snoc (log : List (REv E1)) (e : REv E1) (h : ∀ n, e ≠ .connected n) :
    connections (log ++ [e]) = connections log := by
  cases e <;> simp_all [connections]

theorem connections_connected (log : List (REv E1)) (n : Nat) :
    connections (log ++ [.connected n]) = connections log + 1 := by
  simp [connections]

theorem failures_snoc (log : List (REv E1)) (e : REv E1) (h : ∀ n, e ≠ .failed n) :
    failures (log ++ [e]) = failures log := by
  cases e <;> simp_all [failures]

theorem failures_failed (log : List (REv E1)) (e : E1) : failures (log ++ [.failed e]) = failures log ++ [e] := by
  simp [failures]

/-- what holds when `poll_ready` returns -/
structure ReadyPost' {M F S E : Type} (x0 : ReconState M F (Nat × S) E) (log0 : List (REv E))
    (p : Poll (Except (ReconErr E E2) Unit))
    (x : ReconState M F (Nat × S) E) (log : List (REv E)) : Prop where
  agree : RAgree x log
  usable : p = .ready (.ok ()) → x.error = none → ∃ s, x.st = .connected s ∧ rphase log = some (connections log, .conn s.1 true)
  /-- either nothing failed, or exactly one attempt failed, its error is the pending one -/
  fails : (failures log = failures log0 ∧ x.error = x0.error) ∨
    (∃ e, failures log = failures log0 ++ [e] ∧ x.error = some e ∧ p = .ready (.ok ()))

theorem watched_idle (S : Service W Req Res E2) (M : Service W Tgt S.σ E1) (t : Tgt) (n : Nat) (mk : M.σ)
    (err : Option E1) (w : W) (log : List (REv E1)) :
    (reconPoll (watchConn E1 S) (watchMaker S M) t (n + 1) ⟨mk, .idle, err⟩).run (w, log) =
    match (M.pollReady mk).run w with
    | .panic m => .panic m
    | .spin => .spin
    | .ok (.pending, m) w1 => .ok (.pending, ⟨m, .idle, err⟩) (w1, log ++ [.maker false])
    | .ok (.ready (.error e), m) w1 => .ok (.ready (.error (.make e)), ⟨m, .idle, err⟩) (w1, log ++ [.maker false])
    | .ok (.ready (.ok ()), m) w1 =>
      match (M.call m t).run w1 with
      | .panic m => .panic m
      | .spin => .spin
      | .ok (f, m') w2 => (reconPoll (watchConn E1 S) (watchMaker S M) t n ⟨m', .connecting f, err⟩).run
          (w2, log ++ [.maker true] ++ [.attempt]) := by
  rw [reconPoll, run_bind]
  simp only [Act.logged]
  cases (M.pollReady mk).run w with
  | panic m => rfl
  | spin => rfl
  | ok a w1 =>
    obtain ⟨q, m⟩ := a
    match q with
    | .pending => rfl
    | .ready (.error e) => rfl
    | .ready (.ok ()) =>
      simp only [run_bind]
      cases (M.call m t).run w1 <;> rfl

theorem watched_connecting (S : Service W Req Res E2) (M : Service W Tgt S.σ E1) (t : Tgt) (n : Nat) (mk : M.σ)
    (err : Option E1) (f : M.φ) (w : W) (log : List (REv E1)) :
    (reconPoll (watchConn E1 S) (watchMaker S M) t (n + 1) ⟨mk, .connecting f, err⟩).run (w, log) =
    match (M.poll f).run w with
    | .panic m => .panic m
    | .spin => .spin
    | .ok (.pending, f') w1 => .ok (.pending, ⟨mk, .connecting f', err⟩) (w1, log)
    | .ok (.ready (.error e), _) w1 => .ok (.ready (.ok ()), ⟨mk, .idle, some e⟩) (w1, log ++ [.failed e])
    | .ok (.ready (.ok s), _) w1 =>
      (reconPoll (watchConn E1 S) (watchMaker S M) t n ⟨mk, .connected (connections log, s), err⟩).run
          (w1, log ++ [.connected (connections log)]) := by
  rw [reconPoll, run_bind]
  simp only [Act.logged]
  cases (M.poll f).run w with
  | panic m => rfl
  | spin => rfl
  | ok a w1 =>
    obtain ⟨q, m⟩ := a
    match q with
    | .pending => simp only [List.append_nil]; rfl
    | .ready (.error e) => rfl
    | .ready (.ok s) => rfl

theorem watched_connected (S : Service W Req Res E2) (M : Service W Tgt S.σ E1) (t : Tgt) (n : Nat) (mk : M.σ)
    (err : Option E1) (s : Nat × S.σ) (w : W) (log : List (REv E1)) :
    (reconPoll (watchConn E1 S) (watchMaker S M) t (n + 1) ⟨mk, .connected s, err⟩).run (w, log) =
    match (S.pollReady s.2).run w with
    | .panic m => .panic m
    | .spin => .spin
    | .ok (.pending, s') w1 => .ok (.pending, ⟨mk, .connected (s.1, s'), err⟩) (w1, log ++ [.connReady s.1 false])
    | .ok (.ready (.ok ()), s') w1 =>
      .ok (.ready (.ok ()), ⟨mk, .connected (s.1, s'), err⟩) (w1, log ++ [.connReady s.1 true])
    | .ok (.ready (.error _), _) w1 =>
      (reconPoll (watchConn E1 S) (watchMaker S M) t n ⟨mk, .idle, err⟩).run (w1, log ++ [.connLost s.1]) := by
  rw [reconPoll, run_bind]
  simp only [Act.logged]
  cases (S.pollReady s.2).run w with
  | panic m => rfl
  | spin => rfl
  | ok a w1 =>
    obtain ⟨q, m⟩ := a
    match q with
    | .pending => rfl
    | .ready (.error e) => rfl
    | .ready (.ok ()) => rfl

theorem reconPoll_post (S : Service W Req Res E2) (M : Service W Tgt S.σ E1) (t : Tgt) (n : Nat)
    (x x' : ReconState M.σ M.φ (Nat × S.σ) E1) (log log' : List (REv E1)) (w w' : W) (p : Poll (Except (ReconErr E1 E2) Unit))
    (ha : RAgree x log)
    (h : (reconPoll (watchConn E1 S) (watchMaker S M) t n x).run (w, log) = .ok (p, x') (w', log')) :
    ReadyPost' x log p x' log' := by
  induction n generalizing x w log with
  | zero => simp [reconPoll] at h
  | succ n ih =>
    obtain ⟨mk, st, err⟩ := x
    cases st with
    | idle =>
      rw [watched_idle] at h
      obtain ⟨b, hb⟩ := ha
      cases hp : (M.pollReady mk).run w with
      | panic m => simp [hp] at h
      | spin => simp [hp] at h
      | ok a w1 =>
        obtain ⟨q, m⟩ := a
        match q with
        | .pending =>
          simp only [hp, run_pure] at h
          cases h
          exact ⟨⟨false, by rw [rphase_snoc, hb, connections_snoc _ _ (by simp)]; rfl⟩, by simp,
            .inl ⟨failures_snoc _ _ (by simp), rfl⟩⟩
        | .ready (.error e) =>
          simp only [hp, run_pure] at h
          cases h
          exact ⟨⟨false, by rw [rphase_snoc, hb, connections_snoc _ _ (by simp)]; rfl⟩, by simp,
            .inl ⟨failures_snoc _ _ (by simp), rfl⟩⟩
        | .ready (.ok ()) =>
          simp only [hp, run_bind] at h
          cases hc : (M.call m t).run w1 with
          | panic m => simp [hc] at h
          | spin => simp [hc] at h
          | ok c w2 =>
            obtain ⟨f, m'⟩ := c
            simp only [hc] at h
            have := ih ⟨m', .connecting f, err⟩ (log ++ [.maker true] ++ [.attempt]) w2 ?_ h
            · refine ⟨this.agree, this.usable, ?_⟩
              have hf := this.fails
              rw [failures_snoc _ _ (by simp), failures_snoc _ _ (by simp)] at hf
              exact hf
            · show rphase _ = _
              rw [rphase_snoc, rphase_snoc, hb, connections_snoc _ _ (by simp), connections_snoc _ _ (by simp)]; rfl
    | connecting f =>
      rw [watched_connecting] at h
      have hb : rphase log = some (connections log, .connecting) := ha
      cases hp : (M.poll f).run w with
      | panic m => simp [hp] at h
      | spin => simp [hp] at h
      | ok a w1 =>
        obtain ⟨q, f'⟩ := a
        match q with
        | .pending =>
          simp only [hp, run_pure, List.append_nil] at h
          cases h
          exact ⟨hb, by simp, .inl ⟨rfl, rfl⟩⟩
        | .ready (.error e) =>
          simp only [hp, run_pure] at h
          cases h
          refine ⟨⟨false, by rw [rphase_snoc, hb, connections_snoc _ _ (by simp)]; rfl⟩, by simp, .inr ⟨e, ?_, rfl, rfl⟩⟩
          exact failures_failed log e
        | .ready (.ok s) =>
          simp only [hp] at h
          have := ih ⟨mk, .connected (connections log, s), err⟩ (log ++ [.connected (connections log)]) w1 ?_ h
          · refine ⟨this.agree, this.usable, ?_⟩
            have hf := this.fails
            rw [failures_snoc _ _ (by simp)] at hf
            exact hf
          · refine ⟨false, ?_⟩
            rw [rphase_snoc, hb, connections_connected]
            simp [rstep]
    | connected s =>
      rw [watched_connected] at h
      obtain ⟨b, hb⟩ := ha
      cases hp : (S.pollReady s.2).run w with
      | panic m => simp [hp] at h
      | spin => simp [hp] at h
      | ok a w1 =>
        obtain ⟨q, s'⟩ := a
        have key : ∀ ok, rphase (log ++ [.connReady s.1 ok]) =
            some (connections (log ++ [.connReady s.1 ok]), .conn s.1 ok) := by
          intro ok
          rw [rphase_snoc, hb, connections_snoc _ _ (by simp)]
          simp [rstep]
        match q with
        | .pending =>
          simp only [hp, run_pure] at h
          cases h
          exact ⟨⟨false, key false⟩, by simp, .inl ⟨failures_snoc _ _ (by simp), rfl⟩⟩
        | .ready (.ok ()) =>
          simp only [hp, run_pure] at h
          cases h
          exact ⟨⟨true, key true⟩, fun _ _ => ⟨_, rfl, key true⟩, .inl ⟨failures_snoc _ _ (by simp), rfl⟩⟩
        | .ready (.error e) =>
          simp only [hp] at h
          have := ih ⟨mk, .idle, err⟩ (log ++ [.connLost s.1]) w1 ?_ h
          · refine ⟨this.agree, this.usable, ?_⟩
            have hf := this.fails
            rw [failures_snoc _ _ (by simp)] at hf
            exact hf
          · refine ⟨false, ?_⟩
            rw [rphase_snoc, hb, connections_snoc _ _ (by simp)]
            simp [rstep]

/-- the invariant of histories -/
structure RInv {M F S E : Type} (strict : Bool) (x : ReconState M F (Nat × S) E) (log : List (REv E)) (m : Mode)
    (rep : List E) : Prop where
  agree : RAgree x log
  usable : m = .ready → x.error = none → ∃ s, x.st = .connected s ∧ rphase log = some (connections log, .conn s.1 true)
  reported : List.Sublist (rep ++ x.error.toList) (failures log)
  exact' : strict = true → rep ++ x.error.toList = failures log
  /-- under a strict caller an error is pending only right after the failed attempt -/
  fresh : strict = true → m ≠ .ready → x.error = none

theorem ReconHist.inv {strict : Bool} {fuel : Nat} {S : Service W Req Res E2} {M : Service W Tgt S.σ E1} {t : Tgt}
    {x : (watched fuel S M t).σ} {log : List (REv E1)} {m : Mode} {rep : List E1}
    (h : ReconHist strict fuel S M t x log m rep) : RInv strict x log m rep := by
  induction h with
  | new mk => exact ⟨⟨false, rfl⟩, by simp, by simp [Reconnect.new], fun _ => rfl, fun _ _ => rfl⟩
  | with_connection conn mk =>
    exact ⟨⟨false, rfl⟩, by simp, by simp [Reconnect.withConnection], fun _ => rfl, fun _ _ => rfl⟩
  | @ready x log m rep w p x' w' log' _ hm hst hr ih =>
    have hp := reconPoll_post S M t fuel x x' log log' w w' p ih.agree hr
    have hmode : ∀ (q : Poll (Except (ReconErr E1 E2) Unit)),
        (match q with | .ready (.ok ()) => Mode.ready | .pending => .idle | .ready (.error _) => .failed) = .ready →
        q = .ready (.ok ()) := by
      intro q hq
      match q, hq with
      | .ready (.ok ()), _ => rfl
    refine ⟨hp.agree, fun hmr he => hp.usable (hmode _ hmr) he, ?_, fun hs => ?_, fun hs hm' => ?_⟩
    · rcases hp.fails with ⟨h1, h2⟩ | ⟨e, h1, h2, -⟩
      · rw [h1, h2]; exact ih.reported
      · rw [h1, h2]
        refine List.Sublist.append ?_ (List.Sublist.refl _)
        exact (List.sublist_append_left _ _).trans ih.reported
    · rcases hp.fails with ⟨h1, h2⟩ | ⟨e, h1, h2, -⟩
      · rw [h1, h2]; exact ih.exact' hs
      · have h3 := ih.fresh hs (hst hs)
        have h4 := ih.exact' hs
        rw [h3] at h4
        rw [h1, h2, ← h4]
        simp
    · rcases hp.fails with ⟨h1, h2⟩ | ⟨e, h1, h2, h3⟩
      · rw [h2]; exact ih.fresh hs (hst hs)
      · subst h3; exact absurd rfl hm'
  | @call x log rep r w f x' w' log' _ hr ih =>
    obtain ⟨mk, st, err⟩ := x
    cases err with
    | some e =>
      simp only [watched, Reconnect, run_pure] at hr
      cases hr
      refine ⟨ih.agree, by simp, ?_, fun hs => ?_, fun _ _ => rfl⟩
      · have := ih.reported
        simpa [reportOf] using this
      · have := ih.exact' hs
        simpa [reportOf] using this
    | none =>
      obtain ⟨s, hst, hph⟩ := ih.usable rfl rfl
      simp only at hst
      subst hst
      simp only [watched, Reconnect, run_bind, watchConn, Act.logged] at hr
      cases hc : (S.call s.2 r).run w with
      | panic m => simp [hc] at hr
      | spin => simp [hc] at hr
      | ok c w2 =>
        obtain ⟨g, s'⟩ := c
        simp only [hc, run_pure] at hr
        cases hr
        refine ⟨⟨false, ?_⟩, by simp, ?_, fun hs => ?_, fun _ _ => rfl⟩
        · rw [rphase_snoc, hph, connections_snoc _ _ (by simp)]
          simp [rstep]
        · rw [failures_snoc _ _ (by simp)]
          have := ih.reported
          simpa [reportOf] using this
        · rw [failures_snoc _ _ (by simp)]
          have := ih.exact' hs
          simpa [reportOf] using this

/-- **C42.** Whatever the maker and the connections do, and however a contract-abiding caller uses it, the
operations Reconnect performs follow the lifecycle `rstep`: attempts only when there is neither a connection
nor an attempt and the maker's latest `poll_ready` succeeded; at most one connection at a time; requests only
to the current connection, and only if its latest `poll_ready` succeeded, once each. -/
theorem C42_lifecycle {strict : Bool} {fuel : Nat} {S : Service W Req Res E2} {M : Service W Tgt S.σ E1} {t : Tgt}
    {x : (watched fuel S M t).σ} {log : List (REv E1)} {m : Mode} {rep : List E1}
    (h : ReconHist strict fuel S M t x log m rep) : (rphase log).isSome := by
  have := h.inv.agree
  obtain ⟨mk, st, err⟩ := x
  cases st with
  | idle => obtain ⟨b, hb⟩ := this; simp [hb]
  | connecting f => have hb : rphase log = _ := this; simp [hb]
  | connected s => obtain ⟨b, hb⟩ := this; simp [hb]

/-- **C43 (at most once).** The connect errors reported to callers, in order, are among the errors of the
failed attempts, in order: no error is reported twice, invented or reordered. -/
theorem C43_at_most_once {strict : Bool} {fuel : Nat} {S : Service W Req Res E2} {M : Service W Tgt S.σ E1} {t : Tgt}
    {x : (watched fuel S M t).σ} {log : List (REv E1)} {m : Mode} {rep : List E1}
    (h : ReconHist strict fuel S M t x log m rep) : List.Sublist rep (failures log) :=
  (List.sublist_append_left _ _).trans h.inv.reported

/-- **C43 (exactly once).** If the caller, having been told `Ready(Ok)`, calls (rather than polling readiness
again), then every failed attempt is reported exactly once: each is reported by the next call; when the caller
is not between `Ready(Ok)` and `call`, none is outstanding. -/
theorem C43_exactly_once {fuel : Nat} {S : Service W Req Res E2} {M : Service W Tgt S.σ E1} {t : Tgt}
    {x : (watched fuel S M t).σ} {log : List (REv E1)} {m : Mode} {rep : List E1}
    (h : ReconHist true fuel S M t x log m rep) :
    (m ≠ .ready → rep = failures log) ∧
    (m = .ready → rep = failures log ∨ ∃ e, rep ++ [e] = failures log ∧
      ∀ r w, ∃ f x', ((watched fuel S M t).call x r).run (w, log) = .ok (f, x') (w, log) ∧ reportOf f = [e]) := by
  have hi := h.inv
  constructor
  · intro hm
    have h1 := hi.exact' rfl
    rw [hi.fresh rfl hm] at h1
    simpa using h1
  · intro _
    have h1 := hi.exact' rfl
    obtain ⟨mk, st, err⟩ := x
    cases err with
    | none => exact .inl (by simpa using h1)
    | some e => exact .inr ⟨e, by simpa using h1, fun r w => ⟨_, _, rfl, rfl⟩⟩

/-- **C43 (how it is reported).** A future that carries a connect error yields it at its first poll, and no
other future of Reconnect yields one. -/
theorem C43_report (fuel : Nat) (S : Service W Req Res E2) (M : Service W Tgt S.σ E1) (t : Tgt)
    (f : (Reconnect fuel S M t).φ) (w : W) (ws : List W) (e : E1) :
    (reportOf f = [e] → (Reconnect fuel S M t).futOf.drive f (w :: ws) = .done (.error (.make e)) w ws) ∧
    (∀ ws w rest, (Reconnect fuel S M t).futOf.drive f ws = .done (.error (.make e)) w rest → reportOf f = [e]) := by
  constructor
  · intro h
    match f, h with
    | .inr (some e'), h =>
      simp only [reportOf, List.cons.injEq, and_true] at h
      subst h
      rfl
  · intro ws
    induction ws generalizing f with
    | nil => simp [Fut.drive]
    | cons v ws ih =>
      intro w rest h
      match f with
      | .inr (some e') =>
        simp only [Fut.drive, Service.futOf, Reconnect, run_pure, Drive.done.injEq, Except.error.injEq,
          ReconErr.make.injEq] at h
        simp [reportOf, h.1]
      | .inr none => simp [Fut.drive, Service.futOf, Reconnect] at h
      | .inl g =>
        simp only [Fut.drive, Service.futOf, Reconnect, run_bind] at h
        cases hp : (S.poll g).run v with
        | panic m => simp [hp] at h
        | spin => simp [hp] at h
        | ok a w1 =>
          obtain ⟨q, g'⟩ := a
          match q with
          | .pending =>
            simp only [hp, run_pure, Poll.map] at h
            exact absurd (ih (.inl g') w rest h) (by simp [reportOf])
          | .ready (.ok r) => simp [hp, Poll.map, mapErr] at h
          | .ready (.error r) => simp [hp, Poll.map, mapErr] at h

/-! ## Findings -/

namespace Demo42

/-- the maker's attempt fails in world 0 with error 42, in world 1 with error 43, else succeeds -/
def mk : Service Nat Unit Unit Nat where
  σ := Unit
  φ := Unit
  pollReady _ := pure (.ready (.ok ()), ())
  call _ _ := pure ((), ())
  poll _ := ⟨fun w => .ok (if w = 0 then .ready (.error 42) else if w = 1 then .ready (.error 43) else .ready (.ok ()), ()) w⟩
  clone := id

def cn : Service Nat Nat Nat Nat where
  σ := Unit
  φ := Nat
  pollReady _ := pure (.ready (.ok ()), ())
  call _ r := pure (r, ())
  poll r := pure (.ready (.ok r), r)
  clone := id

/-- **Finding (C43), stale error.** After a failed attempt, a caller that polls readiness once more gets a
working connection, which is ready, and is told `Ready(Ok)`; its call then fails with the old connect error,
the request is not dispatched (`tower/src/reconnect/mod.rs:112-117,142-145`). -/
theorem C43_stale_error_violates :
    ∃ (x : (watched 9 cn mk ()).σ) (log : List (REv Nat)), ReconHist false 9 cn mk () x log .idle [42] ∧
      log = [.maker true, .attempt, .failed 42, .maker true, .attempt, .connected 0, .connReady 0 true] := by
  have h0 := ReconHist.new (strict := false) (fuel := 9) (S := cn) (M := mk) (t := ()) ()
  have h1 := h0.ready (w := 0) (p := .ready (.ok ())) (by simp) (by simp) rfl
  have h2 := h1.ready (w := 2) (p := .ready (.ok ())) (by simp) (by simp) rfl
  have h3 := h2.call (r := (7 : Nat)) (w := 2) rfl
  exact ⟨_, _, h3, rfl⟩

/-- **Finding (C43), lost error.** Two failed attempts before the call: only the second is reported. -/
theorem C43_lost_error_violates :
    ∃ (x : (watched 9 cn mk ()).σ) (log : List (REv Nat)), ReconHist false 9 cn mk () x log .idle [43] ∧
      failures log = [42, 43] := by
  have h0 := ReconHist.new (strict := false) (fuel := 9) (S := cn) (M := mk) (t := ()) ()
  have h1 := h0.ready (w := 0) (p := .ready (.ok ())) (by simp) (by simp) rfl
  have h2 := h1.ready (w := 1) (p := .ready (.ok ())) (by simp) (by simp) rfl
  have h3 := h2.call (r := (7 : Nat)) (w := 1) rfl
  exact ⟨_, _, h3, rfl⟩

/-- a strict caller: attempt fails, reported; then connection, request dispatched -/
example : ∃ (x : (watched 9 cn mk ()).σ) (log : List (REv Nat)), ReconHist true 9 cn mk () x log .idle [42] ∧
      log = [.maker true, .attempt, .failed 42, .maker true, .attempt, .connected 0, .connReady 0 true,
        .connCall 0] := by
  have h0 := ReconHist.new (strict := true) (fuel := 9) (S := cn) (M := mk) (t := ()) ()
  have h1 := h0.ready (w := 0) (p := .ready (.ok ())) (by simp) (by simp) rfl
  have h2 := h1.call (r := (7 : Nat)) (w := 1) rfl
  have h3 := h2.ready (w := 2) (p := .ready (.ok ())) (by simp) (by simp) rfl
  have h4 := h3.call (r := (7 : Nat)) (w := 1) rfl
  exact ⟨_, _, h4, rfl⟩
end Demo42

end Tower
