import Verif.Model.BufferSvc
import Verif.Proof.Load1
import Verif.Props.C01_Contract
import Verif.Props.C59_Wake
import Verif.Props.C64_BufferUse
import Verif.Props.C81_Returns
import Verif.Props.C82_Answers
import Verif.Props.C84_Sends

/-! # C85: buffers inside stacks -/

set_option linter.unusedSimpArgs false

namespace Tower
open Act
variable {W Req Res Err : Type}

/-! ## Statements used below -/

/-- The futures that come out of the channel keep the contract of futures, and their responses satisfy `good`. -/
def ChanView.Delivers {S : Service W Req Res Err} (V : ChanView W Req S.φ Err) (good : Res → Prop) : Prop :=
  ∀ r w f, (V.pollRx r w).1.1 = .ready (some (.ok f)) → FutSafe S.fut (OkGood good) f

/-- Waiting for a slot or for the worker's reply registers the waker (and no operation takes a registration back). -/
structure ChanView.Wakes {φ : Type} (reg : W → Nat) (V : ChanView W Req φ Err) : Prop where
  reserve : ∀ a w, reg w ≤ reg (V.pollReserve a w).2 ∧ ((V.pollReserve a w).1.1 = .pending → reg w < reg (V.pollReserve a w).2)
  send : ∀ q w, reg w ≤ reg (V.send q w).2
  rx : ∀ r w, reg w ≤ reg (V.pollRx r w).2 ∧ ((V.pollRx r w).1.1 = .pending → reg w < reg (V.pollRx r w).2)

/-- The worker replies to a request with a future of the service for that request. `reqOf` is the request for which a receiver was made. -/
structure ChanView.Honest {S : Service W Req Res Err} (V : ChanView W Req S.φ Err) (reqOf : V.ρ → Req) : Prop where
  send : ∀ q w, reqOf (V.send q w).1 = q
  keep : ∀ r w, (V.pollRx r w).1.1 = .pending → reqOf (V.pollRx r w).1.2 = reqOf r
  reply : ∀ r w f, (V.pollRx r w).1.1 = .ready (some (.ok f)) → FutureOf S (reqOf r) f

/-- Answers of a buffer: those of the service (errors wrapped), or an error of the buffer itself: the worker's (`ServiceError`), or `Closed`. -/
def bufferAns (A : Req → Except Err Res → Prop) : Req → Except (BufErr Err) Res → Prop :=
  wrapAns .inner (fun e => e = .closed ∨ ∃ e', e = .service e') A

/-- The response future `f` of a handle is what the buffer `x` has as its response future number `i`. -/
def BufFut.Is {φ : Type} (x : Nat → BFut φ Err) (i : Nat) : BufFut Nat φ Err → Prop
  | .failed (some e) => x i = .failed e
  | .failed none => x i = .finished
  | .rx (some j) => j = i ∧ x i = .rx
  | .rx none => x i = .finished
  | .inner f => x i = .inner f

/-! ## The contract -/

section
variable {S : Service W Req Res Err} {V : ChanView W Req S.φ Err} {good : Res → Prop}

theorem BufSt.reserve_ok {m : Mode} (hm : m ≠ .ready) (s : BufSt V.α) (w : W) :
    wp (s.reserve V) (fun r _ => ReadyPost ⟨true, true⟩ m (fun s m => m = .ready → s.st = .ready) r) w := by
  unfold BufSt.reserve
  simp only [wp_bind, wp_lift]
  split
  · exact ⟨(fun h => by cases h), fun _ => hm⟩
  · exact fun _ => rfl
  · trivial

theorem BufFut.pollInner_ok {ρ : Type} {f : S.φ} (hf : FutSafe S.fut (OkGood good) f) {F : BufFut ρ S.φ Err → Prop} (hF : ∀ f, FutSafe S.fut (OkGood good) f → F (.inner f)) (w : W) :
    wp (BufFut.pollInner S f) (fun r _ => PollPost good F r) w := by
  unfold BufFut.pollInner
  simp only [wp_bind]
  refine wp_mono (hf.poll w) ?_
  rintro ⟨p, f'⟩ w' h
  match p, h with
  | .pending, h => exact hF _ h
  | .ready (.ok r), h => exact h
  | .ready (.error e), _ => trivial

/-- **C85, the contract.** A handle of a buffer keeps the service contract, whatever happens in the channel: with a permit it stays ready until it is called, `call` does not panic, and neither do the response
futures; clones start without a permit. -/
theorem C85_contract (h : V.Delivers good) (a : V.α) : SafeG ⟨true, true⟩ good (BufferSvc S V) ⟨.idle, a⟩ := by
  refine SafeInv.safe (S := BufferSvc S V)
    { H := fun s m => m = .ready → s.st = .ready
      F := fun f => match f with | .failed e => e.isSome | .rx r => r.isSome | .inner f => FutSafe S.fut (OkGood good) f
      ready_ok := ?_, call_ok := ?_, poll_ok := ?_, clone_ok := ?_ } (fun h => by cases h)
  · intro s m w hs hm
    obtain ⟨st, a⟩ := s
    have hne : st ≠ .ready → m ≠ .ready := fun h h' => h (hs h')
    cases st with
    | idle => exact BufSt.reserve_ok (hne (by simp)) _ w
    | acquiring => exact BufSt.reserve_ok (hne (by simp)) _ w
    | ready => exact fun _ => rfl
    | closed => trivial
  · intro s r w hs
    obtain ⟨st, a⟩ := s
    have := hs rfl
    cases st <;> cases this
    exact ⟨rfl, fun h => by cases h⟩
  · intro f w hf
    match f, hf with
    | .failed (some e), _ => trivial
    | .inner f, hf => exact BufFut.pollInner_ok hf (fun _ h => h) w
    | .rx (some r), _ =>
      dsimp only
      simp only [wp_bind, wp_lift]
      have hd := h r w
      split
      · rfl
      · rename_i f hp
        exact BufFut.pollInner_ok (hd f hp) (fun _ h => h) _
      · trivial
      · trivial
  · intro _ s m _ _ h
    cases h

theorem FutSafe.snd {A : Type} {f : S.φ} (h : FutSafe S.fut (OkGood good) f) : FutSafe (S.snd A).fut (OkGood good) f := by
  intro ws
  induction ws generalizing f with
  | nil => trivial
  | cons w ws ih =>
    refine Act.wp_snd (x := S.poll f) (wp_mono (h.poll w.2) ?_)
    rintro ⟨p, f'⟩ w' hp
    match p, hp with
    | .pending, hp => exact ih hp
    | .ready (.ok r), hp => exact hp
    | .ready (.error e), _ => trivial

/-- **C85, the contract, of a real channel.** The same for the handle with number `n` of a buffer, whatever that buffer is like in each of its operations, as long as the futures in it keep the contract. -/
theorem C85_handle {P : S.φ → Prop} (hP : ∀ f, P f → FutSafe S.fut (OkGood good) f) (n : Nat) : SafeG ⟨true, true⟩ good (BufHandle S P) ⟨.idle, n⟩ := by
  refine C85_contract (S := S.snd (BufOf S P)) (V := bufView S P) ?_ n
  intro i x f hf
  have : x.1.1.shots i = .sent (.ok f) := by
    simp only [Shot.get] at hf
    split at hf
    · cases hf
    · rename_i v hv; cases hf; exact hv
    · cases hf
  exact (hP f (x.1.2 i f this)).snd

/-- **C85, the contract, where it is met.** In every state that a buffer reaches over a service that keeps the contract, the futures in it do: such a state is a `BufOf` as `C85_handle` wants it. -/
theorem C85_worlds {bound : Nat} {svc : S.σ} {tr : List (BEv S)} {x : Buf S} (hS : SafeG ⟨false, false⟩ good S svc) (h : BHist S bound svc tr x) :
    ∀ i f, x.shots i = .sent (.ok f) → FutSafe S.fut (OkGood good) f := by
  obtain ⟨I, h0⟩ := hS.inv
  intro i f hf
  exact futSafe_of_inv I ((h.futInv h0).shot i f hf)

/-! ## Wake-ups, returning, answers, what is sent -/

/-- **C85, wake-ups.** No `Pending` of a buffer's handle or response future is lost. -/
theorem C85_wakeful {reg : W → Nat} (hV : V.Wakes reg) (hS : ∀ f, Wakes reg (S.poll f)) : Wakeful reg (BufferSvc S V) := by
  have hres : ∀ s : BufSt V.α, Wakes reg (s.reserve V) := by
    intro s
    unfold BufSt.reserve
    refine Wakes.bind (x := Act.lift (V.pollReserve s.acq)) ?_ (fun _ => Calm.pure _) ?_
    · intro w p b w' hr
      rw [run_lift] at hr
      injection hr with h1 h2
      subst h2
      have h3 : p = (V.pollReserve s.acq w).1.1 := (congrArg Prod.fst h1).symm
      rw [h3]
      exact hV.reserve _ _
    · rintro (_ | _) b
      · exact Wakes.after Calm.get (fun _ => Wakes.ready _ _)
      · exact Wakes.ready _ _
  have hin : ∀ f : S.φ, Wakes reg (BufFut.pollInner (ρ := V.ρ) S f) := fun f => (hS f).map _ _
  constructor
  · rintro ⟨st, a⟩
    cases st
    · exact hres _
    · exact hres _
    · exact Wakes.ready _ _
    · exact Wakes.after Calm.get (fun _ => Wakes.ready _ _)
  · rintro ⟨st, a⟩ q
    cases st
    · exact Calm.panic _
    · exact Calm.panic _
    · exact (Calm.lift (hV.send q)).bind (fun _ => Calm.pure _)
    · exact Calm.get.bind (fun _ => Calm.pure _)
  · intro f
    match f with
    | .failed (some e) => exact Wakes.ready _ _
    | .failed none => exact Wakes.panic _
    | .rx none => exact Wakes.panic _
    | .inner f => exact hin f
    | .rx (some r) =>
      refine Wakes.bind (x := Act.lift (V.pollRx r)) ?_ (fun _ => Calm.pure _) ?_
      · intro w p b w' hr
        rw [run_lift] at hr
        injection hr with h1 h2
        subst h2
        have h3 : p = (V.pollRx r w).1.1 := (congrArg Prod.fst h1).symm
        rw [h3]
        exact hV.rx _ _
      · rintro (_ | _ | _) b
        · exact Wakes.ready _ _
        · exact Wakes.ready _ _
        · exact hin _

/-- **C85, returning.** The operations of a buffer's handle and response future come to an end if the service's futures do. -/
theorem C85_prompt (hS : ∀ f, (S.poll f).Returns) : Prompt (BufferSvc S V) := by
  have hres : ∀ s : BufSt V.α, (s.reserve V).Returns := by
    intro s
    unfold BufSt.reserve
    refine Act.Returns.bind (.lift _) ?_
    rintro ⟨_ | _ | _, b⟩
    · exact .pure _
    · exact .bind .get (fun _ => .pure _)
    · exact .pure _
  have hin : ∀ f : S.φ, (BufFut.pollInner (ρ := V.ρ) S f).Returns := fun f => (hS f).bind (fun _ => .pure _)
  constructor
  · rintro ⟨st, a⟩
    cases st
    · exact hres _
    · exact hres _
    · exact .pure _
    · exact .bind .get (fun _ => .pure _)
  · rintro ⟨st, a⟩ q
    cases st
    · exact .panic _
    · exact .panic _
    · exact .bind (.lift _) (fun _ => .pure _)
    · exact .bind .get (fun _ => .pure _)
  · intro f
    match f with
    | .failed (some e) => exact .pure _
    | .failed none => exact .panic _
    | .rx none => exact .panic _
    | .inner f => exact hin f
    | .rx (some r) =>
      refine Act.Returns.bind (.lift _) ?_
      rintro ⟨_ | _ | _ | _, b⟩
      · exact .pure _
      · exact .pure _
      · exact .pure _
      · exact hin _

/-- **C85, staying ready.** A handle that was ready is not pending when asked again, whatever happens to the channel in between. -/
theorem C85_stays_ready : StaysReady (BufferSvc S V) := by
  intro s w s' w' h
  have hst : s'.st = .ready := by
    have hres : ∀ s : BufSt V.α, (s.reserve V).run w = .ok (.ready (.ok ()), s') w' → s'.st = .ready := by
      intro s hr
      unfold BufSt.reserve at hr
      rw [run_bind_ok (run_lift _ _)] at hr
      dsimp only at hr
      split at hr
      · cases hr
      · cases hr; rfl
      · cases hr
    obtain ⟨st, a⟩ := s
    cases st
    · exact hres _ h
    · exact hres _ h
    · cases h; rfl
    · cases h
  intro v s'' v' h2
  obtain ⟨st, a⟩ := s'
  cases hst
  cases h2

/-- **C85, what is sent.** A stack above a buffer that sends each request at most `k` times puts at most `k` requests into the buffer for each request it is given: a handle of a buffer is a sender of one. The measure is the
number of requests accepted by the buffer so far. -/
theorem C85_sends {P : S.φ → Prop} : Sends (fun x : BufOf S P × W => x.1.1.calls) (fun _ => 1) (BufHandle S P) := by
  have hin : ∀ f x p f' x', (BufFut.pollInner (ρ := Nat) (S.snd (BufOf S P)) f).run x = .ok (p, f') x' → x'.1 = x.1 := by
    intro f x p f' x' hr
    unfold BufFut.pollInner at hr
    obtain ⟨a, w1, h1, h2⟩ := run_bind_eq_ok.1 hr
    cases h2
    exact (snd_eq_ok.1 h1).2
  have hres : ∀ (s : BufSt Nat) x p s' x', (s.reserve (bufView S P)).run x = .ok (p, s') x' → x'.1.1.calls = x.1.1.calls := by
    intro s x p s' x' hr
    unfold BufSt.reserve at hr
    rw [run_bind_ok (run_lift _ _)] at hr
    dsimp only at hr
    split at hr
    · cases hr; rfl
    · cases hr; rfl
    · cases hr; rfl
  refine ⟨fun _ => 0, ?_, ?_, ?_⟩
  · rintro ⟨st, a⟩ x p s' x' hr
    cases st
    · exact (hres _ _ _ _ _ hr).le
    · exact (hres _ _ _ _ _ hr).le
    · cases hr; exact Nat.le_refl _
    · cases hr; exact Nat.le_refl _
  · rintro ⟨st, a⟩ q x f s' x' hr
    cases st
    · cases hr
    · cases hr
    · cases hr; exact Nat.le_refl _
    · cases hr; exact Nat.le_succ _
  · intro f x p f' x' hr
    refine Nat.le_of_eq ?_
    show x'.1.1.calls = x.1.1.calls
    match f, hr with
    | .failed (some e), hr => cases hr; rfl
    | .inner f, hr => rw [hin _ _ _ _ _ hr]
    | .rx (some r), hr =>
      rw [run_bind_ok (run_lift _ _)] at hr
      dsimp only at hr
      split at hr
      · cases hr; rfl
      · rw [hin _ _ _ _ _ hr]
      · cases hr; rfl
      · cases hr; rfl

/-- what a response future for `q` looks like -/
def BufFut.For {ρ : Type} (S : Service W Req Res Err) (reqOf : ρ → Req) (q : Req) : BufFut ρ S.φ Err → Prop
  | .failed (some e) => e = .closed ∨ ∃ e', e = .service e'
  | .failed none => True
  | .rx (some r) => reqOf r = q
  | .rx none => True
  | .inner f => FutureOf S q f

/-- **C85, answers.** If the worker replies to each request with a future for that request, the answers of a buffer's handle are those of the service, or the buffer's own errors; and `poll_ready` fails only with the buffer's
own errors. -/
theorem C85_replies {A : Req → Except Err Res → Prop} {Z : Err → Prop} (hS : Replies S A Z) {reqOf : V.ρ → Req} (hV : V.Honest reqOf) :
    Replies (BufferSvc S V) (bufferAns A) (fun e => e = .closed ∨ ∃ e', e = .service e') := by
  have hw : ∀ w, V.workerError w = .closed ∨ ∃ e', V.workerError w = .service e' := by
    intro w
    unfold ChanView.workerError
    cases V.error w with
    | none => exact .inl rfl
    | some e => exact .inr ⟨e, rfl⟩
  have hin : ∀ {q : Req} {f : S.φ} {p : Poll (Except (BufErr Err) Res)} {g : BufFut V.ρ S.φ Err} {w w' : W}, FutureOf S q f → (BufFut.pollInner S f).run w = .ok (p, g) w' →
      (∀ r, p = .ready r → bufferAns A q r) ∧ (p = .pending → ∃ f', g = .inner f' ∧ FutureOf S q f') := by
    intro q f p g w w' hf hr
    unfold BufFut.pollInner at hr
    obtain ⟨⟨p0, f0⟩, w1, h1, h2⟩ := run_bind_eq_ok.1 hr
    cases h2
    cases p0 with
    | pending => exact ⟨(fun r hr => by cases hr), fun _ => ⟨f0, rfl, hf.polled h1⟩⟩
    | ready r0 => exact ⟨(fun r hr => by cases hr; exact .inl ⟨r0, hS.answer hf h1, rfl⟩), fun h => by cases h⟩
  have hpoll : ∀ {q : Req} {f g : BufFut V.ρ S.φ Err} {p : Poll (Except (BufErr Err) Res)} {w w' : W},
      BufFut.For S reqOf q f →
      ((BufferSvc S V).poll f).run w = .ok (p, g) w' →
      (∀ r, p = .ready r → bufferAns A q r) ∧
      (p = .pending → BufFut.For S reqOf q g) := by
    intro q f g p w w' hf hr
    match f, hf, hr with
    | .failed (some e), hf, hr => cases hr; exact ⟨(fun r hr => by cases hr; exact .inr ⟨e, hf, rfl⟩), fun h => by cases h⟩
    | .inner f, hf, hr =>
      have := hin hf hr
      refine ⟨this.1, fun h => ?_⟩
      obtain ⟨f', rfl, h2⟩ := this.2 h
      exact h2
    | .rx (some r), hf, hr =>
      rw [run_bind_ok (run_lift _ _)] at hr
      dsimp only at hr
      split at hr
      · rename_i hp
        cases hr
        exact ⟨(fun r hr => by cases hr), fun _ => (hV.keep r w hp).trans hf⟩
      · rename_i f hp
        have := hin (hf ▸ hV.reply r w f hp) hr
        refine ⟨this.1, fun h => ?_⟩
        obtain ⟨f', rfl, h2⟩ := this.2 h
        exact h2
      · rename_i e hp
        cases hr
        exact ⟨(fun r hr => by cases hr; exact .inr ⟨_, .inr ⟨e, rfl⟩, rfl⟩), fun h => by cases h⟩
      · cases hr
        exact ⟨(fun r hr => by cases hr; exact .inr ⟨_, .inl rfl, rfl⟩), fun h => by cases h⟩
  have hfut : ∀ {q : Req} {f : (BufferSvc S V).φ}, FutureOf (BufferSvc S V) q f →
      BufFut.For S reqOf q f := by
    intro q f hf
    induction hf with
    | @called s s' f w w' hr =>
      obtain ⟨st, a⟩ := s
      cases st
      · cases hr
      · cases hr
      · cases hr; exact hV.send q w
      · cases hr; exact hw _
    | polled _ hr ih => exact (hpoll ih hr).2 rfl
  constructor
  · rintro ⟨st, a⟩ s' e w w' hr
    have hres : ∀ (s : BufSt V.α), (s.reserve V).run w = .ok (.ready (.error e), s') w' → e = .closed ∨ ∃ e', e = .service e' := by
      intro s hr
      unfold BufSt.reserve at hr
      rw [run_bind_ok (run_lift _ _)] at hr
      dsimp only at hr
      split at hr
      · cases hr
      · cases hr
      · cases hr; exact hw _
    cases st
    · exact hres _ hr
    · exact hres _ hr
    · cases hr
    · cases hr; exact hw _
  · intro q f f' r w w' hf hr
    exact (hpoll (hfut hf) hr).1 r rfl

/-! ## The handle as a service is the buffer of `Verif/Model/Buffer.lean` -/

variable {P : S.φ → Prop}

theorem Buf.reserve_cases (x : Buf S) (n : Nat) :
    (∃ sem, ∀ st, x.reserve ⟨n, st⟩ = (.ready (.error x.workerError), ⟨n, .closed⟩, sem)) ∨ (∃ sem, ∀ st, x.reserve ⟨n, st⟩ = (.ready (.ok ()), ⟨n, .ready⟩, sem)) ∨
    ∃ sem, ∀ st, x.reserve ⟨n, st⟩ = (.pending, ⟨n, .acquiring⟩, sem) := by
  unfold Buf.reserve
  by_cases hc : x.closed = true
  · simp only [hc, if_true]
    exact .inl ⟨_, fun _ => rfl⟩
  · simp only [hc]
    rcases hp : x.sem.pollAcquire n with ⟨_ | _, sem⟩
    · exact .inr (.inr ⟨sem, fun st => by simp [hp]⟩)
    · exact .inr (.inl ⟨sem, fun st => by simp [hp]⟩)

/-- **C85, the same code: `poll_ready`.** `poll_ready` of the service is what a buffer's handle does, with the same result and the same effect on the channel. -/
theorem C85_same_ready {x : BufOf S P} {h : BHandle} {l r : List BHandle} (hx : x.1.hs = l ++ h :: r) (w : W) :
    ∃ p st y, ((BufHandle S P).pollReady ⟨h.st, h.name⟩).run (x, w) = .ok (p, ⟨st, h.name⟩) (y, w) ∧
      HStep x.1 (.ready h.name p) { y.1 with hs := l ++ ⟨h.name, st⟩ :: r } := by
  obtain ⟨n, st⟩ := h
  have key := HStep.ready (x := x.1) hx
  have hres : st = .idle ∨ st = .acquiring → ∃ p st' y, ((⟨st, n⟩ : BufSt Nat).reserve (bufView S P)).run (x, w) = .ok (p, ⟨st', n⟩) (y, w) ∧
      HStep x.1 (.ready n p) { y.1 with hs := l ++ ⟨n, st'⟩ :: r } := by
    intro hst
    have h1 : x.1.pollReady ⟨n, st⟩ = x.1.reserve ⟨n, st⟩ := by rcases hst with rfl | rfl <;> rfl
    rw [h1] at key
    unfold BufSt.reserve
    rw [run_bind_ok (run_lift _ _)]
    dsimp only
    rcases Buf.reserve_cases x.1 n with ⟨sem, hc⟩ | ⟨sem, hc⟩ | ⟨sem, hc⟩
    · rw [hc st] at key
      rw [hc .idle]
      exact ⟨_, _, _, rfl, key⟩
    · rw [hc st] at key
      rw [hc .idle]
      exact ⟨_, _, _, rfl, key⟩
    · rw [hc st] at key
      rw [hc .idle]
      exact ⟨_, _, _, rfl, key⟩
  cases st
  · exact hres (.inl rfl)
  · exact hres (.inr rfl)
  · exact ⟨_, _, _, rfl, key⟩
  · exact ⟨_, _, _, rfl, key⟩

/-- **C85, the same code: `call`.** Sends the request with the permit; fails if the handle is closed; panics without a permit. -/
theorem C85_same_call {x : BufOf S P} {h : BHandle} {l r : List BHandle} (hx : x.1.hs = l ++ h :: r) (q : Req) (w : W) :
    (∃ y, ((BufHandle S P).call ⟨h.st, h.name⟩ q).run (x, w) = .ok (.rx (some x.1.calls), ⟨.idle, h.name⟩) (y, w) ∧
      HStep x.1 (.accept h.name x.1.calls q) { y.1 with hs := l ++ ⟨h.name, .idle⟩ :: r } ∧ y.1.futs x.1.calls = .rx) ∨
    (∃ e, ((BufHandle S P).call ⟨h.st, h.name⟩ q).run (x, w) = .ok (.failed (some e), ⟨h.st, h.name⟩) (x, w) ∧
      HStep x.1 (.refuse h.name x.1.calls q) { x.1 with futs := Function.update x.1.futs x.1.calls (.failed e), calls := x.1.calls + 1 }) ∨
    (∃ msg, ((BufHandle S P).call ⟨h.st, h.name⟩ q).run (x, w) = .panic msg) ∧ HStep x.1 (.callPanics h.name) x.1 := by
  obtain ⟨n, st⟩ := h
  cases st
  · exact .inr (.inr ⟨⟨_, rfl⟩, HStep.call_panics (h := ⟨n, .idle⟩) (by rw [hx]; simp) rfl⟩)
  · exact .inr (.inr ⟨⟨_, rfl⟩, HStep.call_panics (h := ⟨n, .acquiring⟩) (by rw [hx]; simp) rfl⟩)
  · exact .inl ⟨x.push q, rfl, HStep.call hx rfl, by simp [BufOf.push]⟩
  · exact .inr (.inl ⟨x.1.workerError, rfl, HStep.call_closed hx rfl⟩)

/-- **C85, the same code: clones.** A clone has no permit, whatever the original has: the new handle is as the buffer makes it, and to call it before it was polled ready panics. -/
theorem C85_same_clone {x : BufOf S P} {h : BHandle} (hx : h ∈ x.1.hs) (q : Req) (w : W) :
    HStep x.1 (.clone h.name x.1.nextName) { x.1 with hs := x.1.hs ++ [⟨x.1.nextName, ((BufHandle S P).clone ⟨h.st, h.name⟩).st⟩], nextName := x.1.nextName + 1 } ∧
    ∃ msg, ((BufHandle S P).call ((BufHandle S P).clone ⟨h.st, h.name⟩) q).run (x, w) = .panic msg :=
  ⟨HStep.clone hx, _, rfl⟩

/-- **C85, the same code: response futures.** Polling the response future is one or two steps of the buffer's response future: the same result, and the same future afterwards. -/
theorem C85_same_poll {x : BufOf S P} {i : Nat} {f f' : BufFut Nat S.φ Err} (hf : f.Is x.1.futs i) {p : Poll (Except (BufErr Err) Res)} {y : BufOf S P} {w w' : W}
    (hr : ((BufHandle S P).poll f).run (x, w) = .ok (p, f') (y, w')) :
    y = x ∧ ∃ evs z, BRun x.1 evs z ∧ (evs = [.poll i p] ∨ evs = [.tau, .poll i p]) ∧ z.futs = Function.update x.1.futs i (z.futs i) ∧
      z = { x.1 with futs := z.futs } ∧ (p = .pending → f'.Is z.futs i) ∧ (p ≠ .pending → z.futs i = .finished) := by
  have hin : ∀ {x0 : Buf S} {g : S.φ} (_ : x0.futs i = .inner g) (_ : x0 = { x.1 with futs := x0.futs }) (_ : x0.futs = Function.update x.1.futs i (x0.futs i)) (evs0 : List (BEv S))
      (_ : BRun x.1 evs0 x0) (_ : evs0 = [] ∨ evs0 = [.tau]) (_ : (BufFut.pollInner (ρ := Nat) (S.snd (BufOf S P)) g).run (x, w) = .ok (p, f') (y, w')),
      y = x ∧ ∃ evs z, BRun x.1 evs z ∧ (evs = [.poll i p] ∨ evs = [.tau, .poll i p]) ∧ z.futs = Function.update x.1.futs i (z.futs i) ∧
        z = { x.1 with futs := z.futs } ∧ (p = .pending → f'.Is z.futs i) ∧ (p ≠ .pending → z.futs i = .finished) := by
    intro x0 g h1 h2 h3 evs0 h4 h5 h6
    unfold BufFut.pollInner at h6
    obtain ⟨⟨p0, g'⟩, w1, h7, h8⟩ := run_bind_eq_ok.1 h6
    obtain ⟨h9, h10⟩ := snd_eq_ok.1 h7
    cases h8
    have hev : ∀ e : BEv S, evs0 ++ [e] = [e] ∨ evs0 ++ [e] = [.tau, e] := by
      intro e
      rcases h5 with rfl | rfl
      · exact .inl rfl
      · exact .inr rfl
    have hup : ∀ v, Function.update x0.futs i v = Function.update x.1.futs i v := by
      intro v
      rw [h3]; simp
    have hz : ∀ F, ({ x0 with futs := F } : Buf S) = { x.1 with futs := F } := by
      intro F
      rw [h2]
    refine ⟨h10, ?_⟩
    match p0, h9 with
    | .pending, h9 =>
      refine ⟨_, _, h4.snoc (.future (.inner_pending h1 h9)), hev _, ?_, ?_, ?_, ?_⟩
      · simp [hup]
      · exact hz _
      · intro _; simp [BufFut.Is]
      · intro h; exact absurd rfl h
    | .ready (.ok a), h9 =>
      refine ⟨_, _, h4.snoc (.future (.inner_ok h1 h9)), hev _, ?_, ?_, ?_, ?_⟩
      · simp [hup]
      · exact hz _
      · intro h; cases h
      · intro h; simp
    | .ready (.error e), h9 =>
      refine ⟨_, _, h4.snoc (.future (.inner_err h1 h9)), hev _, ?_, ?_, ?_, ?_⟩
      · simp [hup]
      · exact hz _
      · intro h; cases h
      · intro h; simp
  match f, hf, hr with
  | .failed (some e), hf, hr =>
    cases hr
    exact ⟨rfl, _, _, BRun.nil.snoc (.future (.failed hf)), .inl rfl, by simp, rfl, (fun h => by cases h), fun _ => by simp⟩
  | .inner g, hf, hr => exact hin hf rfl (by simp) [] .nil (.inl rfl) hr
  | .rx (some j), hf, hr =>
    obtain ⟨rfl, hf⟩ := hf
    rw [run_bind_ok (run_lift _ _)] at hr
    dsimp only at hr
    cases hsh : x.1.shots j with
    | waiting =>
      simp only [hsh, Shot.get] at hr
      cases hr
      exact ⟨rfl, _, _, BRun.nil.snoc (.future (.waiting hf hsh)), .inl rfl, by simp, rfl, fun _ => ⟨rfl, hf⟩, fun h => absurd rfl h⟩
    | gone =>
      simp only [hsh, Shot.get] at hr
      cases hr
      exact ⟨rfl, _, _, BRun.nil.snoc (.future (.gone hf hsh)), .inl rfl, by simp, rfl, (fun h => by cases h), fun _ => by simp⟩
    | sent v =>
      cases v with
      | error e =>
        simp only [hsh, Shot.get] at hr
        cases hr
        exact ⟨rfl, _, _, BRun.nil.snoc (.future (.service_failed hf hsh)), .inl rfl, by simp, rfl, (fun h => by cases h), fun _ => by simp⟩
      | ok g =>
        simp only [hsh, Shot.get] at hr
        refine hin (x0 := { x.1 with futs := Function.update x.1.futs j (.inner g) }) (by simp) rfl (by simp) [.tau] (BRun.nil.snoc (.future (.arrived hf hsh))) (.inr rfl) hr

end

/-! ## Examples -/

namespace Demo85
open Demo (echo)

/-- the futures of the demo service keep the contract -/
abbrev Fine : echo.φ → Prop := FutSafe echo.fut (OkGood fun _ => True)

theorem echo_safe : SafeG ⟨false, false⟩ (fun _ => True) echo () := by
  refine SafeInv.safe (S := echo) (cfg := ⟨false, false⟩) { H := fun _ _ => True, F := fun _ => True, ready_ok := ?_, call_ok := ?_, poll_ok := ?_, clone_ok := ?_ } trivial
  · intro s m w _ _
    simp only [echo, wp]
    split
    · trivial
    · exact ⟨trivial, fun h => by cases h⟩
  · intro s r w _
    exact ⟨trivial, trivial⟩
  · intro f w _
    simp only [echo, wp]
    split <;> trivial
  · intro h
    cases h

/-- the world: the buffer, and a number that is the time and decides what the service does -/
abbrev Wd := BufOf echo Fine × Nat

/-- the clock -/
def clk : Clock Wd where
  now w := w.2
  fired d w := decide (d ≤ w.2)
  sound d w h := of_decide_eq_true h

/-- `LoadShed` over `Timeout` over a buffer. -/
abbrev Stack : Service Wd Nat Nat (ShedErr (TimeoutErr (BufErr Nat))) := LoadShed (Timeout clk 5 (BufHandle echo Fine))

/-- It keeps the contract, whatever happens to the buffer between any two of its operations. -/
theorem stack_safe : SafeG ⟨true, true⟩ (fun _ => True) Stack ⟨⟨.idle, 0⟩, false⟩ :=
  (Built.loadShed true (.timeout clk 5 (.base (C85_handle (fun _ h => h) 0)))).contract

/-- It puts at most as many requests into the buffer as it is given. -/
theorem stack_sends : Sender (fun x : Wd => x.1.1.calls) (fun _ => 1) Stack :=
  .loadShed (.timeout (fun _ _ => Nat.le_refl _) (.base C85_sends))

/-- A buffer over the demo service that has got a request, called the service, and sent the reply. -/
theorem replied : ∃ (tr : List (BEv echo)) (x : Buf echo), BHist echo 1 () tr x ∧ x.shots 0 = .sent (.ok (7 : Nat)) ∧ x.futs 0 = .rx ∧ x.hs = [⟨0, .idle⟩] := by
  have r := BRun.one (x := Buf.init echo 1 ()) (.handle (.ready (l := []) rfl))
  have r := r.snoc (.handle (.call (l := []) (q := 7) rfl rfl))
  have r := r.snoc (.worker (.start rfl))
  have r := r.snoc (.worker (.fresh rfl rfl))
  have r := r.snoc (.worker (.recv rfl rfl))
  have r := r.snoc (.worker (.wanted rfl rfl))
  have r := r.snoc (.worker (.svc_ready (w := (1 : Nat)) rfl rfl rfl))
  have r := r.snoc (.worker (.svc_call (w := (1 : Nat)) rfl rfl))
  have r := r.snoc (.worker (.reply rfl))
  exact ⟨_, _, r, rfl, rfl, rfl⟩

/-- a new buffer -/
def new : BufOf echo Fine := ⟨Buf.init echo 1 (), fun i f h => by cases h⟩

/-- The stack makes such a call, on a new buffer. -/
theorem stack_calls : ∃ (s : Stack.σ) (z : Wd), (Stack.pollReady ⟨⟨.idle, 0⟩, false⟩).run (new, 0) = .ok (.ready (.ok ()), s) z ∧
    ∃ s' z', (Stack.call s 7).run z = .ok (some (.rx (some 0), 5), s') z' ∧ z'.1.1.queue = [⟨0, 7⟩] := ⟨_, _, rfl, _, _, rfl, rfl⟩

/-- Its response future gets the response, from the buffer of `replied`. -/
theorem stack_answered : ∃ (tr : List (BEv echo)) (y : BufOf echo Fine), BHist echo 1 () tr y.1 ∧
    ∃ f' z', (Stack.poll (some (.rx (some 0), 5))).run (y, 2) = .ok (.ready (.ok (7 : Nat)), f') z' := by
  obtain ⟨tr, y, hy, h1, -, -⟩ := replied
  refine ⟨tr, ⟨y, C85_worlds echo_safe hy⟩, hy, some (.inner (7 : Nat), 5), (⟨y, C85_worlds echo_safe hy⟩, 2), ?_⟩
  have hp : ((BufHandle echo Fine).poll (.rx (some 0))).run ((⟨y, C85_worlds echo_safe hy⟩, 2) : Wd) = .ok (.ready (.ok (7 : Nat)), .inner (7 : Nat)) (⟨y, C85_worlds echo_safe hy⟩, 2) := by
    rw [run_bind_ok (run_lift _ _)]
    dsimp only
    rw [h1]
    rfl
  have ht : ((Timeout clk 5 (BufHandle echo Fine)).poll (.rx (some 0), 5)).run ((⟨y, C85_worlds echo_safe hy⟩, 2) : Wd) = .ok (.ready (.ok (7 : Nat)), (.inner (7 : Nat), 5)) (⟨y, C85_worlds echo_safe hy⟩, 2) :=
    run_bind_ok hp
  exact run_bind_ok ht

/-- A handle that forgets that it has got a permit, as if `poll_reserve` did not store it, -/
@[reducible] def Forgetful {W Req Res Err : Type} (S : Service W Req Res Err) (V : ChanView W Req S.φ Err) : Service W Req Res (BufErr Err) :=
  { BufferSvc S V with pollReady := fun s => do let (p, _) ← (BufferSvc S V).pollReady s; pure (p, s) }

/-- does not keep the contract: `call` panics after `poll_ready` said ready. -/
theorem C85_forgetful_violates : ¬ SafeG ⟨false, false⟩ (fun _ => True) (Forgetful (echo.snd (BufOf echo Fine)) (bufView echo Fine)) ⟨.idle, (0 : Nat)⟩ := by
  intro h
  exact h [.ready 0 (new, 0), .call 0 7 (new, 0)]

end Demo85
end Tower
