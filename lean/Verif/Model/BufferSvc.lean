import Verif.Model.Buffer

/-!
# `Buffer` as a service inside other services

`Verif/Model/Buffer.lean` models a buffer with everything that belongs to it: handles, channel, oneshots, worker. Here is what middleware around a handle sees of it: the `Service` implementation of
`Buffer` and its response future, over an arbitrary view of the channel (`ChanView`). `bufView` is the view of the channel of a `Buf`, in which the worker and the other handles act between any two operations.
-/

namespace Tower
variable {W Req Res Err : Type}

/-- What one handle of a buffer sees of the channel to the worker: its reserve future (`α`; `fresh` is that of a new handle) and `poll_reserve` (`ready true`: has a permit; `ready false`: the channel is closed);
the receiver of a request's oneshot channel (`ρ`), made by `send`, and its `poll` (`none`: the sender was dropped); the error the worker has left. The channel itself and the worker are part of the world. For
`tower/src/buffer/service.rs:18-22`, `tower/src/buffer/message.rs:13-16`, `tower/src/buffer/worker.rs:210-219`. -/
structure ChanView (W Req φ Err : Type) where
  α : Type
  fresh : α → α
  pollReserve : α → W → (Poll Bool × α) × W
  ρ : Type
  send : Req → W → ρ × W
  pollRx : ρ → W → (Poll (Option (Except Err φ)) × ρ) × W
  error : W → Option Err

/-- `get_worker_error`, `tower/src/buffer/service.rs:82-84`, `Handle::get_error_on_closed`, `tower/src/buffer/worker.rs:210-219`. -/
def ChanView.workerError {φ : Type} (V : ChanView W Req φ Err) (w : W) : BufErr Err :=
  match V.error w with
  | some e => .service e
  | none => .closed

/-- A `Buffer` handle: `PollSender` with its state and its reserve future. `tower/src/buffer/service.rs:18-22`. -/
structure BufSt (α : Type) where
  st : HSt
  acq : α

/-- `ResponseFuture`, `tower/src/buffer/future.rs:13-39`. `rx none`: the oneshot receiver has given its value. -/
inductive BufFut (ρ φ Err : Type) where
  | failed (e : Option (BufErr Err))
  | rx (r : Option ρ)
  | inner (f : φ)

/-- `PollSender::poll_reserve` of a handle without a permit (tokio-util), with the error mapped as in `tower/src/buffer/service.rs:105-107`. -/
def BufSt.reserve {φ : Type} (V : ChanView W Req φ Err) (s : BufSt V.α) : Act W (Poll (Except (BufErr Err) Unit) × BufSt V.α) := do
  let (p, a) ← Act.lift (V.pollReserve s.acq)
  match p with
  | .pending => pure (.pending, ⟨.acquiring, a⟩)
  | .ready true => pure (.ready (.ok ()), ⟨.ready, a⟩)
  | .ready false => do
    let w ← Act.get
    pure (.ready (.error (V.workerError w)), ⟨.closed, a⟩)

/-- The last arm of `ResponseFuture::poll`, `tower/src/buffer/future.rs:75`. -/
def BufFut.pollInner {ρ : Type} (S : Service W Req Res Err) (f : S.φ) : Act W (Poll (Except (BufErr Err) Res) × BufFut ρ S.φ Err) := do
  let (p, f') ← S.poll f
  pure (p.map (mapErr .inner), .inner f')

/-- `impl Service for Buffer`, `tower/src/buffer/service.rs:87-131`, `Clone`, `:133-144`; `ResponseFuture::poll`, `tower/src/buffer/future.rs:62-78` (the loop is unrolled: from `Rx` it goes at most once to `Poll`). `S` is the service
the worker has; the handle does not use it, only the futures it made. -/
@[reducible] def BufferSvc (S : Service W Req Res Err) (V : ChanView W Req S.φ Err) : Service W Req Res (BufErr Err) where
  σ := BufSt V.α
  φ := BufFut V.ρ S.φ Err
  pollReady s :=
    match s.st with
    | .closed => do                                                                          -- service.rs:99-102
      let w ← Act.get
      pure (.ready (.error (V.workerError w)), s)
    | .ready => pure (.ready (.ok ()), s)                                                    -- :105-107
    | .idle => s.reserve V
    | .acquiring => s.reserve V
  call s q :=
    match s.st with
    | .ready => do                                                                           -- :122-123
      let r ← Act.lift (V.send q)
      pure (.rx (some r), ⟨.idle, s.acq⟩)
    | .closed => do                                                                          -- :125-128
      let w ← Act.get
      pure (.failed (some (V.workerError w)), s)
    | .idle => Act.panic "`send_item` called without first calling `poll_reserve`"
    | .acquiring => Act.panic "`send_item` called without first calling `poll_reserve`"
  poll
    | .failed (some e) => pure (.ready (.error e), .failed none)                             -- future.rs:67-69
    | .failed none => Act.panic "polled after error"
    | .rx none => Act.panic "called after complete"
    | .rx (some r) => do                                                                     -- :70-74
      let (p, r') ← Act.lift (V.pollRx r)
      match p with
      | .pending => pure (.pending, .rx (some r'))
      | .ready (some (.ok f)) => BufFut.pollInner S f
      | .ready (some (.error e)) => pure (.ready (.error (.service e)), .rx none)
      | .ready none => pure (.ready (.error .closed), .rx none)
    | .inner f => BufFut.pollInner S f                                                       -- :75
  clone s := ⟨.idle, V.fresh s.acq⟩                                                          -- service.rs:138-143

/-- A buffer in which all futures that wait for their receivers satisfy `P`. For `tower/src/buffer/message.rs:13-16`. -/
abbrev BufOf (S : Service W Req Res Err) (P : S.φ → Prop) : Type := { x : Buf S // ∀ i f, x.shots i = .sent (.ok f) → P f }

/-- `mpsc::Sender::send` through a permit, with the new oneshot. `tower/src/buffer/service.rs:120-123`. -/
def BufOf.push {S : Service W Req Res Err} {P : S.φ → Prop} (x : BufOf S P) (q : Req) : BufOf S P :=
  ⟨{ x.1 with
      queue := x.1.queue ++ [⟨x.1.calls, q⟩]
      shots := Function.update x.1.shots x.1.calls .waiting
      futs := Function.update x.1.futs x.1.calls .rx
      calls := x.1.calls + 1 }, by
    intro i f h
    by_cases hi : i = x.1.calls
    · subst hi; simp at h
    · exact x.2 i f (by simpa [hi] using h)⟩

/-- The semaphore of the channel changes. `tower/src/buffer/service.rs:105-107`. -/
def BufOf.withSem {S : Service W Req Res Err} {P : S.φ → Prop} (x : BufOf S P) (sem : Sem) : BufOf S P := ⟨{ x.1 with sem := sem }, x.2⟩

/-- What `poll_reserve` says, without the error. `tower/src/buffer/service.rs:105-107`. -/
def reserved : Poll (Except (BufErr Err) Unit) → Poll Bool
  | .pending => .pending
  | .ready (.ok _) => .ready true
  | .ready (.error _) => .ready false

/-- `poll` of a oneshot's receiver (tokio). `tower/src/buffer/future.rs:70`. -/
def Shot.get {φ E : Type} : Shot φ E → Poll (Option (Except E φ))
  | .waiting => .pending
  | .sent v => .ready (some v)
  | .gone => .ready none

/-- The channel of a `Buf`, as one handle sees it: the world is what the buffer is now (the worker and the other handles change it between two operations of the handle), and the rest of the world. Handles are
named by a number, as in `semView`; the list of handles (`hs`) and the record of response futures (`futs`) of the `Buf` are kept by its history. For `tower/src/buffer/service.rs:87-131`. -/
@[reducible] def bufView (S : Service W Req Res Err) (P : S.φ → Prop) : ChanView (BufOf S P × W) Req S.φ Err where
  α := Nat
  fresh := id
  pollReserve h x := ((reserved (x.1.1.reserve ⟨h, .idle⟩).1, h), (x.1.withSem (x.1.1.reserve ⟨h, .idle⟩).2.2, x.2))
  ρ := Nat
  send q x := (x.1.1.calls, (x.1.push q, x.2))
  pollRx i x := (((x.1.1.shots i).get, i), x)
  error x := x.1.1.err

/-- A handle of a buffer, as a service: over the buffer's own channel, whatever the worker and other handles do. `tower/src/buffer/service.rs:87-131`. -/
abbrev BufHandle (S : Service W Req Res Err) (P : S.φ → Prop) : Service (BufOf S P × W) Req Res (BufErr Err) := BufferSvc (S.snd (BufOf S P)) (bufView S P)

end Tower
