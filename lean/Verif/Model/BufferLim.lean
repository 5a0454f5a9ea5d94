import Verif.Model.Buffer
import Verif.Model.LimWake
import Verif.Model.RetryLimit

/-!
# `ServiceBuilder::new().buffer(bound).concurrency_limit(max)`

The buffer of `Model/Buffer.lean` around a `ConcurrencyLimit`, with the semaphore of the limit: the worker has the only handle of the limit, the response futures of the limit travel to the response futures of the buffer
and are dropped there. `buf.sem` is the semaphore of the channel, `sem` that of the limit.
-/

namespace Tower
variable {W Req Res Err : Type}

/-- The buffer and the limit below it. `handle`: the worker's `ConcurrencyLimit` (until it is dropped); `live`: the response futures of the limit that exist, with the number of the call; `woken`: the limit's handle is in this list
if the semaphore woke the worker's task since it last polled the limit. `tower/src/buffer/worker.rs:16-41`, `tower/src/buffer/future.rs:13-39`, `tower/src/limit/concurrency/service.rs:15-24`. -/
structure BufLim (debug : Bool) (S : Service W Req Res Err) where
  buf : Buf (LimSvc debug S)
  sem : Sem
  handle : List (ConcState S.σ Nat)
  live : List (Nat × S.φ)
  woken : List Nat

/-- One step of the stack, its users and its executor: a step of the buffer (`BStep`), in which code of the limit runs with the semaphore as it is. Drops of futures and of the worker's service give permits back.
`tower/src/buffer/service.rs:87-144`, `tower/src/buffer/worker.rs:142-205`, `tower/src/buffer/future.rs:62-78`, `tower/src/limit/concurrency/service.rs:57-107`. -/
inductive BLStep {debug : Bool} {S : Service W Req Res Err} : BufLim debug S → BEv (LimSvc debug S) → BufLim debug S → Prop
  /-- a handle of the buffer is polled, called, cloned or dropped: buffer/service.rs:87-144 -/
  | handle {x : BufLim debug S} {ev y} : HStep x.buf ev y → BLStep x ev { x with buf := y }
  /-- the worker, without touching its service: buffer/worker.rs:72-138, 148-206 -/
  | worker {x : BufLim debug S} {ev y} : WStep x.buf ev y → (∀ m, x.buf.pc = .got m → x.buf.failed ≠ none) → (∀ m, x.buf.pc ≠ .call m) → (∀ m f, x.buf.pc ≠ .reply m f) → BLStep x ev { x with buf := y }
  /-- the worker polls the limit, which is ready: worker.rs:168-169 -/
  | svc_ready {x : BufLim debug S} {m w} {s s' : ConcState S.σ Nat} {sem' w'} : x.buf.pc = .got m → x.buf.failed = none → x.handle = [s] →
      ((LimSvc debug S).pollReady s).run (x.sem, w) = .ok (.ready (.ok ()), s') (sem', w') →
      BLStep x .tau { x with buf := { x.buf with svc := s', pc := .call m }, sem := sem', handle := [s'], woken := x.woken.filter (· ≠ s.sem) }
  /-- ... is not: worker.rs:180-186 -/
  | svc_pending {x : BufLim debug S} {m w} {s s' : ConcState S.σ Nat} {sem' w'} : x.buf.pc = .got m → x.buf.failed = none → x.handle = [s] →
      ((LimSvc debug S).pollReady s).run (x.sem, w) = .ok (.pending, s') (sem', w') →
      BLStep x .svcPending { x with buf := { x.buf with svc := s', cur := some m, pc := .parked }, sem := sem', handle := [s'], woken := x.woken.filter (· ≠ s.sem) }
  /-- ... has failed: worker.rs:187-190 -/
  | svc_failed {x : BufLim debug S} {m e w} {s s' : ConcState S.σ Nat} {sem' w'} : x.buf.pc = .got m → x.buf.failed = none → x.handle = [s] →
      ((LimSvc debug S).pollReady s).run (x.sem, w) = .ok (.ready (.error e), s') (sem', w') →
      BLStep x (.svcFailed e) { x with buf := { x.buf with svc := s', pc := .fail1 m e }, sem := sem', handle := [s'], woken := x.woken.filter (· ≠ s.sem) }
  /-- the worker calls the limit: worker.rs:171 -/
  | svc_call {x : BufLim debug S} {m w} {f : S.φ} {s s' : ConcState S.σ Nat} {sem' w'} : x.buf.pc = .call m → x.handle = [s] →
      ((LimSvc debug S).call s m.req).run (x.sem, w) = .ok (f, s') (sem', w') →
      BLStep x (.dispatch m.id m.req f) { x with buf := { x.buf with svc := s', pc := .reply m f }, sem := sem', handle := [s'], live := x.live ++ [(m.id, f)] }
  /-- the response future of the limit is sent to that of the buffer: worker.rs:178 -/
  | reply {x : BufLim debug S} {m f} : x.buf.pc = .reply m f → x.buf.cancelled m.id = false → BLStep x .tau { x with buf := { x.buf.send m.id (.ok f) with pc := .next } }
  /-- ... which is gone: it is dropped, with its permit: worker.rs:178 -/
  | reply_unwanted {x : BufLim debug S} {m} {f : S.φ} {l r : List (Nat × S.φ)} : x.buf.pc = .reply m f → x.buf.cancelled m.id = true → x.live = l ++ (m.id, f) :: r →
      BLStep x .tau { x with buf := { x.buf.send m.id (.ok f) with pc := .next }, sem := x.sem.release, live := l ++ r, woken := x.woken ++ x.sem.releaseWakes }
  /-- the service panics in `poll_ready`, with the permit held before or acquired just now: worker.rs:168, limit/concurrency/service.rs:68-79 -/
  | ready_panics {x : BufLim debug S} {m w msg} {i : S.σ} {s : ConcState S.σ Nat} {sem'} : x.buf.pc = .got m → x.buf.failed = none → x.handle = [s] →
      ((LimSvc debug S).pollReady s).run (x.sem, w) = .panic msg → (s.permit = true ∧ sem' = x.sem ∨ s.permit = false ∧ x.sem.pollAcquire s.sem = (true, sem')) →
      BLStep x .svcPanics { x with buf := { x.buf.dropMsg m.id with pc := .unwinding }, sem := sem', handle := [⟨i, s.sem, true⟩], woken := x.woken.filter (· ≠ s.sem) }
  /-- the service panics in `call`: the permit is dropped: worker.rs:171, limit/concurrency/service.rs:85-93 -/
  | call_panics {x : BufLim debug S} {m w msg} {i : S.σ} {s : ConcState S.σ Nat} : x.buf.pc = .call m → x.handle = [s] → s.permit = true →
      ((LimSvc debug S).call s m.req).run (x.sem, w) = .panic msg →
      BLStep x .svcPanics { x with buf := { x.buf.dropMsg m.id with pc := .unwinding }, sem := x.sem.release, handle := [⟨i, s.sem, false⟩], woken := x.woken ++ x.sem.releaseWakes }
  /-- the executor drops the worker, or the channel goes: worker.rs:16-41, up to the field `service` -/
  | death {x : BufLim debug S} {ev y} : DStep x.buf ev y → (∀ m, x.buf.pc ≠ .got m) → (∀ m, x.buf.pc ≠ .call m) → (x.buf.pc = .dropping → x.buf.queue ≠ []) → BLStep x ev { x with buf := y }
  /-- the field `service` of the worker is dropped, with its permit: worker.rs:23, limit/concurrency/service.rs:15-24 -/
  | drained {x : BufLim debug S} {s : ConcState S.σ Nat} : x.buf.pc = .dropping → x.buf.queue = [] → x.handle = [s] →
      BLStep x .tau { x with buf := { x.buf with pc := .dead }, sem := dropLimit s x.sem, handle := [], woken := x.woken ++ x.sem.dropWakes s.sem ++ (if s.permit = true then (x.sem.dropAcquire s.sem).releaseWakes else []) }
  /-- a response future is polled that has no response future of the limit (yet): buffer/future.rs:62-72 -/
  | future {x : BufLim debug S} {ev y} : FStep x.buf ev y → (∀ i, ev ≠ .dropFut i) → (∀ i p f, ev = .poll i p → x.buf.futs i ≠ .inner f) → BLStep x ev { x with buf := y }
  /-- a response future polls the one of the limit, which is pending: buffer/future.rs:74, limit/concurrency/future.rs:38-40 -/
  | inner_pending {x : BufLim debug S} {i w} {f f' : S.φ} {l r : List (Nat × S.φ)} {sem' w'} : x.buf.futs i = .inner f → x.live = l ++ (i, f) :: r →
      ((LimSvc debug S).poll f).run (x.sem, w) = .ok (.pending, f') (sem', w') →
      BLStep x (.poll i .pending) { x with buf := { x.buf with futs := Function.update x.buf.futs i (.inner f') }, sem := sem', live := l ++ (i, f') :: r }
  /-- ... is done; it exists, with its permit, until the response future of the buffer is dropped -/
  | inner_done {x : BufLim debug S} {i w v} {f f' : S.φ} {l r : List (Nat × S.φ)} {sem' w'} : x.buf.futs i = .inner f → x.live = l ++ (i, f) :: r →
      ((LimSvc debug S).poll f).run (x.sem, w) = .ok (.ready v, f') (sem', w') →
      BLStep x (.poll i (.ready (mapErr .inner v))) { x with buf := { x.buf with futs := Function.update x.buf.futs i .finished }, sem := sem', live := l ++ (i, f') :: r }
  /-- a response future is dropped with that of the limit, or with the channel through which it was sent: buffer/future.rs:13-39 -/
  | drop_future {x : BufLim debug S} {i} {f : S.φ} {l r : List (Nat × S.φ)} : x.buf.futs i ≠ .none → x.buf.futs i ≠ .dropped → x.live = l ++ (i, f) :: r → (∀ m g, x.buf.pc = .reply m g → m.id ≠ i) →
      BLStep x (.dropFut i) { x with buf := { x.buf with futs := Function.update x.buf.futs i .dropped }, sem := x.sem.release, live := l ++ r, woken := x.woken ++ x.sem.releaseWakes }
  /-- ... without one: the request was not dispatched, or has failed, or the worker has not sent it yet -/
  | drop_waiting {x : BufLim debug S} {i} : x.buf.futs i ≠ .none → x.buf.futs i ≠ .dropped → (i ∉ x.live.map Prod.fst ∨ ∃ m g, x.buf.pc = .reply m g ∧ m.id = i) →
      BLStep x (.dropFut i) { x with buf := { x.buf with futs := Function.update x.buf.futs i .dropped } }

/-- Every history of the stack, with what is seen of the buffer: `tower/src/buffer/service.rs:66-80`, `tower/src/limit/concurrency/service.rs:28-40`. -/
inductive BLHist (debug : Bool) (bound max : Nat) (S : Service W Req Res Err) (i : S.σ) : List (BEv (LimSvc debug S)) → BufLim debug S → Prop
  | new : BLHist debug bound max S i [] ⟨Buf.init (LimSvc debug S) bound ⟨i, 0, false⟩, Sem.new max, [⟨i, 0, false⟩], [], []⟩
  | step {tr x ev y} : BLHist debug bound max S i tr x → BLStep x ev y → BLHist debug bound max S i (tr ++ [ev]) y

end Tower
