import Verif.Model.Hedge

/-! # Loops as the code writes them

Four polls of the code are written as `loop { match state { … } }` and are unrolled in the model (`Oneshot`, `FutureService`, `AsyncFilter`, `Delay`). Here are the loops, iteration by iteration; `fuel` bounds the iterations and `spin` is "still going round". -/

namespace Tower
variable {W Req Res Err : Type}

/-- The `loop` of `Oneshot::poll`, `tower/src/util/oneshot.rs:85-105`. -/
def oneshotLoop (S : Service W Req Res Err) : Nat → OneshotState S.σ Req S.φ → Act W (Poll (Except Err Res) × OneshotState S.σ Req S.φ)
  | 0, _ => Act.spin
  | n + 1, .notReady s req => do                     -- :89-93
    let (p, s') ← S.pollReady s
    match p with
    | .pending => pure (.pending, .notReady s' req)
    | .ready (.error e) => pure (.ready (.error e), .notReady s' req)
    | .ready (.ok ()) =>
      match req with
      | none => Act.panic "already called"
      | some r => do
        let (f, _) ← S.call s' r
        oneshotLoop S n (.called f)
  | _ + 1, .called f => do                           -- :94-98
    let (p, f') ← S.poll f
    match p with
    | .pending => pure (.pending, .called f')
    | .ready (.error e) => pure (.ready (.error e), .called f')
    | .ready (.ok a) => pure (.ready (.ok a), .done)
  | _ + 1, .done => Act.panic "polled after complete" -- :99

/-- The `loop` of `FutureService::poll_ready`, `tower/src/util/future_service.rs:152-163`. -/
def futureServiceLoop (S : Service W Req Res Err) (F : Fut W (Except Err S.σ)) : Nat → FsState F.φ S.σ → Act W (Poll (Except Err Unit) × FsState F.φ S.σ)
  | 0, _ => Act.spin
  | n + 1, .future f => do                           -- :155-159
    let (p, f') ← F.poll f
    match p with
    | .pending => pure (.pending, .future f')
    | .ready (.error e) => pure (.ready (.error e), .future f')
    | .ready (.ok s) => futureServiceLoop S F n (.service s)
  | _ + 1, .service s => do                          -- :160
    let (q, s') ← S.pollReady s
    pure (q, .service s')

/-- The `loop` of `AsyncResponseFuture::poll`, `tower/src/filter/future.rs:82-97`. -/
def asyncFilterLoop {R1 BErr : Type} (into : Err → BErr) (P : Fut W (Except BErr R1)) (S : Service W R1 Res Err) : Nat → AsyncFilterFut P.φ S.σ S.φ →
    Act W (Poll (Except BErr Res) × AsyncFilterFut P.φ S.σ S.φ)
  | 0, _ => Act.spin
  | n + 1, .check c s => do                          -- :87-91
    let (p, c') ← P.poll c
    match p with
    | .pending => pure (.pending, .check c' s)
    | .ready (.error e) => pure (.ready (.error e), .check c' s)
    | .ready (.ok r) => do
      let (x, _) ← S.call s r
      asyncFilterLoop into P S n (.waitResponse x)
  | _ + 1, .waitResponse x => do                     -- :92-94
    let (q, x') ← S.poll x
    pure (q.map (mapErr into), .waitResponse x')

/-- The `loop` of the hedge's `Delay` future, `tower/src/hedge/delay.rs:108-125`. -/
def delayLoop {BErr : Type} (into : Err → BErr) (C : Clock W) (S : Service W Req Res Err) : Nat → DelayFut S.σ Req (Oneshot S).φ →
    Act W (Poll (Except BErr Res) × DelayFut S.σ Req (Oneshot S).φ)
  | 0, _ => Act.spin
  | n + 1, .delaying dl r s => do                    -- :113-119
    let w ← Act.get
    if C.fired dl w = true then delayLoop into C S n (.called (.notReady s (some r)))
    else do
      Act.modify (C.arm dl)
      pure (.pending, .delaying dl r s)
  | _ + 1, .called x => do                           -- :120-122
    let (p, x') ← (Oneshot S).poll x
    pure (p.map (mapErr into), .called x')

end Tower
