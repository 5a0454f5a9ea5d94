import Verif.Model.Layer
import Verif.Model.Middleware
import Verif.Model.BufferSvc

/-!
# The layers of tower, the methods of `ServiceBuilder` and of `ServiceExt`

`tower/src/*/layer.rs`, the `XLayer` types of `tower/src/util/*.rs`, `tower/src/builder/mod.rs`, `tower/src/util/mod.rs`,
`tower/src/filter/predicate.rs`. Making a service may read the clock (`RateLimit::new`) or make a semaphore (`ConcurrencyLimit::new`), so a
service under construction comes with the world.
-/

namespace Tower
variable {W : Type}

/-- Request, response and error type of a service: `Service<Request>`, `Response`, `Error`, `tower-service/src/lib.rs:311-319`. -/
structure Ty where
  Req : Type
  Res : Type
  Err : Type

/-- A service value: what its type does and its fields. `tower-service/src/lib.rs:311-356`. -/
structure Inst (W : Type) (t : Ty) where
  S : Service W t.Req t.Res t.Err
  s : S.σ

/-- A service value, and the world at the time it exists. For `Layer::layer`, `tower-layer/src/lib.rs:95-101`. -/
abbrev Site (W : Type) (t : Ty) := Inst W t × W

/-- `Arc::new(Semaphore::new(max))` and `PollSemaphore::new`, `tower/src/limit/concurrency/service.rs:28-39`: a new semaphore and a handle's view of it. -/
structure SemHeap (W : Type) where
  new : Nat → W → (Σ V : SemView W, V.α) × W

/-- `mpsc::channel(bound)` and `tokio::spawn(worker)`, `tower/src/buffer/service.rs:49-80`: the service moves into the worker, which is part of the world from then on; a new handle's view of the channel to it. -/
structure ChanHeap (W : Type) where
  new : {Q R E : Type} → (S : Service W Q R E) → S.σ → Nat → W → (Σ V : ChanView W Q S.φ E, V.α) × W

/-! ## Constructors: `X::new(inner, ...)` -/

/-- `Timeout::new`, `tower/src/timeout/mod.rs:28-30`. -/
def Site.timeout {Q R E : Type} (C : Clock W) (d : Nat) (x : Site W ⟨Q, R, E⟩) : Site W ⟨Q, R, TimeoutErr E⟩ := (⟨Timeout C d x.1.S, x.1.s⟩, x.2)

/-- `LoadShed::new`, `tower/src/load_shed/mod.rs:26-31`. -/
def Site.loadShed {Q R E : Type} (x : Site W ⟨Q, R, E⟩) : Site W ⟨Q, R, ShedErr E⟩ := (⟨LoadShed x.1.S, ⟨x.1.s, false⟩⟩, x.2)

/-- `RateLimit::new`, `tower/src/limit/rate/service.rs:30-46`. -/
def Site.rateLimit {t : Ty} (C : Clock W) (rate : Rate) (x : Site W t) : Site W t := (⟨RateLimit C rate x.1.S, RateLimit.new rate (C.now x.2) x.1.s⟩, x.2)

/-- `ConcurrencyLimit::new`, `tower/src/limit/concurrency/service.rs:28-39`. -/
def Site.concurrencyLimit {t : Ty} (debug : Bool) (H : SemHeap W) (max : Nat) (x : Site W t) : Site W t :=
  (⟨ConcurrencyLimit debug (H.new max x.2).1.1 x.1.S, ⟨x.1.s, (H.new max x.2).1.2, false⟩⟩, (H.new max x.2).2)

/-- `Buffer::new`, `tower/src/buffer/service.rs:49-59`. A bound of zero panics in tokio. -/
def Site.buffer {Q R E : Type} (H : ChanHeap W) (bound : Nat) (x : Site W ⟨Q, R, E⟩) : Site W ⟨Q, R, BufErr E⟩ :=
  (⟨BufferSvc x.1.S (H.new x.1.S x.1.s bound x.2).1.1, ⟨.idle, (H.new x.1.S x.1.s bound x.2).1.2⟩⟩, (H.new x.1.S x.1.s bound x.2).2)

/-- `Retry::new`, `tower/src/retry/mod.rs:52-54`. -/
def Site.retry {t : Ty} (fuel : Nat) (P : RetryPolicy W t.Req t.Res t.Err) (π : P.π) (x : Site W t) : Site W t := (⟨Retry fuel P x.1.S, ⟨π, x.1.s⟩⟩, x.2)

/-- `Filter::new`, `tower/src/filter/mod.rs:64-66`; `ServiceExt::filter`, `tower/src/util/mod.rs:671-677`. -/
def Site.filter {Q Q' R E B : Type} (into : E → B) (check : Q' → W → Except B Q × W) (x : Site W ⟨Q, R, E⟩) : Site W ⟨Q', R, B⟩ :=
  (⟨Filter into check x.1.S, x.1.s⟩, x.2)

/-- `AsyncFilter::new`, `tower/src/filter/mod.rs:126-128`; `ServiceExt::filter_async`, `tower/src/util/mod.rs:757-763`. -/
def Site.filterAsync {Q Q' R E B : Type} (into : E → B) (P : Fut W (Except B Q)) (check : Q' → W → P.φ × W) (x : Site W ⟨Q, R, E⟩) : Site W ⟨Q', R, B⟩ :=
  (⟨AsyncFilter into P check x.1.S, x.1.s⟩, x.2)

/-- `MapRequest::new`, `tower/src/util/map_request.rs:29-31`; `ServiceExt::map_request`, `tower/src/util/mod.rs:598-604`. -/
def Site.mapRequest {Q Q' R E : Type} (f : Q' → W → Q × W) (x : Site W ⟨Q, R, E⟩) : Site W ⟨Q', R, E⟩ := (⟨MapRequest f x.1.S, x.1.s⟩, x.2)

/-- `MapResponse::new`, `tower/src/util/map_response.rs:45-47`; `ServiceExt::map_response`, `tower/src/util/mod.rs:241-247`. -/
def Site.mapResponse {Q R R' E : Type} (f : R → W → R' × W) (x : Site W ⟨Q, R, E⟩) : Site W ⟨Q, R', E⟩ := (⟨MapResponse f x.1.S, x.1.s⟩, x.2)

/-- `MapErr::new`, `tower/src/util/map_err.rs:45-47`; `ServiceExt::map_err`, `tower/src/util/mod.rs:309-315`. -/
def Site.mapErr {Q R E E' : Type} (f : E → W → E' × W) (x : Site W ⟨Q, R, E⟩) : Site W ⟨Q, R, E'⟩ := (⟨MapErr f x.1.S, x.1.s⟩, x.2)

/-- `MapResult::new`, `tower/src/util/map_result.rs:45-47`; `ServiceExt::map_result`, `tower/src/util/mod.rs:538-545`. -/
def Site.mapResult {Q R R' E E' : Type} (into : E → E') (f : Except E R → W → Except E' R' × W) (x : Site W ⟨Q, R, E⟩) : Site W ⟨Q, R', E'⟩ :=
  (⟨MapResult into f x.1.S, x.1.s⟩, x.2)

/-- `MapFuture::new`, `tower/src/util/map_future.rs:20-22`; `ServiceExt::map_future`, `tower/src/util/mod.rs:937-945`. The closure takes the
response futures of the service it is put on, whatever service that is. -/
def Site.mapFuture {Q R R' E E' : Type} (into : E → E') (G : Service W Q R E → Fut W (Except E' R')) (f : (S : Service W Q R E) → S.φ → W → (G S).φ × W)
    (x : Site W ⟨Q, R, E⟩) : Site W ⟨Q, R', E'⟩ := (⟨MapFuture into x.1.S (G x.1.S) (f x.1.S), x.1.s⟩, x.2)

/-- `Then::new`, `tower/src/util/then.rs:41-43`; `ServiceExt::then`, `tower/src/util/mod.rs:863-871`. -/
def Site.andThenAlways {Q R R' E E' : Type} (into : E → E') (G : Fut W (Except E' R')) (f : Except E R → W → G.φ × W) (x : Site W ⟨Q, R, E⟩) :
    Site W ⟨Q, R', E'⟩ := (⟨Then into x.1.S G f, x.1.s⟩, x.2)

/-- `AndThen::new`, `tower/src/util/and_then.rs:77-79`; `ServiceExt::and_then`, `tower/src/util/mod.rs:172-178`. -/
def Site.andThen {Q R R' E E' : Type} (into : E → E') (G : Fut W (Except E' R')) (f : R → W → G.φ × W) (x : Site W ⟨Q, R, E⟩) :
    Site W ⟨Q, R', E'⟩ := (⟨AndThen into x.1.S G f, x.1.s⟩, x.2)

/-- `BoxService::new`, `BoxCloneService::new`, `tower/src/util/boxed/sync.rs:61-71`, `tower/src/util/boxed_clone.rs:50-57`; `ServiceExt::boxed`, `boxed_clone`,
`tower/src/util/mod.rs:987-993, 1036-1042`. -/
def Site.boxed {t : Ty} (x : Site W t) : Site W t := (⟨BoxService x.1.S, ⟨x.1.s⟩⟩, x.2)

/-- `SpawnReady::new`, `tower/src/spawn_ready/service.rs:29-33`. -/
def Site.spawnReady {Q R E : Type} (fuel : Nat) (rt : Runtime W) (x : Site W ⟨Q, R, E⟩) : Site W ⟨Q, R, SpawnErr E⟩ :=
  (⟨SpawnReady fuel rt x.1.S, .service (some x.1.s)⟩, x.2)

/-! ## Layers: the `XLayer` types -/

/-- The layers that tower provides, with their fields. Types `a` of the service it is applied to and `b` of the service made. -/
inductive StdLayer (W : Type) : Ty → Ty → Type 1
  /-- `TimeoutLayer`, `tower/src/timeout/layer.rs:7-16` -/
  | timeout {Q R E : Type} (C : Clock W) (d : Nat) : StdLayer W ⟨Q, R, E⟩ ⟨Q, R, TimeoutErr E⟩
  /-- `LoadShedLayer`, `tower/src/load_shed/layer.rs:9-19` -/
  | loadShed {Q R E : Type} : StdLayer W ⟨Q, R, E⟩ ⟨Q, R, ShedErr E⟩
  /-- `RateLimitLayer`, `tower/src/limit/rate/layer.rs:8-18` -/
  | rateLimit {t : Ty} (C : Clock W) (rate : Rate) : StdLayer W t t
  /-- `ConcurrencyLimitLayer`, `tower/src/limit/concurrency/layer.rs:9-19` -/
  | concurrencyLimit {t : Ty} (debug : Bool) (H : SemHeap W) (max : Nat) : StdLayer W t t
  /-- `BufferLayer`, `tower/src/buffer/layer.rs:12-42` -/
  | buffer {Q R E : Type} (H : ChanHeap W) (bound : Nat) : StdLayer W ⟨Q, R, E⟩ ⟨Q, R, BufErr E⟩
  /-- `RetryLayer`, `tower/src/retry/layer.rs:6-15` -/
  | retry {t : Ty} (fuel : Nat) (P : RetryPolicy W t.Req t.Res t.Err) (π : P.π) : StdLayer W t t
  /-- `FilterLayer`, `tower/src/filter/layer.rs:11-41`; the predicate's clones behave as the predicate -/
  | filter {Q Q' R E B : Type} (into : E → B) (check : Q' → W → Except B Q × W) : StdLayer W ⟨Q, R, E⟩ ⟨Q', R, B⟩
  /-- `AsyncFilterLayer`, `tower/src/filter/layer.rs:25-63` -/
  | filterAsync {Q Q' R E B : Type} (into : E → B) (P : Fut W (Except B Q)) (check : Q' → W → P.φ × W) : StdLayer W ⟨Q, R, E⟩ ⟨Q', R, B⟩
  /-- `MapRequestLayer`, `tower/src/util/map_request.rs:64-76` -/
  | mapRequest {Q Q' R E : Type} (f : Q' → W → Q × W) : StdLayer W ⟨Q, R, E⟩ ⟨Q', R, E⟩
  /-- `MapResponseLayer`, `tower/src/util/map_response.rs:17-20, 79-84` -/
  | mapResponse {Q R R' E : Type} (f : R → W → R' × W) : StdLayer W ⟨Q, R, E⟩ ⟨Q, R', E⟩
  /-- `MapErrLayer`, `tower/src/util/map_err.rs:17-20, 79-84` -/
  | mapErr {Q R E E' : Type} (f : E → W → E' × W) : StdLayer W ⟨Q, R, E⟩ ⟨Q, R, E'⟩
  /-- `MapResultLayer`, `tower/src/util/map_result.rs:17-20, 80-85` -/
  | mapResult {Q R R' E E' : Type} (into : E → E') (f : Except E R → W → Except E' R' × W) : StdLayer W ⟨Q, R, E⟩ ⟨Q, R', E'⟩
  /-- `MapFutureLayer`, `tower/src/util/map_future.rs:82-94` -/
  | mapFuture {Q R R' E E' : Type} (into : E → E') (G : Service W Q R E → Fut W (Except E' R')) (f : (S : Service W Q R E) → S.φ → W → (G S).φ × W) :
      StdLayer W ⟨Q, R, E⟩ ⟨Q, R', E'⟩
  /-- `ThenLayer`, `tower/src/util/then.rs:28-31, 84-89` -/
  | andThenAlways {Q R R' E E' : Type} (into : E → E') (G : Fut W (Except E' R')) (f : Except E R → W → G.φ × W) : StdLayer W ⟨Q, R, E⟩ ⟨Q, R', E'⟩
  /-- `AndThenLayer`, `tower/src/util/and_then.rs:66-69, 111-116` -/
  | andThen {Q R R' E E' : Type} (into : E → E') (G : Fut W (Except E' R')) (f : R → W → G.φ × W) : StdLayer W ⟨Q, R, E⟩ ⟨Q, R', E'⟩
  /-- `BoxService::layer()`, `BoxCloneService::layer()`, `tower/src/util/boxed/sync.rs:77-83`, `tower/src/util/boxed_clone.rs:64-71` -/
  | boxed {t : Ty} : StdLayer W t t
  /-- `SpawnReadyLayer`, `tower/src/spawn_ready/layer.rs:3-10` -/
  | spawnReady {Q R E : Type} (fuel : Nat) (rt : Runtime W) : StdLayer W ⟨Q, R, E⟩ ⟨Q, R, SpawnErr E⟩
  /-- `LayerFn`, `tower-layer/src/layer_fn.rs:63-67`, for any function that makes a service of one -/
  | layerFn {a b : Ty} (f : Site W a → Site W b) : StdLayer W a b
  /-- `Either<L, Identity>` as `option_layer(Some(l))` makes it, `tower/src/util/mod.rs:1067-1073` -/
  | optionSome {t : Ty} (l : StdLayer W t t) : StdLayer W t t
  /-- `option_layer(None)` -/
  | optionNone {t : Ty} : StdLayer W t t

/-- `Layer::layer` of each: `tower/src/timeout/layer.rs:21-23`, `load_shed/layer.rs:24-26`, `limit/rate/layer.rs:23-25`, `limit/concurrency/layer.rs:25-27`,
`buffer/layer.rs:53-55`, `retry/layer.rs:23-26`, `filter/layer.rs:46-49, 68-71`, `util/map_request.rs:84-89`, `util/map_response.rs:92-97`, `util/map_err.rs:92-97`,
`util/map_result.rs:93-98`, `util/map_future.rs:102-104`, `util/then.rs:97-102`, `util/and_then.rs:124-129`, `util/boxed/sync.rs:82`,
`spawn_ready/layer.rs:15-17`, `tower-layer/src/layer_fn.rs:70-72`, `util/either.rs:97-102`. Closures are cloned; a clone is taken to behave as the original. For
`option_layer(None)` the type of the other variant is not determined by a value; the model puts the service's own there. -/
def StdLayer.layer {a b : Ty} : StdLayer W a b → Site W a → Site W b
  | .timeout C d, x => x.timeout C d
  | .loadShed, x => x.loadShed
  | .rateLimit C rate, x => x.rateLimit C rate
  | .concurrencyLimit debug H max, x => x.concurrencyLimit debug H max
  | .buffer H bound, x => x.buffer H bound
  | .retry fuel P π, x => x.retry fuel P (P.clone π)
  | .filter into check, x => x.filter into check
  | .filterAsync into P check, x => x.filterAsync into P check
  | .mapRequest f, x => x.mapRequest f
  | .mapResponse f, x => x.mapResponse f
  | .mapErr f, x => x.mapErr f
  | .mapResult into f, x => x.mapResult into f
  | .mapFuture into G f, x => x.mapFuture into G f
  | .andThenAlways into G f, x => x.andThenAlways into G f
  | .andThen into G f, x => x.andThen into G f
  | .boxed, x => x.boxed
  | .spawnReady fuel rt, x => x.spawnReady fuel rt
  | .layerFn f, x => f x
  | .optionSome l, x => (⟨Either (l.layer x).1.S x.1.S, .inl (l.layer x).1.s⟩, (l.layer x).2)
  | .optionNone, x => (⟨Either x.1.S x.1.S, .inr x.1.s⟩, x.2)

/-- a layer as an argument of `ServiceBuilder::layer`, `tower/src/builder/mod.rs:132-136` -/
def StdLayer.expr {a b : Ty} (l : StdLayer W a b) : LayerExpr (Site W a) (Site W b) := .fn l.layer

/-! ## The methods of `ServiceBuilder` -/

/-- The methods of `ServiceBuilder` that add a layer, with their arguments, `tower/src/builder/mod.rs:132-853`. -/
inductive Method (W : Type) : Ty → Ty → Type 1
  | timeout {Q R E : Type} (C : Clock W) (d : Nat) : Method W ⟨Q, R, E⟩ ⟨Q, R, TimeoutErr E⟩
  | loadShed {Q R E : Type} : Method W ⟨Q, R, E⟩ ⟨Q, R, ShedErr E⟩
  | rateLimit {t : Ty} (C : Clock W) (num per : Nat) : Method W t t
  | concurrencyLimit {t : Ty} (debug : Bool) (H : SemHeap W) (max : Nat) : Method W t t
  | buffer {Q R E : Type} (H : ChanHeap W) (bound : Nat) : Method W ⟨Q, R, E⟩ ⟨Q, R, BufErr E⟩
  | retry {t : Ty} (fuel : Nat) (P : RetryPolicy W t.Req t.Res t.Err) (π : P.π) : Method W t t
  | filter {Q Q' R E B : Type} (into : E → B) (check : Q' → W → Except B Q × W) : Method W ⟨Q, R, E⟩ ⟨Q', R, B⟩
  | filterAsync {Q Q' R E B : Type} (into : E → B) (P : Fut W (Except B Q)) (check : Q' → W → P.φ × W) : Method W ⟨Q, R, E⟩ ⟨Q', R, B⟩
  | mapRequest {Q Q' R E : Type} (f : Q' → W → Q × W) : Method W ⟨Q, R, E⟩ ⟨Q', R, E⟩
  | mapResponse {Q R R' E : Type} (f : R → W → R' × W) : Method W ⟨Q, R, E⟩ ⟨Q, R', E⟩
  | mapErr {Q R E E' : Type} (f : E → W → E' × W) : Method W ⟨Q, R, E⟩ ⟨Q, R, E'⟩
  | mapResult {Q R R' E E' : Type} (into : E → E') (f : Except E R → W → Except E' R' × W) : Method W ⟨Q, R, E⟩ ⟨Q, R', E'⟩
  | mapFuture {Q R R' E E' : Type} (into : E → E') (G : Service W Q R E → Fut W (Except E' R')) (f : (S : Service W Q R E) → S.φ → W → (G S).φ × W) :
      Method W ⟨Q, R, E⟩ ⟨Q, R', E'⟩
  | andThenAlways {Q R R' E E' : Type} (into : E → E') (G : Fut W (Except E' R')) (f : Except E R → W → G.φ × W) : Method W ⟨Q, R, E⟩ ⟨Q, R', E'⟩
  | andThen {Q R R' E E' : Type} (into : E → E') (G : Fut W (Except E' R')) (f : R → W → G.φ × W) : Method W ⟨Q, R, E⟩ ⟨Q, R', E'⟩
  | boxed {t : Ty} : Method W t t
  | boxedClone {t : Ty} : Method W t t
  | layer {a b : Ty} (l : StdLayer W a b) : Method W a b
  | layerFn {a b : Ty} (f : Site W a → Site W b) : Method W a b
  | optionLayer {t : Ty} (l : Option (StdLayer W t t)) : Method W t t

/-- Calling a method on a builder, `tower/src/builder/mod.rs`. `rate_limit(num, per)` panics unless `num` and `per` are positive (`Rate::new`,
`tower/src/limit/rate/rate.rs:16-21`); that is `Method.Legal` in the theorems. -/
def ServiceBuilder.invoke {γ : Type 1} {a b : Ty} (B : ServiceBuilder (Site W b) γ) : Method W a b → ServiceBuilder (Site W a) γ
  | .timeout C d => B.layer (StdLayer.timeout C d).expr                               -- :263-268
  | .loadShed => B.layer StdLayer.loadShed.expr                                       -- :219-221
  | .rateLimit C num per => B.layer (StdLayer.rateLimit C ⟨num, per⟩).expr            -- :230-236
  | .concurrencyLimit debug H max => B.layer (StdLayer.concurrencyLimit debug H max).expr -- :196-201
  | .buffer H bound => B.layer (StdLayer.buffer H bound).expr                         -- :178-183
  | .retry fuel P π => B.layer (StdLayer.retry fuel P π).expr                         -- :249-251
  | .filter into check => B.layer (StdLayer.filter into check).expr                   -- :280-285
  | .filterAsync into P check => B.layer (StdLayer.filterAsync into P check).expr     -- :297-302
  | .mapRequest f => B.layer (StdLayer.mapRequest f).expr                             -- :365-373
  | .mapResponse f => B.layer (StdLayer.mapResponse f).expr                           -- :385-390
  | .mapErr f => B.layer (StdLayer.mapErr f).expr                                     -- :402-404
  | .mapResult into f => B.layer (StdLayer.mapResult into f).expr                     -- :475-477
  | .mapFuture into G f => B.layer (StdLayer.mapFuture into G f).expr                 -- :415-417
  | .andThenAlways into G f => B.layer (StdLayer.andThenAlways into G f).expr         -- :438-440
  | .andThen into G f => B.layer (StdLayer.andThen into G f).expr                     -- :459-461
  | .boxed => B.layer StdLayer.boxed.expr                                             -- :706-729
  | .boxedClone => B.layer StdLayer.boxed.expr                                        -- :769-792
  | .layer l => B.layer l.expr                                                        -- :132-136
  | .layerFn f => B.layer (StdLayer.layerFn f).expr                                   -- :167-169
  | .optionLayer (some l) => B.layer (StdLayer.optionSome l).expr                     -- :155-160
  | .optionLayer none => B.layer StdLayer.optionNone.expr

/-- a chain of method calls `.m1(..).m2(..)...mn(..)` on a builder; `tower/src/builder/mod.rs:132-853` -/
inductive Chain (W : Type) : Ty → Ty → Type 1
  | nil {t : Ty} : Chain W t t
  | cons {a b c : Ty} (m : Method W b c) (rest : Chain W a b) : Chain W a c

/-- `builder.m1(..).m2(..)...mn(..)`, `tower/src/builder/mod.rs:132-853` -/
def ServiceBuilder.invokes {γ : Type 1} {a b : Ty} (B : ServiceBuilder (Site W b) γ) : Chain W a b → ServiceBuilder (Site W a) γ
  | .nil => B
  | .cons m rest => (B.invoke m).invokes rest

/-- `BoxCloneSyncServiceLayer::new(layer)`, `tower/src/util/boxed/layer_clone_sync.rs:92-116`; `BoxLayer::new`, `BoxCloneServiceLayer::new`,
`tower/src/util/boxed/layer.rs:60-84`, `layer_clone.rs:91-115`. -/
def BoxLayer.new {α : Type 1} {b : Ty} (inner : LayerExpr α (Site W b)) : LayerExpr α (Site W b) :=
  .fn (fun x =>
    let out := inner.layer x
    out.boxed)

/-- `ServiceBuilder::boxed_clone_sync`, `tower/src/builder/mod.rs:832-852`. -/
def ServiceBuilder.boxedCloneSync {α : Type 1} {b : Ty} (B : ServiceBuilder α (Site W b)) : ServiceBuilder α (Site W b) :=
  ServiceBuilder.new.layer (BoxLayer.new B.inner)

/-- `ServiceBuilder::service_fn`, `tower/src/builder/mod.rs:540-545`, `service_fn`, `tower/src/util/service_fn.rs:47-49`. -/
def ServiceBuilder.serviceFn {γ : Type 1} {Q R E : Type} (B : ServiceBuilder (Site W ⟨Q, R, E⟩) γ) (F : Fut W (Except E R)) (f : Q → W → F.φ × W) (w : W) : γ :=
  B.service (⟨ServiceFn F f, ()⟩, w)

/-! ## Predicates made of closures -/

/-- A closure `FnMut(T) -> Result<R, E>` as a `Predicate`, `tower/src/filter/predicate.rs:53-63`. -/
def closurePredicate {Q Q' E B : Type} (into : E → B) (f : Q' → W → Except E Q × W) : Q' → W → Except B Q × W :=
  fun r w => (Tower.mapErr into (f r w).1, (f r w).2)

/-- `futures_util`'s `ErrInto`, used at `tower/src/filter/predicate.rs:42-49`: the error of a future converted. -/
def Fut.errInto {A E B : Type} (into : E → B) (F : Fut W (Except E A)) : Fut W (Except B A) where
  φ := F.φ
  poll x := do
    let (p, x') ← F.poll x
    pure (p.map (Tower.mapErr into), x')

/-- A closure `FnMut(T) -> impl Future<Output = Result<R, E>>` as an `AsyncPredicate`, `tower/src/filter/predicate.rs:36-50`. -/
def closureAsyncPredicate {Q Q' E B : Type} (into : E → B) (F : Fut W (Except E Q)) (f : Q' → W → F.φ × W) : Q' → W → (F.errInto into).φ × W := f

end Tower
