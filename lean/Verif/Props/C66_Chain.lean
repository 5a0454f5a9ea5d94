import Verif.Model.Chain
import Verif.Props.C01_Contract
import Verif.Props.C51_Layers
import Verif.Props.C85_BufferStack

/-! # C66: chains of `ServiceBuilder` methods -/

set_option linter.unusedSimpArgs false

namespace Tower
open Act
variable {W : Type}

/-! ## Specification -/

/-- The service one would make by hand, calling the constructor of the middleware that the method is named after with the method's arguments. -/
def Method.byHand {a b : Ty} : Method W a b → Site W a → Site W b
  | .timeout C d, x => (⟨Timeout C d x.1.S, x.1.s⟩, x.2)
  | .loadShed, x => (⟨LoadShed x.1.S, ⟨x.1.s, false⟩⟩, x.2)
  | .rateLimit C num per, x => (⟨RateLimit C ⟨num, per⟩ x.1.S, RateLimit.new ⟨num, per⟩ (C.now x.2) x.1.s⟩, x.2)
  | .concurrencyLimit debug H max, x =>
    let v := H.new max x.2
    (⟨ConcurrencyLimit debug v.1.1 x.1.S, ⟨x.1.s, v.1.2, false⟩⟩, v.2)
  | .buffer H bound, x =>
    let v := H.new x.1.S x.1.s bound x.2
    (⟨BufferSvc x.1.S v.1.1, ⟨.idle, v.1.2⟩⟩, v.2)
  | .retry fuel P π, x => (⟨Retry fuel P x.1.S, ⟨P.clone π, x.1.s⟩⟩, x.2)
  | .filter into check, x => (⟨Filter into check x.1.S, x.1.s⟩, x.2)
  | .filterAsync into P check, x => (⟨AsyncFilter into P check x.1.S, x.1.s⟩, x.2)
  | .mapRequest f, x => (⟨MapRequest f x.1.S, x.1.s⟩, x.2)
  | .mapResponse f, x => (⟨MapResponse f x.1.S, x.1.s⟩, x.2)
  | .mapErr f, x => (⟨MapErr f x.1.S, x.1.s⟩, x.2)
  | .mapResult into f, x => (⟨MapResult into f x.1.S, x.1.s⟩, x.2)
  | .mapFuture into G f, x => (⟨MapFuture into x.1.S (G x.1.S) (f x.1.S), x.1.s⟩, x.2)
  | .andThenAlways into G f, x => (⟨Then into x.1.S G f, x.1.s⟩, x.2)
  | .andThen into G f, x => (⟨AndThen into x.1.S G f, x.1.s⟩, x.2)
  | .boxed, x => (⟨BoxService x.1.S, ⟨x.1.s⟩⟩, x.2)
  | .boxedClone, x => (⟨BoxService x.1.S, ⟨x.1.s⟩⟩, x.2)
  | .layer l, x => l.layer x
  | .layerFn f, x => f x
  | .optionLayer (some l), x => (⟨Either (l.layer x).1.S x.1.S, .inl (l.layer x).1.s⟩, (l.layer x).2)
  | .optionLayer none, x => (⟨Either x.1.S x.1.S, .inr x.1.s⟩, x.2)

/-- `m1(m2(...mn(x)))`, made by hand from the inside out -/
def Chain.byHand {a b : Ty} : Chain W a b → Site W a → Site W b
  | .nil, x => x
  | .cons m rest, x => m.byHand (rest.byHand x)

/-- What the workers of buffers are taken to do: futures come out of the channel only if the worker got them from a lawful use of its service; so they are as good as that service is. (`C85_worlds` shows this of the worker.) -/
def ChanHeap.Lawful (H : ChanHeap W) : Prop :=
  ∀ {Q R E : Type} (S : Service W Q R E) (s : S.σ) (bound : Nat) (w : W) (good : R → Prop), SafeG ⟨false, false⟩ good S s → (H.new S s bound w).1.1.Delivers good

/-- What a layer demands of the service it is applied to and of its own arguments (types and documentation of the middleware), and what it
then promises. `c`: the service may be cloned; `st`: readiness lasts until the call; `good`: what is known of responses. -/
def StdLayer.Demands {a b : Ty} : StdLayer W a b → Cfg → (a.Res → Prop) → Cfg → (b.Res → Prop) → Prop
  | .timeout _ _, cfg, good, cfg', good' => cfg' = cfg ∧ ∀ r, good r → good' r
  | .loadShed, cfg, good, cfg', good' => cfg'.clone = cfg.clone ∧ ∀ r, good r → good' r
  | .rateLimit _ _, cfg, good, cfg', good' => cfg' = ⟨false, cfg.sticky⟩ ∧ ∀ r, good r → good' r
  | .concurrencyLimit _ H max, cfg, good, cfg', good' => (∀ w, (H.new max w).1.1.NeverClosed) ∧ cfg' = cfg ∧ ∀ r, good r → good' r
  | .buffer H bound, _, good, _, good' => 0 < bound ∧ H.Lawful ∧ ∀ r, good r → good' r
  | .retry _ P _, cfg, good, cfg', good' => cfg.clone = true ∧ cfg'.sticky = cfg.sticky ∧ (∀ r, good r → good' r) ∧
      ∀ π req res w, (P.retry π req res w).1.1 = none → OkGood good res → OkGood good (P.retry π req res w).1.2.2.2
  | .filter _ _, cfg, good, cfg', good' => cfg' = cfg ∧ ∀ r, good r → good' r
  | .filterAsync _ P check, cfg, good, cfg', good' => cfg.clone = true ∧ cfg'.sticky = cfg.sticky ∧ (∀ r, good r → good' r) ∧
      ∀ r w, FutSafe P (fun _ => True) (check r w).1
  | .mapRequest _, cfg, good, cfg', good' => cfg' = cfg ∧ ∀ r, good r → good' r
  | .mapResponse f, cfg, good, cfg', good' => cfg' = cfg ∧ ∀ r w, good r → good' (f r w).1
  | .mapErr _, cfg, good, cfg', good' => cfg' = cfg ∧ ∀ r, good r → good' r
  | .mapResult _ f, cfg, good, cfg', good' => cfg' = cfg ∧ ∀ res w, (∀ r, res = .ok r → good r) → ∀ r', (f res w).1 = .ok r' → good' r'
  | .mapFuture _ G f, cfg, good, cfg', good' => cfg' = cfg ∧ ∀ S x w, FutSafe S.fut (OkGood good) x → FutSafe (G S) (OkGood good') (f S x w).1
  | .andThenAlways _ G f, cfg, good, cfg', good' => cfg' = cfg ∧ ∀ res w, OkGood good res → FutSafe G (OkGood good') (f res w).1
  | .andThen _ G f, cfg, good, cfg', good' => cfg' = cfg ∧ ∀ r w, good r → FutSafe G (OkGood good') (f r w).1
  | .boxed, cfg, good, cfg', good' => cfg' = cfg ∧ ∀ r, good r → good' r
  | .spawnReady _ _, cfg, good, cfg', good' => cfg' = ⟨false, cfg.sticky⟩ ∧ ∀ r, good r → good' r
  | .layerFn f, cfg, good, cfg', good' => ∀ x, SafeG cfg good x.1.S x.1.s → SafeG cfg' good' (f x).1.S (f x).1.s
  | .optionSome l, cfg, good, cfg', good' => l.Demands cfg good cfg' good'
  | .optionNone, cfg, good, cfg', good' => cfg' = cfg ∧ ∀ r, good r → good' r

/-- the layer a method is documented to add -/
def Method.adds {a b : Ty} : Method W a b → StdLayer W a b
  | .timeout C d => .timeout C d
  | .loadShed => .loadShed
  | .rateLimit C num per => .rateLimit C ⟨num, per⟩
  | .concurrencyLimit debug H max => .concurrencyLimit debug H max
  | .buffer H bound => .buffer H bound
  | .retry fuel P π => .retry fuel P π
  | .filter into check => .filter into check
  | .filterAsync into P check => .filterAsync into P check
  | .mapRequest f => .mapRequest f
  | .mapResponse f => .mapResponse f
  | .mapErr f => .mapErr f
  | .mapResult into f => .mapResult into f
  | .mapFuture into G f => .mapFuture into G f
  | .andThenAlways into G f => .andThenAlways into G f
  | .andThen into G f => .andThen into G f
  | .boxed => .boxed
  | .boxedClone => .boxed
  | .layer l => l
  | .layerFn f => .layerFn f
  | .optionLayer (some l) => .optionSome l
  | .optionLayer none => .optionNone

/-- the demands along a chain, from the service outwards -/
inductive Chain.Demands : {a b : Ty} → Chain W a b → Cfg → (a.Res → Prop) → Cfg → (b.Res → Prop) → Prop
  | nil {t : Ty} {cfg : Cfg} {good : t.Res → Prop} : Chain.Demands (Chain.nil : Chain W t t) cfg good cfg good
  | cons {a b c : Ty} {m : Method W b c} {rest : Chain W a b} {cfg cfg' cfg'' : Cfg} {g : a.Res → Prop} {g' : b.Res → Prop} {g'' : c.Res → Prop} :
      rest.Demands cfg g cfg' g' → m.adds.Demands cfg' g' cfg'' g'' → Chain.Demands (.cons m rest) cfg g cfg'' g''

/-! ## Theorems -/

theorem ServiceBuilder.invoke_service {γ : Type 1} {a b : Ty} (B : ServiceBuilder (Site W b) γ) (m : Method W a b) (x : Site W a) :
    (B.invoke m).service x = B.service (m.byHand x) := by
  cases m
  case optionLayer l => cases l <;> rfl
  all_goals rfl

theorem ServiceBuilder.invokes_service {γ : Type 1} {a b : Ty} (c : Chain W a b) (B : ServiceBuilder (Site W b) γ) (x : Site W a) :
    (B.invokes c).service x = B.service (c.byHand x) := by
  induction c with
  | nil => rfl
  | cons m rest ih =>
    simp only [ServiceBuilder.invokes, Chain.byHand]
    rw [ih, ServiceBuilder.invoke_service]

/-- **C66, chains.** `ServiceBuilder::new().m1(..).m2(..)...mn(..).service(s)` is the service one gets by putting `s` by hand into the middleware of `mn`, the result
into that of the method before, and so on, with `m1` outermost: for every chain of methods, all arguments and every service. In
particular the arguments of each method reach the constructor unchanged, clocks are read and semaphores made when `service` is called, from the inside out. -/
theorem C66_chain {a b : Ty} (c : Chain W a b) (x : Site W a) : (ServiceBuilder.new.invokes c).service x = c.byHand x :=
  ServiceBuilder.invokes_service c .new x

/-- **C66, service_fn.** Ending a chain with `service_fn(f)` is ending it with `service(service_fn(f))`. -/
theorem C66_service_fn {Q R E : Type} {b : Ty} (c : Chain W ⟨Q, R, E⟩ b) (F : Fut W (Except E R)) (f : Q → W → F.φ × W) (w : W) :
    (ServiceBuilder.new.invokes c).serviceFn F f w = c.byHand (⟨ServiceFn F f, ()⟩, w) := C66_chain c _

/-- **C66, boxed_clone_sync.** It boxes the whole stack built so far, and layers added afterwards go inside the box; whereas `boxed` and `boxed_clone` box
what is added after them (`C66_chain`). -/
theorem C66_boxed_clone_sync {a b d : Ty} (c : Chain W a b) (c' : Chain W d a) (x : Site W d) :
    ((ServiceBuilder.new.invokes c).boxedCloneSync.invokes c').service x =
      (⟨BoxService (c.byHand (c'.byHand x)).1.S, ⟨(c.byHand (c'.byHand x)).1.s⟩⟩, (c.byHand (c'.byHand x)).2) := by
  rw [ServiceBuilder.invokes_service]
  show ((ServiceBuilder.new.invokes c).service (c'.byHand x)).boxed = _
  rw [C66_chain]; rfl

theorem SafeG.weaken {Q R E : Type} {c c' st st' : Bool} {good good' : R → Prop} {S : Service W Q R E} {s : S.σ} (h : SafeG ⟨c, st⟩ good S s)
    (hc : c' = true → c = true) (hst : st' = true → st = true) (hg : ∀ r, good r → good' r) : SafeG ⟨c', st'⟩ good' S s := h.mono hc hst hg

theorem StdLayer.safe {a b : Ty} (l : StdLayer W a b) {cfg cfg' : Cfg} {good : a.Res → Prop} {good' : b.Res → Prop} (h : l.Demands cfg good cfg' good')
    (x : Site W a) (hx : SafeG cfg good x.1.S x.1.s) : SafeG cfg' good' (l.layer x).1.S (l.layer x).1.s := by
  induction l with
  | timeout C d =>
    obtain ⟨rfl, hg⟩ := h
    exact (Timeout.safe C d hx).mono id id hg
  | loadShed =>
    obtain ⟨hc, hg⟩ := h
    exact (LoadShed.safe (st' := cfg'.sticky) hx).mono (by rw [hc]; exact id) id hg
  | rateLimit C rate =>
    obtain ⟨rfl, hg⟩ := h
    exact (RateLimit.safe C rate rfl _ hx).mono id id hg
  | concurrencyLimit debug H max =>
    obtain ⟨hv, rfl, hg⟩ := h
    exact (ConcurrencyLimit.safe debug _ (hv _) _ hx).mono id id hg
  | buffer H bound =>
    obtain ⟨-, hH, hg⟩ := h
    exact (C85_contract (hH _ _ _ _ _ (hx.mono (fun h => by cases h) (fun h => by cases h) (fun _ h => h))) _).mono (fun _ => rfl) (fun _ => rfl) hg
  | retry fuel P π =>
    obtain ⟨hc, hst, hg, hP⟩ := h
    have hx' : SafeG ⟨true, cfg.sticky⟩ good x.1.S x.1.s := by rw [← hc]; exact hx
    exact (Retry.safe (c := cfg'.clone) fuel P hP (P.clone π) hx').mono id (by rw [hst]; exact id) hg
  | filter into check =>
    obtain ⟨rfl, hg⟩ := h
    exact (Filter.safe into check hx).mono id id hg
  | filterAsync into P check =>
    obtain ⟨hc, hst, hg, hP⟩ := h
    have hx' : SafeG ⟨true, cfg.sticky⟩ good x.1.S x.1.s := by rw [← hc]; exact hx
    exact (AsyncFilter.safe (c := cfg'.clone) into P check hP hx').mono id (by rw [hst]; exact id) hg
  | mapRequest f =>
    obtain ⟨rfl, hg⟩ := h
    exact (MapRequest.safe f hx).mono id id hg
  | mapResponse f =>
    obtain ⟨rfl, hf⟩ := h
    exact MapResponse.safe f hf hx
  | mapErr f =>
    obtain ⟨rfl, hg⟩ := h
    exact (MapErr.safe f hx).mono id id hg
  | mapResult into f =>
    obtain ⟨rfl, hf⟩ := h
    exact MapResult.safe into f hf hx
  | mapFuture into G f =>
    obtain ⟨rfl, hf⟩ := h
    exact MapFuture.safe into _ _ (hf x.1.S) hx
  | andThenAlways into G f =>
    obtain ⟨rfl, hf⟩ := h
    exact Then.safe into G f hf hx
  | andThen into G f =>
    obtain ⟨rfl, hf⟩ := h
    exact AndThen.safe into G f hf hx
  | boxed =>
    obtain ⟨rfl, hg⟩ := h
    exact (BoxService.safe hx).mono id id hg
  | spawnReady fuel rt =>
    obtain ⟨rfl, hg⟩ := h
    exact (SpawnReady.safe fuel rt hx).mono id id hg
  | layerFn f => exact h x hx
  | optionSome l ih => exact Either.safe_left (ih h x hx)
  | optionNone =>
    obtain ⟨rfl, hg⟩ := h
    exact (Either.safe_right hx).mono id id hg

theorem Method.byHand_eq {a b : Ty} (m : Method W a b) (x : Site W a) : m.byHand x = m.adds.layer x := by
  cases m
  case optionLayer l => cases l <;> rfl
  all_goals rfl

/-- **C66, contract.** If the service keeps the contract of `Service` and each method along the chain finds its demands met (for instance: a `Clone` service under `retry`), then
the service built by the chain keeps the contract: no sequence of lawful uses panics. -/
theorem C66_contract {a b : Ty} {c : Chain W a b} {cfg cfg' : Cfg} {good : a.Res → Prop} {good' : b.Res → Prop} (h : c.Demands cfg good cfg' good')
    (x : Site W a) (hx : SafeG cfg good x.1.S x.1.s) :
    SafeG cfg' good' ((ServiceBuilder.new.invokes c).service x).1.S ((ServiceBuilder.new.invokes c).service x).1.s := by
  rw [C66_chain]
  induction h with
  | nil => exact hx
  | cons _ hm ih =>
    simp only [Chain.byHand]
    rw [Method.byHand_eq]
    exact StdLayer.safe _ hm _ (ih hx)

/-! ## Predicates -/

/-- **C66, closures as predicates.** A request that the closure rejects with `e` never reaches the service, whose state and world stay as they are but for what the closure itself did;
the caller gets `e`, converted. -/
theorem C66_predicate {Q Q' R E Ep B : Type} (into : E → B) (intoP : Ep → B) (f : Q' → W → Except Ep Q × W) (S : Service W Q R E) (s : S.σ) (q : Q') (w : W)
    (e : Ep) (hrej : (f q w).1 = .error e) :
    ∃ fut, ((Filter into (closurePredicate intoP f) S).call s q).run w = .ok (fut, s) (f q w).2 ∧
      ∀ w', ∃ fut', ((Filter into (closurePredicate intoP f) S).poll fut).run w' = .ok (.ready (.error (intoP e)), fut') w' := by
  refine ⟨.inl (some (intoP e)), ?_, fun w' => ⟨.inl none, rfl⟩⟩
  simp only [Filter, run_bind, run_lift, closurePredicate, hrej, mapErr]; rfl

/-- **C66, futures as predicates.** The predicate's future is polled as it is; when it rejects with `e` the response future of the filter completes with `e`,
converted, and the service is not called. -/
theorem C66_async_predicate {Q Q' R E Ep B : Type} (into : E → B) (intoP : Ep → B) (F : Fut W (Except Ep Q)) (f : Q' → W → F.φ × W) (S : Service W Q R E)
    (s : S.σ) (x x' : F.φ) (w w' : W) (e : Ep) (hrej : (F.poll x).run w = .ok (.ready (.error e), x') w') :
    ((AsyncFilter into (F.errInto intoP) (closureAsyncPredicate intoP F f) S).poll (.check x s)).run w =
      .ok (.ready (.error (intoP e)), .check x' s) w' := by
  simp only [AsyncFilter, Fut.errInto, run_bind, hrej, mapErr, Poll.map]; rfl

/-! ## A real chain -/

namespace Demo66

/-- world: the time -/
def clock : Clock Nat := ⟨id, fun d w => decide (d ≤ w), by simp, fun _ w => w⟩

def echo : Fut Nat (Except Nat Nat) := ⟨Nat, fun x => pure (.ready (.ok x), x)⟩

/-- a service that answers with the request -/
def base : Service Nat Nat Nat Nat := ServiceFn echo (fun q w => (q, w))

def policy : RetryPolicy Nat Nat Nat (ShedErr (TimeoutErr Nat)) where
  π := Nat
  ρ := Unit
  retry n q r w := ((match n, r with | n + 1, .error _ => some () | _, _ => none, n - 1, q, r), w)
  cloneRequest n q w := ((some q, n), w)
  wait u w := ((.ready (), u), w)
  clone := id

/-- `.map_request(|q| q + 1).retry(policy).load_shed().timeout(5).boxed_clone()` -/
def chain : Chain Nat ⟨Nat, Nat, Nat⟩ ⟨Nat, Nat, ShedErr (TimeoutErr Nat)⟩ :=
  .cons (.mapRequest (fun (q : Nat) w => (q + 1, w))) (.cons (.retry 9 policy (3 : Nat)) (.cons .loadShed (.cons (.timeout clock 5) (.cons .boxedClone .nil))))

/-- the order: `map_request` is outermost, the box around the service itself -/
example : ((ServiceBuilder.new.invokes chain).service (⟨base, ()⟩, 0)).1.S =
    MapRequest (fun (q : Nat) w => (q + 1, w)) (Retry 9 policy (LoadShed (Timeout clock 5 (BoxService base)))) := rfl

/-- its demands are met, so it keeps the contract -/
theorem keeps : SafeG ⟨true, true⟩ (fun _ => True) ((ServiceBuilder.new.invokes chain).service (⟨base, ()⟩, 0)).1.S
    ((ServiceBuilder.new.invokes chain).service (⟨base, ()⟩, 0)).1.s := by
  refine C66_contract (cfg := ⟨true, true⟩) (good := fun _ => True) ?_ _ (ServiceFn.safe _ _ ?_)
  · refine .cons (cfg' := ⟨true, true⟩) (g' := fun _ => True) (.cons (cfg' := ⟨true, true⟩) (g' := fun _ => True) (.cons (cfg' := ⟨true, true⟩) (g' := fun _ => True)
      (.cons (cfg' := ⟨true, true⟩) (g' := fun _ => True) (.cons .nil ?_) ?_) ?_) ?_) ?_
    · exact ⟨rfl, fun _ h => h⟩
    · exact ⟨rfl, fun _ h => h⟩
    · exact ⟨rfl, fun _ h => h⟩
    · exact ⟨rfl, rfl, fun _ h => h, fun _ _ res _ _ _ => by unfold OkGood; split <;> trivial⟩
    · exact ⟨rfl, fun _ h => h⟩
  · intro r w
    intro ws
    cases ws with
    | nil => trivial
    | cons w' ws => simp [Fut.Safe, echo, OkGood]

/-- `f` is what the service in state `s` gives if it is polled ready once and then called -/
def Got {W Q R E : Type} (S : Service W Q R E) (s : S.σ) (f : S.φ) : Prop :=
  ∃ q s' s'' w w1 w2, (S.pollReady s).run w = .ok (.ready (.ok ()), s') w1 ∧ (S.call s' q).run w1 = .ok (f, s'') w2

open Classical in
/-- a simple worker: serves each request at once, with a copy of the service -/
noncomputable def copies (W : Type) : ChanHeap W where
  new S s _ w := (⟨{
    α := Unit
    fresh := id
    pollReserve := fun _ w => ((.ready true, ()), w)
    ρ := Option { f : S.φ // Got S s f }
    send := fun q w =>
      match h1 : (S.pollReady s).run w with
      | .ok (.ready (.ok ()), s') w1 =>
        match h2 : (S.call s' q).run w1 with
        | .ok (f, s'') w2 => (some ⟨f, q, s', s'', w, w1, w2, h1, h2⟩, w2)
        | _ => (none, w1)
      | _ => (none, w)
    pollRx := fun r w => ((.ready (r.map (fun f => .ok f.1)), r), w)
    error := fun _ => none }, ()⟩, w)

theorem copies_lawful (W : Type) : (copies W).Lawful := by
  intro Q R E S s bound w good hS r w' f hf
  match r, hf with
  | some ⟨g, q, s', s'', w0, w1, w2, h1, h2⟩, hf =>
    cases hf
    obtain ⟨I, h0⟩ := hS.inv
    have h3 := Act.wp_ok (I.ready_ok s .idle w0 h0 (by simp)) h1
    exact futSafe_of_inv I (Act.wp_ok (I.call_ok s' q w1 h3) h2).1

/-- a policy for the errors of a buffer -/
def again : RetryPolicy Nat Nat Nat (BufErr Nat) where
  π := Nat
  ρ := Unit
  retry n q r w := ((match n, r with | n + 1, .error _ => some () | _, _ => none, n - 1, q, r), w)
  cloneRequest n q w := ((some q, n), w)
  wait u w := ((.ready (), u), w)
  clone := id

/-- `.retry(policy).buffer(10).rate_limit(5, 100)`: a rate limit cannot be cloned, a retry needs clones, and the buffer makes them -/
noncomputable def buffered : Chain Nat ⟨Nat, Nat, Nat⟩ ⟨Nat, Nat, BufErr Nat⟩ :=
  .cons (.retry 9 again (3 : Nat)) (.cons (.buffer (copies Nat) 10) (.cons (.rateLimit clock 5 100) .nil))

/-- It keeps the contract, clones included. -/
theorem buffered_keeps : SafeG ⟨true, true⟩ (fun _ => True) ((ServiceBuilder.new.invokes buffered).service (⟨base, ()⟩, 0)).1.S
    ((ServiceBuilder.new.invokes buffered).service (⟨base, ()⟩, 0)).1.s := by
  refine C66_contract (cfg := ⟨false, true⟩) (good := fun _ => True) ?_ _ (ServiceFn.safe _ _ ?_)
  · refine .cons (cfg' := ⟨true, true⟩) (g' := fun _ => True) (.cons (cfg' := ⟨false, true⟩) (g' := fun _ => True) (.cons .nil ?_) ?_) ?_
    · exact ⟨rfl, fun _ h => h⟩
    · exact ⟨by decide, copies_lawful Nat, fun _ h => h⟩
    · exact ⟨rfl, rfl, fun _ h => h, fun _ _ res _ _ _ => by unfold OkGood; split <;> trivial⟩
  · intro r w ws
    cases ws with
    | nil => trivial
    | cons w' ws => simp [Fut.Safe, echo, OkGood]

end Demo66

end Tower
