import Verif.Proof.LiveTask
import Verif.Proof.LiveRecon
import Verif.Props.C66_Chain
import Verif.Props.C87_Exchange

/-! # C89: no layer makes a request hang -/

set_option linter.unusedSimpArgs false

namespace Tower
open Act
variable {W : Type} {F : Fairness W}

/-! ## Specification -/

/-- What is asked of the world, and of the closures given to it, where a layer is applied to the service `x`: that what the layer itself waits for comes about. -/
def StdLayer.Served (F : Fairness W) {a b : Ty} : StdLayer W a b → Site W a → Prop
  | .rateLimit C _, _ => C.Passes F
  | .concurrencyLimit _ H max, x => (H.new max x.2).1.1.Grants F ∧ (H.new max x.2).1.1.NeverClosed
  | .buffer H bound, x => (H.new x.1.S x.1.s bound x.2).1.1.Serves F x.1.S
  | .retry fuel P _, _ => P.WaitsEnd F ∧ ∃ μ B, RetryBounded P μ B ∧ 3 * B + 3 ≤ fuel
  | .filterAsync _ P check, _ => ∀ r w, Finishes F P.poll (check r w).1
  | .mapFuture _ G f, x => ∀ y w, Finishes F x.1.S.poll y → Finishes F (G x.1.S).poll (f x.1.S y w).1
  | .andThenAlways _ G f, _ => ∀ v w, Finishes F G.poll (f v w).1
  | .andThen _ G f, _ => ∀ v w, Finishes F G.poll (f v w).1
  | .spawnReady fuel rt, x => StaysReady x.1.S ∧ rt.Runs F ∧ 4 ≤ fuel
  | .layerFn f, x => NeverHangs F x.1.S x.1.s → NeverHangs F (f x).1.S (f x).1.s
  | .optionSome l, x => l.Served F x
  | _, _ => True

/-- the same of every method of a chain, each where its layer is applied -/
def Chain.Served (F : Fairness W) {a b : Ty} : Chain W a b → Site W a → Prop
  | .nil, _ => True
  | .cons m rest, x => m.adds.Served F (rest.byHand x) ∧ rest.Served F x

/-! ## Theorems -/

/-- **C89, layers.** Every layer of tower, put around a service that does not hang, makes a service that does not hang: if what the layer itself waits for comes about, then handles become ready, and responses arrive, after finitely many polls. -/
theorem C89_layer {a b : Ty} (l : StdLayer W a b) (x : Site W a) (hl : l.Served F x) (h : NeverHangs F x.1.S x.1.s) : NeverHangs F (l.layer x).1.S (l.layer x).1.s := by
  have L := h.live
  have h0 : Reach x.1.S x.1.s false x.1.s := .new
  induction l with
  | buffer H bound => exact (Live.buffer hl).never trivial
  | layerFn f => exact hl h
  | optionSome l ih => exact ((ih x hl h h.live .new).live.either L).never (s₀ := .inl _) Reach.new
  | optionNone => exact (L.either L).never (s₀ := .inr _) h0
  | timeout C d => exact (L.timeout C d).never h0
  | loadShed => exact L.loadShed.never (s₀ := ⟨x.1.s, false⟩) h0
  | rateLimit C rate => exact (L.rateLimit C rate hl).never ⟨false, h0, id⟩
  | concurrencyLimit debug H max => exact (L.concurrencyLimit debug _ hl.1 hl.2).never ⟨false, h0, id⟩
  | retry fuel P π =>
    obtain ⟨hW, μ, B, hP, hf⟩ := hl
    exact (L.retry hW hP hf).never (s₀ := ⟨P.clone π, x.1.s⟩) h0
  | filter into check => exact (L.loose.filter (fun s h => h.weak) into check).never (.of h0)
  | filterAsync into P check => exact (L.asyncFilter into P check hl).never h0
  | mapRequest f => exact (L.mapRequest f).never h0
  | mapResponse f => exact (L.mapResponse f).never h0
  | mapErr f => exact (L.mapErr f).never h0
  | mapResult into f => exact (L.mapResult into f).never h0
  | mapFuture into G f => exact (L.mapFuture into _ _ hl).never h0
  | andThenAlways into G f => exact (L.thenDo into G f hl).never h0
  | andThen into G f => exact (L.andThen into G f hl).never h0
  | boxed => exact L.boxed.never (s₀ := ⟨x.1.s⟩) h0
  | spawnReady fuel rt => exact (L.spawnReady hl.1 hl.2.1 hl.2.2).never (s₀ := .service (some x.1.s)) (Loose.of h0)

/-- **C89, builder chains.** Stacks of any number of layers, in any order, do not hang if the service at the bottom does not: so there are no two layers of tower that keep each other waiting. -/
theorem C89_chain {a b : Ty} (c : Chain W a b) (x : Site W a) (hc : c.Served F x) (h : NeverHangs F x.1.S x.1.s) :
    NeverHangs F ((ServiceBuilder.new.invokes c).service x).1.S ((ServiceBuilder.new.invokes c).service x).1.s := by
  rw [C66_chain]
  induction c with
  | nil => exact h
  | cons m rest ih =>
    have := C89_layer _ _ hc.1 (ih hc.2)
    rw [← Method.byHand_adds] at this
    exact this

/-- **C89, hedge.** `Hedge` waits for the first of two responses; it does not hang if the service does not. -/
theorem C89_hedge {Q R E B : Type} (into : E → B) (H : HedgeCfg W Q) (S : Service W Q R E) (s : S.σ) (hp : Prompt S) (h : NeverHangs F S s) : NeverHangs F (Hedge into H S) (Hedge.new S s) := by
  have L := h.live.latency into H.clock H.record
  have hd : Prompt (Delay id H.clock (fun _ => H.delay) (AsyncFilter id hedgePredFut (fun r w => (if H.canRetry r w then some r else none, w)) (Latency into H.clock H.record S))) :=
    Delay.prompt (AsyncFilter.prompt (fun f => by cases f <;> exact .pure _) (Latency.prompt hp))
  exact (L.select H.selectClone (fun s w => ⟨w, rfl⟩) hd).never (s₀ := Hedge.new S s) (Reach.clone .new)

/-- **C89, either and optional.** -/
theorem C89_either {Q R E : Type} (S T : Service W Q R E) (s : S.σ) (t : T.σ) (h : NeverHangs F S s) (h' : NeverHangs F T t) :
    NeverHangs F (Either S T) (.inl s) ∧ NeverHangs F (Either S T) (.inr t) ∧ NeverHangs F (Optional S) (some s) ∧ NeverHangs F (Optional S) none :=
  ⟨(h.live.either h'.live).never (s₀ := .inl s) Reach.new, (h.live.either h'.live).never (s₀ := .inr t) Reach.new,
    h.live.optional.never (s₀ := some s) (by rintro i hi; cases hi; exact .new), h.live.optional.never (s₀ := none) nofun⟩

/-- **C89, oneshot.** A request that is sent with `oneshot` to a service that does not hang (to any handle that was used by the contract, ready or not) is answered after finitely many polls. -/
theorem C89_oneshot {Q R E : Type} (S : Service W Q R E) (s₀ : S.σ) (h : NeverHangs F S s₀) (b : Bool) (s : S.σ) (hs : Reach S s₀ b s) (r : Q) : Finishes F (Oneshot S).poll (.notReady s (some r)) :=
  h.live.oneshot hs r

/-- **C89, timeouts.** A response of `Timeout` arrives even if that of the service inside never does, if time passes (and polling the service does not turn it back). -/
theorem C89_timeout {Q R E : Type} (C : Clock W) (hC : C.Passes F) (d : Nat) (S : Service W Q R E) (hp : ∀ f w, (S.poll f).run w ≠ .spin)
    (hk : ∀ f w p f' w' t, (S.poll f).run w = .ok (p, f') w' → C.fired t w = true → C.fired t w' = true) (f : S.φ) (t : Nat) : Finishes F (Timeout C d S).poll (f, t) := by
  intro ws hw
  obtain ⟨n, hn⟩ := hC t ws hw
  clear hw
  induction n generalizing f ws with
  | zero =>
    cases h1 : (S.poll f).run (ws 0) with
    | spin => exact (hp _ _ h1).elim
    | panic m => exact .panics (m := m) (by simp [Timeout, run_bind, h1])
    | ok o w' =>
      obtain ⟨p, f'⟩ := o
      cases p with
      | ready v => exact .ready (v := mapErr .inner v) (a' := (f', t)) (w' := w') (by simp [Timeout, run_bind, h1])
      | pending =>
        have := hk f _ _ _ _ t h1 hn
        exact .ready (v := .error .elapsed) (a' := (f', t)) (w' := w') (by simp [Timeout, run_bind, h1, this])
  | succ n ih =>
    cases h1 : (S.poll f).run (ws 0) with
    | spin => exact (hp _ _ h1).elim
    | panic m => exact .panics (m := m) (by simp [Timeout, run_bind, h1])
    | ok o w' =>
      obtain ⟨p, f'⟩ := o
      cases p with
      | ready v => exact .ready (v := mapErr .inner v) (a' := (f', t)) (w' := w') (by simp [Timeout, run_bind, h1])
      | pending =>
        by_cases hf : C.fired t w' = true
        · exact .ready (v := .error .elapsed) (a' := (f', t)) (w' := w') (by simp [Timeout, run_bind, h1, hf])
        · exact .pending (a' := (f', t)) (w' := C.arm t w') (by simp only [Timeout, run_bind, h1, hf, run_get]; rfl) (ih f' (fun n => ws (n + 1)) hn)

/-- **C89, reconnect.** `Reconnect`, with or without a connection to begin with, does not hang if its maker does not, the connections that the maker makes do not, and new connections do not fail before they were ready. The last
is needed: see `Demo89.reconnect_spins`. -/
theorem C89_reconnect {Tgt Q R E1 E2 : Type} (S : Service W Q R E2) (M : Service W Tgt S.σ E1) (m₀ : M.σ) (t : Tgt) (hM : NeverHangs F M m₀) (hS : ∀ s, Made M m₀ t s → NeverHangs F S s)
    (hE : FailsNotAtOnce S M m₀ t) (fuel : Nat) (hf : 4 ≤ fuel) :
    NeverHangs F (Reconnect fuel S M t) (Reconnect.new m₀) ∧ ∀ s, Made M m₀ t s → NeverHangs F (Reconnect fuel S M t) (Reconnect.withConnection s m₀) := by
  have L := Live.reconnect hM hS hE hf
  refine ⟨L.never (s₀ := Reconnect.new m₀) ⟨⟨_, .new⟩, nofun, nofun⟩, fun s hs => L.never (s₀ := Reconnect.withConnection s m₀) ⟨⟨_, .new⟩, nofun, ?_⟩⟩
  intro s' hs'
  cases hs'
  exact ⟨s, hs, .of .new⟩

/-- **C89, future_service.** `FutureService` does not hang if its future finishes and gives a service that does not hang. -/
theorem C89_future_service {Q R E : Type} (S : Service W Q R E) (G : Fut W (Except E S.σ)) (f : G.φ) (hf : Finishes F G.poll f)
    (hs : ∀ g w s g' w', PolledTo G.poll f g → (G.poll g).run w = .ok (.ready (.ok s), g') w' → NeverHangs F S s) : NeverHangs F (FutureService S G id) (.future f) :=
  (Live.futureService id fun _ h => h).never (s₀ := .future f) ⟨rfl, hf, hs⟩

/-! ## Cases -/

namespace Demo89

/-- The world is the time. It goes beyond every bound (but may stand still, or jump, or even be turned back, in between). -/
def goes : Fairness Nat where
  fair ws := ∀ t, ∃ n, t ≤ ws n
  some := ⟨id, fun t => ⟨t, Nat.le_refl t⟩⟩
  cons w ws h t := (h t).elim fun n hn => ⟨n + 1, hn⟩
  tail ws h t := by
    obtain ⟨n, hn⟩ := h (max t (ws 0 + 1))
    cases n with
    | zero => omega
    | succ n => exact ⟨n, show t ≤ ws (n + 1) by omega⟩

def clock : Clock Nat where
  now := id
  fired d w := decide (d ≤ w)
  sound _ _ h := of_decide_eq_true h

theorem passes : clock.Passes goes := fun d _ h => (h d).elim fun n hn => ⟨n, decide_eq_true hn⟩

/-- something that is ready from the time `d` on finishes -/
theorem due {A V : Type} (poll : A → Act Nat (Poll V × A)) (d : Nat) (K : A → Prop) (h : ∀ a w, K a → match (poll a).run w with
    | .ok (.pending, a') _ => w < d ∧ K a'
    | .ok (.ready _, _) _ => True
    | .panic _ => True
    | .spin => False) (a : A) (ha : K a) : Finishes goes poll a := by
  intro ws hw
  obtain ⟨n, hn⟩ := hw d
  clear hw
  induction n generalizing a ws with
  | zero =>
    have := h a (ws 0) ha
    cases h1 : (poll a).run (ws 0) with
    | spin => simp [h1] at this
    | panic m => exact .panics h1
    | ok o w' =>
      obtain ⟨p, a'⟩ := o
      cases p with
      | ready v => exact .ready h1
      | pending => rw [h1] at this; exact absurd this.1 (by omega)
  | succ n ih =>
    have := h a (ws 0) ha
    cases h1 : (poll a).run (ws 0) with
    | spin => simp [h1] at this
    | panic m => exact .panics h1
    | ok o w' =>
      obtain ⟨p, a'⟩ := o
      cases p with
      | ready v => exact .ready h1
      | pending => rw [h1] at this; exact .pending h1 (ih a' this.2 (fun n => ws (n + 1)) hn)

/-- wait until the time `d` -/
def waitFor {A V : Type} (d : A → Nat) (v : A → V) (a : A) : Act Nat (Poll V × A) := do
  let w ← Act.get
  pure (if d a ≤ w then .ready (v a) else .pending, a)

theorem waitFor_ends {A V : Type} (d : A → Nat) (v : A → V) (a : A) : Finishes goes (waitFor d v) a := by
  refine due _ (d a) (· = a) (fun b w hb => ?_) a rfl
  subst hb
  have : (waitFor d v b).run w = .ok (if d b ≤ w then .ready (v b) else .pending, b) w := rfl
  rw [this]
  by_cases hw : d b ≤ w
  · simp [hw]
  · simp [hw]; omega

/-- after each call it is not ready until the time is past that of the last response, which comes at the time asked for -/
def slow : Service Nat Nat Nat Unit where
  σ := Nat
  φ := Nat
  pollReady := waitFor id (fun _ => .ok ())
  call _ r := pure (r, r + 1)
  poll := waitFor id .ok
  clone s := s + 10

theorem slow_live (s : Nat) : NeverHangs goes slow s where
  ready _ x _ := waitFor_ends _ _ x
  call := nofun
  poll _ _ _ f _ _ _ _ := waitFor_ends _ _ f

/-- a semaphore whose permits come at certain times -/
def permits : SemHeap Nat where
  new max w := (⟨{ α := Nat, pollAcquire := fun a w => ((if a ≤ w then .ready true else .pending, a), w), fresh := id }, w + max⟩, w)

/-- retry twice, each time after waiting until time 100 -/
def policy : RetryPolicy Nat Nat Nat Unit where
  π := Fin 3
  ρ := Unit
  retry p q r w := (match p with
    | ⟨0, _⟩ => (none, p, q, r)
    | ⟨n + 1, h⟩ => (some (), ⟨n, by omega⟩, q, r), w)
  cloneRequest p q w := ((some q, p), w)
  wait _ w := ((if 100 ≤ w then .ready () else .pending, ()), w)
  clone := id

theorem policy_waits : policy.WaitsEnd goes := fun p q r w ρ p' q' r' w' _ => by
  refine due _ 100 (fun _ => True) (fun a w _ => ?_) ρ trivial
  by_cases hw : 100 ≤ w
  · simp [policy, hw]
  · simp [policy, hw]; omega

theorem policy_bounded : RetryBounded policy (fun p => p.val) 2 where
  top p := by have h : p.val < 3 := p.isLt; show p.val ≤ 2; omega
  retry p q r w ρ p' q' r' w' h := by
    match p, h with
    | ⟨0, _⟩, h => cases h
    | ⟨n + 1, hn⟩, h => cases h; exact Nat.lt_succ_self n
  clone p q w o p' w' h := by
    cases h; exact Nat.le_refl _

/-- the future, or nothing -/
def reply {φ E : Type} : Except String φ → Option (Except E φ)
  | .ok f => some (.ok f)
  | .error _ => none

/-- a worker that sends each request on at once, and replies later -/
def worker : ChanHeap Nat where
  new S s bound w := (⟨{
    α := Nat
    fresh := id
    pollReserve := fun a w => ((if a ≤ w then .ready true else .pending, a), w)
    ρ := Except String S.φ × Nat
    send := fun q w => match (S.call s q).run w with
      | .ok (f, _) w' => ((.ok f, w + 5), w')
      | .panic m => ((.error m, w), w)
      | .spin => ((.error "", w), w)
    pollRx := fun r w => ((if r.2 ≤ w then .ready (reply r.1) else .pending, r), w)
    error := fun _ => none }, bound⟩, w)

def runtime : Runtime Nat where
  sched w := [w, w]
  killed _ := false

theorem runs : runtime.Runs goes := fun ws hw => by
  refine ⟨fun n => ws (n / 2), fun t => ?_, fun n => ⟨n, ?_⟩⟩
  · obtain ⟨n, hn⟩ := hw t
    exact ⟨2 * n, by simpa using hn⟩
  · have key : ∀ n, (List.range n).flatMap (fun i => runtime.sched (ws i)) = (List.range (2 * n)).map (fun k => ws (k / 2)) := by
      intro n
      induction n with
      | zero => rfl
      | succ n ih =>
        rw [List.range_succ, List.flatMap_append, ih, show 2 * (n + 1) = 2 * n + 1 + 1 from by omega, List.range_succ, List.range_succ]
        simp [runtime, show (2 * n) / 2 = n by omega, show (2 * n + 1) / 2 = n by omega]
    rw [key, show 2 * n = n + n from by omega, List.range_add, List.map_append]
    exact List.prefix_append _ _

/-- a chain that limits the rate and the concurrency, retries, times out, sheds -/
def chain : Chain Nat ⟨Nat, Nat, Unit⟩ ⟨Nat, Nat, ShedErr (TimeoutErr Unit)⟩ :=
  .cons .loadShed (.cons (.timeout clock 50) (.cons (.rateLimit clock 2 7) (.cons (.optionLayer (some (.concurrencyLimit false permits 4))) (.cons (.retry 20 policy (2 : Fin 3)) .nil))))

theorem chain_served (w : Nat) : chain.Served goes (⟨slow, (9 : Nat)⟩, w) := by
  refine ⟨trivial, trivial, passes, ⟨fun a => ?_, fun a w => ?_⟩, ⟨policy_waits, _, 2, policy_bounded, by omega⟩, trivial⟩
  · exact waitFor_ends (A := Nat) id (fun _ => true) a
  · have : ∀ a w : Nat, ((if a ≤ w then .ready true else .pending : Poll Bool)) ≠ .ready false := fun a w => by split <;> nofun
    exact this a w

/-- it answers -/
theorem chain_live (w : Nat) : NeverHangs goes ((ServiceBuilder.new.invokes chain).service (⟨slow, (9 : Nat)⟩, w)).1.S ((ServiceBuilder.new.invokes chain).service (⟨slow, (9 : Nat)⟩, w)).1.s :=
  C89_chain chain _ (chain_served w) (slow_live 9)

/-- the requirement on `buffer` can be met -/
theorem buffer_served (w : Nat) : StdLayer.Served goes (.buffer worker 3 : StdLayer Nat ⟨Nat, Nat, Unit⟩ ⟨Nat, Nat, BufErr Unit⟩) (⟨slow, (9 : Nat)⟩, w) where
  reserve a := waitFor_ends (A := Nat) id (fun _ => true) a
  rx _ _ := waitFor_ends (A := Except String Nat × Nat) (fun r => r.2) (fun r => reply (E := Unit) r.1) _
  sent _ _ f _ _ := waitFor_ends _ _ f

theorem slow_stays : StaysReady slow → False := fun h => h (5 : Nat) 7 (5 : Nat) 7 rfl 3 (5 : Nat) 3 rfl

/-- a service that is always ready, and answers later -/
def steady : Service Nat Nat Nat Unit where
  σ := Unit
  φ := Nat
  pollReady _ := pure (.ready (.ok ()), ())
  call _ r := pure (r, ())
  poll n := do
    let w ← Act.get
    pure (if n ≤ w then .ready (.ok n) else .pending, n)
  clone s := s

/-- the requirement on `spawn_ready` can be met -/
theorem spawn_served (w : Nat) : StdLayer.Served goes (.spawnReady 4 runtime : StdLayer Nat ⟨Nat, Nat, Unit⟩ ⟨Nat, Nat, SpawnErr Unit⟩) (⟨steady, ()⟩, w) :=
  ⟨fun s w s' w' _ v s'' v' h => (by cases h), runs, Nat.le_refl 4⟩

/-- a maker that is slow to connect, to services that are slow, too -/
def maker : Service Nat Nat Nat String where
  σ := Nat
  φ := Nat
  pollReady := waitFor id (fun _ => .ok ())
  call _ t := pure (t, t + 3)
  poll := waitFor id (fun n => if n = 13 then .error "refused" else .ok (n + 2))
  clone s := s

theorem maker_live (s : Nat) : NeverHangs goes maker s where
  ready _ x _ := waitFor_ends _ _ x
  call := nofun
  poll _ _ _ f _ _ _ _ := waitFor_ends _ _ f

theorem slow_fails_not : FailsNotAtOnce slow maker (4 : Nat) 7 := by
  intro s s' w e s'' w' _ _ h
  have : (slow.pollReady s').run w = .ok (if (id s' : Nat) ≤ w then .ready (.ok ()) else .pending, s') w := rfl
  rw [this] at h
  split at h <;> cases h

/-- reconnecting to it -/
theorem reconnect_live : NeverHangs goes (Reconnect 4 slow maker 7) (Reconnect.new (4 : Nat)) :=
  (C89_reconnect slow maker (4 : Nat) 7 (maker_live 4) (fun s _ => slow_live s) slow_fails_not 4 (Nat.le_refl 4)).1

/-- the future gives the service at time 6 -/
theorem future_live : NeverHangs goes (FutureService slow ⟨Nat, waitFor id .ok⟩ id) (.future (6 : Nat)) :=
  C89_future_service slow ⟨Nat, waitFor id .ok⟩ (6 : Nat) (waitFor_ends _ _ _) fun _ _ s _ _ _ _ => slow_live s

/-- connections that are refused at once ... -/
def refused : Service Nat Nat Nat Unit where
  σ := Unit
  φ := Unit
  pollReady s := pure (.ready (.error ()), s)
  call _ _ := pure ((), ())
  poll f := pure (.pending, f)
  clone := id

/-- ... by a maker that connects at once -/
def eager : Service Nat Nat Unit Unit where
  σ := Unit
  φ := Unit
  pollReady s := pure (.ready (.ok ()), s)
  call _ _ := pure ((), ())
  poll f := pure (.ready (.ok ()), f)
  clone := id

/-- make `poll_ready` of a `Reconnect` loop forever, however long one lets it run. -/
theorem reconnect_spins (fuel w : Nat) : ((Reconnect fuel refused eager 0).pollReady (Reconnect.new ())).run w = .spin := by
  have key : ∀ n : Nat, (∀ w, (reconPoll refused eager 0 n ⟨(), .idle, none⟩).run w = .spin) ∧ (∀ w, (reconPoll refused eager 0 n ⟨(), .connecting (), none⟩).run w = .spin) ∧
      ∀ w, (reconPoll refused eager 0 n ⟨(), .connected (), none⟩).run w = .spin := by
    intro n
    induction n with
    | zero => exact ⟨fun _ => rfl, fun _ => rfl, fun _ => rfl⟩
    | succ n ih => exact ⟨fun w => ih.2.1 w, fun w => ih.2.2 w, fun w => ih.1 w⟩
  exact (key fuel).1 w

/-- A service that hangs is found out: one whose responses do not come. -/
def dead : Service Nat Nat Nat Unit where
  σ := Unit
  φ := Unit
  pollReady s := pure (.ready (.ok ()), s)
  call _ _ := pure ((), ())
  poll f := pure (.pending, f)
  clone := id

theorem dead_ends (ws : Nat → Nat) (f : Unit) : ¬ Ends dead.poll f ws := by
  intro h
  induction h with
  | ready h => simp [dead] at h
  | panics h => simp [dead] at h
  | pending _ _ ih => exact ih

theorem dead_hangs : ¬ NeverHangs goes dead () := fun h => dead_ends id () (h.poll () 0 0 () () 0 (.ready (s := ()) (w := 0) (w' := 0) .new rfl) rfl id fun t => ⟨t, Nat.le_refl t⟩)

/-- and a `Timeout` around it helps -/
theorem dead_timeout (f : Unit) (t : Nat) : Finishes goes (Timeout clock 5 dead).poll (f, t) :=
  C89_timeout clock passes 5 dead nofun (fun _ _ _ _ _ _ h hf => by simp [dead] at h; rw [← h.2]; exact hf) f t

/-- Retrying without end is a hang: a policy that always says "again" spins in a single poll, or fails the bound. -/
example (μ : Unit → Nat) (B : Nat) : ¬ RetryBounded (W := Nat) (Req := Nat) (Res := Nat) (Err := Unit)
    { π := Unit, ρ := Unit, retry := fun p q r w => ((some (), p, q, r), w), cloneRequest := fun p q w => ((some q, p), w), wait := fun _ w => ((.ready (), ()), w), clone := id } μ B :=
  fun h => Nat.lt_irrefl _ (h.retry () 0 (.ok 0) 0 () () 0 (.ok 0) 0 rfl)

end Demo89

end Tower
