import Verif.Proof.AlikeMw
import Verif.Proof.AlikeMake
import Verif.Proof.AlikeCall
import Verif.Proof.AlikeLoad
import Verif.Proof.AlikeBal
import Verif.Props.C66_Chain

/-! # C87: a service may be exchanged for one that behaves the same, under any stack -/

set_option linter.unusedSimpArgs false

namespace Tower
open Act
variable {W : Type}

/-! ## Specification -/

/-- What is asked of a layer: the closure given to `map_future` and the function given to `layer_fn`, which see the service or its futures themselves, treat those alike that nobody can tell apart by
using them. `buffer` is excluded: it moves the service into a task, that is, into the world. -/
def StdLayer.Plain {a b : Ty} : StdLayer W a b → Prop
  | .buffer _ _ => False
  | .mapFuture (Q := Q) (R := R) (E := E) _ G f => ∀ (S T : Service W Q R E) x y w, S.futOf.SameAs T.futOf x y →
      (G S).SameAs (G T) (f S x w).1 (f T y w).1 ∧ (f S x w).2 = (f T y w).2
  | .layerFn f => ∀ x y, x.SameAs y → (f x).SameAs (f y)
  | .optionSome l => l.Plain
  | _ => True

/-- the same of every method of a chain -/
def Chain.Plain {a b : Ty} : Chain W a b → Prop
  | .nil => True
  | .cons m rest => m.adds.Plain ∧ rest.Plain

/-! ## Theorems -/

theorem Site.SameAs.refl {t : Ty} (x : Site W t) : x.SameAs x := ⟨rfl, fun _ => rfl⟩
theorem Site.SameAs.symm {t : Ty} {x y : Site W t} (h : x.SameAs y) : y.SameAs x := ⟨h.1.symm, fun ops => (h.2 ops).symm⟩
theorem Site.SameAs.trans {t : Ty} {x y z : Site W t} (h : x.SameAs y) (h' : y.SameAs z) : x.SameAs z := ⟨h.1.trans h'.1, fun ops => (h.2 ops).trans (h'.2 ops)⟩

/-- **C87, layers.** Every layer of tower that keeps the service (all but `buffer`) turns services that no lawful user can tell apart into services that no lawful user can tell apart. -/
theorem C87_layer {a b : Ty} (l : StdLayer W a b) (hl : l.Plain) (x y : Site W a) (h : x.SameAs y) : (l.layer x).SameAs (l.layer y) := by
  induction l with
  | buffer H bound => exact hl.elim
  | layerFn f => exact hl x y h
  | optionSome l ih =>
    obtain ⟨A, hs⟩ := (ih hl x y h).alike
    obtain ⟨A', _⟩ := h.alike
    exact Site.sameAs_of (x := (StdLayer.optionSome l).layer x) (y := (StdLayer.optionSome l).layer y) (ih hl x y h).1 (A.either A') hs
  | optionNone =>
    obtain ⟨A, hs⟩ := h.alike
    exact Site.sameAs_of (x := StdLayer.optionNone.layer x) (y := StdLayer.optionNone.layer y) h.1 (A.either A) hs
  | timeout C d =>
    obtain ⟨A, hs⟩ := h.alike
    exact Site.sameAs_of (x := x.timeout C d) (y := y.timeout C d) h.1 (A.timeout C d) hs
  | loadShed =>
    obtain ⟨A, hs⟩ := h.alike
    exact Site.sameAs_of (x := x.loadShed) (y := y.loadShed) h.1 A.loadShed ⟨rfl, Lax.of hs⟩
  | rateLimit C rate =>
    obtain ⟨A, hs⟩ := h.alike
    refine Site.sameAs_of (x := x.rateLimit C rate) (y := y.rateLimit C rate) h.1 (A.rateLimit C rate) ?_
    simp only [Site.rateLimit, RateLimit.new, h.1]
    exact ⟨trivial, trivial, Lax.of hs⟩
  | concurrencyLimit debug H max =>
    obtain ⟨⟨S, s⟩, w⟩ := x
    obtain ⟨⟨T, t⟩, w'⟩ := y
    obtain ⟨A, hs⟩ := h.alike
    have e : w = w' := h.1
    subst e
    exact Site.sameAs_of (x := Site.concurrencyLimit debug H max (⟨S, s⟩, w)) (y := Site.concurrencyLimit debug H max (⟨T, t⟩, w)) rfl
      (A.concurrencyLimit debug (H.new max w).1.1) ⟨rfl, rfl, Lax.of hs⟩
  | retry fuel P π =>
    obtain ⟨A, hs⟩ := h.alike
    exact Site.sameAs_of (x := x.retry fuel P (P.clone π)) (y := y.retry fuel P (P.clone π)) h.1 (A.retry fuel P) ⟨rfl, hs⟩
  | filter into check =>
    obtain ⟨A, hs⟩ := h.alike
    exact Site.sameAs_of (x := x.filter into check) (y := y.filter into check) h.1 (A.filter into check) (Lax.of hs)
  | filterAsync into P check =>
    obtain ⟨A, hs⟩ := h.alike
    exact Site.sameAs_of (x := x.filterAsync into P check) (y := y.filterAsync into P check) h.1 (A.asyncFilter into P check) hs
  | mapRequest f =>
    obtain ⟨A, hs⟩ := h.alike
    exact Site.sameAs_of (x := x.mapRequest f) (y := y.mapRequest f) h.1 (A.mapRequest f) hs
  | mapResponse f =>
    obtain ⟨A, hs⟩ := h.alike
    exact Site.sameAs_of (x := x.mapResponse f) (y := y.mapResponse f) h.1 (A.mapResponse f) hs
  | mapErr f =>
    obtain ⟨A, hs⟩ := h.alike
    exact Site.sameAs_of (x := x.mapErr f) (y := y.mapErr f) h.1 (A.mapErr f) hs
  | mapResult into f =>
    obtain ⟨A, hs⟩ := h.alike
    exact Site.sameAs_of (x := x.mapResult into f) (y := y.mapResult into f) h.1 (A.mapResult into f) hs
  | mapFuture into G f =>
    obtain ⟨A, hs⟩ := h.alike
    exact Site.sameAs_of (x := x.mapFuture into G f) (y := y.mapFuture into G f) h.1 (A.mapFuture into (hl x.1.S y.1.S)) hs
  | andThenAlways into G f =>
    obtain ⟨A, hs⟩ := h.alike
    exact Site.sameAs_of (x := x.andThenAlways into G f) (y := y.andThenAlways into G f) h.1 (A.andThenAlways into G f) hs
  | andThen into G f =>
    obtain ⟨A, hs⟩ := h.alike
    exact Site.sameAs_of (x := x.andThen into G f) (y := y.andThen into G f) h.1 (A.andThen into G f) hs
  | boxed =>
    obtain ⟨A, hs⟩ := h.alike
    exact Site.sameAs_of (x := x.boxed) (y := y.boxed) h.1 A.boxed hs
  | spawnReady fuel rt =>
    obtain ⟨A, hs⟩ := h.alike
    exact Site.sameAs_of (x := x.spawnReady fuel rt) (y := y.spawnReady fuel rt) h.1 (A.spawnReady fuel rt) (Lax.of hs)

theorem Method.byHand_adds {a b : Ty} (m : Method W a b) (x : Site W a) : m.byHand x = m.adds.layer x := by
  cases m
  case optionLayer l => cases l <;> rfl
  all_goals rfl

theorem Chain.sameAs {a b : Ty} (c : Chain W a b) (hc : c.Plain) (x y : Site W a) (h : x.SameAs y) : (c.byHand x).SameAs (c.byHand y) := by
  induction c with
  | nil => exact h
  | cons m rest ih =>
    simp only [Chain.byHand, Method.byHand_adds]
    exact C87_layer _ hc.1 _ _ (ih hc.2)

/-- **C87, builder chains.** Put services that no lawful user can tell apart through the same chain of `ServiceBuilder` methods (without `buffer`), of any length and with any arguments: no lawful user can tell the
two stacks apart, by results, by effects on the world, by panics. So a user may reason about a stack knowing only how the service at the bottom behaves, not what it is made of. -/
theorem C87_chain {a b : Ty} (c : Chain W a b) (hc : c.Plain) (x y : Site W a) (h : x.SameAs y) :
    ((ServiceBuilder.new.invokes c).service x).SameAs ((ServiceBuilder.new.invokes c).service y) := by
  rw [C66_chain, C66_chain]; exact c.sameAs hc x y h

/-- **C87, hedge.** The same of `Hedge`, which keeps two handles of the service and calls both. -/
theorem C87_hedge {Q R E B : Type} (into : E → B) (H : HedgeCfg W Q) (x y : Site W ⟨Q, R, E⟩) (h : x.SameAs y) :
    Site.SameAs (t := ⟨Q, R, B⟩) (⟨Hedge into H x.1.S, Hedge.new x.1.S x.1.s⟩, x.2) (⟨Hedge into H y.1.S, Hedge.new y.1.S y.1.s⟩, y.2) := by
  obtain ⟨A, hs⟩ := h.alike
  obtain ⟨rs', rf', A', h'⟩ := A.hedge into H hs
  exact ⟨h.1, A'.seen h'⟩

/-- **C87, either and optional.** The same of `Either` (both sides exchanged), in either variant, and of `Optional`. -/
theorem C87_either {t : Ty} (x y x' y' : Site W t) (h : x.SameAs y) (h' : x'.SameAs y') :
    Site.SameAs (t := t) (⟨Either x.1.S x'.1.S, .inl x.1.s⟩, x.2) (⟨Either y.1.S y'.1.S, .inl y.1.s⟩, y.2) ∧
    Site.SameAs (t := t) (⟨Either x.1.S x'.1.S, .inr x'.1.s⟩, x'.2) (⟨Either y.1.S y'.1.S, .inr y'.1.s⟩, y'.2) ∧
    Site.SameAs (t := ⟨t.Req, t.Res, OptErr t.Err⟩) (⟨Optional x.1.S, some x.1.s⟩, x.2) (⟨Optional y.1.S, some y.1.s⟩, y.2) := by
  obtain ⟨A, hs⟩ := h.alike
  obtain ⟨A', hs'⟩ := h'.alike
  exact ⟨⟨h.1, (A.either A').seen hs⟩, ⟨h'.1, (A.either A').seen hs'⟩, ⟨h.1, A.optional.seen hs⟩⟩

/-- **C87, oneshot.** `oneshot` futures of such services cannot be told apart either. -/
theorem C87_oneshot {t : Ty} (x y : Site W t) (h : x.SameAs y) (r : t.Req) :
    (Oneshot x.1.S).SameAs (Oneshot y.1.S) (.notReady x.1.s (some r)) (.notReady y.1.s (some r)) := by
  obtain ⟨A, hs⟩ := h.alike
  exact FutAlike.sameAs A.oneshot (f := .notReady x.1.s (some r)) (g := .notReady y.1.s (some r)) ⟨rfl, false, hs⟩

/-- **C87, reconnect: the maker.** The maker of a `Reconnect` may be exchanged for one that no lawful user can tell from it, with a first connection or without. -/
theorem C87_reconnect_maker {Tgt Q R E1 E2 : Type} (fuel : Nat) (S : Service W Q R E2) (target : Tgt) (x y : Site W ⟨Tgt, S.σ, E1⟩) (h : x.SameAs y) (first : Option S.σ) :
    Site.SameAs (t := ⟨Q, R, ReconErr E1 E2⟩)
      (⟨Reconnect fuel S x.1.S target, match first with | none => Reconnect.new x.1.s | some s => Reconnect.withConnection s x.1.s⟩, x.2)
      (⟨Reconnect fuel S y.1.S target, match first with | none => Reconnect.new y.1.s | some s => Reconnect.withConnection s y.1.s⟩, y.2) := by
  obtain ⟨A, hs⟩ := h.alike
  refine ⟨h.1, Alike.seen ((Alike.refl S).reconnect A.makes target fuel) ?_⟩
  cases first with
  | none => exact ⟨rfl, hs, trivial⟩
  | some s => exact ⟨rfl, hs, Or.inl rfl⟩

/-- **C87, reconnect: the connections.** So may the connections: if no lawful user can tell any connection `s` from `m s`, nobody notices that the maker's connections are put through `m`, at the first connection and
at every later one. -/
theorem C87_reconnect {Tgt Q R E1 E2 : Type} (fuel : Nat) (S T : Service W Q R E2) (M : Service W Tgt S.σ E1) (target : Tgt) (m : S.σ → T.σ)
    (hm : ∀ s w, Site.SameAs (t := ⟨Q, R, E2⟩) (⟨S, s⟩, w) (⟨T, m s⟩, w)) (k : M.σ) (first : Option S.σ) (w : W) :
    Site.SameAs (t := ⟨Q, R, ReconErr E1 E2⟩)
      (⟨Reconnect fuel S M target, match first with | none => Reconnect.new k | some s => Reconnect.withConnection s k⟩, w)
      (⟨Reconnect fuel T (MapResponse (fun s w => (m s, w)) M) target, match first with | none => Reconnect.new k | some s => Reconnect.withConnection (m s) k⟩, w) := by
  have A := alike_seen S T
  have hs : ∀ s, seenSame S T false s (m s) := fun s => (hm s w).2
  refine ⟨rfl, Alike.seen (A.reconnect (makes_mapResponse M m _ hs) target fuel) ?_⟩
  cases first with
  | none => exact ⟨rfl, rfl, trivial⟩
  | some s => exact ⟨rfl, rfl, Lax.of (hs s)⟩

/-- **C87, future service.** The service that a `FutureService` waits for may be exchanged: `M` is any service, its response future (which gives the service) is the future; with the one it gives put through `m`,
which nobody can tell from it, nobody can tell the `FutureService` apart. -/
theorem C87_future_service {Tgt Q R E : Type} (S T : Service W Q R E) (M : Service W Tgt S.σ E) (m : S.σ → T.σ) (hm : ∀ s w, Site.SameAs (t := ⟨Q, R, E⟩) (⟨S, s⟩, w) (⟨T, m s⟩, w))
    (fclone : M.φ → M.φ) (f : M.φ) (w : W) :
    Site.SameAs (t := ⟨Q, R, E⟩) (⟨FutureService S M.futOf fclone, .future f⟩, w)
      (⟨FutureService T (MapResponse (fun s w => (m s, w)) M).futOf (Option.map fclone), .future (some f)⟩, w) := by
  have A := alike_seen S T
  have hs : ∀ s, seenSame S T false s (m s) := fun s => (hm s w).2
  refine ⟨rfl, Alike.seen (A.futureService M.futOf (MapResponse (fun s w => (m s, w)) M).futOf (rg := fun x y => y = some x)
    (fun x y h => by subst h; exact rel_made M.poll m _ hs x) fclone (Option.map fclone) (by rintro x _ rfl; rfl)) ⟨rfl, rfl⟩⟩

/-- **C87, steer.** So may all the services of a `Steer`, each for one that behaves the same, if its picker looks only at the request, the number of services and the world. For services that are not cloned: a clone of a
ready `Steer` calls services that were never polled, which breaks the contract (C03). -/
theorem C87_steer {Q R E : Type} (S T : Service W Q R E) (hS : ∀ s, S.clone s = s) (hT : ∀ t, T.clone t = t) (pick : Q → Nat → W → Nat × W) (services : List (S.σ × T.σ))
    (h : ∀ p ∈ services, ∀ w, Site.SameAs (t := ⟨Q, R, E⟩) (⟨S, p.1⟩, w) (⟨T, p.2⟩, w)) (w : W) :
    Site.SameAs (t := ⟨Q, R, E⟩) (⟨Steer S (fun r l => pick r l.length), Steer.new (services.map Prod.fst)⟩, w)
      (⟨Steer T (fun r l => pick r l.length), Steer.new (services.map Prod.snd)⟩, w) := by
  refine ⟨rfl, Alike.seen ((alike_seen S T).steer hS hT pick) ?_⟩
  refine ⟨by simp [Steer.new], by simp [Steer.new], ?_⟩
  intro i s t h1 h2
  simp only [Steer.new, List.getElem?_map, Option.map_eq_some_iff] at h1 h2
  obtain ⟨p, hp, rfl⟩ := h1
  obtain ⟨q, hq, rfl⟩ := h2
  rw [hp] at hq; cases hq
  refine ⟨fun hi => absurd ?_ hi, false, (h p (List.mem_of_getElem? hp) w).2⟩
  simpa [Steer.new] using (List.getElem?_eq_some_iff.1 hp).1

/-- **C87, call_all.** Nobody can tell the streams of `call_all` over such services apart, ordered or unordered: polled any number of times, in any worlds, also after its end, with any stream of requests, the stream
yields the same, with the same effects and panics. (`fuel` bounds the rounds of one poll.) -/
theorem C87_call_all {t : Ty} (x y : Site W t) (h : x.SameAs y) (V : Sched W) (R : ReqStream W t.Req) (requests : R.τ) (fuel : Nat) (ws : List W) :
    streamLook (CallAll.pollNext fuel) (CallAll.new x.1.s requests : CallAllOrdered V x.1.S R) ws = streamLook (CallAll.pollNext fuel) (CallAll.new y.1.s requests : CallAllOrdered V y.1.S R) ws ∧
    streamLook (CallAll.pollNext fuel) (CallAll.new x.1.s requests : CallAllUnordered V x.1.S R) ws = streamLook (CallAll.pollNext fuel) (CallAll.new y.1.s requests : CallAllUnordered V y.1.S R) ws := by
  obtain ⟨A, hs⟩ := h.alike
  have B := ordered_alike V A.poll
  have B' := unordered_alike V A.poll
  exact ⟨streamLook_eq (A.callAll B fuel) ws _ _ ⟨rfl, rfl, rfl, B.empty, fun _ => ⟨false, hs⟩⟩, streamLook_eq (A.callAll B' fuel) ws _ _ ⟨rfl, rfl, rfl, B'.empty, fun _ => ⟨false, hs⟩⟩⟩

/-- **C87, load.** The same of the services that measure load: `PendingRequests` and `PeakEwma` with any shared state `r` (the count, the estimate), any completion and any decay, and `Constant`. The shared state, and with
it the load that a balancer reads, is part of the world that can be seen: it is the same too. -/
theorem C87_load {t : Ty} {Res' M : Type} (x y : Site W t) (h : x.SameAs y) (C : Completion t.Res Res') (n : Nat) (decayNs : ℝ) (r : Ewma) (m : M) :
    Site.SameAs (t := ⟨t.Req, Res' × Option Unit, t.Err⟩) (⟨PendingRequests C x.1.S, x.1.s⟩, (n, x.2)) (⟨PendingRequests C y.1.S, y.1.s⟩, (n, y.2)) ∧
    Site.SameAs (t := ⟨t.Req, Res' × Option Nat, t.Err⟩) (⟨PeakEwma decayNs C x.1.S, x.1.s⟩, (r, x.2)) (⟨PeakEwma decayNs C y.1.S, y.1.s⟩, (r, y.2)) ∧
    Site.SameAs (t := t) (⟨Constant M x.1.S, (x.1.s, m)⟩, x.2) (⟨Constant M y.1.S, (y.1.s, m)⟩, y.2) := by
  obtain ⟨A, hs⟩ := h.alike
  exact ⟨⟨by rw [h.1], (A.tracked pendingTracker C).seen hs⟩, ⟨by rw [h.1], (A.tracked (ewmaTracker decayNs) C).seen hs⟩, h.1, (A.constant M).seen ⟨hs, rfl⟩⟩

/-- **C87, balance.** So may the endpoints of a balancer, all that the discovery ever brings: endpoints with a load each (`Constant`), put through `m`, which nobody can tell from them, wherever the discovery inserts them.
The balancer makes the same choices, and no lawful user notices. -/
theorem C87_balance {Q R E K DErr BErr M : Type} [DecidableEq K] (S T : Service W Q R E) (m : S.σ → T.σ) (hm : ∀ s w, Site.SameAs (t := ⟨Q, R, E⟩) (⟨S, s⟩, w) (⟨T, m s⟩, w))
    (D : Discover W K (S.σ × M) DErr) (le : M → M → Bool) (G : Rng) (V : Sched W) (fromErr : E → BErr) (fromDisc : DErr → BErr) (d : D.δ) (r : G.ρ) (fuel : Nat) (w : W) :
    let B : BalCfg W Q R E K DErr BErr := ⟨Constant M S, D, Constant.load le, G, V, fromErr, fromDisc⟩
    let B' : BalCfg W Q R E K DErr BErr := ⟨Constant M T, wrapDiscover (fun e => pure (m e.1, e.2)) D, Constant.load le, G, V, fromErr, fromDisc⟩
    Site.SameAs (t := ⟨Q, R, BErr⟩) (⟨balance B fuel, Balance.fromRng B d r⟩, w) (⟨balance B' fuel, Balance.fromRng B' d r⟩, w) := by
  intro B B'
  have A := (alike_seen S T).constant M
  let P : BalPair (Constant M S) (Constant M T) (fun b s t => seenSame S T b s.1 t.1 ∧ s.2 = t.2) K DErr BErr M :=
    { D := D
      D' := wrapDiscover (fun e => pure (m e.1, e.2)) D
      rd := Eq
      disc := by
        rintro x _ ⟨⟩ v
        simp only [wrapDiscover, run_bind]
        cases hx : (D.poll x).run v with
        | ok a v' =>
          obtain ⟨p, x'⟩ := a
          match p with
          | .pending => exact ⟨⟨rfl, trivial⟩, rfl⟩
          | .ready none => exact ⟨⟨rfl, trivial⟩, rfl⟩
          | .ready (some (.error e)) => exact ⟨⟨rfl, rfl⟩, rfl⟩
          | .ready (some (.ok (.remove k))) => exact ⟨⟨rfl, rfl⟩, rfl⟩
          | .ready (some (.ok (.insert k s))) => exact ⟨⟨rfl, rfl, (hm s.1 v).2, rfl⟩, rfl⟩
        | panic e => exact rfl
        | spin => trivial
      ld := fun s => pure s.2
      ld' := fun s => pure s.2
      load := fun s t h => Rel.pure h.2
      le := le, G := G, V := V, fromErr := fromErr, fromDisc := fromDisc }
  exact ⟨rfl, (A.balance P fuel).seen ⟨rfl, CacheRel.empty, rfl, rfl⟩⟩

theorem Alike.safe_iff {Q R E : Type} {S T : Service W Q R E} {rs : Bool → S.σ → T.σ → Prop} {rf : S.φ → T.φ → Prop} (A : Alike S T rs rf) (cfg : Cfg) (good : R → Prop) (ops : List (Op W Q)) :
    ∀ (x : Sess S) (y : Sess T), List.Forall₂ (HandRel rs) x.hs y.hs → List.Forall₂ (OptRel rf) x.fs y.fs → Sess.Safe cfg good S x ops → Sess.Safe cfg good T y ops := by
  induction ops with
  | nil => intros; trivial
  | cons op ops ih =>
    intro x y hh hf hsafe
    rw [Sess.Safe] at hsafe ⊢
    cases op with
    | ready h w =>
      rcases forall₂_get hh h with ⟨h1, h2⟩ | ⟨⟨s, m⟩, ⟨t, m'⟩, h1, h2, hm, h3, h4⟩
      · simp only [Sess.step, h1, h2] at hsafe ⊢
      · dsimp only at hm h3 h4; subst hm
        cases m with
        | failed => simp only [Sess.step, h2]
        | idle =>
          have hw := A.ready _ s t (h3 rfl) w
          simp only [Sess.step, h1, h2] at hsafe ⊢
          cases hx : (S.pollReady s).run w <;> cases hy : (T.pollReady t).run w <;> rw [hx, hy] at hw <;> simp only [Out.Rel] at hw <;> simp only [hx, hy] at hsafe ⊢
          rename_i a w1 c w2
          obtain ⟨⟨e, h5, h6⟩, rfl⟩ := hw
          obtain ⟨p, s'⟩ := a
          obtain ⟨q, t'⟩ := c
          dsimp only at e h5 h6; subst e
          match p, h5, h6, hsafe with
          | .pending, _, h6, hsafe =>
            simp only [reduceCtorEq, and_false, if_false] at hsafe ⊢
            try dsimp only at hsafe ⊢
            refine ih _ _ ?_ ?_ hsafe
            · exact (forall₂_set hh h (a := (s', .idle)) (b := (t', .idle)) ⟨rfl, fun _ => h6 rfl, by intro h; cases h⟩)
            · exact hf
          | .ready (.ok ()), h5, _, hsafe =>
            try dsimp only at hsafe ⊢
            refine ih _ _ ?_ ?_ hsafe
            · exact (forall₂_set hh h (a := (s', .ready)) (b := (t', .ready)) ⟨rfl, (by intro h; cases h), fun _ => h5 rfl⟩)
            · exact hf
          | .ready (.error e), _, _, hsafe =>
            try dsimp only at hsafe ⊢
            refine ih _ _ ?_ ?_ hsafe
            · exact (forall₂_set hh h (a := (s', .failed)) (b := (t', .failed)) ⟨rfl, (by intro h; cases h), by intro h; cases h⟩)
            · exact hf
        | ready =>
          have hw := A.ready _ s t (h4 rfl) w
          simp only [Sess.step, h1, h2] at hsafe ⊢
          cases hx : (S.pollReady s).run w <;> cases hy : (T.pollReady t).run w <;> rw [hx, hy] at hw <;> simp only [Out.Rel] at hw <;> simp only [hx, hy] at hsafe ⊢
          rename_i a w1 c w2
          obtain ⟨⟨e, h5, h6⟩, rfl⟩ := hw
          obtain ⟨p, s'⟩ := a
          obtain ⟨q, t'⟩ := c
          dsimp only at e h5 h6; subst e
          match p, h5, h6, hsafe with
          | .pending, _, h6, hsafe =>
            by_cases hc : cfg.sticky = true
            · simp [hc] at hsafe
            · simp only [hc, false_and, if_false, Bool.false_eq_true] at hsafe ⊢
              try dsimp only at hsafe ⊢
              refine ih _ _ ?_ ?_ hsafe
              · exact (forall₂_set hh h (a := (s', .idle)) (b := (t', .idle)) ⟨rfl, fun _ => h6 rfl, by intro h; cases h⟩)
              · exact hf
          | .ready (.ok ()), h5, _, hsafe =>
            try dsimp only at hsafe ⊢
            refine ih _ _ ?_ ?_ hsafe
            · exact (forall₂_set hh h (a := (s', .ready)) (b := (t', .ready)) ⟨rfl, (by intro h; cases h), fun _ => h5 rfl⟩)
            · exact hf
          | .ready (.error e), _, _, hsafe =>
            try dsimp only at hsafe ⊢
            refine ih _ _ ?_ ?_ hsafe
            · exact (forall₂_set hh h (a := (s', .failed)) (b := (t', .failed)) ⟨rfl, (by intro h; cases h), by intro h; cases h⟩)
            · exact hf
    | call h r w =>
      rcases forall₂_get hh h with ⟨h1, h2⟩ | ⟨⟨s, m⟩, ⟨t, m'⟩, h1, h2, hm, h3, h4⟩
      · simp only [Sess.step, h1, h2] at hsafe ⊢
      · dsimp only at hm h3 h4; subst hm
        cases m with
        | idle => simp only [Sess.step, h2]
        | failed => simp only [Sess.step, h2]
        | ready =>
          have hw := A.call s t r (h4 rfl) w
          simp only [Sess.step, h1, h2] at hsafe ⊢
          cases hx : (S.call s r).run w <;> cases hy : (T.call t r).run w <;> rw [hx, hy] at hw <;> simp only [Out.Rel] at hw <;> simp only [hx, hy] at hsafe ⊢
          rename_i a w1 c w2
          obtain ⟨⟨h5, h6⟩, rfl⟩ := hw
          try dsimp only at hsafe ⊢
          refine ih _ _ ?_ ?_ hsafe
          · exact (forall₂_set hh h (a := (a.2, .idle)) (b := (c.2, .idle)) ⟨rfl, fun _ => h6, by intro h; cases h⟩)
          · exact (forall₂_snoc hf (a := some a.1) (b := some c.1) h5)
    | poll i w =>
      rcases forall₂_get hf i with ⟨h1, h2⟩ | ⟨a, b, h1, h2, hab⟩
      · simp only [Sess.step, h1, h2] at hsafe ⊢
      · match a, b, hab with
        | none, none, _ => simp only [Sess.step, h2]
        | some f, some g, hab =>
          have hw := A.poll f g hab w
          simp only [Sess.step, h1, h2] at hsafe ⊢
          cases hx : (S.poll f).run w <;> cases hy : (T.poll g).run w <;> rw [hx, hy] at hw <;> simp only [Out.Rel] at hw <;> simp only [hx, hy] at hsafe ⊢
          rename_i a w1 c w2
          obtain ⟨⟨e, h5⟩, rfl⟩ := hw
          obtain ⟨p, f'⟩ := a
          obtain ⟨q, g'⟩ := c
          dsimp only at e h5; subst e
          match p, h5, hsafe with
          | .pending, h5, hsafe =>
            try dsimp only at hsafe ⊢
            refine ih _ _ ?_ ?_ hsafe
            · exact hh
            · exact (forall₂_set hf i (a := some f') (b := some g') (h5 rfl))
          | .ready (.error e), _, hsafe =>
            try dsimp only at hsafe ⊢
            refine ih _ _ ?_ ?_ hsafe
            · exact hh
            · exact (forall₂_set hf i (a := none) (b := none) trivial)
          | .ready (.ok v), _, hsafe =>
            by_cases hg : good v
            · simp only [hg, if_true] at hsafe ⊢
              try dsimp only at hsafe ⊢
              refine ih _ _ ?_ ?_ hsafe
              · exact hh
              · exact (forall₂_set hf i (a := none) (b := none) trivial)
            · simp [hg] at hsafe
    | clone h =>
      rcases forall₂_get hh h with ⟨h1, h2⟩ | ⟨⟨s, m⟩, ⟨t, m'⟩, h1, h2, hm, h3, h4⟩
      · simp only [Sess.step, h1, h2] at hsafe ⊢
      · dsimp only at hm h3 h4; subst hm
        cases m with
        | failed => simp only [Sess.step, h2]
        | idle =>
          by_cases hc : cfg.clone = true
          · simp only [Sess.step, h1, h2, hc, if_true] at hsafe ⊢
            try dsimp only at hsafe ⊢
            refine ih _ _ ?_ ?_ hsafe
            · exact (forall₂_snoc hh (a := (S.clone s, .idle)) (b := (T.clone t, .idle)) ⟨rfl, fun _ => A.clone _ _ _ (h3 rfl), by intro h; cases h⟩)
            · exact hf
          · simp only [Sess.step, h2, hc, if_false, Bool.false_eq_true]
        | ready =>
          by_cases hc : cfg.clone = true
          · simp only [Sess.step, h1, h2, hc, if_true] at hsafe ⊢
            try dsimp only at hsafe ⊢
            refine ih _ _ ?_ ?_ hsafe
            · exact (forall₂_snoc hh (a := (S.clone s, .idle)) (b := (T.clone t, .idle)) ⟨rfl, fun _ => A.clone _ _ _ (h4 rfl), by intro h; cases h⟩)
            · exact hf
          · simp only [Sess.step, h2, hc, if_false, Bool.false_eq_true]

/-- **C87, the contract.** A service that lawful users cannot tell from one that keeps the contract (C01), keeps it too. -/
theorem C87_contract {t : Ty} (x y : Site W t) (h : x.SameAs y) (cfg : Cfg) (good : t.Res → Prop) (hx : SafeG cfg good x.1.S x.1.s) : SafeG cfg good y.1.S y.1.s := by
  obtain ⟨A, hs⟩ := h.alike
  exact fun ops => A.safe_iff cfg good ops _ _ (.cons ⟨rfl, fun _ => hs, by intro h; cases h⟩ .nil) .nil (hx ops)

namespace Demo87

/-- answers with the request plus one, at once; the world counts the calls -/
def plain : Service Nat Nat Nat Unit where
  σ := Unit
  φ := Nat
  pollReady _ := pure (.ready (.ok ()), ())
  call _ r := do Act.modify (· + 1); pure (r + 1, ())
  poll n := pure (.ready (.ok n), n)
  clone := id

/-- the same, made differently: it remembers the number of its calls and computes the answer when polled -/
def other : Service Nat Nat Nat Unit where
  σ := Nat
  φ := Nat
  pollReady s := pure (.ready (.ok ()), s)
  call s r := do Act.modify (· + 1); pure (r, s + 1)
  poll n := pure (.ready (.ok (n + 1)), n)
  clone s := s + 5

/-- one that is found out: it says `Pending` after each call -/
def shy : Service Nat Nat Nat Unit where
  σ := Bool
  φ := Nat
  pollReady s := pure (if s then .ready (.ok ()) else .pending, true)
  call _ r := do Act.modify (· + 1); pure (r + 1, false)
  poll n := pure (.ready (.ok n), n)
  clone := id

theorem plain_other : Alike plain other (fun _ _ _ => True) (fun (x y : Nat) => x = y + 1) where
  ready := fun _ _ _ _ => Rel.pure ⟨rfl, fun _ => trivial, fun _ => trivial⟩
  call := fun _ _ r _ => Rel.modify (Rel.pure ⟨rfl, trivial⟩)
  poll := by
    rintro x y rfl
    exact Rel.pure ⟨rfl, by intro h; cases h⟩
  clone := fun _ _ _ _ => trivial

theorem same : Site.SameAs (t := ⟨Nat, Nat, Unit⟩) (⟨plain, ()⟩, 0) (⟨other, (3 : Nat)⟩, 0) :=
  Site.sameAs_of (x := ((⟨plain, ()⟩ : Inst Nat ⟨Nat, Nat, Unit⟩), 0)) (y := ((⟨other, (3 : Nat)⟩ : Inst Nat ⟨Nat, Nat, Unit⟩), 0)) rfl plain_other trivial

/-- the relation does tell services apart -/
theorem differ : ¬ Site.SameAs (t := ⟨Nat, Nat, Unit⟩) (⟨plain, ()⟩, 0) (⟨shy, true⟩, 0) := by
  intro h
  have h2 := h.2 [.ready 0 0, .call 0 7 0, .ready 0 0]
  injection h2 with _ h3
  injection h3 with _ h4
  injection h4 with h5 _
  injection h5 with h6
  injection h6 with h7
  cases h7

/-- a maker of connections of the kind of `plain`: ready and done at once, it fails for the target 0 -/
def maker : Service Nat Nat Unit Unit where
  σ := Unit
  φ := Nat
  pollReady _ := pure (.ready (.ok ()), ())
  call _ r := do Act.modify (· + 10); pure (r, ())
  poll n := pure (.ready (if n = 0 then .error () else .ok ()), n)
  clone := id

/-- its connections may be exchanged for those of the kind of `other` -/
theorem reconnects (target k : Nat) : Site.SameAs (t := ⟨Nat, Nat, ReconErr Unit Unit⟩)
    (⟨Reconnect 9 plain maker target, Reconnect.new ()⟩, 0)
    (⟨Reconnect 9 other (MapResponse (fun _ w => (k, w)) maker) target, Reconnect.new ()⟩, 0) := by
  refine C87_reconnect 9 plain other maker target (fun _ => k) ?_ () none 0
  exact fun _ w => Site.sameAs_of (x := ((⟨plain, ()⟩ : Inst Nat ⟨Nat, Nat, Unit⟩), w)) (y := ((⟨other, k⟩ : Inst Nat ⟨Nat, Nat, Unit⟩), w)) rfl plain_other trivial

/-- with a target that connects the user sees the answer 8, with the target 0 the error -/
example : look (Reconnect 9 plain maker 5) ⟨[(Reconnect.new (), .idle)], []⟩ [.ready 0 0, .call 0 7 0, .poll 0 4] =
    [.ready (.ok (.ready (.ok ())) 10), .call (.ok () 1), .poll (.ok (.ready (.ok 8)) 4)] := rfl
example : look (Reconnect 9 other (MapResponse (fun _ w => ((3 : Nat), w)) maker) 0) ⟨[(Reconnect.new (), .idle)], []⟩ [.ready 0 0, .call 0 7 0, .poll 0 4] =
    [.ready (.ok (.ready (.ok ())) 10), .call (.ok () 0), .poll (.ok (.ready (.error (.make ()))) 4)] := rfl

/-- like `other`, but not cloned -/
def single : Service Nat Nat Nat Unit := { other with clone := id }

theorem plain_single : Alike plain single (fun _ _ _ => True) (fun (x y : Nat) => x = y + 1) :=
  ⟨plain_other.ready, plain_other.call, plain_other.poll, fun _ _ _ _ => trivial⟩

/-- three services behind a `Steer` that picks by the request -/
theorem steers (a b c : Nat) : Site.SameAs (t := ⟨Nat, Nat, Unit⟩) (⟨Steer plain (fun r l w => (r % l.length, w)), Steer.new [(), (), ()]⟩, 0)
    (⟨Steer single (fun r l w => (r % l.length, w)), Steer.new [a, b, c]⟩, 0) :=
  C87_steer plain single (fun _ => rfl) (fun _ => rfl) (fun r n w => (r % n, w)) [((), a), ((), b), ((), c)]
    (fun p _ w => Site.sameAs_of (x := ((⟨plain, ()⟩ : Inst Nat ⟨Nat, Nat, Unit⟩), w)) (y := ((⟨single, p.2⟩ : Inst Nat ⟨Nat, Nat, Unit⟩), w)) rfl plain_single trivial) 0
example : look (Steer plain (fun r l w => (r % l.length, w))) ⟨[(Steer.new [(), (), ()], .idle)], []⟩ [.ready 0 0, .call 0 7 0, .poll 0 4] =
    [.ready (.ok (.ready (.ok ())) 0), .call (.ok () 1), .poll (.ok (.ready (.ok 8)) 4)] := rfl

/-- a stream of the requests 7, 5 -/
def requests : ReqStream Nat Nat where
  τ := List Nat
  poll
    | [] => pure (.ready none, [])
    | a :: l => pure (.ready (some a), l)

theorem streams (V : Sched Nat) (fuel : Nat) (ws : List Nat) :
    streamLook (CallAll.pollNext fuel) (CallAll.new () [7, 5] : CallAllOrdered V plain requests) ws = streamLook (CallAll.pollNext fuel) (CallAll.new (3 : Nat) [7, 5] : CallAllOrdered V other requests) ws :=
  (C87_call_all (t := ⟨Nat, Nat, Unit⟩) (⟨plain, ()⟩, 0) (⟨other, (3 : Nat)⟩, 0) same V requests [7, 5] fuel ws).1

/-- both requests are answered, in order -/
example : streamLook (CallAll.pollNext 9) (CallAll.new () [7, 5] : CallAllOrdered ⟨fun n w => (List.range n, w)⟩ plain requests) [0, 4, 4] =
    [.ok (.ready (some (.ok 8))) 1, .ok (.ready (some (.ok 6))) 5, .ok (.ready none) 4] := rfl

/-- both are counted in the same way: one request in flight until it is answered -/
theorem counted : Site.SameAs (t := ⟨Nat, Nat × Option Unit, Unit⟩) (⟨PendingRequests CompleteOnResponse plain, ()⟩, ((1 : Nat), (0 : Nat))) (⟨PendingRequests CompleteOnResponse other, (3 : Nat)⟩, (1, 0)) :=
  (C87_load (t := ⟨Nat, Nat, Unit⟩) (M := Unit) (⟨plain, ()⟩, 0) (⟨other, (3 : Nat)⟩, 0) same CompleteOnResponse 1 1 ⟨0, 1, 1, 0, fun _ => 0⟩ ()).1
example : look (PendingRequests CompleteOnResponse plain) ⟨[((), .idle)], []⟩ [.ready 0 (1, 0), .call 0 7 (1, 0), .poll 0 (2, 4)] =
    [.ready (.ok (.ready (.ok ())) (1, 0)), .call (.ok () (2, 1)), .poll (.ok (.ready (.ok (8, none))) (1, 4))] := rfl

/-- brings endpoint 1 with load 5, then nothing more -/
def brings : Discover Nat Nat (Unit × Nat) Unit where
  δ := Bool
  poll b := pure (if b then .pending else .ready (some (.ok (.insert 1 ((), 5)))), true)

theorem balances (G : Rng) (V : Sched Nat) (r : G.ρ) (fuel : Nat) (w : Nat) :
    let B : BalCfg Nat Nat Nat Unit Nat Unit Unit := ⟨Constant Nat plain, brings, Constant.load (fun a b => decide (a ≤ b)), G, V, id, id⟩
    let B' : BalCfg Nat Nat Nat Unit Nat Unit Unit := ⟨Constant Nat other, wrapDiscover (fun e => pure ((3 : Nat), e.2)) brings, Constant.load (fun a b => decide (a ≤ b)), G, V, id, id⟩
    Site.SameAs (t := ⟨Nat, Nat, Unit⟩) (⟨balance B fuel, Balance.fromRng B false r⟩, w) (⟨balance B' fuel, Balance.fromRng B' false r⟩, w) :=
  C87_balance plain other (fun _ => (3 : Nat)) (fun _ w => Site.sameAs_of (x := ((⟨plain, ()⟩ : Inst Nat ⟨Nat, Nat, Unit⟩), w)) (y := ((⟨other, (3 : Nat)⟩ : Inst Nat ⟨Nat, Nat, Unit⟩), w)) rfl plain_other trivial)
    brings (fun a b => decide (a ≤ b)) G V id id false r fuel w
/-- the endpoint is found and answers -/
example (G : Rng) (r : G.ρ) : let B : BalCfg Nat Nat Nat Unit Nat Unit Unit := ⟨Constant Nat plain, brings, Constant.load (fun a b => decide (a ≤ b)), G, ⟨fun n w => (List.range n, w)⟩, id, id⟩
    look (balance B 9) ⟨[(Balance.fromRng B false r, .idle)], []⟩ [.ready 0 0, .call 0 7 0, .poll 0 4] =
    [.ready (.ok (.ready (.ok ())) 0), .call (.ok () 1), .poll (.ok (.ready (.ok 8)) 4)] := rfl

/-- a chain that retries, limits, times out, filters and maps -/
def chain (C : Clock Nat) (H : SemHeap Nat) (P : RetryPolicy Nat Nat Nat Unit) (π : P.π) : Chain Nat ⟨Nat, Nat, Unit⟩ ⟨Nat, Nat, ShedErr (TimeoutErr Unit)⟩ :=
  .cons .loadShed (.cons (.timeout C 5) (.cons (.optionLayer (some (.concurrencyLimit false H 2))) (.cons (.retry 10 P π) (.cons (.mapRequest (fun r w => (r + w, w))) (.cons (.layer .boxed) .nil)))))

theorem exchanged (C : Clock Nat) (H : SemHeap Nat) (P : RetryPolicy Nat Nat Nat Unit) (π : P.π) :
    ((ServiceBuilder.new.invokes (chain C H P π)).service (⟨plain, ()⟩, 0)).SameAs ((ServiceBuilder.new.invokes (chain C H P π)).service (⟨other, (3 : Nat)⟩, 0)) :=
  C87_chain (chain C H P π) ⟨trivial, trivial, trivial, trivial, trivial, trivial, trivial⟩ _ _ same

/-- a respectful closure for `map_future`: it puts the future into a box -/
example : StdLayer.Plain (W := Nat) (a := ⟨Nat, Nat, Unit⟩) (b := ⟨Nat, Nat, Unit⟩) (.mapFuture id (fun S => S.futOf) (fun _ x w => (x, w + 1))) :=
  fun _ _ _ _ _ h => ⟨h, rfl⟩

/-- a respectful function for `layer_fn` -/
example (C : Clock Nat) : StdLayer.Plain (W := Nat) (a := ⟨Nat, Nat, Unit⟩) (b := ⟨Nat, Nat, TimeoutErr Unit⟩) (.layerFn (fun x => x.timeout C 9)) :=
  fun x y h => C87_layer (StdLayer.timeout C 9 : StdLayer Nat ⟨Nat, Nat, Unit⟩ ⟨Nat, Nat, TimeoutErr Unit⟩) trivial x y h

end Demo87

end Tower
