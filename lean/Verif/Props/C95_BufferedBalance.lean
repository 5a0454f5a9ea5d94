import Verif.Props.C91_BalanceLive
import Verif.Props.C93_BufferSlots

/-! # C95: whoever goes through a buffer is served; so are the clients of a buffered balancer -/

set_option linter.unusedSimpArgs false

namespace Tower
open Act

section
variable {W Req Res Err : Type} {S : Service W Req Res Err} {bound : Nat} {svc : S.σ} {ws : Nat → W} {xs : Nat → Buf S} {ks : Nat → Wakers} {evs : Nat → Option (BEv S)} {F : Fairness W}

/-- the user of response future `i` does not give up: it keeps the future, and polls it again and again until it is ready -/
def Patient {S : Service W Req Res Err} (evs : Nat → Option (BEv S)) (i : Nat) : Prop :=
  (∀ m, evs m ≠ some (.dropFut i)) ∧ ((∀ m v, evs m ≠ some (.poll i (.ready v))) → ∀ m, ∃ k, m ≤ k ∧ evs k = some (.poll i .pending))

/-- **C95, end to end.** A client asks a handle of a buffer whether it is ready, whatever is going on in the buffer at that moment, and does not give up: it keeps the handle, calls it when it is ready, keeps the response future and
polls it. The worker is not dropped, and the inner service neither fails nor panics nor hangs. Then the client's request is accepted, it gets to the inner service, and it is answered. -/
theorem C95_client (L : BufLife S bound svc ws xs ks evs) (Fr : BufFair F ws xs ks evs) (U : BufUsers ks evs) (hS : NeverHangs F S svc) (hb : 0 < bound) {nm n : Nat} {p : Poll (Except (BufErr Err) Unit)}
    (hp : evs n = some (.ready nm p)) (hd : ∀ m, evs m ≠ some .workerDropped ∧ evs m ≠ some .svcPanics) (hf : ∀ m e, evs m ≠ some (.svcFailed e)) (hk : ∀ m, evs m ≠ some (.dropHandle nm))
    (hq : ∀ m i r, evs m = some (.accept nm i r) → Patient evs i) :
    ∃ m i r, n < m ∧ evs m = some (.accept nm i r) ∧ (∃ j f, evs j = some (.dispatch i r f)) ∧ ∃ k v, evs k = some (.poll i (.ready v)) := by
  -- it gets its slot
  have hslot : ∃ j, n ≤ j ∧ evs j = some (.ready nm (.ready (.ok ()))) := by
    match p with
    | .pending =>
      obtain ⟨j, h1, h2⟩ := C93_granted L Fr U hS hb hp hd hf hk
      exact ⟨j, by omega, h2⟩
    | .ready (.ok u) => exact ⟨n, Nat.le_refl n, hp⟩
    | .ready (.error e) => exact (handle_never_fails L hd hf hp).elim
  obtain ⟨j, hj, hr⟩ := hslot
  -- it calls
  obtain ⟨m, hm, ha⟩ := U.calls nm (j + 1) ⟨j, by omega, hr, fun k _ _ => by omega⟩
  obtain ⟨i, r, ha⟩ := ha.resolve_left (hk m)
  obtain ⟨h1, h2⟩ := hq m i r ha
  exact ⟨m, i, r, by omega, ha, C92_dispatched L Fr hS ha hd h1 hf, C92_response L Fr hS ha (fun k _ => hd k) h1 h2⟩

/-- the service that the worker is about to call is one that may be called -/
theorem BHist.reach_call {tr : List (BEv S)} {x : Buf S} (h : BHist S bound svc tr x) {m : Msg Req} (hg : x.pc = .call m) : Reach S svc true x.svc := by
  obtain ⟨md, hU⟩ := h.useInv
  have hm := hU.call m hg
  subst hm
  exact hU.uses.reach (by simp)

end

variable {W Req Res Err K DErr BErr : Type} [DecidableEq K] {F : Fairness W} {B : BalCfg W Req Res Err K DErr BErr} {fuel : Nat}

/-- a balancer that may be called has chosen an endpoint that is there -/
theorem balance_chosen {d : B.D.δ} {r : B.G.ρ} {c : Bool} {b : Balance B} (h : Reach (balance B fuel) (Balance.fromRng B d r) c b) : c = true → ∃ i, b.idx = some i ∧ i < b.svcs.ready.length := by
  refine Reach.rec (S := balance B fuel) (s₀ := Balance.fromRng B d r) (motive := fun c b _ => c = true → ∃ i, Balance.idx b = some i ∧ i < b.svcs.ready.length) nofun ?_ ?_ ?_ ?_ h
  · intro _ s s' w w' h1 hr _ _
    obtain ⟨log, h2⟩ := balance_reach h1
    have hp := Balance.ready_post (h2.log (LogInv.new d r)).inv hr
    obtain ⟨chs, b1, w1, _, _, _, h4⟩ := hp.upd
    rcases h4 with ⟨e, he, _⟩ | h4
    · cases he
    · obtain ⟨⟨i, k, s, p, s0, w0, q1, q2, q3⟩, _⟩ := h4.ready rfl
      exact ⟨i, q1, (List.getElem?_eq_some_iff.1 q2).1⟩
  · intro _ _ _ _ _ _ _ _ h; cases h
  · intro _ _ _ _ _ _ _ _ _ h; cases h
  · intro _ _ _ _ h; cases h

variable {bound : Nat} {d : B.D.δ} {r : B.G.ρ} {ws : Nat → W} {xs : Nat → Buf (balance B fuel)} {ks : Nat → Wakers} {evs : Nat → Option (BEv (balance B fuel))}

/-- **C95, a buffered balancer does not fail.** If discovery never fails, the balancer never fails in the worker; if discovery, the endpoints and the load function do not panic, the worker does not. -/
theorem C95_no_failure (L : BufLife (balance B fuel) bound (Balance.fromRng B d r) ws xs ks evs) (hok : ∀ x w x' e w', (B.D.poll x).run w ≠ .ok (.ready (some (.error e)), x') w')
    (hnp : ∀ w m, (∀ x, (B.D.poll x).run w ≠ .panic m) ∧ (∀ s, (B.S.pollReady s).run w ≠ .panic m) ∧ (∀ s q, (B.S.call s q).run w ≠ .panic m) ∧ ∀ s, (B.L.load s).run w ≠ .panic m) :
    (∀ n e, evs n ≠ some (.svcFailed e)) ∧ ∀ n, evs n ≠ some .svcPanics := by
  refine ⟨fun n e he => ?_, fun n he => ?_⟩
  · obtain ⟨tr, hh, -⟩ := L.bhist n
    have hs := (L.step n _ he).1
    have key : ∀ {x y : Buf (balance B fuel)}, BStep x (.svcFailed e) y → ∃ m w s' w', x.pc = .got m ∧ x.failed = none ∧ ((balance B fuel).pollReady x.svc).run w = .ok (.ready (.error e), s') w' := by
      intro x y hs
      cases hs with
      | worker hs => cases hs with | svc_failed h1 h2 h3 => exact ⟨_, _, _, _, h1, h2, h3⟩
      | handle hs => cases hs
      | future hs => cases hs
      | death hs => cases hs
    obtain ⟨m, w, s', w', h1, h2, h3⟩ := key hs
    obtain ⟨b, hb⟩ := hh.reach h1 h2
    obtain ⟨log, hb⟩ := balance_reach hb
    obtain ⟨x, x', w1, e0, h4, _⟩ := C34_only_discovery_fails ⟨d, r, hb⟩ h3
    exact hok _ _ _ _ _ h4
  · obtain ⟨tr, hh, -⟩ := L.bhist n
    have hs := (L.step n _ he).1
    have key : ∀ {x y : Buf (balance B fuel)}, BStep x .svcPanics y → (∃ m w msg, x.pc = .got m ∧ x.failed = none ∧ ((balance B fuel).pollReady x.svc).run w = .panic msg) ∨
        ∃ m w msg, x.pc = .call m ∧ ((balance B fuel).call x.svc m.req).run w = .panic msg := by
      intro x y hs
      cases hs with
      | worker hs => cases hs
      | handle hs => cases hs
      | future hs => cases hs
      | death hs =>
        cases hs with
        | ready_panics h1 h2 h3 => exact .inl ⟨_, _, _, h1, h2, h3⟩
        | call_panics h1 h2 => exact .inr ⟨_, _, _, h1, h2⟩
    rcases key hs with ⟨m, w, msg, h1, h2, h3⟩ | ⟨m, w, msg, h1, h2⟩
    · obtain ⟨b, hb⟩ := hh.reach h1 h2
      obtain ⟨log, hb⟩ := balance_reach hb
      rcases C30_no_panic ⟨d, r, hb⟩ h3 with ⟨_, w1, h4⟩ | ⟨_, w1, h4⟩ | ⟨_, w1, h4⟩
      · exact (hnp w1 msg).1 _ h4
      · exact (hnp w1 msg).2.1 _ h4
      · exact (hnp w1 msg).2.2.2 _ h4
    · have hb := hh.reach_call h1
      obtain ⟨i, hi, hl⟩ := balance_chosen hb rfl
      obtain ⟨log, hb⟩ := balance_reach hb
      rcases C30_call_panics ⟨d, r, hb⟩ h2 with h4 | ⟨i', h4, h5⟩ | ⟨s, h4⟩
      · rw [hi] at h4; cases h4
      · rw [hi] at h4; cases h4; omega
      · exact (hnp w msg).2.2.1 _ _ h4

/-- **C95, the clients of a buffered balancer.** `Buffer` around `Balance`, the stack in which tower's balancer is meant to be shared. Discovery makes finitely many changes, does not fail, and will come up with an endpoint that does not
fail; no endpoint hangs or panics, what is ready stays ready; the executor is fair and does not drop the worker. Then every client that does not give up gets its request accepted, sent by the balancer to an endpoint, and answered:
however many other clients there are, in whatever order things happen, and whatever the other endpoints do. -/
theorem C95_balanced {N : Nat} (L : BufLife (balance B fuel) bound (Balance.fromRng B d r) ws xs ks evs) (Fr : BufFair F ws xs ks evs) (U : BufUsers ks evs) (hb : 0 < bound) (hp : Prompt B.S) (hl : ∀ s, (B.L.load s).Returns)
    (hD : ∀ d, (B.D.poll d).Returns) (hst : StaysReady B.S) (hF : F.Undisturbed (ByBalancer B)) (hV : B.V.Wakes F (ByBalancer B)) (hN : ∀ chs d', B.D.After d chs d' → chs.length ≤ N) (hfuel : N < fuel)
    (hS : ∀ chs d' k s, B.D.After d chs d' → .insert k s ∈ chs → NeverHangs F B.S s) (hk : B.D.Provides F B.S d) (hok : ∀ x w x' e w', (B.D.poll x).run w ≠ .ok (.ready (some (.error e)), x') w')
    (hnp : ∀ w m, (∀ x, (B.D.poll x).run w ≠ .panic m) ∧ (∀ s, (B.S.pollReady s).run w ≠ .panic m) ∧ (∀ s q, (B.S.call s q).run w ≠ .panic m) ∧ ∀ s, (B.L.load s).run w ≠ .panic m)
    (hwd : ∀ m, evs m ≠ some .workerDropped) {nm n : Nat} {p : Poll (Except (BufErr BErr) Unit)} (ha : evs n = some (.ready nm p)) (hdh : ∀ m, evs m ≠ some (.dropHandle nm))
    (hq : ∀ m i q, evs m = some (.accept nm i q) → Patient evs i) :
    ∃ m i q, n < m ∧ evs m = some (.accept nm i q) ∧ (∃ j f, evs j = some (.dispatch i q f)) ∧ ∃ k v, evs k = some (.poll i (.ready v)) :=
  have h := C95_no_failure L hok hnp
  C95_client L Fr U (C91_never_hangs hp hl hD hst hF hV hN hfuel hS hk) hb ha (fun m => ⟨hwd m, h.2 m⟩) h.1 hdh hq

/-! ### The demonstration of C92 again, end to end -/

section Demo

theorem warm_users : BufUsers (S := warm) lk le where
  polls nm n hw _ := by
    obtain ⟨j, -, he, -⟩ := hw
    exfalso
    revert j
    refine by_time (fun j hj => ?_) fun j he => by cases he
    intro he
    interval_cases j <;> cases he
  calls nm n hw := by
    obtain ⟨j, hj, he, hk⟩ := hw
    have hj2 : j = 0 ∧ nm = 0 := by
      clear hk hj
      revert j
      refine by_time (fun j hj => ?_) fun j he => by cases he
      intro he
      interval_cases j <;> cases he
      exact ⟨rfl, rfl⟩
    obtain ⟨rfl, rfl⟩ := hj2
    by_cases hn : n ≤ 1
    · exact ⟨1, hn, .inr ⟨_, _, rfl⟩⟩
    · exact absurd rfl ((hk 1 (by omega) (by omega)).2 0 7)

example : ∃ m i r, 0 < m ∧ le m = some (.accept 0 i r) ∧ (∃ j f, le j = some (.dispatch i r f)) ∧ ∃ k v, le k = some (.poll i (.ready v)) := by
  refine C95_client demo_life demo_fair warm_users (warm_live 1) (by decide) (nm := 0) (n := 0) rfl ?_ ?_ ?_ ?_
  · refine by_time (fun n hn => ?_) fun n => ⟨nofun, nofun⟩
    interval_cases n <;> simp [le]
  · intro n e
    revert n
    refine by_time (fun n hn => ?_) fun n => nofun
    interval_cases n <;> simp [le]
  · refine by_time (fun n hn => ?_) fun n => nofun
    interval_cases n <;> simp [le]
  · intro m i r ha
    have hi : i = 0 := by
      revert m
      refine by_time (fun n hn => ?_) fun n => nofun
      intro ha
      interval_cases n <;> cases ha
      rfl
    subst hi
    refine ⟨?_, fun h => absurd rfl (h 17 (.ok 8))⟩
    refine by_time (fun n hn => ?_) fun n => nofun
    interval_cases n <;> simp [le]

end Demo

/-! ### A buffer around a balancer whose only endpoint is discovered, and gets ready, after the request was accepted -/

namespace Demo95
open Demo89 Demo91

abbrev BC := balance cfg 6

/-- the endpoint is found at 5, and ready at 10 -/
def one : disc.δ := [(5, .insert 1 (10 : Nat))]

def m0 : Balance cfg := Balance.fromRng cfg one (0 : Nat)
def m1 : Balance cfg := { m0 with disc := [], svcs := { pending := [⟨1, (10 : Nat), 0⟩], txs := [(1, 0)], ready := [], cancelled := [], nextCell := 1 } }
def m2 : Balance cfg := { m1 with svcs := { m1.svcs with pending := [], txs := [], ready := [(1, (0 : Nat), 0, 0)] }, idx := some 0 }
def m3 : Balance cfg := { m2 with svcs := { m2.svcs with pending := [⟨1, (8 : Nat), 0⟩], txs := [(1, 0)], ready := [] }, idx := none }


example : (BC.pollReady m0).run (6 : Nat) = .ok (.pending, m1) (6 : Nat) := rfl
example : (BC.pollReady m1).run (11 : Nat) = .ok (.ready (.ok ()), m2) (11 : Nat) := rfl
example : (BC.call m2 (7 : Nat)).run (12 : Nat) = .ok (some (7 : Nat), m3) (12 : Nat) := rfl

abbrev lm : Msg Nat := ⟨0, 7⟩
abbrev k0 : Buf BC := Buf.init BC 1 m0
abbrev k1 : Buf BC := { k0 with hs := [(k0.pollReady ⟨0, .idle⟩).2.1], sem := (k0.pollReady ⟨0, .idle⟩).2.2 }
abbrev k2 : Buf BC := { k1 with hs := [⟨0, .idle⟩], queue := [lm], shots := Function.update k1.shots 0 .waiting, futs := Function.update k1.futs 0 .rx, calls := 1 }
abbrev k3 : Buf BC := { k2 with pc := .next }
abbrev k4 : Buf BC := { k3 with pc := .recv }
abbrev k5 : Buf BC := { k4 with queue := [], sem := k4.sem.release, pc := .check lm }
abbrev k6 : Buf BC := { k5 with pc := .got lm }
abbrev k7 : Buf BC := { k6 with svc := m1, cur := some lm, pc := .parked }
abbrev k9 : Buf BC := { k7 with pc := .next }
abbrev k10 : Buf BC := { k9 with cur := none, pc := .check lm }
abbrev k11 : Buf BC := { k10 with pc := .got lm }
abbrev k12 : Buf BC := { k11 with svc := m2, pc := .call lm }
abbrev k13 : Buf BC := { k12 with svc := m3, pc := .reply lm (some (7 : Nat)) }
abbrev k14 : Buf BC := { k13.send 0 (.ok (some (7 : Nat))) with pc := .next }
abbrev k15 : Buf BC := { k14 with pc := .recv }
abbrev k16 : Buf BC := { k15 with pc := .parked }
abbrev k17 : Buf BC := { k16 with futs := Function.update k16.futs 0 (.inner (some (7 : Nat))) }
abbrev k18 : Buf BC := { k17 with futs := Function.update k17.futs 0 .finished }

def lx : Nat → Buf BC
  | 0 => k0 | 1 => k1 | 2 => k2 | 3 => k3 | 4 => k4 | 5 => k5 | 6 => k6 | 7 => k7 | 8 => k7 | 9 => k9 | 10 => k10 | 11 => k11 | 12 => k12
  | 13 => k13 | 14 => k14 | 15 => k15 | 16 => k16 | 17 => k17 | _ => k18

def le : Nat → Option (BEv BC)
  | 0 => some (.ready 0 (.ready (.ok ())))
  | 1 => some (.accept 0 0 7)
  | 2 | 3 | 4 | 5 => some .tau
  | 6 => some .svcPending
  | 7 => none
  | 8 | 9 | 10 | 11 => some .tau
  | 12 => some (.dispatch 0 7 (some (7 : Nat)))
  | 13 | 14 | 15 | 16 => some .tau
  | 17 => some (.poll 0 (.ready (.ok 7)))
  | _ => none

/-- the balancer's endpoint uses its waker at time 7 -/
def lk : Nat → Wakers
  | 0 => .init
  | n + 1 => match le n with
    | none => if n = 7 then { lk n with worker := true } else lk n
    | some ev => (lx n).wakes ev (lx (n + 1)) (lk n)

theorem lsteps : ∀ n ev, le n = some ev → BStep (lx n) ev (lx (n + 1))
  | 0, _, rfl => .handle (HStep.ready (x := k0) (h := ⟨0, .idle⟩) (l := []) (r := []) rfl)
  | 1, _, rfl => .handle (.call (h := ⟨0, .ready⟩) (l := []) (r := []) rfl rfl)
  | 2, _, rfl => .worker (.start rfl)
  | 3, _, rfl => .worker (.fresh rfl rfl)
  | 4, _, rfl => .worker (.recv rfl rfl)
  | 5, _, rfl => .worker (.wanted rfl rfl)
  | 6, _, rfl => .worker (.svc_pending (w := (6 : Nat)) (w' := (6 : Nat)) rfl rfl rfl)
  | 8, _, rfl => .worker (.start rfl)
  | 9, _, rfl => .worker (.resume rfl rfl)
  | 10, _, rfl => .worker (.wanted rfl rfl)
  | 11, _, rfl => .worker (.svc_ready (w := (11 : Nat)) (w' := (11 : Nat)) rfl rfl rfl)
  | 12, _, rfl => .worker (WStep.svc_call (x := k12) (m := lm) (f := some (7 : Nat)) (s' := m3) (w := (12 : Nat)) (w' := (12 : Nat)) rfl rfl)
  | 13, _, rfl => .worker (WStep.reply (x := k13) (m := lm) (f := some (7 : Nat)) rfl)
  | 14, _, rfl => .worker (.fresh rfl rfl)
  | 15, _, rfl => .worker (.empty rfl rfl (by intro h; cases h) (by intro h; cases h))
  | 16, _, rfl => .future (.arrived rfl rfl)
  | 17, _, rfl => .future (.inner_ok (w := (17 : Nat)) (w' := (17 : Nat)) (f' := none) rfl rfl)

theorem lk_late (n : Nat) : (lk (n + 16)).worker = false := by
  have h : ∀ n, lk (n + 18) = lk 18 := by
    intro n
    induction n with
    | zero => rfl
    | succ n ih =>
      show (if n + 18 = 7 then { lk (n + 18) with worker := true } else lk (n + 18)) = lk 18
      rw [if_neg (by omega), ih]
  match n with
  | 0 => rfl
  | 1 => rfl
  | n + 2 => rw [show n + 2 + 16 = n + 18 by omega, h n]; rfl

/-- at the moment `n` it is `n` o'clock -/
theorem balance_life : BufLife BC 1 m0 id lx lk le where
  start := rfl
  startWakers := rfl
  step n ev he := by
    refine ⟨lsteps n ev he, ?_, ?_⟩
    · revert n
      refine by_time (fun n hn => ?_) fun n he => by cases he
      intro _
      interval_cases n <;> first | exact fun _ _ => rfl | exact nofun | exact fun _ => nofun
    · show (match le n with | none => if n = 7 then { lk n with worker := true } else lk n | some ev => (lx n).wakes ev (lx (n + 1)) (lk n)) = _
      rw [he]
  wake n he := by
    have h1 : lx (n + 1) = lx n := by
      revert n
      refine by_time (fun n hn => ?_) fun n _ => rfl
      intro he
      interval_cases n <;> first | rfl | cases he
    have h2 : lk (n + 1) = if n = 7 then { lk n with worker := true } else lk n := by
      show (match le n with | none => if n = 7 then { lk n with worker := true } else lk n | some ev => (lx n).wakes ev (lx (n + 1)) (lk n)) = _
      rw [he]
    rw [h2]
    refine ⟨h1, ?_⟩
    split <;> exact ⟨fun h => by first | exact h | rfl, rfl, fun _ h => h, fun _ h => h⟩
  svcWorld n := by
    revert n
    refine by_time (fun n hn => ?_) fun n => ?_
    · rintro ⟨m, h1, h2, h3⟩
      interval_cases n <;> first | cases h1 | skip
      · exact .inl ⟨(6 : Nat), rfl, rfl⟩
      · exact .inr (.inl ⟨_, (11 : Nat), rfl, by simp [le]⟩)
    · rintro ⟨m, h1, _⟩; cases h1
  futWorld n i f hf := by
    refine ⟨fun he => ?_, fun v he => ?_⟩
    · exfalso
      revert n
      refine by_time (fun n hn => ?_) fun n _ he => by cases he
      intro _ he
      interval_cases n <;> cases he
    · have hn : n = 17 ∧ i = 0 := by
        clear hf
        revert n
        refine by_time (fun n hn => ?_) fun n he => by cases he
        intro he
        interval_cases n <;> cases he
        exact ⟨rfl, rfl⟩
      obtain ⟨rfl, rfl⟩ := hn
      cases hf
      exact ⟨_, none, (17 : Nat), rfl⟩

theorem goes_late (g : Nat → Nat) (hg : StrictMono g) : goes.fair fun k => id (g k) := fun t => ⟨t, hg.id_le t⟩

theorem balance_fair : BufFair goes (S := BC) id lx lk le where
  runs n := by
    revert n
    refine by_time (fun n hn => ?_) fun n h _ _ => ?_
    · intro h _ _
      by_cases h16 : n < 16
      · refine ⟨15, .tau, by omega, rfl, .inl (.empty rfl rfl (by intro h; cases h) (by intro h; cases h))⟩
      · obtain ⟨k, rfl⟩ := Nat.exists_eq_add_of_le (Nat.le_of_not_lt h16)
        have h1 := lk_late k
        rw [Nat.add_comm] at h1
        have h2 : (lx (16 + k)).pc = .parked := by
          have : k < 2 := by omega
          interval_cases k <;> rfl
        rw [h h2] at h1; cases h1
    · have h1 := lk_late (n + 2)
      rw [show n + 2 + 16 = n + 18 by omega, h rfl] at h1; cases h1
  svcWakes n := by
    revert n
    refine by_time (fun n hn => ?_) fun n _ h => absurd rfl h
    intro hp hc
    by_cases h8 : n ≤ 8
    · exact ⟨8, h8, .inl rfl⟩
    · interval_cases n <;> first | exact absurd rfl hc | cases hp
  svcFair g hg _ := goes_late g hg
  futFair _ g hg _ := goes_late g hg

theorem balance_users : BufUsers (S := BC) lk le where
  polls nm n hw _ := by
    obtain ⟨j, -, he, -⟩ := hw
    exfalso
    revert j
    refine by_time (fun j hj => ?_) fun j he => by cases he
    intro he
    interval_cases j <;> cases he
  calls nm n hw := by
    obtain ⟨j, hj, he, hk⟩ := hw
    have hj2 : j = 0 ∧ nm = 0 := by
      clear hk hj
      revert j
      refine by_time (fun j hj => ?_) fun j he => by cases he
      intro he
      interval_cases j <;> cases he
      exact ⟨rfl, rfl⟩
    obtain ⟨rfl, rfl⟩ := hj2
    by_cases hn : n ≤ 1
    · exact ⟨1, hn, .inr ⟨_, _, rfl⟩⟩
    · exact absurd rfl ((hk 1 (by omega) (by omega)).2 0 7)

theorem one_after {chs d'} (h : disc.After one chs d') : [.insert 1 10] = chs ++ List.map (·.2) d' := disc_after h

/-- time goes by, and the endpoint is found -/
theorem one_provides : disc.Provides goes lazy one := by
  intro ws ds logs hw h0 hs
  have hafter : ∀ n, disc.After one (logs n) (ds n) := by
    intro n
    induction n with
    | zero => exact h0
    | succ n ih => obtain ⟨chs, h1, h2⟩ := hs n; rw [h2]; exact h1.after ih
  obtain ⟨m, hm⟩ := hw 5
  have hne : logs (m + 1) ≠ [] := by
    obtain ⟨chs, h1, h2⟩ := hs m
    rw [h2]
    obtain ⟨pre, h3, h4⟩ := disc_suffix (hafter m)
    rw [h4]
    cases pre with
    | cons a t => simp
    | nil =>
      have h3 : one = ds m := h3
      rw [← h3] at h1
      have hrun : (disc.poll one).run (ws m) = .ok (.ready (some (.ok (.insert 1 10))), one.tail) (ws m) := by
        rw [disc_run]; simp [one, hm]
      cases h1 with
      | change h5 _ => simp
      | pending h5 => rw [hrun] at h5; cases h5
      | ended h5 => rw [hrun] at h5; cases h5
  refine ⟨m + 1, fun n hn => ?_⟩
  have hc : logs n ≠ [] := by
    obtain ⟨j, rfl⟩ := Nat.exists_eq_add_of_le hn
    induction j with
    | zero => exact hne
    | succ j ih =>
      obtain ⟨chs, h1, h2⟩ := hs (m + 1 + j)
      show logs (m + 1 + j + 1) ≠ []
      rw [h2]
      intro h3
      exact ih (by omega) (List.append_eq_nil_iff.1 h3).1
  have h1 := one_after (hafter n)
  match hl : logs n, hc, h1 with
  | [a], _, h1 => simp at h1; obtain ⟨rfl, _⟩ := h1; exact ⟨1, 0, (10 : Nat), ⟨[], [], rfl, rfl, by simp, by simp⟩, lazy_sound _⟩
  | _ :: _ :: _, _, h1 => simp at h1

/-- what discovery and the endpoints do: the discovery yields its changes and nothing else, and nothing panics -/
theorem disc_sound (x : disc.δ) (w : Nat) {x' e w'} : (disc.poll x).run w ≠ .ok (.ready (some (.error e)), x') w' := by
  intro h
  rw [disc_run] at h
  match x, h with
  | [], h => cases h
  | (d, c) :: t, h => by_cases hd : d ≤ w <;> simp only [hd, if_true, if_false] at h <;> cases h

theorem disc_calm (x : disc.δ) (w : Nat) (m : String) : (disc.poll x).run w ≠ .panic m := by
  rw [disc_run]; cases x <;> nofun

example : ∃ m i q, 0 < m ∧ le m = some (.accept 0 i q) ∧ (∃ j f, le j = some (.dispatch i q f)) ∧ ∃ k v, le k = some (.poll i (.ready v)) := by
  refine C95_balanced (N := 1) balance_life balance_fair balance_users (by decide) lazy_prompt (fun s => ⟨fun w h => by cases h⟩) (fun d => ⟨fun w => by rw [disc_run]; cases d <;> simp⟩) lazy_stays undisturbed wakes
    (fun chs d' h => ?_) (by omega) (fun _ _ _ _ _ _ => lazy_live _) one_provides (fun x w x' e w' => disc_sound x w)
    (fun w m => ⟨fun x => disc_calm x w m, fun (s : Nat) h => (by rw [lazy_run] at h; cases h), fun s q h => (by cases h), fun s h => (by cases h)⟩) ?_ (nm := 0) (n := 0) rfl ?_ ?_
  · have := congrArg List.length (one_after h)
    simp at this
    omega
  · refine by_time (fun n hn => ?_) fun n => nofun
    interval_cases n <;> simp [le]
  · refine by_time (fun n hn => ?_) fun n => nofun
    interval_cases n <;> simp [le]
  · intro m i r ha
    have hi : i = 0 := by
      revert m
      refine by_time (fun n hn => ?_) fun n => nofun
      intro ha
      interval_cases n <;> cases ha
      rfl
    subst hi
    refine ⟨?_, fun h => absurd rfl (h 17 (.ok 7))⟩
    refine by_time (fun n hn => ?_) fun n => nofun
    interval_cases n <;> simp [le]

end Demo95

end Tower
