import Verif.Model.Balance
import Verif.Model.Hedge
import Verif.Model.Load
import Verif.Model.CallAll

/-! # Code that returns: closure under the middleware -/

set_option linter.unusedSimpArgs false

namespace Tower
variable {W : Type}

/-- The code comes to an end, with a value or by a panic, in whatever world it runs. -/
structure Act.Returns {α : Type} (x : Act W α) : Prop where
  spin : ∀ w, x.run w ≠ .spin

/-- A service that does not block: `poll_ready`, `call` and the `poll` of response futures return, in every state and every world. -/
structure Prompt {Req Res Err : Type} (S : Service W Req Res Err) : Prop where
  ready : ∀ s, (S.pollReady s).Returns
  call : ∀ s r, (S.call s r).Returns
  poll : ∀ f, (S.poll f).Returns

namespace Act.Returns
variable {α β : Type}

theorem bind {x : Act W α} {f : α → Act W β} (hx : x.Returns) (hf : ∀ a, (f a).Returns) : (x >>= f).Returns := by
  refine ⟨fun w h => ?_⟩
  rw [Act.run_bind] at h
  cases h1 : x.run w with
  | ok a w' => rw [h1] at h; exact (hf a).spin w' h
  | panic m => rw [h1] at h; cases h
  | spin => exact hx.spin w h1

theorem pure (a : α) : (Pure.pure a : Act W α).Returns := ⟨fun _ h => by cases h⟩
theorem panic (m : String) : (Act.panic m : Act W α).Returns := ⟨fun _ h => by cases h⟩
theorem lift (f : W → α × W) : (Act.lift f).Returns := ⟨fun _ h => by cases h⟩
theorem get : (Act.get : Act W W).Returns := ⟨fun _ h => by cases h⟩
theorem modify (f : W → W) : (Act.modify f : Act W Unit).Returns := ⟨fun _ h => by cases h⟩

theorem snd {A : Type} {x : Act W α} (h : x.Returns) : (x.snd : Act (A × W) α).Returns := by
  refine ⟨fun w hs => ?_⟩
  unfold Act.snd at hs
  cases h1 : x.run w.2 with
  | ok a w' => simp [h1] at hs
  | panic m => simp [h1] at hs
  | spin => exact h.spin _ h1

theorem fst {A : Type} {x : Act A α} (h : x.Returns) : (x.fst : Act (A × W) α).Returns := by
  refine ⟨fun w hs => ?_⟩
  unfold Act.fst at hs
  cases h1 : x.run w.1 with
  | ok a w' => simp [h1] at hs
  | panic m => simp [h1] at hs
  | spin => exact h.spin _ h1

/-- along a run: code that leads to a spin did not spin before -/
theorem bind_at {x : Act W α} {f : α → Act W β} {w : W} (hx : x.run w ≠ .spin) (hf : ∀ a w', x.run w = .ok a w' → (f a).run w' ≠ .spin) : (x >>= f).run w ≠ .spin := by
  intro h
  rw [Act.run_bind] at h
  cases h1 : x.run w with
  | ok a w' => rw [h1] at h; exact hf a w' h1 h
  | panic m => rw [h1] at h; cases h
  | spin => exact hx h1

end Act.Returns

/-- closes goals `(…).Returns` for straight-line code; the terms are facts about the code that is called -/
syntax "returns_auto" "[" term,* "]" : tactic
macro_rules
  | `(tactic| returns_auto [$ts,*]) => `(tactic| (
  repeat (first
    | exact Act.Returns.pure _
    | exact Act.Returns.panic _
    | exact Act.Returns.lift _
    | exact Act.Returns.get
    | exact Act.Returns.modify _
    $[| exact $ts]*
    | apply Act.Returns.bind
    | apply Act.Returns.snd
    | apply Act.Returns.fst
    | intro _
    | dsimp only
    | split)))

theorem mapFut_returns {φ A B : Type} {poll : φ → Act W (Poll A × φ)} {f : A → Act W B} (hp : ∀ x, (poll x).Returns) (hf : ∀ a, (f a).Returns) (x : Option φ) : (mapFut poll f x).Returns := by
  cases x with
  | none => exact Act.Returns.panic _
  | some x =>
    unfold mapFut
    returns_auto [hp _, hf _]

section
variable {Req Req' Res Res' Err Err' : Type}

theorem MapRequest.prompt {f : Req' → W → Req × W} {S : Service W Req Res Err} (h : Prompt S) : Prompt (MapRequest f S) :=
  ⟨h.ready, fun s r => .bind (.lift _) fun _ => h.call _ _, h.poll⟩

theorem MapResponse.prompt {f : Res → W → Res' × W} {S : Service W Req Res Err} (h : Prompt S) : Prompt (MapResponse f S) :=
  ⟨h.ready, fun s r => .bind (h.call _ _) fun _ => .pure _, mapFut_returns h.poll (by returns_auto [])⟩

theorem MapErr.prompt {f : Err → W → Err' × W} {S : Service W Req Res Err} (h : Prompt S) : Prompt (MapErr f S) :=
  ⟨fun s => .bind (h.ready s) (by returns_auto []), fun s r => .bind (h.call _ _) fun _ => .pure _, mapFut_returns h.poll (by returns_auto [])⟩

theorem MapResult.prompt {into : Err → Err'} {f : Except Err Res → W → Except Err' Res' × W} {S : Service W Req Res Err} (h : Prompt S) : Prompt (MapResult into f S) :=
  ⟨fun s => .bind (h.ready s) (by returns_auto []), fun s r => .bind (h.call _ _) fun _ => .pure _, mapFut_returns h.poll (by returns_auto [])⟩

theorem MapFuture.prompt {into : Err → Err'} {S : Service W Req Res Err} {G : Fut W (Except Err' Res')} (hg : ∀ g, (G.poll g).Returns) {f : S.φ → W → G.φ × W} (h : Prompt S) : Prompt (MapFuture into S G f) :=
  ⟨fun s => .bind (h.ready s) (by returns_auto []), fun s r => .bind (h.call _ _) (by returns_auto []), hg⟩

theorem pollSecond_returns {A Out : Type} {G : Fut W Out} (hg : ∀ g, (G.poll g).Returns) (g : G.φ) : (pollSecond (A := A) G g).Returns :=
  .bind (hg g) (by returns_auto [])

theorem Then.prompt {into : Err → Err'} {S : Service W Req Res Err} {G : Fut W (Except Err' Res')} (hg : ∀ g, (G.poll g).Returns) {f : Except Err Res → W → G.φ × W} (h : Prompt S) : Prompt (Then into S G f) where
  ready s := .bind (h.ready s) (by returns_auto [])
  call s r := .bind (h.call _ _) (by returns_auto [])
  poll x := by
    cases x with
    | first x =>
      exact .bind (h.poll x) (by returns_auto [pollSecond_returns hg _])
    | second g => exact pollSecond_returns hg g
    | done => exact .panic _

theorem AndThen.prompt {into : Err → Err'} {S : Service W Req Res Err} {G : Fut W (Except Err' Res')} (hg : ∀ g, (G.poll g).Returns) {f : Res → W → G.φ × W} (h : Prompt S) : Prompt (AndThen into S G f) where
  ready s := .bind (h.ready s) (by returns_auto [])
  call s r := .bind (h.call _ _) (by returns_auto [])
  poll x := by
    cases x with
    | first x =>
      exact .bind (h.poll x) (by returns_auto [pollSecond_returns hg _])
    | second g => exact pollSecond_returns hg g
    | done => exact .panic _

theorem Either.prompt {A B : Service W Req Res Err} (ha : Prompt A) (hb : Prompt B) : Prompt (Either A B) where
  ready s := by cases s with
    | inl a => exact .bind (ha.ready a) (by returns_auto [])
    | inr b => exact .bind (hb.ready b) (by returns_auto [])
  call s r := by cases s with
    | inl a => exact .bind (ha.call a r) (by returns_auto [])
    | inr b => exact .bind (hb.call b r) (by returns_auto [])
  poll x := by cases x with
    | inl a => exact .bind (ha.poll a) (by returns_auto [])
    | inr b => exact .bind (hb.poll b) (by returns_auto [])

theorem Optional.prompt {S : Service W Req Res Err} (h : Prompt S) : Prompt (Optional S) where
  ready s := by cases s with
    | none => exact .pure _
    | some s => exact .bind (h.ready s) (by returns_auto [])
  call s r := by cases s with
    | none => exact .pure _
    | some s => exact .bind (h.call s r) (by returns_auto [])
  poll x := by cases x with
    | none => exact .pure _
    | some x => exact .bind (h.poll x) (by returns_auto [])

theorem ServiceFn.prompt {F : Fut W (Except Err Res)} (hF : ∀ f, (F.poll f).Returns) {f : Req → W → F.φ × W} : Prompt (ServiceFn F f) :=
  ⟨fun _ => .pure _, fun _ _ => .bind (.lift _) (by returns_auto []), hF⟩

theorem FutureService.prompt {S : Service W Req Res Err} (h : Prompt S) {F : Fut W (Except Err S.σ)} (hF : ∀ f, (F.poll f).Returns) {fclone : F.φ → F.φ} : Prompt (FutureService S F fclone) where
  ready s := by cases s with
    | future f =>
      exact .bind (hF f) (by returns_auto [h.ready _])
    | service s => exact .bind (h.ready s) (by returns_auto [])
  call s r := by cases s with
    | future f => exact .panic _
    | service s => exact .bind (h.call s r) (by returns_auto [])
  poll := h.poll

theorem BoxService.prompt {S : Service W Req Res Err} (h : Prompt S) : Prompt (BoxService S) :=
  ⟨fun s => .bind (h.ready _) (by returns_auto []), fun s r => .bind (h.call _ _) (by returns_auto []), fun x => .bind (h.poll _) (by returns_auto [])⟩

theorem Oneshot.returns {S : Service W Req Res Err} (h : Prompt S) (x : (Oneshot S).φ) : ((Oneshot S).poll x).Returns := by
  cases x with
  | notReady s req => exact .bind (h.ready s) (by returns_auto [h.call _ _, h.poll _])
  | called f => exact .bind (h.poll f) (by returns_auto [])
  | done => exact .panic _

theorem ReadyOneshot.returns {S : Service W Req Res Err} (h : Prompt S) (x : (ReadyOneshot S).φ) : ((ReadyOneshot S).poll x).Returns := by
  cases x with
  | none => exact .panic _
  | some s => exact .bind (h.ready s) (by returns_auto [])

theorem Timeout.prompt {C : Clock W} {d : Nat} {S : Service W Req Res Err} (h : Prompt S) : Prompt (Timeout C d S) where
  ready s := by unfold Timeout; returns_auto [h.ready _]
  call s r := by unfold Timeout; returns_auto [h.call _ _]
  poll x := by unfold Timeout; returns_auto [h.poll _]

theorem LoadShed.prompt {S : Service W Req Res Err} (h : Prompt S) : Prompt (LoadShed S) where
  ready s := by unfold LoadShed; returns_auto [h.ready _]
  call s r := by unfold LoadShed; returns_auto [h.call _ _]
  poll x := by unfold LoadShed; cases x <;> returns_auto [h.poll _]

theorem RateLimit.prompt {C : Clock W} {R : Rate} {S : Service W Req Res Err} (h : Prompt S) : Prompt (RateLimit C R S) where
  ready s := by unfold RateLimit; returns_auto [h.ready _]
  call s r := by unfold RateLimit; returns_auto [h.call _ _]
  poll x := h.poll x

theorem ConcurrencyLimit.prompt {debug : Bool} {V : SemView W} {S : Service W Req Res Err} (h : Prompt S) : Prompt (ConcurrencyLimit debug V S) where
  ready s := by unfold ConcurrencyLimit; returns_auto [h.ready _]
  call s r := by unfold ConcurrencyLimit; returns_auto [h.call _ _]
  poll x := by unfold ConcurrencyLimit; returns_auto [h.poll _]

theorem Filter.prompt {into : Err → Err'} {check : Req' → W → Except Err' Req × W} {S : Service W Req Res Err} (h : Prompt S) : Prompt (Filter into check S) where
  ready s := by unfold Filter; returns_auto [h.ready _]
  call s r := by unfold Filter; returns_auto [h.call _ _]
  poll x := by unfold Filter; cases x <;> returns_auto [mapFut_returns h.poll (by returns_auto []) _]

theorem AsyncFilter.prompt {into : Err → Err'} {P : Fut W (Except Err' Req)} (hP : ∀ f, (P.poll f).Returns) {check : Req' → W → P.φ × W} {S : Service W Req Res Err} (h : Prompt S) :
    Prompt (AsyncFilter into P check S) where
  ready s := by unfold AsyncFilter; returns_auto [h.ready _]
  call s r := by unfold AsyncFilter; returns_auto [h.call _ _]
  poll x := by unfold AsyncFilter; cases x <;> returns_auto [hP _, h.call _ _, h.poll _]

theorem steerPoll_returns {S : Service W Req Res Err} (h : Prompt S) : ∀ (l : List Nat) (ss : List S.σ), (steerPoll S ss l).Returns
  | [], ss => .pure _
  | i :: l, ss => by unfold steerPoll; returns_auto [h.ready _, steerPoll_returns h _ _]

theorem Steer.prompt {S : Service W Req Res Err} {pick : Req → List S.σ → W → Nat × W} (h : Prompt S) : Prompt (Steer S pick) where
  ready s := steerPoll_returns h _ _
  call s r := by unfold Steer; returns_auto [h.call _ _]
  poll x := h.poll x

theorem Latency.prompt {into : Err → Err'} {C : Clock W} {record : Nat → W → W} {S : Service W Req Res Err} (h : Prompt S) : Prompt (Latency into C record S) where
  ready s := by unfold Latency; returns_auto [h.ready _]
  call s r := by unfold Latency; returns_auto [h.call _ _]
  poll x := by unfold Latency; returns_auto [h.poll _]

theorem Delay.prompt {into : Err → Err'} {C : Clock W} {delay : Req → W → Nat × W} {S : Service W Req Res Err} (h : Prompt S) : Prompt (Delay into C delay S) where
  ready s := by unfold Delay; returns_auto []
  call s r := by unfold Delay; returns_auto []
  poll x := by unfold Delay; cases x <;> returns_auto [Oneshot.returns h _]

theorem Select.prompt {cr : Req → W → Option Req × W} {A B : Service W Req Res Err} (ha : Prompt A) (hb : Prompt B) : Prompt (Select cr A B) where
  ready s := by unfold Select; returns_auto [ha.ready _, hb.ready _]
  call s r := by unfold Select; returns_auto [ha.call _ _, hb.call _ _]
  poll x := by unfold Select; returns_auto [ha.poll _, hb.poll _]

theorem Hedge.prompt {into : Err → Err'} {H : HedgeCfg W Req} {S : Service W Req Res Err} (h : Prompt S) : Prompt (Hedge into H S) :=
  Select.prompt (Latency.prompt h) (Delay.prompt (AsyncFilter.prompt (fun f => by cases f <;> exact .pure _) (Latency.prompt h)))

theorem Constant.prompt {M : Type} {S : Service W Req Res Err} (h : Prompt S) : Prompt (Constant M S) where
  ready s := by returns_auto [h.ready _]
  call s r := by returns_auto [h.call _ _]
  poll x := h.poll x

theorem Completion.track_returns {T : Tracker} {C : Completion Res Res'} (hd : ∀ x, (T.dropH x).Returns) (h : T.H) (v : Res) : (C.track T h v).Returns := by
  unfold Completion.track; returns_auto [hd _]

theorem tracked.prompt {T : Tracker} {C : Completion Res Res'} {S : Service W Req Res Err} (hh : T.handle.Returns) (hd : ∀ x, (T.dropH x).Returns) (h : Prompt S) : Prompt (tracked T C S) where
  ready s := by returns_auto [h.ready _]
  call s r := by returns_auto [h.call _ _, hh]
  poll x := by returns_auto [h.poll _, Completion.track_returns hd _ _]

theorem Shared.prompt {V E : Type} {cl : V → V} : Prompt (Shared (W := W) (Tgt := Req) V cl E) where
  ready s := by unfold Shared; returns_auto []
  call s r := by unfold Shared; returns_auto []
  poll x := by unfold Shared; cases x <;> returns_auto []

theorem IntoService.prompt {M : Service W Req Res Err} (h : Prompt M) : Prompt (IntoService M) := h

end
end Tower
