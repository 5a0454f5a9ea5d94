import Verif.Model.Balance
import Verif.Model.Hedge
import Verif.Model.Load

/-!
# Which results a response future may have

A service is described by two relations: `A q r`, the result `r` may be given to the request `q`; and `Z e`, the error `e` may be returned by `poll_ready`. For each middleware, the relations of the
middleware are made from those of the service inside.
-/

namespace Tower

/-- `f` is a response future for request `q`: it came from a `call` with `q`, in some state of the service and at some time, and has been polled any number of times, always pending. -/
inductive FutureOf {W Req Res Err : Type} (S : Service W Req Res Err) (q : Req) : S.φ → Prop
  | called {s s' : S.σ} {f : S.φ} {w w' : W} : (S.call s q).run w = .ok (f, s') w' → FutureOf S q f
  | polled {f f' : S.φ} {w w' : W} : FutureOf S q f → (S.poll f).run w = .ok (.pending, f') w' → FutureOf S q f'

/-- `v` is an output of the future `g`: polled, it was pending any number of times, and then ready with `v`. -/
inductive Outputs {W α : Type} (G : Fut W α) : G.φ → α → Prop
  | ready {g g' : G.φ} {v : α} {w w' : W} : (G.poll g).run w = .ok (.ready v, g') w' → Outputs G g v
  | pending {g g' : G.φ} {v : α} {w w' : W} : (G.poll g).run w = .ok (.pending, g') w' → Outputs G g' v → Outputs G g v

/-- The service answers: a response future for `q` has only outputs that `A` allows for `q`; and `poll_ready` returns only errors that `Z` allows. -/
structure Replies {W Req Res Err : Type} (S : Service W Req Res Err) (A : Req → Except Err Res → Prop) (Z : Err → Prop) : Prop where
  ready : ∀ {s s' : S.σ} {e : Err} {w w' : W}, (S.pollReady s).run w = .ok (.ready (.error e), s') w' → Z e
  answer : ∀ {q : Req} {f f' : S.φ} {r : Except Err Res} {w w' : W}, FutureOf S q f → (S.poll f).run w = .ok (.ready r, f') w' → A q r

variable {W Req Req' Res Res' Err Err' : Type}

/-- errors of the inner service are wrapped, errors of the middleware's own are added -/
def wrapAns (inner : Err → Err') (own : Err' → Prop) (A : Req → Except Err Res → Prop) (q : Req) (r' : Except Err' Res) : Prop :=
  (∃ r, A q r ∧ r' = mapErr inner r) ∨ ∃ e, own e ∧ r' = .error e

/-- readiness errors of the inner service are wrapped -/
def wrapErr (inner : Err → Err') (Z : Err → Prop) (e' : Err') : Prop := ∃ e, Z e ∧ e' = inner e

/-- none of its own -/
def noErr {E : Type} (_ : E) : Prop := False

/-- answers of `map_response` -/
def mapResponseAns (f : Res → W → Res' × W) (A : Req → Except Err Res → Prop) (q : Req) : Except Err Res' → Prop
  | .ok v' => ∃ v w, A q (.ok v) ∧ v' = (f v w).1
  | .error e => A q (.error e)

/-- answers of `map_err` -/
def mapErrAns (f : Err → W → Err' × W) (A : Req → Except Err Res → Prop) (q : Req) : Except Err' Res → Prop
  | .ok v => A q (.ok v)
  | .error e' => ∃ e w, A q (.error e) ∧ e' = (f e w).1

/-- answers of `filter`: of the service, to the request the predicate made of it, or the predicate's error -/
def filterAns (into : Err → Err') (check : Req' → Except Err' Req → Prop) (A : Req → Except Err Res → Prop) (q' : Req') (r' : Except Err' Res) : Prop :=
  (∃ q r, check q' (.ok q) ∧ A q r ∧ r' = mapErr into r) ∨ ∃ e, check q' (.error e) ∧ r' = .error e

/-- answers of `Hedge`: to the request, or to the copy the policy made of it; readiness errors of the second instance are responses -/
def hedgeAns (into : Err → Err') (cloneRequest : Req → W → Option Req) (A : Req → Except Err Res → Prop) (Z : Err → Prop) (q : Req) (r' : Except Err' Res) : Prop :=
  (∃ r, A q r ∧ r' = mapErr into r) ∨ ∃ q' w, cloneRequest q w = some q' ∧ ((∃ r, A q' r ∧ r' = mapErr into r) ∨ ∃ e, Z e ∧ r' = .error (into e))

/-- answers of a service with a load: those of the service, as the completion turns them into others -/
def trackedAns {H : Type} (C : Completion Res Res') (A : Req → Except Err Res → Prop) (q : Req) : Except Err (Res' × Option H) → Prop
  | .ok v' => ∃ v, A q (.ok v) ∧ v'.1 = C.out v
  | .error e => A q (.error e)

/-- The attempts of a `Retry` for the request `q`: what is sent, and the copy that is kept. The first attempt sends `q`. If an attempt that sent `a` and kept `c` had a result that `A` allows for `a`, and the policy, given `c` and the result, decides to retry, then what the policy has made of `c` is sent next. -/
inductive Attempt (P : RetryPolicy W Req Res Err) (A : Req → Except Err Res → Prop) (q : Req) : Req → Option Req → Prop
  | first {p p' : P.π} {o : Option Req} {w w' : W} : P.cloneRequest p q w = ((o, p'), w') → Attempt P A q q o
  | again {a c c' : Req} {r r' : Except Err Res} {o : Option Req} {ρ : P.ρ} {p p' p2 p3 : P.π} {w w' w2 w3 : W} :
      Attempt P A q a (some c) → A a r → P.retry p c r w = ((some ρ, p', c', r'), w') → P.cloneRequest p2 c' w2 = ((o, p3), w3) → Attempt P A q c' o

/-- Results of a `Retry` for `q`: the result of an attempt that kept no copy; the result of an attempt as the policy left it when it decided not to retry; or an error of `poll_ready` before another attempt. -/
def retryAns (P : RetryPolicy W Req Res Err) (A : Req → Except Err Res → Prop) (Z : Err → Prop) (q : Req) (r' : Except Err Res) : Prop :=
  (∃ a, Attempt P A q a none ∧ A a r') ∨
  (∃ a c c' r p p' w w', Attempt P A q a (some c) ∧ A a r ∧ P.retry p c r w = ((none, p', c', r'), w')) ∨
  ∃ e, Z e ∧ r' = .error e

section
variable {K DErr BErr : Type}

/-- answers of `MakeBalance`: a new balancer over the discovery the maker answers with -/
def makeBalanceAns {Tgt MErr : Type} (B : BalCfg W Req Res Err K DErr BErr) (A : Tgt → Except MErr B.D.δ → Prop) (t : Tgt) : Except MErr (Balance B) → Prop
  | .ok b => ∃ d r, A t (.ok d) ∧ b = Balance.fromRng B d r
  | .error e => A t (.error e)

end

end Tower
