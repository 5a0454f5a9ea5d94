import Verif.Core

/-!
# Wake-ups

The executor polls a task again only after its waker was used. A `Pending` is harmless only if, before it was returned, the waker was handed to something that will use it: an inner
service or future, a timer, a semaphore, a task handle, each of which does so whenever it returns `Pending` itself. `reg w` counts how often that has happened.
-/

namespace Tower
variable {W Req Res Err α β : Type}

/-- a piece of code that takes no registration back -/
def Calm (reg : W → Nat) (x : Act W α) : Prop := ∀ w a w', x.run w = .ok a w' → reg w ≤ reg w'

/-- a poll: if it returns `Pending`, the waker was registered with something while it ran -/
def Wakes (reg : W → Nat) (x : Act W (Poll α × β)) : Prop :=
  ∀ w p b w', x.run w = .ok (p, b) w' → reg w ≤ reg w' ∧ (p = .pending → reg w < reg w')

/-- a service neither `poll_ready` nor the response futures of which ever return `Pending` without a registration, in whatever state they are -/
structure Wakeful (reg : W → Nat) (S : Service W Req Res Err) : Prop where
  ready : ∀ s, Wakes reg (S.pollReady s)
  call : ∀ s r, Calm reg (S.call s r)
  poll : ∀ f, Wakes reg (S.poll f)

/-- the same of a future -/
def FutWakeful (reg : W → Nat) (F : Fut W α) : Prop := ∀ x, Wakes reg (F.poll x)

/-- a closure of the user that takes no registration back -/
def CalmFn (reg : W → Nat) {γ : Type} (f : γ → W → α × W) : Prop := ∀ c w, reg w ≤ reg (f c w).2

/-- polling a `Sleep` that has not fired registers the waker -/
def ClockWakes (reg : W → Nat) (C : Clock W) : Prop := ∀ d w, reg w < reg (C.arm d w)

end Tower
