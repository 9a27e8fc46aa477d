import Verif.Model.SendTimer
/-! # Specification: how long a message may wait for aggregation -/
namespace Verif.Spec.Delay
open Verif.SendTimer

/-- No message waits longer than `bound` (the number of messages that share its buffer or packet): neither one in the
buffer up to now, nor one of a packet up to the return of `backend.Write`. -/
structure Waits (bound : Nat → Nat) (s : State) : Prop where
  buffered : ∀ m ∈ s.buf, s.now ≤ m.time + bound s.buf.length
  sent : ∀ p ∈ s.sent, ∀ m ∈ p.1, p.2 ≤ m.time + bound p.1.length

/-- What one expects of `SendDelay`: the aggregation delays a message by `SendDelay`.  The backend may be busy with the
packet before, and then with the packet of the message itself. -/
def Prompt (cfg : Cfg) (s : State) : Prop := Waits (fun _ => cfg.delay + 2 * cfg.slow) s

/-- The session goes on by itself: no writes, any number of steps. -/
inductive Alone (cfg : Cfg) : State → State → Prop
  | refl (s) : Alone cfg s s
  | step {s s' s''} (a : Act) (h : ∀ len, a ≠ .write len) : SendTimer.step cfg s a = some s' → Alone cfg s' s'' → Alone cfg s s''

end Verif.Spec.Delay
