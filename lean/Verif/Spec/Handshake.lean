import Verif.Model.Handshake
/-!
# What is expected of the first key exchange
-/
namespace Verif.Handshake

/-- Side `x` has finished its first key exchange, so that its session leaves `SessionStateKeyExchanging`. -/
def Finished (s : Sys) (x : Bool) : Prop := 0 < (s.side x).successes

/-- Side `x` has given up and reported it. -/
def GivenUp (s : Sys) (x : Bool) : Prop := (s.side x).closed = true

instance (s : Sys) (x : Bool) : Decidable (Finished s x) := inferInstanceAs (Decidable (_ < _))
instance (s : Sys) (x : Bool) : Decidable (GivenUp s x) := inferInstanceAs (Decidable (_ = _))

/-- Is this the ticker of `KeyUpdateInterval`? -/
def Act.isTick : Act → Bool
  | .tick _ => true
  | _ => false

/-- Is a message lost? -/
def Act.isLoss : Act → Bool
  | .lose _ _ => true
  | _ => false

/-- All that can happen is that an interval of `KeyUpdateInterval` ends. -/
def OnlyTicks (mode : Nat) (s : Sys) : Prop := ∀ act s', step mode s act = some s' → act.isTick = true

/-- From `s` to `s'` with actions that satisfy `p`. -/
inductive Path (mode : Nat) (p : Act → Bool) : Sys → Sys → Prop
  | refl (s : Sys) : Path mode p s s
  | step {s s1 s2 : Sys} (act : Act) : p act = true → Path mode p s s1 → step mode s1 act = some s2 → Path mode p s s2

/-- The actions of a message of `x` that is sent again, and of the answer to it: sending, arrival, the answering goroutine, arrival. -/
def RoundTrip (x : Bool) : Act → Bool
  | .retry y => y == x
  | .recv _ _ => true
  | .answer y _ _ => y != x
  | _ => false

end Verif.Handshake
