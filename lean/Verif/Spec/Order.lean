import Verif.Model.Order
/-!
# C149: what is claimed and for which programs
-/
namespace Verif.Order

/-- The claim: in what is written, the numbers never go down. -/
def InOrder (wire : List Nat) : Prop := wire.Pairwise (· ≤ ·)

instance (l : List Nat) : Decidable (InOrder l) := inferInstanceAs (Decidable (List.Pairwise _ _))

/-- After this call has returned, its message may still wait to be sent, ... -/
def Call.open : Call → Bool
  | .buffered w => !w
  | .direct => false
  | .fragmented _ w => !w

/-- A call after one which did not wait: both have to go through the buffer. -/
def Fits : Call → Call → Prop
  | .buffered false, .buffered _ => True
  | .buffered false, _ => False
  | .fragmented _ false, _ => False
  | _, _ => True

instance (a b : Call) : Decidable (Fits a b) := by
  cases a with
  | buffered w => cases w <;> cases b <;> simp only [Fits] <;> infer_instance
  | direct => simp only [Fits]; infer_instance
  | fragmented k w => cases w <;> simp only [Fits] <;> infer_instance

/-- The programs for which the claim holds: a call which does not wait is followed by calls through the
buffer only, up to the next one that waits. -/
def Calm (calls : List Call) : Prop :=
  ∀ i a b, calls[i]? = some a → calls[i + 1]? = some b → Fits a b

end Verif.Order
