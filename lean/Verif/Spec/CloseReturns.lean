import Verif.Model.DelayedSend
/-! What "`Close` returns immediately" means: the steps that `Close` itself makes. -/
namespace Verif.DelayedSend

/-- A step of the thread which is in `Close`. -/
def own : Act → Bool
  | .closerFlush _ _ => true
  | _ => false

/-- The number of steps that `Close` makes in a run. -/
def ownSteps (as : List Act) : Nat := as.countP own

/-- The number of messages accepted between two states. -/
def newMessages (s s' : State) : Nat := s'.accepted.length - s.accepted.length

/-- `Close` was called (with success) and has not returned. -/
def closing (s : State) : Prop := ∃ f, s.closer = .flush f

/-- `Close` has returned. -/
def returned (s : State) : Prop := s.closer = .over

end Verif.DelayedSend
