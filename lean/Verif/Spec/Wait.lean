import Verif.Spec.Sync
/-!
# Waiting for ever
-/
namespace Verif.Sync

/-- Goroutine `i` is not through, and whatever happens it never takes a step again. -/
def Hangs (cap : Nat → Nat) (st : State) (i : Nat) : Prop :=
  ∀ st', Reachable cap st st' → st'.next i ≠ none ∧ step cap st' i = none

/-- As `Hangs`, until the context of session `s` is done. -/
def HangsUntilClosed (cap : Nat → Nat) (st : State) (i s : Nat) : Prop :=
  ∀ st', Reachable cap st st' → (s, Flag.ctx) ∈ st'.flags ∨ (st'.next i ≠ none ∧ step cap st' i = none)

/-- Session `s` has keys and is established, or it is closed. -/
def Ready (st : State) (s : Nat) : Prop :=
  (s, Flag.ctx) ∈ st.flags ∨ ((s, Flag.keys) ∈ st.flags ∧ (s, Flag.established) ∈ st.flags)

end Verif.Sync
