import Verif.Model.Calls
/-!
# Deadlocks and data races
-/
namespace Verif.Sync

/-- The next step of goroutine `i`. -/
def State.next (st : State) (i : Nat) : Option Ev := st.threads[i]?.bind (·.todo.head?)

/-- The locks that goroutine `i` holds. -/
def State.holds (st : State) (i : Nat) : List (Nat × LockName × Bool) := (st.threads[i]?.map (·.held)).getD []

/-- Goroutine `i` is about to lock something that goroutine `j` holds, or, if `i` only wants to read, that `j` is about to lock
for writing. -/
def WaitsFor (st : State) (i j : Nat) : Prop :=
  ∃ s l w, st.next i = some (.acq s l w) ∧
    ((∃ w', (s, l, w') ∈ st.holds j ∧ (w = true ∨ w' = true)) ∨ (w = false ∧ st.next j = some (.acq s l true)))

/-- Goroutines wait for each other in a circle, and will for ever. -/
def Circle (st : State) : Prop := ∃ i, Relation.TransGen (WaitsFor st) i i

/-- Two goroutines are about to access the same field of a session, at least one of them writes. -/
def Race (st : State) (s : Nat) (x : Field) : Prop :=
  ∃ i j w w', i ≠ j ∧ st.next i = some (.acc s x w) ∧ st.next j = some (.acc s x w') ∧ (w = true ∨ w' = true)

/-- Nothing can happen any more, although goroutine `i` is not through. -/
def Stuck (cap : Nat → Nat) (st : State) (i : Nat) : Prop := st.next i ≠ none ∧ ∀ j, step cap st j = none

end Verif.Sync
