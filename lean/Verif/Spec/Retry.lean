import Verif.Model.Retry
/-!
# What is expected of repeated requests
-/
namespace Verif.Retry

/-- The loop has nothing to do: it waits for a notification, a timer, or its ticker; or the program is dead. -/
def Quiet (s : St) : Prop :=
  s.phase = .crashed ∨ s.phase = .idle ∨
    s.phase = .waiting ∧ s.tickC = false ∧ s.timerC = false ∧ s.note = false ∧ s.closedC = false ∧ s.ctx = false

instance (s : St) : Decidable (Quiet s) := inferInstanceAs (Decidable (_ ∨ _))

/-- Executions from the beginning on a computer that is fast enough, with a backend that is: time passes only when the loop waits. -/
inductive Prompt (o : Opts) : St → Prop
  | init : Prompt o .init
  | step {s s' : St} (a : Act) : Prompt o s → (a = .pass → Quiet s) → step o s a = some s' → Prompt o s'

/-- Checks that a list of actions is such an execution. -/
def prompt (o : Opts) : St → List Act → Option St
  | s, [] => some s
  | s, a :: as => if a = .pass → Quiet s then (step o s a).bind (prompt o · as) else none

/-- The first `n` multiples of `r`. -/
def multiples (r n : Nat) : List Nat := (List.range n).map (· * r)

end Verif.Retry
