import Verif.Model.CloseReport
/-! What "closing is not an error" means. -/
namespace Verif.CloseReport

/-- What is reported in `s'` and was not in `s`. -/
def since (s s' : State) : List Report := s'.reports.drop s.reports.length

/-- When `Close` is called, no exchange of keys and no negotiation is under way, and no received message is being handled. -/
structure AtRest (s : State) : Prop where
  loop : s.loop = .idle
  answers : s.answers = 0
  neg : s.neg = .off ∨ s.neg = .over
  reader : ∀ ms, s.reader ≠ .got ms

/-- What can happen to the session besides: no message arrives, no negotiation begins, and `KeyUpdateInterval` does not end while `Close`
is between the change of the state and the end of the context. Everything else may happen. -/
def harmless (s : State) : Act → Bool
  | .packet ms => ms.isEmpty
  | .negotiate => false
  | .tick => s.ctx
  | _ => true

def allHarmless : State → List Act → Bool
  | _, [] => true
  | s, a :: as =>
    harmless s a && match step s a with
      | some s' => allHarmless s' as
      | none => true

end Verif.CloseReport
