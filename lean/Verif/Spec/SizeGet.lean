import Verif.Model.SizeGet
/-!
# What the two methods should return
-/
namespace Verif.SizeGet

/-- The size which the negotiation has found. -/
def found : Act → Option W32
  | .setSize e => some e
  | _ => none

/-- The result of the negotiation: the size it has found; without a negotiation the configured limit, from the connection on. -/
def agreed (limit : W32) (acts : List Act) : Option W32 :=
  match acts.findSome? found with
  | some e => some e
  | none => if Act.connect ∈ acts then some limit else none

/-- Neither `Close` has been called nor has the context ended nor has the reader. -/
def Open (acts : List Act) : Prop := Act.close ∉ acts ∧ Act.cancel ∉ acts ∧ Act.closed ∉ acts

/-- All returned calls have returned the result of the negotiation. -/
def Right (limit : W32) (acts : List Act) (s : State) : Prop := ∀ v, Call.ret v ∈ s.calls → agreed limit acts = some v

end Verif.SizeGet
