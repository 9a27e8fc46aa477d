import Verif.Model.KeyTimer
/-!
# What is expected of the clock of key updates
-/
namespace Verif.KeyTimer

/-- No goroutine of the exchanger has anything to do now: the loop waits for a notification, a timer or the ticker that has not come. -/
def Quiet (s : St) : Prop :=
  s.closed = true ∨ s.answers = [] ∧
    (s.main = .waiting ∧ s.notify = none ∧ s.now < s.giveUpAt ∨ s.main = .idle ∧ s.pending = false)

instance (s : St) : Decidable (Quiet s) := inferInstanceAs (Decidable (_ ∨ _))

/-- From `s` to `s'` with actions that satisfy `p`, on a computer that is fast enough: time passes only when there is nothing to do. -/
inductive Path (c : Cfg) (p : Act → Bool) : St → St → Prop
  | refl (s : St) : Path c p s s
  | step {s s1 s2 : St} (a : Act) : Path c p s s1 → (a = .pass → Quiet s1) → p a = true → step c s1 a = some s2 → Path c p s s2

/-- Anything may happen. -/
def anything (_ : Act) : Bool := true

/-- Nothing arrives that completes a key exchange: in the default mode this is an answer, in the others every message. -/
def silent (c : Cfg) : Act → Bool
  | .recv isAnswer => !isAnswer && c.mode == 1
  | _ => true

/-- The session stays paused, if it is. -/
def noResume : Act → Bool
  | .resume => false
  | _ => true

/-- Nobody closes the session, and nothing fails but for the time-out. -/
def noClose : Act → Bool
  | .close | .fail => false
  | _ => true

/-- A message arrives that completes a key exchange. -/
def completes (c : Cfg) : Act → Bool
  | .recv isAnswer => isAnswer || c.mode != 1
  | _ => false

/-- A step of the loop. -/
def isLoop : Act → Bool
  | .loop _ => true
  | _ => false

/-- Checks that a list of actions is such an execution. -/
def prompt (c : Cfg) (p : Act → Bool) : St → List Act → Option St
  | s, [] => some s
  | s, a :: as => if (a = .pass → Quiet s) ∧ p a = true then (step c s a).bind (prompt c p · as) else none

/-- The first exchange of the default mode, all at time 0. -/
def connected : List Act :=
  [.loop 5, .loop 5, .loop 5, .recv false, .answer 0 0, .answer 0 0, .recv true, .done]

end Verif.KeyTimer
