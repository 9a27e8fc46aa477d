import Verif.Model.Go
/-!
# `SendNowAndWait` and the goroutine that answers it

send_info.go:130-147 and the parts of session.go that start and end `delayedSenderLoop`.  A `SendInfo` is only known
to be finished or not; what a flush does is in Model/DelayedSend.lean.  Reference counts are left out.
-/
namespace Verif.SendNow

structure Cfg where
  /-- `options.SendDelay != nil` after `init` (session.go:455-461): false if the user asked for a delay of zero or less -/
  delay : Bool
  deriving DecidableEq, Repr

/-- `delayedSenderLoop` (session.go:1808-1851). -/
inductive Loop where
  | absent
  | idle
  /-- received `sendInfo` number `x` (session.go:1819) -/
  | busy (x : Nat)
  /-- ended, channel closed (session.go:1812-1814) -/
  | exited
  deriving DecidableEq, Repr

/-- A call of `SendNowAndWait` (send_info.go:132-138) for `SendInfo` number `x`. -/
inductive Call where
  /-- before `sendDelayedNowChan <- sendInfo` (unbuffered, session.go:433) -/
  | sending (x : Nat)
  /-- in `Wait` (send_info.go:142-147) -/
  | waiting (x : Nat)
  | returned (x : Nat)
  deriving DecidableEq, Repr

structure State where
  loop : Loop := .absent
  /-- the context of the session is cancelled -/
  ctx : Bool := false
  /-- for every `SendInfo` whether `c` is closed -/
  done : List Bool := []
  calls : List Call := []
  deriving DecidableEq, Repr

inductive Act where
  /-- `WriteMessageAsync` returns a finished `SendInfo`: sent without delay (session.go:1457-1464), or an error
  (session.go:1443-1446, 1600-1604) -/
  | written
  /-- `WriteMessageAsync` returns an unfinished one: delayed (session.go:1608-1628) or fragmented (1469-1510) -/
  | scheduled
  /-- its message is sent: by a flush, or by the goroutine of the fragmented message -/
  | sent (x : Nat)
  /-- `onConnect` (session.go:2039-2041) -/
  | connect
  /-- the context is cancelled -/
  | cancel
  /-- `SendNowAndWait` is called for number `x` -/
  | call (x : Nat)
  /-- the channel operation of call `i` -/
  | handoff (i : Nat)
  /-- the iteration of the loop ends; its flush has sent `x`, unless that was not the current one -/
  | served
  /-- the loop sees the cancelled context (session.go:1824-1826) -/
  | exit
  /-- `Wait` of call `i` ends -/
  | ret (i : Nat)
  deriving DecidableEq, Repr

inductive Crash where
  /-- "Release() was called on a non-finished sendInfo" -/
  | unfinishedRelease
  /-- "send on closed channel" -/
  | closedChannel
  deriving DecidableEq, Repr

def step (cfg : Cfg) (s : State) : Act → Outcome Crash State
  | .written => .ok { s with done := s.done ++ [true] }
  | .scheduled => .ok { s with done := s.done ++ [false] }
  | .sent x => if s.done[x]? = some false then .ok { s with done := s.done.set x true } else .block
  | .connect => if s.loop = .absent ∧ cfg.delay = true then .ok { s with loop := .idle } else .block
  | .cancel => .ok { s with ctx := true }
  | .call x => if x < s.done.length then .ok { s with calls := s.calls ++ [.sending x] } else .block
  | .handoff i =>
    match s.calls[i]? with
    | some (.sending x) =>
      if s.loop = .exited then .err .closedChannel
      else if s.loop = .idle then .ok { s with loop := .busy x, calls := s.calls.set i (.waiting x) }
      else .block
    | _ => .block
  | .served =>
    match s.loop with
    | .busy x =>
      if s.done[x]? = some true ∨ s.ctx = true then .ok { s with loop := .idle } else .err .unfinishedRelease
    | _ => .block
  | .exit => if s.loop = .idle ∧ s.ctx = true then .ok { s with loop := .exited } else .block
  | .ret i =>
    match s.calls[i]? with
    | some (.waiting x) =>
      if s.done[x]? = some true ∨ s.ctx = true then .ok { s with calls := s.calls.set i (.returned x) } else .block
    | _ => .block

inductive Reachable (cfg : Cfg) : State → Prop
  | init : Reachable cfg {}
  | step {s s'} (a : Act) : Reachable cfg s → step cfg s a = .ok s' → Reachable cfg s'

/-- A run. -/
def run (cfg : Cfg) : State → List Act → Outcome Crash State
  | s, [] => .ok s
  | s, a :: as =>
    match step cfg s a with
    | .ok s' => run cfg s' as
    | o => o

theorem run_reachable {cfg : Cfg} : ∀ {as : List Act} {s s' : State}, Reachable cfg s → run cfg s as = .ok s' → Reachable cfg s'
  | [], _, _, hr, h => by cases h; exact hr
  | a :: as, s, s', hr, h => by
    simp only [run] at h
    split at h
    · exact run_reachable (.step a hr ‹_›) h
    · rename_i hx; exact absurd h (hx _)

end Verif.SendNow
