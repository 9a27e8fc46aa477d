import Verif.Model.Lifecycle
/-!
# Closing a session whose peer does not read

`backend.Write` (session.go:1969) waits as long as the buffers between the two sides are full. Four kinds of goroutines
call it: the loop of the delayed sender (session.go:1797-1857), the loop of the key exchanger (key_exchanger.go:543-558, 625-731), the
reader, when a handler answers (negotiator.go:450-459, or a handler of the user), and callers of `WriteMessageSingle` or of
`Write` without SendDelay. The rest of the session is `Verif.Lifecycle`.

What is simplified
* Room is counted in packets, and a packet is taken as a whole.
* What is sent is left out; waiting for the key and for the state Established comes before `checking`.
* The flushes of `startClosing` and of `onConnect` are steps of `Verif.Lifecycle` that do not write.
* The goroutine of the key exchanger ends when the context has ended; what an error of its writes leads to is left out.
-/
namespace Verif.Backlog
open Verif.Lifecycle (SState)

/-- What the backend can do (session.go:2196-2216): `setBackendReadDeadline` takes `SetReadDeadline` if there is one, and
otherwise `SetDeadline`, which is for writes, too. -/
inductive Kind where
  | nothing
  | setDeadline
  | setReadDeadline
  deriving DecidableEq, Repr

def lcfg (k : Kind) : Lifecycle.Cfg := ⟨k != .nothing⟩

/-- Where a goroutine that sends is. -/
inductive Pos where
  | idle
  /-- before `isDone()` (session.go:1965) -/
  | checking
  /-- in `backend.Write` -/
  | writing
  | ended
  deriving DecidableEq, Repr

structure State where
  ses : Lifecycle.State
  /-- packets that the backend takes before `Write` waits -/
  room : Nat
  /-- 0: the delayed sender, 1: the key exchanger, 2: the handler that the reader is in, from 3 on: calls by the user -/
  ps : List Pos

def State.init (room : Nat) : State := ⟨.init, room, [.idle, .idle, .idle]⟩

inductive Act where
  | ses (a : Lifecycle.Act)
  /-- the peer takes a packet from the buffers -/
  | peerReads
  /-- a call by the user -/
  | call
  /-- goroutine `i` goes on; `more`: it has something to send -/
  | go (i : Nat) (more : Bool)
  deriving DecidableEq, Repr

/-- A step of the reader. -/
def isReader : Lifecycle.Act → Bool
  | .reader _ _ _ => true
  | _ => false

/-- What follows a send. -/
def after (i : Nat) : Pos := if i < 3 then .idle else .ended

/-- An idle goroutine: it begins to send, or it ends (session.go:1822-1834; key_exchanger.go:548-556; session.go:1074-1080). -/
def wake (s : Lifecycle.State) (i : Nat) (more : Bool) : Option Pos :=
  if i = 0 then
    if s.neg ≠ .connected then none else if more then some .checking else if s.ctx then some .ended else none
  else if i = 1 then
    if s.kx = false then none else if more then some .checking else if s.ctx then some .ended else none
  else if i = 2 then
    if more ∧ s.reader = .packet then some .checking else none
  else none

/-- Does `backend.Write` fail at once? -/
def fails (k : Kind) (s : Lifecycle.State) : Bool := s.backendClosed || (k == .setDeadline && s.expired)

def step (k : Kind) (s : State) : Act → Outcome Lifecycle.Crash State
  | .ses a =>
    if isReader a ∧ s.ps[2]? ≠ some .idle then .block
    else
      match Lifecycle.step (lcfg k) s.ses a with
      | .ok s' => .ok { s with ses := s' }
      | .err e => .err e
      | .panic => .panic
      | .block => .block
  | .peerReads => .ok { s with room := s.room + 1 }
  | .call => .ok { s with ps := s.ps ++ [.checking] }
  | .go i more =>
    match s.ps[i]? with
    | some .idle =>
      match wake s.ses i more with
      | some p => .ok { s with ps := s.ps.set i p }
      | none => .block
    | some .checking => .ok { s with ps := s.ps.set i (if Lifecycle.isDone s.ses then after i else .writing) }
    | some .writing =>
      if fails k s.ses then .ok { s with ps := s.ps.set i (after i) }
      else if s.room = 0 then .block
      else .ok { s with room := s.room - 1, ps := s.ps.set i (after i) }
    | _ => .block

def run (k : Kind) : State → List Act → Outcome Lifecycle.Crash State
  | s, [] => .ok s
  | s, a :: as =>
    match step k s a with
    | .ok s' => run k s' as
    | .err e => .err e
    | .panic => .panic
    | .block => .block

/-- Does `WaitForClosure` return (session.go:2274-2276)? The goroutines counted in `stopWaitGroup` have ended. -/
def waitReturns (s : State) : Bool :=
  s.ses.reader = .ended && s.ses.closer = .over && (s.ses.neg != .connected || s.ps[0]? == some .ended) &&
    (s.ses.kx == false || s.ps[1]? == some .ended)

end Verif.Backlog
