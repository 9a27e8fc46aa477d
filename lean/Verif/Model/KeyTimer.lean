import Verif.Model.Go
/-!
# The clock of the key exchanger (key_exchanger.go:433-523, 544-559, 561-735; session.go:703-760)

One exchanger and its time: the loop with its ticker of `KeyUpdateInterval` and the timer of `Timeout`, the goroutines that send
answers, `skipKeyUpdateUntil`, and pausing the session, which stops the reader and nothing else.  For the contents of messages see
`Verif.KX`, for two exchangers without time `Verif.Handshake`.

Simplifications: time is counted in units, of which one passes at a time; what the other side sends is left open: any message may arrive
at any time; the part of `Handle` under `kx.locker` is one step, and so is `updateLocalKey` in the loop, which is under the same lock;
the ticker of `RetryInterval` is not tracked, the loop may send again at any time while it waits; a pause starts and ends at once
(see `Verif.Lifecycle` for the details of `SetPause`).
-/
namespace Verif.KeyTimer

/-- Options (key_exchanger.go:122-176) in units of time; modes: 1 answer and wait, 2 answer, 3 disable. -/
structure Cfg where
  interval : Nat
  timeout : Nat
  mode : Nat
  deriving DecidableEq, Repr

/-- Where the loop is (key_exchanger.go:544-559, 625-649): before the check of `skipKeyUpdateUntil`, before `updateLocalKey`, before
the first message, in `retryUntilSuccessOrTimeout`, at the ticker. -/
inductive Main where
  | start
  | gen
  | send
  | waiting
  | idle
  deriving DecidableEq, Repr

/-- Where an answering goroutine is (key_exchanger.go:478-485, 713-728): before `nextLocalPublicKey == nil`, in `updateLocalKey` before
and after the check, before `skipKeyUpdateUntil` is set, before the message. -/
inductive Answer where
  | start
  | check
  | make
  | skip
  | send
  deriving DecidableEq, Repr

structure St where
  /-- the time since the exchanger was made -/
  now : Nat
  /-- `localKeyCreatedAt`, `nextLocalKeyCreatedAt` -/
  created : Nat
  next : Nat
  /-- `nextLocalPublicKey != nil` -/
  hasKey : Bool
  /-- ghost: when the newest local key was made -/
  madeAt : Nat
  main : Main
  /-- `nextKeyCreatedAt` of the waiting loop -/
  awaited : Nat
  /-- when `timeoutTimer` fires -/
  giveUpAt : Nat
  /-- when `keyUpdateTicker` fires next, and whether a tick is in its channel (capacity 1) -/
  tickAt : Option Nat
  pending : Bool
  /-- `skipKeyUpdateUntil`; 0 is the zero value -/
  skipUntil : Nat
  /-- `successNotifyChan` (capacity 1) -/
  notify : Option Nat
  answers : List Answer
  /-- ghost: number of calls of `doneFunc` -/
  successes : Nat
  /-- the session is paused: its reader does not read -/
  paused : Bool
  /-- the context of the exchanger is cancelled -/
  closed : Bool
  /-- `errFunc` was called: the session closes and `EventHandler.Error` is called (session.go:2098-2102) -/
  reported : Bool
  deriving DecidableEq, Repr

/-- `newKeyExchanger` (key_exchanger.go:201-244). -/
def St.init : St := ⟨0, 0, 0, false, 0, .start, 0, 0, none, false, 0, none, [], 0, false, false, false⟩

/-- The new key of `updateLocalKey` (key_exchanger.go:573-592); `clock` is `timeNow().UnixNano()`, which may be set back. -/
def St.newKey (s : St) (clock : Nat) : St :=
  { s with next := if clock ≤ s.created then s.created + 1 else clock, hasKey := true, madeAt := s.now }

/-- `updateLocalKey` (key_exchanger.go:561-599): nothing while an exchange is in progress. -/
def St.updateLocalKey (s : St) (clock : Nat) : St := if s.next > s.created then s else s.newKey clock

/-- `KeyUpdateSendWait` is over: back to the ticker, which is made after the first update (key_exchanger.go:545-549). -/
def St.toIdle (c : Cfg) (s : St) : St :=
  { s with main := .idle, tickAt := some (s.tickAt.getD (s.now + c.interval)) }

/-- The waiting loop takes what is in the channel (`checkSuccessNotifyChan`, key_exchanger.go:658-669, and the case at 678-685): the
update is over if the notification is not older than the key that it waits for. -/
def St.take (c : Cfg) (s : St) : St :=
  match s.notify with
  | some v => if v ≥ s.awaited then ({ s with notify := none } : St).toIdle c else { s with notify := none }
  | none => s

/-- The exchanger closes itself and reports an error (key_exchanger.go:578-580, 697-701, 705-711). -/
def St.giveUp (s : St) : St := { s with closed := true, reported := true }

/-- `Handle` under the lock (key_exchanger.go:473-485) with `sendSuccessNotifications` (490-523).  A notification is dropped if one is
in the channel. -/
def St.handle (c : Cfg) (s : St) (isAnswer : Bool) : St :=
  let s1 := if isAnswer || c.mode != 1 then
      { s with created := s.next, notify := some (s.notify.getD s.next), successes := s.successes + 1 }
    else s
  if !isAnswer && c.mode != 3 then { s1 with answers := s.answers ++ [.start] } else s1

/-- One unit of time passes; the ticker fires if it is due, and drops the tick if one is in its channel. -/
def St.pass (c : Cfg) (s : St) : St :=
  match s.tickAt with
  | some t => if t ≤ s.now + 1 then { s with now := s.now + 1, tickAt := some (t + c.interval), pending := true }
    else { s with now := s.now + 1 }
  | none => { s with now := s.now + 1 }

/-- The next step of the loop (key_exchanger.go:544-559, 625-649, 671). -/
def St.loop (c : Cfg) (s : St) (clock : Nat) : Option St :=
  match s.main with
  | .start => some (if s.now < s.skipUntil then s.toIdle c else { s with main := .gen, notify := none })
  | .gen => some { s.updateLocalKey clock with main := .send, awaited := (s.updateLocalKey clock).next }
  | .send => some { s with main := .waiting, giveUpAt := s.now + c.timeout }
  | .waiting => none
  | .idle => if s.pending then some { s with main := .start, pending := false } else none

/-- The next step of answering goroutine `i` (key_exchanger.go:713-728). -/
def St.answer (c : Cfg) (s : St) (i clock : Nat) : Option St :=
  match s.answers[i]? with
  | none => none
  | some .start => some { s with answers := s.answers.set i (if s.hasKey then .send else .check) }
  | some .check => some { s with answers := s.answers.set i (if s.next > s.created then .skip else .make) }
  | some .make => some { s.newKey clock with answers := s.answers.set i .skip }
  | some .skip => some { s with skipUntil := s.now + c.interval, answers := s.answers.set i .send }
  | some .send => some { s with answers := s.answers.eraseIdx i }

inductive Act where
  /-- one unit of time -/
  | pass
  /-- the loop goes on -/
  | loop (clock : Nat)
  /-- in `retryUntilSuccessOrTimeout`: send again, take a notification, the timer (key_exchanger.go:673-702) -/
  | retry
  | done
  | timeout
  /-- a message of the other side arrives, and the session is read -/
  | recv (isAnswer : Bool)
  | answer (i clock : Nat)
  /-- generating a key or sending fails (key_exchanger.go:578-580, 705-711) -/
  | fail
  /-- `SetPause` (session.go:713-760) -/
  | pause
  | resume
  /-- the session is closed by something else -/
  | close
  deriving DecidableEq, Repr

/-- What happens to an exchanger that is not closed. -/
def stepOpen (c : Cfg) (s : St) : Act → Option St
  | .pass => some (s.pass c)
  | .loop clock => s.loop c clock
  | .retry => if s.main = .waiting then some (s.take c) else none
  | .done => if s.main = .waiting ∧ s.notify ≠ none then some (s.take c) else none
  | .timeout =>
    if s.main = .waiting ∧ s.giveUpAt ≤ s.now then
      some (if (s.take c).main = .idle then s.take c else (s.take c).giveUp)
    else none
  | .recv isAnswer => if s.paused then none else some (s.handle c isAnswer)
  | .answer i clock => s.answer c i clock
  | .fail => if s.main = .gen ∨ s.main = .send ∨ s.main = .waiting ∨ s.answers ≠ [] then some s.giveUp else none
  | .pause => if 0 < s.successes ∧ s.paused = false then some { s with paused := true } else none
  | .resume => if s.paused then some { s with paused := false } else none
  | .close => some { s with closed := true }

/-- A closed exchanger does nothing any more; time passes. -/
def step (c : Cfg) (s : St) (a : Act) : Option St :=
  if s.closed then (if a = .pass then some { s with now := s.now + 1 } else none) else stepOpen c s a

def run (c : Cfg) : St → List Act → Option St
  | s, [] => some s
  | s, a :: as => (step c s a).bind (run c · as)

end Verif.KeyTimer
