import Verif.Model.Go
/-!
# Who calls `EventHandler.Error` (session.go:848-880, 1074-1080, 2046-2111, 2231-2260; key_exchanger.go:435-488, 544-559, 625-711; negotiator.go:269-350)

The goroutines of a session that may report an error when the session is closed: the reader, the loop of the key exchanger, the goroutines
which send its answers, and the loop of the negotiator. `Close` makes two steps: it changes the state (session.go:2254), and at the end
of `startClosing` it cancels the context (session.go:2246). In between every write fails already (`isDone`, session.go:1965), but the
other goroutines are not told.

Simplifications: packets are lists of messages to the key exchanger and to the negotiator, messages to others are left out; all messages are
well-formed (see `Verif.KX`, `Verif.Negotiator`, `Verif.Receive` for errors of other kinds); a write fails only because the session
is closed; timers may fire at any time; the channel of successful exchanges is a step `success` that may happen at any time.
-/
namespace Verif.CloseReport

/-- What is given to `EventHandler.Error`. -/
inductive Report where
  /-- "unable to read from the backend" (session.go:868) -/
  | read
  /-- "unable to handle a message: already closed" of the key exchanger (key_exchanger.go:449, session.go:1077) -/
  | keyMessage
  /-- "[kx] unable to send a public key: already closed" (key_exchanger.go:709) -/
  | keySend
  /-- `ErrKeyExchangeTimeout` (key_exchanger.go:699) -/
  | keyTimeout
  /-- a ping was not sent (negotiator.go:305) -/
  | ping
  /-- a ping was not answered (session.go:1077) -/
  | pong
  /-- `errNegotiationCancelled` (negotiator.go:349) -/
  | cancelled
  deriving DecidableEq, Repr

/-- Received messages: of the key exchange (an answer or not), or a ping. -/
inductive Msg where
  | key (answer : Bool)
  | ping
  deriving DecidableEq, Repr

/-- The reader (session.go:909-950): before the check `isDone`, in `backend.Read`, with an error of it, with a packet, over. -/
inductive Reader where
  | check
  | reading
  | failed
  | got (ms : List Msg)
  | over
  deriving DecidableEq, Repr

/-- The loop of the key exchanger (key_exchanger.go:544-559, 625-711): at the ticker, in `makeSuccessNotifyChanEmpty`, before a message is
sent, in the `select` of `retryUntilSuccessOrTimeout`, over. -/
inductive Loop where
  | idle
  | begin
  | send
  | waiting
  | over
  deriving DecidableEq, Repr

/-- The loop of the negotiator (negotiator.go:269-350): not begun, sending pings, collecting answers, over. -/
inductive Neg where
  | off
  | pinging
  | collecting
  | over
  deriving DecidableEq, Repr

structure State where
  /-- the session is Closing or Closed -/
  done : Bool
  /-- `sess.ctx` is cancelled -/
  ctx : Bool
  /-- `kx.ctx` was cancelled by `kx.Close()` -/
  kxClosed : Bool
  reader : Reader
  loop : Loop
  /-- goroutines about to send an answer -/
  answers : Nat
  neg : Neg
  reports : List Report
  deriving DecidableEq, Repr

/-- A session that has been started (key_exchanger.go:545: the first exchange begins at once). -/
def State.init : State :=
  { done := false, ctx := false, kxClosed := false, reader := .check, loop := .begin, answers := 0, neg := .off, reports := [] }

/-- `kx.ctx.Done()` is closed. -/
def State.kxDone (s : State) : Bool := s.ctx || s.kxClosed

inductive Act where
  /-- `Close`: the state, and the end of `startClosing` -/
  | close
  | cancel
  /-- the reader: `isDone`; `Read` fails; `Read` returns a packet; the error is looked at, by a handler that says whether it is handled; the
  next message of the packet -/
  | check
  | readFails
  | packet (ms : List Msg)
  | readError (handled : Bool)
  | message
  /-- the loop of the key exchanger -/
  | tick
  | loopEnds
  | begin
  | sendKey
  | success
  | retry
  | timeout
  | stopWaiting
  /-- an answer is sent -/
  | answer
  /-- the negotiator: it begins, sends a ping, begins to collect, goes on with pings, sees the cancelled context, ends -/
  | negotiate
  | ping
  | collect
  | pings
  | negCancelled
  | negEnds
  deriving DecidableEq, Repr

/-- The error functions of key exchanger and negotiator (session.go:2050-2054, 2098-2102): `Close`, then `Error`. A second `Close`
does nothing. -/
def State.fail (s : State) (r : Report) : State :=
  { s with done := true, ctx := !s.done || s.ctx, reports := s.reports ++ [r] }

/-- `kx.mustSendPublicKey` (key_exchanger.go:705-711) up to its end; `writeMessageSingle` fails if the session is closed (session.go:1965). -/
def State.sendKey (s : State) : State :=
  if s.done then { s with kxClosed := true }.fail .keySend else s

/-- One step; `none` if it cannot happen now. -/
def step (s : State) : Act → Option State
  | .close => if s.done then none else some { s with done := true }
  | .cancel => if s.done then some { s with ctx := true } else none
  | .check =>
    match s.reader with
    | .check => some { s with reader := if s.done then .over else .reading }
    | _ => none
  | .readFails => if s.reader = .reading then some { s with reader := .failed } else none
  | .packet ms => if s.reader = .reading then some { s with reader := .got ms } else none
  | .readError handled =>
    -- session.go:848-880
    if s.reader = .failed then
      if s.done then some { s with reader := .over }
      else if handled then some { s with reader := .check, reports := s.reports ++ [.read] }
      else some { s with reader := .check, done := true, ctx := true, reports := s.reports ++ [.read] }
    else none
  | .message =>
    match s.reader with
    | .got [] => some { s with reader := .check }
    | .got (.key answer :: ms) =>
      -- key_exchanger.go:435-488
      if s.kxDone then some { s with reader := .got ms, reports := s.reports ++ [.keyMessage] }
      else some { s with reader := .got ms, answers := if answer then s.answers else s.answers + 1 }
    | .got (.ping :: ms) =>
      -- the answer is written by the reader itself
      if s.done then some { s with reader := .got ms, reports := s.reports ++ [.pong] }
      else some { s with reader := .got ms }
    | _ => none
  | .tick => if s.loop = .idle then some { s with loop := .begin } else none
  | .loopEnds => if s.loop = .idle ∧ s.kxDone then some { s with loop := .over } else none
  | .begin =>
    -- key_exchanger.go:634-642
    if s.loop = .begin then some { s with loop := if s.kxDone then .idle else .send } else none
  | .sendKey => if s.loop = .send then some { s.sendKey with loop := .waiting } else none
  | .success => if s.loop = .waiting then some { s with loop := .idle } else none
  | .retry => if s.loop = .waiting then some { s with loop := .send } else none
  | .timeout => if s.loop = .waiting then some { { s with kxClosed := true }.fail .keyTimeout with loop := .idle } else none
  | .stopWaiting => if s.loop = .waiting ∧ s.kxDone then some { s with loop := .idle } else none
  | .answer => if s.answers > 0 then some { s.sendKey with answers := s.answers - 1 } else none
  | .negotiate => if s.neg = .off then some { s with neg := .pinging } else none
  | .ping =>
    -- negotiator.go:296-312
    if s.neg = .pinging then
      if s.ctx then some { s with neg := .over }
      else if s.done then some { s with reports := s.reports ++ [.ping] }
      else some s
    else none
  | .collect => if s.neg = .pinging then some { s with neg := .collecting } else none
  | .pings => if s.neg = .collecting then some { s with neg := .pinging } else none
  | .negCancelled => if s.neg = .collecting ∧ s.ctx then some { s.fail .cancelled with neg := .over } else none
  | .negEnds => if s.neg = .collecting ∨ s.neg = .pinging then some { s with neg := .over } else none

def run : State → List Act → Option State
  | s, [] => some s
  | s, a :: as => (step s a).bind (run · as)

end Verif.CloseReport
