import Verif.Model.Headers
/-!
# The timer of the delayed sender: session.go:500-504, 1574-1626, 1699-1774, 1808-1851, 2032-2041

A transition system with a clock: one session with `SendDelay`, Established from the beginning, never closed, and
writers that may call `WriteMessageAsync` at any time.  The clock advances by one tick at a time, and only if nothing is
to be done at once: an expired timer sends to its channel, a runnable goroutine runs, both before the clock moves.  Only
`backend.Write` takes time, at most `slow` ticks for a packet.  So the bounds proved are those of a machine that is fast
compared with `SendDelay`.

`time.Timer` (Go before 1.23, go.mod:3): the channel `C` holds one value; `Stop` reports whether the timer was running and
leaves the channel as it is; `Reset` starts the timer again.

Simplifications: a message is its size and the time of its acceptance; a `SendInfo` is its `sendID`; `backend.Write` and
`sendMessages` do not fail; the requests over `sendDelayedNowChan` (from `waitForSend` and `SendNowAndWait`) may come at any
time with any `sendID`; what the writers do after the critical section is left out.
-/
namespace Verif.SendTimer
open Verif.Headers

structure Cfg where
  /-- `*sess.options.SendDelay` -/
  delay : Nat
  /-- `GetEstablishedPacketSize()` -/
  limit : Nat
  /-- the longest time of one `backend.Write` -/
  slow : Nat
  deriving DecidableEq, Repr

/-- A message in the buffer: size with its headers, time of acceptance (ghost). -/
structure Msg where
  size : Nat
  time : Nat
  deriving DecidableEq, Repr

/-- The goroutine of `onConnect`, later of `delayedSenderLoop`. -/
inductive Loop where
  /-- in the `select` (session.go:1818-1831) -/
  | idle
  /-- about to call `sendDelayedNow` -/
  | got
  /-- the new `SendInfo` was acquired (session.go:1746) -/
  | acquired (id : Nat)
  /-- after the swap (session.go:1752-1755): in `backend.Write`, which still needs `left` ticks -/
  | writing (left : Nat) (msgs : List Msg) (id : Nat)
  /-- `sendDelayedNow` returned `id` and whether it has found the buffer empty -/
  | wrote (id : Nat) (empty : Bool)
  deriving DecidableEq, Repr

structure State where
  /-- the clock -/
  now : Nat
  /-- when `delayedSenderTimer` expires, if it is running -/
  armed : Option Nat
  /-- its channel holds a value -/
  tick : Bool
  /-- `delayedWriteBuf` -/
  buf : List Msg
  /-- `delayedSendInfo.sendID` -/
  cur : Nat
  /-- `lastSendInfoSendID` -/
  lastAppended : Nat
  /-- a writer is between the `Reset` and the store of `lastSendInfoSendID` (session.go:1729-1731); it holds
  `delayedWriteBufLocker` -/
  storing : Bool
  /-- `nextSendID` -/
  ids : Nat
  /-- `lastSendID` (session.go:1815) -/
  lastSent : Nat
  /-- still in the loop of `onConnect` (session.go:2033-2038) -/
  connecting : Bool
  loop : Loop
  /-- ghost: the packets, each with the time when `backend.Write` returned -/
  sent : List (List Msg × Nat)
  deriving DecidableEq, Repr

/-- `onConnect` is about to call `sendDelayedNow` the first time; the timer was stopped by `newSession`
(session.go:501-504). -/
def State.init : State :=
  { now := 0, armed := none, tick := false, buf := [], cur := 1, lastAppended := 0, storing := false, ids := 1, lastSent := 0,
    connecting := true, loop := .got, sent := [] }

inductive Act where
  /-- the critical section of `writeMessageAsync` for a payload of this length -/
  | write (len : Nat)
  /-- the store of `lastSendInfoSendID` -/
  | store
  /-- the timer expires -/
  | fire
  /-- the loop receives a `SendInfo` from `sendDelayedNowChan` -/
  | poke (id : Nat)
  /-- the loop receives from the channel of the timer -/
  | receive
  /-- `AcquireSendInfo` by the loop -/
  | acquire
  /-- the swap; `left` is how long `backend.Write` will take -/
  | swap (left : Nat)
  /-- `backend.Write` returns -/
  | written
  /-- the rest of the body of the loop -/
  | finish
  /-- `AcquireSendInfo` by somebody else -/
  | other
  /-- the clock advances -/
  | time
  deriving DecidableEq, Repr

/-- Size of the buffer. -/
def total (buf : List Msg) : Nat := (buf.map Msg.size).sum

/-- `Stop`, draining and `Reset` of the timer (session.go:1722-1730, 1835-1843). -/
def reset (cfg : Cfg) (s : State) : State := { s with armed := some (s.now + cfg.delay), tick := false }

/-- `appendToDelayedWriteBuffer` (session.go:1699-1736) up to the `Reset`. -/
def append (cfg : Cfg) (s : State) (len : Nat) : State :=
  reset cfg { s with buf := s.buf ++ [⟨messageHeadersSize + len, s.now⟩], storing := true }

/-- `sendDelayedNow` after the swap (session.go:1752-1769): nothing is written if the buffer was empty. -/
def swapped (s : State) (new left : Nat) : State :=
  { s with cur := new, buf := []
           loop := if s.buf = [] then .wrote s.cur true else .writing left s.buf s.cur }

/-- The loop of `onConnect` (session.go:2033-2041) after a `sendDelayedNow`. -/
def finishConnect (s : State) (empty : Bool) : State :=
  if empty then { s with connecting := false, loop := .idle } else { s with loop := .got }

/-- The body of `delayedSenderLoop` after `sendDelayedNow` (session.go:1834-1848). -/
def finishLoop (cfg : Cfg) (s : State) (id : Nat) : State :=
  { (if s.lastAppended > id then reset cfg s else s) with lastSent := id, loop := .idle }

/-- The clock may advance as far as the timer is concerned. -/
def timerWaits (s : State) : Bool :=
  match s.armed with
  | some d => decide (s.now < d)
  | none => true

/-- One step; `none` means that it cannot happen now. -/
def step (cfg : Cfg) (s : State) : Act → Option State
  | .write len =>
    if s.storing then none
    else if containerHeadersSize + total s.buf + messageHeadersSize + len > cfg.limit then some s
    else some (append cfg s len)
  | .store => if s.storing then some { s with storing := false, lastAppended := s.cur } else none
  | .fire =>
    match s.armed with
    | some d => if d ≤ s.now then some { s with armed := none, tick := true } else none
    | none => none
  | .poke id =>
    if s.loop = .idle then (if id ≤ s.lastSent then some s else some { s with loop := .got }) else none
  | .receive => if s.loop = .idle ∧ s.tick then some { s with loop := .got, tick := false } else none
  | .acquire => if s.loop = .got then some { s with ids := s.ids + 1, loop := .acquired (s.ids + 1) } else none
  | .swap left =>
    match s.loop with
    | .acquired new => if s.storing = false ∧ left ≤ cfg.slow then some (swapped s new left) else none
    | _ => none
  | .written =>
    match s.loop with
    | .writing 0 msgs id => some { s with sent := s.sent ++ [(msgs, s.now)], loop := .wrote id false }
    | _ => none
  | .finish =>
    match s.loop with
    | .wrote id empty => some (if s.connecting then finishConnect s empty else finishLoop cfg s id)
    | _ => none
  | .other => some { s with ids := s.ids + 1 }
  | .time =>
    if s.storing = false ∧ timerWaits s then
      match s.loop with
      | .idle => if s.tick then none else some { s with now := s.now + 1 }
      | .writing (left + 1) msgs id => some { s with now := s.now + 1, loop := .writing left msgs id }
      | _ => none
    else none

/-- Executions. -/
inductive Reachable (cfg : Cfg) : State → Prop
  | init : Reachable cfg State.init
  | step {s s'} (a : Act) : Reachable cfg s → step cfg s a = some s' → Reachable cfg s'

/-- A sequence of steps. -/
def run (cfg : Cfg) : State → List Act → Option State
  | s, [] => some s
  | s, a :: as => (step cfg s a).bind fun s' => run cfg s' as

end Verif.SendTimer
