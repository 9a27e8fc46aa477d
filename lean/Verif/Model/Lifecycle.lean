import Verif.Model.Go
/-!
# Life of a session: session_state.go, session.go:609-950, 2020-2110, 2218-2260

A transition system of one session.  Threads: `Start`; any number of `Close` and `SetPause` calls; the reader
loop; the backend closer; the key exchanger and the negotiator, seen only through the calls
`onKeyExchangeSuccess`, `onConnect` and `Close` they make.  A step is one access to shared data or one critical section.

Simplifications: what the reader does with a packet is one step, which may end the loop (session.go:929-934); the
flush in `startClosing` is one step (Model/DelayedSend.lean); the time-out of `startClosing` is the step `cancel`;
closing messengers and read channels in the clean-up is one step with the last `setState`; the backend keeps one read
deadline, which is either in the past (`expired`) or far in the future, and `Read` returns with a time-out if it is
in the past; the locks `pauseWaitLocker.Lock(); Unlock()` of the reader are one step.
-/
namespace Verif.Lifecycle

/-- `SessionState` (session_state.go:10-44). -/
inductive SState where
  | new
  | closed
  | keyExchanging
  | negotiating
  | established
  | paused
  | closing
  deriving DecidableEq, Repr

/-- Where `Start` (session.go:609-628) is. -/
inductive Starting where
  | no
  /-- `sess.ctx` is set (session.go:616) -/
  | context
  /-- `delayedSendInfo` is set (session.go:622) -/
  | sendInfo
  /-- the negotiator exists (session.go:623) -/
  | negotiator
  /-- in `startKeyExchange` after `setState` (session.go:2084); did it succeed? -/
  | state (go : Bool)
  /-- in `newKeyExchanger`: it has its messenger, but `sess.keyExchanger` is not set yet (session.go:2091) -/
  | building
  /-- after `startKeyExchange` -/
  | exchanger
  /-- the reader runs -/
  | reader
  /-- the backend closer runs -/
  | over
  deriving DecidableEq, Repr

/-- `onKeyExchangeSuccess` and `onConnect`. -/
inductive Neg where
  | none
  /-- the first success was counted (session.go:2059) -/
  | first
  /-- after `setState(Negotiating)` (session.go:2063) -/
  | entered
  /-- `negotiator.Start` was called (session.go:2067) -/
  | running
  /-- `onConnect` was called -/
  | connected
  deriving DecidableEq, Repr

/-- How `backend.Read` returned. -/
inductive ReadResult where
  | data
  | timeout
  | other
  deriving DecidableEq, Repr

/-- The reader loop. -/
inductive Reader where
  | off
  /-- at the loop condition (session.go:908) -/
  | top
  /-- `isDone()` was false -/
  | entered
  /-- after `setIsReading(true)` -/
  | checking
  /-- `waitForUnpause` saw the state Paused (session.go:763) -/
  | noticing
  /-- after the critical section (session.go:768-774) -/
  | resetting
  /-- before `pauseWaitLocker.Lock()` -/
  | waiting
  /-- in `backend.Read` -/
  | reading
  /-- `Read` returned -/
  | returned (r : ReadResult)
  /-- after `setIsReading(false)`, with a packet -/
  | packet
  /-- in `readerLoopReadError` (session.go:848) -/
  | failed (r : ReadResult)
  /-- `isDone()` was false (session.go:849) -/
  | failedLive (r : ReadResult)
  /-- the error is reported (session.go:868) -/
  | reporting
  /-- in `readerLoopCleanup` (session.go:819) -/
  | leaving
  /-- the state was KeyExchanging or Negotiating: `startClosing` -/
  | leavingEarly
  /-- after `setState(Closing, Closed)` (session.go:826) -/
  | leavingLate
  /-- before `setState(Closed)` (session.go:840) -/
  | lastState
  /-- before the last `resetReadDeadline` -/
  | lastReset
  | ended
  deriving DecidableEq, Repr

/-- The backend closer (session.go:638-680). -/
inductive Closer where
  | off
  /-- waiting for the context -/
  | waiting
  /-- after `setState(Closing, Closed)` -/
  | closing
  /-- `isReading()` was true (session.go:2220) -/
  | saw
  /-- after `readInterruptsRequested++` -/
  | requested
  /-- the deadline cannot be set: closes the backend unless it has to detach -/
  | failed
  | over
  deriving DecidableEq, Repr

/-- A `SetPause(true)` call that changed the state; `c` is its channel. -/
inductive Pauser where
  /-- before `isReading()`, holding `pauseLocker` -/
  | interrupting (c : Nat)
  /-- `isReading()` was true -/
  | saw (c : Nat)
  /-- after `readInterruptsRequested++` -/
  | requested (c : Nat)
  /-- `pauseLocker` released, waiting for `c` -/
  | waiting (c : Nat) (err : Bool)
  deriving DecidableEq, Repr

/-- Result of a `SetPause` call (ghost). -/
structure PauseRet where
  /-- the argument -/
  value : Bool
  /-- the call changed the state -/
  changed : Bool
  /-- an error was returned -/
  err : Bool
  deriving DecidableEq, Repr

structure Cfg where
  /-- the backend has `SetReadDeadline` or `SetDeadline` -/
  deadlines : Bool

structure State where
  st : SState
  start : Starting
  /-- `sess.keyExchanger != nil` -/
  kx : Bool
  /-- the context is cancelled -/
  ctx : Bool
  neg : Neg
  /-- `keyExchangeCount` -/
  kxCount : Nat
  /-- ghost: number of calls of `OnConnect` -/
  connects : Nat
  /-- `pauseStartChan` -/
  pauseChan : Option Nat
  nextChan : Nat
  closedChans : List Nat
  /-- `pauseWaitLocker` is locked -/
  pauseWait : Bool
  pausers : List Pauser
  pauseRets : List PauseRet
  /-- `isReadingValue` -/
  isReading : Bool
  requested : Nat
  happened : Nat
  /-- the read deadline of the backend is in the past -/
  expired : Bool
  backendClosed : Bool
  reader : Reader
  closer : Closer
  /-- `startClosing` calls before the flush, and before `cancelFunc` -/
  flushing : Nat
  cancelling : Nat
  /-- goroutines of `startClosing` that have not looked at `keyExchanger.options` (session.go:2236) -/
  timers : Nat
  /-- ghost: successful and refused calls of `Start` and `Close` -/
  starts : Nat
  startsRefused : Nat
  closes : Nat
  closesRefused : Nat
  /-- ghost: errors of `backend.Read` given to the event handler -/
  errors : Nat

/-- Causes of a crash. -/
inductive Crash where
  /-- `sess.keyExchanger` is nil (session.go:2236) -/
  | nilKeyExchanger
  /-- `sess.delayedSendInfo` is nil (session.go:1762) -/
  | nilSendInfo
  /-- `sess.cancelFunc` is nil -/
  | nilCancel
  /-- `NewMessenger` returned nil to `Start` (session.go:1310-1312); it is used in negotiator.go:144, key_exchanger.go:241 -/
  | nilMessenger
  /-- unlock of an unlocked mutex (session.go:739) -/
  | unlock
  /-- `close` of a closed channel -/
  | doubleClose
  deriving DecidableEq, Repr

def State.init : State :=
  { st := .new, start := .no, kx := false, ctx := false, neg := .none, kxCount := 0, connects := 0, pauseChan := none,
    nextChan := 0, closedChans := [], pauseWait := false, pausers := [], pauseRets := [], isReading := false,
    requested := 0, happened := 0, expired := false, backendClosed := false, reader := .off, closer := .off,
    flushing := 0, cancelling := 0, timers := 0, starts := 0, startsRefused := 0, closes := 0, closesRefused := 0, errors := 0 }

/-- `Set` (session_state.go:104-120). -/
def setState (s : State) (x : SState) (cancelOn : List SState) : State :=
  if s.st ∈ cancelOn then s else { s with st := x }

/-- `isDone` (session.go:682-690). -/
def isDone (s : State) : Bool := s.st = .closing ∨ s.st = .closed

/-- `setBackendReadDeadline` (session.go:2198-2216): the new state and its success. -/
def setDeadline (cfg : Cfg) (s : State) (past : Bool) : State × Bool :=
  if cfg.deadlines then ({ s with expired := past }, true) else (s, false)

/-- `resetReadDeadline` (session.go:799-809). -/
def resetReadDeadline (cfg : Cfg) (s : State) : State :=
  if s.requested ≤ s.happened then s else { (setDeadline cfg s false).1 with happened := s.requested }

/-- `Close` (session.go:2253-2260) up to the call of `startClosing`. -/
def closeSess (s : State) : State :=
  let s' := setState s .closing [.closed]
  if s.st = .closed ∨ s.st = .closing then { s' with closesRefused := s.closesRefused + 1 }
  else { s' with closes := s.closes + 1, flushing := s.flushing + 1, timers := s.timers + 1 }

/-- Does a `SetPause(true)` call hold `pauseLocker`? -/
def Pauser.holds : Pauser → Bool
  | .waiting _ _ => false
  | _ => true

def locked (s : State) : Bool := s.pausers.any Pauser.holds

/-- `badStates` (session.go:717-723). -/
def badStates : List SState := [.new, .closing, .closed, .keyExchanging, .negotiating]

inductive Act where
  /-- a call of `Start` (session.go:611-620), and its later steps -/
  | startCall
  | startNext
  /-- `Close`, called by the user or by the key exchanger or the negotiator after an error -/
  | close
  /-- steps of `startClosing` -/
  | flush
  | cancelFunc
  | timer
  /-- the parent context is cancelled, or the time-out of `startClosing` -/
  | cancel
  /-- `onKeyExchangeSuccess`, and its later steps -/
  | kxSuccess
  | negotiate
  | negStart
  /-- `onConnect` -/
  | connect
  /-- `SetPause(true)`, `SetPause(false)`, the next step of the `i`-th `SetPause(true)` call -/
  | pause
  | unpause
  | pauser (i : Nat)
  /-- the reader; `fresh` is what `Read` returns if no deadline has passed, `stop` that processing the packet ends the
  loop, `handled` that the event handler returned true -/
  | reader (fresh : ReadResult) (stop handled : Bool)
  /-- the backend closer; `detach` that the counters tell it not to close the backend -/
  | closer (detach : Bool)
  deriving DecidableEq, Repr

/-- A step of the reader loop. -/
def readerStep (cfg : Cfg) (s : State) (fresh : ReadResult) (stop handled : Bool) : Outcome Crash State :=
  match s.reader with
  | .off => .block
  | .top => .ok { s with reader := if isDone s then .leaving else .entered }
  | .entered => .ok { s with reader := .checking, isReading := true }
  | .checking => .ok { s with reader := if s.st = .paused then .noticing else .reading }
  | .noticing =>
    if locked s then .block
    else
      match s.pauseChan with
      | none => .ok { s with reader := .resetting }
      | some c =>
        if c ∈ s.closedChans then .err .doubleClose
        else .ok { s with reader := .resetting, closedChans := c :: s.closedChans, pauseChan := none }
  | .resetting => .ok { resetReadDeadline cfg s with reader := .waiting }
  | .waiting => if s.pauseWait then .block else .ok { s with reader := .reading }
  | .reading =>
    if s.backendClosed then .ok { s with reader := .returned .other }
    else if s.expired then .ok { s with reader := .returned .timeout }
    else .ok { s with reader := .returned fresh }
  | .returned .data => .ok { s with reader := .packet, isReading := false }
  | .returned r => .ok { s with reader := .failed r, isReading := false }
  | .packet => .ok { s with reader := if stop then .leaving else .top }
  | .failed r => .ok { s with reader := if isDone s then .leaving else .failedLive r }
  | .failedLive r =>
    if r = .timeout ∧ s.happened < s.requested then
      let (s', ok) := setDeadline cfg s false
      .ok { s' with happened := s.requested, reader := if ok then .top else .reporting }
    else .ok { s with reader := .reporting }
  | .reporting =>
    if handled then .ok { s with reader := .top, errors := s.errors + 1 }
    else .ok { closeSess s with reader := .top, errors := s.errors + 1 }
  | .leaving =>
    if s.st = .keyExchanging ∨ s.st = .negotiating then .ok { s with reader := .leavingEarly, timers := s.timers + 1 }
    else .ok { setState s .closing [.closed] with reader := .leavingLate }
  | .leavingEarly => .ok { s with reader := .leavingLate }
  | .leavingLate => .ok { s with reader := .lastState, ctx := true }
  | .lastState => .ok { setState s .closed [] with reader := .lastReset }
  | .lastReset => .ok { resetReadDeadline cfg s with reader := .ended }
  | .ended => .block

/-- A step of the backend closer. -/
def closerStep (cfg : Cfg) (s : State) (detach : Bool) : Outcome Crash State :=
  match s.closer with
  | .off => .block
  | .waiting => if s.ctx then .ok { setState s .closing [.closed] with closer := .closing } else .block
  | .closing => .ok { s with closer := if s.isReading then .saw else .over }
  | .saw => .ok { s with closer := .requested, requested := s.requested + 1 }
  | .requested =>
    let (s', ok) := setDeadline cfg s true
    .ok { s' with closer := if ok then .over else .failed }
  | .failed => .ok { s with closer := .over, backendClosed := if detach then s.backendClosed else true }
  | .over => .block

/-- A step of a `SetPause(true)` call. -/
def pauserStep (cfg : Cfg) (s : State) (i : Nat) : Outcome Crash State :=
  match s.pausers[i]? with
  | none => .block
  | some (.interrupting c) =>
    .ok { s with pausers := s.pausers.set i (if s.isReading then .saw c else .waiting c false) }
  | some (.saw c) => .ok { s with pausers := s.pausers.set i (.requested c), requested := s.requested + 1 }
  | some (.requested c) =>
    let (s', ok) := setDeadline cfg s true
    .ok { s' with pausers := s.pausers.set i (.waiting c !ok) }
  | some (.waiting c err) =>
    if c ∈ s.closedChans then
      .ok { s with pausers := s.pausers.eraseIdx i, pauseRets := s.pauseRets ++ [⟨true, true, err⟩] }
    else .block

/-- A later step of `Start` (session.go:622-627, 2043-2047, 2083-2110). `NewMessenger` gives nil if the context is cancelled, and the
negotiator and the key exchanger dereference it without a check. -/
def startStep (s : State) : Outcome Crash State :=
  match s.start with
  | .no => .block
  | .context => .ok { s with start := .sendInfo }
  | .sendInfo => if s.ctx then .err .nilMessenger else .ok { s with start := .negotiator }
  | .negotiator =>
    let s' := setState s .keyExchanging [.closing, .closed]
    .ok { s' with start := .state (¬ (s.st = .keyExchanging ∨ s.st = .closing ∨ s.st = .closed)) }
  | .state false => .ok { s with start := .exchanger }
  | .state true => if s.ctx then .err .nilMessenger else .ok { s with start := .building }
  | .building => .ok { s with start := .exchanger, kx := true }
  | .exchanger => .ok { s with start := .reader, reader := .top }
  | .reader => .ok { s with start := .over, closer := .waiting }
  | .over => .block

/-- One step; `block` means that it cannot happen now, `err` is a crash. -/
def step (cfg : Cfg) (s : State) : Act → Outcome Crash State
  | .startCall =>
    if s.start = .no then .ok { s with start := .context, starts := s.starts + 1 }
    else .ok { s with startsRefused := s.startsRefused + 1 }
  | .startNext => startStep s
  | .close => .ok (closeSess s)
  | .flush =>
    if s.flushing = 0 then .block
    else if s.start = .no ∨ s.start = .context then .err .nilSendInfo
    else .ok { s with flushing := s.flushing - 1, cancelling := s.cancelling + 1 }
  | .cancelFunc =>
    if s.cancelling = 0 then .block
    else if s.start = .no then .err .nilCancel
    else .ok { s with cancelling := s.cancelling - 1, ctx := true }
  | .timer =>
    if s.timers = 0 then .block
    else if s.kx = false then .err .nilKeyExchanger
    else .ok { s with timers := s.timers - 1 }
  | .cancel => if s.start = .no then .block else .ok { s with ctx := true }
  | .kxSuccess =>
    if s.start = .building ∨ s.kx then
      .ok { s with kxCount := s.kxCount + 1, neg := if s.kxCount = 0 then .first else s.neg }
    else .block
  | .negotiate =>
    if s.neg = .first then
      .ok { setState s .negotiating [.closed, .closing, .new, .established, .negotiating] with neg := .entered }
    else .block
  | .negStart => if s.neg = .entered then .ok { s with neg := .running } else .block
  | .connect =>
    if s.neg = .running then
      .ok { setState s .established [.closed, .closing, .new, .established] with
            neg := .connected, connects := s.connects + 1 }
    else .block
  | .pause =>
    if locked s then .block
    else if s.st = .established then
      if s.pauseWait then .block
      else .ok { s with st := .paused, pauseChan := some s.nextChan, nextChan := s.nextChan + 1, pauseWait := true
                        pausers := s.pausers ++ [.interrupting s.nextChan] }
    else .ok { setState s .paused badStates with
               pauseChan := none, pauseRets := s.pauseRets ++ [⟨true, false, true⟩] }
  | .unpause =>
    if locked s then .block
    else if s.st = .paused then
      if s.pauseWait then
        .ok { s with st := .established, pauseWait := false, pauseRets := s.pauseRets ++ [⟨false, true, false⟩] }
      else .err .unlock
    else .ok { setState s .established badStates with pauseRets := s.pauseRets ++ [⟨false, false, true⟩] }
  | .pauser i => pauserStep cfg s i
  | .reader fresh stop handled => readerStep cfg s fresh stop handled
  | .closer detach => closerStep cfg s detach

/-- States of a session. -/
inductive Reachable (cfg : Cfg) : State → Prop
  | init : Reachable cfg State.init
  | step {s s'} (a : Act) : Reachable cfg s → step cfg s a = .ok s' → Reachable cfg s'

/-- A sequence of steps. -/
def runActs (cfg : Cfg) : State → List Act → Outcome Crash State
  | s, [] => .ok s
  | s, a :: as =>
    match step cfg s a with
    | .ok s' => runActs cfg s' as
    | .err e => .err e
    | .panic => .panic
    | .block => .block

end Verif.Lifecycle
