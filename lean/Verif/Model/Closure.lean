import Verif.Model.Go
/-!
# The goroutines of a session and `WaitForClosure`

session.go:609-680, 820-846, 1309-1320, 1797-1806, 2020-2110, 2218-2276; key_exchanger.go:225-243, 470-489, 529-556, 751-755;
negotiator.go:157-201, 221-229; messenger.go:24-31, 66-87.

A transition system: which goroutines exist, what `stopWaitGroup` counts, and which callbacks of the user are called by
whom.  What the goroutines do otherwise is left out, so that they may do more here than in Go: the negotiator may succeed or
fail whenever it runs, the context may end at any time.  `Wait` of a `sync.WaitGroup` returns at a moment when the counter
is 0.
Left out: the goroutines that call nothing (the timer of `startClosing`, session.go:2234; the one that closes
`successNotifyChan`, key_exchanger.go:237; `go n.Close()`); fragments (session.go:1493-1508), which belong to a `Write` call
of the user; panics in `Start` after an early `Close` (Model/Calls.lean).
-/
namespace Verif.Closure

/-- A goroutine. -/
inductive Th where
  | off
  | run
  | over
  deriving DecidableEq, Repr

/-- 1 if the goroutine is running. -/
def Th.live : Th → Nat
  | .run => 1
  | _ => 0

/-- The reader (session.go:630-636, 904-950). -/
inductive Reader where
  | off
  /-- in the loop -/
  | loop
  /-- a handler of the user runs -/
  | handling
  /-- `readerLoopCleanup` after `cancelFunc` -/
  | leaving
  /-- after `setState(SessionStateClosed)` (session.go:840) -/
  | closed
  | over
  deriving DecidableEq, Repr

/-- 1 if the reader is running. -/
def Reader.live : Reader → Nat
  | .off => 0
  | .over => 0
  | _ => 1

/-- A `Messenger` and the goroutine that waits for its closure (session.go:1313-1318). -/
structure Msgr where
  closed : Bool
  waits : Bool
  deriving DecidableEq, Repr

/-- How many of these goroutines are running. -/
def liveCount : List Msgr → Nat
  | [] => 0
  | m :: ms => (if m.waits then 1 else 0) + liveCount ms

/-- What the user or the backend sees. -/
inductive Ev where
  /-- `Read` of the backend -/
  | read
  /-- a handler of the user is called -/
  | handle
  /-- `EventHandler.OnConnect` -/
  | connect
  /-- `EventHandler.Error` -/
  | error
  deriving DecidableEq, Repr

/-- How far `Start` is. -/
inductive Starting where
  | no
  /-- `sess.ctx` is set (session.go:616) -/
  | context
  /-- after `initNegotiator` -/
  | negotiator
  /-- after `startKeyExchange` -/
  | exchanger
  /-- after `startReader` -/
  | reader
  /-- `Start` has returned -/
  | returned
  deriving DecidableEq, Repr

structure State where
  starting : Starting
  /-- the context is cancelled -/
  ctx : Bool
  /-- the state of the session is Closing or Closed -/
  closing : Bool
  /-- the state is Closed -/
  closed : Bool
  /-- `stopWaitGroup` -/
  wg : Nat
  msgrs : List Msgr
  /-- the goroutine that waits for the key exchanger (session.go:2106-2109) -/
  kxWaiter : Th
  /-- `kx.wg` -/
  kxWg : Nat
  /-- `kx.cancelFunc` was called -/
  kxStopped : Bool
  /-- `kx.loop` -/
  kxLoop : Th
  /-- goroutines that answer key-exchange messages (key_exchanger.go:481-484) -/
  answers : Nat
  reader : Reader
  /-- `startBackendCloser` -/
  closer : Th
  /-- `negotiator.Start` was called -/
  negotiated : Bool
  /-- `finalizer` and `pingSenderLoop` -/
  fin : Th
  ping : Th
  /-- `onConnect` was called -/
  connected : Bool
  /-- the goroutine of `OnConnect` (session.go:2030): created, and called -/
  onConnect : Th
  onConnectCalled : Bool
  delayed : Th
  /-- ghost: some `WaitForClosure` has returned -/
  waited : Bool
  /-- ghost: the events since then -/
  late : List Ev
  deriving DecidableEq, Repr

def State.init : State :=
  { starting := .no, ctx := false, closing := false, closed := false, wg := 0, msgrs := [], kxWaiter := .off
    kxWg := 0, kxStopped := false, kxLoop := .off, answers := 0, reader := .off, closer := .off, negotiated := false
    fin := .off, ping := .off, connected := false, onConnect := .off, onConnectCalled := false, delayed := .off
    waited := false, late := [] }

/-- Records an event. -/
def State.log (s : State) (e : Ev) : State := if s.waited then { s with late := s.late ++ [e] } else s

/-- Records an error, if there is one. -/
def State.logIf (s : State) (b : Bool) (e : Ev) : State := if b then s.log e else s

inductive Act where
  /-- the next step of `Start` (session.go:611-627) -/
  | start
  /-- `setState(SessionStateClosing)` (session.go:2254) -/
  | close
  /-- the context ends: `cancelFunc` of `startClosing`, or the context given to `Start` -/
  | cancel
  /-- `NewMessenger` by the user (session.go:1309-1320) -/
  | newMessenger
  /-- `Close` of a messenger (messenger.go:66-76) -/
  | closeMessenger (i : Nat)
  /-- its goroutine returns -/
  | messengerGone (i : Nat)
  /-- the reader calls `Read` of the backend -/
  | read
  /-- the reader reports an error, such as a packet that cannot be decrypted -/
  | readerError
  /-- the reader calls a handler of the user -/
  | deliver
  /-- the handler returns -/
  | handled
  /-- the reader handles a key-exchange message that has to be answered (key_exchanger.go:478-485) -/
  | kxMessage
  /-- `onKeyExchangeSuccess` for the first time (session.go:2057-2071), with the negotiation enabled or not -/
  | negotiate (enabled : Bool)
  /-- the reader leaves its loop; `cancelFunc` (session.go:823-828) -/
  | leave
  /-- closes messengers (session.go:830-835) and sets the state Closed (session.go:840) -/
  | setClosed
  /-- the goroutine of the reader returns -/
  | readerGone
  /-- the backend closer returns, with an error of `interruptRead` or not (session.go:642-680) -/
  | closerGone (err : Bool)
  /-- `kx.loop` reports an error -/
  | kxError
  /-- the key exchange times out (key_exchanger.go:693-700) -/
  | kxTimeout
  /-- `kx.loop` returns (key_exchanger.go:552-554) -/
  | kxGone
  /-- an answer was sent, or could not be sent (key_exchanger.go:703-711) -/
  | answered (err : Bool)
  /-- `kx.WaitForClosure` returns -/
  | kxWaiterGone
  /-- the negotiator reports an error (negotiator.go:305, 309, 346, 349) -/
  | negotiatorError
  | finGone
  | pingGone
  /-- `finalize` calls `onConnect` (negotiator.go:227, session.go:2030) -/
  | connect
  /-- the goroutine of `OnConnect` calls it -/
  | callOnConnect
  | onConnectGone
  /-- `startDelayedSender` (session.go:1797-1806, 2040) -/
  | startDelayed
  | delayedGone
  /-- `WaitForClosure` returns (session.go:2274-2276) -/
  | wait
  deriving DecidableEq, Repr

/-- `Start` (session.go:609-628).  Creating the negotiator and the key exchanger calls `NewMessenger`; with the context
cancelled this returns nil and `Start` panics: no step.  `startKeyExchange` does nothing if the session is being closed
(session.go:2084-2087). -/
def startStep (s : State) : Option State :=
  match s.starting with
  | .no => some { s with starting := .context }
  | .context =>
    if s.ctx then none
    else some { s with starting := .negotiator, wg := s.wg + 1, msgrs := s.msgrs ++ [⟨false, true⟩] }
  | .negotiator =>
    if s.closing then some { s with starting := .exchanger }
    else if s.ctx then none
    else some { s with
      starting := .exchanger, wg := s.wg + 2, msgrs := s.msgrs ++ [⟨false, true⟩], kxWaiter := .run
      kxLoop := .run, kxWg := s.kxWg + 1 }
  | .exchanger => some { s with starting := .reader, wg := s.wg + 1, reader := .loop }
  | .reader => some { s with starting := .returned, wg := s.wg + 1, closer := .run }
  | .returned => none

/-- `Messenger.Close`. -/
def Msgr.close (m : Msgr) : Msgr := { m with closed := true }

/-- One step; `none`: the step is not possible. -/
def step (s : State) : Act → Option State
  | .start => startStep s
  | .close => some { s with closing := true }
  | .cancel => if s.starting = .no then none else some { s with ctx := true }
  | .newMessenger =>
    if s.ctx then some s
    else some { s with wg := s.wg + 1, msgrs := s.msgrs ++ [⟨false, true⟩] }
  | .closeMessenger i => some { s with msgrs := s.msgrs.modify i Msgr.close }
  | .messengerGone i =>
    match s.msgrs[i]? with
    | some m => if m.closed ∧ m.waits then
        some { s with wg := s.wg - 1, msgrs := s.msgrs.set i { m with waits := false } } else none
    | none => none
  | .read => if s.reader = .loop then some (s.log .read) else none
  | .readerError => if s.reader = .loop then some (s.log .error) else none
  | .deliver => if s.reader = .loop then some ({ s with reader := .handling }.log .handle) else none
  | .handled => if s.reader = .handling then some { s with reader := .loop } else none
  | .kxMessage =>
    if s.reader = .loop ∧ s.kxLoop ≠ .off then some { s with answers := s.answers + 1, kxWg := s.kxWg + 1 } else none
  | .negotiate enabled =>
    if s.reader = .loop ∧ s.kxLoop ≠ .off ∧ s.negotiated = false then
      if enabled then some { s with negotiated := true, fin := .run, ping := .run }
      else some { s with negotiated := true, connected := true, onConnect := .run }
    else none
  | .leave => if s.reader = .loop then some { s with reader := .leaving, ctx := true } else none
  | .setClosed =>
    if s.reader = .leaving then
      some { s with reader := .closed, closing := true, closed := true, msgrs := s.msgrs.map Msgr.close }
    else none
  | .readerGone => if s.reader = .closed then some { s with reader := .over, wg := s.wg - 1 } else none
  | .closerGone err =>
    if s.closer = .run ∧ s.ctx = true then
      some ({ s with closer := .over, closing := true, wg := s.wg - 1 }.logIf err .error)
    else none
  | .kxError => if s.kxLoop = .run then some ({ s with closing := true }.log .error) else none
  | .kxTimeout =>
    if s.kxLoop = .run then some ({ s with kxStopped := true, closing := true }.log .error) else none
  | .kxGone =>
    if s.kxLoop = .run ∧ (s.ctx = true ∨ s.kxStopped = true) then
      some { s with kxLoop := .over, kxWg := s.kxWg - 1 }
    else none
  | .answered err =>
    if 0 < s.answers then
      some ({ s with answers := s.answers - 1, kxWg := s.kxWg - 1, kxStopped := s.kxStopped || err
                     closing := s.closing || err }.logIf err .error)
    else none
  | .kxWaiterGone =>
    if s.kxWaiter = .run ∧ s.kxWg = 0 then some { s with kxWaiter := .over, wg := s.wg - 1 } else none
  | .negotiatorError => if s.ping = .run then some (s.log .error) else none
  | .finGone => if s.fin = .run then some { s with fin := .over } else none
  | .pingGone => if s.ping = .run then some { s with ping := .over } else none
  | .connect =>
    if s.fin = .run ∧ s.connected = false then some { s with connected := true, onConnect := .run } else none
  | .callOnConnect =>
    if s.onConnect = .run ∧ s.onConnectCalled = false then some ({ s with onConnectCalled := true }.log .connect)
    else none
  | .onConnectGone =>
    if s.onConnect = .run ∧ s.onConnectCalled = true then some { s with onConnect := .over } else none
  | .startDelayed =>
    if s.connected = true ∧ s.delayed = .off then some { s with delayed := .run, wg := s.wg + 1 } else none
  | .delayedGone =>
    if s.delayed = .run ∧ s.ctx = true then some { s with delayed := .over, wg := s.wg - 1 } else none
  | .wait => if s.wg = 0 then some { s with waited := true } else none

inductive Reachable : State → Prop
  | init : Reachable State.init
  | step {s s'} (a : Act) : Reachable s → step s a = some s' → Reachable s'

def runActs : State → List Act → Option State
  | s, [] => some s
  | s, a :: as =>
    match step s a with
    | some s' => runActs s' as
    | none => none

end Verif.Closure
