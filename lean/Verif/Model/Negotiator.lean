import Verif.Model.Go
/-!
# The negotiator

negotiator.go and negotiation_message.go: search for the largest payload size that makes a round trip, exchange
of the result with the other side, and the life cycle of the negotiator (`Start`, the finalizer and the ping
sender goroutines, `Handle` called by the session's reader, `Close`).

Three layers: the arithmetic of one probing round, the byte form of the messages, and a transition system of one
side (with a second one of two connected sides).

What is simplified
* `0.999+step*float64(i)` and `step+1` are floating point computations; with `x = max-min < 2^32` the rounding
  error is below 2^-18, which is too small to change the truncated values `⌈i·x/3⌉` and `⌊x/3⌋+1` used here.
* `case max-min < negotiationPingsPerIteration` (negotiator.go:288-290) can not be chosen after
  `case max-min <= 3` and is left out.
* Time is not measured: a timer may fire at any time after it was set. The timers that wait for `infinite`
  (one year) never fire.
* `Start` runs as one step; `onKeyExchangeSuccess` calls it once per session (session.go:2059-2061), so it can be
  done only once here.
* `WriteSingle` takes effect or fails, it does not block.
* `finalize` reads the two RTT fields without the lock; the reads are one step here.
* `errFunc` closes the session, which cancels the context some time later: the action `cancel`, possible at any
  time.
* `Close` may be called at any time by anyone (action `closeCall`), which covers the calls that the negotiator
  makes itself (`go n.Close()`) and those of the session's clean-up.
-/
namespace Verif.Negotiator

/-! ### The arithmetic of a round -/

/-- `a - b` of `uint32`. -/
def sub32 (a b : Nat) : Nat := (a + (2 ^ 32 - b)) % 2 ^ 32
/-- `a + b` of `uint32`. -/
def add32 (a b : Nat) : Nat := (a + b) % 2 ^ 32

/-- `curIterationID`, `min` and `max` (negotiator.go:275-277). -/
structure Round where
  cur : Nat
  min : Nat
  max : Nat
  deriving DecidableEq, Repr

/-- The first round (negotiator.go:275-277). -/
def Round.first (limit : Nat) : Round := ⟨0, 147, limit⟩

/-- `max-min` (negotiator.go:285, 292). -/
def Round.width (r : Round) : Nat := sub32 r.max r.min

/-- The size of probe `i` (negotiator.go:292, 295): `min + uint32(0.999+step*float64(i))`. -/
def Round.probe (r : Round) (i : Nat) : Nat := add32 r.min ((i * r.width + 2) / 3)

/-- The sizes that are sent in a round, each of them three times (negotiator.go:294-296). -/
def Round.probes (r : Round) : List Nat :=
  [r.probe 3, r.probe 3, r.probe 3, r.probe 2, r.probe 2, r.probe 2,
   r.probe 1, r.probe 1, r.probe 1, r.probe 0, r.probe 0, r.probe 0]

/-- `nextMin`, `nextMax` and whether `firstReceived` is set (negotiator.go:320-322). -/
structure Found where
  nextMin : Nat
  nextMax : Nat
  first : Bool
  deriving DecidableEq, Repr

def Found.none : Found := ⟨0, 0, false⟩

/-- Receiving an item (negotiator.go:335-342). `moved`: the clock has advanced since `startTime`, so that
`firstReceived` becomes larger than 0. -/
def Found.add (r : Round) (f : Found) (size iter : Nat) (moved : Bool) : Found :=
  { nextMin := if size > f.nextMin then size else f.nextMin
    nextMax := if size > f.nextMin then add32 size (r.width / 3 + 1) else f.nextMax
    first := f.first || (decide (iter = r.cur) && moved) }

/-- How a round ends. -/
inductive RoundEnd where
  /-- the loop is left by `break`, a control message follows -/
  | control
  /-- `return` because of `MaxIterations`, without a control message -/
  | silent
  | next (r : Round)
  deriving DecidableEq, Repr

/-- The new `max` (negotiator.go:368-376); the factor is `umin(2, 3, 3)`. -/
def newMax (limit : Nat) (r : Round) (f : Found) : Nat :=
  let m := if f.nextMax ≥ r.max then (f.nextMax * 2) % 2 ^ 32 else add32 f.nextMax 1
  if m > limit then limit else m

/-- The end of a round (negotiator.go:354-381). -/
def Round.finish (limit maxIter : Nat) (r : Round) (f : Found) : RoundEnd :=
  if f.nextMin = r.min then .control
  else if f.nextMin = limit then .control
  else if add32 r.cur 1 ≥ maxIter then .silent
  else .next ⟨add32 r.cur 1, f.nextMin, newMax limit r f⟩

/-! ### Messages -/

/-- A message of the negotiation as `Handle` sees it (negotiator.go:494-509). -/
inductive Msg where
  | ping (size iter : Nat)
  /-- with a right checksum -/
  | pong (size iter : Nat)
  | control (largest : Nat) (isEnd : Bool)
  /-- an empty message, an unknown sub-type, a message that is too short or a wrong checksum: an error -/
  | junk
  deriving DecidableEq, Repr

/-- The `IterationID` field of a ping or pong (negotiation_message.go:27-41): bytes 65 to 68. -/
def iterOf (b : Bytes) : Nat := getLE ((b.drop 65).take 4)

/-- The classification of a message by `Handle`, `handleControlMessage` and `handlePingPongMessage`
(negotiator.go:414-444, 450-471, 494-509). `sha` is SHA-512. A ping is answered without any check. -/
def decode (sha : Bytes → Bytes) (b : Bytes) : Msg :=
  match b with
  | [] => .junk
  | t :: _ =>
    if t = 0 then
      if b.length < 6 then .junk
      else .control (getLE ((b.drop 1).take 4)) ((b.getD 5 0) &&& 1 ≠ 0)
    else if t = 1 then .ping b.length (iterOf b)
    else if t = 2 then
      if b.length < 69 then .junk
      else if (b.drop 1).take 64 ≠ sha (b.drop 65) then .junk
      else .pong b.length (iterOf b)
    else .junk

/-- `sendPing` (negotiator.go:240-267): `buf[msgSize:]` panics for a size below 69. The part after the
header is filled with 0, 1, 2, … (negotiator.go:248-250). -/
def pingBytes (sha : Bytes → Bytes) (iter size : Nat) : Outcome Unit Bytes :=
  if size < 69 then .panic
  else
    let tail := putLE 4 iter ++ (List.range (size - 69)).map fun i => BitVec.ofNat 8 i
    .ok (1 :: (sha tail).take 64 ++ tail)

/-- `b[0] = 2` (negotiator.go:454). -/
def pongBytes (b : Bytes) : Bytes := b.set 0 2

/-- `sendControl` (negotiator.go:389-408; negotiation_message.go:3-21). -/
def controlBytes (largest : Nat) (isEnd : Bool) : Bytes :=
  0 :: putLE 4 largest ++ [if isEnd then 1 else 0]

/-! ### One side -/

structure Cfg where
  /-- `GetPayloadSizeLimit()` -/
  limit : Nat
  /-- `options.MaxIterations` (not 0, negotiator.go:126-128) -/
  maxIter : Nat
  deriving DecidableEq, Repr

/-- `recvChan` (negotiator.go:50, 140). -/
inductive Chan where
  | opened (items : List (Nat × Nat))
  /-- closed, and the variable still points to it -/
  | closed
  /-- the variable is nil -/
  | gone
  deriving DecidableEq, Repr

/-- The goroutine of `pingSenderLoop` (negotiator.go:193-199, 269-387). -/
inductive Pinger where
  | off
  /-- at the loop condition -/
  | top (r : Round)
  /-- sending the probes of the round -/
  | send (r : Round) (todo : List Nat)
  /-- in the `select` -/
  | collect (r : Round) (f : Found)
  /-- sending that many more control messages -/
  | control (k : Nat)
  /-- at `n.stageChan <- struct{}{}` (negotiator.go:198) -/
  | stage
  | done
  deriving DecidableEq, Repr

/-- The goroutine of `finalizer` (negotiator.go:187-191, 203-221). -/
inductive Fin where
  | off
  | wait (stage : Nat)
  | finalize
  | done
  deriving DecidableEq, Repr

/-- `remoteEndOnce` (negotiator.go:53). -/
inductive Once where
  | fresh
  | running
  | done
  deriving DecidableEq, Repr

/-- The reader of the session as far as it is in the negotiator's `Handle`. -/
inductive Reader where
  | idle
  /-- at `n.stageChan <- struct{}{}` (negotiator.go:440) -/
  | stage
  /-- at `n.recvChan <- …` (negotiator.go:478) -/
  | recv (size iter : Nat)
  /-- sending to a nil channel: for ever -/
  | stuck
  /-- at `n.sendControl(false)` (negotiator.go:482) -/
  | control
  deriving DecidableEq, Repr

/-- The call of `Close` that found `cancelFn` set (negotiator.go:524-535). -/
inductive Closer where
  | off
  /-- at `n.wgTasks.Wait()` -/
  | waiting
  /-- between `close(n.recvChan)` and `n.recvChan = nil` -/
  | closed
  | done
  deriving DecidableEq, Repr

/-- `infinite` (negotiator.go:37) in nanoseconds. -/
def infinite : Int := 365 * 24 * 3600 * 1000000000

structure State where
  /-- `Start` was called (`keyExchangeCount`, session.go:2059) -/
  started : Bool
  /-- `cancelFn != nil` -/
  cancelFn : Bool
  /-- the context is done: cancelled, timed out or the session is closing -/
  ctxDone : Bool
  /-- `options.ReadTimeout` -/
  optTimeout : Int
  /-- the variable `readTimeout` of the current round (negotiator.go:314) -/
  readTimeout : Int
  localRTT : Nat
  remoteRTT : Nat
  /-- what `setEstablishedPayloadSize` was called with; `none`: the session uses the limit (session.go:490) -/
  est : Option Nat
  recv : Chan
  once : Once
  pinger : Pinger
  fin : Fin
  reader : Reader
  closer : Closer
  /-- calls of `okFunc` and `errFunc` -/
  okCalls : Nat
  errCalls : Nat
  /-- what was sent -/
  out : List Msg
  deriving DecidableEq, Repr

/-- `newNegotiator` (negotiator.go:113-146). -/
def State.init (timeout : Int) : State :=
  ⟨false, false, false, timeout, 0, 0, 0, none, .opened [], .fresh, .off, .off, .idle, .off, 0, 0, []⟩

/-- What `WriteSingle` gives. -/
inductive Write where
  | ok
  /-- `ErrAlreadyClosed` -/
  | closed
  | fails
  deriving DecidableEq, Repr

/-- Steps of the ping sender. -/
inductive PEvent where
  /-- a step that does not wait for anything -/
  | go
  | write (w : Write)
  | recv (moved : Bool)
  /-- the timer for `collectUntil` -/
  | collected
  | readTimeout
  | ctx
  deriving DecidableEq, Repr

/-- What the finalizer's `select` chooses, or the execution of `finalize`. -/
inductive FEvent where
  | fromPinger
  | fromReader
  | ctx
  | go
  deriving DecidableEq, Repr

inductive Act where
  | start (enabled : Bool)
  | pinger (e : PEvent)
  | fin (e : FEvent)
  /-- the reader gets a message; `w` is for the answer to a ping -/
  | deliver (m : Msg) (w : Write)
  /-- the reader goes on; `w` is for the control message -/
  | reader (w : Write)
  | closeCall
  | closer
  /-- the session's context or the total time-out -/
  | cancel
  deriving DecidableEq, Repr

/-- A message that was written, if it was. -/
def sent (w : Write) (m : Msg) : List Msg := if w = .ok then [m] else []

/-- A call of `errFunc`, if there is one, for a failing control message (negotiator.go:403-407). -/
def failed (w : Write) : Nat := if w = .ok then 0 else 1

/-- A call of `errFunc`, if there is one, for a failing ping (negotiator.go:303-311). -/
def failedPing (w : Write) : Nat := if w = .fails then 1 else 0

/-- The loop condition and the test of the width (negotiator.go:279-293). -/
def atTop (s : State) (r : Round) : Pinger :=
  if s.ctxDone then .control 3
  else if r.width ≤ 3 then .control 3
  else .send r r.probes

/-- Where the ping sender goes after a round (negotiator.go:354-381). -/
def afterRound (cfg : Cfg) (r : Round) (f : Found) : Pinger :=
  match r.finish cfg.limit cfg.maxIter f with
  | .control => .control 3
  | .silent => .stage
  | .next r' => .top r'

/-- The item that a receive from `recvChan` gives, and the channel that remains; a closed channel gives zero
values, a nil channel gives nothing. -/
def Chan.take : Chan → Option ((Nat × Nat) × Chan)
  | .opened (i :: is) => some (i, .opened is)
  | .opened [] => none
  | .closed => some ((0, 0), .closed)
  | .gone => none

/-- `pingSenderLoop` (negotiator.go:269-387). -/
def pingerStep (cfg : Cfg) (s : State) (e : PEvent) : Outcome Unit State :=
  match s.pinger, e with
  | .top r, .go => .ok { s with pinger := atTop s r }
  | .send r (p :: ps), .write w =>
    if s.ctxDone then .ok { s with pinger := .stage }
    else if p < 69 then .panic
    else .ok { s with pinger := .send r ps, out := s.out ++ sent w (.ping p r.cur),
                      errCalls := s.errCalls + failedPing w }
  | .send r [], .go =>
    .ok { s with pinger := .collect r .none, readTimeout := s.optTimeout,
                 optTimeout := if s.optTimeout ≤ 0 then infinite else s.optTimeout }
  | .collect r f, .recv moved =>
    match s.recv.take with
    | some ((size, iter), c) => .ok { s with recv := c, pinger := .collect r (f.add r size iter moved) }
    | none => .block
  | .collect r f, .collected => if f.first then .ok { s with pinger := afterRound cfg r f } else .block
  | .collect _ _, .readTimeout =>
    if s.readTimeout < infinite then .ok { s with pinger := .stage, errCalls := s.errCalls + 1 } else .block
  | .collect _ _, .ctx => if s.ctxDone then .ok { s with pinger := .stage, errCalls := s.errCalls + 1 } else .block
  | .control (k + 1), .write w =>
    .ok { s with pinger := .control k, out := s.out ++ sent w (.control s.localRTT true),
                 errCalls := s.errCalls + failed w }
  | .control 0, .go => .ok { s with pinger := .stage }
  | _, _ => .block

/-- `stageID++` and the comparison (negotiator.go:211-213). -/
def nextStage (k : Nat) : Fin := if k + 1 = 2 then .finalize else .wait (k + 1)

/-- `finalizer` and `finalize` (negotiator.go:203-229). -/
def finStep (s : State) (e : FEvent) : Outcome Unit State :=
  match s.fin, e with
  | .wait k, .fromPinger =>
    if s.pinger = .stage then .ok { s with pinger := .done, fin := nextStage k } else .block
  | .wait k, .fromReader =>
    if s.reader = .stage then .ok { s with reader := .idle, once := .done, fin := nextStage k } else .block
  | .wait _, .ctx => if s.ctxDone then .ok { s with fin := .done } else .block
  | .finalize, .go =>
    .ok { s with est := some (if s.remoteRTT < s.localRTT then s.remoteRTT else s.localRTT),
                 okCalls := s.okCalls + 1, fin := .done }
  | _, _ => .block

/-- The reader calls `Handle` (negotiator.go:423-509). -/
def deliver (s : State) (m : Msg) (w : Write) : Outcome Unit State :=
  if s.reader ≠ .idle then .block
  else
    match m with
    | .junk => .ok s
    | .ping size iter => .ok { s with out := s.out ++ sent w (.pong size iter) }
    | .pong size iter =>
      let s := { s with localRTT := if size > s.localRTT then size else s.localRTT }
      match s.recv with
      | .opened _ => .ok { s with reader := .recv size iter }
      | .closed => .panic
      | .gone => .ok { s with reader := .stuck }
    | .control largest isEnd =>
      let s := { s with remoteRTT := largest }
      if isEnd = true ∧ s.once = .fresh then .ok { s with once := .running, reader := .stage } else .ok s

/-- The reader goes on (negotiator.go:478-482); the channel has room for 32 items (negotiator.go:140). -/
def readerStep (s : State) (w : Write) : Outcome Unit State :=
  match s.reader with
  | .recv size iter =>
    match s.recv with
    | .opened items =>
      if items.length < 32 then .ok { s with recv := .opened (items ++ [(size, iter)]), reader := .control }
      else .block
    | .closed => .panic
    | .gone => .block
  | .control =>
    .ok { s with reader := .idle, out := s.out ++ sent w (.control s.localRTT false),
                 errCalls := s.errCalls + failed w }
  | _ => .block

/-- `wgTasks.Wait()` returns. -/
def State.tasksDone (s : State) : Bool :=
  decide (s.pinger = .off ∨ s.pinger = .done) && decide (s.fin = .off ∨ s.fin = .done)

/-- Is the reader waiting to send to `recvChan`? -/
def Reader.sending : Reader → Bool
  | .recv _ _ => true
  | _ => false

/-- The rest of `Close` (negotiator.go:529-535). Closing a channel that a goroutine is sending to makes that
goroutine panic. -/
def closerStep (s : State) : Outcome Unit State :=
  match s.closer with
  | .waiting =>
    if s.tasksDone then
      match s.recv with
      | .gone => .ok { s with closer := .done }
      | .closed => .panic
      | .opened _ => if s.reader.sending then .panic else .ok { s with recv := .closed, closer := .closed }
    else .block
  | .closed => .ok { s with recv := .gone, closer := .done }
  | _ => .block

/-- `Start` (negotiator.go:162-201). -/
def start (cfg : Cfg) (s : State) (enabled : Bool) : Outcome Unit State :=
  if s.started then .block
  else if s.cancelFn then .err ()
  else if enabled then
    .ok { s with started := true, cancelFn := true, pinger := .top (.first cfg.limit), fin := .wait 0 }
  else .ok { s with started := true, cancelFn := false, ctxDone := true, okCalls := s.okCalls + 1, closer := .waiting }

/-- One step. -/
def step (cfg : Cfg) (s : State) : Act → Outcome Unit State
  | .start enabled => start cfg s enabled
  | .pinger e => pingerStep cfg s e
  | .fin e => finStep s e
  | .deliver m w => deliver s m w
  | .reader w => readerStep s w
  | .closeCall =>
    -- negotiator.go:515-526
    if s.cancelFn then .ok { s with cancelFn := false, ctxDone := true, closer := .waiting } else .ok s
  | .closer => closerStep s
  | .cancel => .ok { s with ctxDone := true }

inductive Reachable (cfg : Cfg) (timeout : Int) : State → Prop
  | init : Reachable cfg timeout (State.init timeout)
  | step {s s'} (a : Act) : Reachable cfg timeout s → step cfg s a = .ok s' → Reachable cfg timeout s'

def runActs (cfg : Cfg) : State → List Act → Outcome Unit State
  | s, [] => .ok s
  | s, a :: as =>
    match step cfg s a with
    | .ok s' => runActs cfg s' as
    | .err e => .err e
    | .panic => .panic
    | .block => .block

/-! ### Two sides -/

/-- Two sides that are connected. What one side has sent may reach the other one at any later time, any number
of times, in any order, or never. -/
structure Net where
  a : State
  b : State
  deriving DecidableEq, Repr

/-- May the first state do this, if the other side has sent `out`? Only messages of the other side arrive. -/
def allowed (out : List Msg) : Act → Prop
  | .deliver m _ => m ∈ out
  | _ => True

instance (out : List Msg) (a : Act) : Decidable (allowed out a) := by
  cases a <;> simp only [allowed] <;> infer_instance

/-- One step of one of the sides; `who` is true for the first one. -/
def netStep (ca cb : Cfg) (n : Net) (who : Bool) (act : Act) : Outcome Unit Net :=
  if who then
    if allowed n.b.out act then
      match step ca n.a act with
      | .ok s => .ok { n with a := s }
      | .err e => .err e
      | .panic => .panic
      | .block => .block
    else .block
  else
    if allowed n.a.out act then
      match step cb n.b act with
      | .ok s => .ok { n with b := s }
      | .err e => .err e
      | .panic => .panic
      | .block => .block
    else .block

inductive NetReachable (ca cb : Cfg) (ta tb : Int) : Net → Prop
  | init : NetReachable ca cb ta tb ⟨.init ta, .init tb⟩
  | step {n n'} (who : Bool) (act : Act) : NetReachable ca cb ta tb n → netStep ca cb n who act = .ok n' →
      NetReachable ca cb ta tb n'

def runNet (ca cb : Cfg) : Net → List (Bool × Act) → Outcome Unit Net
  | n, [] => .ok n
  | n, (who, act) :: as =>
    match netStep ca cb n who act with
    | .ok n' => runNet ca cb n' as
    | .err e => .err e
    | .panic => .panic
    | .block => .block

end Verif.Negotiator
