import Verif.Model.Send
/-!
# Writing while the payload size is negotiated: session.go:580-600, 1432-1510, 1574-1633, 1895-1907, 2018-2029, negotiator.go:222-229

`Verif.Model.Send` has one payload size for the whole of a call.  The code reads `establishedPayloadSize` several times: when a
message is accepted (1440), when it is split (1482), and when a packet is made (1609, 1903); between the first and the others the
call waits until the session is Established.  Here the negotiation may set the size at any moment before that.

Simplifications:
* The keys, the cipher and the backend are left out: a packet that passes the last check is sent.
* `sendMessages` of the fragments (one goroutine each) is one step, since the size does not change any more when they pass the check.
* A flush of the delayed buffer takes all of it; what is in the buffer has passed the check of line 1610.
* Nothing is said about calls in a session on which `Close` has been called: they may see a size of 0, or the one before the negotiation.
-/
namespace Verif.SizeChange
open Verif.Send Verif.Headers

structure Cfg where
  /-- `options.PayloadSizeLimit` after `init` -/
  limit : W32
  fragmentation : Bool
  /-- `SendDelay != nil` -/
  delay : Bool
  deriving DecidableEq, Repr

/-- The view of `Verif.Model.Send` when the size is `e`. -/
def Cfg.at (cfg : Cfg) (e : W32) : Send.Cfg := ⟨e, cfg.fragmentation, cfg.delay⟩

/-- A call of `WriteMessageAsync`, or `Write`, `WriteMessage`… which wait for it. -/
inductive Call where
  /-- at line 1440 -/
  | start (t : W32) (payload : Bytes)
  /-- to be sent in one piece; `seen` (ghost) is the size it was compared with -/
  | whole (t : W32) (payload : Bytes) (seen : W32)
  /-- at line 1482 of `writeMessageAsyncAsFragmented` -/
  | split (t : W32) (payload : Bytes)
  /-- the goroutines of the fragments, at line 1896 of `sendMessages` -/
  | pieces (t : W32) (payload : Bytes) (fs : List Fragment)
  /-- sent, or put into the buffer, as these messages -/
  | accepted (t : W32) (payload : Bytes) (jobs : List Job)
  /-- `ErrPayloadTooBig` -/
  | refused (t : W32) (payload : Bytes) (seen : W32)
  /-- another error because the session is closed -/
  | cancelled
  deriving DecidableEq, Repr

structure State where
  /-- `establishedPayloadSize` -/
  size : W32
  /-- `isEstablished` is closed -/
  established : Bool
  /-- `Close` has been called -/
  closing : Bool
  /-- `delayedWriteBuf.Len()` -/
  buf : Nat
  /-- `nextChainID` -/
  chain : W64
  calls : List Call
  deriving DecidableEq, Repr

/-- `newSession` (session.go:490). -/
def State.init (cfg : Cfg) : State := ⟨cfg.limit, false, false, 0, 0, []⟩

inductive Act where
  | call (t : W32) (payload : Bytes)
  /-- the next step of call `i`; `zero`: `GetEstablishedPayloadSize` returns 0 (session.go:596) -/
  | go (i : Nat) (zero : Bool)
  /-- call `i` sees that the context is cancelled -/
  | cancel (i : Nat)
  /-- `finalize` of the negotiator up to line 226: `setEstablishedPayloadSize` -/
  | negotiated (e : W32)
  /-- `onConnect` (session.go:2028) -/
  | establish
  | flush
  | close
  deriving DecidableEq, Repr

/-- `GetEstablishedPayloadSize` (session.go:588-600): waits until the session is Established, unless it is closed. -/
def State.read (s : State) (zero : Bool) : Option W32 :=
  if s.closing then some (if zero then 0 else s.size)
  else if s.established then some s.size else none

/-- The check in `sendMessages` (session.go:1903). -/
def tooBig (cfg : Cfg) (e : W32) (job : Job) : Bool :=
  decide ((containerHeadersSize + len32 job.messages) % 2 ^ 32 > packetSize (cfg.at e))

/-- The message of a payload that is not fragmented. -/
def wholeJob (t : W32) (payload : Bytes) : Job := single t (setIsConfidential 0 (t != typeKeyExchange)) payload

/-- `writeMessageAsync` (session.go:1594-1633) with a delay, or `sendMessages` (session.go:1895-1907). The sum of line 1608 has
64 bits. -/
def goWhole (cfg : Cfg) (s : State) (e : W32) (t : W32) (payload : Bytes) (seen : W32) : State × Call :=
  let job := wholeJob t payload
  if cfg.delay then
    if containerHeadersSize + s.buf + messageHeadersSize + payload.length > packetSize (cfg.at e) then
      if s.buf = 0 then (s, .refused t payload seen) else (s, .whole t payload seen)
    else ({ s with buf := s.buf + messageHeadersSize + payload.length }, .accepted t payload [job])
  else if tooBig cfg e job then (s, .refused t payload seen)
  else (s, .accepted t payload [job])

/-- The message of a fragment (session.go:1512-1544). -/
def pieceJob (t : W32) (f : Fragment) : Job := single t (setIsFragmented 0 true) (fragmentPayload f)

/-- The next step of a call. `none`: it waits, or has returned. -/
def callStep (cfg : Cfg) (s : State) (zero : Bool) : Call → Option (State × Call)
  | .start t payload =>
    if len32 payload > s.size.toNat then
      if cfg.fragmentation then some (s, .split t payload) else some (s, .refused t payload s.size)
    else some (s, .whole t payload s.size)
  | .whole t payload seen =>
    match s.read zero with
    | some e => some (goWhole cfg s e t payload seen)
    | none => none
  | .split t payload =>
    match s.read zero with
    | some e =>
      match fragments (cfg.at e) s.chain payload with
      | some fs => some ({ s with chain := s.chain + 1 }, .pieces t payload fs)
      | none => none
    | none => none
  | .pieces t payload fs =>
    match s.read zero with
    | some e =>
      if fs.any (fun f => tooBig cfg e (pieceJob t f)) then some (s, .refused t payload e)
      else some (s, .accepted t payload (fs.map (pieceJob t)))
    | none => none
  | _ => none

/-- Has the call returned? -/
def Call.over : Call → Bool
  | .accepted _ _ _ | .refused _ _ _ | .cancelled => true
  | _ => false

def step (cfg : Cfg) (s : State) : Act → Option State
  /- internal types are not written by the users of a session -/
  | .call t payload => if isInternal t then none else some { s with calls := s.calls ++ [.start t payload] }
  | .go i zero =>
    match s.calls[i]? with
    | some c =>
      match callStep cfg s zero c with
      | some (s', c') => some { s' with calls := s'.calls.set i c' }
      | none => none
    | none => none
  | .cancel i =>
    match s.calls[i]? with
    | some c => if s.closing && !c.over then some { s with calls := s.calls.set i .cancelled } else none
    | none => none
  | .negotiated e => if s.established then none else some { s with size := e }
  | .establish => if s.established then none else some { s with established := true }
  | .flush => some { s with buf := 0 }
  | .close => some { s with closing := true }

def run (cfg : Cfg) : State → List Act → Option State
  | s, [] => some s
  | s, a :: as =>
    match step cfg s a with
    | some s' => run cfg s' as
    | none => none

end Verif.SizeChange
