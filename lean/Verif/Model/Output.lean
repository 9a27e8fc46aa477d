import Verif.Model.Go
/-!
# The output channels: session.go:160-161, 184-206, 326-334, 444-445, 840-844, 1989-2006, session_debug.go,
session_nodebug.go

The INFO and the DEBUG channel of a session with everybody who uses them: goroutines of the session which log, the end
of the reader, and the user who receives.  A step is one operation on a channel (in Go they are atomic).
Simplifications: entries are of an arbitrary type (format and copied arguments; the copying of package
`github.com/mohae/deepcopy` is not modelled); there is one reader (only `Start` makes it, and only once: session.go:612-628); an entry that the user receives directly goes through the buffer.
-/
namespace Verif.Output

/-- The options (session.go:197-206) and the build tag (session_debug.go:1). -/
structure Cfg where
  enableDebug : Bool
  enableInfo : Bool
  /-- built with `secureiodebug` or `testlogging` -/
  tag : Bool
  deriving DecidableEq, Repr

/-- Capacity of both channels (session.go:444-445). -/
def capacity : Nat := 1024

variable {ε : Type}

structure Chan (ε : Type) where
  buf : List ε
  closed : Bool
  deriving DecidableEq, Repr

/-- `select { case c <- e: default: }`: a send on a closed channel panics; without room the default is taken. -/
def trySend (c : Chan ε) (e : ε) : Outcome Unit (Chan ε) :=
  if c.closed then .panic
  else if c.buf.length < capacity then .ok { c with buf := c.buf ++ [e] }
  else .ok c

/-- `defer func() { recover() }()` around an operation that changes nothing when it panics. -/
def recovering (c : Chan ε) : Outcome Unit (Chan ε) → Outcome Unit (Chan ε)
  | .panic => .ok c
  | r => r

/-- `infof` and `ifInfo` (session.go:1989-2006): the condition is `EnableDebug`. -/
def infof (cfg : Cfg) (c : Chan ε) (e : ε) : Outcome Unit (Chan ε) :=
  if !cfg.enableDebug then .ok c else recovering c (trySend c e)

/-- `debugf` and `ifDebug` (session_debug.go:5-25); without the tag nothing (session_nodebug.go:10-11). -/
def debugf (cfg : Cfg) (c : Chan ε) (e : ε) : Outcome Unit (Chan ε) :=
  if !cfg.tag then .ok c
  else if !cfg.enableDebug then .ok c else recovering c (trySend c e)

/-- `close(c)`. -/
def close (c : Chan ε) : Outcome Unit (Chan ε) := if c.closed then .panic else .ok { c with closed := true }

/-- What `e, ok := <-c` gives to the user: an entry, or `none` at the end. -/
def recv (c : Chan ε) : Outcome Unit (Option ε × Chan ε) :=
  match c.buf with
  | e :: rest => .ok (some e, { c with buf := rest })
  | [] => if c.closed then .ok (none, c) else .block

/-- Progress of the reader at its end (session.go:842-843). -/
inductive Reader where
  | running
  /-- `debugOutputChan` is closed -/
  | debugClosed
  /-- both are -/
  | over
  deriving DecidableEq, Repr

structure State (ε : Type) where
  info : Chan ε
  debug : Chan ε
  reader : Reader
  /-- ghost: entries that the session has logged, in order -/
  infoLogged : List ε
  debugLogged : List ε
  /-- ghost: entries that the user has received -/
  infoGot : List ε
  debugGot : List ε
  /-- ghost: the user was told that there are no more -/
  infoEnd : Bool
  debugEnd : Bool
  deriving DecidableEq, Repr

/-- session.go:444-445 -/
def State.init : State ε := ⟨⟨[], false⟩, ⟨[], false⟩, .running, [], [], [], [], false, false⟩

inductive Act (ε : Type) where
  | info (e : ε)
  | debug (e : ε)
  /-- the next step of the end of the reader -/
  | cleanup
  | recvInfo
  | recvDebug
  deriving DecidableEq, Repr

def step (cfg : Cfg) (s : State ε) : Act ε → Outcome Unit (State ε)
  | .info e =>
    match infof cfg s.info e with
    | .ok c => .ok { s with info := c, infoLogged := s.infoLogged ++ [e] }
    | .err x => .err x
    | .panic => .panic
    | .block => .block
  | .debug e =>
    match debugf cfg s.debug e with
    | .ok c => .ok { s with debug := c, debugLogged := s.debugLogged ++ [e] }
    | .err x => .err x
    | .panic => .panic
    | .block => .block
  | .cleanup =>
    match s.reader with
    | .running =>
      match close s.debug with
      | .ok c => .ok { s with debug := c, reader := .debugClosed }
      | .err x => .err x
      | .panic => .panic
      | .block => .block
    | .debugClosed =>
      match close s.info with
      | .ok c => .ok { s with info := c, reader := .over }
      | .err x => .err x
      | .panic => .panic
      | .block => .block
    | .over => .block
  | .recvInfo =>
    match recv s.info with
    | .ok (some e, c) => .ok { s with info := c, infoGot := s.infoGot ++ [e] }
    | .ok (none, _) => .ok { s with infoEnd := true }
    | .err x => .err x
    | .panic => .panic
    | .block => .block
  | .recvDebug =>
    match recv s.debug with
    | .ok (some e, c) => .ok { s with debug := c, debugGot := s.debugGot ++ [e] }
    | .ok (none, _) => .ok { s with debugEnd := true }
    | .err x => .err x
    | .panic => .panic
    | .block => .block

inductive Reachable (cfg : Cfg) : State ε → Prop
  | init : Reachable cfg State.init
  | step {s s'} (a : Act ε) : Reachable cfg s → step cfg s a = .ok s' → Reachable cfg s'

end Verif.Output
