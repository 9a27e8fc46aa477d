import Verif.Model.Go
/-!
# The loop of the reader and errors of the backend: session.go:848-944

What happens to the results of `backend.Read`.  What a packet does to the session is not modelled here (see `Verif.Receive`), only
whether the loop goes on after it.
-/
namespace Verif.Reader

/-- Is the text of the error "i/o timeout" in it (session.go:853)? -/
inductive ReadErr where
  | timeout
  | other
  deriving DecidableEq, Repr

/-- One call of `backend.Read`, with what happens during the call. -/
structure ReadResult where
  /-- `inputBuffer[:n]` -/
  data : Bytes
  err : Option ReadErr
  /-- the session gets closed -/
  closes : Bool
  /-- `interruptRead` is called -/
  interrupts : Bool
  deriving DecidableEq, Repr

/-- What surrounds the loop. -/
structure Env where
  /-- what `EventHandler.Error` returns for its `k`-th call -/
  handled : Nat → Bool
  /-- does `setBackendReadDeadline` work? -/
  deadlines : Bool
  /-- does the loop go on after this packet (session.go:927-942)? -/
  goesOn : Bytes → Bool

structure State where
  /-- `isDone()` -/
  done : Bool
  /-- `readInterruptsRequested > readInterruptsHappened` -/
  interrupted : Bool
  /-- the loop has returned -/
  ended : Bool
  /-- ghost: calls of `Error` because of the backend, and packets given to `decrypt` -/
  reports : Nat
  packets : List Bytes
  deriving DecidableEq, Repr

/-- `readerLoop` at its beginning. -/
def State.init : State := ⟨false, false, false, 0, []⟩

/-- The report in `readerLoopReadError` (session.go:868-878): the session is closed unless the handler returns true. -/
def report (env : Env) (s : State) : State :=
  if env.handled s.reports then { s with reports := s.reports + 1 } else { s with reports := s.reports + 1, done := true }

/-- `readerLoopReadError` (session.go:848-880). -/
def readError (env : Env) (s : State) (e : ReadErr) : State :=
  if s.done then { s with ended := true }
  else
    match e with
    | .timeout =>
      if s.interrupted then
        if env.deadlines then { s with interrupted := false } else report env { s with interrupted := false }
      else report env s
    | .other => report env s

/-- The body of the loop (session.go:909-943). -/
def body (env : Env) (s : State) (r : ReadResult) : State :=
  let s := { s with done := s.done || r.closes, interrupted := s.interrupted || r.interrupts }
  match r.err with
  | some e => readError env s e
  | none =>
    if r.data = [] then s
    else if env.goesOn r.data then { s with packets := s.packets ++ [r.data] }
    else { s with packets := s.packets ++ [r.data], ended := true }

/-- `for !sess.isDone()` (session.go:908): one iteration. -/
def iteration (env : Env) (s : State) (r : ReadResult) : State :=
  if s.ended then s else if s.done then { s with ended := true } else body env s r

/-- The loop on a series of results. -/
def loop (env : Env) : State → List ReadResult → State
  | s, [] => s
  | s, r :: rs => loop env (iteration env s r) rs

/-- The loop does not read again. -/
def State.over (s : State) : Bool := s.ended || s.done

end Verif.Reader
