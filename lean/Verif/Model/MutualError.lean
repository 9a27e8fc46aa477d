import Verif.Model.Go
/-!
# What `MutualConfirmationOfIdentity` returns: identity.go:277-347

The assignments to the results `ephemeralKeys` and `returnError`, which the goroutine of the call and, through the handler
of errors, the reader loop make.

Simplifications: packets are classified by what the reader loop does with them; `Write` and the number of ephemeral keys
have any result; the reader loop may end at any time (the context, the backend); a report of an error and the end of the
loop that follows are one step; `Close` in the handler returns; a repeated packet ID is left out (it changes nothing here).
-/
namespace Verif.MutualError

/-- What the caller chooses. -/
structure Opts where
  /-- `ErrorOnSequentialDecryptFailsCount`; `none` for nil -/
  errorOn : Option Nat
  /-- `eventHandler.Error` of the caller returns true -/
  handled : Bool
  deriving DecidableEq, Repr

/-- The errors that the call may return. -/
inductive Err where
  /-- "got an error from onStartFunc" (identity.go:312-318) -/
  | onStart
  /-- "unable to start the session" (identity.go:319-323) -/
  | start
  /-- "unable to write to the session" (identity.go:330-334) -/
  | write
  /-- "unable to read from the session" (identity.go:336-340) -/
  | read
  /-- `ErrCanceled`: not four keys (identity.go:343-345) -/
  | canceled
  /-- the handler of errors got an `ErrCannotDecrypt` (identity.go:299-302) -/
  | cannotDecrypt
  deriving DecidableEq, Repr

/-- `ErrorOnSequentialDecryptFailsCount` after the defaults (session.go:447-453): `none` is never. -/
def threshold (o : Opts) : Option Nat := if o.errorOn.getD 3 = 0 then none else some (o.errorOn.getD 3)

/-- `opts.DetachOnSequentialDecryptFailsCount = 2` (identity.go:291). -/
def detachOn : Nat := 2

/-- Where the call is. -/
inductive Call where
  | begin
  | writing
  | reading
  /-- in the deferred function: `Close`, `WaitForClosure` (identity.go:324-327) -/
  | deferred
  | done
  deriving DecidableEq, Repr

structure State where
  call : Call
  /-- is the reader loop running? -/
  running : Bool
  /-- `sequentialDecryptFailsCount` -/
  fails : Nat
  /-- lengths of the messages in `readChan` -/
  queue : List Nat
  /-- was `Close` called? -/
  closed : Bool
  /-- `ephemeralKeys`: `none` for nil, otherwise whether there are four -/
  keys : Option Bool
  /-- `returnError` -/
  ret : Option Err
  /-- ghost: the error that the call itself has met; the errors given to the handler of the caller (is it
  `ErrCannotDecrypt`?) -/
  own : Option Err
  reports : List Bool
  deriving DecidableEq, Repr

def State.init : State := ⟨.begin, false, 0, [], false, none, none, none, []⟩

/-- `errorHandlerWrapper.Error` with the handler of the call (event_handler.go:35-40, identity.go:298-308). -/
def State.report (o : Opts) (s : State) (cannotDecrypt : Bool) : State :=
  let s := { s with reports := s.reports ++ [cannotDecrypt] }
  if o.handled then s
  else { s with ret := if cannotDecrypt then some .cannotDecrypt else s.ret, closed := true }

/-- `readerLoopDecryptError` (session.go:882-899). -/
def State.undecryptable (o : Opts) (s : State) : State :=
  let s := { s with fails := s.fails + 1 }
  let s := match threshold o with
    | none => s
    | some n => if n ≤ s.fails then s.report o true else s
  if detachOn ≤ s.fails then { s with running := false } else s

/-- A failure of the call. -/
def State.fail (s : State) (e : Err) (next : Call) : State := { s with ret := some e, own := some e, call := next }

inductive Act where
  /-- `onStartFunc` and `Start` (identity.go:312-323) -/
  | start (onStart started : Bool)
  /-- a packet that cannot be decrypted -/
  | bad
  /-- a packet with messages to be read of these lengths -/
  | good (lengths : List Nat)
  /-- another error is reported -/
  | error
  /-- the reader loop ends -/
  | readerEnd
  /-- `Write` returns -/
  | write (ok : Bool)
  /-- `Read` returns; `four`: there are four ephemeral keys now -/
  | read (four : Bool)
  /-- `WaitForClosure` returns -/
  | finish
  deriving DecidableEq, Repr

/-- `Read(nil)` and what follows (identity.go:336-346, session.go:2167-2180). -/
def State.readNil (s : State) (four : Bool) : Option State :=
  match s.queue with
  | [] => if s.running then none else some (s.fail .read .deferred)
  | 0 :: q =>
    let s := { s with queue := q, keys := some four }
    some (if four then { s with call := .deferred } else s.fail .canceled .deferred)
  | _ :: q => some ({ s with queue := q }.fail .read .deferred)

/-- One step; `none` if it is not possible. -/
def step (o : Opts) (s : State) : Act → Option State
  | .start onStart started =>
    if s.call = .begin then
      some (if !onStart then s.fail .onStart .done
        else if !started then s.fail .start .done
        else { s with call := .writing, running := true })
    else none
  | .bad => if s.running then some (s.undecryptable o) else none
  | .good l => if s.running then some { s with fails := 0, queue := s.queue ++ l } else none
  | .error => if s.running then some (s.report o false) else none
  | .readerEnd => if s.running then some { s with running := false } else none
  | .write ok =>
    if s.call = .writing then some (if ok then { s with call := .reading } else s.fail .write .deferred) else none
  | .read four => if s.call = .reading then s.readNil four else none
  | .finish => if s.call = .deferred ∧ s.running = false then some { s with call := .done } else none

/-- Several steps. -/
def run (o : Opts) : State → List Act → Option State
  | s, [] => some s
  | s, a :: as => (step o s a).bind fun s' => run o s' as

end Verif.MutualError
