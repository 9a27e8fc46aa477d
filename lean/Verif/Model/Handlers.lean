import Verif.Model.Go
/-!
# `SetHandlerFuncs`: messenger.go:59-61, session.go:1074-1080, 1323-1358, 2112-2123

The functions that are called for messages of types with handlers.  Registrations and messages come one after the other (what happens
when they overlap is in Model/Messenger.lean).  A function that handles messages is a Lean function to the error it returns; what it
does otherwise is left out.
-/
namespace Verif.Handlers

/-- The arguments of `SetHandlerFuncs`; a function may be nil. -/
structure Funcs (ε : Type) where
  handle : Option (Bytes → Option ε)
  onError : Option Unit

/-- Wrapped errors: `xerrors.Errorf("…: %w", err)`. -/
inductive Err (ε : Type) where
  | user (e : ε)
  /-- "an error from h.HandleFunc()" (session.go:1335) -/
  | fromFunc (e : Err ε)
  /-- "unable to handle a message" (session.go:1077) -/
  | unableToHandle (e : Err ε)
  deriving DecidableEq, Repr

/-- A call of a function of the user; registrations are numbered. -/
inductive Call (ε : Type) where
  | handle (reg : Nat) (payload : Bytes)
  | onError (reg : Nat) (err : Err ε)
  /-- `EventHandler.Error` -/
  | sessionError (err : Err ε)
  deriving DecidableEq, Repr

/-- `(*handlerByFuncs).Handle` (session.go:1329-1338): the calls and the result. -/
def Funcs.Handle {ε : Type} (f : Funcs ε) (reg : Nat) (b : Bytes) : List (Call ε) × Option (Err ε) :=
  match f.handle with
  | none => ([], none)
  | some h => ([.handle reg b], (h b).map fun e => .fromFunc (.user e))

/-- `(*handlerByFuncs).HandleError` (session.go:1339-1344).  It is in no interface, and no code but a test calls it. -/
def Funcs.HandleError {ε : Type} (f : Funcs ε) (reg : Nat) (err : Err ε) : List (Call ε) :=
  match f.onError with
  | none => []
  | some _ => [.onError reg err]

/-- `sess.messenger` -/
structure State (ε : Type) where
  /-- the registrations so far, with their types -/
  regs : List (W32 × Funcs ε)
  /-- `sess.messenger`: the number of the registration -/
  messenger : W32 → Option Nat

def State.init {ε : Type} : State ε := ⟨[], fun _ => none⟩

inductive Ev (ε : Type) where
  /-- `SetHandlerFuncs` -/
  | set (t : W32) (f : Funcs ε)
  /-- a message arrives -/
  | message (t : W32) (payload : Bytes)

/-- One event: `SetHandlerFuncs` (session.go:1351-1358) with `setMessenger` (session.go:2112-2123; a `handlerByFuncs` has no `Close`), or
the first part of `processIncomingMessage` (session.go:1075-1080). -/
def step {ε : Type} (s : State ε) : Ev ε → State ε × List (Call ε)
  | .set t f => (⟨s.regs ++ [(t, f)], fun u => if u = t then some s.regs.length else s.messenger u⟩, [])
  | .message t b =>
    match s.messenger t with
    | none => (s, [])
    | some i =>
      match s.regs[i]? with
      | none => (s, [])
      | some (_, f) =>
        let r := f.Handle i b
        (s, r.1 ++ match r.2 with
          | none => []
          | some e => [.sessionError (.unableToHandle e)])

def run {ε : Type} (s : State ε) : List (Ev ε) → List (Call ε)
  | [] => []
  | e :: es => (step s e).2 ++ run (step s e).1 es

end Verif.Handlers
