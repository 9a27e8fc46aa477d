import Verif.Model.Go
/-!
# Messengers: messenger.go:9-85, session.go:820-846 (part), 1074-1101, 1307-1358, 2112-2123, 2168

Registration of messengers and handlers by any number of goroutines, the reader that dispatches messages, and the
clean-up at the end of the reader loop.

`sess.messenger` and `sess.readChan` are Go maps, written under `sess.locker` but read by the reader (and by `Read`)
without it: an unsynchronised read during a write makes the Go runtime stop the program (`concurrent map read and map
write`).  A map write is therefore two steps, and a read between them is a crash.  (The writes of the two maps are
merged.)
Simplifications: `Handle` is one step and returns; the queue is only a destination here (Model/ReadQueue.lean); message
types, messengers and handlers are numbers.
-/
namespace Verif.Messenger

/-- `Messenger` (messenger.go:16-22). -/
structure Obj where
  msgType : Nat
  /-- `handler`, nil at first -/
  handler : Option Nat
  isClosed : Bool
  /-- calls of `wg.Done` -/
  dones : Nat
  deriving DecidableEq, Repr

/-- A registration in progress; `h` is the handler which `SetHandlerFuncs` will set, `none` for `NewMessenger`. -/
inductive Reg where
  /-- after `newMessenger` (session.go:1313) -/
  | created (obj : Nat) (h : Option Nat)
  /-- in `setMessenger`, under `sess.locker`, the previous messenger is closed -/
  | locked (obj : Nat) (h : Option Nat)
  /-- the map is being written -/
  | writing (obj : Nat) (h : Option Nat)
  /-- `NewMessenger` has returned to `SetHandlerFuncs` -/
  | registered (obj : Nat) (h : Nat)
  deriving DecidableEq, Repr

/-- What happened to a message. -/
inductive Out where
  | handled (handler : Nat)
  | queued
  | dropped
  deriving DecidableEq, Repr

inductive Reader where
  | idle
  /-- the messenger was found (session.go:1075) -/
  | found (t : Nat)
  /-- there was none -/
  | queueing (t : Nat)
  /-- after the clean-up -/
  | ended
  deriving DecidableEq, Repr

inductive Crash where
  /-- `messenger.handler` is nil (messenger.go:60) -/
  | nilHandler
  /-- `NewMessenger` returned nil (session.go:1311, 1357) -/
  | nilMessenger
  | concurrentMap
  /-- negative `WaitGroup` counter -/
  | waitGroup
  deriving DecidableEq, Repr

structure State where
  /-- the context is cancelled -/
  ctx : Bool
  objs : List Obj
  /-- `sess.messenger` -/
  cur : List (Nat × Nat)
  /-- keys of `sess.readChan` -/
  chans : List Nat
  regs : List Reg
  reader : Reader
  /-- ghost: types of the messages that arrived, and what happened to them -/
  arrived : List Nat
  log : List (Nat × Out)
  deriving DecidableEq, Repr

/-- After `init` (session.go:508), with `MessageTypeReadWrite = 0`. -/
def State.init : State := ⟨false, [], [], [0], [], .idle, [], []⟩

def lookup (m : List (Nat × Nat)) (t : Nat) : Option Nat := (m.find? (fun p => p.1 = t)).map (·.2)

/-- `Close` (messenger.go:66-76). -/
def closeObj (objs : List Obj) (i : Nat) : Outcome Crash (List Obj) :=
  match objs[i]? with
  | none => .ok objs
  | some o =>
    if o.isClosed then .ok objs
    else if o.dones = 0 then .ok (objs.set i { o with isClosed := true, dones := 1 })
    else .err .waitGroup

/-- Is the map being written? -/
def Reg.isWriting : Reg → Bool
  | .writing _ _ => true
  | _ => false

def writing (s : State) : Bool := s.regs.any Reg.isWriting

/-- Does this registration hold `sess.locker`? -/
def Reg.isLocked : Reg → Bool
  | .locked _ _ => true
  | .writing _ _ => true
  | _ => false

def locked (s : State) : Bool := s.regs.any Reg.isLocked

/-- `setMessenger` up to the map write: closes the previous messenger (session.go:2114-2119). -/
def closeOld (objs : List Obj) (cur : List (Nat × Nat)) (t : Nat) : Outcome Crash (List Obj) :=
  match lookup cur t with
  | some old => closeObj objs old
  | none => .ok objs

/-- The registration after the map write. -/
def afterWrite (regs : List Reg) (i o : Nat) : Option Nat → List Reg
  | none => regs.eraseIdx i
  | some h => regs.set i (.registered o h)

/-- Closes all messengers of the map (session.go:830-835). -/
def closeAll (objs : List Obj) : List (Nat × Nat) → Outcome Crash (List Obj)
  | [] => .ok objs
  | (_, i) :: m =>
    match closeObj objs i with
    | .ok objs' => closeAll objs' m
    | .err e => .err e
    | .panic => .panic
    | .block => .block

inductive Act where
  /-- the context ends -/
  | cancel
  /-- `NewMessenger(t)` (`h = none`) or `SetHandlerFuncs(t, h)` -/
  | register (t : Nat) (h : Option Nat)
  /-- the next step of a registration -/
  | next (i : Nat)
  /-- `SetHandler` by the owner of a messenger -/
  | setHandler (obj : Nat) (h : Nat)
  /-- `Close` by the owner of a messenger -/
  | close (obj : Nat)
  /-- a message arrives -/
  | arrive (t : Nat)
  /-- the next step of `processIncomingMessage` -/
  | dispatch
  /-- `readerLoopCleanup` -/
  | clean
  /-- `Read` looks up its queue, without the lock (session.go:2168) -/
  | read
  deriving DecidableEq, Repr

/-- One step. -/
def step (s : State) : Act → Outcome Crash State
  | .cancel => .ok { s with ctx := true }
  | .register t h =>
    if s.ctx then
      match h with
      | none => .ok s
      | some _ => .err .nilMessenger
    else .ok { s with objs := s.objs ++ [⟨t, none, false, 0⟩], regs := s.regs ++ [.created s.objs.length h] }
  | .next i =>
    match s.regs[i]? with
    | none => .block
    | some (.created o h) =>
      if locked s then .block
      else
        match s.objs[o]? with
        | none => .block
        | some obj =>
          match closeOld s.objs s.cur obj.msgType with
          | .ok objs => .ok { s with objs := objs, regs := s.regs.set i (.locked o h) }
          | .err e => .err e
          | .panic => .panic
          | .block => .block
    | some (.locked o h) => .ok { s with regs := s.regs.set i (.writing o h) }
    | some (.writing o h) =>
      match s.objs[o]? with
      | none => .block
      | some obj => .ok { s with
          cur := (obj.msgType, o) :: s.cur.filter (fun p => p.1 ≠ obj.msgType)
          chans := obj.msgType :: s.chans, regs := afterWrite s.regs i o h }
    | some (.registered o h) =>
      match s.objs[o]? with
      | none => .block
      | some obj => .ok { s with objs := s.objs.set o { obj with handler := some h }, regs := s.regs.eraseIdx i }
  | .setHandler o h =>
    match s.objs[o]? with
    | none => .block
    | some obj => .ok { s with objs := s.objs.set o { obj with handler := some h } }
  | .close o =>
    match closeObj s.objs o with
    | .ok objs => .ok { s with objs := objs }
    | .err e => .err e
    | .panic => .panic
    | .block => .block
  | .arrive t =>
    match s.reader with
    | .idle =>
      if writing s then .err .concurrentMap
      else
        match lookup s.cur t with
        | some _ => .ok { s with reader := .found t, arrived := s.arrived ++ [t] }
        | none => .ok { s with reader := .queueing t, arrived := s.arrived ++ [t] }
    | _ => .block
  | .dispatch =>
    match s.reader with
    | .found t =>
      if writing s then .err .concurrentMap
      else
        match lookup s.cur t with
        | none => .err .nilMessenger
        | some o =>
          match (s.objs[o]?).bind (·.handler) with
          | none => .err .nilHandler
          | some h => .ok { s with reader := .idle, log := s.log ++ [(t, .handled h)] }
    | .queueing t =>
      if locked s then .block
      else .ok { s with reader := .idle, log := s.log ++ [(t, if t ∈ s.chans then .queued else .dropped)] }
    | _ => .block
  | .clean =>
    match s.reader with
    | .idle =>
      if writing s then .err .concurrentMap
      else
        match closeAll s.objs s.cur with
        | .ok objs => .ok { s with objs := objs, ctx := true, reader := .ended }
        | .err e => .err e
        | .panic => .panic
        | .block => .block
    | _ => .block
  | .read => if writing s then .err .concurrentMap else .ok s

inductive Reachable : State → Prop
  | init : Reachable State.init
  | step {s s'} (a : Act) : Reachable s → step s a = .ok s' → Reachable s'

def runActs : State → List Act → Outcome Crash State
  | s, [] => .ok s
  | s, a :: as =>
    match step s a with
    | .ok s' => runActs s' as
    | .err e => .err e
    | .panic => .panic
    | .block => .block

end Verif.Messenger
