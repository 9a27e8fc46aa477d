import Verif.Model.Send
/-!
# The slice given to `Write`: session.go:1361-1375, 1432-1641, 1853-1987, send_info.go:140-147

Who reads the memory of the caller, and when.  One call of `WriteMessage` (or `Write`) for an application type; the
goroutines which it starts; the caller, who may use the slice for something else after the return.

A step is one copy of (a part of) the slice, one check, one write to the backend, or one channel operation.
Simplifications: all goroutines of the fragments exist from the beginning (in the code some begin while the loop still
starts others; the caller does not write to the slice before the return); copying a fragment is one step; packets are
their payloads with the position in the message; a message that was appended to the delayed buffer is sent by one step of
the sender; errors before the write may happen at any time.
-/
namespace Verif.WriteBuf

/-- How the message is sent (session.go:1440-1467). -/
inductive Mode where
  /-- without delay: by the calling goroutine -/
  | now
  /-- appended to the delayed buffer by the calling goroutine -/
  | later
  /-- by a goroutine for each fragment -/
  | fragmented
  deriving DecidableEq, Repr

/-- Progress of one packet. -/
inductive Progress where
  /-- the slice is not copied yet (session.go:1535 for fragments, 1564, or `appendToDelayedWriteBuffer`) -/
  | fresh
  | copied (b : Bytes)
  /-- `isDone()` was false (session.go:1965) -/
  | checked (b : Bytes)
  /-- sent or failed -/
  | over
  deriving DecidableEq, Repr

/-- A part of the slice that becomes a packet: `payload[pos : pos+len]`. -/
structure Part where
  pos : Nat
  len : Nat
  progress : Progress
  deriving DecidableEq, Repr

inductive Call where
  /-- inside of `WriteMessageAsync` -/
  | running
  /-- in `sendInfo.Wait` -/
  | waiting
  | returned
  deriving DecidableEq, Repr

structure State where
  mode : Mode
  /-- the memory of the slice -/
  mem : Bytes
  parts : List Part
  /-- `sendInfo.c` is closed -/
  closed : Bool
  /-- the context has ended -/
  ctx : Bool
  /-- the state is `Closing` or `Closed` -/
  done : Bool
  call : Call
  /-- payloads given to the backend, with their positions in the message -/
  out : List (Nat × Bytes)
  deriving DecidableEq, Repr

/-- The parts of a message (session.go:1440-1450, 1486-1501); `none`: nothing is sent (`Verif.Send`). -/
def start (cfg : Send.Cfg) (p : Bytes) : Option (Mode × List Part) :=
  if Send.len32 p > cfg.established.toNat then
    if cfg.fragmentation then
      (Send.fragments cfg 0 p).map fun fs => (.fragmented, fs.map fun f => ⟨f.startPos, f.payload.length, .fresh⟩)
    else none
  else some (if cfg.delay then .later else .now, [⟨0, p.length, .fresh⟩])

def State.init (p : Bytes) (x : Mode × List Part) : State := ⟨x.1, p, x.2, false, false, false, .running, []⟩

inductive Act where
  /-- the slice is copied for a packet -/
  | copy (i : Nat)
  /-- `isDone()` before the write -/
  | check (i : Nat)
  /-- any error before the write (session.go:1865, 1895-1911) -/
  | fail (i : Nat)
  /-- `backend.Write` -/
  | write (i : Nat)
  /-- all packets are sent or have failed: the channel is closed (session.go:1462, 1503-1508, 1770) -/
  | finish
  /-- `WriteMessageAsync` returns -/
  | wait
  /-- `Wait` and `WriteMessage` return (session.go:1367) -/
  | ret
  /-- the context ends; the session closes -/
  | cancel
  | close
  /-- the caller uses the slice for something else -/
  | overwrite (b : Bytes)
  deriving DecidableEq, Repr

def setPart (s : State) (i : Nat) (p : Part) (g : Progress) : State :=
  { s with parts := s.parts.set i { p with progress := g } }

/-- May a packet be worked on?  Without fragments the calling goroutine copies. -/
def mayCopy (s : State) : Bool := s.mode = .fragmented || s.call = .running

/-- May `WriteMessageAsync` return?  Without delay when it is all over, with delay after the copy (session.go:1623), with
fragments at once. -/
def mayWait (s : State) : Bool :=
  match s.mode with
  | .now => s.closed
  | .later => s.parts.all (·.progress ≠ .fresh)
  | .fragmented => true

def step (s : State) : Act → Outcome Unit State
  | .copy i =>
    match s.parts[i]? with
    | some p =>
      if p.progress = .fresh ∧ mayCopy s then .ok (setPart s i p (.copied ((s.mem.drop p.pos).take p.len))) else .block
    | none => .block
  | .check i =>
    match s.parts[i]? with
    | some p =>
      match p.progress with
      | .copied b => .ok (setPart s i p (if s.done then .over else .checked b))
      | _ => .block
    | none => .block
  | .fail i =>
    match s.parts[i]? with
    | some p =>
      match p.progress with
      | .copied _ => .ok (setPart s i p .over)
      | _ => .block
    | none => .block
  | .write i =>
    match s.parts[i]? with
    | some p =>
      match p.progress with
      | .checked b => .ok { setPart s i p .over with out := s.out ++ [(p.pos, b)] }
      | _ => .block
    | none => .block
  | .finish => if s.parts.all (·.progress = .over) ∧ s.closed = false then .ok { s with closed := true } else .block
  | .wait => if s.call = .running ∧ mayWait s then .ok { s with call := .waiting } else .block
  | .ret => if s.call = .waiting ∧ (s.closed = true ∨ s.ctx = true) then .ok { s with call := .returned } else .block
  | .cancel => .ok { s with ctx := true }
  | .close => .ok { s with done := true }
  | .overwrite b => if s.call = .returned ∧ b.length = s.mem.length then .ok { s with mem := b } else .block

inductive Reachable (s0 : State) : State → Prop
  | init : Reachable s0 s0
  | step {s s'} (a : Act) : Reachable s0 s → step s a = .ok s' → Reachable s0 s'

def runActs : State → List Act → Outcome Unit State
  | s, [] => .ok s
  | s, a :: as =>
    match step s a with
    | .ok s' => runActs s' as
    | .err e => .err e
    | .panic => .panic
    | .block => .block

end Verif.WriteBuf
