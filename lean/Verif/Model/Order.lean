import Verif.Model.Send
/-!
# The order of the messages of one goroutine: session.go:1361-1391, 1432-1510, 1546-1572, 1735-1851

A goroutine calls `WriteMessage`, `WriteMessageAsync` and `WriteMessageSingle`, one after the other, on an
established session that is not closed.  A message takes one of three ways (`Send.writeMessageAsync`): it is
put into the buffer and sent by the sender loop, it is sent by the call itself, or it is cut in pieces each of
which is sent by a goroutine of its own.  Messages are named by the numbers of the calls.

Simplifications: messages of other goroutines are left out (they only share packets); a call which waits for
room in the buffer is a call which begins later; nothing fails.
-/
namespace Verif.Order

/-- A call, by the way of its message; `wait`: the call returns when the message has been sent. -/
inductive Call where
  /-- `writeMessageAsync` (session.go:1574-1634): through the buffer -/
  | buffered (wait : Bool)
  /-- `writeMessageSingle` (session.go:1546-1572): sent by the call -/
  | direct
  /-- `writeMessageAsyncAsFragmented` (session.go:1469-1510) -/
  | fragmented (pieces : Nat) (wait : Bool)
  deriving DecidableEq, Repr

/-- `WriteMessageAsync` (session.go:1432-1467, `wait = false`) and `WriteMessage` (session.go:1361-1375). -/
def Call.of (wait : Bool) : Send.Plan → Option Call
  | .later _ => some (.buffered wait)
  | .now _ => some .direct
  | .fragmented jobs => some (.fragmented jobs.length wait)
  | .tooBig _ _ => none
  | .hangs => none

structure State where
  /-- number of the next call -/
  next : Nat
  /-- the call which has not returned -/
  waiting : Option Nat
  /-- messages in the buffer -/
  buf : List Nat
  /-- the packet which the sender loop has taken but not written -/
  flight : Option (List Nat)
  /-- pieces whose goroutines have not written them, by the number of the message -/
  frags : List Nat
  /-- what has been written to the backend -/
  wire : List Nat
  deriving DecidableEq, Repr

def State.init : State := ⟨0, none, [], none, [], []⟩

inductive Act where
  /-- the goroutine begins its next call -/
  | call
  /-- the call returns (`sendInfo.Wait()`) -/
  | ret
  /-- the sender loop takes the buffer (session.go:1750-1755) -/
  | take
  /-- and writes it (session.go:1764-1767) -/
  | write
  /-- the goroutine of a piece writes it (session.go:1493-1497) -/
  | piece (j : Nat)
  deriving DecidableEq, Repr

def step (calls : List Call) (s : State) : Act → Option State
  | .call =>
    if s.waiting ≠ none then none
    else match calls[s.next]? with
      | none => none
      | some (.buffered w) =>
        some { s with next := s.next + 1, buf := s.buf ++ [s.next], waiting := if w then some s.next else none }
      | some .direct => some { s with next := s.next + 1, wire := s.wire ++ [s.next] }
      | some (.fragmented k w) =>
        some { s with next := s.next + 1, frags := s.frags ++ List.replicate k s.next,
                      waiting := if w then some s.next else none }
  | .ret =>
    match s.waiting with
    | none => none
    | some i =>
      if i ∈ s.buf ∨ i ∈ s.flight.getD [] ∨ i ∈ s.frags then none else some { s with waiting := none }
  | .take =>
    if s.flight = none ∧ s.buf ≠ [] then some { s with flight := some s.buf, buf := [] } else none
  | .write =>
    match s.flight with
    | none => none
    | some l => some { s with flight := none, wire := s.wire ++ l }
  | .piece j =>
    match s.frags[j]? with
    | none => none
    | some i => some { s with frags := s.frags.eraseIdx j, wire := s.wire ++ [i] }

def run (calls : List Call) : State → List Act → Option State
  | s, [] => some s
  | s, a :: as => match step calls s a with
    | none => none
    | some s' => run calls s' as

/-- The states of all executions. -/
inductive Reachable (calls : List Call) : State → Prop where
  | init : Reachable calls .init
  | step {s s' : State} (a : Act) : Reachable calls s → step calls s a = some s' → Reachable calls s'

end Verif.Order
