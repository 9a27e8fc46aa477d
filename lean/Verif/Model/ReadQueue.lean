import Verif.Model.Go
/-!
# The read queue: read_item.go, session.go:1080-1100 (producer), session.go:836-838 (closing),
session.go:2167-2185 (`Read`)

A transition system: the reader goroutine delivers messages of type ReadWrite into the channel
`readChan[MessageTypeReadWrite]`; any number of concurrent `Read` calls take them.  Items are heap
objects (numbers), reused through a `sync.Pool`, which may give back any pooled item, make a new one, or
drop items at any time.
-/
namespace Verif.ReadQueue

/-- `messageQueueLength` (session.go:65). -/
def queueLength : Nat := 1024

/-- `readItem` (read_item.go:7-13).  `isOneTimeUse` is never set by the code, so it is always false and is
left out.  The capacity of `Data` is left out: `AcquireReadItem` makes it large enough
(read_item.go:44-46, session.go:1084-1088). -/
structure Item where
  data : Bytes
  busy : Bool
  deriving DecidableEq, Repr

/-- The reader goroutine. -/
inductive Reader where
  | idle
  /-- blocked or about to run `ch <- item` (session.go:1099) -/
  | sending (item : Nat)
  /-- after `close(ch)` (session.go:837) -/
  | stopped
  deriving DecidableEq, Repr

/-- A `Read` call that has received an item (session.go:2169). -/
structure Call where
  /-- number of the received message (ghost) -/
  seq : Nat
  /-- `len(p)` -/
  buf : Nat
  item : Nat
  /-- what has been copied into `p` (session.go:2176) -/
  copied : Option Bytes
  deriving DecidableEq, Repr

/-- How a `Read` call ended. -/
inductive Ret where
  /-- `(len(data), nil)` with `data` in the buffer; `seq` (ghost) is the number of the message -/
  | ok (seq : Nat) (data : Bytes)
  /-- `ErrPayloadTooBig` (session.go:2174) -/
  | tooBig (seq : Nat) (buf size : Nat)
  /-- `ErrAlreadyClosed` (session.go:2171) -/
  | closed
  deriving DecidableEq, Repr

structure State where
  items : Nat → Item
  /-- items ever allocated -/
  next : Nat
  /-- content of the `sync.Pool` -/
  pool : List Nat
  /-- content of the channel -/
  queue : List Nat
  reader : Reader
  calls : List Call
  /-- results of finished `Read` calls, in the order they returned -/
  rets : List Ret
  /-- ghost: all messages given to the queue so far -/
  arrived : List Bytes
  /-- ghost: number of items received from the channel -/
  taken : Nat

/-- A new session (session.go:496, 508). -/
def State.init : State :=
  { items := fun _ => ⟨[], false⟩, next := 0, pool := [], queue := [], reader := .idle, calls := [],
    rets := [], arrived := [], taken := 0 }

inductive Act where
  /-- the reader goroutine gets a message for the queue; `reuse` is what `sync.Pool.Get` gives -/
  | arrive (m : Bytes) (reuse : Option Nat)
  /-- `ch <- item` -/
  | send
  /-- `readerLoopCleanup` -/
  | stop
  /-- a `Read` with a buffer of `buf` bytes passes `<-ch` -/
  | take (buf : Nat)
  /-- `Read` number `i` of the running ones compares the sizes and copies -/
  | copy (i : Nat)
  /-- `Read` number `i` releases the item and returns -/
  | release (i : Nat)
  /-- the `sync.Pool` drops an item -/
  | gc (item : Nat)

/-- Heap update. -/
def setItem (items : Nat → Item) (i : Nat) (v : Item) : Nat → Item := fun j => if j = i then v else items j

/-- `AcquireReadItem` (read_item.go:31-48), then filling it (session.go:1089-1090), with item number
`i`. -/
def acquire (s : State) (i : Nat) (m : Bytes) : Outcome Unit State :=
  if (s.items i).busy then .panic
  else .ok { s with items := setItem s.items i ⟨m, true⟩, reader := .sending i, arrived := s.arrived ++ [m] }

/-- One step; `block` means that it cannot happen now. -/
def step (s : State) : Act → Outcome Unit State
  | .arrive m reuse =>
    match s.reader, reuse with
    | .idle, none => acquire { s with next := s.next + 1 } s.next m
    | .idle, some i => if i ∈ s.pool then acquire { s with pool := s.pool.erase i } i m else .block
    | _, _ => .block
  | .send =>
    match s.reader with
    | .sending i =>
      if s.queue.length < queueLength then .ok { s with queue := s.queue ++ [i], reader := .idle }
      else .block
    | _ => .block
  | .stop =>
    match s.reader with
    | .idle => .ok { s with reader := .stopped }
    | _ => .block
  | .take buf =>
    match s.queue with
    | i :: q =>
      .ok { s with queue := q, calls := s.calls ++ [⟨s.taken, buf, i, none⟩], taken := s.taken + 1 }
    | [] => if s.reader = .stopped then .ok { s with rets := s.rets ++ [.closed] } else .block
  | .copy i =>
    match s.calls[i]? with
    | some c =>
      let data := (s.items c.item).data
      if c.copied.isSome then .block
      else if c.buf < data.length then
        .ok { s with calls := s.calls.eraseIdx i, rets := s.rets ++ [.tooBig c.seq c.buf data.length] }
      else .ok { s with calls := s.calls.set i { c with copied := some data } }
    | none => .block
  | .release i =>
    match s.calls[i]? with
    | some c =>
      match c.copied with
      | some d =>
        if (s.items c.item).busy then
          .ok { s with items := setItem s.items c.item ⟨[], false⟩, pool := c.item :: s.pool,
                       calls := s.calls.eraseIdx i, rets := s.rets ++ [.ok c.seq d] }
        else .panic
      | none => .block
    | none => .block
  | .gc i => if i ∈ s.pool then .ok { s with pool := s.pool.erase i } else .block

/-- States of a running session. -/
inductive Reachable : State → Prop
  | init : Reachable State.init
  | step {s s'} (a : Act) : Reachable s → step s a = .ok s' → Reachable s'

/-- A sequence of steps. -/
def runActs : State → List Act → Outcome Unit State
  | s, [] => .ok s
  | s, a :: as =>
    match step s a with
    | .ok s' => runActs s' as
    | .err e => .err e
    | .panic => .panic
    | .block => .block

end Verif.ReadQueue
