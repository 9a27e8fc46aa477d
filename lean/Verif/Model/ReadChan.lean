import Verif.Model.Go
/-!
# `Read` and registrations: session.go:508, 836-838, 1074-1101, 1309-1322, 2112-2123, 2167-2185

The channel of `Read` when a messenger is registered for `MessageTypeReadWrite`: `setMessenger` makes a new channel
(session.go:2121), whoever has looked up the old one keeps it.  Any number of `Read` calls and registrations, the reader goroutine
and its end.

Simplifications: only the type `MessageTypeReadWrite`; messages are numbers and buffers are large enough (Model/ReadQueue.lean has
the contents, the pool and small buffers); a registered messenger has its handler at once and a map is written in one step
(Model/Messenger.lean has the crashes in between); the handler returns.
-/
namespace Verif.ReadChan

/-- A `chan *readItem`. -/
structure Chan where
  queue : List Nat
  closed : Bool
  deriving DecidableEq, Repr

/-- A call of `Read` (session.go:2167-2185). -/
inductive Call where
  /-- at `<-ch` (session.go:2169) with the channel it has looked up -/
  | waiting (ch : Nat)
  | got (m : Nat)
  /-- `ErrAlreadyClosed` -/
  | failed
  deriving DecidableEq, Repr

/-- The reader goroutine. -/
inductive Loop where
  | idle
  /-- there is no messenger (session.go:1075) -/
  | checked (m : Nat)
  /-- at `ch <- item` (session.go:1099) -/
  | sending (ch : Nat) (m : Nat)
  /-- after `readerLoopCleanup` -/
  | ended
  deriving DecidableEq, Repr

structure State where
  chans : List Chan
  /-- the channel in `sess.readChan` -/
  cur : Nat
  /-- is there a messenger in `sess.messenger`? -/
  messenger : Bool
  /-- registrations between `isDoneSlow` (session.go:1310) and `setMessenger` -/
  regs : Nat
  /-- the context has ended -/
  ctx : Bool
  loop : Loop
  calls : List Call
  /-- ghost: the messages that arrived, those given to the handler, those returned by `Read` -/
  arrived : List Nat
  handled : List Nat
  taken : List Nat
  deriving DecidableEq, Repr

/-- After `init` (session.go:508). -/
def State.init : State := ⟨[⟨[], false⟩], 0, false, 0, false, .idle, [], [], [], []⟩

inductive Act where
  /-- a message arrives (session.go:1074-1080) -/
  | arrive (m : Nat)
  /-- the channel is looked up (session.go:1093-1098) -/
  | lookup
  /-- `ch <- item` -/
  | push
  /-- `Read` is called and looks up the channel (session.go:2168) -/
  | read
  /-- `<-ch` of call `i` -/
  | take (i : Nat)
  /-- `NewMessenger` is called (session.go:1310-1312) -/
  | begin
  /-- `setMessenger` (session.go:2112-2123) -/
  | register
  /-- the context ends -/
  | cancel
  /-- `readerLoopCleanup` (session.go:819-846) -/
  | clean
  deriving DecidableEq, Repr

/-- One step; `cap` is `messageQueueLength`.  An error is a send on a closed channel. -/
def step (cap : Nat) (s : State) : Act → Outcome Unit State
  | .arrive m =>
    if s.loop = .idle then
      if s.messenger then .ok { s with arrived := s.arrived ++ [m], handled := s.handled ++ [m] }
      else .ok { s with arrived := s.arrived ++ [m], loop := .checked m }
    else .block
  | .lookup =>
    match s.loop with
    | .checked m => .ok { s with loop := .sending s.cur m }
    | _ => .block
  | .push =>
    match s.loop with
    | .sending c m =>
      match s.chans[c]? with
      | none => .block
      | some ch =>
        if ch.closed then .err ()
        else if ch.queue.length < cap then
          .ok { s with loop := .idle, chans := s.chans.set c { ch with queue := ch.queue ++ [m] } }
        else .block
    | _ => .block
  | .read => .ok { s with calls := s.calls ++ [.waiting s.cur] }
  | .take i =>
    match s.calls[i]? with
    | some (.waiting c) =>
      match s.chans[c]? with
      | none => .block
      | some ch =>
        match ch.queue with
        | m :: q => .ok { s with calls := s.calls.set i (.got m), taken := s.taken ++ [m], chans := s.chans.set c { ch with queue := q } }
        | [] => if ch.closed then .ok { s with calls := s.calls.set i .failed } else .block
    | _ => .block
  | .begin => if s.ctx then .ok s else .ok { s with regs := s.regs + 1 }
  | .register =>
    if 0 < s.regs then
      .ok { s with regs := s.regs - 1, messenger := true, cur := s.chans.length, chans := s.chans ++ [⟨[], false⟩] }
    else .block
  | .cancel => .ok { s with ctx := true }
  | .clean =>
    if s.loop = .idle then
      match s.chans[s.cur]? with
      | none => .block
      | some ch => .ok { s with loop := .ended, ctx := true, chans := s.chans.set s.cur { ch with closed := true } }
    else .block

inductive Reachable (cap : Nat) : State → Prop
  | init : Reachable cap State.init
  | step {s s'} (a : Act) : Reachable cap s → step cap s a = .ok s' → Reachable cap s'

def runActs (cap : Nat) : State → List Act → Outcome Unit State
  | s, [] => .ok s
  | s, a :: as =>
    match step cap s a with
    | .ok s' => runActs cap s' as
    | o => o

end Verif.ReadChan
