import Verif.Model.Headers
/-!
# `GetEstablishedPayloadSize` and `GetEstablishedPacketSize`: session.go:558-600, 609-627, 2020-2028, 2058-2067, 2083-2085, 2231-2260

The steps of a session which change what these two methods look at, and any number of calls of them at any time.

Simplifications:
* `finalize` of the negotiator (negotiator.go:222-229) and `onConnect` run once (C55, C62), one after the other.
* `cancel` stands for every end of the context: the functions `startClosing` and `readerLoopCleanup`, or that of the user.
* A nil `ctx` makes `ctx.Done()` panic.
-/
namespace Verif.SizeGet
open Verif.Headers

/-- session_state.go:12-43. -/
inductive Phase where
  | new | closed | keyExchanging | negotiating | established | paused | closing
  deriving DecidableEq, Repr

/-- A call of `GetEstablishedPayloadSize`. -/
inductive Call where
  /-- at line 589 -/
  | start
  /-- at line 591 -/
  | known
  /-- at line 594 -/
  | waiting
  | ret (v : W32)
  | panic
  deriving DecidableEq, Repr

/-- How far `finalize` and `onConnect` are. -/
inductive Fin where
  | no
  /-- after `setEstablishedPayloadSize` (negotiator.go:226) -/
  | sized
  /-- after `setState` (session.go:2024) -/
  | stated
  /-- after `close(sess.isEstablished)` (session.go:2028) -/
  | done
  deriving DecidableEq, Repr

structure State where
  phase : Phase
  /-- `sess.ctx`: nil, or whether it is done -/
  ctx : Option Bool
  /-- `establishedPayloadSize` -/
  size : W32
  fin : Fin
  calls : List Call
  deriving DecidableEq, Repr

/-- `init` (session.go:490). -/
def State.init (limit : W32) : State := ⟨.new, none, limit, .no, []⟩

inductive Act where
  /-- `Start` (session.go:611-617) -/
  | start
  /-- `startKeyExchange` (session.go:2084) -/
  | exchange
  /-- `onKeyExchangeSuccess` (session.go:2063) -/
  | exchanged
  /-- `setEstablishedPayloadSize` in `finalize` -/
  | setSize (e : W32)
  /-- `setState` in `onConnect`; right away, if there is no negotiation -/
  | connect
  /-- `close(sess.isEstablished)` in `onConnect` -/
  | connected
  /-- `SetPause` -/
  | pause (on : Bool)
  /-- `setState(SessionStateClosing, SessionStateClosed)` -/
  | close
  | cancel
  /-- `setState(SessionStateClosed)` in `readerLoopCleanup` (session.go:840) -/
  | closed
  /-- a call begins -/
  | get
  /-- the next step of call `i`; `zero`: the `select` takes `ctx.Done()` if both cases are ready -/
  | go (i : Nat) (zero : Bool)
  deriving DecidableEq, Repr

/-- `setState` (session.go:349-353, session_state.go:103-119). -/
def State.set (s : State) (p : Phase) (cancelOn : List Phase) : State :=
  if s.phase ∈ cancelOn then s else { s with phase := p }

/-- `GetEstablishedPayloadSize` (session.go:588-600).  `none`: it waits, or has returned. -/
def callStep (s : State) (zero : Bool) : Call → Option Call
  | .start =>
    match s.phase with
    | .established | .closing => some .known
    | _ => some .waiting
  | .known => some (.ret s.size)
  | .waiting =>
    match s.ctx with
    | none => some .panic
    | some true => if s.fin = .done ∧ ¬ zero then some (.ret s.size) else some (.ret 0)
    | some false => if s.fin = .done then some (.ret s.size) else none
  | .ret _ | .panic => none

/-- `GetEstablishedPacketSize` (session.go:580-584) from what `GetEstablishedPayloadSize` has returned. -/
def packetSize (v : W32) : W32 := v + BitVec.ofNat 32 containerHeadersSize + BitVec.ofNat 32 messageHeadersSize

def step (s : State) : Act → Option State
  | .start => if s.ctx = none then some { s with ctx := some false } else none
  | .exchange =>
    if s.ctx ≠ none ∧ s.phase ∈ [.new, .closing, .closed] then some (s.set .keyExchanging [.closing, .closed]) else none
  | .exchanged =>
    if s.ctx = none ∨ s.fin ≠ .no then none
    else some (s.set .negotiating [.closed, .closing, .new, .established, .negotiating])
  | .setSize e => if s.ctx ≠ none ∧ s.fin = .no then some { s with size := e, fin := .sized } else none
  | .connect =>
    if s.ctx ≠ none ∧ s.phase ≠ .keyExchanging ∧ (s.fin = .no ∨ s.fin = .sized) then
      some { s.set .established [.closed, .closing, .new, .established] with fin := .stated }
    else none
  | .connected => if s.fin = .stated then some { s with fin := .done } else none
  | .pause on =>
    if on then if s.phase = .established then some { s with phase := .paused } else none
    else if s.phase = .paused then some { s with phase := .established } else none
  | .close => some (s.set .closing [.closed])
  | .cancel => if s.ctx = none then none else some { s with ctx := some true }
  | .closed => if s.ctx = none then none else some { s with phase := .closed }
  | .get => some { s with calls := s.calls ++ [.start] }
  | .go i zero =>
    match s.calls[i]? with
    | some c =>
      match callStep s zero c with
      | some c' => some { s with calls := s.calls.set i c' }
      | none => none
    | none => none

def run : State → List Act → Option State
  | s, [] => some s
  | s, a :: as =>
    match step s a with
    | some s' => run s' as
    | none => none

end Verif.SizeGet
