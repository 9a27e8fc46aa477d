import Verif.Model.Go
/-!
# Waiting for a state: session_state.go:79-120

Any number of `WaitFor` calls and of `Set` calls.  States are numbers.  `Set` runs under `changeChanLocker`, but
`Load` does not take it: a waiter can see the new state before the channel is closed.
Simplification: the loop over `states` is one step with `Load`.
-/
namespace Verif.StateWait

/-- Where a `WaitFor` call is. -/
inductive PC where
  /-- at the top of the loop (session_state.go:80) -/
  | top
  /-- it has read `changeChan` (session_state.go:82-84) -/
  | gotChan (c : Nat)
  /-- in the `select` (session_state.go:91-95) with the state it loaded -/
  | waiting (c : Nat) (loaded : Nat)
  | returned (result : Nat)
  deriving DecidableEq, Repr

structure Waiter where
  wanted : List Nat
  /-- its context has ended -/
  ctx : Bool
  pc : PC
  deriving DecidableEq, Repr

structure State where
  state : Nat
  /-- `changeChan`; the channels with smaller numbers are closed -/
  chan : Nat
  /-- a `Set` call is between the store and the replacement of the channel -/
  setting : Bool
  waiters : List Waiter
  deriving DecidableEq, Repr

def State.init : State := ⟨0, 0, false, []⟩

inductive Act where
  /-- `Set` up to the store (session_state.go:105-114) -/
  | setStore (x : Nat) (cancelOn : List Nat)
  /-- the rest of `Set` (session_state.go:116-117) -/
  | setSwap
  /-- a new `WaitFor` call -/
  | wait (wanted : List Nat)
  /-- the context of a call ends -/
  | endCtx (i : Nat)
  /-- the next step of a call; `byCtx` is the choice of `select` -/
  | waiter (i : Nat) (byCtx : Bool)
  deriving DecidableEq, Repr

/-- A step of `WaitFor` (session_state.go:79-97). -/
def waiterStep (s : State) (w : Waiter) (byCtx : Bool) : Outcome Unit PC :=
  match w.pc with
  | .top => if s.setting then .block else .ok (.gotChan s.chan)
  | .gotChan c => if s.state ∈ w.wanted then .ok (.returned s.state) else .ok (.waiting c s.state)
  | .waiting c loaded =>
    if byCtx then if w.ctx then .ok (.returned loaded) else .block
    else if c < s.chan then .ok .top else .block
  | .returned _ => .block

/-- One step. -/
def step (s : State) : Act → Outcome Unit State
  | .setStore x cancelOn =>
    if s.setting then .block
    else if s.state ∈ cancelOn then .ok s
    else .ok { s with state := x, setting := true }
  | .setSwap => if s.setting then .ok { s with chan := s.chan + 1, setting := false } else .block
  | .wait wanted => .ok { s with waiters := s.waiters ++ [⟨wanted, false, .top⟩] }
  | .endCtx i =>
    match s.waiters[i]? with
    | none => .block
    | some w => .ok { s with waiters := s.waiters.set i { w with ctx := true } }
  | .waiter i byCtx =>
    match s.waiters[i]? with
    | none => .block
    | some w =>
      match waiterStep s w byCtx with
      | .ok pc => .ok { s with waiters := s.waiters.set i { w with pc := pc } }
      | .err e => .err e
      | .panic => .panic
      | .block => .block

inductive Reachable : State → Prop
  | init : Reachable State.init
  | step {s s'} (a : Act) : Reachable s → step s a = .ok s' → Reachable s'

def runActs : State → List Act → Outcome Unit State
  | s, [] => .ok s
  | s, a :: as =>
    match step s a with
    | .ok s' => runActs s' as
    | .err e => .err e
    | .panic => .panic
    | .block => .block

end Verif.StateWait
