import Verif.Model.Go
/-!
# Two key exchangers: who sends, who answers, who waits (key_exchanger.go:433-523, 544-735)

Both sides of one connection, without the contents of messages (for these see `Verif.KX`): the loop that renews the local key with its
channel of success notifications and `skipKeyUpdateUntil`, the reader, and the goroutines that send answers.
Simplifications: both sides have the same `AnswersMode` (others are refused, C41) and accept the messages of each other; messages in
transit may overtake each other, and are lost only by `lose`; sending does not fail; the part of `Handle` under `kx.locker` is one step,
and so is `updateLocalKey` in the loop, which is under the same lock; that an interval has passed is not tracked: while
`skipKeyUpdateUntil` is set, the loop may skip or not; closed exchangers do nothing.
-/
namespace Verif.Handshake

/-- Where the loop is (key_exchanger.go:544-559, 625-649): before the check of `skipKeyUpdateUntil`, before `updateLocalKey`, before
the first message, in `retryUntilSuccessOrTimeout`, at the ticker. -/
inductive Main where
  | start
  | gen
  | send
  | waiting
  | idle
  deriving DecidableEq, Repr

/-- Where an answering goroutine is (key_exchanger.go:478-485, 713-728): before `nextLocalPublicKey == nil`, in `updateLocalKey` before
and after the check, before `skipKeyUpdateUntil` is set, before the message. -/
inductive Answer where
  | start
  | check
  | make
  | skip
  | send
  deriving DecidableEq, Repr

structure Side where
  /-- `localKeyCreatedAt`, `nextLocalKeyCreatedAt` -/
  created : Nat
  next : Nat
  /-- `nextLocalPublicKey != nil` -/
  hasKey : Bool
  main : Main
  /-- `nextKeyCreatedAt` of the waiting loop -/
  awaited : Nat
  /-- `successNotifyChan` (capacity 1) -/
  notify : Option Nat
  answers : List Answer
  /-- `skipKeyUpdateUntil` is set -/
  skip : Bool
  /-- ghost: the loop has skipped an update -/
  skipped : Bool
  /-- ghost: number of calls of `doneFunc` -/
  successes : Nat
  closed : Bool
  deriving DecidableEq, Repr

/-- `newKeyExchanger` (key_exchanger.go:201-244). -/
def Side.init : Side := ⟨0, 0, false, .start, 0, none, [], false, false, 0, false⟩

/-- Two sides and the messages on the way to each; a message is its `IsAnswer` flag. -/
structure Sys where
  a : Side
  b : Side
  toA : List Bool
  toB : List Bool
  deriving DecidableEq, Repr

def Sys.init : Sys := ⟨.init, .init, [], []⟩

/-- A side; `false` is a, `true` is b. -/
def Sys.side (s : Sys) : Bool → Side
  | false => s.a
  | true => s.b

def Sys.put (s : Sys) (x : Bool) (t : Side) : Sys :=
  match x with
  | false => { s with a := t }
  | true => { s with b := t }

/-- Messages on the way to a side. -/
def Sys.inbox (s : Sys) : Bool → List Bool
  | false => s.toA
  | true => s.toB

def Sys.setInbox (s : Sys) (x : Bool) (l : List Bool) : Sys :=
  match x with
  | false => { s with toA := l }
  | true => { s with toB := l }

/-- `sendPublicKey` of side `x` (key_exchanger.go:713-728). -/
def Sys.send (s : Sys) (x isAnswer : Bool) : Sys := s.setInbox (!x) (s.inbox (!x) ++ [isAnswer])

/-- The new key of `updateLocalKey` (key_exchanger.go:581-592); `now` is the clock. -/
def Side.newKey (t : Side) (now : Nat) : Side :=
  { t with next := if now ≤ t.created then t.created + 1 else now, hasKey := true }

/-- `updateLocalKey` (key_exchanger.go:561-599): nothing while an exchange is in progress. -/
def Side.updateLocalKey (t : Side) (now : Nat) : Side := if t.next > t.created then t else t.newKey now

/-- `Handle` under the lock (key_exchanger.go:473-485) with `sendSuccessNotifications` (490-523); the modes are 1 answer and wait,
2 answer, 3 disable.  A notification is dropped if one is in the channel. -/
def Side.handle (mode : Nat) (t : Side) (isAnswer : Bool) : Side :=
  let t1 := if isAnswer || mode != 1 then
      { t with created := t.next, notify := some (t.notify.getD t.next), successes := t.successes + 1 }
    else t
  if !isAnswer && mode != 3 then { t1 with answers := t.answers ++ [.start] } else t1

/-- The waiting loop takes what is in the channel (`checkSuccessNotifyChan`, key_exchanger.go:658-669, and the case at 678-685): it goes
back to the ticker if the notification is not older than the key that it waits for. -/
def Side.take (t : Side) : Side :=
  match t.notify with
  | some v => { t with notify := none, main := if v ≥ t.awaited then .idle else t.main }
  | none => t

/-- The next step of the loop in `KeyUpdateSendWait` (key_exchanger.go:625-649); `skips`: the clock is before `skipKeyUpdateUntil`.
The channel is emptied between the check and the new key. -/
def loopStep (s : Sys) (x skips : Bool) (now : Nat) : Option Sys :=
  let t := s.side x
  match t.main with
  | .start => some (s.put x (if t.skip && skips then { t with main := .idle, skipped := true } else { t with main := .gen, notify := none }))
  | .gen => some (s.put x { t.updateLocalKey now with main := .send, awaited := (t.updateLocalKey now).next })
  | .send => some ((s.put x { t with main := .waiting }).send x false)
  | _ => none

/-- The next step of answering goroutine `i` (key_exchanger.go:713-728). -/
def answerStep (s : Sys) (x : Bool) (i now : Nat) : Option Sys :=
  let t := s.side x
  match t.answers[i]? with
  | none => none
  | some .start => some (s.put x { t with answers := t.answers.set i (if t.hasKey then .send else .check) })
  | some .check => some (s.put x { t with answers := t.answers.set i (if t.next > t.created then .skip else .make) })
  | some .make => some (s.put x { t.newKey now with answers := t.answers.set i .skip })
  | some .skip => some (s.put x { t with skip := true, answers := t.answers.set i .send })
  | some .send => some ((s.put x { t with answers := t.answers.eraseIdx i }).send x true)

inductive Act where
  /-- the loop of side `x` goes on -/
  | loop (x skips : Bool) (now : Nat)
  /-- in `retryUntilSuccessOrTimeout`: send again, take a notification, give up (key_exchanger.go:673-702) -/
  | retry (x : Bool)
  | done (x : Bool)
  | timeout (x : Bool)
  /-- the ticker of `KeyUpdateInterval` (key_exchanger.go:555) -/
  | tick (x : Bool)
  /-- message `i` arrives at side `x` -/
  | recv (x : Bool) (i : Nat)
  | answer (x : Bool) (i now : Nat)
  /-- message `i` to side `x` is lost -/
  | lose (x : Bool) (i : Nat)
  deriving DecidableEq, Repr

/-- The side that acts. -/
def Act.actor : Act → Option Bool
  | .loop x _ _ | .retry x | .done x | .timeout x | .tick x | .answer x _ _ | .recv x _ => some x
  | .lose _ _ => none

/-- What an open side does. -/
def stepOpen (mode : Nat) (s : Sys) : Act → Option Sys
  | .loop x skips now => loopStep s x skips now
  | .retry x =>
    if (s.side x).main = .waiting then
      some (if (s.side x).take.main = .idle then s.put x (s.side x).take else (s.put x (s.side x).take).send x false)
    else none
  | .done x =>
    if (s.side x).main = .waiting ∧ (s.side x).notify ≠ none then some (s.put x (s.side x).take) else none
  | .timeout x =>
    if (s.side x).main = .waiting then
      some (s.put x (if (s.side x).take.main = .idle then (s.side x).take else { (s.side x).take with main := .idle, closed := true }))
    else none
  | .tick x => if (s.side x).main = .idle then some (s.put x { s.side x with main := .start }) else none
  | .recv x i =>
    match (s.inbox x)[i]? with
    | none => none
    | some m => some ((s.setInbox x ((s.inbox x).eraseIdx i)).put x ((s.side x).handle mode m))
  | .answer x i now => answerStep s x i now
  | .lose x i => if i < (s.inbox x).length then some (s.setInbox x ((s.inbox x).eraseIdx i)) else none

/-- Is the actor closed? -/
def Sys.stopped (s : Sys) (act : Act) : Bool :=
  match act.actor with
  | some x => (s.side x).closed
  | none => false

def step (mode : Nat) (s : Sys) (act : Act) : Option Sys := if s.stopped act then none else stepOpen mode s act

def run (mode : Nat) : Sys → List Act → Option Sys
  | s, [] => some s
  | s, a :: as => (step mode s a).bind (run mode · as)

inductive Reachable (mode : Nat) : Sys → Prop
  | init : Reachable mode .init
  | step {s s'} (a : Act) : Reachable mode s → step mode s a = some s' → Reachable mode s'

end Verif.Handshake
