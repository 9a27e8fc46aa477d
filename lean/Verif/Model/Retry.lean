import Verif.Model.Go
/-!
# Repeating requests of keys (key_exchanger.go:201-244, 544-559, 625-711)

The first key update of an exchanger with its two timers, from the first message until the loop is at its ticker.  `Verif.KeyTimer` has
later updates and what answers do to keys; here the ticker of `RetryInterval` is tracked, sending takes time, and options may be negative.

Simplifications: time is counted in units (nanoseconds), of which one passes at a time; a notification that does not count (of an older
key) is not modelled, the loop drops it and waits on; `skipKeyUpdateUntil` is zero; `makeSuccessNotifyChanEmpty` and `updateLocalKey`
have been done and have not failed.
-/
namespace Verif.Retry

/-- `KeyExchangerOptions` (key_exchanger.go:122-176): the three durations, in units. -/
structure Opts where
  interval : Int
  retry : Int
  timeout : Int
  deriving DecidableEq, Repr

/-- `newKeyExchanger`, the default values (key_exchanger.go:20-32, 220-231). -/
def resolve (o : Opts) : Opts where
  interval := if o.interval = 0 then 60000000000 else o.interval
  retry := if o.retry = 0 then 1000000000 else o.retry
  timeout := if o.timeout = 0 then 60000000000 else o.timeout

/-- How an update ended (key_exchanger.go:673-702). -/
inductive Res where
  | success
  | timeout
  | stopped
  deriving DecidableEq, Repr

/-- Where the loop is: in the first `mustSendPublicKey` (644), in the `select` (674), in the `mustSendPublicKey` of a retry (692), back in
`loop` before `NewTicker` (547), at the ticker (552), or the program has crashed. -/
inductive Phase where
  | first
  | waiting
  | sending
  | back
  | idle
  | crashed
  deriving DecidableEq, Repr

structure St where
  now : Nat
  phase : Phase
  /-- when the timers were made -/
  begun : Nat
  /-- when `timeoutTimer` fires, and its channel -/
  timer : Option Nat
  timerC : Bool
  /-- when `retryTicker` fires next, and its channel (capacity 1) -/
  tickAt : Option Nat
  tickC : Bool
  /-- a notification that counts is in `successNotifyChan`; the channel is closed -/
  note : Bool
  closedC : Bool
  /-- `kx.ctx` is cancelled -/
  ctx : Bool
  /-- ghost: when the messages were sent, the newest first -/
  sends : List Nat
  res : Option Res
  /-- ghost: errors that were passed to `errFunc` -/
  errors : Nat
  deriving DecidableEq, Repr

/-- `KeyUpdateSendWait` at `mustSendPublicKey(false)` (key_exchanger.go:643-644). -/
def St.init : St := ⟨0, .first, 0, none, false, none, false, false, false, false, [0], none, 0⟩

/-- One unit of time passes: the timer fires once; the ticker drops a tick if there is one in its channel (package time). -/
def St.pass (o : Opts) (s : St) : St :=
  { s with
    now := s.now + 1
    timer := if s.timer.any (· ≤ s.now + 1) then none else s.timer
    timerC := s.timerC || s.timer.any (· ≤ s.now + 1)
    tickAt := if s.tickAt.any (· ≤ s.now + 1) then s.tickAt.map (· + o.retry.toNat) else s.tickAt
    tickC := s.tickC || s.tickAt.any (· ≤ s.now + 1) }

/-- `retryUntilSuccessOrTimeout` makes its timers (key_exchanger.go:670-671): a timer with a duration that is not positive fires at once, a
ticker with such a duration panics. -/
def St.begin (o : Opts) (s : St) : St :=
  if o.retry ≤ 0 then { s with phase := .crashed }
  else { s with phase := .waiting, begun := s.now,
                timer := if o.timeout ≤ 0 then none else some (s.now + o.timeout.toNat), timerC := decide (o.timeout ≤ 0),
                tickAt := some (s.now + o.retry.toNat), tickC := false }

/-- The update is over, the ticker is stopped and the timer forgotten. -/
def St.over (s : St) (r : Res) : St :=
  { s with phase := .back, res := some r, timer := none, timerC := false, tickAt := none, tickC := false }

/-- `checkSuccessNotifyChan` (key_exchanger.go:656-669): something is in the channel, or it is closed. -/
def St.seen (s : St) : Bool := s.note || s.closedC

inductive Act where
  | pass
  /-- `mustSendPublicKey` returns (key_exchanger.go:705-711); a failure closes the exchanger and is reported -/
  | sent (ok : Bool)
  /-- the cases of the `select` (key_exchanger.go:674-702) -/
  | stop
  | success
  | retry
  | timeout
  /-- `loop` goes on (key_exchanger.go:547) -/
  | loop
  /-- `Handle` sends a notification (key_exchanger.go:511-512) -/
  | notify
  /-- something closes the exchanger, and the goroutine of `newKeyExchanger` closes the channel (key_exchanger.go:236-240) -/
  | cancel
  | close
  deriving DecidableEq, Repr

/-- Steps with the options `o`, which are resolved. -/
def step (o : Opts) (s : St) : Act → Option St
  | .pass => if s.phase = .crashed then none else some (s.pass o)
  | .sent ok =>
    let s1 : St := if ok then s else { s with ctx := true, errors := s.errors + 1 }
    if s.phase = .first then some (s1.begin o)
    else if s.phase = .sending then some { s1 with phase := .waiting }
    else none
  | .stop => if s.phase = .waiting ∧ s.ctx = true then some (s.over .stopped) else none
  | .success =>
    if s.phase = .waiting ∧ s.seen = true then some ({ s with note := false }.over (if s.note then .success else .stopped)) else none
  | .retry =>
    if s.phase = .waiting ∧ s.tickC = true then
      some (if s.seen then ({ s with tickC := false, note := false } : St).over (if s.note then .success else .stopped)
        else { s with tickC := false, phase := .sending, sends := s.now :: s.sends })
    else none
  | .timeout =>
    if s.phase = .waiting ∧ s.timerC = true then
      some (if s.seen then ({ s with note := false } : St).over (if s.note then .success else .stopped)
        else { s.over .timeout with ctx := true, errors := s.errors + 1 })
    else none
  | .loop => if s.phase = .back then some { s with phase := if o.interval ≤ 0 then .crashed else .idle } else none
  | .notify => if s.phase = .crashed ∨ s.ctx = true then none else some { s with note := true }
  | .cancel => if s.phase = .crashed then none else some { s with ctx := true }
  | .close => if s.phase = .crashed ∨ s.ctx = false then none else some { s with closedC := true }

def run (o : Opts) : St → List Act → Option St
  | s, [] => some s
  | s, a :: as => (step o s a).bind (run o · as)

end Verif.Retry
