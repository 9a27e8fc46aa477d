import Verif.Model.Go
/-!
# Delayed sending: session.go:1574-1851, 2020-2042, 2231-2260, send_info.go

A transition system of one session with a send delay.  Threads: any number of `WriteMessageAsync` calls,
holders of `*SendInfo`, the thread which runs `onConnect` and then becomes the delayed sender loop ("main"),
and the one successful `Close` ("closer").  `SendInfo`s are heap objects (numbers), reused through a
`sync.Pool`, which may give back any pooled one, make a new one, or drop one at any time.

A step is one atomic action: a critical section of `delayedWriteBufLocker`, one atomic counter operation, one
channel operation, one backend write.  A panic is the result `err` with its cause.

Simplifications: messages are given in wire form; the timer may fire at any time the loop waits; errors
of `sendMessages` before its last check of the state (no key, too big) are one step `refuse` that may happen at
any time; a `SendInfo` which only reports an error (session.go:1596-1600, 1611-1616) is acquired and
closed in one step; `SendInfo.N` is left out; the `select` and the decrement of `Release` are one step; `Err` is set in
the step in which `sendMessages` returns; `nextSendID` (shared by all sessions) only counts the `SendInfo`s of this
one; the change of state, the closing of `isEstablishedChan` and the start of the flush in `onConnect` are one step.
-/
namespace Verif.DelayedSend

/-- `SendInfo` (send_info.go:12-27); `closed` is the state of the channel `c`. `batch` is a ghost: the number
of the packet it is about. -/
structure Info where
  refs : Int
  busy : Bool
  closed : Bool
  /-- `Err != nil` -/
  err : Bool
  sendID : Nat
  batch : Nat
  deriving DecidableEq, Repr

/-- Where `sendDelayedNow` (session.go:1738-1774) is. -/
inductive Flush where
  /-- new `SendInfo` acquired (session.go:1746) -/
  | acquired (n : Nat)
  /-- after the swap (session.go:1752-1755) -/
  | swapped (x : Nat) (msgs : List Bytes)
  /-- `isDone()` was false (session.go:1965) -/
  | checked (x : Nat) (msgs : List Bytes)
  /-- `sendMessages` returned; was it successful? -/
  | wrote (x : Nat) (msgs : List Bytes) (ok : Bool)
  /-- after `close(oldSendInfo.c)` (session.go:1768) -/
  | ended (x : Nat) (msgs : List Bytes)
  deriving DecidableEq, Repr

/-- The thread of `onConnect` and `delayedSenderLoop`. -/
inductive Main where
  /-- not connected yet -/
  | before
  /-- in the flush loop of `onConnect` (session.go:2033-2038) -/
  | connecting (f : Flush)
  /-- waiting in the `select` (session.go:1818-1831) -/
  | idle
  /-- received a `SendInfo` (session.go:1819) -/
  | got (x : Nat)
  /-- in `sendDelayedNow` (session.go:1833), to release `d` afterwards (session.go:1820) -/
  | flush (d : Option Nat) (f : Flush)
  /-- before the deferred `Release` -/
  | leaving (x : Nat)
  /-- ended, channel closed (session.go:1812-1814) -/
  | exited
  deriving DecidableEq, Repr

/-- After the flush: the deferred `Release`, if there is one. -/
def Main.after : Option Nat → Main
  | none => .idle
  | some x => .leaving x

/-- The thread of the successful `Close` (session.go:2231-2260). -/
inductive Closer where
  | none
  | flush (f : Flush)
  | over
  deriving DecidableEq, Repr

/-- A `WriteMessageAsync` call that has not returned. -/
inductive Writer where
  /-- about to enter the critical section of `writeMessageAsync` again -/
  | retry (m : Bytes)
  /-- about to increment the counter of `x` in `waitForSend` (session.go:1642) -/
  | full (x : Nat) (m : Bytes)
  /-- about to send `x` to `sendDelayedNowChan` (session.go:1645-1648) -/
  | poking (x : Nat) (m : Bytes) (first : Bool)
  /-- in the loop of `waitForSend` (session.go:1663-1690) -/
  | waiting (x : Nat) (m : Bytes)
  /-- about to increment the counter of `x` again (session.go:1688) -/
  | again (x : Nat) (m : Bytes)
  deriving DecidableEq, Repr

/-- An owner of a returned `*SendInfo`.  `idx` (ghost): number of the accepted message it is for; `none` if
the `SendInfo` only reports an error or is for a fragmented message. -/
structure User where
  info : Nat
  idx : Option Nat
  /-- in `SendNowAndWait` (send_info.go:132-138), before the channel operation -/
  sendNow : Bool
  deriving DecidableEq, Repr

/-- What a caller learned (ghost): message, error, and whether its wait ended because of `Done()`. -/
structure Ret where
  idx : Option Nat
  err : Bool
  viaDone : Bool
  deriving DecidableEq, Repr

structure Cfg where
  /-- `GetEstablishedPacketSize()` -/
  limit : Nat
  /-- `EnableFragmentation` -/
  frag : Bool

structure State where
  infos : Nat → Info
  next : Nat
  pool : List Nat
  /-- `nextSendID` -/
  ids : Nat
  /-- `delayedSendInfo` -/
  cur : Nat
  /-- `delayedWriteBuf`: the messages in it -/
  buf : List Bytes
  /-- the session state is Closing or Closed -/
  done : Bool
  /-- `sess.ctx` is cancelled -/
  ctx : Bool
  main : Main
  /-- `lastSendID` (session.go:1815) -/
  last : Nat
  closer : Closer
  writers : List Writer
  users : List User
  /-- fragmented messages being sent (session.go:1503-1508) -/
  frags : List Nat
  /-- ghost: all messages accepted so far, with the number of their packet -/
  accepted : List (Nat × Bytes)
  /-- ghost: number of swaps so far -/
  swaps : Nat
  /-- ghost: result of a packet -/
  status : Nat → Option Bool
  /-- ghost: packets the backend accepted, in order: number and messages -/
  wire : List (Nat × List Bytes)
  /-- ghost: results seen by callers -/
  rets : List Ret

/-- Causes of a panic. -/
inductive Crash where
  /-- `AcquireSendInfo`: busy (send_info.go:55-57) -/
  | acquireBusy
  /-- `Release` of a non-finished `SendInfo` (send_info.go:112) -/
  | unfinishedRelease
  /-- negative reference count (send_info.go:118-121) -/
  | negative
  /-- `Put` of a `SendInfo` that is not busy (send_info.go:67-70) -/
  | putNotBusy
  /-- reference count 1 after an increment (session.go:1719, send_info.go:133) -/
  | notReferenced
  /-- `close` of a closed channel -/
  | doubleClose
  /-- send on the closed channel `sendDelayedNowChan` (send_info.go:136) -/
  | closedChannel
  deriving DecidableEq, Repr

/-- Heap update. -/
def setInfo (infos : Nat → Info) (i : Nat) (v : Info) : Nat → Info := fun j => if j = i then v else infos j

/-- A started session before `onConnect` (session.go:622): `SendInfo` number 0 is the current one.  The
`closed` of a `SendInfo` not allocated yet means nothing: `acquire` makes a new channel. -/
def State.init : State :=
  { infos := setInfo (fun _ => ⟨0, false, true, false, 0, 0⟩) 0 ⟨1, true, false, false, 1, 0⟩, next := 1, pool := [],
    ids := 1, cur := 0, buf := [], done := false, ctx := false, main := .before, last := 0, closer := .none,
    writers := [], users := [], frags := [], accepted := [], swaps := 0, status := fun _ => none, wire := [],
    rets := [] }

/-- `AcquireSendInfo` (send_info.go:53-64); `reuse` is what `sync.Pool.Get` gives. -/
def acquire (s : State) (reuse : Option Nat) : Outcome Crash (State × Nat) :=
  match reuse with
  | none =>
    let i := s.infos s.next
    .ok ({ s with next := s.next + 1, ids := s.ids + 1
                  infos := setInfo s.infos s.next ⟨i.refs + 1, true, false, i.err, s.ids + 1, i.batch⟩ }, s.next)
  | some n =>
    if n ∈ s.pool then
      let i := s.infos n
      if i.busy then .err .acquireBusy
      else .ok ({ s with pool := s.pool.erase n, ids := s.ids + 1
                         infos := setInfo s.infos n ⟨i.refs + 1, true, false, i.err, s.ids + 1, i.batch⟩ }, n)
    else .block

/-- `Release` (send_info.go:107-123) and `Put` (send_info.go:66-74). -/
def release (s : State) (x : Nat) : Outcome Crash State :=
  let i := s.infos x
  if i.closed = false ∧ s.ctx = false then .err .unfinishedRelease
  else
    let r := i.refs - 1
    if r > 0 then .ok { s with infos := setInfo s.infos x { i with refs := r } }
    else if r < 0 then .err .negative
    else if i.busy = false then .err .putNotBusy
    else .ok { s with infos := setInfo s.infos x { i with refs := 0, busy := false, err := false }
                      pool := x :: s.pool }

/-- A `SendInfo` which reports an error: acquired, `Err` set, `c` closed. -/
def acquireError (s : State) (reuse : Option Nat) : Outcome Crash (State × Nat) :=
  match acquire s reuse with
  | .ok (s, n) => .ok ({ s with infos := setInfo s.infos n { s.infos n with err := true, closed := true } }, n)
  | x => x

/-- Actions of a flush. -/
inductive FAct where
  | swap
  /-- `sendMessages` fails before its last check -/
  | refuse
  /-- the check `sess.isDone()` (session.go:1965) -/
  | check
  /-- `backend.Write`, with its success -/
  | write (ok : Bool)
  | close
  | release
  deriving DecidableEq, Repr

/-- Remaining part of a flush: running, or over (was the buffer empty? and the `sendID`). -/
inductive FRes where
  | running (f : Flush)
  | over (empty : Bool) (sendID : Nat)

/-- The result of `sendMessages` for the swapped buffer. -/
def setResult (s : State) (x : Nat) (ok : Bool) : State :=
  { s with infos := setInfo s.infos x { s.infos x with err := !ok }
           status := fun b => if b = (s.infos x).batch then some ok else s.status b }

/-- One step of `sendDelayedNow` (session.go:1738-1774). -/
def flushStep (s : State) : Flush → FAct → Outcome Crash (State × FRes)
  | .acquired n, .swap =>
    .ok ({ s with cur := n, buf := [], swaps := s.swaps + 1
                  infos := setInfo s.infos n { s.infos n with batch := s.swaps + 1 } }, .running (.swapped s.cur s.buf))
  | .swapped x msgs, .refuse =>
    if msgs = [] then .block else .ok (setResult s x false, .running (.wrote x msgs false))
  | .swapped x msgs, .check =>
    if msgs = [] then .block
    else if s.done then .ok (setResult s x false, .running (.wrote x msgs false))
    else .ok (s, .running (.checked x msgs))
  | .checked x msgs, .write ok =>
    let s := setResult s x ok
    .ok ({ s with wire := if ok then s.wire ++ [((s.infos x).batch, msgs)] else s.wire }, .running (.wrote x msgs ok))
  | .swapped x msgs, .close =>
    if msgs ≠ [] then .block
    else if (s.infos x).closed then .err .doubleClose
    else .ok ({ s with infos := setInfo s.infos x { s.infos x with closed := true } }, .running (.ended x msgs))
  | .wrote x msgs _, .close =>
    if (s.infos x).closed then .err .doubleClose
    else .ok ({ s with infos := setInfo s.infos x { s.infos x with closed := true } }, .running (.ended x msgs))
  | .ended x msgs, .release =>
    match release s x with
    | .ok s' => .ok (s', .over msgs.isEmpty (s.infos x).sendID)
    | .err e => .err e
    | .panic => .panic
    | .block => .block
  | _, _ => .block

inductive Act where
  /-- `WriteMessageAsync`, or a retry of the `i`-th unfinished call, passes the critical section of
  `writeMessageAsync` (session.go:1607-1627) -/
  | write (m : Bytes) (reuse : Option Nat)
  | retry (i : Nat) (reuse : Option Nat)
  /-- `WriteMessageAsync` is refused because of the cancelled context (session.go:1596-1600) -/
  | refused (reuse : Option Nat)
  /-- `incRefCount` in `waitForSend` -/
  | inc (i : Nat) (reuse : Option Nat)
  /-- the channel operation in `waitForSend`; with or without a receiver -/
  | poke (i : Nat) (handoff : Bool) (reuse : Option Nat)
  /-- the loop of `waitForSend` ends -/
  | wake (i : Nat)
  /-- the ticker fires and the buffer is not empty -/
  | tick (i : Nat)
  /-- `SendNowAndWait` of user `i`: increment; then the channel operation -/
  | sendNow (i : Nat)
  | sendNowChan (i : Nat)
  /-- user `i` reads the result and calls `Release` -/
  | userRelease (i : Nat)
  /-- `onConnect` -/
  | connect (reuse : Option Nat)
  /-- the timer fires -/
  | timer (reuse : Option Nat)
  /-- the loop handles the received `SendInfo` -/
  | handle (reuse : Option Nat)
  /-- a step of the flush of the main thread; `reuse` for the next flush of `onConnect` -/
  | mainFlush (a : FAct) (reuse : Option Nat)
  /-- the deferred `Release` -/
  | mainRelease
  /-- the loop sees the cancelled context -/
  | mainExit
  /-- `Close` -/
  | close (reuse : Option Nat)
  | closerFlush (a : FAct) (reuse : Option Nat)
  /-- the context is cancelled for another reason: parent context, time-out of `startClosing` -/
  | cancel
  /-- the session becomes Closing or Closed for another reason -/
  | setDone
  /-- a fragmented message (session.go:1469-1510) begins; its goroutine ends -/
  | fragment (reuse : Option Nat)
  | fragmentDone (i : Nat) (err : Bool)
  /-- the `sync.Pool` drops a `SendInfo` -/
  | gc (x : Nat)
  deriving DecidableEq, Repr

/-- Total size of the buffer. -/
def bufSize (buf : List Bytes) : Nat := (buf.map List.length).sum

/-- The critical section of `writeMessageAsync` (session.go:1607-1627) with `appendToDelayedWriteBuffer`
(session.go:1699-1736); 44 = `messagesContainerHeadersSize`. -/
def tryAppend (cfg : Cfg) (s : State) (m : Bytes) (reuse : Option Nat) : Outcome Crash State :=
  if s.main = .before then .block
  else if 44 + bufSize s.buf + m.length > cfg.limit then
    if s.buf = [] then
      match acquireError s reuse with
      | .ok (s, n) => .ok { s with users := s.users ++ [⟨n, none, false⟩] }
      | .err e => .err e
      | .panic => .panic
      | .block => .block
    else .ok { s with writers := s.writers ++ [.full s.cur m] }
  else
    let i := s.infos s.cur
    if i.refs + 1 = 1 then .err .notReferenced
    else .ok { s with infos := setInfo s.infos s.cur { i with refs := i.refs + 1 }
                      buf := s.buf ++ [m], users := s.users ++ [⟨s.cur, some s.accepted.length, false⟩]
                      accepted := s.accepted ++ [(s.swaps, m)] }

/-- `waitForSend` gives up (session.go:1652-1658): a new `SendInfo` with an error, which nobody gets, and
`writeMessageAsync` tries again. -/
def giveUp (s : State) (i : Nat) (m : Bytes) (reuse : Option Nat) : Outcome Crash State :=
  match acquireError s reuse with
  | .ok (s, _) => .ok { s with writers := s.writers.eraseIdx i ++ [.retry m] }
  | .err e => .err e
  | .panic => .panic
  | .block => .block

/-- Increment without looking at the result. -/
def incRef (s : State) (x : Nat) : State :=
  { s with infos := setInfo s.infos x { s.infos x with refs := (s.infos x).refs + 1 } }

/-- A flush begins (session.go:1746). -/
def begin (s : State) (reuse : Option Nat) (k : State → Nat → State) : Outcome Crash State :=
  match acquire s reuse with
  | .ok (s, n) => .ok (k s n)
  | .err e => .err e
  | .panic => .panic
  | .block => .block

/-- One step; `block` means that it cannot happen now. -/
def step (cfg : Cfg) (s : State) : Act → Outcome Crash State
  | .write m reuse => tryAppend cfg s m reuse
  | .retry i reuse =>
    match s.writers[i]? with
    | some (.retry m) => tryAppend cfg { s with writers := s.writers.eraseIdx i } m reuse
    | _ => .block
  | .refused reuse =>
    if s.ctx then
      match acquireError s reuse with
      | .ok (s, n) => .ok { s with users := s.users ++ [⟨n, none, false⟩] }
      | .err e => .err e
      | .panic => .panic
      | .block => .block
    else .block
  | .inc i reuse =>
    match s.writers[i]? with
    | some (.full x m) =>
      if (s.infos x).refs + 1 = 1 then giveUp (incRef s x) i m reuse
      else .ok { incRef s x with writers := s.writers.eraseIdx i ++ [.poking x m true] }
    | some (.again x m) =>
      if (s.infos x).refs + 1 = 1 then .ok { incRef s x with writers := s.writers.eraseIdx i ++ [.waiting x m] }
      else .ok { incRef s x with writers := s.writers.eraseIdx i ++ [.poking x m false] }
    | _ => .block
  | .poke i handoff reuse =>
    match s.writers[i]? with
    | some (.poking x m first) =>
      if s.main = .exited then
        if first then giveUp s i m reuse
        else .ok { s with writers := s.writers.eraseIdx i ++ [.waiting x m] }
      else if handoff then
        if s.main = .idle then
          if first ∧ s.done then
            giveUp { s with main := .got x } i m reuse
          else .ok { s with main := .got x, writers := s.writers.eraseIdx i ++ [.waiting x m] }
        else .block
      else if first ∧ s.done then giveUp s i m reuse
      else .ok { s with writers := s.writers.eraseIdx i ++ [.waiting x m] }
    | _ => .block
  | .wake i =>
    match s.writers[i]? with
    | some (.waiting x m) =>
      if s.ctx ∨ (s.infos x).closed ∨ s.buf = [] then
        .ok { s with writers := s.writers.eraseIdx i ++ [.retry m] }
      else .block
    | _ => .block
  | .tick i =>
    match s.writers[i]? with
    | some (.waiting x m) =>
      if s.buf = [] then .block else .ok { s with writers := s.writers.eraseIdx i ++ [.again x m] }
    | _ => .block
  | .sendNow i =>
    match s.users[i]? with
    | some u =>
      if u.sendNow then .block
      else if (s.infos u.info).refs + 1 = 1 then .err .notReferenced
      else .ok { incRef s u.info with users := s.users.eraseIdx i ++ [{ u with sendNow := true }] }
    | none => .block
  | .sendNowChan i =>
    match s.users[i]? with
    | some u =>
      if u.sendNow then
        if s.main = .exited then .err .closedChannel
        else if s.main = .idle then
          .ok { s with main := .got u.info, users := s.users.eraseIdx i ++ [{ u with sendNow := false }] }
        else .block
      else .block
    | none => .block
  | .userRelease i =>
    match s.users[i]? with
    | some u =>
      if u.sendNow then .block
      else if (s.infos u.info).closed ∨ s.ctx then
        release { s with users := s.users.eraseIdx i
                         rets := s.rets ++ [⟨u.idx, (s.infos u.info).err, (s.infos u.info).closed⟩] } u.info
      else .block
    | none => .block
  | .connect reuse =>
    if s.main = .before then begin s reuse fun s n => { s with main := .connecting (.acquired n) } else .block
  | .timer reuse =>
    if s.main = .idle then begin s reuse fun s n => { s with main := .flush none (.acquired n) } else .block
  | .handle reuse =>
    match s.main with
    | .got x =>
      if (s.infos x).sendID ≤ s.last then .ok { s with main := .leaving x }
      else begin s reuse fun s n => { s with main := .flush (some x) (.acquired n) }
    | _ => .block
  | .mainFlush a reuse =>
    match s.main with
    | .connecting f =>
      match flushStep s f a with
      | .ok (s, .running f) => .ok { s with main := .connecting f }
      | .ok (s, .over true _) => .ok { s with main := .idle }
      | .ok (s, .over false _) =>
        begin { s with main := .idle } reuse fun s n => { s with main := .connecting (.acquired n) }
      | .err e => .err e
      | .panic => .panic
      | .block => .block
    | .flush d f =>
      match flushStep s f a with
      | .ok (s, .running f) => .ok { s with main := .flush d f }
      | .ok (s, .over _ id) =>
        .ok { s with last := id, main := Main.after d }
      | .err e => .err e
      | .panic => .panic
      | .block => .block
    | _ => .block
  | .mainRelease =>
    match s.main with
    | .leaving x => release { s with main := .idle } x
    | _ => .block
  | .mainExit =>
    if s.main = .idle ∧ s.ctx then .ok { s with main := .exited } else .block
  | .close reuse =>
    if s.done then .block
    else begin { s with done := true } reuse fun s n => { s with closer := .flush (.acquired n) }
  | .closerFlush a reuse =>
    match s.closer with
    | .flush f =>
      match flushStep s f a with
      | .ok (s, .running f) => .ok { s with closer := .flush f }
      | .ok (s, .over true _) => .ok { s with closer := .over, ctx := true }
      | .ok (s, .over false _) =>
        begin { s with closer := .over } reuse fun s n => { s with closer := .flush (.acquired n) }
      | .err e => .err e
      | .panic => .panic
      | .block => .block
    | _ => .block
  | .cancel => .ok { s with ctx := true }
  | .setDone => .ok { s with done := true }
  | .fragment reuse =>
    if cfg.frag then
      match acquire s reuse with
      | .ok (s, n) => .ok { s with users := s.users ++ [⟨n, none, false⟩], frags := s.frags ++ [n] }
      | .err e => .err e
      | .panic => .panic
      | .block => .block
    else .block
  | .fragmentDone i err =>
    match s.frags[i]? with
    | some x =>
      if (s.infos x).closed then .err .doubleClose
      else .ok { s with infos := setInfo s.infos x { s.infos x with err := err, closed := true }
                        frags := s.frags.eraseIdx i }
    | none => .block
  | .gc x => if x ∈ s.pool then .ok { s with pool := s.pool.erase x } else .block

/-- States of a session. -/
inductive Reachable (cfg : Cfg) : State → Prop
  | init : Reachable cfg State.init
  | step {s s'} (a : Act) : Reachable cfg s → step cfg s a = .ok s' → Reachable cfg s'

/-- A sequence of steps. -/
def runActs (cfg : Cfg) : State → List Act → Outcome Crash State
  | s, [] => .ok s
  | s, a :: as =>
    match step cfg s a with
    | .ok s' => runActs cfg s' as
    | .err e => .err e
    | .panic => .panic
    | .block => .block

end Verif.DelayedSend
