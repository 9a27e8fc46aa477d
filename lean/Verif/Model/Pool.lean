import Verif.Model.Go
/-!
# The pools of a session under concurrency: buffer_pool.go:71-123, message.go:213-255, 390-439, message_fragment_headers.go:24-101,
read_item.go, session.go:488-493, 900-948, 1047-1072, 1185-1263, 1380-1391, 1432-1467, 1512-1572, 1694-1773, 1853-1987, 2165-2180

Any number of goroutines take buffers, headers and read items from the pools of one session, write to them, hand them on and give
them back.  All objects are in one heap, so that two goroutines with the same object would see what the other one writes.

A goroutine is a function of the code written as a list of the operations on pooled objects; a step is one of them, and the steps
of all goroutines are interleaved in any way.  A function may return early anywhere inside of the function that has the `defer`s
(errors, ends of contexts, a flush with nothing to send; more than the code does).

Simplifications:
* `sync.Pool`: `Get` gives any object that was put in and not taken out, or a new one; it may forget objects at any time.
* What is written into an object is an arbitrary function (`comp`) of the data of the goroutine and of the objects that the code
  reads for it; lengths and capacities are in `Verif.Memory`.  `Reset` is left out: the contents of a recycled object are those
  which the last user left.
* `delayedWriteBufLocker` makes each of `append` and `swap` one step (session.go:1694-1698, 1752-1755); `SendInfo`s are in
  `Verif.DelayedSend`.
* One channel of read items stands for all of them; it has no limit here.
* The branch of the code that a call takes is chosen when it begins.
-/
namespace Verif.Pool

inductive Kind where
  | buf | msgHdr | contHdr | fragHdr | item
  deriving DecidableEq, Repr

structure Obj where
  kind : Kind
  busy : Bool
  /-- of buffers only -/
  refs : Int
  val : Bytes
  deriving DecidableEq, Repr

/-- Local variables of the functions. -/
inductive Name where
  /-- `hdr` (session.go:1384, 1451, 1537) -/
  | msgHdr
  /-- `buf` of `writeMessageSingle` (session.go:1556); `msgBuf` of `appendToDelayedWriteBuffer` (session.go:1707) -/
  | msgBuf
  /-- `containerHdr` (session.go:1226, 1874) -/
  | contHdr
  /-- `buf` of `sendMessages` (session.go:1883) -/
  | plain
  /-- `encrypted` (session.go:1924) -/
  | enc
  /-- `ivBuf` (session.go:1237, 1933) -/
  | iv
  /-- `buf` of `writeMessageFragment` (session.go:1523) -/
  | fragBuf
  /-- `fragmentHdr` (session.go:1528) -/
  | fragHdr
  /-- `nextBuf` (session.go:1747) -/
  | next
  /-- `buf` of `sendDelayedNow` (session.go:1751) -/
  | old
  /-- `item` (session.go:1056, 2167) -/
  | item
  deriving DecidableEq, Repr

inductive Instr where
  /-- take an object from its pool; with `defer …Release()`? -/
  | acq (n : Name) (k : Kind) (deferred : Bool)
  /-- write to it what is made of the data of the goroutine and the contents of `src` -/
  | fill (n : Name) (src : List Name)
  /-- `Bytes = Bytes[:0]` -/
  | clear (n : Name)
  /-- `appendToDelayedWriteBuffer` with this header, and the payload -/
  | append (n : Name)
  /-- `n` becomes `delayedWriteBuf`, whose old value goes to `m` -/
  | swap (n m : Name)
  /-- send into the channel -/
  | give (n : Name)
  /-- receive from the channel -/
  | take (n : Name)
  /-- the contents leave: `backend.Write`, or `copy` to the user of `Read` -/
  | out (n : Name)
  | release (n : Name)
  /-- a function with `defer`s begins -/
  | enter
  /-- it returns -/
  | exit
  deriving DecidableEq, Repr
open Instr

/-- `sendMessages` (session.go:1853-1987) of the bytes in `src`; `key`: is the packet encrypted? -/
def sendMessages (src : Name) (key : Bool) : List Instr :=
  [enter, acq .contHdr .contHdr true, fill .contHdr [src], acq .plain .buf true, fill .plain [.contHdr, src]] ++
    (if key then [acq .enc .buf true, acq .iv .buf true, fill .iv [.contHdr], fill .enc [.plain, .iv, .contHdr], out .enc, exit]
     else [out .plain, exit])

/-- `writeMessageSingle` (session.go:1546-1572); `src`: where the payload is, if in a buffer. -/
def writeMessageSingle (src : List Name) (key : Bool) : List Instr :=
  [enter, acq .msgBuf .buf true, fill .msgBuf (.msgHdr :: src)] ++ sendMessages .msgBuf key ++ [exit]

inductive Fn where
  /-- `WriteMessageSingle` (session.go:1380-1391), `WriteMessageAsync` without delay (session.go:1451-1464) -/
  | single (key : Bool)
  /-- `WriteMessageAsync` with a delay (session.go:1451-1467, 1574-1636, 1699-1735) -/
  | async
  /-- `writeMessageFragment` (session.go:1512-1544) -/
  | fragment
  /-- `sendDelayedNow` (session.go:1737-1773) -/
  | flush
  /-- `decrypt` (session.go:1185-1263) and the rest of the iteration (session.go:926-947), or its error path (session.go:1205-1214) -/
  | packet
  /-- the same when the packet is dropped for its ID (session.go:936-943): no `Release` -/
  | dropped
  /-- `processIncomingMessage` (session.go:1047-1072) -/
  | deliver
  /-- the same when there is no channel of this type (session.go:1066-1068) -/
  | unheard
  /-- `read` (session.go:2165-2180) -/
  | read
  /-- the same with a buffer that is too small (session.go:2171-2173) -/
  | readSmall
  deriving DecidableEq, Repr

def Fn.code : Fn → List Instr
  | .single key => [enter, acq .msgHdr .msgHdr true, fill .msgHdr []] ++ writeMessageSingle [] key ++ [exit]
  | .async => [enter, acq .msgHdr .msgHdr true, fill .msgHdr [], append .msgHdr, exit]
  | .fragment =>
    [enter, acq .fragBuf .buf true, acq .fragHdr .fragHdr false, fill .fragHdr [], fill .fragBuf [.fragHdr],
      acq .msgHdr .msgHdr true, fill .msgHdr [.fragBuf]] ++ writeMessageSingle [.fragBuf] true ++ [exit]
  | .flush => [acq .next .buf false, clear .next, swap .next .old] ++ sendMessages .old true ++ [release .old]
  | .packet => [acq .contHdr .contHdr false, fill .contHdr [], enter, acq .iv .buf true, fill .iv [.contHdr], exit, release .contHdr]
  | .dropped => [acq .contHdr .contHdr false, fill .contHdr [], enter, acq .iv .buf true, fill .iv [.contHdr], exit]
  | .deliver => [acq .item .item false, fill .item [], give .item]
  | .unheard => [acq .item .item false, fill .item []]
  | .read => [take .item, out .item, release .item]
  | .readSmall => [take .item]

/-- A call of a function with `defer`s. -/
structure Frame where
  /-- the variables at its begin -/
  saved : List Name
  /-- ghost: those of them which had been written -/
  known : List Name
  /-- to be released, the last one first -/
  deferred : List Name
  deriving DecidableEq, Repr

structure Task where
  fn : Fn
  code : List Instr
  env : List (Name × Nat)
  frames : List Frame
  /-- the data of the goroutine (payload, packet ID, keys), and what it has received with `swap` and `take` -/
  inp : Name → Bytes
  /-- what it has given to the backend, or to the user -/
  sent : List Bytes
  /-- ghost: the variables which it has written or received -/
  known : List Name

def Task.init (fn : Fn) (inp : Name → Bytes) : Task := ⟨fn, fn.code, [], [], inp, [], []⟩

structure State where
  heap : Nat → Obj
  /-- number of objects made -/
  count : Nat
  /-- objects in the pools -/
  free : List Nat
  /-- `delayedWriteBuf` -/
  cur : Nat
  /-- the read items in the channel -/
  queue : List Nat
  tasks : List Task
  /-- history: what was appended to the delayed buffers -/
  appended : List Bytes
  /-- history: what was in the delayed buffers when they were taken -/
  taken : List Bytes
  /-- history: what was sent into the channel, and received from it -/
  given : List Bytes
  received : List Bytes

/-- A new session has one buffer, empty (session.go:492-493). -/
def State.init : State :=
  ⟨fun _ => ⟨.buf, true, 1, []⟩, 1, [], 0, [], [], [], [], [], []⟩

inductive Act where
  | start (fn : Fn) (inp : Name → Bytes)
  /-- the next step of goroutine `i`; `choice`: the object that the pool gives, or a new one -/
  | go (i : Nat) (choice : Option Nat)
  /-- goroutine `i` returns from the function it is in -/
  | leave (i : Nat)
  /-- the pool forgets an object -/
  | forget (a : Nat)

def upd (h : Nat → Obj) (a : Nat) (o : Obj) : Nat → Obj := fun b => if b = a then o else h b

/-- Behind `Get`: the check, the flag and the count of references (buffer_pool.go:91-96, message.go:237-240, 407-410,
message_fragment_headers.go:48-51, read_item.go:40-43). -/
def seize (s : State) (a : Nat) : Outcome Unit (State × Nat) :=
  if (s.heap a).busy then .panic
  else
    let o := s.heap a
    .ok ({ s with heap := upd s.heap a { o with busy := true, refs := if o.kind = .buf then o.refs + 1 else o.refs } }, a)

def acquire (s : State) (k : Kind) : Option Nat → Outcome Unit (State × Nat)
  | none => seize { s with heap := upd s.heap s.count ⟨k, false, 0, []⟩, count := s.count + 1 } s.count
  | some a => if a ∈ s.free ∧ (s.heap a).kind = k then seize { s with free := s.free.erase a } a else .block

/-- `Release` (buffer_pool.go:109-123), `Put` (message.go:244-251, 416-423, message_fragment_headers.go:84-91, read_item.go:50-61;
`isOneTimeUse` is never set). -/
def release (s : State) (a : Nat) : Outcome Unit State :=
  let o := s.heap a
  if o.kind = .buf then
    if o.refs - 1 > 0 then .ok { s with heap := upd s.heap a { o with refs := o.refs - 1 } }
    else if o.refs - 1 < 0 ∨ ¬ o.busy then .panic
    else .ok { s with heap := upd s.heap a { o with refs := o.refs - 1, busy := false }, free := a :: s.free }
  else if ¬ o.busy then .panic
  else .ok { s with heap := upd s.heap a { o with busy := false }, free := a :: s.free }

def setVal (s : State) (a : Nat) (v : Bytes) : State := { s with heap := upd s.heap a { s.heap a with val := v } }

def setInp (f : Name → Bytes) (n : Name) (v : Bytes) : Name → Bytes := fun m => if m = n then v else f m

/-- Without a variable. -/
def without (env : List (Name × Nat)) (n : Name) : List (Name × Nat) := env.filter (fun p => p.1 != n)

def drop (l : List Name) (n : Name) : List Name := l.filter (fun m => m != n)

/-- The rest of the code from the next return on. -/
def toExit : Nat → List Instr → List Instr
  | _, [] => []
  | 0, exit :: c => exit :: c
  | d + 1, exit :: c => toExit d c
  | d, enter :: c => toExit (d + 1) c
  | d, _ :: c => toExit d c

/-- The next step of a goroutine. The use of a variable without a value is a panic. -/
def goTask (comp : Name → Bytes → List Bytes → Bytes) (s : State) (t : Task) (choice : Option Nat) : Outcome Unit (State × Task) :=
  match t.code with
  | [] => .block
  | acq n k deferred :: c =>
    match acquire s k choice with
    | .ok (s', a) =>
      let t' := { t with code := c, env := (n, a) :: t.env, known := drop t.known n }
      if deferred then
        match t.frames with
        | f :: fs => .ok (s', { t' with frames := { f with deferred := n :: f.deferred } :: fs })
        | [] => .panic
      else .ok (s', t')
    | .err e => .err e
    | .panic => .panic
    | .block => .block
  | fill n src :: c =>
    match t.env.lookup n, src.mapM (fun m => t.env.lookup m) with
    | some a, some as =>
      .ok (setVal s a (comp n (t.inp n) (as.map (fun b => (s.heap b).val))), { t with code := c, known := n :: t.known })
    | _, _ => .panic
  | clear n :: c =>
    match t.env.lookup n with
    | some a => .ok (setVal s a [], { t with code := c, known := n :: t.known })
    | none => .panic
  | append n :: c =>
    match t.env.lookup n with
    | some a =>
      let v := comp .msgBuf (t.inp .msgBuf) [(s.heap a).val]
      .ok ({ setVal s s.cur ((s.heap s.cur).val ++ v) with appended := s.appended ++ [v] }, { t with code := c })
    | none => .panic
  | swap n m :: c =>
    match t.env.lookup n with
    | some a =>
      let v := (s.heap s.cur).val
      .ok ({ s with cur := a, taken := s.taken ++ [v] },
        { t with code := c, env := (m, s.cur) :: without t.env n, inp := setInp t.inp m v, known := m :: drop t.known n })
    | none => .panic
  | give n :: c =>
    match t.env.lookup n with
    | some a =>
      .ok ({ s with queue := s.queue ++ [a], given := s.given ++ [(s.heap a).val] },
        { t with code := c, env := without t.env n, known := drop t.known n })
    | none => .panic
  | take n :: c =>
    match s.queue with
    | a :: q =>
      let v := (s.heap a).val
      .ok ({ s with queue := q, received := s.received ++ [v] },
        { t with code := c, env := (n, a) :: t.env, inp := setInp t.inp n v, known := n :: t.known })
    | [] => .block
  | out n :: c =>
    match t.env.lookup n with
    | some a => .ok (s, { t with code := c, sent := t.sent ++ [(s.heap a).val] })
    | none => .panic
  | Instr.release n :: c =>
    match t.env.lookup n with
    | some a =>
      match release s a with
      | .ok s' => .ok (s', { t with code := c, env := without t.env n, known := drop t.known n })
      | .err e => .err e
      | .panic => .panic
      | .block => .block
    | none => .panic
  | enter :: c => .ok (s, { t with code := c, frames := ⟨t.env.map (·.1), t.known, []⟩ :: t.frames })
  | exit :: c =>
    match t.frames with
    | ⟨saved, known, n :: df⟩ :: fs =>
      match t.env.lookup n with
      | some a =>
        match release s a with
        | .ok s' =>
          .ok (s', { t with env := without t.env n, known := drop t.known n, frames := ⟨saved, known, df⟩ :: fs })
        | .err e => .err e
        | .panic => .panic
        | .block => .block
      | none => .panic
    | ⟨saved, known, []⟩ :: fs =>
      .ok (s, { t with code := c, env := t.env.filter (fun p => p.1 ∈ saved), known := known, frames := fs })
    | [] => .panic

def step (comp : Name → Bytes → List Bytes → Bytes) (s : State) : Act → Outcome Unit State
  | .start fn inp => .ok { s with tasks := s.tasks ++ [Task.init fn inp] }
  | .go i choice =>
    match s.tasks[i]? with
    | some t =>
      match goTask comp s t choice with
      | .ok (s', t') => .ok { s' with tasks := s'.tasks.set i t' }
      | .err e => .err e
      | .panic => .panic
      | .block => .block
    | none => .block
  | .leave i =>
    match s.tasks[i]? with
    | some t =>
      if t.frames = [] then .block
      else .ok { s with tasks := s.tasks.set i { t with code := toExit 0 t.code } }
    | none => .block
  | .forget a => .ok { s with free := s.free.erase a }

inductive Reachable (comp : Name → Bytes → List Bytes → Bytes) : State → Prop
  | init : Reachable comp State.init
  | step {s s'} (a : Act) : Reachable comp s → step comp s a = .ok s' → Reachable comp s'

def run (comp : Name → Bytes → List Bytes → Bytes) : State → List Act → Outcome Unit State
  | s, [] => .ok s
  | s, a :: as =>
    match step comp s a with
    | .ok s' => run comp s' as
    | o => o

end Verif.Pool
