import Verif.Model.Go
/-!
# Goroutines, locks and channels

What the functions of a session do with locks, shared fields, channels and the backend, as programs (`Prog`) without data.  A
program has many runs (`Run`); a goroutine executes one of them, step by step, together with any number of other goroutines.

Simplifications: data is not modelled, so that every branch and every number of iterations is possible; channels that are only
closed, contexts and wait groups are flags that are set once; waits that always end by a timer are left out; the packets between
two sessions are only counted.  `pauseWaitLocker` is in `Verif.Lifecycle`.  Spin locks wait like mutexes.
-/
namespace Verif.Sync

/-- The locks of a session. -/
inductive LockName where
  /-- `kx.keyUpdateLocker` (key_exchanger.go:113) -/
  | keyUpdate
  /-- `kx.locker` (key_exchanger.go:86) -/
  | kx
  /-- `sess.pauseLocker` (session.go:171) -/
  | pause
  /-- `sess.locker` (session.go:109) -/
  | sess
  /-- `sess.delayedWriteBufLocker` (session.go:143) -/
  | delayedBuf
  /-- `sess.delayedSenderTimerLocker` (session.go:145) -/
  | timer
  /-- `n.locker` (negotiator.go:41) -/
  | neg
  /-- `kx.keyLocker` (key_exchanger.go:97) -/
  | key
  /-- `changeChanLocker` (session_state.go:49) -/
  | state
  /-- `sess.readDeadlineLocker` (session.go:175) -/
  | deadline
  deriving DecidableEq, Repr

/-- Shared fields. -/
inductive Field where
  /-- `sess.remoteIdentity` -/
  | remoteIdentity
  /-- `sess.messenger` (a map) -/
  | messengers
  /-- `sess.readChan` (a map) -/
  | readChans
  /-- `sess.currentSecrets` -/
  | secrets
  /-- `sess.delayedWriteBuf`, `sess.delayedSendInfo` and the buffer -/
  | delayedBuf
  /-- `sess.delayedSenderTimer` is stopped and reset -/
  | timer
  /-- `sess.pauseStartChan` -/
  | pauseStart
  /-- `sess.readInterruptsRequested`, `sess.readInterruptsHappened` -/
  | interrupts
  /-- `kx.nextLocalPrivateKey`, `kx.prevLocalPrivateKey`, `kx.nextRemotePublicKey`, `kx.prevRemotePublicKey` -/
  | keyPairs
  /-- `kx.nextLocalPublicKey` -/
  | localPublic
  /-- `kx.nextLocalKeyCreatedAt` -/
  | nextCreatedAt
  /-- `kx.localKeyCreatedAt` -/
  | localCreatedAt
  /-- `kx.skipKeyUpdateUntil` -/
  | skipUntil
  /-- `stateStor.changeChan` -/
  | changeChan
  /-- `n.cancelFn` -/
  | cancelFn
  /-- `n.localLargestRTT` -/
  | localRTT
  /-- `n.remoteLargestRTT` -/
  | remoteRTT
  /-- `n.recvChan` -/
  | recvChan
  deriving DecidableEq, Repr

/-- Things that happen once and are waited for. -/
inductive Flag where
  /-- the key exchanger and its goroutine were started (key_exchanger.go:242) -/
  | kxStarted
  /-- the reader and the backend closer were started (session.go:625-626) -/
  | started
  /-- a goroutine was started that answers (key_exchanger.go:481) -/
  | answering
  /-- the goroutines of the negotiator were started (negotiator.go:187-199) -/
  | negStarted
  /-- `sess.ctx` is done -/
  | ctx
  /-- `kx.ctx` is done -/
  | kxCtx
  /-- `n.ctx` is done -/
  | negCtx
  /-- `sess.isEstablished` is closed -/
  | established
  /-- `sess.waitForCipherKeyChan` is closed -/
  | keys
  /-- a `SendInfo` is done -/
  | sent
  /-- the own side of the negotiation has ended (`n.stageChan`) -/
  | stageLocal
  /-- the remote side of the negotiation has ended (`n.stageChan`) -/
  | stageRemote
  /-- the tasks of the negotiator are through (`n.wgTasks`) -/
  | negTasks
  /-- the reader loop has ended; `sess.stopWaitGroup` waits for it -/
  | readerDone
  /-- the reader has closed `sess.pauseStartChan` -/
  | pauseStarted
  /-- there is a message in the channel of `Read`, or it is closed -/
  | item
  /-- the state has changed (`stateStor.changeChan` is closed) -/
  | stateChange
  deriving DecidableEq, Repr

/-- Functions given by the user of the package. -/
inductive Callback where
  /-- `Handler.Handle` (messenger.go:12) -/
  | handle
  /-- `Close` of a handler (messenger.go:74) -/
  | handlerClose
  /-- `EventHandler.Error` (event_handler.go:11) -/
  | error
  /-- `EventHandler.OnConnect` (event_handler.go:7) -/
  | onConnect
  deriving DecidableEq, Repr

inductive Prog where
  | skip
  | seq (p q : Prog)
  | alt (p q : Prog)
  | loop (p : Prog)
  /-- `LockDo` (locker_mutex.go:11, 22): `Lock`, the function, `Unlock` -/
  | lock (l : LockName) (p : Prog)
  /-- `RLockDo` (locker_mutex.go:29) -/
  | rlock (l : LockName) (p : Prog)
  /-- read or write a field -/
  | acc (x : Field) (write : Bool)
  /-- a `select` without default that waits for one of these -/
  | wait (fs : List Flag)
  | set (f : Flag)
  /-- `backend.Write` of a packet -/
  | send
  /-- `backend.Read` of a packet -/
  | recv
  /-- the user's code -/
  | user (c : Callback)
  /-- a call of another session -/
  | on (s : Nat) (p : Prog)
  deriving DecidableEq, Repr

infixr:60 " ;; " => Prog.seq

def Prog.opt (p : Prog) : Prog := .alt .skip p

/-- One step of a goroutine; locks, fields and flags belong to a session. -/
inductive Ev where
  | acq (s : Nat) (l : LockName) (write : Bool)
  | rel (s : Nat) (l : LockName) (write : Bool)
  | acc (s : Nat) (x : Field) (write : Bool)
  | wait (s : Nat) (fs : List Flag)
  | set (s : Nat) (f : Flag)
  /-- a packet is put into the pipe -/
  | put (pipe : Nat)
  /-- a packet is taken out of the pipe -/
  | take (pipe : Nat)
  deriving DecidableEq, Repr

/-- What is around the sessions: the code of the callbacks, and who is connected to whom.  Session `s` writes into the pipe `s` and reads
from the pipe `peer s`. -/
structure World where
  code : Nat → Callback → Prog
  peer : Nat → Nat

/-- The runs of a program of session `s`. -/
inductive Run (W : World) : Nat → Prog → List Ev → Prop where
  | skip {s} : Run W s .skip []
  | seq {s p q t t'} : Run W s p t → Run W s q t' → Run W s (p ;; q) (t ++ t')
  | left {s p q t} : Run W s p t → Run W s (.alt p q) t
  | right {s p q t} : Run W s q t → Run W s (.alt p q) t
  | stop {s p} : Run W s (.loop p) []
  | again {s p t t'} : Run W s p t → Run W s (.loop p) t' → Run W s (.loop p) (t ++ t')
  | lock {s l p t} : Run W s p t → Run W s (.lock l p) (.acq s l true :: (t ++ [.rel s l true]))
  | rlock {s l p t} : Run W s p t → Run W s (.rlock l p) (.acq s l false :: (t ++ [.rel s l false]))
  | acc {s x w} : Run W s (.acc x w) [.acc s x w]
  | wait {s fs} : Run W s (.wait fs) [.wait s fs]
  | set {s f} : Run W s (.set f) [.set s f]
  | send {s} : Run W s .send [.put s]
  | recv {s} : Run W s .recv [.take (W.peer s)]
  | user {s c t} : Run W s (W.code s c) t → Run W s (.user c) t
  | on {s s' p t} : Run W s' p t → Run W s (.on s' p) t

structure Thread where
  todo : List Ev
  /-- session, lock, is it locked for writing -/
  held : List (Nat × LockName × Bool)
  deriving DecidableEq, Repr

structure State where
  threads : List Thread
  flags : List (Nat × Flag)
  /-- packets in the pipes -/
  packets : List Nat
  deriving DecidableEq, Repr

/-- The lock is held, for writing or for reading. -/
def State.locked (st : State) (s : Nat) (l : LockName) : Bool :=
  st.threads.any fun t => t.held.any fun h => h.1 == s && h.2.1 == l

def State.lockedForWriting (st : State) (s : Nat) (l : LockName) : Bool :=
  st.threads.any fun t => t.held.any fun h => h.1 == s && h.2.1 == l && h.2.2

/-- A goroutine is about to lock it for writing; a new reader may have to wait for it (`sync.RWMutex`). -/
def State.writerWaits (st : State) (s : Nat) (l : LockName) : Bool :=
  st.threads.any fun t => t.todo.head? == some (.acq s l true)

/-- What the step does, if it is possible now.  `cap`: how many packets fit in a pipe. -/
def exec (cap : Nat → Nat) (st : State) (held : List (Nat × LockName × Bool)) : Ev → Option (State × List (Nat × LockName × Bool))
  | .acq s l true => if st.locked s l then none else some (st, (s, l, true) :: held)
  | .acq s l false => if st.lockedForWriting s l || st.writerWaits s l then none else some (st, (s, l, false) :: held)
  | .rel s l w => some (st, held.erase (s, l, w))
  | .acc .. => some (st, held)
  | .wait s fs => if fs.any fun f => st.flags.contains (s, f) then some (st, held) else none
  | .set s f => some ({ st with flags := (s, f) :: st.flags }, held)
  | .put p => if st.packets.count p < cap p then some ({ st with packets := p :: st.packets }, held) else none
  | .take p => if st.packets.contains p then some ({ st with packets := st.packets.erase p }, held) else none

/-- Goroutine `i` takes its next step. -/
def step (cap : Nat → Nat) (st : State) (i : Nat) : Option State :=
  match st.threads[i]? with
  | some ⟨e :: todo, held⟩ =>
    match exec cap st held e with
    | some (st', held') => some { st' with threads := st'.threads.set i ⟨todo, held'⟩ }
    | none => none
  | _ => none

inductive Reachable (cap : Nat → Nat) (init : State) : State → Prop where
  | init : Reachable cap init init
  | step {st i st'} : Reachable cap init st → step cap st i = some st' → Reachable cap init st'

/-- Steps of the goroutines in the given order. -/
def runSched (cap : Nat → Nat) : State → List Nat → Option State
  | st, [] => some st
  | st, i :: is => match step cap st i with
    | some st' => runSched cap st' is
    | none => none

/-- At the begin: goroutines with their runs, no lock is held, no flag is set, the pipes are empty. -/
def start (runs : List (List Ev)) : State := ⟨runs.map fun t => ⟨t, []⟩, [], []⟩

end Verif.Sync
