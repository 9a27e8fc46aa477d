import Verif.Model.Sync
/-!
# What the functions of a session lock, access and wait for

One program for each function of session.go, session_state.go, messenger.go, key_exchanger.go and negotiator.go that takes a lock,
accesses one of the fields of `Verif.Sync.Field`, waits, uses the backend or calls code of the user.

Simplifications (besides those of `Verif.Sync`): accesses before the first goroutine is started are left out, and so is a session
that is used before `Start`; sending to `n.stageChan`, `n.recvChan`, `sendDelayedNowChan` and the read channels does not wait (see
`Verif.Negotiator`, `Verif.ReadQueue`); `hdr.Write` does not fail in `appendToDelayedWriteBuffer`, because the slice has
`messageHeadersSize + len(payload)` bytes (C05); `SetReadDeadline` and `Close` of the backend return at once; a `go` statement
sets a flag for which the new goroutine waits.
-/
namespace Verif.Sync.Calls
open Prog

/-! ## session_state.go -/

/-- `sessionStateStorage.Set` (session_state.go:104-120). -/
def setState : Prog := lock .state (opt (acc .changeChan true ;; set .stateChange))

/-- `sessionStateStorage.WaitFor` (session_state.go:79-97). -/
def waitForState : Prog :=
  rlock .state (acc .changeChan false) ;; loop (wait [.stateChange] ;; rlock .state (acc .changeChan false))

/-! ## Sending -/

/-- `GetEstablishedPayloadSize` (session.go:588-600), also for `GetEstablishedPacketSize`. -/
def establishedSize : Prog := opt (wait [.ctx, .established])

/-- `sendMessages` (session.go:1853-1987) with `GetCipherKeysWait` (session.go:1410-1426). -/
def sendMessages (confidential internal : Bool) : Prog :=
  (if confidential then opt (wait [.keys, .ctx]) else skip) ;;
  (if internal then skip else opt (wait [.ctx, .established]) ;; establishedSize) ;;
  opt send

/-- `sendDelayedNow` (session.go:1738-1774). -/
def sendDelayedNow : Prog :=
  lock .delayedBuf (acc .delayedBuf true) ;; opt (sendMessages true false) ;; set .sent

/-- `appendToDelayedWriteBuffer` (session.go:1699-1736). -/
def append : Prog := acc .delayedBuf true ;; lock .timer (acc .timer true)

/-- `waitForSend` (session.go:1637-1691): it always ends or asks again by a ticker. -/
def waitForSend : Prog := loop (lock .delayedBuf (acc .delayedBuf false))

/-- `writeMessageAsync` with a `SendDelay` (session.go:1594-1634). -/
def writeMessageAsync : Prog :=
  opt (wait [.ctx, .established]) ;;
  loop (lock .delayedBuf (acc .delayedBuf false ;; establishedSize) ;; waitForSend) ;;
  opt (lock .delayedBuf (acc .delayedBuf false ;; establishedSize ;; opt append))

/-- `WriteMessageAsync` (session.go:1432-1466): fragmented, at once, or delayed.  The fragments are sent by goroutines
(`writeMessageFragment`). -/
def writeAsync : Prog := alt establishedSize (alt (sendMessages true false ;; set .sent) writeMessageAsync)

/-- `WriteMessage`, `Write` (session.go:1361-1374, 2187-2194). -/
def write : Prog := writeAsync ;; wait [.sent, .ctx]

/-- `WriteMessageSingle` (session.go:1380-1391). -/
def writeSingle : Prog := sendMessages true false

/-- A goroutine that sends a fragment with `writeMessageFragment` (session.go:1491-1496, 1512-1544): not marked as confidential.  The
`SendInfo` is done after the last one (session.go:1503-1508). -/
def writeFragment : Prog := sendMessages false false ;; opt (set .sent)

/-- `Read` (session.go:2167-2185). -/
def read : Prog := acc .readChans false ;; wait [.item]

/-! ## Closing -/

/-- `startClosing` (session.go:2231-2248); the time-out is the goroutine `closeTimer`. -/
def startClosing : Prog := loop sendDelayedNow ;; set .ctx

/-- The goroutine in `startClosing` (session.go:2234-2240). -/
def closeTimer : Prog := set .ctx

/-- `Close` (session.go:2253-2260). -/
def close : Prog := setState ;; opt startClosing

/-- `WaitForClosure` (session.go:2274-2276): the reader is one of those it waits for. -/
def waitForClosure : Prog := wait [.readerDone]

/-- `CloseAndWait` (session.go:2264-2270). -/
def closeAndWait : Prog := close ;; opt waitForClosure

/-- `errFunc` of the key exchanger and of the negotiator (session.go:2050-2054, 2098-2102). -/
def errFunc : Prog := close ;; user .error

/-- `keyExchanger.Close` (key_exchanger.go:525-533). -/
def kxClose : Prog := set .kxCtx

/-- The part of `negotiator.Close` under the lock (negotiator.go:516-523). -/
def negCancel : Prog := lock .neg (acc .cancelFn true ;; opt (set .negCtx))

/-- `negotiator.Close` (negotiator.go:511-536); closing its messenger calls it again, which only looks at `cancelFn`. -/
def negClose : Prog :=
  negCancel ;; opt (opt negCancel ;; wait [.negTasks] ;; acc .recvChan false ;; opt (acc .recvChan true))

/-- `negotiator.Close` from `Start`, when there are no tasks (negotiator.go:183). -/
def negCloseNoTasks : Prog :=
  negCancel ;; opt (opt negCancel ;; acc .recvChan false ;; opt (acc .recvChan true))

/-- `Messenger.Close` (messenger.go:66-76): the handler is the user's, the key exchanger or the negotiator. -/
def messengerClose : Prog := opt (alt (user .handlerClose) (alt kxClose negClose))

/-! ## Registering and starting -/

/-- `setMessenger` (session.go:2112-2123). -/
def setMessenger : Prog :=
  lock .sess (acc .messengers false ;; opt (messengerClose ;; opt (user .error)) ;; acc .messengers true ;; acc .readChans true)

/-- `NewMessenger`, `SetHandlerFuncs` (session.go:1309-1322, 1351-1358). -/
def newMessenger : Prog := opt setMessenger

/-- `setMessenger` when there is no messenger of the type. -/
def setFirstMessenger : Prog := lock .sess (acc .messengers false ;; acc .messengers true ;; acc .readChans true)

/-- `Start` (session.go:609-628) with `initNegotiator` and `startKeyExchange` (session.go:2044-2056, 2083-2110). -/
def startSession : Prog :=
  lock .sess skip ;; opt (opt setFirstMessenger ;; setState ;; opt (opt setFirstMessenger ;; set .kxStarted) ;; set .started)

/-- `GetRemoteIdentity` (session.go:2013-2018). -/
def getRemoteIdentity : Prog := rlock .sess (acc .remoteIdentity false)

/-- `GetEphemeralKeys` (session.go:2281-2283). -/
def getEphemeralKeys : Prog := acc .secrets false

/-! ## Pausing -/

/-- `interruptRead` (session.go:2218-2229). -/
def interruptRead : Prog := opt (lock .deadline (acc .interrupts true))

/-- `resetReadDeadline` (session.go:799-809). -/
def resetReadDeadline : Prog := lock .deadline (acc .interrupts true)

/-- `SetPause(true)` (session.go:727-757). -/
def pause : Prog :=
  lock .pause (lock .sess (acc .pauseStart true ;; setState ;; opt (acc .pauseStart true)) ;;
    opt (acc .pauseStart false ;; interruptRead)) ;;
  opt (wait [.pauseStarted])

/-- `SetPause(false)` (session.go:727-757). -/
def unpause : Prog := lock .pause (lock .sess setState)

/-- `waitForUnpause` (session.go:762-779). -/
def waitForUnpause : Prog :=
  opt (lock .pause (acc .pauseStart false ;; opt (set .pauseStarted ;; acc .pauseStart true)) ;; resetReadDeadline)

/-! ## Negotiator -/

/-- `onConnect` (session.go:2020-2042); the callback `OnConnect` and the delayed sender are goroutines. -/
def onConnect : Prog := setState ;; set .established ;; loop sendDelayedNow

/-- `negotiator.Start` (negotiator.go:162-201). -/
def negStart : Prog :=
  lock .neg (acc .cancelFn false ;; opt (acc .cancelFn true)) ;;
  opt (alt (onConnect ;; negCloseNoTasks) (set .negStarted))

/-- `sendControl` (negotiator.go:389-408). -/
def sendControl : Prog := lock .neg (acc .localRTT false) ;; alt errFunc (sendMessages true true ;; opt errFunc)

/-- `negotiator.Handle` (negotiator.go:423-509). -/
def negHandle : Prog :=
  opt (alt
    (lock .neg (acc .remoteRTT true) ;; opt (set .stageRemote))
    (alt (sendMessages true true) (opt (lock .neg (acc .localRTT false ;; opt (acc .localRTT true)) ;;
      acc .recvChan false ;; sendControl))))

/-- `sendPing` and what follows an error (negotiator.go:240-267, 303-311); `Close` is called in a goroutine. -/
def sendPing : Prog := sendMessages true true ;; opt (user .error ;; opt errFunc)

/-- The goroutine with `pingSenderLoop` (negotiator.go:193-199, 269-387). -/
def pingSender : Prog :=
  wait [.negStarted] ;; loop (alt sendPing (alt (acc .recvChan false) errFunc)) ;; loop sendControl ;; set .stageLocal ;; set .negTasks

/-- The goroutine with `finalizer` (negotiator.go:187-191, 203-229). -/
def finalizer : Prog :=
  wait [.negStarted] ;;
  alt (wait [.negCtx])
    (wait [.stageLocal, .stageRemote] ;;
      alt (wait [.negCtx]) (wait [.stageLocal] ;; wait [.stageRemote] ;; acc .localRTT false ;; acc .remoteRTT false ;; onConnect))

/-- `go n.Close()` (negotiator.go:228, 307). -/
def negCloser : Prog := wait [.negStarted] ;; negClose

/-! ## Key exchanger -/

/-- `setSecrets` (session.go:2125-2165). -/
def setSecrets : Prog := lock .sess (acc .secrets true ;; opt (set .keys))

/-- `updateSecrets` (key_exchanger.go:322-341) with `generateSharedKeyBySecretID` (key_exchanger.go:259-292). -/
def updateSecrets : Prog := loop (rlock .key (acc .keyPairs false)) ;; opt setSecrets

/-- `updateLocalKey` (key_exchanger.go:561-599). -/
def updateLocalKey : Prog :=
  rlock .key (acc .nextCreatedAt false ;; acc .localCreatedAt false) ;;
  opt (alt (kxClose ;; errFunc)
    (lock .key (acc .keyPairs true ;; acc .localPublic true ;; acc .nextCreatedAt true ;; acc .localCreatedAt false) ;;
      updateSecrets ;; opt errFunc))

/-- `sendPublicKey`, `send` (key_exchanger.go:713-749). -/
def sendPublicKey : Prog :=
  acc .localPublic false ;; opt (updateLocalKey ;; acc .skipUntil true) ;;
  rlock .key (acc .localPublic false) ;; sendMessages false true

/-- `mustSendPublicKey` (key_exchanger.go:705-711). -/
def mustSendPublicKey : Prog := sendPublicKey ;; opt (kxClose ;; errFunc)

/-- The goroutine that answers (key_exchanger.go:481-484). -/
def kxAnswer : Prog := wait [.answering] ;; mustSendPublicKey

/-- `KeyUpdateSendWait` (key_exchanger.go:625-651) with `getNextKeyCreatedAt` (617-623) and `retryUntilSuccessOrTimeout` (653-703). -/
def keyUpdateSendWait : Prog :=
  lock .keyUpdate (acc .skipUntil false ;;
    opt (lock .kx updateLocalKey ;; mustSendPublicKey ;; loop mustSendPublicKey ;; opt (kxClose ;; errFunc)))

/-- The goroutine with `loop` (key_exchanger.go:535-559). -/
def kxLoop : Prog := wait [.kxStarted] ;; loop keyUpdateSendWait ;; messengerClose

/-- `onKeyExchangeSuccess` (session.go:2058-2071). -/
def onKeyExchangeSuccess : Prog := opt (setState ;; negStart ;; opt (user .error))

/-- `sendSuccessNotifications` (key_exchanger.go:490-523). -/
def sendSuccessNotifications : Prog :=
  rlock .key (acc .nextCreatedAt false ;; acc .localCreatedAt true) ;; opt errFunc ;; onKeyExchangeSuccess

/-- `setRemoteIdentityFromPublicKey` (key_exchanger.go:382-408): `true` if the identity is accepted. -/
def setRemoteIdentity : Prog := lock .sess (acc .remoteIdentity true)

/-- `setNextRemotePublicKey` (key_exchanger.go:416-431). -/
def setNextRemotePublicKey : Prog := lock .key (acc .keyPairs false ;; opt (acc .keyPairs true))

/-- `keyExchanger.Handle` (key_exchanger.go:433-488) with `parseAndCheck` (key_exchanger.go:343-380). -/
def kxHandle : Prog :=
  alt (opt errFunc) (lock .kx (
    alt (opt errFunc)
      (opt setRemoteIdentity ;; setNextRemotePublicKey ;; updateSecrets ;;
        alt errFunc (opt sendSuccessNotifications ;; opt (set .answering)))))

/-! ## Reader -/

/-- `processIncomingMessage` (session.go:1074-1101). -/
def processIncomingMessage : Prog :=
  acc .messengers false ;;
  alt (alt (user .handle) (alt kxHandle negHandle) ;; opt (user .error))
    (rlock .sess (acc .readChans false) ;; opt (set .item))

/-- `processIncomingMessages` (session.go:952-1018). -/
def processIncomingMessages : Prog :=
  loop processIncomingMessage ;; opt (alt (user .error) close)

/-- `readerLoopReadError` (session.go:848-880). -/
def readError : Prog :=
  opt (lock .deadline (acc .interrupts false ;; opt (acc .interrupts true))) ;; opt (user .error ;; opt close)

/-- `readerLoopCleanup` (session.go:819-846). -/
def cleanup : Prog :=
  alt startClosing (setState ;; set .ctx) ;;
  acc .messengers false ;; loop messengerClose ;; acc .readChans false ;; set .item ;; setState ;; resetReadDeadline

/-- The goroutine with `readerLoop` (session.go:630-636, 901-950). -/
def reader : Prog :=
  wait [.started] ;;
  loop (waitForUnpause ;; alt readError (recv ;; alt (opt (user .error)) processIncomingMessages)) ;;
  cleanup ;; set .readerDone

/-! ## Other goroutines -/

/-- `startBackendCloser` (session.go:638-680). -/
def backendCloser : Prog := wait [.started] ;; wait [.ctx] ;; setState ;; interruptRead ;; opt (user .error)

/-- `delayedSenderLoop` (session.go:1808-1851). -/
def delayedSender : Prog := wait [.established] ;; loop (sendDelayedNow ;; opt (lock .timer (acc .timer true)))

/-- `go sess.eventHandler.OnConnect(sess)` (session.go:2030). -/
def connectCallback : Prog := wait [.established] ;; user .onConnect

/-- The methods of a session, of its messengers and of its key exchanger that a program can call. -/
inductive Method where
  | start | close | closeAndWait | waitForClosure | setPause | unsetPause | newMessenger | messengerClose | writeAsync | write
  | writeSingle | read | establishedSize | waitForState | remoteIdentity | ephemeralKeys
  deriving DecidableEq, Repr

def Method.prog : Method → Prog
  | .start => startSession
  | .close => Calls.close
  | .closeAndWait => Calls.closeAndWait
  | .waitForClosure => Calls.waitForClosure
  | .setPause => pause
  | .unsetPause => unpause
  | .newMessenger => Calls.newMessenger
  | .messengerClose => Calls.messengerClose
  | .writeAsync => Calls.writeAsync
  | .write => Calls.write
  | .writeSingle => Calls.writeSingle
  | .read => Calls.read
  | .establishedSize => Calls.establishedSize
  | .waitForState => Calls.waitForState
  | .remoteIdentity => getRemoteIdentity
  | .ephemeralKeys => getEphemeralKeys

/-- What code of the user does with sessions: it calls their methods, in any order. -/
inductive UserCode (allowed : Method → Bool) : Prog → Prop where
  | skip : UserCode allowed skip
  | seq {p q} : UserCode allowed p → UserCode allowed q → UserCode allowed (p ;; q)
  | alt {p q} : UserCode allowed p → UserCode allowed q → UserCode allowed (alt p q)
  | loop {p} : UserCode allowed p → UserCode allowed (loop p)
  | on {p s} : UserCode allowed p → UserCode allowed (on s p)
  | method {m} : allowed m = true → UserCode allowed m.prog

/-- The goroutines of a session, and those of the user. -/
inductive Role where
  | reader | backendCloser | closeTimer | kxLoop | kxAnswer | pingSender | finalizer | negCloser | delayedSender | connectCallback
  | writeFragment
  | user (p : Prog)
  deriving DecidableEq, Repr

def Role.prog : Role → Prog
  | .reader => Calls.reader
  | .backendCloser => Calls.backendCloser
  | .closeTimer => Calls.closeTimer
  | .kxLoop => Calls.kxLoop
  | .kxAnswer => Calls.kxAnswer
  | .pingSender => Calls.pingSender
  | .finalizer => Calls.finalizer
  | .negCloser => Calls.negCloser
  | .delayedSender => Calls.delayedSender
  | .connectCallback => Calls.connectCallback
  | .writeFragment => Calls.writeFragment
  | .user p => p

/-- A session has at most one of these. -/
def Role.single : Role → Bool
  | .reader | .backendCloser | .kxLoop | .pingSender | .finalizer | .delayedSender | .connectCallback => true
  | _ => false

/-- `runs` are runs of these goroutines: goroutines of sessions, and any number of goroutines of the user. -/
structure Threads (W : World) (roles : List (Nat × Role)) (runs : List (List Ev)) : Prop where
  length : roles.length = runs.length
  run : ∀ (i : Nat) (h : i < roles.length) (h' : i < runs.length), Run W roles[i].1 roles[i].2.prog runs[i]
  user : ∀ s p, (s, Role.user p) ∈ roles → UserCode (fun _ => true) p
  once : ∀ r ∈ roles, r.2.single = true → roles.count r = 1

end Verif.Sync.Calls
