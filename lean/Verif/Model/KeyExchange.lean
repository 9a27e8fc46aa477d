import Verif.Model.Headers
/-!
# The key exchanger: key_exchanger.go, hash.go, session.go:505-515, 1393-1426, 2073-2081, 2125-2165

One side of the key exchange: the reader goroutine that handles messages, the loop that rotates the local key, and any
number of goroutines that send answers.  The primitives are parameters.

Locks: `kx.locker` is held by the reader inside `Handle` (key_exchanger.go:442-486) and by the loop inside
`updateLocalKey` (key_exchanger.go:618-620), but not by the answering goroutines, which call `updateLocalKey` without it
(key_exchanger.go:715).  `keyLocker` makes single accesses to the keys atomic.
Simplifications: the four reads of the keys in `updateSecrets` are one step; the waiting of the loop for a success
notification, its retries and its time-out may end at any moment; a tick may be skipped (`skipKeyUpdateUntil`);
`nextLocalPublicKey` is read once when it is sent; debug output is left out; `errFunc` is only recorded (it closes the
session, which cancels the context: see `cancel`).
-/
namespace Verif.KX
open Verif.Headers

/-- The primitives: Ed25519, X25519, BLAKE3 and SHA3-256.  Only sizes, correctness of signatures and commutativity of
the Diffie-Hellman function are assumed. -/
structure Crypto where
  /-- `ed25519.Verify`: public key, signature, data -/
  verify : Bytes → Bytes → Bytes → Bool
  /-- `ed25519.Sign`: private key, data -/
  sign : Bytes → Bytes → Bytes
  /-- public key of an identity -/
  idPub : Bytes → Bytes
  /-- `ComputeSecret` of X25519: private key, public key -/
  dh : Bytes → Bytes → Bytes
  /-- public ECDH key -/
  pub : Bytes → Bytes
  blake3 : Bytes → Bytes
  sha3 : Bytes → Bytes
  sign_length : ∀ k m, (sign k m).length = 64
  idPub_length : ∀ k, (idPub k).length = 32
  pub_length : ∀ k, (pub k).length = 32
  dh_length : ∀ k p, (dh k p).length = 32
  blake3_length : ∀ m, (blake3 m).length = 32
  sha3_length : ∀ m, (sha3 m).length = 32
  verify_sign : ∀ k m, verify (idPub k) (sign k m) m = true
  dh_comm : ∀ a b, dh a (pub b) = dh b (pub a)

/-- `hash` (hash.go:11-29). -/
def hash (C : Crypto) (input : Bytes) (salts : List Bytes) : Bytes :=
  C.sha3 (C.blake3 (input ++ salts.flatten) ++ salts.flatten)

/-- `Salt` (key_exchanger.go:56): "xaionaro-go/secureio.KeyExchanger". -/
def salt : Bytes := [120, 97, 105, 111, 110, 97, 114, 111, 45, 103, 111, 47, 115, 101, 99, 117, 114, 101, 105, 111, 46,
  75, 101, 121, 69, 120, 99, 104, 97, 110, 103, 101, 114]

/-- "cipherKey" (key_exchanger.go:313). -/
def cipherKeyLabel : Bytes := [99, 105, 112, 104, 101, 114, 75, 101, 121]
/-- "auxCipherKey" (session.go:512). -/
def auxCipherKeyLabel : Bytes := [97, 117, 120, 67, 105, 112, 104, 101, 114, 75, 101, 121]

/-- `auxCipherKey` (session.go:511-513). -/
def auxCipherKey (C : Crypto) (psk : Bytes) : Bytes := (hash C psk [salt, auxCipherKeyLabel]).take 32

/-- `zeroKey` (key_exchanger.go:306, 372). -/
def zeroKey : Bytes := List.replicate 32 0

/-- `key[i] ^= pskXORer[i]` (key_exchanger.go:314-316). -/
def xorBytes (a b : Bytes) : Bytes := List.zipWith (· ^^^ ·) a b

inductive KeyErr where
  | localNil
  | remoteNil
  deriving DecidableEq, Repr

/-- `generateSharedKey` (key_exchanger.go:294-320). -/
def generateSharedKey (C : Crypto) (psk : Option Bytes) (priv pub : Option Bytes) : Outcome KeyErr Bytes :=
  match priv with
  | none => .err .localNil
  | some a =>
    match pub with
    | none => .err .remoteNil
    | some b =>
      if C.dh a b = zeroKey then .panic
      else
        match psk with
        | none => .ok (C.dh a b)
        | some p => .ok (xorBytes (C.dh a b) (hash C p [salt, cipherKeyLabel]))

/-- The ECDH keys of one side (key_exchanger.go:98-101). -/
structure Keys where
  prevRemote : Option Bytes
  nextRemote : Option Bytes
  prevLocal : Option Bytes
  nextLocal : Option Bytes
  deriving DecidableEq, Repr

/-- `setNextRemotePublicKey` (key_exchanger.go:416-431). -/
def Keys.receive (k : Keys) (pub : Bytes) : Keys :=
  if k.nextRemote = some pub then k else { k with prevRemote := k.nextRemote, nextRemote := some pub }

/-- The new local key (key_exchanger.go:582-583). -/
def Keys.rotate (k : Keys) (priv : Bytes) : Keys := { k with prevLocal := k.nextLocal, nextLocal := some priv }

/-- The two keys of a secret ID: 0 recent both, 1 recent local, 2 recent remote, 3 previous
(key_exchanger.go:274-289). -/
def Keys.pair (k : Keys) : Nat → Option Bytes × Option Bytes
  | 0 => (k.nextLocal, k.nextRemote)
  | 1 => (k.nextLocal, k.prevRemote)
  | 2 => (k.prevLocal, k.nextRemote)
  | _ => (k.prevLocal, k.prevRemote)

/-- `generateSharedKeyBySecretID` as used by `updateSecrets` (key_exchanger.go:326-333): a missing key gives nil;
`none` is the panic. -/
def secret (C : Crypto) (psk : Option Bytes) (k : Keys) (id : Nat) : Option (Option Bytes) :=
  match generateSharedKey C psk (k.pair id).1 (k.pair id).2 with
  | .ok s => some (some s)
  | .err _ => some none
  | _ => none

/-- The new secrets of `updateSecrets` (key_exchanger.go:325-334); `none` is the panic. -/
def secrets (C : Crypto) (psk : Option Bytes) (k : Keys) : Option (List (Option Bytes)) :=
  match secret C psk k 0, secret C psk k 1, secret C psk k 2, secret C psk k 3 with
  | some a, some b, some c, some d => some [a, b, c, d]
  | _, _, _, _ => none

/-! ## The session's side -/

/-- `cipherKeys` and `waitForCipherKeyChan` of a session. -/
structure SessKeys where
  /-- nil at first -/
  cipherKeys : List (Option Bytes)
  chanClosed : Bool
  /-- ghost: number of `close` calls on the channel -/
  closes : Nat
  deriving DecidableEq, Repr

def SessKeys.init : SessKeys := ⟨[], false, 0⟩

/-- `newSecret[:chacha.KeySize]` (session.go:2134); the secrets have 32 bytes. -/
def cipherKey (s : Option Bytes) : Option Bytes := s.map (·.take 32)

/-- Does the key at `idx` differ from the old one (session.go:2137-2140)? -/
def keyChanged (old : List (Option Bytes)) (idx : Nat) (new : Option Bytes) : Bool :=
  match old[idx]? with
  | none => true
  | some o => o.getD [] != new.getD []

/-- `changedCount` (session.go:2130-2141). -/
def changedCount (old : List (Option Bytes)) : Nat → List (Option Bytes) → Nat
  | _, [] => 0
  | idx, new :: rest => (if keyChanged old idx new then 1 else 0) + changedCount old (idx + 1) rest

/-- `setSecrets` (session.go:2125-2165); `none` is the panic of closing a closed channel. -/
def setSecrets (s : SessKeys) (new : List (Option Bytes)) : Option SessKeys :=
  let keys := new.map cipherKey
  if changedCount s.cipherKeys 0 keys = 0 then some s
  else if keys.length = 4 then
    if s.chanClosed then some { s with cipherKeys := keys }
    else if s.closes = 0 then some { cipherKeys := keys, chanClosed := true, closes := 1 }
    else none
  else some { s with cipherKeys := keys }

/-- What `GetCipherKeysWait` can do now (session.go:1410-1426): `ok (some keys)` if it can return them, `ok none` if it
can return nil because the context has ended, `block` if it waits, `panic` for "should not happened". -/
def getCipherKeysWait (s : SessKeys) (byCtx ctx : Bool) : Outcome Unit (Option (List (Option Bytes))) :=
  if s.cipherKeys.length = 4 ∧ (s.cipherKeys[0]?).join ≠ none then .ok (some s.cipherKeys)
  else if byCtx then if ctx then .ok none else .block
  else if s.chanClosed then if s.cipherKeys = [] then .panic else .ok (some s.cipherKeys)
  else .block

/-! ## The exchanger -/

structure Cfg where
  /-- `AnswersMode` after defaults: 1 answer and wait, 2 answer, 3 disable (key_exchanger.go:180-198) -/
  mode : Byte
  psk : Option Bytes
  /-- private key of the local identity -/
  identity : Bytes
  sessionID : SessID

inductive CheckErr where
  | tooShort
  | badSignature
  | modeMismatch
  | zeroKey
  deriving DecidableEq, Repr

/-- The signature and the signed bytes of a message (key_exchanger.go:348-349). -/
def sigOf (b : Bytes) : Bytes := b.take 64
def bodyOf (b : Bytes) : Bytes := (b.drop 64).take 82

/-- The verification in `parseAndCheck` (key_exchanger.go:353-358): none without a remote identity. -/
def checkSig (C : Crypto) (remote : Option Bytes) (b : Bytes) : Bool :=
  match remote with
  | some id => C.verify id (sigOf b) (bodyOf b)
  | none => true

/-- `parseAndCheck` (key_exchanger.go:343-380). -/
def parseAndCheck (C : Crypto) (cfg : Cfg) (remote : Option Bytes) (b : Bytes) : Outcome CheckErr KxMsg :=
  if b.length < kxSignedSize then .err .tooShort
  else if checkSig C remote b = false then .err .badSignature
  else if (KxMsg.decode (bodyOf b)).answersMode ≠ cfg.mode then .err .modeMismatch
  else if (KxMsg.decode (bodyOf b)).kxPublicKey = zeroKey then .err .zeroKey
  else .ok (KxMsg.decode (bodyOf b))

/-- Calls of `errFunc`. -/
inductive Report where
  | modeMismatch
  | zeroKey
  | genFailed
  | timeout
  | sendFailed
  deriving DecidableEq, Repr

/-- `errFunc` in `parseAndCheck`: the last two errors are reported. -/
def report : CheckErr → List Report
  | .modeMismatch => [.modeMismatch]
  | .zeroKey => [.zeroKey]
  | _ => []

/-- Where `updateLocalKey` (key_exchanger.go:561-599) is. -/
inductive Gen where
  | check
  /-- no exchange is in progress -/
  | gen
  /-- before and after the computation of the secrets in `updateSecrets` -/
  | snapshot
  | publish (secrets : List (Option Bytes))
  deriving DecidableEq, Repr

/-- Where `Handle` is. -/
inductive Reader where
  | idle
  /-- checked, before `LockDo` -/
  | parsed (b : Bytes) (msg : KxMsg)
  /-- the remote key is set -/
  | snapshot (msg : KxMsg)
  | publish (msg : KxMsg) (secrets : List (Option Bytes))
  /-- before the notifications -/
  | finish (msg : KxMsg)
  deriving DecidableEq, Repr

/-- Where the loop is (key_exchanger.go:544-559, 625-703). -/
inductive Main where
  | idle
  | gen (g : Gen)
  | send
  | waiting
  deriving DecidableEq, Repr

/-- Where an answering goroutine is (key_exchanger.go:478-485, 705-728). -/
inductive Answer where
  | start
  | gen (g : Gen)
  | send
  deriving DecidableEq, Repr

inductive Crash where
  /-- "should not happen" (key_exchanger.go:308) -/
  | zeroSecret
  /-- `nextLocalPublicKey` is nil (key_exchanger.go:723) -/
  | nilPublicKey
  /-- the channel of the session is closed twice -/
  | doubleClose
  deriving DecidableEq, Repr

structure State where
  remoteIdentity : Option Bytes
  remoteSessionID : Option SessID
  keys : Keys
  /-- `nextLocalPublicKey` -/
  nextPub : Option Bytes
  /-- `localKeyCreatedAt`, `nextLocalKeyCreatedAt` -/
  created : Nat
  nextCreated : Nat
  ctx : Bool
  sess : SessKeys
  reader : Reader
  main : Main
  answers : List Answer
  /-- ghost: calls of `errFunc` and `doneFunc`, messages sent, local keys generated with their stamps, remote public keys
  accepted -/
  reports : List Report
  successes : Nat
  sent : List Bytes
  gens : List (Bytes × Nat)
  accepted : List Bytes
  deriving DecidableEq, Repr

/-- `newKeyExchanger` (key_exchanger.go:201-244) with the configured remote identity. -/
def State.init (remote : Option Bytes) : State :=
  ⟨remote, none, ⟨none, none, none, none⟩, none, 0, 0, false, SessKeys.init, .idle, .idle, [], [], 0, [], [], []⟩

/-- Does the reader hold `kx.locker`? -/
def Reader.locks : Reader → Bool
  | .idle => false
  | .parsed _ _ => false
  | _ => true

def Main.locks : Main → Bool
  | .gen _ => true
  | _ => false

/-- The end of `updateSecrets` (key_exchanger.go:336-339): the secrets are passed on if the first is there. -/
def publish (s : State) (l : List (Option Bytes)) : Option State :=
  if (l[0]?).join.getD [] = [] then some s
  else (setSecrets s.sess l).map (fun k => { s with sess := k })

/-- A step of `updateLocalKey`: the state and the next step, `none` if it returns; `key` is the result of `GenerateKey`
and `now` the clock. -/
def genStep (C : Crypto) (cfg : Cfg) (s : State) (key : Option Bytes) (now : Nat) : Gen → Outcome Crash (State × Option Gen)
  | .check => .ok (s, if s.created < s.nextCreated then none else some .gen)
  | .gen =>
    match key with
    | none => .ok ({ s with ctx := true, reports := s.reports ++ [.genFailed] }, none)
    | some priv =>
      let stamp := if now ≤ s.created then s.created + 1 else now
      .ok ({ s with keys := s.keys.rotate priv, nextPub := some (C.pub priv), nextCreated := stamp
                    gens := s.gens ++ [(priv, stamp)] }, some .snapshot)
  | .snapshot =>
    match secrets C cfg.psk s.keys with
    | none => .err .zeroSecret
    | some l => .ok (s, some (.publish l))
  | .publish l =>
    match publish s l with
    | none => .err .doubleClose
    | some s' => .ok (s', none)

/-- The signed message of `sendPublicKey` and `send` (key_exchanger.go:717-749). -/
def kxMessage (C : Crypto) (cfg : Cfg) (pub : Bytes) (answer : Bool) : Bytes :=
  let body := KxMsg.encode ⟨cfg.sessionID, C.idPub cfg.identity, pub, cfg.mode, setIsAnswer 0 answer⟩
  C.sign cfg.identity body ++ body

/-- `mustSendPublicKey` without the key update (key_exchanger.go:705-711, 717-749); `ok` tells if the write worked. -/
def sendPublicKey (C : Crypto) (cfg : Cfg) (s : State) (answer ok : Bool) : Outcome Crash State :=
  match s.nextPub with
  | none => .err .nilPublicKey
  | some pub =>
    if ok then .ok { s with sent := s.sent ++ [kxMessage C cfg pub answer] }
    else .ok { s with ctx := true, reports := s.reports ++ [.sendFailed] }

/-- `setRemoteIdentityFromPublicKey` (key_exchanger.go:382-408): the adopted identity, `none` if it is refused.  The
length of the key is right by decoding. -/
def adopt (C : Crypto) (b : Bytes) (msg : KxMsg) : Option Bytes :=
  if C.verify msg.identityPublicKey (sigOf b) (bodyOf b) then some msg.identityPublicKey else none

/-- The first part of the critical section of `Handle` (key_exchanger.go:448-465). -/
def enter (C : Crypto) (s : State) (b : Bytes) (msg : KxMsg) : State :=
  if s.ctx then { s with reader := .idle }
  else
    match s.remoteIdentity.or (adopt C b msg) with
    | none => { s with reader := .idle }
    | some id =>
      { s with
        remoteIdentity := some id
        remoteSessionID := s.remoteSessionID.or (some msg.sessionID)
        keys := s.keys.receive msg.kxPublicKey
        accepted := s.accepted ++ [msg.kxPublicKey]
        reader := .snapshot msg }

/-- Is the exchange successful with this message (key_exchanger.go:473)? -/
def succeeds (cfg : Cfg) (msg : KxMsg) : Bool := isAnswer msg.flags || cfg.mode != 1

/-- Is it answered (key_exchanger.go:478)? -/
def answered (cfg : Cfg) (msg : KxMsg) : Bool := !isAnswer msg.flags && cfg.mode != 3

/-- The notifications (key_exchanger.go:473-485, 490-523). -/
def finish (cfg : Cfg) (s : State) (msg : KxMsg) : State :=
  let s1 := if succeeds cfg msg then { s with created := s.nextCreated, successes := s.successes + 1 } else s
  { s1 with answers := if answered cfg msg then s.answers ++ [.start] else s.answers, reader := .idle }

inductive Act where
  /-- a message arrives: `parseAndCheck` -/
  | recv (b : Bytes)
  /-- the next step of `Handle` -/
  | reader
  /-- the loop begins `updateLocalKey` -/
  | tick
  /-- the next step of the loop -/
  | main (key : Option Bytes) (now : Nat) (ok : Bool)
  /-- the loop sends the key again, gives up after the time-out, or has its notification -/
  | retry (ok : Bool)
  | timeout
  | done
  /-- the next step of an answer -/
  | answer (i : Nat) (key : Option Bytes) (now : Nat) (ok : Bool)
  /-- the context ends -/
  | cancel
  deriving DecidableEq, Repr

/-- A step of `Handle`. -/
def readerStep (C : Crypto) (cfg : Cfg) (s : State) : Outcome Crash State :=
  match s.reader with
  | .idle => .block
  | .parsed b msg => if s.main.locks then .block else .ok (enter C s b msg)
  | .snapshot msg =>
    match secrets C cfg.psk s.keys with
    | none => .err .zeroSecret
    | some l => .ok { s with reader := .publish msg l }
  | .publish msg l =>
    match publish s l with
    | none => .err .doubleClose
    | some s' => .ok { s' with reader := .finish msg }
  | .finish msg => .ok (finish cfg s msg)

/-- A step of the loop. -/
def mainStep (C : Crypto) (cfg : Cfg) (s : State) (key : Option Bytes) (now : Nat) (ok : Bool) : Outcome Crash State :=
  match s.main with
  | .gen g =>
    match genStep C cfg s key now g with
    | .ok (s', some g') => .ok { s' with main := .gen g' }
    | .ok (s', none) =>
      -- `nextKeyCreatedAt == 0` only if `GenerateKey` failed
      .ok { s' with main := if g = .gen then .idle else .send }
    | .err e => .err e
    | .panic => .panic
    | .block => .block
  | .send =>
    match sendPublicKey C cfg s false ok with
    | .ok s' => .ok { s' with main := .waiting }
    | .err e => .err e
    | .panic => .panic
    | .block => .block
  | _ => .block

/-- A step of an answering goroutine. -/
def answerStep (C : Crypto) (cfg : Cfg) (s : State) (i : Nat) (key : Option Bytes) (now : Nat) (ok : Bool) :
    Outcome Crash State :=
  match s.answers[i]? with
  | none => .block
  | some .start => .ok { s with answers := s.answers.set i (if s.nextPub = none then .gen .check else .send) }
  | some (.gen g) =>
    match genStep C cfg s key now g with
    | .ok (s', some g') => .ok { s' with answers := s.answers.set i (.gen g') }
    | .ok (s', none) => .ok { s' with answers := s.answers.set i .send }
    | .err e => .err e
    | .panic => .panic
    | .block => .block
  | some .send =>
    match sendPublicKey C cfg s true ok with
    | .ok s' => .ok { s' with answers := s.answers.eraseIdx i }
    | .err e => .err e
    | .panic => .panic
    | .block => .block

/-- One step. -/
def step (C : Crypto) (cfg : Cfg) (s : State) : Act → Outcome Crash State
  | .recv b =>
    match s.reader with
    | .idle =>
      match parseAndCheck C cfg s.remoteIdentity b with
      | .ok msg => .ok { s with reader := .parsed b msg }
      | .err e => .ok { s with reports := s.reports ++ report e }
      | .panic => .panic
      | .block => .block
    | _ => .block
  | .reader => readerStep C cfg s
  | .tick => if s.main = .idle ∧ s.ctx = false ∧ s.reader.locks = false then .ok { s with main := .gen .check } else .block
  | .main key now ok => mainStep C cfg s key now ok
  | .retry ok =>
    if s.main = .waiting then
      match sendPublicKey C cfg s false ok with
      | .ok s' => .ok s'
      | .err e => .err e
      | .panic => .panic
      | .block => .block
    else .block
  | .timeout =>
    if s.main = .waiting then .ok { s with main := .idle, ctx := true, reports := s.reports ++ [.timeout] } else .block
  | .done => if s.main = .waiting then .ok { s with main := .idle } else .block
  | .answer i key now ok => answerStep C cfg s i key now ok
  | .cancel => .ok { s with ctx := true }

inductive Reachable (C : Crypto) (cfg : Cfg) (remote : Option Bytes) : State → Prop
  | init : Reachable C cfg remote (State.init remote)
  | step {s s'} (a : Act) : Reachable C cfg remote s → step C cfg s a = .ok s' → Reachable C cfg remote s'

def runActs (C : Crypto) (cfg : Cfg) : State → List Act → Outcome Crash State
  | s, [] => .ok s
  | s, a :: as =>
    match step C cfg s a with
    | .ok s' => runActs C cfg s' as
    | .err e => .err e
    | .panic => .panic
    | .block => .block

end Verif.KX
