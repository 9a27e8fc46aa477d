import Verif.Model.KeyExchange
import Verif.Model.Receive
/-!
# MutualConfirmationOfIdentity: identity.go:277-347

The temporary session of the call: the models of the receive path (`Verif.Receive`), of packets (`Verif.Packet`) and of
the key exchanger (`Verif.KX`) put together, with the goroutine of the call.

Simplifications: the session is started (`Start` and `onStartFunc` worked); the messengers of key exchange and negotiation
are there from the start; the negotiation may end at any moment after the first success of the key exchange (it is
disabled for reliable backends, negotiator.go:148-160); packet IDs of sent packets are inputs; sending with and without
delay is the same; the end of the session is only seen by the reader (`readerEnd`) and by `Write` (`writeFail`), both at
any time; the queue of messages to be read is not limited (see `Verif.ReadQueue`); the deferred `Close` and `WaitForClosure` are left out (see `Verif.Lifecycle`), so `returned` is the moment when
they begin.
-/
namespace Verif.Mutual
open Verif.Headers

/-- Both kinds of primitives. -/
structure Crypto where
  kx : KX.Crypto
  pkt : Packet.Crypto

structure Cfg where
  kx : KX.Cfg
  rc : Receive.Cfg
  /-- is the session, when it detaches after a number of messages, still waiting for an answer (session.go:1006)? -/
  waits : List Receive.Event → Bool
  /-- `PacketIDStorageSize` -/
  ids : Int
  /-- the public key of `remoteIdentity`; `none` for nil -/
  remote : Option Bytes
  /-- `eventHandler.Error` of the caller returns true, so the handler of the call is not asked (event_handler.go:35-40) -/
  handled : Bool

/-- The options set by the call (identity.go:291-292); the answers mode `AnswerAndWait` is 1. -/
structure Cfg.OK (cfg : Cfg) : Prop where
  mode : cfg.kx.mode = 1
  fails : cfg.rc.detachOnFails = 2

/-- `auxCipherKey` of the session (session.go:511-513). -/
def aux (C : Crypto) (cfg : Cfg) : Option Bytes := cfg.kx.psk.map (KX.auxCipherKey C.kx)

/-- Message types with a messenger and with a channel (session.go:496, 508, 2045, 2089). -/
def env (cfg : Cfg) : Receive.Env where
  hasMessenger t := t == typeKeyExchange || t == typeNegotiation
  hasChan t := t == typeReadWrite
  waitsForAnswer := cfg.waits

/-- A message with its headers (session.go:1546-1573; `Verif.Headers`). -/
def message (t : W32) (flags : Byte) (payload : Bytes) : Bytes :=
  putLE 4 t.toNat ++ (putLE 4 payload.length ++ ([flags] ++ payload))

/-- How the call returns. -/
inductive Result where
  /-- the ephemeral keys without an error of its own -/
  | keys (ks : List (Option Bytes))
  /-- `ErrCanceled`: not four keys (identity.go:343-345) -/
  | canceled
  /-- "unable to write to the session" (identity.go:330-334) -/
  | writeErr
  /-- "unable to read from the session" (identity.go:336-340) -/
  | readErr
  deriving DecidableEq, Repr

/-- Where the call is. -/
inductive Call where
  /-- in `Write`, before the cipher keys are taken (session.go:1862) -/
  | writing
  /-- in `Write`, waiting for the state Established (session.go:1895-1902) -/
  | sealing (key : Option Bytes)
  /-- in `Read` -/
  | reading
  | returned (r : Result)
  deriving DecidableEq, Repr

structure State where
  kx : KX.State
  rd : Receive.Reader
  /-- effects of the last packet which are still to happen -/
  todo : List Receive.Event
  /-- is the reader loop running? -/
  running : Bool
  /-- `readChan[MessageTypeReadWrite]` -/
  queue : List Bytes
  established : Bool
  call : Call
  /-- the handler of the call has set `returnError` (identity.go:298-302) -/
  failed : Bool
  /-- packets sent -/
  out : List Bytes
  /-- ghost: packets read, messages given to the key exchanger, messages queued -/
  got : List Bytes
  kxGot : List Bytes
  rwGot : List Bytes

def State.init (cfg : Cfg) : State :=
  ⟨KX.State.init cfg.remote, Receive.Reader.init cfg.rc cfg.ids, [], true, [], false, .writing, false, [], [], [], []⟩

inductive Act where
  /-- the reader loop gets a packet -/
  | packet (p : Bytes)
  /-- the next effect of the packet -/
  | event
  /-- a step of the key exchanger; `pid` is the packet ID of a message it sends -/
  | kx (a : KX.Act) (pid : W64)
  /-- the negotiation is over -/
  | establish
  /-- the reader loop ends -/
  | readerEnd
  /-- `GetCipherKeysWait` in `Write`; `byCtx`: it saw the end of the context -/
  | takeKey (byCtx : Bool)
  /-- the packet of `Write` is sent, or fails -/
  | send (pid : W64) (ok : Bool)
  | writeFail
  | read
  deriving DecidableEq, Repr

/-- May the reader loop go on to the next packet? -/
def State.readerIdle (s : State) : Prop := s.running = true ∧ s.todo = [] ∧ s.kx.reader = .idle

instance (s : State) : Decidable s.readerIdle := by unfold State.readerIdle; infer_instance

/-- The keys with which a packet is opened now (session.go:1185-1262). -/
def keysOf (C : Crypto) (cfg : Cfg) (s : State) : Receive.Keys := ⟨aux C cfg, s.kx.sess.cipherKeys, s.kx.remoteSessionID⟩

/-- An effect of a packet.  Messages of the negotiation only concern the negotiator; every reported error makes the
handler of the call close the session (identity.go:303-306), and `ErrCannotDecrypt` is remembered. -/
def eventStep (C : Crypto) (cfg : Cfg) (s : State) : Receive.Event → Outcome Unit State
  | .handled t b =>
    if t = typeKeyExchange then
      match KX.step C.kx cfg.kx s.kx (.recv b) with
      | .ok kx => .ok { s with kx := kx, kxGot := s.kxGot ++ [b] }
      | .err _ => .panic
      | .panic => .panic
      | .block => .block
    else .ok s
  | .queued _ b => .ok { s with queue := s.queue ++ [b], rwGot := s.rwGot ++ [b] }
  | .errDecrypt .cannotDecrypt => .ok { s with failed := s.failed || !cfg.handled }
  | _ => .ok s

/-- The packets with the messages which a step of the key exchanger sent (key_exchanger.go:741-751, session.go:1853-1987):
not confidential, so under the auxiliary key. -/
def kxPackets (C : Crypto) (cfg : Cfg) (pid : W64) (before after : List Bytes) : List Bytes :=
  (after.drop before.length).filterMap fun m =>
    Packet.sealPacket C.pkt (aux C cfg) (aux C cfg) cfg.kx.sessionID false pid (message typeKeyExchange 0 m)

/-- The end of the call with the keys (identity.go:342-346).  `currentSecrets` and `cipherKeys` of the session have the
same contents: the secrets have 32 bytes (session.go:2125-2147). -/
def finalKeys (ks : List (Option Bytes)) : Result := if ks.length = 4 then .keys ks else .canceled

/-- `Read(nil)` (session.go:2167-2185): a message that is not empty does not fit. -/
def readStep (s : State) : Outcome Unit State :=
  match s.queue with
  | m :: q =>
    .ok { s with queue := q, call := .returned (if m = [] then finalKeys s.kx.sess.cipherKeys else .readErr) }
  | [] => if s.running then .block else .ok { s with call := .returned .readErr }

def step (C : Crypto) (cfg : Cfg) (s : State) : Act → Outcome Unit State
  | .packet p =>
    if s.readerIdle then
      match Receive.readerStep C.pkt cfg.rc (env cfg) (keysOf C cfg s) s.rd p with
      | .ok (rd, evs, go) => .ok { s with rd := rd, todo := evs, running := go, got := s.got ++ [p] }
      | .err _ => .panic
      | .panic => .panic
      | .block => .block
    else .block
  | .event =>
    match s.todo with
    | [] => .block
    | e :: rest => if s.kx.reader = .idle then eventStep C cfg { s with todo := rest } e else .block
  | .kx a pid =>
    match a with
    | .recv _ => .block
    | _ =>
      match KX.step C.kx cfg.kx s.kx a with
      | .ok kx => .ok { s with kx := kx, out := s.out ++ kxPackets C cfg pid s.kx.sent kx.sent }
      | .err _ => .panic
      | .panic => .panic
      | .block => .block
  | .establish => if 0 < s.kx.successes then .ok { s with established := true } else .block
  | .readerEnd => if s.readerIdle then .ok { s with running := false } else .block
  | .takeKey byCtx =>
    if s.call = .writing then
      match KX.getCipherKeysWait s.kx.sess byCtx s.kx.ctx with
      | .ok (some ks) =>
        match ks[0]? with
        | some k => .ok { s with call := .sealing k }
        | none => .panic
      | .ok none => .ok { s with call := .returned .writeErr }
      | .err _ => .panic
      | .panic => .panic
      | .block => .block
    else .block
  | .send pid ok =>
    match s.call with
    | .sealing k =>
      if s.established = false then .block
      else if ok = false then .ok { s with call := .returned .writeErr }
      else
        match Packet.sealPacket C.pkt (aux C cfg) k cfg.kx.sessionID true pid (message typeReadWrite 1 []) with
        | some p => .ok { s with call := .reading, out := s.out ++ [p] }
        | none => .panic
    | _ => .block
  | .writeFail =>
    match s.call with
    | .writing => .ok { s with call := .returned .writeErr }
    | .sealing _ => .ok { s with call := .returned .writeErr }
    | _ => .block
  | .read => if s.call = .reading then readStep s else .block

inductive Reachable (C : Crypto) (cfg : Cfg) : State → Prop
  | init : Reachable C cfg (State.init cfg)
  | step {s s'} (a : Act) : Reachable C cfg s → step C cfg s a = .ok s' → Reachable C cfg s'

def runActs (C : Crypto) (cfg : Cfg) : State → List Act → Outcome Unit State
  | s, [] => .ok s
  | s, a :: as =>
    match step C cfg s a with
    | .ok s' => runActs C cfg s' as
    | .err e => .err e
    | .panic => .panic
    | .block => .block

/-- The call gives the keys `ks` and no error. -/
def State.confirmed (s : State) (ks : List (Option Bytes)) : Prop := s.call = .returned (.keys ks) ∧ s.failed = false

/-! ## Both sides -/

/-- Two calls, connected by a network without attackers: it may lose, repeat and reorder packets. -/
structure Net where
  a : State
  b : State

/-- A packet is one that the other side has sent. -/
def deliverable (other : State) : Act → Bool
  | .packet p => other.out.contains p
  | _ => true

/-- A step of the first (`false`) or the second side (`true`). -/
def netStep (C : Crypto) (cfgA cfgB : Cfg) (n : Net) : Bool × Act → Outcome Unit Net
  | (false, x) =>
    if deliverable n.b x then
      match step C cfgA n.a x with
      | .ok a => .ok { n with a := a }
      | .err e => .err e
      | .panic => .panic
      | .block => .block
    else .block
  | (true, x) =>
    if deliverable n.a x then
      match step C cfgB n.b x with
      | .ok b => .ok { n with b := b }
      | .err e => .err e
      | .panic => .panic
      | .block => .block
    else .block

def netRun (C : Crypto) (cfgA cfgB : Cfg) : Net → List (Bool × Act) → Outcome Unit Net
  | n, [] => .ok n
  | n, x :: xs =>
    match netStep C cfgA cfgB n x with
    | .ok n' => netRun C cfgA cfgB n' xs
    | .err e => .err e
    | .panic => .panic
    | .block => .block

def Net.init (cfgA cfgB : Cfg) : Net := ⟨State.init cfgA, State.init cfgB⟩

end Verif.Mutual
