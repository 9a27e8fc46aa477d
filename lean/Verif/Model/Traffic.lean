import Verif.Model.Receive
import Verif.Spec.Receive
/-!
# Packet IDs of a session that sends and receives: session.go:531-535, 900-948, 1185-1265, 1853-1987, message.go:405-413

One session as its backend sees it: every `sendMessages` and every `decrypt` takes the next packet ID
(`AcquireMessagesContainerHeaders`), the reader loop checks the IDs of what it decrypts (`Verif.Receive`).  Keys are inputs
of every step.

Simplifications: a packet is given as the list of its messages (how messages are put together is `Verif.DelayedSend`);
messages that do not fit are refused before (`Verif.Send`); the backend takes a packet as a whole.
-/
namespace Verif.Traffic
open Verif.Headers Verif.Receive

structure Cfg where
  aux : Option Bytes
  sessionID : SessID
  /-- the largest size of all messages of a packet -/
  limit : Nat
  rc : Receive.Cfg
  env : Receive.Env
  /-- `PacketIDStorageSize` -/
  ids : Int

/-- A packet in `sendMessages`, between taking the packet ID (session.go:1874) and `backend.Write` (session.go:1969). -/
structure Pending where
  id : W64
  batch : List Msg
  key : Option Bytes
  confidential : Bool
  deriving DecidableEq, Repr

/-- A packet given to the backend. -/
structure Sent where
  id : W64
  batch : List Msg
  pkt : Bytes
  deriving DecidableEq, Repr

structure Side where
  /-- `nextPacketID`, without the wrap at 2^64 -/
  count : Nat
  pending : List Pending
  /-- what was written to the backend, in order -/
  out : List Sent
  rd : Reader
  running : Bool
  /-- effects of received packets -/
  got : List Event
  /-- ghost: the packet IDs that were checked -/
  hist : List W64

def Side.init (cfg : Cfg) : Side := ⟨0, [], [], Reader.init cfg.rc cfg.ids, true, [], []⟩

/-- `getNextPacketID` (session.go:531-535) when the counter is `c`. -/
def nextID (c : Nat) : W64 := BitVec.ofNat 64 (c + 1)

inductive Act where
  /-- `sendMessages` takes its packet ID -/
  | begin (batch : List Msg) (key : Option Bytes) (confidential : Bool)
  /-- the pending packet number `i` is written, or its `sendMessages` returns an error -/
  | finish (i : Nat) (ok : Bool)
  /-- the reader loop gets a packet from the backend -/
  | recv (keys : Keys) (p : Bytes)

/-- The packet ID whose check a packet leads to, if it is decrypted. -/
def checkedID (C : Packet.Crypto) (keys : Keys) (p : Bytes) : List W64 :=
  match Packet.decrypt C keys.aux keys.cipher keys.remote p with
  | .ok (h, _) => [packetIDValue h.packetID]
  | _ => []

/-- `decrypt` takes a packet ID for nothing, unless the packet is too short (session.go:1217-1222). -/
def takenBy (p : Bytes) : Nat := if p.length < containerHeadersSize then 0 else 1

def step (C : Packet.Crypto) (cfg : Cfg) (s : Side) : Act → Outcome Unit Side
  | .begin batch key confidential =>
    if (stream batch).length ≤ cfg.limit then
      .ok { s with count := s.count + 1, pending := s.pending ++ [⟨nextID s.count, batch, key, confidential⟩] }
    else .block
  | .finish i ok =>
    match s.pending[i]? with
    | none => .block
    | some x =>
      if ok then
        match Packet.sealPacket C cfg.aux x.key cfg.sessionID x.confidential x.id (stream x.batch) with
        | none => .panic
        | some pkt => .ok { s with pending := s.pending.eraseIdx i, out := s.out ++ [⟨x.id, x.batch, pkt⟩] }
      else .ok { s with pending := s.pending.eraseIdx i }
  | .recv keys p =>
    if s.running then
      match readerStep C cfg.rc cfg.env keys s.rd p with
      | .ok (rd, evs, go) =>
        .ok { s with count := s.count + takenBy p, rd := rd, running := go, got := s.got ++ evs
                     hist := s.hist ++ checkedID C keys p }
      | .err _ => .panic
      | .panic => .panic
      | .block => .block
    else .block

def run (C : Packet.Crypto) (cfg : Cfg) : Side → List Act → Outcome Unit Side
  | s, [] => .ok s
  | s, a :: as =>
    match step C cfg s a with
    | .ok s' => run C cfg s' as
    | .err e => .err e
    | .panic => .panic
    | .block => .block

/-- Any number of packets one after the other. -/
def recvs (keys : Keys) (ps : List Bytes) : List Act := ps.map (.recv keys)

/-- A packet sent without interruption. -/
def sendNow (batch : List Msg) (key : Option Bytes) : List Act := [.begin batch key true, .finish 0 true]

/-! ## Two sides -/

structure Net where
  a : Side
  b : Side

/-- A step of the first (`false`) or the second side (`true`).  The network may deliver anything. -/
def netStep (C : Packet.Crypto) (cfgA cfgB : Cfg) (n : Net) : Bool × Act → Outcome Unit Net
  | (false, x) =>
    match step C cfgA n.a x with
    | .ok a => .ok { n with a := a }
    | .err e => .err e
    | .panic => .panic
    | .block => .block
  | (true, x) =>
    match step C cfgB n.b x with
    | .ok b => .ok { n with b := b }
    | .err e => .err e
    | .panic => .panic
    | .block => .block

def Net.init (cfgA cfgB : Cfg) : Net := ⟨Side.init cfgA, Side.init cfgB⟩

end Verif.Traffic
