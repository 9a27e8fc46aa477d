import Verif.Model.Headers
import Verif.Model.Packet
/-!
# The send path, one call at a time: session.go:1377-1391, 1432-1572, 1853-1987

What a single `Write…` call decides and which bytes it hands to the backend.  Aggregation of messages in
the delayed buffer by concurrent goroutines is `Verif.Model.DelayedSend`.  `len(payload)` is a natural
number below 2^63; the conversions `uint32(len(…))` of the code are `% 2^32`.
-/
namespace Verif.Send
open Verif.Headers

/-- Options and negotiated values used by the send path. -/
structure Cfg where
  /-- `sess.establishedPayloadSize` -/
  established : W32
  /-- `SessionOptions.EnableFragmentation` -/
  fragmentation : Bool
  /-- `SessionOptions.SendDelay != nil` -/
  delay : Bool

/-- `uint32(len(b))`. -/
def len32 (b : Bytes) : Nat := b.length % 2 ^ 32

/-- `messageHeadersData.Set` (message.go:230-233), `hdr.Write` and the copy of the payload
(session.go:1556-1565): the bytes of one message. -/
def messageBytes (t : W32) (flags : Byte) (payload : Bytes) : Bytes :=
  putLE 4 t.toNat ++ putLE 4 (len32 payload) ++ [flags] ++ payload

/-- `GetEstablishedPacketSize` (session.go:580-584), a wrapping `uint32` sum, in a state in which
`GetEstablishedPayloadSize` returns the established size. -/
def packetSize (cfg : Cfg) : Nat := (cfg.established.toNat + containerHeadersSize + messageHeadersSize) % 2 ^ 32

/-- A fragment as passed to `writeMessageFragment`. -/
structure Fragment where
  chainID : W64
  startPos : Nat
  total : Nat
  payload : Bytes
  deriving DecidableEq, Repr

/-- The loop of `writeMessageAsyncAsFragmented` (session.go:1486-1501); `max` is `maxPayloadLength`.
`none` means that it never ends (a fragment of length 0).  The goroutines may send the fragments in any
order; the list is in the order of creation. -/
def fragmentLoop (chainID : W64) (total max : Nat) : (fuel : Nat) → (curPos : Nat) → Bytes → Option (List Fragment)
  | _, _, [] => some []
  | 0, _, _ :: _ => none
  | fuel + 1, pos, payload =>
    let length := if max > len32 payload then len32 payload else max
    (fragmentLoop chainID total max fuel (pos + length) (payload.drop length)).map
      (⟨chainID, pos, total, payload.take length⟩ :: ·)

/-- `writeMessageAsyncAsFragmented` (session.go:1469-1510): the fragments; `maxFragmentLength -
uint32(messageFragmentHeadersSize)` wraps.  Every round takes at least one byte or none for ever, so
`payload.length` rounds suffice. -/
def fragments (cfg : Cfg) (chainID : W64) (payload : Bytes) : Option (List Fragment) :=
  let max := (cfg.established - BitVec.ofNat 32 fragmentHeadersSize).toNat
  fragmentLoop chainID payload.length max payload.length 0 payload

/-- What `writeMessageFragment` (session.go:1512-1544) passes on: the payload with the fragment header,
flags: only `IsFragmented`. -/
def fragmentPayload (f : Fragment) : Bytes :=
  putLE 8 f.chainID.toNat ++ putLE 8 f.startPos ++ putLE 8 f.total ++ f.payload

/-- One packet about to be sent: the arguments of `sendMessages`. -/
structure Job where
  confidential : Bool
  internal : Bool
  messages : Bytes
  deriving DecidableEq, Repr

/-- `writeMessageSingle` (session.go:1546-1572) up to the call of `sendMessages`. -/
def single (t : W32) (flags : Byte) (payload : Bytes) : Job :=
  ⟨isConfidential flags, isInternal t, messageBytes t flags payload⟩

/-- What `WriteMessageAsync` (session.go:1432-1467) does with a message. -/
inductive Plan where
  /-- `ErrPayloadTooBig` -/
  | tooBig (limit size : Nat)
  /-- sent at once -/
  | now (job : Job)
  /-- appended to the delayed buffer (`writeMessageAsync`) -/
  | later (message : Bytes)
  /-- one packet for each fragment, in any order -/
  | fragmented (jobs : List Job)
  /-- the call never returns -/
  | hangs
  deriving DecidableEq, Repr

/-- `WriteMessageAsync` (session.go:1432-1467). -/
def writeMessageAsync (cfg : Cfg) (chainID : W64) (t : W32) (payload : Bytes) : Plan :=
  if len32 payload > cfg.established.toNat ∧ ¬ isInternal t then
    if ¬ cfg.fragmentation then .tooBig cfg.established.toNat payload.length
    else match fragments cfg chainID payload with
      | none => .hangs
      | some fs => .fragmented (fs.map fun f => single t (setIsFragmented 0 true) (fragmentPayload f))
  else
    let flags := setIsConfidential 0 (t != typeKeyExchange)
    if ¬ isConfidential flags ∨ ¬ cfg.delay then .now (single t flags payload)
    else .later (messageBytes t flags payload)

/-- `WriteMessageSingle` (session.go:1377-1391). -/
def writeMessageSingle (t : W32) (payload : Bytes) : Job :=
  single t (setIsConfidential 0 (t != typeKeyExchange)) payload

/-- Errors of `sendMessages`. -/
inductive SendErr where
  | canceled
  | alreadyClosed
  | tooBig
  deriving DecidableEq, Repr

/-- What `sendMessages` sees: `GetCipherKeysWait()[secretIDRecentBoth]` (`none` = cancelled before there was
a key), the auxiliary key, its packet ID, whether the session was or became established (otherwise it was
cancelled before), and `isDone()` right before the write. -/
structure Now where
  cipherKey : Option Bytes
  aux : Option Bytes
  sessionID : SessID
  packetID : W64
  established : Bool
  done : Bool

/-- `sendMessages` (session.go:1853-1987): the bytes handed to `backend.Write`.  The sizes compared in
line 1905 are `uint32`.  `roundSize(uint32(buf.Len()), 1)` (session.go:75-77, 1928) cuts a buffer of 4 GiB
or more. -/
def sendMessages (C : Packet.Crypto) (cfg : Cfg) (now : Now) (job : Job) : Outcome SendErr Bytes :=
  match (if job.confidential then now.cipherKey.map some else some now.aux) with
  | none => .err .canceled
  | some key =>
    if ¬ job.internal ∧ ¬ now.established then .err .alreadyClosed
    else if ¬ job.internal ∧
        (containerHeadersSize + len32 job.messages) % 2 ^ 32 > packetSize cfg then .err .tooBig
    else
      match Packet.sealPacket C now.aux key now.sessionID job.confidential now.packetID job.messages with
      | none => .panic
      | some out =>
        let out := match key with
          | none => out
          | some _ => out.take ((containerHeadersSize + job.messages.length) % 2 ^ 32)
        if now.done then .err .alreadyClosed else .ok out

end Verif.Send
