import Verif.Model.Headers
/-!
# Packet encryption and decryption: crypt.go, message.go:286-316, session.go:1103-1295, 1853-1987

The primitives are parameters (`Crypto`): nothing is assumed about them but the sizes of their
results.  ChaCha20 is an arbitrary key stream which depends on key and nonce; Poly1305 and BLAKE3 are
arbitrary functions.
-/
namespace Verif.Packet
open Verif.Headers

/-- The cryptographic primitives. -/
structure Crypto where
  /-- byte number `i` of the ChaCha20 / XChaCha20 key stream -/
  keyStream : (key iv : Bytes) → Nat → Byte
  /-- `poly1305.Sum`: key, message -/
  poly : Bytes → Bytes → Bytes
  /-- `blake3.Sum256` -/
  blake3 : Bytes → Bytes
  poly_length : ∀ k m, (poly k m).length = 16

/-- XOR of a byte string with a key stream starting at position `i`. -/
def xorStream (ks : Nat → Byte) (i : Nat) : Bytes → Bytes
  | [] => []
  | b :: bs => (b ^^^ ks i) :: xorStream ks (i + 1) bs

/-- `encrypt` and `decrypt` (crypt.go:12-20) into a destination of the length of the source:
`chacha20.XORKeyStream` panics (`none`) unless the key has 32 bytes and the nonce 8, 12 or 24. -/
def crypt (C : Crypto) (key iv src : Bytes) : Option Bytes :=
  if key.length = 32 ∧ (iv.length = 8 ∨ iv.length = 12 ∨ iv.length = 24) then
    some (xorStream (C.keyStream key iv) 0 src)
  else none

/-- `emptyIV` (crypt.go:9). -/
def emptyIV : Bytes := List.replicate 24 0

/-- `poly1305KeyXORer[:32]` (message.go:52): "github.com/xaionaro-go/secureio " in ASCII. -/
def polyXORer : Bytes :=
  [103, 105, 116, 104, 117, 98, 46, 99, 111, 109, 47, 120, 97, 105, 111, 110, 97, 114, 111, 45, 103,
   111, 47, 115, 101, 99, 117, 114, 101, 105, 111, 32]

/-- `copy` into 24 zero bytes: truncated or zero-padded. -/
def fit24 (k : Bytes) : Bytes := (k ++ List.replicate 24 0).take 24

/-- The preimage of the one-time key (message.go:291-295): packet ID and the first 24 bytes of the
cipher key (zeros if there is no key), XORed with a constant. -/
def polyKeyInput (packetID : Bytes) (key : Option Bytes) : Bytes :=
  (packetID ++ fit24 (key.getD [])).zipWith (· ^^^ ·) polyXORer

/-- `calculatePoly1305Key` (message.go:290-298). -/
def polyKey (C : Crypto) (packetID : Bytes) (key : Option Bytes) : Bytes :=
  C.blake3 (polyKeyInput packetID key)

/-- `CalculateHeadersChecksumTo` (message.go:300-307): over the 4 bytes of `Length` (in memory order,
little endian on the supported platforms). -/
def headersChecksum (C : Crypto) (key : Option Bytes) (packetID : Bytes) (length : W32) : Bytes :=
  C.poly (polyKey C packetID key) (putLE 4 length.toNat)

/-- `CalculateMessagesChecksumTo` (message.go:309-316). -/
def messagesChecksum (C : Crypto) (key : Option Bytes) (packetID msgs : Bytes) : Bytes :=
  C.poly (polyKey C packetID key) msgs

/-! ## Sending -/

/-- `messagesContainerHeadersData.Set` (message.go:424-429). -/
def containerSet (C : Crypto) (key : Option Bytes) (packetID msgs : Bytes) : ContainerHdr :=
  let length := BitVec.ofNat 32 msgs.length
  { packetID := packetID, length := length,
    headersChecksum := headersChecksum C key packetID length,
    messagesChecksum := messagesChecksum C key packetID msgs }

/-- The plain text of a packet (`buf` in `sendMessages`, session.go:1880-1891): header, then messages. -/
def plainPacket (C : Crypto) (key : Option Bytes) (packetID msgs : Bytes) : Bytes :=
  let h := containerSet C key packetID msgs
  h.packetID ++ h.headersChecksum ++ h.messagesChecksum ++ putLE 4 h.length.toNat ++ msgs

/-- The IV used by `sendMessages` (session.go:1936-1944). -/
def sendIV (sessionID : SessID) (confidential : Bool) (packetID : Bytes) : Bytes :=
  if confidential then sessionID.bytes ++ packetID else packetID

/-- The bytes `sendMessages` (session.go:1853-1987) hands to `backend.Write` for a packet of
`messages` with the given cipher key (`cipherKeys[0]` if confidential, otherwise the auxiliary key).
`roundSize` with block size 1 (session.go:66,75-77) adds nothing, as long as the packet is shorter
than 2^32 bytes.  `none` is a panic of the cipher. -/
def sealPacket (C : Crypto) (aux key : Option Bytes) (sessionID : SessID) (confidential : Bool) (pid : W64)
    (msgs : Bytes) : Option Bytes :=
  let packetID := packetIDBytes pid
  let plain := plainPacket C key packetID msgs
  match key with
  | none => some plain
  | some k =>
    match crypt C k (sendIV sessionID confidential packetID) (plain.drop 8) with
    | none => none
    | some body =>
      match aux with
      | none => some (packetID ++ body)
      | some a =>
        match crypt C a emptyIV packetID with
        | none => none
        | some encID => some (encID ++ body)

/-! ## Packet IDs -/

/-- Who takes a packet ID: `AcquireMessagesContainerHeaders` (message.go:405-413) is called by
`sendMessages` and, needlessly, by `decrypt` (session.go:1222). -/
inductive Taker where
  | send (confidential : Bool)
  | receive
  deriving DecidableEq, Repr

/-- The packet IDs given out for a sequence of requests by `getNextPacketID` (session.go:531-535),
an atomic `AddUint64(&nextPacketID, 1)`, starting at counter value `c` (0 for a new session).  Since
the addition is atomic, every interleaving of goroutines is such a sequence. -/
def takeIDs (c : W64) : List Taker → List (Taker × W64)
  | [] => []
  | t :: ts => (t, c + 1) :: takeIDs (c + 1) ts

/-! ## Receiving -/

/-- Errors of `decrypt`. -/
inductive DecryptErr where
  | tooShort (e : TooShort)
  | invalidChecksum
  | cannotDecrypt
  deriving DecidableEq, Repr

/-- The decryption step of `tryDecrypt` (session.go:1111-1126): without a key the bytes are copied. -/
def plainOf (C : Crypto) (key : Option Bytes) (iv enc : Bytes) : Option Bytes :=
  match key with
  | some k => crypt C k iv enc
  | none => some enc

/-- `tryDecrypt` (session.go:1103-1153).  `ok none`: the header checksum does not match (try the next
key); `ok (some _)`: container header and messages bytes. -/
def tryDecrypt (C : Crypto) (packetID enc : Bytes) (key : Option Bytes) (iv : Bytes) :
    Outcome DecryptErr (Option (ContainerHdr × Bytes)) :=
  match plainOf C key iv enc with
  | none => .panic
  | some plain =>
    match readAfterIV packetID plain with
    | .ok (h, n) =>
      if headersChecksum C key h.packetID h.length ≠ h.headersChecksum then .ok none
      else
        let msgs := plain.drop n
        if messagesChecksum C key h.packetID msgs ≠ h.messagesChecksum then .err .invalidChecksum
        else .ok (some (h, msgs))
    | .err e => .err (.tooShort e)
    | .panic => .panic
    | .block => .block

/-- `fillWithRemoteIV` (session.go:1155-1169).  Without a remote session ID the buffer keeps what it
had in the pool (length 0 for a recycled buffer); modelled as empty. -/
def remoteIV (remote : Option SessID) (packetID : Bytes) : Bytes :=
  match remote with
  | none => []
  | some s => s.bytes ++ packetID

/-- `decryptPacketIDBytes` (session.go:1171-1183). -/
def decryptPacketID (C : Crypto) (aux : Option Bytes) (enc : Bytes) : Option Bytes :=
  match aux with
  | none => some enc
  | some a => crypt C a emptyIV enc

/-- The loop over the cipher keys (session.go:1239-1247), nil keys are skipped. -/
def tryKeys (C : Crypto) (packetID enc iv : Bytes) :
    List (Option Bytes) → Outcome DecryptErr (Option (ContainerHdr × Bytes))
  | [] => .ok none
  | none :: ks => tryKeys C packetID enc iv ks
  | some k :: ks =>
    match tryDecrypt C packetID enc (some k) iv with
    | .ok none => tryKeys C packetID enc iv ks
    | r => r

/-- `Session.decrypt` (session.go:1185-1265): `keys` are the current cipher keys in their order
(empty before the first key exchange), `aux` the PSK-derived key. -/
def decrypt (C : Crypto) (aux : Option Bytes) (keys : List (Option Bytes)) (remote : Option SessID)
    (packet : Bytes) : Outcome DecryptErr (ContainerHdr × Bytes) :=
  if packet.length < containerHeadersSize then .err (.tooShort ⟨containerHeadersSize, packet.length⟩)
  else
    match decryptPacketID C aux (packet.take 8) with
    | none => .panic
    | some packetID =>
      let enc := packet.drop 8
      match tryKeys C packetID enc (remoteIV remote packetID) keys with
      | .ok (some r) => .ok r
      | .err e => .err e
      | .panic => .panic
      | .block => .block
      | .ok none =>
        match tryDecrypt C packetID enc aux packetID with
        | .ok (some r) => .ok r
        | .ok none => .err .cannotDecrypt
        | .err e => .err e
        | .panic => .panic
        | .block => .block

end Verif.Packet
