import Verif.Model.Go
/-!
# Wire formats: message.go, message_fragment_headers.go, session.go (SessionID),
key_seed_update_message.go, negotiation_message.go

`Write(b)` of the code fills the beginning of the slice `b`; the model returns the new content of the
whole slice.  The only error of these functions is `ErrTooShort(expected, got)`.
-/
namespace Verif.Headers

/-- `ErrTooShort` (errors.go): expected and real length. -/
structure TooShort where
  expected : Nat
  got : Nat
  deriving DecidableEq, Repr

/-- `messageHeadersSize` (message.go:205): binary.Size of {uint32, uint32, uint8}. -/
def messageHeadersSize : Nat := 9
/-- `messagesContainerHeadersSize` (message.go:206): 8 + 16 + 16 + 4. -/
def containerHeadersSize : Nat := 44
/-- `poly1305.TagSize`. -/
def tagSize : Nat := 16
/-- `messageFragmentHeadersSize` (message_fragment_headers.go:9). -/
def fragmentHeadersSize : Nat := 24

/-! ## Message header -/

/-- `messageHeadersData` (message.go:118-122). -/
structure MsgHdr where
  type : W32
  length : W32
  flags : Byte
  deriving DecidableEq, Repr

/-- `IsConfidential` (message.go:138-140), flag bit 0. -/
def isConfidential (flags : Byte) : Bool := flags &&& 1 != 0
/-- `SetIsConfidential` (message.go:141-147). -/
def setIsConfidential (flags : Byte) (v : Bool) : Byte :=
  if v then flags ||| 1 else flags &&& ~~~1
/-- `IsFragmented` (message.go:149-151), flag bit 1. -/
def isFragmented (flags : Byte) : Bool := flags &&& 2 != 0
/-- `SetIsFragmented` (message.go:152-158). -/
def setIsFragmented (flags : Byte) (v : Bool) : Byte :=
  if v then flags ||| 2 else flags &&& ~~~2

/-- `(*messageHeadersData).Read` (message.go:257-269). -/
def MsgHdr.read (b : Bytes) : Outcome TooShort MsgHdr :=
  if b.length < messageHeadersSize then .err ⟨messageHeadersSize, b.length⟩
  else
    let type := BitVec.ofNat 32 (getLE (b.take 4))
    let b := b.drop 4
    let length := BitVec.ofNat 32 (getLE (b.take 4))
    let b := b.drop 4
    .ok { type := type, length := length, flags := b.headD 0 }

/-- `(*messageHeadersData).Write` (message.go:271-284). -/
def MsgHdr.write (h : MsgHdr) (b : Bytes) : Outcome TooShort Bytes :=
  if b.length < messageHeadersSize then .err ⟨messageHeadersSize, b.length⟩
  else .ok (putLE 4 h.type.toNat ++ putLE 4 h.length.toNat ++ [h.flags] ++ b.drop 9)

/-! ## Container header -/

/-- `messagesContainerHeadersData` (message.go:189-195). The arrays are byte lists; see
`ContainerHdr.WF` for their fixed lengths. -/
structure ContainerHdr where
  packetID : Bytes
  headersChecksum : Bytes
  messagesChecksum : Bytes
  length : W32
  deriving DecidableEq, Repr

/-- Array lengths of `messagesContainerHeadersData`. -/
structure ContainerHdr.WF (h : ContainerHdr) : Prop where
  pid : h.packetID.length = 8
  hc : h.headersChecksum.length = 16
  mc : h.messagesChecksum.length = 16

/-- `packetID.Value` (message.go:162-164). -/
def packetIDValue (id : Bytes) : W64 := BitVec.ofNat 64 (getLE id)

/-- `binaryOrderType.PutUint64` of a packet ID (message.go:171-173). -/
def packetIDBytes (v : W64) : Bytes := putLE 8 v.toNat

/-- `(*messagesContainerHeadersData).Write` (message.go:346-364). -/
def ContainerHdr.write (h : ContainerHdr) (b : Bytes) : Outcome TooShort Bytes :=
  if b.length < containerHeadersSize then .err ⟨containerHeadersSize, b.length⟩
  else .ok (h.packetID ++ h.headersChecksum ++ h.messagesChecksum ++ putLE 4 h.length.toNat
    ++ b.drop 44)

/-- `ReadAfterIV` (message.go:335-344): reads everything but the packet ID.  Slicing a too short
buffer panics. Returns the header and the number of consumed bytes. -/
def readAfterIV (packetID : Bytes) (b : Bytes) : Outcome TooShort (ContainerHdr × Nat) :=
  if b.length < tagSize then .panic
  else
    let hc := b.take tagSize
    let b := b.drop tagSize
    if b.length < tagSize then .panic
    else
      let mc := b.take tagSize
      let b := b.drop tagSize
      if b.length < 4 then .panic
      else .ok ({ packetID := packetID, headersChecksum := hc, messagesChecksum := mc,
                  length := BitVec.ofNat 32 (getLE (b.take 4)) }, containerHeadersSize - 8)

/-- `(*messagesContainerHeadersData).Read` (message.go:318-333). -/
def ContainerHdr.read (b : Bytes) : Outcome TooShort (ContainerHdr × Nat) :=
  if b.length < containerHeadersSize then .err ⟨containerHeadersSize, b.length⟩
  else
    match readAfterIV (b.take 8) (b.drop 8) with
    | .ok (h, n) => .ok (h, n + 8)
    | .err e => .err e
    | .panic => .panic
    | .block => .block

/-! ## Fragment header -/

/-- `messageFragmentHeadersData` (message_fragment_headers.go:18-22). -/
structure FragHdr where
  chainID : W64
  startPos : W64
  total : W64
  deriving DecidableEq, Repr

/-- `(*messageFragmentHeadersData).Write` (message_fragment_headers.go:54-67). -/
def FragHdr.write (h : FragHdr) (b : Bytes) : Outcome TooShort Bytes :=
  if b.length < fragmentHeadersSize then .err ⟨fragmentHeadersSize, b.length⟩
  else .ok (putLE 8 h.chainID.toNat ++ putLE 8 h.startPos.toNat ++ putLE 8 h.total.toNat
    ++ b.drop 24)

/-- `(*messageFragmentHeadersData).Read` (message_fragment_headers.go:69-82). -/
def FragHdr.read (b : Bytes) : Outcome TooShort FragHdr :=
  if b.length < fragmentHeadersSize then .err ⟨fragmentHeadersSize, b.length⟩
  else
    let chainID := BitVec.ofNat 64 (getLE (b.take 8))
    let b := b.drop 8
    let startPos := BitVec.ofNat 64 (getLE (b.take 8))
    let b := b.drop 8
    .ok { chainID := chainID, startPos := startPos, total := BitVec.ofNat 64 (getLE (b.take 8)) }

/-! ## Session ID -/

/-- `SessionID` (session.go:81-84). -/
structure SessID where
  createdAt : W64
  random : W64
  deriving DecidableEq, Repr

/-- `SessionID.Bytes` (session.go:87-91). -/
def SessID.bytes (s : SessID) : Bytes := putLE 8 s.createdAt.toNat ++ putLE 8 s.random.toNat

/-- `SessionID.FillFromBytes` (session.go:95-98); `none` is the panic on a short slice. -/
def SessID.fillFromBytes (b : Bytes) : Option SessID :=
  if b.length < 16 then none
  else some { createdAt := BitVec.ofNat 64 (getLE (b.take 8)),
              random := BitVec.ofNat 64 (getLE ((b.drop 8).take 8)) }

/-! ## Key-exchange message -/

/-- `keySeedUpdateMessage` (key_seed_update_message.go:22-28). -/
structure KxMsg where
  sessionID : SessID
  identityPublicKey : Bytes
  kxPublicKey : Bytes
  answersMode : Byte
  flags : Byte
  deriving DecidableEq, Repr

/-- Array lengths of `keySeedUpdateMessage`. -/
structure KxMsg.WF (m : KxMsg) : Prop where
  ident : m.identityPublicKey.length = 32
  kx : m.kxPublicKey.length = 32

/-- `keySignatureSize` = ed25519.SignatureSize. -/
def signatureSize : Nat := 64
/-- `keySeedUpdateMessageSignedSize` (key_seed_update_message.go:9): 64 + 16 + 32 + 32 + 1 + 1. -/
def kxSignedSize : Nat := 146

/-- `IsAnswer` (key_seed_update_message.go:36-38). -/
def isAnswer (flags : Byte) : Bool := flags &&& 1 != 0
/-- `SetIsAnswer` (key_seed_update_message.go:40-46). -/
def setIsAnswer (flags : Byte) (v : Bool) : Byte := if v then flags ||| 1 else flags &&& ~~~1

/-- `binary.Write(buf, LittleEndian, msg)` of `keySeedUpdateMessage` (key_exchanger.go:733). -/
def KxMsg.encode (m : KxMsg) : Bytes :=
  putLE 8 m.sessionID.createdAt.toNat ++ putLE 8 m.sessionID.random.toNat ++
    m.identityPublicKey ++ m.kxPublicKey ++ [m.answersMode] ++ [m.flags]

/-- `binary.Read` of `keySeedUpdateMessage` (key_exchanger.go:360) from the 82 signed bytes. -/
def KxMsg.decode (b : Bytes) : KxMsg :=
  { sessionID := { createdAt := BitVec.ofNat 64 (getLE (b.take 8)),
                   random := BitVec.ofNat 64 (getLE ((b.drop 8).take 8)) },
    identityPublicKey := (b.drop 16).take 32,
    kxPublicKey := (b.drop 48).take 32,
    answersMode := (b.drop 80).headD 0,
    flags := (b.drop 81).headD 0 }

/-! ## Negotiation messages -/

/-- `negotiationControlMessage` (negotiation_message.go:3-7). -/
structure ControlMsg where
  subType : Byte
  largestRTT : W32
  flags : Byte
  deriving DecidableEq, Repr

/-- Size of `negotiationControlMessage`. -/
def controlSize : Nat := 6

/-- `SetIsNegotiationEnd` (negotiation_message.go:15-21). -/
def setIsEnd (flags : Byte) (v : Bool) : Byte := if v then flags ||| 1 else flags &&& ~~~1
/-- `IsNegotiationEnd` (negotiation_message.go:23-25). -/
def isEnd (flags : Byte) : Bool := flags &&& 1 != 0

/-- `binary.Write` of `negotiationControlMessage` (negotiator.go:398). -/
def ControlMsg.encode (m : ControlMsg) : Bytes := [m.subType] ++ putLE 4 m.largestRTT.toNat ++ [m.flags]

/-- `parseMessage` of `negotiationControlMessage` (negotiator.go:414-421). -/
def ControlMsg.parse (b : Bytes) : Outcome TooShort ControlMsg :=
  if b.length < controlSize then .err ⟨controlSize, b.length⟩
  else .ok { subType := b.headD 0, largestRTT := BitVec.ofNat 32 (getLE ((b.drop 1).take 4)),
             flags := (b.drop 5).headD 0 }

/-- `negotiationPingPongMessage` (negotiation_message.go:27-41) without its payload. -/
structure PingPong where
  subType : Byte
  checksum : Bytes
  iterationID : W32
  deriving DecidableEq, Repr

/-- Size of `negotiationPingPongMessage`. -/
def pingPongSize : Nat := 69

/-- `parseMessage` of `negotiationPingPongMessage` (negotiator.go:414-421).  (The error mentions the
size of the control message, as in the code.) -/
def PingPong.parse (b : Bytes) : Outcome TooShort PingPong :=
  if b.length < pingPongSize then .err ⟨controlSize, b.length⟩
  else .ok { subType := b.headD 0, checksum := (b.drop 1).take 64,
             iterationID := BitVec.ofNat 32 (getLE ((b.drop 65).take 4)) }

/-- The payload bytes of a ping: `buf[msgSize+idx] = uint8(idx)` (negotiator.go:248-250). -/
def pingFill (n : Nat) : Bytes := (List.range n).map fun i => BitVec.ofNat 8 i

/-- The packet built by `sendPing` (negotiator.go:240-259): `none` is the panic of slicing a
buffer smaller than the header.  `sha512` is a parameter. -/
def pingBytes (sha512 : Bytes → Bytes) (iterationID : W32) (size : Nat) : Option Bytes :=
  if size < pingPongSize then none
  else
    let tail := putLE 4 iterationID.toNat ++ pingFill (size - pingPongSize)
    some ([1] ++ sha512 tail ++ tail)

/-- What `handlePingPongMessage(b, isPing)` (negotiator.go:450-484) does with a ping: it sends it
back with the first byte replaced. -/
def pongOf (b : Bytes) : Bytes := 2 :: b.drop 1

/-- How `handlePingPongMessage` (negotiator.go:458-481) judges a pong: `ok (size, iteration)` is what
is sent to `recvChan`; `none` an invalid checksum. -/
def acceptPong (sha512 : Bytes → Bytes) (b : Bytes) : Outcome TooShort (Option (Nat × W32)) :=
  match PingPong.parse b with
  | .ok m =>
    if m.checksum = sha512 (b.drop 65) then .ok (some (b.length, m.iterationID)) else .ok none
  | .err e => .err e
  | .panic => .panic
  | .block => .block

/-! ## Message types -/

/-- `messageTypeUndefined` (message.go:60). -/
def typeUndefined : W32 := 0
/-- `messageTypeKeyExchange` (message.go:61): `^uint32(0) - iota` with iota = 1. -/
def typeKeyExchange : W32 := ~~~0 - 1
/-- `messageTypeNegotiation` (message.go:62). -/
def typeNegotiation : W32 := ~~~0 - 2
/-- `MessageTypeReadWrite` (message.go:67). -/
def typeReadWrite : W32 := ~~~0 - 3
/-- `messageTypeReservedAbove` (message.go:82), iota = 18. -/
def typeReservedAbove : W32 := ~~~0 - 18

/-- `isInternal` (message.go:85-91). -/
def isInternal (t : W32) : Bool := t = typeKeyExchange || t = typeNegotiation

/-- `MessageTypeChannel` (message.go:95-100); `none` is the panic "channelID is too high".  The
additions wrap. -/
def typeChannel (channelID : W32) : Option W32 :=
  if channelID + 1 ≥ typeReservedAbove then none else some (channelID + 1)

/-! ## Payload size limits -/

/-- `SetPayloadSizeLimit` / `SetPayloadLossySizeLimit` (message.go:39-49): the stored value. -/
def setLimit (newSize : W32) : W32 := newSize &&& ~~~(16 - 1)

/-- Default `payloadSizeLimit` (message.go:32-35; maxPossiblePacketSize = 1<<16 - 256). -/
def defaultLimit : W32 := setLimit (BitVec.ofNat 32 (2 ^ 16 - 256 - containerHeadersSize - messageHeadersSize))

/-- Default `payloadLossySizeLimit` (message.go:34). -/
def defaultLossyLimit : W32 :=
  setLimit (BitVec.ofNat 32 (1500 - 48 - containerHeadersSize - messageHeadersSize))

end Verif.Headers
