import Verif.Model.Packet
/-!
# What the packet properties talk about

`Genuine` says, without reference to the receive path, that a packet body carries two valid Poly1305
tags under a key: layout tag(16) ‖ tag(16) ‖ length(4) ‖ messages.
-/
namespace Verif.Packet

/-- The body (packet without packet ID) in the clear, when the key is `key` and the nonce `iv`. -/
def clear (C : Crypto) (key : Option Bytes) (iv body : Bytes) : Bytes :=
  match key with
  | none => body
  | some k => xorStream (C.keyStream k iv) 0 body

/-- The one-time MAC key of a packet. -/
def oneTimeKey (C : Crypto) (key : Option Bytes) (packetID : Bytes) : Bytes :=
  C.blake3 ((packetID ++ ((key.getD []) ++ List.replicate 24 0).take 24).zipWith (· ^^^ ·) polyXORer)

/-- First tag: authenticates the length field. -/
def HeaderOK (C : Crypto) (key : Option Bytes) (packetID iv body : Bytes) : Prop :=
  (clear C key iv body).take 16 =
    C.poly (oneTimeKey C key packetID) (((clear C key iv body).drop 32).take 4)

/-- Second tag: authenticates the messages. -/
def MessagesOK (C : Crypto) (key : Option Bytes) (packetID iv body : Bytes) : Prop :=
  ((clear C key iv body).drop 16).take 16 =
    C.poly (oneTimeKey C key packetID) ((clear C key iv body).drop 36)

/-- Both tags are valid under this one key. -/
def Genuine (C : Crypto) (key : Option Bytes) (packetID iv body : Bytes) : Prop :=
  HeaderOK C key packetID iv body ∧ MessagesOK C key packetID iv body

/-- The packet ID a packet carries on the wire, for a receiver with this auxiliary key. -/
def wirePacketID (C : Crypto) (aux : Option Bytes) (packet : Bytes) : Bytes :=
  clear C aux emptyIV (packet.take 8)

/-- Key material as the code produces it: 32-byte keys. -/
def KeyOK (k : Option Bytes) : Prop := ∀ b, k = some b → b.length = 32

/-- Byte-wise XOR of two strings (as long as the shorter one). -/
def xorBytes (a b : Bytes) : Bytes := a.zipWith (· ^^^ ·) b

end Verif.Packet
