import Verif.Model.Send
import Verif.Spec.Packet
/-!
# What the send properties talk about
-/
namespace Verif.Send
open Verif.Headers

/-- Total length of the payloads of fragments. -/
def covered : List Fragment → Nat
  | [] => 0
  | f :: fs => f.payload.length + covered fs

/-- The fragments are the payload cut into consecutive pieces, each labelled with its position, the total
size and the chain ID, none empty, each fitting (with its 24-byte header) into `limit`. -/
structure Covers (fs : List Fragment) (chainID : W64) (limit : Nat) (payload : Bytes) : Prop where
  whole : fs.flatMap (·.payload) = payload
  pos : ∀ pre f post, fs = pre ++ f :: post → f.startPos = covered pre
  total : ∀ f ∈ fs, f.total = payload.length ∧ f.chainID = chainID
  fits : ∀ f ∈ fs, f.payload ≠ [] ∧ 24 + f.payload.length ≤ limit

/-- `out` carries the messages encrypted with the key `k` and the nonce made of session ID and packet ID: the
8 bytes in front only carry the packet ID, and the messages and the 36 bytes of tags and length before
them occur XORed with the key stream of `k`. -/
def EncryptedUnder (C : Packet.Crypto) (aux : Option Bytes) (k : Bytes) (sid : SessID) (pid : W64)
    (msgs out : Bytes) : Prop :=
  ∃ header tags, header.length = 8 ∧ Packet.wirePacketID C aux header = packetIDBytes pid ∧
    tags.length = 36 ∧
    out = header ++ Packet.xorStream (C.keyStream k (sid.bytes ++ packetIDBytes pid)) 0 (tags ++ msgs)

end Verif.Send
