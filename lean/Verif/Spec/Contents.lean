import Verif.Model.Packet
/-! # Specification: what an observer of the packets can learn

The key stream of XChaCha20 is a parameter of the model.  An observer who does not know the key knows
nothing about it, so two lists of contents cannot be told apart by what is sent if for the one list and
*some* key stream the same bytes are sent as for the other list and the actual key stream. -/
namespace Verif.Contents
open Verif.Packet Verif.Headers

/-- A packet that is sent: the key, what the nonce is made of, and two contents: the `actual` messages
and what the observer may take them for. -/
structure Sent where
  key : Bytes
  session : SessID
  confidential : Bool
  id : W64
  actual : Bytes
  other : Bytes

/-- The same parameters with another key stream. -/
def withStream (C : Crypto) (ks : Bytes → Bytes → Nat → Byte) : Crypto := { C with keyStream := ks }

/-- What is sent of the actual contents. -/
def seen (C : Crypto) (aux : Option Bytes) (l : List Sent) : List (Option Bytes) :=
  l.map fun p => sealPacket C aux (some p.key) p.session p.confidential p.id p.actual

/-- What would be sent of the other contents. -/
def seenOther (C : Crypto) (aux : Option Bytes) (l : List Sent) : List (Option Bytes) :=
  l.map fun p => sealPacket C aux (some p.key) p.session p.confidential p.id p.other

/-- Nothing that is sent tells whether the contents are the actual ones or the others. -/
def Hidden (C : Crypto) (aux : Option Bytes) (l : List Sent) : Prop :=
  ∃ ks, seenOther (withStream C ks) aux l = seen C aux l

end Verif.Contents
