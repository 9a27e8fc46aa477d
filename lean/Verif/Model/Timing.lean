import Verif.Model.Packet
/-!
# The work done for a received packet: session.go:1103-1295

What `decrypt` does with a packet takes time, and the time can be seen from outside.  The model lists
the operations whose duration matters, in their order: deciphering, computing a checksum, comparing
checksums.  How long an operation takes is left open; each kind has a cost which depends on nothing but
the numbers given here.

Not modelled: caches, the scheduler, noise.
-/
namespace Verif.Timing
open Verif.Headers Verif.Packet

/-- An operation and what its duration depends on. -/
inductive Op where
  /-- `chacha20.XORKeyStream` (or a copy, without a key) of so many bytes -/
  | cipher (bytes : Nat)
  /-- BLAKE3 of 32 bytes and Poly1305 of so many bytes -/
  | mac (bytes : Nat)
  /-- `bytes.Compare`, looking at so many machine words -/
  | compare (words : Nat)
  /-- the messages are processed (`processIncomingMessages`, session.go:946) -/
  | deliver
  deriving DecidableEq, Repr

/-- How many words `bytes.Compare` looks at in two byte strings of `n` words of `w` bytes: it stops at
the first difference.  (Portable Go: `w = 1`.  The assembler version for amd64 compares strings of 16
bytes in two words of 8.) -/
def compareSteps (w : Nat) : Nat → Bytes → Bytes → Nat
  | 0, _, _ => 0
  | n + 1, a, b =>
    if a.take w = b.take w then 1 + compareSteps w n (a.drop w) (b.drop w) else 1

/-- The operations of `tryDecrypt` (session.go:1103-1153): decipher, compute the checksum of the header
and compare it (checkHeadersChecksum, session.go:1266-1279), and if it is right do the same with the
messages (checkMessagesChecksum, session.go:1281-1294). -/
def tryTrace (C : Crypto) (w n : Nat) (packetID enc : Bytes) (key : Option Bytes) (iv : Bytes) :
    List Op :=
  match plainOf C key iv enc with
  | none => []
  | some plain =>
    match readAfterIV packetID plain with
    | .ok (h, k) =>
      let hsum := headersChecksum C key h.packetID h.length
      let head := [.cipher enc.length, .mac 4, .compare (compareSteps w n hsum h.headersChecksum)]
      if hsum ≠ h.headersChecksum then head
      else
        let msgs := plain.drop k
        let msum := messagesChecksum C key h.packetID msgs
        head ++ [.mac msgs.length, .compare (compareSteps w n msum h.messagesChecksum)]
    | _ => [.cipher enc.length]

/-- The operations of the loop over the cipher keys (session.go:1239-1247). -/
def tryKeysTrace (C : Crypto) (w n : Nat) (packetID enc iv : Bytes) : List (Option Bytes) → List Op
  | [] => []
  | none :: ks => tryKeysTrace C w n packetID enc iv ks
  | some k :: ks =>
    match tryDecrypt C packetID enc (some k) iv with
    | .ok none => tryTrace C w n packetID enc (some k) iv ++ tryKeysTrace C w n packetID enc iv ks
    | _ => tryTrace C w n packetID enc (some k) iv

/-- The operations of `decrypt` (session.go:1185-1265) and, if it succeeds, the processing of the
messages by the caller. -/
def decryptTrace (C : Crypto) (w n : Nat) (aux : Option Bytes) (keys : List (Option Bytes))
    (remote : Option SessID) (packet : Bytes) : List Op :=
  if packet.length < containerHeadersSize then []
  else
    match decryptPacketID C aux (packet.take 8) with
    | none => []
    | some packetID =>
      let enc := packet.drop 8
      let iv := remoteIV remote packetID
      let first := Op.cipher 8 :: tryKeysTrace C w n packetID enc iv keys
      let second :=
        match tryKeys C packetID enc iv keys with
        | .ok none => tryTrace C w n packetID enc aux packetID
        | _ => []
      let last :=
        match decrypt C aux keys remote packet with
        | .ok _ => [Op.deliver]
        | _ => []
      first ++ second ++ last

/-- The time all these operations take. -/
def time (cost : Op → Nat) (ops : List Op) : Nat := (ops.map cost).sum

/-! ## Somebody with a clock

A search for a checksum which uses nothing but the time the receiver takes. -/

/-- All words of `w` bytes. -/
def words : Nat → List Bytes
  | 0 => [[]]
  | w + 1 => (words w).flatMap fun x => (List.range 256).map fun b => BitVec.ofNat 8 b :: x

/-- The candidate with the greatest value. -/
def pick (f : Bytes → Nat) : List Bytes → Bytes
  | [] => []
  | [x] => x
  | x :: y :: l => if f (pick f (y :: l)) < f x then x else pick f (y :: l)

/-- Word by word: try all values of the next word behind the words already found (zeros behind it), ask
how long each one takes and keep the one which takes longest.  The result are all that was tried and
what was found. -/
def search (ask : Bytes → Nat) (w : Nat) : Nat → Bytes → List Bytes × Bytes
  | 0, found => ([], found)
  | n + 1, found =>
    let try_ := fun c => found ++ c ++ List.replicate (w * n) 0
    let best := pick (fun c => ask (try_ c)) (words w)
    let r := search ask w n (found ++ best)
    ((words w).map try_ ++ r.1, r.2)

end Verif.Timing
