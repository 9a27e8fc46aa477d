import Verif.Props.Traffic
/-! # Numbering: what is claimed -/
namespace Verif.Traffic
open Verif.Headers Verif.Receive Verif.Packet

/-- The claim, for the packet IDs of a session in the order of the packets. -/
def FromZero (ids : List W64) : Prop := ids = (List.range ids.length).map (BitVec.ofNat 64)

/-- The number of each sent packet when `c` packets have been sent or received before: received packets count (if they
have the length of a header), and so do those which could not be sent. -/
def numbers : Nat → List Act → List Nat
  | _, [] => []
  | c, .begin _ _ _ :: .finish _ ok :: as => (if ok then [c + 1] else []) ++ numbers (c + 1) as
  | c, .recv _ p :: as => numbers (if p.length < 44 then c else c + 1) as
  | _, _ => []

end Verif.Traffic
