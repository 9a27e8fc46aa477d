import Verif.Model.Setup
/-! Datagrams on a path, for C177. -/
namespace Verif.Setup
open Verif.Negotiator

/-- Can a datagram of this size arrive on a path that carries `mtu` bytes in one piece? With the option it is dropped if it
is too big. -/
def arrives (noFragment : Bool) (mtu size : Nat) : Bool := !noFragment || decide (size ≤ mtu)

/-- The number of pieces in which it arrives. -/
def pieces (mtu size : Nat) : Nat := (size + mtu - 1) / mtu

/-- What the first side sends (pings and pongs; a control message is not bigger than any other) goes over this path:
`wire n` is the size of the datagram with a message of `n` bytes. -/
def crosses (noFragment : Bool) (mtu : Nat) (wire : Nat → Nat) : Bool × Act → Bool
  | (false, .deliver (.ping size _) _) => arrives noFragment mtu (wire size)
  | (false, .deliver (.pong size _) _) => arrives noFragment mtu (wire size)
  | _ => true

end Verif.Setup
