import Verif.Model.Headers
import Verif.Model.Lifecycle
/-!
# Names: message.go:102-115, 165-170, session_state.go:59-77, key_exchanger.go:71-84

`fmt.Sprintf("%d", n)` and `fmt.Sprint(n)` of an unsigned number is `Nat.repr`.
-/
namespace Verif.Names
open Verif.Headers

/-- `MessageType.String` (message.go:102-115). The subtraction is one of `uint32`, and its result is cut to `uint8`. The type
of the negotiation and the reserved ones are `unknown`; `MessageTypeChannel(0)` is 1. -/
def messageType (t : W32) : String :=
  if t = typeUndefined then "undefined"
  else if t = typeKeyExchange then "key_exchange"
  else if t = typeReadWrite then "read_write"
  else if t ≥ 1 ∧ t < typeReservedAbove then "channel" ++ Nat.repr ((t - typeReadWrite).setWidth 8).toNat
  else "unknown"

/-- `SessionState.String` (session_state.go:59-77) for the values that exist. -/
def sessionState : Lifecycle.SState → String
  | .new => "new"
  | .closed => "closed"
  | .keyExchanging => "key_exchanging"
  | .negotiating => "negotiating"
  | .established => "established"
  | .paused => "paused"
  | .closing => "closing"

/-- `packetID.String` (message.go:165-170); `none` is a nil pointer. -/
def packetID : Option Bytes → String
  | none => ""
  | some id => Nat.repr (packetIDValue id).toNat

/-- `secretID.String` (key_exchanger.go:71-84). -/
def secretID (n : Nat) : String :=
  match n with
  | 0 => "recent_both"
  | 1 => "recent_local"
  | 2 => "recent_remote"
  | 3 => "previous"
  | n => Nat.repr n

end Verif.Names
