import Verif.Model.KeyExchange
import Verif.Model.Handshake
import Verif.Model.Negotiator
/-! What goes into a run and what comes out of it, for C129. -/
namespace Verif.KX
open Verif.Headers

/-- Is this message an answer? -/
def isAnswerMsg (b : Bytes) : Bool := isAnswer (KxMsg.decode ((b.drop 64).take 82)).flags

/-- The messages received in a run. -/
def received : List Act → List Bytes
  | [] => []
  | .recv b :: as => b :: received as
  | _ :: as => received as

/-- How often the loop began an update or sent again because no answer had come. -/
def tries : List Act → Nat
  | [] => 0
  | .tick :: as => tries as + 1
  | .retry _ :: as => tries as + 1
  | _ :: as => tries as

end Verif.KX

namespace Verif.Handshake

/-- Ticks of `KeyUpdateInterval` and repetitions in a run. -/
def ticks : List Act → Nat
  | [] => 0
  | .tick _ :: as => ticks as + 1
  | _ :: as => ticks as

def retries : List Act → Nat
  | [] => 0
  | .retry _ :: as => retries as + 1
  | _ :: as => retries as

end Verif.Handshake

namespace Verif.Negotiator

/-- Size and iteration of a ping, of a pong. -/
def Msg.pinged : Msg → Option (Nat × Nat)
  | .ping size iter => some (size, iter)
  | _ => none

def Msg.ponged : Msg → Option (Nat × Nat)
  | .pong size iter => some (size, iter)
  | _ => none

def Msg.isPong : Msg → Bool
  | .pong _ _ => true
  | _ => false

/-- A control message that does not announce the end. -/
def Msg.isInfo : Msg → Bool
  | .control _ e => !e
  | _ => false

/-- The messages that the reader got. -/
def delivered : List Act → List Msg
  | [] => []
  | .deliver m _ :: as => m :: delivered as
  | _ :: as => delivered as

end Verif.Negotiator
