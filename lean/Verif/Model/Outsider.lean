import Verif.Model.Receive
import Verif.Model.KeyExchange
/-!
# How a received packet ends a session

The reader loop (session.go:903-950, `Verif.Receive`) together with the reaction of the key exchanger to messages it
refuses (key_exchanger.go:343-380, `Verif.KX`): its `errFunc` closes the session (session.go:2098-2102).

What is simplified
* The keys of the session are an input of every step, as in `Verif.Receive`. The remote identity is a parameter: it does not
  change if it was configured, and otherwise this is the session until it accepts the first key.
* The event handler only gets the errors; a handler that closes the session when it gets one is not considered. Failing
  writes, time-outs and the failure of the backend are not considered either: they are no effects of packets.
* The negotiator has no way to close the session because of a message (negotiator.go:423-509).
* A secret of zeros (a low-order point in a signed message) crashes the program (C40) and is not considered here.
-/
namespace Verif.Outsider
open Verif.Headers Verif.Receive

structure Crypto where
  pkt : Packet.Crypto
  kx : KX.Crypto

structure Cfg where
  rc : Receive.Cfg
  env : Receive.Env
  kx : KX.Cfg
  /-- the identity of the peer, `none` until one is known -/
  remote : Option Bytes

/-- Does the key exchanger call its `errFunc` because of a message (key_exchanger.go:365-377)? -/
def kxCloses (C : Crypto) (cfg : Cfg) (b : Bytes) : Bool :=
  match KX.parseAndCheck C.kx cfg.kx cfg.remote b with
  | .err e => !(KX.report e).isEmpty
  | _ => false

/-- Does an effect of a packet close the session (session.go:1010; 2098-2102)? -/
def closes (C : Crypto) (cfg : Cfg) : Event → Bool
  | .closed => true
  | .handled t b => decide (t = typeKeyExchange) && kxCloses C cfg b
  | _ => false

structure Side where
  rd : Receive.Reader
  ended : Bool

def Side.init (cfg : Cfg) (size : Int) : Side := ⟨Receive.Reader.init cfg.rc size, false⟩

/-- A packet arrives (session.go:909-948); nothing is read any more when the session has ended. -/
def onPacket (C : Crypto) (cfg : Cfg) (keys : Keys) (s : Side) (p : Bytes) : Outcome Unit Side :=
  if s.ended then .ok s
  else
    match readerStep C.pkt cfg.rc cfg.env keys s.rd p with
    | .ok (rd, evs, continues) => .ok ⟨rd, !continues || evs.any (closes C cfg)⟩
    | .err e => .err e
    | .panic => .panic
    | .block => .block

/-- Packets one after another, each with the keys of the session at that time. -/
def run (C : Crypto) (cfg : Cfg) : Side → List (Keys × Bytes) → Outcome Unit Side
  | s, [] => .ok s
  | s, (keys, p) :: ps =>
    match onPacket C cfg keys s p with
    | .ok s' => run C cfg s' ps
    | .err e => .err e
    | .panic => .panic
    | .block => .block

end Verif.Outsider
