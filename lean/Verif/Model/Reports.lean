import Verif.Model.Outsider
import Verif.Model.Negotiator
/-!
# How often `EventHandler.Error` is called

The calls of `Error` because of a received packet (session.go:882-1018, 1074-1080) and because of a ping that cannot be sent
(negotiator.go:301-311), on top of `Verif.Receive`, `Verif.KX` and `Verif.Negotiator`.

What is simplified
* The keys of the session are an input of every packet, as in `Verif.Receive`, and so are the results of the writes of the
  negotiator, whether the key exchanger is closed, and what handlers of the user return.
* The calls of the loop of the key exchanger, of failing answers and of the backend are not considered here (see C105, C41
  and C159). `Handle` of the key exchanger has no other errors than those below: a public key of a message always has the
  right length (key_exchanger.go:384-390), `updateSecrets` does not fail (key_exchanger.go:319-341), and `successNotifyChan`
  is closed after the context only (key_exchanger.go:236-239, 497-510).
-/
namespace Verif.Reports
open Verif.Headers Verif.Receive

structure Cfg where
  out : Outsider.Cfg
  /-- SHA-512 -/
  sha : Bytes → Bytes
  /-- is the context of the key exchanger done? -/
  kxDone : Bool
  /-- what writing the answer to a message of the negotiation gives -/
  write : Bytes → Negotiator.Write
  /-- does the handler of the user for this type return an error? -/
  user : W32 → Bytes → Bool

/-- The reason of a call of `Error`. -/
inductive Why where
  | kx (e : KX.CheckErr)
  /-- `ErrAlreadyClosed` of the key exchanger (key_exchanger.go:448-453) -/
  | kxClosed
  /-- a message that the negotiator does not accept, or an answer that cannot be written -/
  | junk
  | write
  | user
  | tooShort (e : TooShort)
  | fragment (e : TooShort)
  | decrypt (e : Packet.DecryptErr)
  deriving DecidableEq, Repr

/-- Calls for a message to the key exchanger: its `errFunc` (session.go:2098-2102), and the error that `Handle` returns
(session.go:1076-1078; key_exchanger.go:433-440, 448-453). -/
def kxCalls (C : Outsider.Crypto) (cfg : Cfg) (b : Bytes) : List Why :=
  match KX.parseAndCheck C.kx cfg.out.kx cfg.out.remote b with
  | .err e => (KX.report e).map (fun _ => .kx e) ++ [.kx e]
  | .ok _ => if cfg.kxDone then [.kxClosed] else []
  | _ => []

/-- Calls for a message to the negotiator (negotiator.go:389-509): `Handle` returns the error of a message that is not
accepted and of a pong that cannot be written, and a control message that cannot be written is given to `errFunc`
(session.go:2048-2054). -/
def negCalls (cfg : Cfg) (b : Bytes) : List Why :=
  match Negotiator.decode cfg.sha b with
  | .junk => [.junk]
  | .ping _ _ => if cfg.write b = .ok then [] else [.write]
  | .pong _ _ => if cfg.write b = .ok then [] else [.write]
  | .control _ _ => []

/-- Calls for an effect of a packet. -/
def eventCalls (C : Outsider.Crypto) (cfg : Cfg) : Event → List Why
  | .handled t b =>
    if t = typeKeyExchange then kxCalls C cfg b
    else if t = typeNegotiation then negCalls cfg b
    else if cfg.user t b then [.user] else []
  | .errTooShort e => [.tooShort e]
  | .errFragmentHeaders e => [.fragment e]
  | .errDecrypt e => [.decrypt e]
  | .queued _ _ => []
  | .ignored _ _ => []
  | .closed => []

/-- Calls for a packet (session.go:924-948). -/
def packetCalls (C : Outsider.Crypto) (cfg : Cfg) (keys : Keys) (rd : Reader) (p : Bytes) : Outcome Unit (List Why) :=
  match readerStep C.pkt cfg.out.rc cfg.out.env keys rd p with
  | .ok (_, evs, _) => .ok (evs.flatMap (eventCalls C cfg))
  | .err e => .err e
  | .panic => .panic
  | .block => .block

/-- Calls for a ping that is sent (negotiator.go:303-311): `sess.error`, and `errFunc` unless the session is closed. -/
def pingCalls (w : Negotiator.Write) : List Why :=
  (if w = .ok then [] else [.write]) ++ List.replicate (Negotiator.failedPing w) .write

end Verif.Reports
