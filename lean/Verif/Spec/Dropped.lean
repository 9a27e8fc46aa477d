import Verif.Spec.Receive
/-!
# Specification for C182: packets refused for their packet ID
-/
namespace Verif.Receive

/-- A packet with the keys and the environment at the time it is handled. -/
structure Arrival where
  env : Env
  keys : Keys
  packet : Bytes

/-- The loop of `readerLoop` (session.go:909-948) over arriving packets: the final state, and for each packet that was handled the
verdict and the effects.  The loop may end before the last packet. -/
def play (C : Packet.Crypto) (cfg : Cfg) : Reader → List Arrival → Outcome Unit (Reader × List (Verdict × List Event))
  | r, [] => .ok (r, [])
  | r, a :: as =>
    match readerStep C cfg a.env a.keys r a.packet with
    | .ok (r', evs, true) =>
      match play C cfg r' as with
      | .ok (r'', log) => .ok (r'', (verdict C a.keys r a.packet, evs) :: log)
      | .err e => .err e
      | .panic => .panic
      | .block => .block
    | .ok (r', evs, false) => .ok (r', [(verdict C a.keys r a.packet, evs)])
    | .err e => .err e
    | .panic => .panic
    | .block => .block

/-- Refused for the packet ID. -/
def isRefused (e : Verdict × List Event) : Bool := e.1 == .duplicate

/-- The handled packets without the refused ones. -/
def others (as : List Arrival) (log : List (Verdict × List Event)) : List Arrival :=
  ((as.zip log).filter fun x => !isRefused x.2).map (·.1)

/-- Equal in everything but the value of `GetUnexpectedPacketIDCount`. -/
def SameButCount (r r' : Reader) : Prop := r.rcv = r'.rcv ∧ r.fails = r'.fails ∧ r.ids.stor = r'.ids.stor

/-- Both packets can be decrypted at their times, and they have the same packet ID; in particular `b` may be a copy of `a`. -/
def SameID (C : Packet.Crypto) (a b : Arrival) : Prop :=
  ∃ hdr msgs hdr' msgs', Packet.decrypt C a.keys.aux a.keys.cipher a.keys.remote a.packet = .ok (hdr, msgs) ∧
    Packet.decrypt C b.keys.aux b.keys.cipher b.keys.remote b.packet = .ok (hdr', msgs') ∧
    Headers.packetIDValue hdr'.packetID = Headers.packetIDValue hdr.packetID

/-- The backend repeats packets, any number of times, without changing their order. -/
inductive Repeats (C : Packet.Crypto) : List Arrival → List Arrival → Prop
  | nil : Repeats C [] []
  | cons (a : Arrival) {as bs : List Arrival} (copies : List Arrival) : (∀ b ∈ copies, SameID C a b) → Repeats C as bs →
      Repeats C (a :: as) (a :: (copies ++ bs))

end Verif.Receive
