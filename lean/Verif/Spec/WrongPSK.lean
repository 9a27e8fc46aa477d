import Verif.Model.Mutual
import Verif.Spec.Packet
/-!
# Specification for C180
-/
namespace Verif.Mutual

/-- Has the packet valid tags under the key made from the PSK (or, without a PSK, a valid checksum)? -/
def Familiar (C : Crypto) (cfg : Cfg) (p : Bytes) : Prop :=
  Packet.Genuine C.pkt (aux C cfg) (Packet.wirePacketID C.pkt (aux C cfg) p) (Packet.wirePacketID C.pkt (aux C cfg) p) (p.drop 8)

end Verif.Mutual
