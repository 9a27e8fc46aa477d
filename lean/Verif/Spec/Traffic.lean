import Verif.Model.Traffic
/-!
# What the properties of the traffic of two sides talk about
-/
namespace Verif.Traffic
open Verif.Headers Verif.Receive

/-- The effect is the delivery of a message: to a handler, to a queue, or to nobody. -/
def isDelivery : Event → Bool
  | .handled _ _ => true
  | .queued _ _ => true
  | .ignored _ _ => true
  | _ => false

/-- What decrypts is what was sealed in one of the packets `out`: nobody else can make packets (`C13`) and no
other key opens them. -/
def Genuine (C : Packet.Crypto) (out : List Sent) (keys : Keys) (p : Bytes) : Prop :=
  ∀ h msgs, Packet.decrypt C keys.aux keys.cipher keys.remote p = .ok (h, msgs) →
    ∃ x ∈ out, packetIDValue h.packetID = x.id ∧ msgs = stream x.batch ∧
      h.length = BitVec.ofNat 32 (stream x.batch).length

/-- Everything that can happen to two sides whose network delivers, repeats, reorders, drops and invents packets;
only forged packets which the first side would decrypt are excluded.  The second side may even decrypt those. -/
inductive Reach (C : Packet.Crypto) (cfgA cfgB : Cfg) : Net → Prop
  | init : Reach C cfgA cfgB (Net.init cfgA cfgB)
  | step {n n' : Net} (x : Bool × Act) : Reach C cfgA cfgB n →
      (∀ keys p, x = (false, .recv keys p) → Genuine C n.b.out keys p) →
      netStep C cfgA cfgB n x = .ok n' → Reach C cfgA cfgB n'

/-- No message is delivered to the first side more often than the second side has sent it. -/
def Once (env : Env) (n : Net) : Prop :=
  ∀ e, isDelivery e = true → n.a.got.count e ≤ ((n.b.out.flatMap (·.batch)).map (dest env)).count e

/-- All messages of a side are whole. -/
def Whole (s : Side) : Prop := ∀ x ∈ s.out, ∀ m ∈ x.batch, m.Fits ∧ m.Whole

/-- `sendMessages` calls do not overlap: each writes its packet, or fails, before the next packet ID is taken. -/
def Serial : List Act → Prop
  | [] => True
  | .begin _ _ _ :: .finish 0 _ :: as => Serial as
  | .recv _ _ :: as => Serial as
  | _ => False

/-- All packets are sealed with the key `k`. -/
def Under (k : Bytes) (as : List Act) : Prop :=
  ∀ a ∈ as, ∀ batch key confidential, a = .begin batch key confidential → key = some k ∧ confidential = true

end Verif.Traffic
