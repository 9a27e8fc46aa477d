import Verif.Props.EndToEnd
/-!
# Property theorems C153: WriteMessageSingle sends a message by itself

The claim (session.go:1377-1379, messenger.go:41-46): `WriteMessageSingle` sends the message as a single one, without merging it
with others, like without a SendDelay.
-/
namespace Verif.EndToEnd
open Verif.Headers Verif.Packet Verif.Receive

/-- What `WriteMessageSingle` passes on is one whole message. -/
theorem single_stream (t : W32) (ht : t ≠ typeKeyExchange) (m : Bytes) (hl : m.length < 2 ^ 32) :
    Send.writeMessageSingle t m = ⟨true, isInternal t, stream [⟨t, 1, m⟩]⟩ := by
  have hfl : setIsConfidential 0 (t != typeKeyExchange) = 1 := by
    have : (t != typeKeyExchange) = true := by simpa using ht
    rw [this]; decide
  have hm : Send.len32 m = m.length := Nat.mod_eq_of_lt hl
  have hb : Send.messageBytes t 1 m = stream [⟨t, 1, m⟩] := by
    simp [Send.messageBytes, stream, Msg.bytes, hm]
  simp only [Send.writeMessageSingle, hfl, Send.single, hb]
  rfl

/-- C153: the packet which `WriteMessageSingle` hands to the backend, with a SendDelay or without, makes the receiver deliver the
message, and nothing else. -/
theorem C153_alone (C : Crypto) (scfg : Send.Cfg) (now : Send.Now) (k : Bytes) (hk : now.cipherKey = some k) (hk32 : k.length = 32)
    (ha : KeyOK now.aux) (cfg : Receive.Cfg) (hd : cfg.detachOnMessages = 0) (env : Env) (pre rest : List (Option Bytes))
    (t : W32) (ht : t ≠ typeKeyExchange) (m : Bytes) (hl : m.length + 53 < 2 ^ 32) (out : Bytes)
    (hs : Send.sendMessages C scfg now (Send.writeMessageSingle t m) = .ok out)
    (hpre : ∀ k' ∈ pre, KeyOK k' ∧ (k' ≠ none →
      ¬ HeaderOK C k' (packetIDBytes now.packetID) (now.sessionID.bytes ++ packetIDBytes now.packetID) (out.drop 8)))
    (r : Reader) (hnew : latest r < now.packetID.toNat) :
    ∃ r', deliver C cfg env ⟨now.aux, pre ++ some k :: rest, some now.sessionID⟩ r [out] = .ok (r', [dest env ⟨t, 1, m⟩]) := by
  rw [single_stream t ht m (by omega)] at hs
  have hlen : (stream [⟨t, 1, m⟩]).length = m.length + 9 := by simp [stream, Msg.bytes, putLE_length]; omega
  obtain ⟨r', h, -⟩ := C63_delivery C scfg now k hk hk32 ha cfg hd env pre rest [⟨now.packetID, [⟨t, 1, m⟩], out⟩]
    (fun x hx => by cases List.mem_singleton.mp hx; exact ⟨isInternal t, hs⟩)
    (fun x hx => by cases List.mem_singleton.mp hx; simp only [hlen]; omega)
    (fun x hx m' hm' => by
      cases List.mem_singleton.mp hx
      cases List.mem_singleton.mp hm'
      exact ⟨by simp only [Msg.Fits]; omega, show (1 : Byte).getLsbD 1 = false by decide⟩)
    (fun x hx => by cases List.mem_singleton.mp hx; exact hpre) r (by simp) (fun x hx => by cases List.mem_singleton.mp hx; exact hnew)
  exact ⟨r', by simpa using h⟩

/-- C153, "like if SendDelay is negative": for messages that fit, the bytes handed to the backend are those of `WriteMessage` without
a delay; and they do not depend on whether there is one. -/
theorem C153_like (C : Crypto) (cfg : Send.Cfg) (now : Send.Now) (chainID : W64) (t : W32) (m : Bytes) (hl : m.length < 2 ^ 32)
    (hfit : m.length ≤ cfg.established.toNat) :
    Send.writeMessageAsync { cfg with delay := false } chainID t m = .now (Send.writeMessageSingle t m) ∧
    Send.sendMessages C cfg now (Send.writeMessageSingle t m) =
      Send.sendMessages C { cfg with delay := false } now (Send.writeMessageSingle t m) := by
  refine ⟨?_, rfl⟩
  have hm : Send.len32 m = m.length := Nat.mod_eq_of_lt hl
  unfold Send.writeMessageAsync
  rw [if_neg (by rw [hm]; simp only; omega)]
  simp [Send.writeMessageSingle]

/-- C153: a message that fits is sent, when there is a key and the session is established and not closed. -/
theorem C153_sent (C : Crypto) (cfg : Send.Cfg) (now : Send.Now) (k : Bytes) (hk : now.cipherKey = some k) (hk32 : k.length = 32)
    (ha : KeyOK now.aux) (he : now.established = true) (hd : now.done = false) (t : W32) (ht : t ≠ typeKeyExchange) (m : Bytes)
    (hsum : cfg.established.toNat + 53 < 2 ^ 32) (hfit : m.length ≤ cfg.established.toNat) :
    ∃ out, Send.sendMessages C cfg now (Send.writeMessageSingle t m) = .ok out ∧ out.length = m.length + 53 := by
  rw [single_stream t ht m (by omega)]
  have hlen : (stream [⟨t, 1, m⟩]).length = m.length + 9 := by simp [stream, Msg.bytes, putLE_length]; omega
  obtain ⟨pkt, h1, h2, -⟩ := seal_spec C now.aux (some k) now.sessionID true now.packetID (stream [⟨t, 1, m⟩]) ha
    (by intro b hb; cases hb; exact hk32) (by intro h; cases h)
  have hp : Send.packetSize cfg = cfg.established.toNat + 53 := by
    simp only [Send.packetSize, containerHeadersSize, messageHeadersSize]; omega
  have h3 : ¬ (containerHeadersSize + Send.len32 (stream [⟨t, 1, m⟩])) % 2 ^ 32 > Send.packetSize cfg := by
    rw [hp, Send.len32, hlen, Nat.mod_eq_of_lt (a := m.length + 9) (by omega)]
    simp only [containerHeadersSize]
    omega
  refine ⟨pkt, ?_, by omega⟩
  simp only [Send.sendMessages, if_true, hk, Option.map_some, he, not_true_eq_false, and_false, if_false, h3, h1, hd,
    Bool.false_eq_true]
  have : (containerHeadersSize + (stream [⟨t, 1, m⟩]).length) % 2 ^ 32 = pkt.length := by
    rw [h2, hlen]; simp only [containerHeadersSize]; omega
  rw [this, List.take_length]

/-! ## Examples -/

def exSingle : Bytes :=
  match Send.sendMessages toy ⟨1024, false, true⟩ { exNow with packetID := 3 } (Send.writeMessageSingle 7 [1, 2, 3]) with
  | .ok out => out
  | _ => []

/-- Three bytes are sent by themselves, also with a delay; `WriteMessage` would put them into the buffer. -/
example :
    Send.sendMessages toy ⟨1024, false, true⟩ { exNow with packetID := 3 } (Send.writeMessageSingle 7 [1, 2, 3]) = .ok exSingle ∧
    exSingle.length = 56 ∧
    Send.writeMessageAsync ⟨1024, false, true⟩ 1 7 [1, 2, 3] = .later (stream [⟨7, 1, [1, 2, 3]⟩]) ∧
    Send.sendMessages toy ⟨1, false, true⟩ { exNow with packetID := 3 } (Send.writeMessageSingle 7 [1, 2, 3]) = .err .tooBig := by
  decide +kernel

#print axioms C153_alone
#print axioms C153_like
#print axioms C153_sent

end Verif.EndToEnd
