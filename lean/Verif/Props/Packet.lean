import Verif.Lemmas.Packet
/-! # Property theorems C12, C13, C14, C16, C17 and C64 -/
namespace Verif.Packet
open Verif.Headers

/-! ## C12 -/

/-- C12, confidential packets: a packet sealed with the exchanged key `k` by the session `sid` is
opened to exactly the messages and packet ID, by a receiver who knows `sid` and whose keys contain `k`
behind keys (`pre`) under which the packet's header tag is not valid.  In particular (`pre = []`) there
is no condition at all when `k` is the receiver's current key. -/
theorem C12_roundtrip_confidential (C : Crypto) (aux : Option Bytes) (ha : KeyOK aux) (k : Bytes)
    (hk : k.length = 32) (sid : SessID) (pid : W64) (msgs : Bytes) (hm : msgs.length < 2 ^ 32)
    (pre rest : List (Option Bytes)) :
    ∃ pkt, sealPacket C aux (some k) sid true pid msgs = some pkt ∧
      pkt.length = msgs.length + 44 ∧
      ((∀ k' ∈ pre, KeyOK k' ∧ (k' ≠ none →
          ¬ HeaderOK C k' (packetIDBytes pid) (sid.bytes ++ packetIDBytes pid) (pkt.drop 8))) →
        ∃ h, decrypt C aux (pre ++ some k :: rest) (some sid) pkt = .ok (h, msgs) ∧
          packetIDValue h.packetID = pid ∧ h.length.toNat = msgs.length) := by
  have hid : (packetIDBytes pid).length = 8 := putLE_length _ _
  obtain ⟨pkt, h1, h2, h3, h4⟩ := seal_spec C aux (some k) sid true pid msgs ha
    (fun b hb => by cases hb; exact hk) (by simp)
  refine ⟨pkt, h1, h2, fun hpre => ⟨containerSet C (some k) (packetIDBytes pid) msgs, ?_, ?_, ?_⟩⟩
  · obtain ⟨g, ho⟩ := sealed_genuine C (some k) _ _ _ msgs hid h4
    have hiv : (remoteIV (some sid) (packetIDBytes pid)).length = 24 := remoteIV_length _ _ hid
    have hlen : 36 ≤ (pkt.drop 8).length := by rw [List.length_drop]; omega
    simp only [decrypt]
    rw [if_neg (by rw [h2, containerHeadersSize]; omega), decryptPacketID_eq C aux pkt ha, h3]
    dsimp only
    rw [tryKeys_skip C _ _ _ pre _ hlen hiv hpre]
    simp only [tryKeys]
    rw [tryDecrypt_spec C _ _ (some k) _ (fun b hb => by cases hb; exact hk)
      (fun _ => .inr (.inr hiv)) hlen]
    rw [show remoteIV (some sid) (packetIDBytes pid) = sendIV sid true (packetIDBytes pid) from rfl,
      if_pos g.1, if_pos g.2, ho]
  · exact ofNat_getLE_putLE64 pid
  · simp only [containerSet, BitVec.toNat_ofNat]; omega

/-- C12, packets outside the exchanged keys (key exchange, negotiation, fragments): sealed with the
PSK-derived key or, without PSK, not encrypted; opened by every receiver with the same PSK setting all
of whose exchanged keys (none before the first key exchange) do not match the packet's header tag. -/
theorem C12_roundtrip_aux (C : Crypto) (aux : Option Bytes) (ha : KeyOK aux)
    (sid : SessID) (pid : W64) (msgs : Bytes) (hm : msgs.length < 2 ^ 32)
    (keys : List (Option Bytes)) (remote : Option SessID) :
    ∃ pkt, sealPacket C aux aux sid false pid msgs = some pkt ∧
      pkt.length = msgs.length + 44 ∧
      (((∀ k ∈ keys, k = none) ∨ ∃ s, remote = some s ∧ ∀ k ∈ keys, KeyOK k ∧ (k ≠ none →
          ¬ HeaderOK C k (packetIDBytes pid) (s.bytes ++ packetIDBytes pid) (pkt.drop 8))) →
        ∃ h, decrypt C aux keys remote pkt = .ok (h, msgs) ∧
          packetIDValue h.packetID = pid ∧ h.length.toNat = msgs.length) := by
  have hid : (packetIDBytes pid).length = 8 := putLE_length _ _
  obtain ⟨pkt, h1, h2, h3, h4⟩ := seal_spec C aux aux sid false pid msgs ha ha id
  refine ⟨pkt, h1, h2, fun hkeys => ⟨containerSet C aux (packetIDBytes pid) msgs, ?_, ?_, ?_⟩⟩
  · obtain ⟨g, ho⟩ := sealed_genuine C aux _ _ _ msgs hid h4
    have hlen : 36 ≤ (pkt.drop 8).length := by rw [List.length_drop]; omega
    have hnone : tryKeys C (packetIDBytes pid) (pkt.drop 8) (remoteIV remote (packetIDBytes pid)) keys
        = .ok none := by
      rcases hkeys with h | ⟨s, rfl, h⟩
      · exact tryKeys_all_none _ _ _ _ _ h
      · have := tryKeys_skip C (packetIDBytes pid) (pkt.drop 8) (remoteIV (some s) (packetIDBytes pid))
          keys [] hlen (remoteIV_length _ _ hid) h
        rw [List.append_nil] at this
        rw [this]; rfl
    simp only [decrypt]
    rw [if_neg (by rw [h2, containerHeadersSize]; omega), decryptPacketID_eq C aux pkt ha, h3]
    dsimp only
    rw [hnone]
    dsimp only
    rw [tryDecrypt_spec C _ _ aux _ ha (fun _ => .inl hid) hlen]
    have g1 : HeaderOK C aux (packetIDBytes pid) (packetIDBytes pid) (pkt.drop 8) := g.1
    have g2 : MessagesOK C aux (packetIDBytes pid) (packetIDBytes pid) (pkt.drop 8) := g.2
    rw [if_pos g1, if_pos g2]
    exact congrArg Outcome.ok ho
  · exact ofNat_getLE_putLE64 pid
  · simp only [containerSet, BitVec.toNat_ofNat]; omega

/-- A concrete (cryptographically worthless) instance of the primitives. -/
def toy : Crypto where
  keyStream key _ _ := key.headD 0 + 1
  poly k m := ((k.drop 8).take 16 ++ List.replicate 16 0).take 16 |>.map (· + BitVec.ofNat 8 m.length)
  blake3 x := x
  poly_length k m := by simp

/-- The hypotheses of both C12 theorems are satisfiable with non-trivial key lists. -/
example : ∃ pkt, sealPacket toy none (some (List.replicate 32 5)) ⟨1, 2⟩ true 9 [1, 2, 3] = some pkt ∧
    ¬ HeaderOK toy (some (List.replicate 32 7)) (packetIDBytes 9) (SessID.bytes ⟨1, 2⟩ ++ packetIDBytes 9)
      (pkt.drop 8) := by
  refine ⟨_, rfl, ?_⟩; simp only [HeaderOK]; decide +kernel

/-! ## C13 -/

/-- The candidates a receiver tries: the exchanged keys with the IV (remote session ID ‖ packet ID),
then the auxiliary key (or no key) with the packet ID as IV. -/
def Candidate (aux : Option Bytes) (keys : List (Option Bytes)) (remote : Option SessID)
    (packetID : Bytes) (key : Option Bytes) (iv : Bytes) : Prop :=
  (key ∈ keys ∧ key ≠ none ∧ ∃ s, remote = some s ∧ iv = s.bytes ++ packetID) ∨
    (key = aux ∧ iv = packetID)

/-- Keys as the code produces them: 32 bytes, and the remote session ID is known as soon as there is an
exchanged key. -/
structure KeysOK (aux : Option Bytes) (keys : List (Option Bytes)) (remote : Option SessID) : Prop where
  auxOK : KeyOK aux
  keysOK : ∀ k ∈ keys, KeyOK k
  remoteOK : remote = none → ∀ k ∈ keys, k = none

/-- C13: if a packet is accepted then there is one single candidate key under which both tags are valid
for the packet ID which the packet carries, and the result is the decryption with that key.  Nothing is
assumed about the sender. -/
theorem C13_accept_implies_genuine (C : Crypto) (aux : Option Bytes) (keys : List (Option Bytes))
    (remote : Option SessID) (ok : KeysOK aux keys remote) (packet : Bytes) (h : ContainerHdr)
    (msgs : Bytes) (hd : decrypt C aux keys remote packet = .ok (h, msgs)) :
    44 ≤ packet.length ∧ h.packetID = wirePacketID C aux packet ∧
    ∃ key iv, Candidate aux keys remote h.packetID key iv ∧
      Genuine C key h.packetID iv (packet.drop 8) ∧
      msgs = (clear C key iv (packet.drop 8)).drop 36 := by
  simp only [decrypt] at hd
  by_cases hl : packet.length < containerHeadersSize
  · rw [if_pos hl] at hd; cases hd
  · rw [if_neg hl, decryptPacketID_eq C aux packet ok.auxOK] at hd
    simp only [containerHeadersSize] at hl
    have hid := wirePacketID_length C aux packet (by omega)
    generalize hp : wirePacketID C aux packet = pid at *
    have hlen : 36 ≤ (packet.drop 8).length := by simp; omega
    have hiv : (remoteIV remote pid).length = 24 ∨ ∀ k ∈ keys, k = none := by
      cases hr : remote with
      | none => exact .inr (ok.remoteOK hr)
      | some s => exact .inl (remoteIV_length _ _ hid)
    dsimp only at hd
    refine ⟨by omega, ?_⟩
    cases ht : tryKeys C pid (packet.drop 8) (remoteIV remote pid) keys with
    | ok r =>
      cases r with
      | some r =>
        rw [ht] at hd
        obtain ⟨k, h1, h2, h3, h4⟩ := tryKeys_ok C pid _ _ keys hlen hiv ok.keysOK r ht
        simp only [Outcome.ok.injEq] at hd
        subst hd
        obtain ⟨e1, e2⟩ := Prod.mk.injEq .. ▸ h4
        have e3 : h.packetID = pid := by rw [e1]
        refine ⟨e3, k, remoteIV remote pid, ?_, ?_, e2⟩
        · rw [e3]
          refine .inl ⟨h1, h2, ?_⟩
          cases hr : remote with
          | none => exact absurd (ok.remoteOK hr k h1) h2
          | some s => exact ⟨s, rfl, rfl⟩
        · rw [e3]; exact h3
      | none =>
        rw [ht] at hd
        dsimp only at hd
        rw [tryDecrypt_spec C _ _ aux _ ok.auxOK (fun _ => .inl hid) hlen] at hd
        by_cases h1 : HeaderOK C aux pid pid (packet.drop 8)
        · rw [if_pos h1] at hd
          by_cases h2 : MessagesOK C aux pid pid (packet.drop 8)
          · rw [if_pos h2] at hd
            simp only [Outcome.ok.injEq] at hd
            obtain ⟨e1, e2⟩ := Prod.mk.injEq .. ▸ hd
            have e3 : h.packetID = pid := by rw [← e1]
            exact ⟨e3, aux, pid, .inr ⟨rfl, e3.symm⟩, by rw [e3]; exact ⟨h1, h2⟩, e2.symm⟩
          · rw [if_neg h2] at hd; cases hd
        · rw [if_neg h1] at hd; cases hd
    | err e => rw [ht] at hd; cases hd
    | panic => rw [ht] at hd; cases hd
    | block => rw [ht] at hd; cases hd

/-- C13, converse direction: a packet whose header tag is invalid under every candidate is refused. -/
theorem C13_reject (C : Crypto) (aux : Option Bytes) (keys : List (Option Bytes))
    (remote : Option SessID) (ok : KeysOK aux keys remote) (packet : Bytes)
    (hbad : ∀ key iv, Candidate aux keys remote (wirePacketID C aux packet) key iv →
      ¬ HeaderOK C key (wirePacketID C aux packet) iv (packet.drop 8)) :
    ∃ e, decrypt C aux keys remote packet = .err e := by
  simp only [decrypt]
  by_cases hl : packet.length < containerHeadersSize
  · exact ⟨_, by rw [if_pos hl]⟩
  · rw [if_neg hl, decryptPacketID_eq C aux packet ok.auxOK]
    simp only [containerHeadersSize] at hl
    have hid := wirePacketID_length C aux packet (by omega)
    generalize hp : wirePacketID C aux packet = pid at *
    have hlen : 36 ≤ (packet.drop 8).length := by simp; omega
    have hn : tryKeys C pid (packet.drop 8) (remoteIV remote pid) keys = .ok none := by
      cases hr : remote with
      | none => exact tryKeys_all_none _ _ _ _ _ (ok.remoteOK hr)
      | some s =>
        have := tryKeys_skip C pid (packet.drop 8) (remoteIV (some s) pid) keys [] hlen
          (remoteIV_length _ _ hid)
          (fun k hk => ⟨ok.keysOK k hk, fun hk' => hbad k _ (.inl ⟨hk, hk', s, hr, rfl⟩)⟩)
        rw [List.append_nil] at this; rw [this]; rfl
    dsimp only
    rw [hn]
    dsimp only
    rw [tryDecrypt_spec C _ _ aux _ ok.auxOK (fun _ => .inl hid) hlen, if_neg (hbad aux pid (.inr ⟨rfl, rfl⟩))]
    exact ⟨_, rfl⟩

/-- C25 for the decryption step: no packet makes it panic or hang. -/
theorem C25_decrypt_total (C : Crypto) (aux : Option Bytes) (keys : List (Option Bytes))
    (remote : Option SessID) (ok : KeysOK aux keys remote) (packet : Bytes) :
    decrypt C aux keys remote packet ≠ .panic ∧ decrypt C aux keys remote packet ≠ .block := by
  simp only [decrypt]
  by_cases hl : packet.length < containerHeadersSize
  · rw [if_pos hl]; simp
  · rw [if_neg hl, decryptPacketID_eq C aux packet ok.auxOK]
    simp only [containerHeadersSize] at hl
    have hid := wirePacketID_length C aux packet (by omega)
    generalize wirePacketID C aux packet = pid at *
    have hlen : 36 ≤ (packet.drop 8).length := by simp; omega
    have hiv : (remoteIV remote pid).length = 24 ∨ ∀ k ∈ keys, k = none := by
      cases hr : remote with
      | none => exact .inr (ok.remoteOK hr)
      | some s => exact .inl (remoteIV_length _ _ hid)
    have ht := tryKeys_total C pid (packet.drop 8) _ keys hlen hiv ok.keysOK
    dsimp only
    cases hr : tryKeys C pid (packet.drop 8) (remoteIV remote pid) keys with
    | ok r =>
      cases r with
      | some r => simp
      | none =>
        dsimp only
        rw [tryDecrypt_spec C _ _ aux _ ok.auxOK (fun _ => .inl hid) hlen]
        by_cases h1 : HeaderOK C aux pid pid (packet.drop 8)
        · rw [if_pos h1]
          by_cases h2 : MessagesOK C aux pid pid (packet.drop 8)
          · rw [if_pos h2]; simp
          · rw [if_neg h2]; simp
        · rw [if_neg h1]; simp
    | err e => simp
    | panic => exact absurd hr ht.1
    | block => exact absurd hr ht.2

example : KeysOK (some (List.replicate 32 1)) [some (List.replicate 32 2), none] (some ⟨3, 4⟩) :=
  ⟨fun b h => by cases h; rfl,
   fun k hk b h => by
    simp only [List.mem_cons, List.not_mem_nil, or_false] at hk
    rcases hk with hk | hk
    · subst hk; cases h; rfl
    · subst hk; exact (nomatch h),
   fun h => nomatch h⟩

/-! ## C14 -/

/-- C14 with a pre-shared key: every accepted packet carries valid tags under a secret key (an exchanged
one or the PSK-derived one).  Missing for the full property: the PSK-derived key is not an exchanged
key, and without PSK the statement fails (next theorem). -/
theorem C14_psk_partial (C : Crypto) (a : Bytes) (keys : List (Option Bytes))
    (remote : Option SessID) (ok : KeysOK (some a) keys remote) (packet : Bytes) (h : ContainerHdr)
    (msgs : Bytes) (hd : decrypt C (some a) keys remote packet = .ok (h, msgs)) :
    ∃ k iv, (some k ∈ keys ∨ k = a) ∧ Genuine C (some k) h.packetID iv (packet.drop 8) ∧
      msgs = (clear C (some k) iv (packet.drop 8)).drop 36 := by
  obtain ⟨-, -, key, iv, hc, hg, hm⟩ := C13_accept_implies_genuine C (some a) keys remote ok packet h msgs hd
  rcases hc with ⟨h1, h2, -⟩ | ⟨h1, -⟩
  · cases key with
    | none => exact absurd rfl h2
    | some k => exact ⟨k, iv, .inl h1, hg, hm⟩
  · subst h1; exact ⟨a, iv, .inr rfl, hg, hm⟩

/-- C14 is violated without PSK: for every receiver and every content `msgs` an outsider, who knows no
key at all, can compute a packet (`plainPacket C none`) which the receiver accepts with that content —
unless one of the exchanged keys accidentally matches its 16-byte header tag. -/
theorem C14_violated (C : Crypto) (keys : List (Option Bytes)) (s : SessID)
    (hk : ∀ k ∈ keys, KeyOK k) (pid : W64) (msgs : Bytes)
    (hx : ∀ k ∈ keys, k ≠ none → ¬ HeaderOK C k (packetIDBytes pid) (s.bytes ++ packetIDBytes pid)
      ((plainPacket C none (packetIDBytes pid) msgs).drop 8)) :
    ∃ h, decrypt C none keys (some s) (plainPacket C none (packetIDBytes pid) msgs) = .ok (h, msgs) ∧
      packetIDValue h.packetID = pid ∧ h.length = BitVec.ofNat 32 msgs.length := by
  have hid : (packetIDBytes pid).length = 8 := putLE_length _ _
  obtain ⟨pkt, h1, h2, h3, h4⟩ := seal_spec C none none s false pid msgs (fun _ h => by cases h)
    (fun _ h => by cases h) id
  cases h1
  obtain ⟨g, ho⟩ := sealed_genuine C none _ _ _ msgs hid h4
  generalize plainPacket C none (packetIDBytes pid) msgs = pkt at *
  have hlen : 36 ≤ (pkt.drop 8).length := by rw [List.length_drop]; omega
  refine ⟨containerSet C none (packetIDBytes pid) msgs, ?_, ofNat_getLE_putLE64 pid, rfl⟩
  have hn := tryKeys_skip C (packetIDBytes pid) (pkt.drop 8) (remoteIV (some s) (packetIDBytes pid))
    keys [] hlen (remoteIV_length _ _ hid) (fun k hk' => ⟨hk k hk', hx k hk'⟩)
  rw [List.append_nil] at hn
  simp only [decrypt]
  rw [if_neg (by rw [h2, containerHeadersSize]; omega),
    decryptPacketID_eq C none pkt (fun _ h => by cases h), h3]
  dsimp only
  rw [hn]
  simp only [tryKeys]
  rw [tryDecrypt_spec C _ _ none _ (fun _ h => by cases h) (fun _ => .inl hid) hlen]
  have g1 : HeaderOK C none (packetIDBytes pid) (packetIDBytes pid) (pkt.drop 8) := g.1
  have g2 : MessagesOK C none (packetIDBytes pid) (packetIDBytes pid) (pkt.drop 8) := g.2
  rw [if_pos g1, if_pos g2]
  exact congrArg Outcome.ok ho

/-- A concrete instance of the attack: the receiver's exchanged key is 5,5,…; the forged packet is
accepted, though its tags are not valid under that key. -/
theorem C14_violated_witness :
    let keys := [some (List.replicate 32 5), none, none, none]
    let pkt := plainPacket toy none (packetIDBytes 1) [0xFC, 0xFF, 0xFF, 0xFF, 1, 0, 0, 0, 0, 65]
    (∃ h, decrypt toy none keys (some ⟨1, 2⟩) pkt =
      .ok (h, [0xFC, 0xFF, 0xFF, 0xFF, 1, 0, 0, 0, 0, 65])) ∧
    ∀ k ∈ keys, k ≠ none → ¬ Genuine toy k (packetIDBytes 1) (SessID.bytes ⟨1, 2⟩ ++ packetIDBytes 1)
      (pkt.drop 8) := by
  have hx : ∀ k ∈ [some (List.replicate 32 5), none, none, none], k ≠ none →
      ¬ HeaderOK toy k (packetIDBytes 1) (SessID.bytes ⟨1, 2⟩ ++ packetIDBytes 1)
      ((plainPacket toy none (packetIDBytes 1) [0xFC, 0xFF, 0xFF, 0xFF, 1, 0, 0, 0, 0, 65]).drop 8) := by
    intro k hk
    simp only [List.mem_cons, List.not_mem_nil, or_false, or_self] at hk
    rcases hk with hk | hk
    · subst hk; intro _; simp only [HeaderOK]; decide +kernel
    · subst hk; simp
  refine ⟨?_, fun k hk hk' hg => hx k hk hk' hg.1⟩
  obtain ⟨h, hh, -, -⟩ := C14_violated toy [some (List.replicate 32 5), none, none, none] ⟨1, 2⟩
    (by
      intro k hk b hb
      simp only [List.mem_cons, List.not_mem_nil, or_false, or_self] at hk
      rcases hk with hk | hk
      · subst hk; cases hb; rfl
      · subst hk; cases hb) 1 _ hx
  exact ⟨h, hh⟩

/-! ## C16, C17 -/

theorem sendIV_inj (s t : SessID) (p q : W64) :
    sendIV s true (packetIDBytes p) = sendIV t true (packetIDBytes q) → s = t ∧ p = q := by
  intro h
  simp only [sendIV, if_true] at h
  have hl : s.bytes.length = t.bytes.length := by simp [SessID.bytes, putLE_length]
  obtain ⟨h1, h2⟩ := List.append_inj h hl
  constructor
  · simp only [SessID.bytes] at h1
    obtain ⟨h3, h4⟩ := List.append_inj h1 (by simp [putLE_length])
    have a := ofNat_getLE_putLE64 s.createdAt
    have b := ofNat_getLE_putLE64 s.random
    rw [h3, ofNat_getLE_putLE64] at a
    rw [h4, ofNat_getLE_putLE64] at b
    cases s; cases t; simp_all
  · have a := ofNat_getLE_putLE64 p
    simp only [packetIDBytes] at h2
    rw [h2, ofNat_getLE_putLE64] at a
    exact a.symm

theorem takeIDs_val (ts : List Taker) : ∀ (c : W64) (x : Taker × W64), x ∈ takeIDs c ts →
    ∃ i, i < ts.length ∧ x.2 = c + 1 + BitVec.ofNat 64 i := by
  induction ts with
  | nil => intro c x h; simp [takeIDs] at h
  | cons t ts ih =>
    intro c x h
    simp only [takeIDs, List.mem_cons] at h
    rcases h with h | h
    · exact ⟨0, by simp, by rw [h]; simp⟩
    · obtain ⟨i, hi, he⟩ := ih (c + 1) x h
      refine ⟨i + 1, by simp; omega, ?_⟩
      rw [he, show BitVec.ofNat 64 (i + 1) = BitVec.ofNat 64 i + 1 from BitVec.ofNat_add i 1,
        BitVec.add_assoc (c + 1), BitVec.add_comm 1]

theorem takeIDs_nodup (ts : List Taker) : ∀ c : W64, ts.length < 2 ^ 64 →
    (takeIDs c ts).Pairwise (fun x y => x.2 ≠ y.2) := by
  induction ts with
  | nil => intro c _; simp [takeIDs]
  | cons t ts ih =>
    intro c h
    simp only [List.length_cons] at h
    simp only [takeIDs, List.pairwise_cons]
    refine ⟨?_, ih (c + 1) (by omega)⟩
    intro x hx he
    obtain ⟨i, hi, hv⟩ := takeIDs_val ts (c + 1) x hx
    rw [hv] at he
    have e1 : BitVec.ofNat 64 (i + 1) = 0#64 := by
      have : (c + 1) + BitVec.ofNat 64 (i + 1) = c + 1 := by
        rw [show BitVec.ofNat 64 (i + 1) = BitVec.ofNat 64 i + 1 from BitVec.ofNat_add i 1,
          BitVec.add_comm (BitVec.ofNat 64 i) 1, ← BitVec.add_assoc]
        exact he.symm
      exact BitVec.add_right_eq_self.mp this
    have e2 := congrArg BitVec.toNat e1
    rw [BitVec.toNat_ofNat, Nat.mod_eq_of_lt (by omega)] at e2
    simp at e2

/-- C16: in every interleaving of fewer than 2^64 packet ID requests (confidential and other sends,
receptions), the IVs of the confidential packets of a session are pairwise different; and IVs of two
sessions with different session IDs are never equal, whatever the packet IDs. -/
theorem C16_nonce_unique :
    (∀ (s : SessID) (ts : List Taker), ts.length < 2 ^ 64 →
      (((takeIDs 0 ts).filter (fun x => x.1 = .send true)).map
        (fun x => sendIV s true (packetIDBytes x.2))).Nodup) ∧
    (∀ (s t : SessID) (p q : W64), s ≠ t →
      sendIV s true (packetIDBytes p) ≠ sendIV t true (packetIDBytes q)) := by
  constructor
  · intro s ts h
    rw [List.Nodup, List.pairwise_map]
    apply List.Pairwise.imp _ ((takeIDs_nodup ts 0 h).filter _)
    intro x y hxy he
    exact hxy (sendIV_inj s s _ _ he).2
  · intro s t p q hst he
    exact hst (sendIV_inj s t p q he).1

/-- With 2^64 requests the counter wraps, so the bound is sharp in kind: the ID after `2^64` requests
repeats the first. -/
example (c : W64) : (c + 1) + BitVec.ofNat 64 (2 ^ 64) = c + 1 := by
  apply BitVec.eq_of_toNat_eq; simp

example : (takeIDs 0 [.send true, .receive, .send false, .send true]).map (·.2) = [1, 2, 3, 4] := by
  decide

/-- C17 within one session: the IVs (= packet IDs) of packets sealed with the auxiliary key are pairwise
different, and they never coincide with the IV of the packet ID encryption.  Missing for the full
property: uniqueness between the two peers and between sessions, which fails. -/
theorem C17_one_session_partial (s : SessID) (ts : List Taker) (h : ts.length < 2 ^ 64) :
    (((takeIDs 0 ts).filter (fun x => x.1 = .send false)).map
        (fun x => sendIV s false (packetIDBytes x.2))).Nodup ∧
    ∀ p : W64, sendIV s false (packetIDBytes p) ≠ emptyIV := by
  constructor
  · rw [List.Nodup, List.pairwise_map]
    apply List.Pairwise.imp _ ((takeIDs_nodup ts 0 h).filter _)
    intro x y hxy he
    have : packetIDBytes x.2 = packetIDBytes y.2 := he
    have a := ofNat_getLE_putLE64 x.2
    simp only [packetIDBytes] at this
    rw [this, ofNat_getLE_putLE64] at a
    exact hxy a.symm
  · intro p he
    have := congrArg List.length he
    simp [sendIV, packetIDBytes, putLE_length, emptyIV] at this

/-- C17 is violated: any two sessions (or the two peers of one session) with the same PSK use the same
key stream for packets with equal packet IDs, so the XOR of the two ciphertexts is the XOR of the two
plain texts, for all contents; every session's first packet has ID 1.  And the packet IDs of *any* two
packets (also confidential ones) are encrypted with one and the same key stream. -/
theorem C17_violated (C : Crypto) (a : Bytes) (ha : a.length = 32) (s t : SessID) (pid : W64)
    (m1 m2 : Bytes) (p1 p2 : Bytes)
    (h1 : sealPacket C (some a) (some a) s false pid m1 = some p1)
    (h2 : sealPacket C (some a) (some a) t false pid m2 = some p2) :
    xorBytes (p1.drop 8) (p2.drop 8) =
      xorBytes ((plainPacket C (some a) (packetIDBytes pid) m1).drop 8)
        ((plainPacket C (some a) (packetIDBytes pid) m2).drop 8) := by
  have hid : (packetIDBytes pid).length = 8 := putLE_length _ _
  have hiv : ∀ s, (sendIV s false (packetIDBytes pid)).length = 8 := fun _ => hid
  have hel : (xorStream (C.keyStream a emptyIV) 0 (packetIDBytes pid)).length = 8 := by
    rw [xorStream_length, hid]
  simp only [sealPacket, crypt_some ha (.inl (hiv s)), crypt_some ha (.inl (hiv t)),
    crypt_some ha (.inr (.inr emptyIV_length)), Option.some.injEq] at h1 h2
  subst h1; subst h2
  rw [drop_app hel, drop_app hel]
  exact xorStream_xor _ _ _ _

theorem C17_violated_packet_ids (C : Crypto) (a : Bytes) (ha : a.length = 32) (s t : SessID)
    (c1 c2 : Bool) (k1 k2 : Bytes) (hk1 : k1.length = 32) (hk2 : k2.length = 32) (pid1 pid2 : W64)
    (m1 m2 : Bytes) (p1 p2 : Bytes)
    (h1 : sealPacket C (some a) (some k1) s c1 pid1 m1 = some p1)
    (h2 : sealPacket C (some a) (some k2) t c2 pid2 m2 = some p2) :
    xorBytes (p1.take 8) (p2.take 8) = xorBytes (packetIDBytes pid1) (packetIDBytes pid2) := by
  have hid : ∀ p, (packetIDBytes p).length = 8 := fun p => putLE_length _ _
  have hiv : ∀ s c p, (sendIV s c (packetIDBytes p)).length = 8 ∨ (sendIV s c (packetIDBytes p)).length = 12
      ∨ (sendIV s c (packetIDBytes p)).length = 24 := by
    intro s c p
    cases c
    · exact .inl (hid p)
    · right; right; simp [sendIV, SessID.bytes, putLE_length, hid]
  have hel : ∀ p, (xorStream (C.keyStream a emptyIV) 0 (packetIDBytes p)).length = 8 := by
    intro p; rw [xorStream_length, hid]
  simp only [sealPacket, crypt_some hk1 (hiv _ _ _), crypt_some hk2 (hiv _ _ _),
    crypt_some ha (.inr (.inr emptyIV_length)), Option.some.injEq] at h1 h2
  subst h1; subst h2
  rw [take_app (hel _), take_app (hel _)]
  exact xorStream_xor _ _ _ _

/-- The hypotheses of the two theorems can be met: the sender always produces such packets. -/
example (C : Crypto) : ∃ p1 p2,
    sealPacket C (some (List.replicate 32 1)) (some (List.replicate 32 1)) ⟨1, 2⟩ false 1 [1] = some p1 ∧
    sealPacket C (some (List.replicate 32 1)) (some (List.replicate 32 1)) ⟨3, 4⟩ false 1 [2] = some p2 := by
  have hk : KeyOK (some (List.replicate 32 1)) := fun b h => by cases h; rfl
  obtain ⟨p1, h1, -⟩ := seal_spec C _ _ ⟨1, 2⟩ false 1 [1] hk hk id
  obtain ⟨p2, h2, -⟩ := seal_spec C _ _ ⟨3, 4⟩ false 1 [2] hk hk id
  exact ⟨p1, p2, h1, h2⟩

/-! ## C64 -/

theorem zipWith_xor_inj (c a b : Bytes) (h1 : a.length = c.length) (h2 : b.length = c.length)
    (h : a.zipWith (· ^^^ ·) c = b.zipWith (· ^^^ ·) c) : a = b := by
  induction c generalizing a b with
  | nil =>
    have := List.eq_nil_of_length_eq_zero h1; have := List.eq_nil_of_length_eq_zero h2; simp_all
  | cons x xs ih =>
    cases a with
    | nil => simp at h1
    | cons y ys =>
      cases b with
      | nil => simp at h2
      | cons z zs =>
        simp only [List.zipWith_cons_cons, List.cons.injEq] at h
        have e : y = z := by
          have := congrArg (· ^^^ x) h.1
          simpa [BitVec.xor_assoc] using this
        rw [e, ih ys zs (by simpa using h1) (by simpa using h2) h.2]

/-- The constant in full (message.go:52). -/
example : polyXORer.map BitVec.toNat = "github.com/xaionaro-go/secureio ".toList.map Char.toNat ∧ emptyIV = List.replicate 24 0 := by
  decide +kernel

/-- C64: the one-time MAC keys of two packets are hashes of different strings unless both the packet ID
and the first 24 bytes of the cipher key coincide. -/
theorem C64_mac_key_preimage (p q : W64) (k l : Bytes) (hk : k.length = 32) (hl : l.length = 32)
    (h : polyKeyInput (packetIDBytes p) (some k) = polyKeyInput (packetIDBytes q) (some l)) :
    p = q ∧ k.take 24 = l.take 24 := by
  have hid : ∀ p, (packetIDBytes p).length = 8 := fun p => putLE_length _ _
  have hf : ∀ k : Bytes, k.length = 32 → fit24 k = k.take 24 := by
    intro k hk; simp only [fit24]; rw [List.take_append_of_le_length (by omega)]
  have := zipWith_xor_inj polyXORer _ _ (by simp [hid, hf k hk, hk, polyXORer])
    (by simp [hid, hf l hl, hl, polyXORer]) h
  simp only [Option.getD_some, hf k hk, hf l hl] at this
  obtain ⟨h1, h2⟩ := List.append_inj this (by simp [hid])
  refine ⟨?_, h2⟩
  have a := ofNat_getLE_putLE64 p
  simp only [packetIDBytes] at h1
  rw [h1, ofNat_getLE_putLE64] at a
  exact a.symm

/-- C64 is violated as to "one string per one-time key": in every packet the length field and the
messages are authenticated with one and the same Poly1305 key, so for every non-4-byte content the key
authenticates two different strings. -/
theorem C64_violated (C : Crypto) (key : Option Bytes) (pid : W64) (msgs : Bytes)
    (hm : msgs.length ≠ 4) :
    ∃ k x y, x ≠ y ∧ (containerSet C key (packetIDBytes pid) msgs).headersChecksum = C.poly k x ∧
      (containerSet C key (packetIDBytes pid) msgs).messagesChecksum = C.poly k y := by
  refine ⟨_, _, _, ?_, rfl, rfl⟩
  intro h
  have := congrArg List.length h
  rw [putLE_length] at this
  exact hm this.symm

/-- C64 is violated between the sides too: nothing in the one-time key tells who sends.  For every key, packet ID and contents,
the packets with this ID of two sessions carry Poly1305 tags of both contents under one and the same key. -/
theorem C64_violated_sides (C : Crypto) (aux key : Option Bytes) (ha : KeyOK aux) (hk : KeyOK key) (hn : key = none → aux = none)
    (s t : SessID) (conf : Bool) (pid : W64) (m1 m2 : Bytes) :
    ∃ kappa p1 p2, sealPacket C aux key s conf pid m1 = some p1 ∧ sealPacket C aux key t conf pid m2 = some p2 ∧
      ((clear C key (sendIV s conf (packetIDBytes pid)) (p1.drop 8)).drop 16).take 16 = C.poly kappa m1 ∧
      ((clear C key (sendIV t conf (packetIDBytes pid)) (p2.drop 8)).drop 16).take 16 = C.poly kappa m2 := by
  obtain ⟨p1, h1, -, -, e1⟩ := seal_spec C aux key s conf pid m1 ha hk hn
  obtain ⟨p2, h2, -, -, e2⟩ := seal_spec C aux key t conf pid m2 ha hk hn
  have hid : (packetIDBytes pid).length = 8 := putLE_length _ _
  have tag : ∀ m, (((plainPacket C key (packetIDBytes pid) m).drop 8).drop 16).take 16 = C.poly (polyKey C (packetIDBytes pid) key) m := by
    intro m
    simp only [plainPacket, containerSet, headersChecksum, messagesChecksum, List.append_assoc]
    rw [List.drop_left' hid, List.drop_left' (C.poly_length _ _), List.take_left' (C.poly_length _ _)]
  exact ⟨_, p1, p2, h1, h2, by rw [e1]; exact tag m1, by rw [e2]; exact tag m2⟩

/-- The hypotheses can be met: with a key and without. -/
example (C : Crypto) : ∃ kappa p1 p2, sealPacket C none (some (List.replicate 32 1)) ⟨1, 2⟩ true 5 [1] = some p1 ∧
    sealPacket C none (some (List.replicate 32 1)) ⟨3, 4⟩ true 5 [2] = some p2 ∧
    ((clear C (some (List.replicate 32 1)) (sendIV ⟨1, 2⟩ true (packetIDBytes 5)) (p1.drop 8)).drop 16).take 16 = C.poly kappa [1] ∧
    ((clear C (some (List.replicate 32 1)) (sendIV ⟨3, 4⟩ true (packetIDBytes 5)) (p2.drop 8)).drop 16).take 16 = C.poly kappa [2] :=
  C64_violated_sides C none _ (fun _ h => by cases h) (fun b h => by cases h; rfl) (fun h => by cases h) _ _ _ _ _ _

#print axioms C12_roundtrip_confidential
#print axioms C12_roundtrip_aux
#print axioms C13_accept_implies_genuine
#print axioms C13_reject
#print axioms C25_decrypt_total
#print axioms C14_psk_partial
#print axioms C14_violated
#print axioms C14_violated_witness
#print axioms C16_nonce_unique
#print axioms C17_one_session_partial
#print axioms C17_violated
#print axioms C17_violated_packet_ids
#print axioms C64_mac_key_preimage
#print axioms C64_violated
#print axioms C64_violated_sides
end Verif.Packet
