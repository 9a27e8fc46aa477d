import Verif.Spec.Packet
import Verif.Lemmas.Headers
/-! Helper lemmas about packets. -/
namespace Verif.Packet
open Verif.Headers

theorem xorStream_length (ks : Nat → Byte) (i : Nat) (b : Bytes) :
    (xorStream ks i b).length = b.length := by
  induction b generalizing i with
  | nil => rfl
  | cons x xs ih => simp [xorStream, ih]

theorem xorStream_invol (ks : Nat → Byte) (i : Nat) (b : Bytes) :
    xorStream ks i (xorStream ks i b) = b := by
  induction b generalizing i with
  | nil => rfl
  | cons x xs ih => simp [xorStream, ih, BitVec.xor_assoc]

theorem xorStream_xor (ks : Nat → Byte) (i : Nat) (a b : Bytes) :
    xorBytes (xorStream ks i a) (xorStream ks i b) = xorBytes a b := by
  induction a generalizing i b with
  | nil => simp [xorStream, xorBytes]
  | cons x xs ih =>
    cases b with
    | nil => simp [xorStream, xorBytes]
    | cons y ys =>
      have := ih (i + 1) ys
      simp only [xorBytes] at this
      simp only [xorStream, xorBytes, List.zipWith_cons_cons, this]
      congr 1
      rw [BitVec.xor_assoc, BitVec.xor_comm (ks i), BitVec.xor_assoc, BitVec.xor_self, BitVec.xor_zero]

theorem crypt_some {C : Crypto} {key iv : Bytes} (hk : key.length = 32)
    (hi : iv.length = 8 ∨ iv.length = 12 ∨ iv.length = 24) (src : Bytes) :
    crypt C key iv src = some (xorStream (C.keyStream key iv) 0 src) := by
  simp only [crypt]; rw [if_pos ⟨hk, hi⟩]

theorem emptyIV_length : emptyIV.length = 24 := rfl

theorem readAfterIV_eq (pid b : Bytes) (h : 36 ≤ b.length) :
    readAfterIV pid b = .ok (⟨pid, b.take 16, (b.drop 16).take 16,
      BitVec.ofNat 32 (getLE ((b.drop 32).take 4))⟩, 36) := by
  simp only [readAfterIV, tagSize, List.length_drop, List.drop_drop]
  rw [if_neg (by omega), if_neg (by omega), if_neg (by omega)]
  rfl

theorem length_le_take (b : Bytes) (h : 36 ≤ b.length) :
    putLE 4 (BitVec.ofNat 32 (getLE ((b.drop 32).take 4))).toNat = (b.drop 32).take 4 :=
  putLE_ofNat32 _ (by simp; omega)

/-- The result of a successful `tryDecrypt`. -/
def opened (C : Crypto) (key : Option Bytes) (packetID iv body : Bytes) : ContainerHdr × Bytes :=
  let p := clear C key iv body
  (⟨packetID, p.take 16, (p.drop 16).take 16, BitVec.ofNat 32 (getLE ((p.drop 32).take 4))⟩, p.drop 36)

theorem clear_length (C : Crypto) (key : Option Bytes) (iv body : Bytes) :
    (clear C key iv body).length = body.length := by
  cases key <;> simp [clear, xorStream_length]

open Classical in
/-- `tryDecrypt` in terms of the specification. -/
theorem tryDecrypt_spec (C : Crypto) (packetID enc : Bytes) (key : Option Bytes) (iv : Bytes)
    (hk : KeyOK key) (hi : key ≠ none → iv.length = 8 ∨ iv.length = 12 ∨ iv.length = 24)
    (hl : 36 ≤ enc.length) :
    tryDecrypt C packetID enc key iv =
      if HeaderOK C key packetID iv enc then
        if MessagesOK C key packetID iv enc then .ok (some (opened C key packetID iv enc))
        else .err .invalidChecksum
      else .ok none := by
  have hp : plainOf C key iv enc = some (clear C key iv enc) := by
    cases key with
    | none => rfl
    | some k => exact crypt_some (hk k rfl) (hi (by simp)) enc
  have hlen := clear_length C key iv enc
  simp only [tryDecrypt, hp]
  have h36 : 36 ≤ (clear C key iv enc).length := by omega
  rw [readAfterIV_eq _ _ h36]
  dsimp only
  have e1 : (headersChecksum C key packetID
      (BitVec.ofNat 32 (getLE (((clear C key iv enc).drop 32).take 4))) = (clear C key iv enc).take 16)
      ↔ HeaderOK C key packetID iv enc := by
    rw [headersChecksum, length_le_take _ h36]; exact ⟨Eq.symm, Eq.symm⟩
  have e2 : (messagesChecksum C key packetID ((clear C key iv enc).drop 36) =
      ((clear C key iv enc).drop 16).take 16) ↔ MessagesOK C key packetID iv enc := ⟨Eq.symm, Eq.symm⟩
  by_cases h1 : HeaderOK C key packetID iv enc
  · rw [if_neg (not_not_intro (e1.mpr h1)), if_pos h1]
    by_cases h2 : MessagesOK C key packetID iv enc
    · rw [if_neg (not_not_intro (e2.mpr h2)), if_pos h2]
      rfl
    · rw [if_pos (fun h => h2 (e2.mp h)), if_neg h2]
  · rw [if_pos (fun h => h1 (e1.mp h)), if_neg h1]

/-- Everything about a packet produced by the sender. -/
theorem seal_spec (C : Crypto) (aux key : Option Bytes) (sid : SessID) (conf : Bool) (pid : W64)
    (msgs : Bytes) (ha : KeyOK aux) (hk : KeyOK key) (hn : key = none → aux = none) :
    ∃ pkt, sealPacket C aux key sid conf pid msgs = some pkt ∧
      pkt.length = msgs.length + 44 ∧
      wirePacketID C aux pkt = packetIDBytes pid ∧
      clear C key (sendIV sid conf (packetIDBytes pid)) (pkt.drop 8) =
        (plainPacket C key (packetIDBytes pid) msgs).drop 8 := by
  have hid : (packetIDBytes pid).length = 8 := putLE_length _ _
  have hpl : (plainPacket C key (packetIDBytes pid) msgs).length = msgs.length + 44 := by
    simp only [plainPacket, containerSet, headersChecksum, messagesChecksum]
    simp [hid, C.poly_length, putLE_length]; omega
  have hpt : (plainPacket C key (packetIDBytes pid) msgs).take 8 = packetIDBytes pid := by
    simp only [plainPacket, containerSet, List.append_assoc]
    exact take_app hid
  cases key with
  | none =>
    have := hn rfl; subst this
    exact ⟨_, rfl, hpl, hpt, rfl⟩
  | some k =>
    have hiv : (sendIV sid conf (packetIDBytes pid)).length = 8 ∨
        (sendIV sid conf (packetIDBytes pid)).length = 12 ∨
        (sendIV sid conf (packetIDBytes pid)).length = 24 := by
      cases conf
      · left; exact hid
      · right; right; simp [sendIV, SessID.bytes, putLE_length, hid]
    simp only [sealPacket, crypt_some (hk k rfl) hiv]
    cases aux with
    | none =>
      refine ⟨_, rfl, ?_, ?_, ?_⟩
      · simp [xorStream_length, hpl, hid]; omega
      · simp only [wirePacketID, clear]; exact take_app hid
      · simp only [clear]; rw [drop_app hid, xorStream_invol]
    | some a =>
      simp only [crypt_some (ha a rfl) (.inr (.inr emptyIV_length))]
      have hel : (xorStream (C.keyStream a emptyIV) 0 (packetIDBytes pid)).length = 8 := by
        rw [xorStream_length, hid]
      refine ⟨_, rfl, ?_, ?_, ?_⟩
      · simp [xorStream_length, hpl, hid]; omega
      · simp only [wirePacketID, clear]; rw [take_app hel, xorStream_invol]
      · simp only [clear]; rw [drop_app hel, xorStream_invol]

/-- A sender's packet is genuine under the sender's key and opens to what was sealed. -/
theorem sealed_genuine (C : Crypto) (key : Option Bytes) (iv pidb body msgs : Bytes)
    (hid : pidb.length = 8)
    (hc : clear C key iv body = (plainPacket C key pidb msgs).drop 8) :
    Genuine C key pidb iv body ∧
      opened C key pidb iv body = (containerSet C key pidb msgs, msgs) := by
  have e0 : clear C key iv body = headersChecksum C key pidb (BitVec.ofNat 32 msgs.length) ++
      (messagesChecksum C key pidb msgs ++ (putLE 4 (BitVec.ofNat 32 msgs.length).toNat ++ msgs)) := by
    rw [hc]; simp only [plainPacket, containerSet, List.append_assoc]; exact drop_app hid
  have l1 : (headersChecksum C key pidb (BitVec.ofNat 32 msgs.length)).length = 16 := C.poly_length _ _
  have l2 : (messagesChecksum C key pidb msgs).length = 16 := C.poly_length _ _
  have t16 : (clear C key iv body).take 16 = headersChecksum C key pidb (BitVec.ofNat 32 msgs.length) := by
    rw [e0]; exact take_app l1
  have d16 : (clear C key iv body).drop 16 = messagesChecksum C key pidb msgs ++
      (putLE 4 (BitVec.ofNat 32 msgs.length).toNat ++ msgs) := by
    rw [e0]; exact drop_app l1
  have d32 : (clear C key iv body).drop 32 = putLE 4 (BitVec.ofNat 32 msgs.length).toNat ++ msgs := by
    rw [show (32 : Nat) = 16 + 16 from rfl, ← List.drop_drop, d16]; exact drop_app l2
  have d36 : (clear C key iv body).drop 36 = msgs := by
    rw [show (36 : Nat) = 32 + 4 from rfl, ← List.drop_drop, d32]; exact drop_app (putLE_length _ _)
  refine ⟨⟨?_, ?_⟩, ?_⟩
  · simp only [HeaderOK]; rw [t16, d32, take_app (putLE_length _ _)]; rfl
  · simp only [MessagesOK]; rw [d16, d36, take_app l2]; rfl
  · simp only [opened, t16, d16, d32, d36, take_app l2, take_app (putLE_length _ _), ofNat_getLE_putLE32]
    rfl

/-- `tryKeys` on a list of keys of which the first ones do not match. -/
theorem tryKeys_skip (C : Crypto) (packetID enc iv : Bytes) (pre rest : List (Option Bytes))
    (hl : 36 ≤ enc.length) (hiv : iv.length = 24)
    (hpre : ∀ k ∈ pre, KeyOK k ∧ (k ≠ none → ¬ HeaderOK C k packetID iv enc)) :
    tryKeys C packetID enc iv (pre ++ rest) = tryKeys C packetID enc iv rest := by
  induction pre with
  | nil => rfl
  | cons k ks ih =>
    have hks := ih (fun k hk => hpre k (List.mem_cons_of_mem _ hk))
    cases k with
    | none => simp only [List.cons_append, tryKeys]; exact hks
    | some k =>
      obtain ⟨h1, h2⟩ := hpre (some k) (List.mem_cons_self ..)
      simp only [List.cons_append, tryKeys]
      rw [tryDecrypt_spec C packetID enc (some k) iv h1 (fun _ => .inr (.inr hiv)) hl,
        if_neg (h2 (by simp))]
      exact hks

theorem tryKeys_all_none (C : Crypto) (packetID enc iv : Bytes) (pre : List (Option Bytes))
    (hpre : ∀ k ∈ pre, k = none) : tryKeys C packetID enc iv pre = .ok none := by
  induction pre with
  | nil => rfl
  | cons k ks ih =>
    have := hpre k (List.mem_cons_self ..); subst this
    exact ih (fun k hk => hpre k (List.mem_cons_of_mem _ hk))

/-- A successful `tryKeys` used one of the keys, and with it both tags are valid. -/
theorem tryKeys_ok (C : Crypto) (packetID enc iv : Bytes) (ks : List (Option Bytes))
    (hl : 36 ≤ enc.length) (hiv : iv.length = 24 ∨ ∀ k ∈ ks, k = none) (hk : ∀ k ∈ ks, KeyOK k)
    (r : ContainerHdr × Bytes) (h : tryKeys C packetID enc iv ks = .ok (some r)) :
    ∃ k ∈ ks, k ≠ none ∧ Genuine C k packetID iv enc ∧ r = opened C k packetID iv enc := by
  induction ks with
  | nil => simp [tryKeys] at h
  | cons k ks ih =>
    have hiv' : iv.length = 24 ∨ ∀ k ∈ ks, k = none :=
      hiv.imp id (fun h k hk => h k (List.mem_cons_of_mem _ hk))
    have ih := ih hiv' (fun k hk' => hk k (List.mem_cons_of_mem _ hk'))
    cases k with
    | none =>
      simp only [tryKeys] at h
      obtain ⟨k, h1, h2⟩ := ih h
      exact ⟨k, List.mem_cons_of_mem _ h1, h2⟩
    | some k =>
      have hiv : iv.length = 24 := hiv.resolve_right (fun h => by
        have := h (some k) (List.mem_cons_self ..); simp at this)
      simp only [tryKeys] at h
      rw [tryDecrypt_spec C packetID enc (some k) iv (hk _ (List.mem_cons_self ..))
        (fun _ => .inr (.inr hiv)) hl] at h
      by_cases h1 : HeaderOK C (some k) packetID iv enc
      · rw [if_pos h1] at h
        by_cases h2 : MessagesOK C (some k) packetID iv enc
        · rw [if_pos h2] at h
          simp only [Outcome.ok.injEq, Option.some.injEq] at h
          exact ⟨some k, List.mem_cons_self .., by simp, ⟨h1, h2⟩, h.symm⟩
        · rw [if_neg h2] at h; simp at h
      · rw [if_neg h1] at h
        obtain ⟨k, h1, h2⟩ := ih h
        exact ⟨k, List.mem_cons_of_mem _ h1, h2⟩

/-- `tryKeys` cannot panic or block when the keys have 32 bytes and the IV 24. -/
theorem tryKeys_total (C : Crypto) (packetID enc iv : Bytes) (ks : List (Option Bytes))
    (hl : 36 ≤ enc.length) (hiv : iv.length = 24 ∨ ∀ k ∈ ks, k = none) (hk : ∀ k ∈ ks, KeyOK k) :
    tryKeys C packetID enc iv ks ≠ .panic ∧ tryKeys C packetID enc iv ks ≠ .block := by
  induction ks with
  | nil => simp [tryKeys]
  | cons k ks ih =>
    have hiv' : iv.length = 24 ∨ ∀ k ∈ ks, k = none :=
      hiv.imp id (fun h k hk => h k (List.mem_cons_of_mem _ hk))
    have ih := ih hiv' (fun k hk' => hk k (List.mem_cons_of_mem _ hk'))
    cases k with
    | none => exact ih
    | some k =>
      have hiv : iv.length = 24 := hiv.resolve_right (fun h => by
        have := h (some k) (List.mem_cons_self ..); simp at this)
      simp only [tryKeys]
      rw [tryDecrypt_spec C packetID enc (some k) iv (hk _ (List.mem_cons_self ..))
        (fun _ => .inr (.inr hiv)) hl]
      by_cases h1 : HeaderOK C (some k) packetID iv enc
      · rw [if_pos h1]
        by_cases h2 : MessagesOK C (some k) packetID iv enc
        · rw [if_pos h2]; simp
        · rw [if_neg h2]; simp
      · rw [if_neg h1]; exact ih

theorem decryptPacketID_eq (C : Crypto) (aux : Option Bytes) (packet : Bytes) (ha : KeyOK aux) :
    decryptPacketID C aux (packet.take 8) = some (wirePacketID C aux packet) := by
  cases aux with
  | none => rfl
  | some a => exact crypt_some (ha a rfl) (.inr (.inr emptyIV_length)) _

theorem wirePacketID_length (C : Crypto) (aux : Option Bytes) (packet : Bytes)
    (h : 8 ≤ packet.length) : (wirePacketID C aux packet).length = 8 := by
  simp only [wirePacketID, clear_length, List.length_take]; omega

theorem remoteIV_length (s : SessID) (pid : Bytes) (h : pid.length = 8) :
    (remoteIV (some s) pid).length = 24 := by
  simp [remoteIV, SessID.bytes, putLE_length, h]

end Verif.Packet
