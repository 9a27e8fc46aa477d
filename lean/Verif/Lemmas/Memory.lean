import Verif.Model.Memory
import Verif.Lemmas.Packet
import Verif.Lemmas.Headers
/-!
# Lemmas about buffers
-/
namespace Verif.Mem
open Verif.Headers Verif.Send

theorem copyTo_length {arr src : Bytes} {lo hi : Nat} (h1 : lo ≤ hi) (h2 : hi ≤ arr.length) :
    (copyTo arr lo hi src).length = arr.length := by
  simp only [copyTo, List.length_append, List.length_take, List.length_drop]
  omega

/-- Writing behind a prefix makes it longer. -/
theorem copyTo_take {arr src p : Bytes} {lo hi : Nat} (hp : arr.take lo = p) (h1 : lo + src.length ≤ hi)
    (h2 : hi ≤ arr.length) : (copyTo arr lo hi src).take (lo + src.length) = p ++ src := by
  have hl : p.length = lo := by rw [← hp, List.length_take]; omega
  unfold copyTo
  rw [hp, List.take_of_length_le (l := src) (by omega), ← List.append_assoc]
  rw [List.take_append_of_le_length (by simp; omega)]
  exact List.take_of_length_le (by simp; omega)

/-- Writing a whole slice. -/
theorem copyTo_all {arr src : Bytes} {lo hi : Nat} (h1 : lo + src.length = hi) :
    copyTo arr lo hi src = arr.take lo ++ (src ++ arr.drop hi) := by
  unfold copyTo
  rw [List.take_of_length_le (l := src) (by omega), show lo + min (hi - lo) src.length = hi by omega]

theorem cryptTo_eq (C : Packet.Crypto) {key iv arr src : Bytes} {lo hi : Nat} (h1 : lo + src.length = hi) (h2 : hi ≤ arr.length) :
    cryptTo C key iv arr lo hi src = (Packet.crypt C key iv src).map fun o => arr.take lo ++ (o ++ arr.drop hi) := by
  unfold cryptTo
  rw [if_neg (by omega)]
  unfold Packet.crypt
  split
  · simp only [Option.map_some, Option.some.injEq]
    have hx : (Packet.xorStream (C.keyStream key iv) 0 src).length = src.length := Packet.xorStream_length ..
    rw [copyTo_all (by rw [hx]; exact h1), copyTo_all (by simp; omega)]
    have ht : (arr.take lo).length = lo := by rw [List.length_take]; omega
    congr 1
    · rw [List.take_append_of_le_length (by omega), List.take_of_length_le (by omega)]
    · congr 1
      rw [← List.append_assoc, List.drop_append, List.drop_of_length_le (by simp; omega)]
      simp
      omega
  · simp

theorem grow_len (b : Buf) (n : Nat) : (b.grow n).len = n := by
  unfold Buf.grow; split <;> rfl

theorem grow_offset (b : Buf) (n : Nat) : (b.grow n).offset = b.offset := by
  unfold Buf.grow; split <;> rfl

theorem grow_cap (b : Buf) (n : Nat) : n ≤ (b.grow n).arr.length ∧ b.arr.length ≤ (b.grow n).arr.length := by
  unfold Buf.grow; split
  · simp; omega
  · simp only [Nat.le_refl, and_true]; omega

/-- Growing to the present length changes nothing. -/
theorem grow_same {b : Buf} (h : b.len ≤ b.arr.length) : b.grow b.len = b := by
  unfold Buf.grow
  rw [if_neg (by omega)]

theorem putContainer_eq {b : Buf} {h : ContainerHdr} (hw : h.WF) (hl : 44 ≤ b.len) (hc : b.len ≤ b.arr.length) :
    ∃ arr, b.putContainer h = .ok { b with arr := arr } ∧ arr.length = b.arr.length ∧
      arr.take 44 = h.packetID ++ h.headersChecksum ++ h.messagesChecksum ++ putLE 4 h.length.toNat := by
  have h1 := hw.pid
  have h2 := hw.hc
  have h3 := hw.mc
  have h4 : (putLE 4 h.length.toNat).length = 4 := putLE_length _ _
  unfold Buf.putContainer
  rw [if_neg (by unfold containerHeadersSize; omega)]
  refine ⟨_, rfl, ?_, ?_⟩
  · rw [copyTo_length (by omega), copyTo_length (by omega), copyTo_length (by omega), copyTo_length (by omega)] <;>
      (try rw [copyTo_length (by omega)]) <;> (try rw [copyTo_length (by omega)]) <;> (try rw [copyTo_length (by omega)]) <;> omega
  · have e1 : (copyTo b.arr 0 b.len h.packetID).take 8 = h.packetID := by
      have := copyTo_take (arr := b.arr) (src := h.packetID) (p := []) (lo := 0) (hi := b.len) (by simp) (by omega) hc
      simpa [h1] using this
    have l1 : (copyTo b.arr 0 b.len h.packetID).length = b.arr.length := copyTo_length (by omega) hc
    have e2 := copyTo_take (src := h.headersChecksum) (hi := b.len) e1 (by omega) (by omega)
    have l2 := copyTo_length (arr := copyTo b.arr 0 b.len h.packetID) (src := h.headersChecksum) (lo := 8) (hi := b.len) (by omega) (by omega)
    rw [h2] at e2
    have e3 := copyTo_take (src := h.messagesChecksum) (hi := b.len) e2 (by omega) (by omega)
    have l3 := copyTo_length (arr := copyTo (copyTo b.arr 0 b.len h.packetID) 8 b.len h.headersChecksum) (src := h.messagesChecksum)
      (lo := 24) (hi := b.len) (by omega) (by omega)
    rw [h3] at e3
    have e4 := copyTo_take (src := putLE 4 h.length.toNat) (hi := b.len) e3 (by omega) (by simp only [Nat.reduceAdd]; omega)
    rw [h4] at e4
    exact e4

theorem copyAt_eq {b : Buf} {i : Nat} {src : Bytes} (h1 : i + src.length = b.len) (h2 : b.len ≤ b.arr.length) :
    ∃ arr, b.copyAt i src = .ok { b with arr := arr } ∧ arr.length = b.arr.length ∧ arr.take b.len = b.arr.take i ++ src := by
  unfold Buf.copyAt
  rw [if_pos (by omega)]
  refine ⟨_, rfl, copyTo_length (by omega) h2, ?_⟩
  have := copyTo_take (arr := b.arr) (src := src) (lo := i) (hi := b.len) rfl (by omega) h2
  rw [← h1]; rw [← h1] at this; exact this

theorem sid_length (s : SessID) : s.bytes.length = 16 := by simp [SessID.bytes, putLE_length]

/-- The two copies that make an IV. -/
theorem iv_pair (iv : Buf) (s : SessID) {pid : Bytes} (hp : pid.length = 8) :
    ∃ iv1 iv2, (iv.grow 24).copyAt 0 s.bytes = .ok iv1 ∧ iv1.copyAt 16 pid = .ok iv2 ∧ iv2.bytes = s.bytes ++ pid := by
  have hl := grow_len iv 24
  have hc := (grow_cap iv 24).1
  have hs := sid_length s
  refine ⟨{ iv.grow 24 with arr := copyTo (iv.grow 24).arr 0 (iv.grow 24).len s.bytes }, ?_⟩
  have e1 : (copyTo (iv.grow 24).arr 0 (iv.grow 24).len s.bytes).take 16 = s.bytes := by
    have := copyTo_take (arr := (iv.grow 24).arr) (src := s.bytes) (p := []) (lo := 0) (hi := (iv.grow 24).len) (by simp)
      (by omega) (by omega)
    simpa [hs] using this
  obtain ⟨arr, h1, h2, h3⟩ := copyAt_eq (b := { iv.grow 24 with arr := copyTo (iv.grow 24).arr 0 (iv.grow 24).len s.bytes })
    (i := 16) (src := pid) (by simp only [hl, hp]) (by dsimp only; rw [copyTo_length] <;> omega)
  refine ⟨_, ?_, h1, ?_⟩
  · unfold Buf.copyAt; rw [if_pos (Nat.zero_le _)]
  · simp only [Buf.bytes]; rw [h3, e1]

theorem iv_one (iv : Buf) {pid : Bytes} (hp : pid.length = 8) :
    ∃ iv1, (iv.grow 8).copyAt 0 pid = .ok iv1 ∧ iv1.bytes = pid := by
  have hl := grow_len iv 8
  have hc := (grow_cap iv 8).1
  obtain ⟨arr, h1, h2, h3⟩ := copyAt_eq (b := iv.grow 8) (i := 0) (src := pid) (by omega) (by omega)
  exact ⟨_, h1, by simp only [Buf.bytes]; rw [h3]; simp⟩

theorem crypt_length {C : Packet.Crypto} {k iv src o : Bytes} (h : Packet.crypt C k iv src = some o) : o.length = src.length := by
  unfold Packet.crypt at h
  split at h <;> cases h
  exact Packet.xorStream_length ..

/-- What the encryption gives, in terms of the plain text only. -/
theorem encryptBufs_eq (C : Packet.Crypto) (now : Now) (conf : Bool) (key : Bytes) (buf enc iv : Buf) (ho : buf.offset = 0)
    (h8 : 8 ≤ buf.len) (hc : buf.len ≤ buf.arr.length) (h32 : buf.len < 2 ^ 32) :
    encryptBufs C now conf key buf enc iv =
      match Packet.crypt C key (Packet.sendIV now.sessionID conf (packetIDBytes now.packetID)) (buf.bytes.drop 8) with
      | none => .panic
      | some body =>
        match now.aux with
        | none => .ok (packetIDBytes now.packetID ++ body)
        | some a =>
          match Packet.crypt C a Packet.emptyIV (packetIDBytes now.packetID) with
          | none => .panic
          | some encID => .ok (encID ++ body) := by
  have hpid : (packetIDBytes now.packetID).length = 8 := putLE_length _ _
  have hiv : ∃ iv2 : Buf, fillSendIV now.sessionID conf (packetIDBytes now.packetID) iv = .ok iv2 ∧
      iv2.bytes = Packet.sendIV now.sessionID conf (packetIDBytes now.packetID) := by
    unfold fillSendIV
    cases conf with
    | true =>
      obtain ⟨iv1, iv2, e1, e2, e3⟩ := iv_pair iv now.sessionID hpid
      exact ⟨iv2, by simp only [if_true, e1]; exact e2, by rw [e3]; rfl⟩
    | false =>
      obtain ⟨iv1, e1, e2⟩ := iv_one iv hpid
      exact ⟨iv1, e1, by rw [e2]; rfl⟩
  obtain ⟨iv2, hiv, hivb⟩ := hiv
  have hsz : (buf.len - buf.offset) % 2 ^ 32 = buf.len := by rw [ho, Nat.sub_zero]; exact Nat.mod_eq_of_lt h32
  unfold encryptBufs
  simp only [hsz, hiv, grow_same hc, hivb]
  rw [if_neg (by omega)]
  have hec := (grow_cap enc buf.len).1
  have hpl : ((buf.arr.take buf.len).drop 8).length = buf.len - 8 := by
    rw [List.length_drop, List.length_take]; omega
  rw [cryptTo_eq C (by omega) hec]
  have hb : buf.bytes = buf.arr.take buf.len := rfl
  rw [hb]
  cases hcr : Packet.crypt C key (Packet.sendIV now.sessionID conf (packetIDBytes now.packetID)) ((buf.arr.take buf.len).drop 8) with
  | none => rfl
  | some body =>
    have hbl := crypt_length hcr
    have ht8 : ((enc.grow buf.len).arr.take 8).length = 8 := by rw [List.length_take]; omega
    simp only [Option.map_some]
    cases now.aux with
    | none =>
      dsimp only
      rw [copyTo_all (by omega)]
      simp only [List.take_zero, List.nil_append, Outcome.ok.injEq]
      rw [List.drop_append, List.drop_of_length_le (by omega), ht8, Nat.sub_self, List.drop_zero, List.nil_append,
        ← List.append_assoc, List.take_append_of_le_length (by simp; omega)]
      exact List.take_of_length_le (by simp; omega)
    | some a =>
      dsimp only
      rw [cryptTo_eq C (by omega) (by simp; omega)]
      cases hcr2 : Packet.crypt C a Packet.emptyIV (packetIDBytes now.packetID) with
      | none => rfl
      | some e =>
        have hel := crypt_length hcr2
        simp only [Option.map_some, Outcome.ok.injEq, List.take_zero, List.nil_append]
        rw [List.drop_append, List.drop_of_length_le (by omega), ht8, Nat.sub_self, List.drop_zero, List.nil_append,
          ← List.append_assoc, List.take_append_of_le_length (by simp; omega)]
        exact List.take_of_length_le (by simp; omega)

theorem plainPacket_eq (C : Packet.Crypto) (key : Option Bytes) (pid msgs : Bytes) : Packet.plainPacket C key pid msgs =
    (Packet.containerSet C key pid msgs).packetID ++ (Packet.containerSet C key pid msgs).headersChecksum ++
      (Packet.containerSet C key pid msgs).messagesChecksum ++ putLE 4 (Packet.containerSet C key pid msgs).length.toNat ++ msgs := rfl

/-- The buffer `buf` once header and messages are in it. -/
theorem plain_in_buffer (C : Packet.Crypto) (key : Option Bytes) (pid : W64) (msgs : Bytes) (buf : Buf) :
    ∃ b1 b2 : Buf, (buf.grow (containerHeadersSize + msgs.length)).putContainer
        (Packet.containerSet C key (packetIDBytes pid) msgs) = .ok b1 ∧
      b1.copyAt containerHeadersSize msgs = .ok b2 ∧ b2.len = 44 + msgs.length ∧ b2.offset = buf.offset ∧ b2.len ≤ b2.arr.length ∧
      b2.bytes = Packet.plainPacket C key (packetIDBytes pid) msgs := by
  have hl := grow_len buf (44 + msgs.length)
  have ho := grow_offset buf (44 + msgs.length)
  have hc := (grow_cap buf (44 + msgs.length)).1
  have hw : (Packet.containerSet C key (packetIDBytes pid) msgs).WF := ⟨putLE_length _ _, C.poly_length _ _, C.poly_length _ _⟩
  obtain ⟨arr, h1, h2, h3⟩ := putContainer_eq (b := buf.grow (44 + msgs.length)) hw (by omega) (by omega)
  obtain ⟨arr2, h4, h5, h6⟩ := copyAt_eq (b := { buf.grow (44 + msgs.length) with arr := arr }) (i := 44) (src := msgs)
    (by dsimp only; omega) (by dsimp only; omega)
  refine ⟨_, _, h1, h4, by simpa using hl, by simpa using ho, by dsimp only at h5 ⊢; omega, ?_⟩
  dsimp only [Buf.bytes] at h6 ⊢
  rw [h6, h3, plainPacket_eq]

/-- `sendMessages` with buffers hands the same bytes to the backend as without. -/
theorem sendMessages_eq (C : Packet.Crypto) (cfg : Send.Cfg) (now : Now) (job : Job) (buf enc iv : Buf) (ho : buf.offset = 0)
    (h32 : containerHeadersSize + job.messages.length < 2 ^ 32) :
    sendMessages C cfg now job buf enc iv = Send.sendMessages C cfg now job := by
  unfold sendMessages Send.sendMessages
  cases hk : (if job.confidential then now.cipherKey.map some else some now.aux) with
  | none => rfl
  | some key =>
    obtain ⟨b1, b2, e1, e2, e3, e4, e5, e6⟩ := plain_in_buffer C key now.packetID job.messages buf
    have h44 : containerHeadersSize = 44 := rfl
    dsimp only
    rw [e1]; dsimp only
    rw [e2]; dsimp only
    have hout : b2.len - containerHeadersSize = job.messages.length := by omega
    rw [hout]
    by_cases hc1 : ¬ job.internal ∧ ¬ now.established
    · rw [if_pos hc1, if_pos hc1]
    · rw [if_neg hc1, if_neg hc1]
      have hlen : len32 job.messages = job.messages.length % 2 ^ 32 := rfl
      rw [hlen]
      by_cases hc2 : ¬ job.internal ∧ (containerHeadersSize + job.messages.length % 2 ^ 32) % 2 ^ 32 > packetSize cfg
      · rw [if_pos hc2, if_pos hc2]
      · rw [if_neg hc2, if_neg hc2, if_neg (by omega)]
        have hpl : (Packet.plainPacket C key (packetIDBytes now.packetID) job.messages).length = 44 + job.messages.length := by
          rw [← e6, Buf.bytes, List.length_take]; omega
        cases key with
        | none =>
          simp only [Packet.sealPacket, e6]
        | some k =>
          dsimp only
          rw [encryptBufs_eq C now job.confidential k b2 enc iv (by omega) (by omega) e5 (by omega), e6]
          simp only [Packet.sealPacket]
          have hpid : (packetIDBytes now.packetID).length = 8 := putLE_length _ _
          cases hcr : Packet.crypt C k (Packet.sendIV now.sessionID job.confidential (packetIDBytes now.packetID))
              ((Packet.plainPacket C (some k) (packetIDBytes now.packetID) job.messages).drop 8) with
          | none => rfl
          | some body =>
            have hbl := crypt_length hcr
            rw [List.length_drop, hpl] at hbl
            have hm : (containerHeadersSize + job.messages.length) % 2 ^ 32 = 44 + job.messages.length := Nat.mod_eq_of_lt h32
            cases ha : now.aux with
            | none =>
              dsimp only
              rw [hm, List.take_of_length_le (by simp; omega)]
            | some a =>
              dsimp only
              cases hcr2 : Packet.crypt C a Packet.emptyIV (packetIDBytes now.packetID) with
              | none => rfl
              | some e =>
                have hel := crypt_length hcr2
                dsimp only
                rw [hm, List.take_of_length_le (by simp; omega)]

/-- The header of a message at the begin of a buffer. -/
theorem putMessage_eq {b : Buf} (h : Hdr) (hl : 9 ≤ b.len) (hc : b.len ≤ b.arr.length) :
    ∃ arr, b.putMessage h = .ok { b with arr := arr } ∧ arr.length = b.arr.length ∧
      arr.take 9 = putLE 4 h.type.toNat ++ putLE 4 h.length.toNat ++ [h.flags] := by
  have h1 : (putLE 4 h.type.toNat).length = 4 := putLE_length _ _
  have h2 : (putLE 4 h.length.toNat).length = 4 := putLE_length _ _
  unfold Buf.putMessage
  rw [if_neg (by simp only [messageHeadersSize]; omega)]
  refine ⟨_, rfl, ?_, ?_⟩
  · have a1 := copyTo_length (src := putLE 4 h.type.toNat) (Nat.zero_le b.len) hc
    have a2 := copyTo_length (arr := copyTo b.arr 0 b.len (putLE 4 h.type.toNat)) (src := putLE 4 h.length.toNat)
      (show 4 ≤ b.len by omega) (by omega)
    rw [copyTo_length (by omega) (by omega), a2, a1]
  · have a1 := copyTo_length (src := putLE 4 h.type.toNat) (Nat.zero_le b.len) hc
    have a2 := copyTo_length (arr := copyTo b.arr 0 b.len (putLE 4 h.type.toNat)) (src := putLE 4 h.length.toNat)
      (show 4 ≤ b.len by omega) (by omega)
    have e1 := copyTo_take (arr := b.arr) (src := putLE 4 h.type.toNat) (lo := 0) (hi := b.len) rfl (by omega) hc
    rw [h1] at e1
    have e2 := copyTo_take (src := putLE 4 h.length.toNat) (hi := b.len) e1 (by omega) (by omega)
    rw [h2] at e2
    exact copyTo_take (src := [h.flags]) (hi := b.len) e2 (by simp; omega) (by omega)

theorem append_eq {b : Buf} (h : Hdr) (payload : Bytes) (hl : b.len ≤ b.arr.length) (hc : b.len + 9 + payload.length ≤ b.arr.length) :
    ∃ b', append b h payload = .ok b' ∧ b'.arr.length = b.arr.length ∧ b'.len = b.len + 9 + payload.length ∧ b'.offset = b.offset ∧
      b'.count = b.count + 1 ∧
      b'.bytes = b.bytes ++ (putLE 4 h.type.toNat ++ putLE 4 h.length.toNat ++ [h.flags] ++ payload) := by
  have h1 : (putLE 4 h.type.toNat).length = 4 := putLE_length _ _
  have h2 : (putLE 4 h.length.toNat).length = 4 := putLE_length _ _
  unfold append
  have hn : ¬ b.arr.length < b.len + 9 + payload.length := by omega
  simp only [messageHeadersSize]
  have a1 := copyTo_length (arr := b.arr) (src := putLE 4 h.type.toNat) (show b.len ≤ b.len + 9 + payload.length by omega) hc
  have a2 := copyTo_length (arr := copyTo b.arr b.len (b.len + 9 + payload.length) (putLE 4 h.type.toNat))
    (src := putLE 4 h.length.toNat) (show b.len + 4 ≤ b.len + 9 + payload.length by omega) (by omega)
  have a3 := copyTo_length (arr := copyTo (copyTo b.arr b.len (b.len + 9 + payload.length) (putLE 4 h.type.toNat)) (b.len + 4)
    (b.len + 9 + payload.length) (putLE 4 h.length.toNat)) (src := [h.flags])
    (show b.len + 8 ≤ b.len + 9 + payload.length by omega) (by omega)
  refine ⟨_, if_neg hn, ?_⟩
  refine ⟨?_, rfl, rfl, rfl, ?_⟩
  · dsimp only
    rw [copyTo_length (by omega) (by omega), a3, a2, a1]
  · dsimp only [Buf.bytes]
    have e1 := copyTo_take (arr := b.arr) (src := putLE 4 h.type.toNat) (lo := b.len) (hi := b.len + 9 + payload.length) rfl
      (by omega) hc
    rw [h1] at e1
    have e2 := copyTo_take (src := putLE 4 h.length.toNat) (hi := b.len + 9 + payload.length) e1 (by omega) (by omega)
    rw [h2, show b.len + 4 + 4 = b.len + 8 from rfl] at e2
    have e3 := copyTo_take (src := [h.flags]) (hi := b.len + 9 + payload.length) e2 (by simp) (by omega)
    rw [List.length_singleton, show b.len + 8 + 1 = b.len + 9 from rfl] at e3
    have e4 := copyTo_take (src := payload) (hi := b.len + 9 + payload.length) e3 (by omega) (by omega)
    simpa [List.append_assoc] using e4

theorem append_panic {b : Buf} (h : Hdr) {payload : Bytes} (hc : b.arr.length < b.len + 9 + payload.length) :
    append b h payload = .panic := by
  unfold append
  exact if_pos hc

theorem new_cap (n : Nat) : (Buf.new n).arr.length = n := by
  unfold Buf.new Buf.grow
  dsimp only
  split
  · exact List.length_replicate
  · simp only [List.length_nil] at *; omega

/-! ### decrypt -/

/-- The messages of a result that is still in the buffer. -/
def content (r : Outcome Packet.DecryptErr (Option ContainerHdr) × Buf) :
    Outcome Packet.DecryptErr (Option (ContainerHdr × Bytes)) :=
  match r with
  | (.ok (some h), dec) => .ok (some (h, dec.bytes.drop dec.offset))
  | (.ok none, _) => .ok none
  | (.err e, _) => .err e
  | (.panic, _) => .panic
  | (.block, _) => .block

theorem plainTo_eq (C : Packet.Crypto) (key : Option Bytes) (iv : Bytes) {dec : Buf} {enc : Bytes}
    (hl : dec.len = enc.length) (hc : enc.length ≤ dec.arr.length) :
    (plainTo C key iv dec enc).map (·.take enc.length) = Packet.plainOf C key iv enc ∧
      ∀ arr, plainTo C key iv dec enc = some arr → arr.length = dec.arr.length := by
  unfold plainTo Packet.plainOf
  cases key with
  | none =>
    refine ⟨?_, ?_⟩
    · dsimp only
      rw [copyTo_all (by omega)]
      simp
    · intro arr h
      cases h
      exact copyTo_length (by omega) (by omega)
  | some k =>
    dsimp only
    rw [cryptTo_eq C (by omega) (by omega)]
    cases ho : Packet.crypt C k iv enc with
    | none => exact ⟨rfl, by intro arr h; cases h⟩
    | some o =>
      have := crypt_length ho
      refine ⟨by simp [List.take_append_of_le_length, this], ?_⟩
      intro arr h
      simp only [Option.map_some, Option.some.injEq] at h
      subst h
      simp; omega

theorem tryDecrypt_eq (C : Packet.Crypto) (packetID enc : Bytes) (key : Option Bytes) (iv : Bytes) (dec : Buf) :
    content (tryDecrypt C packetID enc key iv dec) = Packet.tryDecrypt C packetID enc key iv ∧
      dec.arr.length ≤ (tryDecrypt C packetID enc key iv dec).2.arr.length := by
  have hl := grow_len dec.reset enc.length
  have hc := grow_cap dec.reset enc.length
  have hcap : dec.reset.arr.length = dec.arr.length := rfl
  obtain ⟨hp, hal⟩ := plainTo_eq C key iv hl hc.1
  unfold tryDecrypt Packet.tryDecrypt
  simp only [← hp]
  cases hf : plainTo C key iv (dec.reset.grow enc.length) enc with
  | none => exact ⟨rfl, by dsimp only; omega⟩
  | some arr =>
    have hal := hal arr hf
    simp only [Option.map_some, Buf.bytes, hl]
    cases hr : readAfterIV packetID (arr.take enc.length) with
    | ok x =>
      dsimp only
      split
      · exact ⟨rfl, by dsimp only; omega⟩
      · split
        · exact ⟨rfl, by dsimp only; omega⟩
        · exact ⟨rfl, by dsimp only; omega⟩
    | err e => exact ⟨rfl, by dsimp only; omega⟩
    | panic => exact ⟨rfl, by dsimp only; omega⟩
    | block => exact ⟨rfl, by dsimp only; omega⟩

theorem tryKeys_eq (C : Packet.Crypto) (packetID enc iv : Bytes) : ∀ (keys : List (Option Bytes)) (dec : Buf),
    content (tryKeys C packetID enc iv keys dec) = Packet.tryKeys C packetID enc iv keys ∧
      dec.arr.length ≤ (tryKeys C packetID enc iv keys dec).2.arr.length := by
  intro keys
  induction keys with
  | nil => intro dec; exact ⟨rfl, Nat.le_refl _⟩
  | cons k ks ih =>
    intro dec
    cases k with
    | none => exact ih dec
    | some k =>
      obtain ⟨h1, h2⟩ := tryDecrypt_eq C packetID enc (some k) iv dec
      unfold tryKeys Packet.tryKeys
      rw [← h1]
      match htd : tryDecrypt C packetID enc (some k) iv dec with
      | (.ok none, dec') =>
        rw [htd] at h2
        obtain ⟨i1, i2⟩ := ih dec'
        exact ⟨i1, Nat.le_trans h2 i2⟩
      | (.ok (some _), dec') => rw [htd] at h2; exact ⟨rfl, h2⟩
      | (.err _, dec') => rw [htd] at h2; exact ⟨rfl, h2⟩
      | (.panic, dec') => rw [htd] at h2; exact ⟨rfl, h2⟩
      | (.block, dec') => rw [htd] at h2; exact ⟨rfl, h2⟩

/-- Keys that are nil are not tried, so the IV does not matter. -/
theorem tryKeys_none (C : Packet.Crypto) (packetID enc iv iv' : Bytes) : ∀ (keys : List (Option Bytes)), (∀ k ∈ keys, k = none) →
    Packet.tryKeys C packetID enc iv keys = Packet.tryKeys C packetID enc iv' keys := by
  intro keys
  induction keys with
  | nil => intro _; rfl
  | cons k ks ih =>
    intro h
    rw [h k (by simp)]
    exact ih fun k hk => h k (by simp [hk])

theorem decryptPacketID_eq (C : Packet.Crypto) (aux : Option Bytes) {enc : Bytes} (dec : Buf) (h : enc.length ≤ dec.arr.length) :
    (decryptPacketID C aux enc dec).map (·.1) = Packet.decryptPacketID C aux enc ∧
      ∀ x, decryptPacketID C aux enc dec = some x → x.2.arr.length = dec.arr.length ∧ x.1.length = enc.length := by
  unfold decryptPacketID Packet.decryptPacketID
  cases aux with
  | none => exact ⟨rfl, by intro x hx; cases hx; exact ⟨rfl, rfl⟩⟩
  | some a =>
    dsimp only
    rw [if_neg (by omega), cryptTo_eq C (by omega) h]
    cases ho : Packet.crypt C a Packet.emptyIV enc with
    | none => exact ⟨rfl, by intro x hx; cases hx⟩
    | some o =>
      have hol := crypt_length ho
      refine ⟨?_, ?_⟩
      · simp [List.take_append_of_le_length, hol]
      · intro x hx
        simp only [Option.map_some, Option.some.injEq] at hx
        subst hx
        simp [hol]; omega

theorem fillIV_eq (s : SessID) {pid : Bytes} (hp : pid.length = 8) (iv : Buf) : fillIV (some s) pid iv = .ok (s.bytes ++ pid) := by
  obtain ⟨iv1, iv2, e1, e2, e3⟩ := iv_pair iv s hp
  unfold fillIV
  simp only [e1, e2, e3]

theorem finish_snd (r : Outcome Packet.DecryptErr (Option ContainerHdr) × Buf) : (finish r).2 = r.2 := by
  unfold finish; split <;> rfl

/-- `decrypt` with buffers gives the same as without. -/
theorem decrypt_eq (C : Packet.Crypto) (aux : Option Bytes) (keys : List (Option Bytes)) (remote : Option SessID) (packet : Bytes)
    (dec iv : Buf) (hd : 8 ≤ dec.arr.length) (hk : remote = none → ∀ k ∈ keys, k = none) :
    (decrypt C aux keys remote packet dec iv).1 = Packet.decrypt C aux keys remote packet ∧
      dec.arr.length ≤ (decrypt C aux keys remote packet dec iv).2.arr.length := by
  unfold decrypt Packet.decrypt
  by_cases hs : packet.length < containerHeadersSize
  · rw [if_pos hs, if_pos hs]; exact ⟨rfl, Nat.le_refl _⟩
  rw [if_neg hs, if_neg hs]
  have hs : 44 ≤ packet.length := Nat.le_of_not_lt hs
  have h8 : (packet.take 8).length = 8 := by rw [List.length_take]; omega
  obtain ⟨hp1, hp2⟩ := decryptPacketID_eq C aux (enc := packet.take 8) dec (by omega)
  rw [← hp1]
  cases hx : decryptPacketID C aux (packet.take 8) dec with
  | none => exact ⟨rfl, Nat.le_refl _⟩
  | some x =>
    obtain ⟨hx1, hx2⟩ := hp2 x hx
    obtain ⟨pid, d⟩ := x
    dsimp only at hx1 hx2
    dsimp only [Option.map_some]
    have hiv : ∃ ivb, fillIV remote pid iv = .ok ivb ∧
        Packet.tryKeys C pid (packet.drop 8) ivb keys = Packet.tryKeys C pid (packet.drop 8) (Packet.remoteIV remote pid) keys := by
      cases remote with
      | none => exact ⟨_, rfl, tryKeys_none _ _ _ _ _ keys (hk rfl)⟩
      | some r => exact ⟨_, fillIV_eq r (by omega) iv, rfl⟩
    obtain ⟨ivb, hf, htk⟩ := hiv
    rw [hf]; dsimp only
    obtain ⟨t1, t2⟩ := tryKeys_eq C pid (packet.drop 8) ivb keys d
    rw [← htk, ← t1]
    match hr : tryKeys C pid (packet.drop 8) ivb keys d with
    | (.ok none, d') =>
      rw [hr] at t2
      obtain ⟨u1, u2⟩ := tryDecrypt_eq C pid (packet.drop 8) aux pid d'
      dsimp only [content]
      rw [← u1, finish_snd]
      refine ⟨?_, by dsimp only at t2; omega⟩
      match tryDecrypt C pid (packet.drop 8) aux pid d' with
      | (.ok none, _) => rfl
      | (.ok (some _), _) => rfl
      | (.err _, _) => rfl
      | (.panic, _) => rfl
      | (.block, _) => rfl
    | (.ok (some _), d') => rw [hr] at t2; exact ⟨rfl, by dsimp only [finish] at t2 ⊢; omega⟩
    | (.err _, d') => rw [hr] at t2; exact ⟨rfl, by dsimp only [finish] at t2 ⊢; omega⟩
    | (.panic, d') => rw [hr] at t2; exact ⟨rfl, by dsimp only [finish] at t2 ⊢; omega⟩
    | (.block, d') => rw [hr] at t2; exact ⟨rfl, by dsimp only [finish] at t2 ⊢; omega⟩

end Verif.Mem
