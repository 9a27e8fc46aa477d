import Verif.Lemmas.Headers
/-!
# Property theorems C05, C06, C07, C08, C09, C52, C60

Each codec theorem states: (1) decode ∘ encode is the identity for every value and every buffer,
(2) exactly the first `size` bytes of the buffer change, (3) encode ∘ decode is the identity on bytes
(so every byte string of the right size is a header), (4) the error condition is exact.
-/
namespace Verif.Headers

/-! ## C05 -/

/-- C05: message header. -/
theorem C05_message_header :
    (∀ (h : MsgHdr) (b : Bytes), 9 ≤ b.length →
      ∃ b', h.write b = .ok b' ∧ b'.length = b.length ∧ b'.drop 9 = b.drop 9 ∧
        MsgHdr.read b' = .ok h) ∧
    (∀ (b : Bytes), 9 ≤ b.length →
      ∃ h, MsgHdr.read b = .ok h ∧ ∀ b2 : Bytes, 9 ≤ b2.length →
        h.write b2 = .ok (b.take 9 ++ b2.drop 9)) ∧
    (∀ (h : MsgHdr) (b : Bytes), b.length < 9 →
      h.write b = .err ⟨9, b.length⟩ ∧ MsgHdr.read b = .err ⟨9, b.length⟩) := by
  refine ⟨?_, ?_, ?_⟩
  · intro h b hb
    refine ⟨putLE 4 h.type.toNat ++ putLE 4 h.length.toNat ++ [h.flags] ++ b.drop 9, ?_, ?_, ?_, ?_⟩
    · simp [MsgHdr.write, messageHeadersSize, Nat.not_lt.mpr hb]
    · simp [putLE_length]; omega
    · rw [drop_app (by simp [putLE_length])]
    · have hl : ¬ (putLE 4 h.type.toNat ++ putLE 4 h.length.toNat ++ [h.flags] ++ b.drop 9).length
          < messageHeadersSize := by simp [putLE_length, messageHeadersSize]; omega
      simp only [MsgHdr.read, if_neg hl, List.append_assoc]
      rw [take_app (putLE_length _ _), drop_app (putLE_length _ _), take_app (putLE_length _ _),
        drop_app (putLE_length _ _), ofNat_getLE_putLE32, ofNat_getLE_putLE32]
      rfl
  · intro b hb
    refine ⟨_, by simp only [MsgHdr.read, if_neg (show ¬ b.length < messageHeadersSize from Nat.not_lt.mpr hb)]; rfl, ?_⟩
    intro b2 hb2
    simp only [MsgHdr.write, if_neg (show ¬ b2.length < messageHeadersSize from Nat.not_lt.mpr hb2)]
    rw [putLE_ofNat32 _ (by simp; omega), putLE_ofNat32 _ (by simp; omega), List.drop_drop,
      headD_drop_take (by omega)]
    congr 2
    conv => rhs; rw [show (9 : Nat) = 4 + (4 + 1) from rfl, List.take_add, List.take_add]
    simp [List.drop_drop]
  · intro h b hb
    simp [MsgHdr.write, MsgHdr.read, messageHeadersSize, hb]

/-- C05, flags: setting one flag makes exactly that flag have the given value; the two flags are
independent. -/
theorem C05_flags : ∀ (f : Byte) (v : Bool),
    isConfidential (setIsConfidential f v) = v ∧
    isFragmented (setIsConfidential f v) = isFragmented f ∧
    isFragmented (setIsFragmented f v) = v ∧
    isConfidential (setIsFragmented f v) = isConfidential f ∧
    isAnswer (setIsAnswer f v) = v ∧ isEnd (setIsEnd f v) = v := by decide +kernel

example : ∃ h : MsgHdr, ∃ b : Bytes, 9 ≤ b.length ∧ h.type = 0xFFFFFFFC ∧ h.length = 1000 :=
  ⟨⟨0xFFFFFFFC, 1000, 3⟩, List.replicate 12 7, by decide, rfl, rfl⟩

/-- Concrete check of the byte order: type 0xFFFFFFFC, length 0x0102. -/
example : MsgHdr.write ⟨0xFFFFFFFC, 0x0102, 1⟩ (List.replicate 10 9) =
    .ok [0xFC, 0xFF, 0xFF, 0xFF, 2, 1, 0, 0, 1, 9] := by decide +kernel

/-! ## C06 -/

/-- C06: container header.  `WF` only says that the arrays have their Go sizes (8, 16 and 16). -/
theorem C06_container_header :
    (∀ (h : ContainerHdr) (b : Bytes), h.WF → 44 ≤ b.length →
      ∃ b', h.write b = .ok b' ∧ b'.length = b.length ∧ b'.drop 44 = b.drop 44 ∧
        ContainerHdr.read b' = .ok (h, 44)) ∧
    (∀ (b : Bytes), 44 ≤ b.length →
      ∃ h, h.WF ∧ ContainerHdr.read b = .ok (h, 44) ∧
        ∀ b2 : Bytes, 44 ≤ b2.length → h.write b2 = .ok (b.take 44 ++ b2.drop 44)) ∧
    (∀ (h : ContainerHdr) (b : Bytes), b.length < 44 →
      h.write b = .err ⟨44, b.length⟩ ∧ ContainerHdr.read b = .err ⟨44, b.length⟩) := by
  refine ⟨?_, ?_, ?_⟩
  · intro h b wf hb
    obtain ⟨h1, h2, h3⟩ := wf
    refine ⟨h.packetID ++ h.headersChecksum ++ h.messagesChecksum ++ putLE 4 h.length.toNat
      ++ b.drop 44, ?_, ?_, ?_, ?_⟩
    · simp [ContainerHdr.write, containerHeadersSize, Nat.not_lt.mpr hb]
    · simp [putLE_length, h1, h2, h3]; omega
    · rw [drop_app (by simp [putLE_length, h1, h2, h3])]
    · have hl : ¬ (h.packetID ++ h.headersChecksum ++ h.messagesChecksum ++ putLE 4 h.length.toNat
          ++ b.drop 44).length < containerHeadersSize := by
        simp [putLE_length, containerHeadersSize, h1, h2, h3]; omega
      simp only [ContainerHdr.read, if_neg hl, List.append_assoc, readAfterIV]
      have h2' : h.headersChecksum.length = tagSize := h2
      have h3' : h.messagesChecksum.length = tagSize := h3
      rw [if_neg (by simpa using hl), take_app h1, drop_app h1, take_app h2', drop_app h2', take_app h3', drop_app h3',
        take_app (putLE_length _ _), ofNat_getLE_putLE32,
        if_neg (by simp [h2']), if_neg (by simp [h3']), if_neg (by simp [putLE_length])]
      rfl
  · intro b hb
    have e : ContainerHdr.read b = .ok (⟨b.take 8, (b.drop 8).take 16,
        ((b.drop 8).drop 16).take 16,
        BitVec.ofNat 32 (getLE ((((b.drop 8).drop 16).drop 16).take 4))⟩, 44) := by
      simp only [ContainerHdr.read, if_neg (show ¬ b.length < containerHeadersSize from Nat.not_lt.mpr hb), readAfterIV,
        tagSize, List.length_drop]
      repeat rw [if_neg (by omega)]
      rfl
    refine ⟨_, ⟨?_, ?_, ?_⟩, e, ?_⟩
    · simp; omega
    · simp; omega
    · simp; omega
    · intro b2 hb2
      simp only [ContainerHdr.write, if_neg (show ¬ b2.length < containerHeadersSize from Nat.not_lt.mpr hb2)]
      rw [putLE_ofNat32 _ (by simp; omega)]
      congr 2
      conv => rhs; rw [show (44 : Nat) = 8 + (16 + (16 + 4)) from rfl, List.take_add, List.take_add,
        List.take_add]
      simp
  · intro h b hb
    simp [ContainerHdr.write, ContainerHdr.read, containerHeadersSize, hb]

/-- C06: the packet ID value is what was put on the wire. -/
theorem C06_packet_id (v : W64) :
    packetIDValue (packetIDBytes v) = v ∧ (packetIDBytes v).length = 8 :=
  ⟨ofNat_getLE_putLE64 v, putLE_length _ _⟩

example : (⟨packetIDBytes 5, List.replicate 16 1, List.replicate 16 2, 77⟩ : ContainerHdr).WF :=
  ⟨by decide, by decide, by decide⟩

/-! ## C07 -/

/-- C07: fragment header. -/
theorem C07_fragment_header :
    (∀ (h : FragHdr) (b : Bytes), 24 ≤ b.length →
      ∃ b', h.write b = .ok b' ∧ b'.length = b.length ∧ b'.drop 24 = b.drop 24 ∧
        FragHdr.read b' = .ok h) ∧
    (∀ (b : Bytes), 24 ≤ b.length →
      ∃ h, FragHdr.read b = .ok h ∧ ∀ b2 : Bytes, 24 ≤ b2.length →
        h.write b2 = .ok (b.take 24 ++ b2.drop 24)) ∧
    (∀ (h : FragHdr) (b : Bytes), b.length < 24 →
      h.write b = .err ⟨24, b.length⟩ ∧ FragHdr.read b = .err ⟨24, b.length⟩) := by
  refine ⟨?_, ?_, ?_⟩
  · intro h b hb
    refine ⟨putLE 8 h.chainID.toNat ++ putLE 8 h.startPos.toNat ++ putLE 8 h.total.toNat
      ++ b.drop 24, ?_, ?_, ?_, ?_⟩
    · simp [FragHdr.write, fragmentHeadersSize, Nat.not_lt.mpr hb]
    · simp [putLE_length]; omega
    · rw [drop_app (by simp [putLE_length])]
    · have hl : ¬ (putLE 8 h.chainID.toNat ++ putLE 8 h.startPos.toNat ++ putLE 8 h.total.toNat
          ++ b.drop 24).length < fragmentHeadersSize := by
        simp [putLE_length, fragmentHeadersSize]; omega
      simp only [FragHdr.read, if_neg hl, List.append_assoc]
      rw [if_neg (by simpa using hl), take_app (putLE_length _ _), drop_app (putLE_length _ _),
        take_app (putLE_length _ _), drop_app (putLE_length _ _), take_app (putLE_length _ _),
        ofNat_getLE_putLE64,
        ofNat_getLE_putLE64, ofNat_getLE_putLE64]
  · intro b hb
    refine ⟨_, by simp only [FragHdr.read, if_neg (show ¬ b.length < fragmentHeadersSize from Nat.not_lt.mpr hb)]; rfl, ?_⟩
    intro b2 hb2
    simp only [FragHdr.write, if_neg (show ¬ b2.length < fragmentHeadersSize from Nat.not_lt.mpr hb2)]
    rw [putLE_ofNat64 _ (by simp; omega), putLE_ofNat64 _ (by simp; omega),
      putLE_ofNat64 _ (by simp; omega)]
    congr 2
    conv => rhs; rw [show (24 : Nat) = 8 + (8 + 8) from rfl, List.take_add, List.take_add]
    simp
  · intro h b hb
    simp [FragHdr.write, FragHdr.read, fragmentHeadersSize, hb]

example : FragHdr.write ⟨1, 0x100, 3⟩ (List.replicate 24 0) =
    .ok [1,0,0,0,0,0,0,0, 0,1,0,0,0,0,0,0, 3,0,0,0,0,0,0,0] := by decide +kernel

/-! ## C08 -/

/-- C08: session ID. -/
theorem C08_session_id :
    (∀ s : SessID, s.bytes.length = 16 ∧ ∀ rest, SessID.fillFromBytes (s.bytes ++ rest) = some s) ∧
    (∀ b : Bytes, b.length = 16 → ∃ s, SessID.fillFromBytes b = some s ∧ s.bytes = b) ∧
    (∀ s t : SessID, s.bytes = t.bytes → s = t) := by
  have h1 : ∀ s : SessID, ∀ rest, SessID.fillFromBytes (s.bytes ++ rest) = some s := by
    intro s rest
    simp only [SessID.fillFromBytes, SessID.bytes, List.append_assoc]
    rw [if_neg (by simp [putLE_length]; omega), take_app (putLE_length _ _),
      drop_app (putLE_length _ _), take_app (putLE_length _ _), ofNat_getLE_putLE64,
      ofNat_getLE_putLE64]
  refine ⟨fun s => ⟨by simp [SessID.bytes, putLE_length], h1 s⟩, ?_, ?_⟩
  · intro b hb
    refine ⟨_, by simp only [SessID.fillFromBytes, if_neg (show ¬ b.length < 16 by omega)]; rfl, ?_⟩
    simp only [SessID.bytes]
    rw [putLE_ofNat64 _ (by simp; omega), putLE_ofNat64 _ (by simp; omega)]
    conv => rhs; rw [← List.take_append_drop 8 b]
    congr 1
    rw [List.take_of_length_le (by simp; omega)]
  · intro s t h
    have a := h1 s []
    rw [h, h1 t []] at a
    exact (Option.some.inj a).symm

/-- C08: key-exchange message. -/
theorem C08_key_exchange_message :
    (∀ m : KxMsg, m.WF → m.encode.length + signatureSize = kxSignedSize ∧ KxMsg.decode m.encode = m) ∧
    (∀ b : Bytes, b.length = 82 → (KxMsg.decode b).WF ∧ (KxMsg.decode b).encode = b) := by
  constructor
  · intro m wf
    obtain ⟨h1, h2⟩ := wf
    refine ⟨by simp [KxMsg.encode, putLE_length, h1, h2, signatureSize, kxSignedSize], ?_⟩
    have e16 : m.encode.drop 16 = m.identityPublicKey ++ m.kxPublicKey ++ [m.answersMode] ++ [m.flags] := by
      rw [show m.encode = (putLE 8 m.sessionID.createdAt.toNat ++ putLE 8 m.sessionID.random.toNat) ++
        (m.identityPublicKey ++ m.kxPublicKey ++ [m.answersMode] ++ [m.flags]) by simp [KxMsg.encode]]
      exact drop_app (by simp [putLE_length])
    have e48 : m.encode.drop 48 = m.kxPublicKey ++ [m.answersMode] ++ [m.flags] := by
      rw [show (48 : Nat) = 16 + 32 from rfl, ← List.drop_drop, e16]
      simp only [List.append_assoc]; exact drop_app h1
    have e80 : m.encode.drop 80 = [m.answersMode] ++ [m.flags] := by
      rw [show (80 : Nat) = 48 + 32 from rfl, ← List.drop_drop, e48]
      simp only [List.append_assoc]; exact drop_app h2
    have e81 : m.encode.drop 81 = [m.flags] := by
      rw [show (81 : Nat) = 80 + 1 from rfl, ← List.drop_drop, e80]; rfl
    have e8 : (m.encode.drop 8).take 8 = putLE 8 m.sessionID.random.toNat := by
      simp only [KxMsg.encode, List.append_assoc]
      rw [drop_app (putLE_length _ _), take_app (putLE_length _ _)]
    have e0 : m.encode.take 8 = putLE 8 m.sessionID.createdAt.toNat := by
      simp only [KxMsg.encode, List.append_assoc]
      rw [take_app (putLE_length _ _)]
    simp only [KxMsg.decode, e16, e48, e80, e81, e8, e0, ofNat_getLE_putLE64, List.append_assoc]
    rw [take_app h1, take_app h2]
    rfl
  · intro b hb
    refine ⟨⟨by simp [KxMsg.decode]; omega, by simp [KxMsg.decode]; omega⟩, ?_⟩
    simp only [KxMsg.encode, KxMsg.decode]
    rw [putLE_ofNat64 _ (by simp; omega), putLE_ofNat64 _ (by simp; omega),
      headD_drop_take (by omega), headD_drop_take (by omega)]
    conv => rhs; rw [← List.take_of_length_le (Nat.le_of_eq hb),
      show (82 : Nat) = 8 + (8 + (32 + (32 + (1 + 1)))) from rfl,
      List.take_add, List.take_add, List.take_add, List.take_add, List.take_add]
    simp

example : ∃ m : KxMsg, m.WF ∧ m.kxPublicKey ≠ m.identityPublicKey :=
  ⟨⟨⟨1, 2⟩, List.replicate 32 1, List.replicate 32 2, 1, 1⟩, ⟨by decide, by decide⟩, by decide⟩

/-! ## C09 -/

/-- C09: control message. -/
theorem C09_control_message :
    (∀ (m : ControlMsg) (rest : Bytes), ControlMsg.parse (m.encode ++ rest) = .ok m) ∧
    (∀ m : ControlMsg, m.encode.length = 6) ∧
    (∀ b : Bytes, 6 ≤ b.length → ∃ m, ControlMsg.parse b = .ok m ∧ m.encode = b.take 6) ∧
    (∀ b : Bytes, b.length < 6 → ∃ e, ControlMsg.parse b = .err e) := by
  refine ⟨?_, ?_, ?_, ?_⟩
  · intro m rest
    simp only [ControlMsg.parse, ControlMsg.encode, controlSize, List.append_assoc]
    rw [if_neg (by simp [putLE_length]; omega)]
    have e1 : ([m.subType] ++ (putLE 4 m.largestRTT.toNat ++ ([m.flags] ++ rest))).drop 1 =
      putLE 4 m.largestRTT.toNat ++ ([m.flags] ++ rest) := rfl
    have e5 : ([m.subType] ++ (putLE 4 m.largestRTT.toNat ++ ([m.flags] ++ rest))).drop 5 =
      [m.flags] ++ rest := by
      rw [show (5 : Nat) = 1 + 4 from rfl, ← List.drop_drop, e1, drop_app (putLE_length _ _)]
    rw [e1, e5, take_app (putLE_length _ _), ofNat_getLE_putLE32]
    rfl
  · intro m; simp [ControlMsg.encode, putLE_length]
  · intro b hb
    refine ⟨_, by simp only [ControlMsg.parse, if_neg (show ¬ b.length < controlSize from Nat.not_lt.mpr hb)]; rfl, ?_⟩
    simp only [ControlMsg.encode]
    rw [putLE_ofNat32 _ (by simp; omega), headD_drop_take (by omega)]
    have h0 := headD_drop_take (b := b) (n := 0) (by omega)
    simp only [List.drop_zero] at h0
    rw [h0]
    conv => rhs; rw [show (6 : Nat) = 1 + (4 + 1) from rfl, List.take_add, List.take_add]
    simp [List.drop_drop]
  · intro b hb
    exact ⟨_, by simp only [ControlMsg.parse, if_pos (show b.length < controlSize from hb)]; rfl⟩

/-- C09: a ping of any size from 69 on is built with exactly that size, its answer is recognised with
the same iteration and size, the first byte tells a ping (1) from a pong (2); smaller sizes panic.  Hypothesis: the hash has 64 bytes (SHA-512). -/
theorem C09_ping_pong (sha512 : Bytes → Bytes) (hs : ∀ x, (sha512 x).length = 64)
    (it : W32) (size : Nat) :
    (69 ≤ size → ∃ ping, pingBytes sha512 it size = some ping ∧ ping.length = size ∧
      (pongOf ping).length = size ∧ ping.head? = some 1 ∧ (pongOf ping).head? = some 2 ∧
      acceptPong sha512 (pongOf ping) = .ok (some (size, it))) ∧
    (size < 69 → pingBytes sha512 it size = none) := by
  constructor
  · intro h
    have hl : ¬ size < pingPongSize := by simp [pingPongSize]; omega
    refine ⟨_, by simp only [pingBytes, if_neg hl]; rfl, ?_, ?_, rfl, rfl, ?_⟩
    · simp [hs, putLE_length, pingFill, pingPongSize]; omega
    · simp [pongOf, hs, putLE_length, pingFill, pingPongSize]; omega
    · generalize htl : putLE 4 it.toNat ++ pingFill (size - pingPongSize) = tail
      have hlt : tail.length + 65 = size := by
        rw [← htl]; simp [putLE_length, pingFill, pingPongSize]; omega
      have e1 : (pongOf ([1] ++ sha512 tail ++ tail)).drop 1 = sha512 tail ++ tail := by
        simp [pongOf]
      have e65 : (pongOf ([1] ++ sha512 tail ++ tail)).drop 65 = tail := by
        rw [show (65 : Nat) = 1 + 64 from rfl, ← List.drop_drop, e1, drop_app (hs _)]
      have hlen : (pongOf ([1] ++ sha512 tail ++ tail)).length = size := by
        simp [pongOf, hs]; omega
      simp only [acceptPong, PingPong.parse, hlen, if_neg hl, e1, e65, take_app (hs _)]
      rw [← htl, take_app (putLE_length _ _), ofNat_getLE_putLE32]
      simp
  · intro h
    simp [pingBytes, pingPongSize, h]

/-- C09: a pong whose checksum is wrong is never counted. -/
theorem C09_bad_pong_ignored (sha512 : Bytes → Bytes) (b : Bytes)
    (h : (b.drop 1).take 64 ≠ sha512 (b.drop 65)) (r : Nat × W32) :
    acceptPong sha512 b ≠ .ok (some r) := by
  simp only [acceptPong, PingPong.parse]
  by_cases hb : b.length < pingPongSize
  · simp [hb]
  · simp only [if_neg hb, if_neg h]; intro h'; cases h'

example : pingBytes (fun _ => List.replicate 64 9) 3 70 =
    some (1 :: List.replicate 64 9 ++ [3, 0, 0, 0, 0]) := by decide +kernel

/-! ## C52 (message types) -/

/-- The message types which are used by the library itself: the undefined type, key exchange,
negotiation and the default channel. -/
def libraryTypes : List W32 := [0, 0xFFFFFFFE, 0xFFFFFFFD, 0xFFFFFFFC]

/-- C52 for all channel IDs but 2^32-1: different channels have different types, none of which is a
type used by the library; channel IDs from 0xFFFFFFEC on are refused. -/
theorem C52_channels_isolated_partial :
    (∀ c t, c ≠ 0xFFFFFFFF → typeChannel c = some t → t ∉ libraryTypes ∧ isInternal t = false) ∧
    (∀ c d t, typeChannel c = some t → typeChannel d = some t → c = d) ∧
    (∀ c, c ≠ 0xFFFFFFFF → (typeChannel c = none ↔ 0xFFFFFFEC ≤ c)) := by
  have key : ∀ c : W32, c ≠ 0xFFFFFFFF → (c + 1).toNat = c.toNat + 1 := by
    intro c hc
    have h := c.isLt
    have : c.toNat ≠ 0xFFFFFFFF := fun h' => hc (BitVec.eq_of_toNat_eq h')
    rw [BitVec.toNat_add, show (1 : W32).toNat = 1 from rfl]; omega
  refine ⟨?_, ?_, ?_⟩
  · intro c t hc h
    simp only [typeChannel] at h
    split at h
    · cases h
    · rename_i hlt
      have hlt : (c + 1).toNat < 0xFFFFFFED := by
        have := Nat.lt_of_not_le (fun hh => hlt (BitVec.le_def.mpr hh))
        exact this
      cases h
      have hn := key c hc
      generalize c + 1 = t at *
      constructor
      · intro hm
        simp only [libraryTypes, List.mem_cons, List.not_mem_nil, or_false] at hm
        rcases hm with hm | hm | hm | hm <;> subst hm <;> revert hlt hn <;> simp
      · have h1 : t ≠ typeKeyExchange := by intro hm; subst hm; revert hlt; simp [typeKeyExchange]
        have h2 : t ≠ typeNegotiation := by intro hm; subst hm; revert hlt; simp [typeNegotiation]
        simp [isInternal, h1, h2]
  · intro c d t h1 h2
    simp only [typeChannel] at h1 h2
    split at h1
    · cases h1
    split at h2
    · cases h2
    have h3 : c + 1 = d + 1 := by
      rw [Option.some.inj h1, Option.some.inj h2]
    have := congrArg (· - 1) h3
    simpa using this
  · intro c hc
    have hn := key c hc
    simp only [typeChannel]
    have : (c + 1 ≥ typeReservedAbove) ↔ 0xFFFFFFEC ≤ c := by
      rw [ge_iff_le, BitVec.le_def, BitVec.le_def, hn]
      simp [typeReservedAbove]
    split
    · rename_i h; exact ⟨fun _ => this.mp h, fun _ => rfl⟩
    · rename_i h; exact ⟨fun h' => (by cases h'), fun h' => absurd (this.mpr h') h⟩

/-- C52 in the range the README gives (0 to 2^31): every channel ID has a type of its own, which is none of
the types used by the library. -/
theorem C52_documented (c : W32) (hc : c.toNat ≤ 2 ^ 31) :
    ∃ t, typeChannel c = some t ∧ t ∉ libraryTypes ∧ isInternal t = false ∧
      ∀ d, d ≠ c → typeChannel d ≠ some t := by
  obtain ⟨h1, h2, h3⟩ := C52_channels_isolated_partial
  have hne : c ≠ 0xFFFFFFFF := by
    rintro rfl
    exact absurd hc (by decide)
  cases ht : typeChannel c with
  | none =>
    have := BitVec.le_def.1 ((h3 c hne).1 ht)
    rw [show (0xFFFFFFEC : W32).toNat = 0xFFFFFFEC from rfl] at this
    omega
  | some t => exact ⟨t, rfl, (h1 c t hne ht).1, (h1 c t hne ht).2, fun d hd h => hd (h2 d c t h ht)⟩

example : (0x80000000 : W32).toNat ≤ 2 ^ 31 ∧ typeChannel 0x80000000 = some 0x80000001 := by decide +kernel

/-- C52 fails for the highest channel ID: it is not refused and maps to the "undefined" type. -/
theorem C52_violated : typeChannel 0xFFFFFFFF = some 0 := by decide +kernel

example : typeChannel 5 = some 6 ∧ typeChannel 0xFFFFFFEB = some 0xFFFFFFEC ∧
    typeChannel 0xFFFFFFEC = none := by decide +kernel

/-! ## C60 -/

/-- C60: the stored limit is the largest multiple of 16 which is at most the argument. -/
theorem C60_set_limit (n : W32) :
    16 ∣ (setLimit n).toNat ∧ (setLimit n).toNat ≤ n.toNat ∧
      ∀ m : Nat, 16 ∣ m → m ≤ n.toNat → m ≤ (setLimit n).toNat := by
  have key : (setLimit n).toNat = n.toNat / 16 * 16 := by
    have e : setLimit n = (n >>> 4) <<< 4 := by
      apply BitVec.eq_of_getLsbD_eq
      intro i hi
      have hc : (~~~(16 - 1) : W32).getLsbD i = decide (4 ≤ i) := by
        revert i; decide +kernel
      simp only [setLimit, BitVec.getLsbD_and, BitVec.getLsbD_shiftLeft, BitVec.getLsbD_ushiftRight, hc]
      by_cases h4 : 4 ≤ i
      · simp [h4, hi, Nat.not_lt.mpr h4]
      · simp [h4, Nat.lt_of_not_le h4]
    rw [e, BitVec.toNat_shiftLeft, BitVec.toNat_ushiftRight, Nat.shiftLeft_eq,
      Nat.shiftRight_eq_div_pow]
    have := n.isLt
    omega
  rw [key]
  refine ⟨Nat.dvd_mul_left _ _, by omega, ?_⟩
  rintro m ⟨k, rfl⟩ hm
  omega

/-- C60: the defaults; the packet sizes they lead to (payload + 44 + 9) fit 65280 and 1452 bytes. -/
theorem C60_defaults :
    defaultLimit = 65216 ∧ defaultLossyLimit = 1392 ∧
    defaultLimit.toNat + containerHeadersSize + messageHeadersSize ≤ 65280 ∧
    defaultLossyLimit.toNat + containerHeadersSize + messageHeadersSize ≤ 1500 - 48 := by
  decide +kernel

example : setLimit 1399 = 1392 ∧ setLimit 1392 = 1392 ∧ setLimit 15 = 0 := by decide +kernel

#print axioms C05_message_header
#print axioms C05_flags
#print axioms C06_container_header
#print axioms C06_packet_id
#print axioms C07_fragment_header
#print axioms C08_session_id
#print axioms C08_key_exchange_message
#print axioms C09_control_message
#print axioms C09_ping_pong
#print axioms C09_bad_pong_ignored
#print axioms C52_channels_isolated_partial
#print axioms C52_violated
#print axioms C60_set_limit
#print axioms C60_defaults
#print axioms C52_documented

end Verif.Headers
