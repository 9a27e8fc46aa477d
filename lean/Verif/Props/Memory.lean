import Verif.Lemmas.Memory
import Verif.Props.Packet
import Verif.Props.Send
import Verif.Props.Negotiator
import Verif.Spec.Receive
/-!
# Recycled buffers: C88, C89
-/
namespace Verif.Mem
open Verif.Headers Verif.Send Verif.Receive

/-- What holds for a buffer in the pool: its old contents are arbitrary, nothing of it is in use. -/
def Idle (b : Buf) : Prop := b.len ≤ b.arr.length ∧ b.offset = 0 ∧ b.count = 0

theorem idle_new (n : Nat) : Idle (Buf.new n) := by
  have h := grow_len ⟨[], 0, 0, 0⟩ n
  have h2 := (grow_cap ⟨[], 0, 0, 0⟩ n).1
  exact ⟨by simp only [Buf.new]; omega, grow_offset _ _, by unfold Buf.new Buf.grow; split <;> rfl⟩

theorem idle_reset (b : Buf) : Idle b.reset := ⟨Nat.zero_le _, rfl, rfl⟩

/-! ## C88 -/

/-- C88, sending: whatever buffers the pool gives, `sendMessages` hands to the backend what it would with new ones. -/
theorem C88_send (C : Packet.Crypto) (cfg : Send.Cfg) (now : Now) (job : Job) (h32 : job.messages.length + 44 < 2 ^ 32)
    (buf enc iv buf' enc' iv' : Buf) (hb : Idle buf) (hb' : Idle buf') :
    sendMessages C cfg now job buf enc iv = sendMessages C cfg now job buf' enc' iv' ∧
      sendMessages C cfg now job buf enc iv = Send.sendMessages C cfg now job := by
  have h : containerHeadersSize + job.messages.length < 2 ^ 32 := by simp only [containerHeadersSize]; omega
  rw [sendMessages_eq C cfg now job buf enc iv hb.2.1 h, sendMessages_eq C cfg now job buf' enc' iv' hb'.2.1 h]
  exact ⟨rfl, rfl⟩

theorem header_stream {h : Hdr} {t : W32} {f : Byte} {payload : Bytes} (ht : h.type = t) (hf : h.flags = f)
    (hl : h.length = BitVec.ofNat 32 (len32 payload)) (h32 : payload.length < 2 ^ 32) :
    putLE 4 h.type.toNat ++ putLE 4 h.length.toNat ++ [h.flags] ++ payload = stream [⟨t, f, payload⟩] := by
  have : h.length.toNat = payload.length := by
    rw [hl, len32, BitVec.toNat_ofNat, Nat.mod_mod, Nat.mod_eq_of_lt h32]
  rw [this, ht, hf]
  simp [stream, Msg.bytes]

theorem header_flags (old : Hdr) (t : W32) (payload : Bytes) :
    (header old.reset t payload).flags = if t = typeKeyExchange then 0 else 1 := by
  have e : (header old.reset t payload).flags = setIsConfidential 0 (t != typeKeyExchange) := rfl
  rw [e]
  by_cases ht : t = typeKeyExchange
  · subst ht; decide
  · rw [if_neg ht]
    have : (t != typeKeyExchange) = true := by simpa using ht
    rw [this]
    decide

theorem fragmentHeader_flags (old : Hdr) (t : W32) (payload : Bytes) : (fragmentHeader old.reset t payload).flags = 2 := by
  have e : (fragmentHeader old.reset t payload).flags = setIsFragmented 0 true := rfl
  rw [e]
  decide

/-- C88, the message: a header and a buffer that had any contents when they were put into their pools are filled with the
message and nothing else. -/
theorem C88_message (old : Hdr) (buf : Buf) (t : W32) (payload : Bytes) (h32 : payload.length < 2 ^ 32) :
    single (header old.reset t payload) payload buf = .ok (stream [⟨t, if t = typeKeyExchange then 0 else 1, payload⟩]) ∧
      single (fragmentHeader old.reset t payload) payload buf = .ok (stream [⟨t, 2, payload⟩]) := by
  have main : ∀ h : Hdr, h.type = t → h.length = BitVec.ofNat 32 (len32 payload) →
      single h payload buf = .ok (stream [⟨t, h.flags, payload⟩]) := by
    intro h ht hl
    have gl := grow_len buf (9 + payload.length)
    have gc := (grow_cap buf (9 + payload.length)).1
    obtain ⟨arr, e1, e2, e3⟩ := putMessage_eq (b := buf.grow (9 + payload.length)) h (by omega) (by omega)
    obtain ⟨arr2, e4, e5, e6⟩ := copyAt_eq (b := { buf.grow (9 + payload.length) with arr := arr }) (i := 9) (src := payload)
      (by dsimp only; omega) (by dsimp only; omega)
    unfold single
    simp only [messageHeadersSize]
    rw [e1]; dsimp only
    rw [e4]; dsimp only [Buf.bytes]
    dsimp only at e6
    rw [e6, e3, header_stream ht rfl hl h32]
  exact ⟨by rw [main _ rfl rfl, header_flags], by rw [main _ rfl rfl, fragmentHeader_flags]⟩

/-- C88, fragments: likewise for the header of a fragment. -/
theorem C88_fragment (f : Fragment) (buf : Buf) : fragment f buf =
    .ok (putLE 8 f.chainID.toNat ++ putLE 8 f.startPos ++ putLE 8 f.total ++ f.payload) := by
  have gl := grow_len buf (24 + f.payload.length)
  have gc := (grow_cap buf (24 + f.payload.length)).1
  have h1 : (putLE 8 f.chainID.toNat).length = 8 := putLE_length _ _
  have h2 : (putLE 8 f.startPos).length = 8 := putLE_length _ _
  have h3 : (putLE 8 f.total).length = 8 := putLE_length _ _
  unfold fragment
  simp only [fragmentHeadersSize, gl]
  generalize hb : buf.grow (24 + f.payload.length) = b at gl gc ⊢
  have a1 := copyTo_length (arr := b.arr) (src := putLE 8 f.chainID.toNat) (Nat.zero_le (24 + f.payload.length)) gc
  have a2 := copyTo_length (arr := copyTo b.arr 0 (24 + f.payload.length) (putLE 8 f.chainID.toNat)) (src := putLE 8 f.startPos)
    (show 8 ≤ 24 + f.payload.length by omega) (by omega)
  have a3 := copyTo_length (arr := copyTo (copyTo b.arr 0 (24 + f.payload.length) (putLE 8 f.chainID.toNat)) 8
    (24 + f.payload.length) (putLE 8 f.startPos)) (src := putLE 8 f.total) (show 16 ≤ 24 + f.payload.length by omega) (by omega)
  have e1 := copyTo_take (arr := b.arr) (src := putLE 8 f.chainID.toNat) (lo := 0) (hi := 24 + f.payload.length) rfl (by omega) gc
  rw [h1, Nat.zero_add] at e1
  have e2 := copyTo_take (src := putLE 8 f.startPos) (hi := 24 + f.payload.length) e1 (by omega) (by omega)
  rw [h2] at e2
  have e3 := copyTo_take (src := putLE 8 f.total) (hi := 24 + f.payload.length) e2 (by omega) (by omega)
  rw [h3] at e3
  obtain ⟨arr, e4, e5, e6⟩ := copyAt_eq
    (b := { b with len := 24 + f.payload.length, arr := copyTo (copyTo (copyTo b.arr 0 (24 + f.payload.length) (putLE 8 f.chainID.toNat)) 8
      (24 + f.payload.length) (putLE 8 f.startPos)) 16 (24 + f.payload.length) (putLE 8 f.total) }) (i := 24) (src := f.payload)
    (by simp only [Nat.add_comm]) (by dsimp only; omega)
  dsimp only at e4 e6 e3
  rw [e4]; dsimp only [Buf.bytes]
  rw [e6, e3]
  simp

/-- One call of `decrypt`: with which keys, which packet and which buffer for the IV. -/
abbrev Call := Option Bytes × List (Option Bytes) × Option SessID × Bytes × Buf

/-- C88, receiving: whatever packets came before - also broken or forged ones - and whatever buffers the pool gave, the reader
gets for each packet what `decrypt` gives for it alone.  The hypothesis is about the keys: before the session ID of the peer
is known there are none. -/
theorem C88_receive (C : Packet.Crypto) (calls : List Call) (hk : ∀ c ∈ calls, c.2.2.1 = none → ∀ k ∈ c.2.1, k = none)
    (dec : Buf) (hd : 8 ≤ dec.arr.length) :
    decryptAll C calls dec = calls.map fun c => Packet.decrypt C c.1 c.2.1 c.2.2.1 c.2.2.2.1 := by
  induction calls generalizing dec with
  | nil => rfl
  | cons c cs ih =>
    obtain ⟨aux, keys, remote, packet, iv⟩ := c
    obtain ⟨h1, h2⟩ := decrypt_eq C aux keys remote packet dec iv hd (hk _ List.mem_cons_self)
    rw [decryptAll]
    rw [h1, ih (fun c hc => hk c (by simp [hc])) _ (by omega)]
    rfl

/-- C88, both sides: a confidential packet made with recycled buffers is opened with recycled buffers, after any other
packets, as the messages that were given to `sendMessages`. -/
theorem C88_roundtrip (C : Packet.Crypto) (cfg : Send.Cfg) (now : Now) (k : Bytes) (hk : k.length = 32) (hck : now.cipherKey = some k)
    (ha : Packet.KeyOK now.aux) (job : Job) (hc : job.confidential = true) (h32 : job.messages.length + 44 < 2 ^ 32)
    (buf enc iv : Buf) (hb : Idle buf) (out : Bytes) (hs : sendMessages C cfg now job buf enc iv = .ok out)
    (before : List Call) (hbefore : ∀ c ∈ before, c.2.2.1 = none → ∀ k ∈ c.2.1, k = none)
    (dec ivr : Buf) (hd : 8 ≤ dec.arr.length) (rest : List (Option Bytes)) :
    ∃ h, (decryptAll C (before ++ [(now.aux, some k :: rest, some now.sessionID, out, ivr)]) dec).getLast? = some (.ok (h, job.messages)) ∧
      packetIDValue h.packetID = now.packetID := by
  rw [(C88_send C cfg now job h32 buf enc iv buf enc iv hb hb).2] at hs
  obtain ⟨pkt, h1, h2, h3⟩ := Packet.C12_roundtrip_confidential C now.aux ha k hk now.sessionID now.packetID job.messages
    (by omega) [] rest
  obtain ⟨h, h4, h5, -⟩ := h3 (by intro k hk; cases hk)
  have hout : out = pkt := by
    unfold Send.sendMessages at hs
    rw [hc, if_pos rfl, hck] at hs
    simp only [Option.map_some, h1] at hs
    split at hs <;> try (cases hs; done)
    split at hs <;> try (cases hs; done)
    split at hs <;> cases hs
    have : (containerHeadersSize + job.messages.length) % 2 ^ 32 = 44 + job.messages.length := Nat.mod_eq_of_lt (by
      simp only [containerHeadersSize]; omega)
    rw [this, List.take_of_length_le (by omega)]
  subst hout
  refine ⟨h, ?_, h5⟩
  rw [C88_receive C _ (by
    intro c hm
    rcases List.mem_append.1 hm with hm | hm
    · exact hbefore c hm
    · simp only [List.mem_singleton] at hm; subst hm; intro e; cases e) dec hd]
  simp only [List.map_append, List.map_cons, List.map_nil, List.getLast?_append, List.getLast?_singleton, Option.some_or]
  exact congrArg some h4

/-- Recycled buffers with other contents and capacities. -/
def used1 : Buf := ⟨List.replicate 70 9, 0, 0, 0⟩
def used2 : Buf := ⟨List.replicate 90 7, 3, 0, 0⟩

/-- A new array is zeroed. -/
example : (Buf.new 3).bytes = [0, 0, 0] ∧ (Buf.grow ⟨[7], 1, 0, 0⟩ 2).bytes = [0, 0] := by decide

example : Idle used1 ∧ Idle used2 ∧ Idle (Buf.new 60) ∧ (∃ out,
    sendMessages Packet.toy ⟨1024, false, false⟩ exNow ⟨true, false, messageBytes 7 1 [1, 2, 3]⟩ used1 used2 used1 = .ok out ∧
    sendMessages Packet.toy ⟨1024, false, false⟩ exNow ⟨true, false, messageBytes 7 1 [1, 2, 3]⟩ (Buf.new 60) used1 (Buf.new 3) =
      .ok out ∧ out.length = 56 ∧
    (∀ d ∈ decryptAll Packet.toy [(none, [none], none, [1, 2, 3], used2), (none, [none], none, out, used2),
        (none, [some (List.replicate 32 5)], some ⟨1, 2⟩, out, used2)] used2, d ≠ .panic) ∧
    ∃ h, (decryptAll Packet.toy [(none, [none], none, out, used2),
      (none, [some (List.replicate 32 5)], some ⟨1, 2⟩, out, used2)] used2).getLast? = some (.ok (h, messageBytes 7 1 [1, 2, 3]))) :=
  ⟨⟨by decide, rfl, rfl⟩, ⟨by decide, rfl, rfl⟩, idle_new 60, _, rfl, by decide +kernel, by decide +kernel, by decide +kernel, _, rfl⟩

example (old : Hdr) : ∃ b, single (header old.reset 7 [1, 2]) [1, 2] used1 = .ok b ∧ b.length = 11 := ⟨_, rfl, rfl⟩
example : ∃ b, fragment ⟨1, 2, 3, [4]⟩ used1 = .ok b ∧ b.length = 25 := ⟨_, rfl, rfl⟩

/-! ## C89 -/

/-- What can be in the buffer for delayed messages: it comes from the pool of a session with the payload size limit `limit`
(its capacity is at least `GetPacketSizeLimit()`), and messages were appended, with established sizes that may have changed
in between. -/
inductive Filled (limit : Nat) : Buf → List Msg → Prop
  | empty {b : Buf} : Idle b → b.len = 0 → limit + 53 ≤ b.arr.length → Filled limit b []
  | add {b b' : Buf} {ms : List Msg} {cfg : Send.Cfg} {old : Hdr} {t : W32} {payload : Bytes} : Filled limit b ms →
      payload.length < 2 ^ 32 → writeDelayed cfg b (header old.reset t payload) payload = .ok (.appended b') →
      Filled limit b' (ms ++ [⟨t, if t = typeKeyExchange then 0 else 1, payload⟩])

theorem stream_append (a b : List Msg) : stream (a ++ b) = stream a ++ stream b := by
  induction a with
  | nil => rfl
  | cons m ms ih => simp [stream, ih]

/-- C89, the contents: the buffer has exactly the messages that were appended, in their order, and counts them. -/
theorem C89_contents {limit : Nat} {b : Buf} {ms : List Msg} (h : Filled limit b ms) :
    b.bytes = stream ms ∧ b.count = ms.length ∧ b.offset = 0 ∧ b.len ≤ b.arr.length ∧ limit + 53 ≤ b.arr.length := by
  induction h with
  | empty hi hl hc => exact ⟨by simp [Buf.bytes, hl, stream], hi.2.2, hi.2.1, hi.1, hc⟩
  | @add b b' ms cfg old t payload _ h32 hw ih =>
    obtain ⟨i1, i2, i3, i4, i5⟩ := ih
    have hc : b.len + 9 + payload.length ≤ b.arr.length := by
      unfold writeDelayed at hw
      split at hw
      · split at hw <;> cases hw
      · refine Nat.le_of_not_lt fun hlt => ?_
        rw [append_panic _ hlt] at hw
        cases hw
    obtain ⟨b'', e1, e2, e3, e4, e5, e6⟩ := append_eq (header old.reset t payload) payload i4 hc
    unfold writeDelayed at hw
    rw [e1] at hw
    split at hw
    · split at hw <;> cases hw
    · cases hw
      refine ⟨?_, by simp [e5, i2], by omega, by omega, by omega⟩
      rw [e6, i1, stream_append]
      exact congrArg (stream ms ++ ·) (header_stream rfl (header_flags old t payload) rfl h32)

/-- C89 (restriction that holds): while the established payload size is not more than 44 above the limit of the own session,
`WriteMessageAsync` does not panic: the message is appended, refused or has to wait.  Missing: larger established sizes, see
`C89_violated`. -/
theorem C89_partial {limit : Nat} {b : Buf} {ms : List Msg} (h : Filled limit b ms) (cfg : Send.Cfg)
    (hest : cfg.established.toNat ≤ limit + 44) (old : Hdr) (t : W32) (payload : Bytes) :
    writeDelayed cfg b (header old.reset t payload) payload = .ok .tooBig ∨
    (writeDelayed cfg b (header old.reset t payload) payload = .ok .wait ∧ ms ≠ []) ∨
    ∃ b', writeDelayed cfg b (header old.reset t payload) payload = .ok (.appended b') ∧
      b'.len = b.len + 9 + payload.length := by
  obtain ⟨i1, i2, i3, i4, i5⟩ := C89_contents h
  unfold writeDelayed
  split
  · split
    · exact .inl rfl
    · rename_i hne
      refine .inr (.inl ⟨rfl, ?_⟩)
      rintro rfl
      have : b.bytes.length = 0 := by rw [i1]; rfl
      rw [Buf.bytes, List.length_take] at this
      omega
  · rename_i hle
    have hp : packetSize cfg ≤ cfg.established.toNat + 44 + 9 := Nat.mod_le _ _
    simp only [containerHeadersSize, messageHeadersSize] at hle
    obtain ⟨b', e1, -, e3, -⟩ := append_eq (header old.reset t payload) payload i4 (by omega)
    exact .inr (.inr ⟨b', by rw [e1], e3⟩)

/-- C89, exactly: it panics if and only if the message fits in a packet of the established size, but not in the buffer. -/
theorem C89_iff (cfg : Send.Cfg) (b : Buf) (hb : b.len ≤ b.arr.length) (h : Hdr) (payload : Bytes) :
    writeDelayed cfg b h payload = .panic ↔
      44 + b.len + 9 + payload.length ≤ packetSize cfg ∧ b.arr.length < b.len + 9 + payload.length := by
  unfold writeDelayed
  have e : containerHeadersSize + b.len + messageHeadersSize + payload.length = 44 + b.len + 9 + payload.length := rfl
  by_cases hg : containerHeadersSize + b.len + messageHeadersSize + payload.length > packetSize cfg
  · rw [if_pos hg]
    constructor
    · intro e; split at e <;> cases e
    · intro e; omega
  · rw [if_neg hg]
    by_cases hc : b.len + 9 + payload.length ≤ b.arr.length
    · obtain ⟨b', e1, -⟩ := append_eq h payload hb hc
      rw [e1]
      constructor
      · intro e; cases e
      · intro e; omega
    · rw [append_panic _ (by omega)]
      exact ⟨fun _ => by omega, fun _ => rfl⟩

/-- C89, violation: the messages of a peer can bring a session with the payload size limit 1500 to the established size 2000
(`Negotiator.C53_violated`); then every `Write` of more than 1544 and up to 2000 bytes with `SendDelay` panics in the goroutine
of the caller, for every buffer that the pool made. -/
theorem C89_violated : ∃ s, Negotiator.Reachable ⟨1500, 4⟩ Negotiator.minute s ∧ s.est = some 2000 ∧
    ∀ (frag : Bool) (old : Hdr) (t : W32) (payload : Bytes), 1544 < payload.length → payload.length ≤ 2000 →
      Send.writeMessageAsync ⟨2000, frag, true⟩ 1 t payload =
        (if t = typeKeyExchange then .now (Send.single t 0 payload) else .later (messageBytes t 1 payload)) ∧
      writeDelayed ⟨2000, frag, true⟩ (Buf.new (1500 + 53)).reset (header old.reset t payload) payload = .panic := by
  obtain ⟨s, h1, h2, -⟩ := Negotiator.C53_violated
  refine ⟨s, h1, h2, ?_⟩
  intro frag old t payload hl hu
  refine ⟨?_, ?_⟩
  · unfold Send.writeMessageAsync
    have : len32 payload = payload.length := Nat.mod_eq_of_lt (by omega)
    have h2000 : (2000 : W32).toNat = 2000 := rfl
    rw [this, if_neg (by rw [h2000]; omega)]
    dsimp only
    by_cases ht : t = typeKeyExchange
    · subst ht
      rfl
    · have hb : (t != typeKeyExchange) = true := by simpa using ht
      rw [hb, if_neg (by decide), if_neg ht]
      rfl
  · have hn := grow_len ⟨[], 0, 0, 0⟩ (1500 + 53)
    have hcap : (Buf.new (1500 + 53)).reset.arr.length = 1553 := by
      exact new_cap 1553
    have hlen : (Buf.new (1500 + 53)).reset.len = 0 := rfl
    rw [C89_iff _ _ (by rw [hlen]; exact Nat.zero_le _)]
    have hps : packetSize ⟨2000, frag, true⟩ = 2053 := rfl
    rw [hcap, hlen, hps]
    omega

example : ∃ b, Filled 1500 b [⟨7, 1, [1, 2]⟩, ⟨7, 1, [3]⟩] := by
  have h0 : Filled 1500 (Buf.new 1553).reset [] := .empty (idle_reset _) rfl (Nat.le_of_eq (new_cap 1553).symm)
  have hps : packetSize ⟨1500, false, true⟩ = 1553 := rfl
  rcases C89_partial h0 ⟨1500, false, true⟩ (by decide) ⟨1, 2, 3⟩ 7 [1, 2] with h | ⟨-, h⟩ | ⟨b, hb, hl⟩
  · exfalso
    unfold writeDelayed at h
    rw [if_neg (by rw [hps]; decide)] at h
    split at h <;> cases h
  · exact absurd rfl h
  · have h1 := Filled.add h0 (by decide) hb
    rcases C89_partial h1 ⟨1500, false, true⟩ (by decide) ⟨1, 2, 3⟩ 7 [3] with h | ⟨h, -⟩ | ⟨b', h, -⟩
    · exfalso
      unfold writeDelayed at h
      rw [if_neg (by rw [hps, hl]; decide)] at h
      split at h <;> cases h
    · exfalso
      unfold writeDelayed at h
      rw [if_neg (by rw [hps, hl]; decide)] at h
      split at h <;> cases h
    · exact ⟨b', h1.add (by decide) h⟩

#print axioms C88_send
#print axioms C88_message
#print axioms C88_fragment
#print axioms C88_receive
#print axioms C88_roundtrip
#print axioms C89_contents
#print axioms C89_partial
#print axioms C89_iff
#print axioms C89_violated

end Verif.Mem
