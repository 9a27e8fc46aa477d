import Verif.Spec.Send
import Verif.Props.Packet
/-!
# Property theorems C15, C18, C19, C20: single writes

`writeMessageAsync cfg chainID t payload` is what `WriteMessageAsync` (and `Write`, `WriteMessage`) decides to
do with a payload of type `t`; `sendMessages C cfg now job` is the packet handed to the backend.
-/
namespace Verif.Send
open Verif.Headers Verif.Packet

/-- All packets a plan sends on its own. -/
def Plan.jobs : Plan → List Job
  | .now j => [j]
  | .fragmented js => js
  | _ => []

/-! ## C15 -/

theorem conf_flags (t : W32) (h : t ≠ typeKeyExchange) :
    isConfidential (setIsConfidential 0 (t != typeKeyExchange)) = true := by
  have : (t != typeKeyExchange) = true := by simpa using h
  rw [this]; decide

/-- Sending a confidential packet. -/
theorem send_confidential (C : Crypto) (cfg : Cfg) (now : Now) (job : Job) (hc : job.confidential = true)
    (hk : KeyOK now.cipherKey) (ha : KeyOK now.aux) (hl : job.messages.length + 44 < 2 ^ 32) (out : Bytes)
    (h : sendMessages C cfg now job = .ok out) :
    ∃ k, now.cipherKey = some k ∧
      EncryptedUnder C now.aux k now.sessionID now.packetID job.messages out ∧
      out.length = job.messages.length + 44 := by
  unfold sendMessages at h
  rw [hc] at h
  simp only [if_true] at h
  cases hck : now.cipherKey with
  | none => rw [hck] at h; cases h
  | some k =>
    rw [hck] at h
    simp only [Option.map_some] at h
    split at h
    · cases h
    · split at h
      · cases h
      · obtain ⟨pkt, h1, h2, h3, h4⟩ := seal_spec C now.aux (some k) now.sessionID true now.packetID job.messages ha
          (by intro b hb; cases hb; exact hk k hck) (by intro h; cases h)
        rw [h1] at h
        have hmod : (containerHeadersSize + job.messages.length) % 2 ^ 32 = pkt.length := by
          rw [h2, Nat.mod_eq_of_lt]
          · unfold containerHeadersSize; omega
          · unfold containerHeadersSize; omega
        simp only at h
        rw [hmod, List.take_length] at h
        split at h
        · cases h
        · cases h
          refine ⟨k, rfl, ⟨out.take 8, (plainPacket C (some k) (packetIDBytes now.packetID) job.messages).drop 8 |>.take 36, ?_, ?_, ?_, ?_⟩, h2⟩
          · simp [h2]
          · unfold wirePacketID at h3 ⊢
            rw [List.take_take]; simpa using h3
          · simp only [plainPacket, containerSet, headersChecksum, messagesChecksum]
            simp [putLE_length, C.poly_length, packetIDBytes]
            omega
          · have hd : (plainPacket C (some k) (packetIDBytes now.packetID) job.messages).drop 8 =
                ((plainPacket C (some k) (packetIDBytes now.packetID) job.messages).drop 8).take 36 ++ job.messages := by
              conv => lhs; rw [← List.take_append_drop 36 (List.drop 8 _)]
              congr 1
              rw [List.drop_drop]
              simp only [plainPacket, containerSet, headersChecksum, messagesChecksum]
              refine drop_app ?_
              simp [putLE_length, C.poly_length, packetIDBytes]
            rw [← hd, ← h4]
            simp only [clear, sendIV, if_true]
            rw [xorStream_invol, List.take_append_drop]

/-- C15 (restriction that holds): a message of any type but key exchange that is not fragmented leaves only
encrypted with the exchanged key, whether sent at once, or with `WriteMessageSingle`, or together with others
from the delayed buffer (which is always sent as confidential).
Missing: fragmented messages, see `C15_violated`. -/
theorem C15_encrypted_partial (C : Crypto) (cfg : Cfg) (now : Now) (hk : KeyOK now.cipherKey)
    (ha : KeyOK now.aux) (chainID : W64) (t : W32) (ht : t ≠ typeKeyExchange) (payload : Bytes)
    (job : Job)
    (hj : writeMessageAsync cfg chainID t payload = .now job ∨ job = writeMessageSingle t payload ∨
      (job.confidential = true ∧ job.internal = false))
    (hl : job.messages.length + 44 < 2 ^ 32) (out : Bytes) (h : sendMessages C cfg now job = .ok out) :
    ∃ k, now.cipherKey = some k ∧
      EncryptedUnder C now.aux k now.sessionID now.packetID job.messages out := by
  have hc : job.confidential = true := by
    rcases hj with hj | rfl | hj
    · unfold writeMessageAsync at hj
      split at hj
      · split at hj
        · cases hj
        · split at hj <;> cases hj
      · simp only at hj
        split at hj
        · cases hj; exact conf_flags t ht
        · cases hj
    · exact conf_flags t ht
    · exact hj.1
  obtain ⟨k, h1, h2, -⟩ := send_confidential C cfg now job hc hk ha hl out h
  exact ⟨k, h1, h2⟩

def exNow : Now := ⟨some (List.replicate 32 5), none, ⟨1, 2⟩, 9, true, false⟩

example : ∃ job out, writeMessageAsync ⟨1024, true, false⟩ 1 7 [1, 2, 3] = .now job ∧
    sendMessages toy ⟨1024, true, false⟩ exNow job = .ok out ∧ out.length = 56 :=
  ⟨⟨true, false, messageBytes 7 1 [1, 2, 3]⟩, _, by decide +kernel, rfl, by decide +kernel⟩

/-! ## C20 -/

theorem fragmentLoop_covers (chainID : W64) (total max : Nat) (hm : 0 < max) (fuel pos : Nat) (payload : Bytes)
    (hf : payload.length ≤ fuel) (hl : payload.length < 2 ^ 32) :
    ∃ fs, fragmentLoop chainID total max fuel pos payload = some fs ∧
      fs.flatMap (·.payload) = payload ∧
      (∀ pre f post, fs = pre ++ f :: post → f.startPos = pos + covered pre) ∧
      (∀ f ∈ fs, f.total = total ∧ f.chainID = chainID) ∧
      (∀ f ∈ fs, f.payload ≠ [] ∧ f.payload.length ≤ max) := by
  induction fuel generalizing pos payload with
  | zero =>
    have : payload = [] := List.eq_nil_of_length_eq_zero (by omega)
    subst this
    exact ⟨[], by simp [fragmentLoop], rfl, by simp, by simp, by simp⟩
  | succ fuel ih =>
    cases payload with
    | nil => exact ⟨[], by simp [fragmentLoop], rfl, by simp, by simp, by simp⟩
    | cons b bs =>
      generalize hp : b :: bs = p at *
      have hpos : 0 < p.length := by rw [← hp]; simp
      have hmod : len32 p = p.length := Nat.mod_eq_of_lt hl
      have hlen : ∃ n, (if max > len32 p then len32 p else max) = n ∧ 0 < n ∧ n ≤ max ∧ n ≤ p.length := by
        rw [hmod]; split
        · exact ⟨_, rfl, by omega, by omega, by omega⟩
        · exact ⟨_, rfl, by omega, by omega, by omega⟩
      obtain ⟨n, hn, h0, h1, h2⟩ := hlen
      obtain ⟨fs, e1, e2, e3, e4, e5⟩ := ih (pos + n) (p.drop n) (by rw [List.length_drop]; omega)
        (by rw [List.length_drop]; omega)
      have hstep : fragmentLoop chainID total max (fuel + 1) pos p =
          (fragmentLoop chainID total max fuel (pos + n) (p.drop n)).map (⟨chainID, pos, total, p.take n⟩ :: ·) := by
        rw [← hp, fragmentLoop, hp]
        simp only [hn]
        intro h; cases h
      refine ⟨⟨chainID, pos, total, p.take n⟩ :: fs, by rw [hstep, e1]; rfl, ?_, ?_, ?_, ?_⟩
      · rw [List.flatMap_cons, e2]; exact List.take_append_drop n p
      · intro pre f post hpf
        cases pre with
        | nil =>
          simp only [List.nil_append, List.cons.injEq] at hpf
          rw [← hpf.1]; rfl
        | cons a pre =>
          simp only [List.cons_append, List.cons.injEq] at hpf
          rw [e3 pre f post hpf.2, ← hpf.1]
          simp only [covered, List.length_take]
          omega
      · intro f hf
        rcases List.mem_cons.mp hf with rfl | hf
        · exact ⟨rfl, rfl⟩
        · exact e4 f hf
      · intro f hf
        rcases List.mem_cons.mp hf with rfl | hf
        · refine ⟨fun h => ?_, by simp; omega⟩
          have := congrArg List.length h
          rw [List.length_take, List.length_nil] at this; omega
        · exact e5 f hf

/-- C20: with an established payload size of at least 25 every payload (below 4 GiB) is split into fragments
that cover it exactly. -/
theorem C20_covers (cfg : Cfg) (he : 25 ≤ cfg.established.toNat) (chainID : W64) (payload : Bytes)
    (hl : payload.length < 2 ^ 32) :
    ∃ fs, fragments cfg chainID payload = some fs ∧ Covers fs chainID cfg.established.toNat payload := by
  have hmax : (cfg.established - BitVec.ofNat 32 fragmentHeadersSize).toNat = cfg.established.toNat - 24 := by
    rw [BitVec.toNat_sub]
    have := cfg.established.isLt
    simp only [fragmentHeadersSize, BitVec.toNat_ofNat]
    omega
  obtain ⟨fs, h1, h2, h3, h4, h5⟩ := fragmentLoop_covers chainID payload.length
    (cfg.established - BitVec.ofNat 32 fragmentHeadersSize).toNat (by omega) payload.length 0 payload
    (Nat.le_refl _) hl
  refine ⟨fs, h1, h2, fun pre f post h => by rw [h3 pre f post h]; omega, h4, fun f hf => ?_⟩
  have := h5 f hf
  exact ⟨this.1, by omega⟩

/-- C20: a payload larger than the established size is sent as the messages of exactly these fragments. -/
theorem C20_plan (cfg : Cfg) (he : 25 ≤ cfg.established.toNat) (hf : cfg.fragmentation = true) (chainID : W64)
    (t : W32) (ht : t ≠ typeKeyExchange ∧ t ≠ typeNegotiation) (payload : Bytes)
    (hl : payload.length < 2 ^ 32) (hbig : cfg.established.toNat < payload.length) :
    ∃ fs, Covers fs chainID cfg.established.toNat payload ∧
      writeMessageAsync cfg chainID t payload =
        .fragmented (fs.map fun f => ⟨false, false,
          messageBytes t 2 (putLE 8 chainID.toNat ++ putLE 8 f.startPos ++ putLE 8 payload.length ++ f.payload)⟩) := by
  obtain ⟨fs, h1, h2⟩ := C20_covers cfg he chainID payload hl
  refine ⟨fs, h2, ?_⟩
  have hint : isInternal t = false := by simp [isInternal, ht]
  have hm : len32 payload = payload.length := Nat.mod_eq_of_lt hl
  unfold writeMessageAsync
  rw [if_pos ⟨by rw [hm]; exact hbig, by simp [hint]⟩, if_neg (by simp [hf]), h1]
  simp only
  congr 1
  apply List.map_congr_left
  intro f hfm
  obtain ⟨ht1, ht2⟩ := h2.total f hfm
  simp only [single, hint, fragmentPayload, ht1, ht2]
  rfl

example : ∃ fs, fragments ⟨30, true, true⟩ 1 (List.replicate 14 9) = some fs ∧ fs.length = 3 :=
  ⟨[⟨1, 0, 14, List.replicate 6 9⟩, ⟨1, 6, 14, List.replicate 6 9⟩, ⟨1, 12, 14, List.replicate 2 9⟩],
    by decide +kernel, rfl⟩

/-- The bound 25 in C20 is needed: with an established payload size of 24 the call never returns, for every
payload it would have to split. -/
theorem C20_hangs (chainID : W64) (t : W32) (ht : t ≠ typeKeyExchange ∧ t ≠ typeNegotiation) (delay : Bool)
    (payload : Bytes) (hbig : 24 < payload.length) (hl : payload.length < 2 ^ 32) :
    writeMessageAsync ⟨24, true, delay⟩ chainID t payload = .hangs := by
  have hint : isInternal t = false := by simp [isInternal, ht]
  have hm : len32 payload = payload.length := Nat.mod_eq_of_lt hl
  have key : ∀ (fuel pos : Nat) (p : Bytes), p ≠ [] → fragmentLoop chainID payload.length 0 fuel pos p = none := by
    intro fuel
    induction fuel with
    | zero => intro pos p hp; cases p with
      | nil => exact absurd rfl hp
      | cons b bs => rfl
    | succ fuel ih =>
      intro pos p hp
      cases p with
      | nil => exact absurd rfl hp
      | cons b bs =>
        simp only [fragmentLoop]
        have : ¬ (0 : Nat) > len32 (b :: bs) := by omega
        rw [if_neg this]
        simp [ih]
  unfold writeMessageAsync
  rw [if_pos ⟨by rw [hm]; exact hbig, by simp [hint]⟩, if_neg (by simp)]
  have hfr : fragments ⟨24, true, delay⟩ chainID payload = none := by
    have hne : payload ≠ [] := by intro h; rw [h] at hbig; simp at hbig
    have h24 : ((24 : W32) - BitVec.ofNat 32 fragmentHeadersSize).toNat = 0 := by decide
    simp only [fragments, h24]
    exact key payload.length 0 payload hne
  rw [hfr]

/-! ## C15 is violated by fragments -/

/-- C15 as stated is false: without a pre-shared key every fragment of a fragmented message is written to the
backend in plain text, even before there is any exchanged key. -/
theorem C15_violated (C : Crypto) (cfg : Cfg) (he : 25 ≤ cfg.established.toNat)
    (he2 : cfg.established.toNat + 53 < 2 ^ 32) (hf : cfg.fragmentation = true) (chainID : W64)
    (t : W32) (ht : t ≠ typeKeyExchange ∧ t ≠ typeNegotiation) (payload : Bytes)
    (hl : payload.length < 2 ^ 32) (hbig : cfg.established.toNat < payload.length)
    (now : Now) (ha : now.aux = none) (hest : now.established = true) (hd : now.done = false) :
    ∃ (fs : List Fragment) (jobs : List Job), Covers fs chainID cfg.established.toNat payload ∧
      writeMessageAsync cfg chainID t payload = .fragmented jobs ∧ jobs.length = fs.length ∧
      ∀ (i : Nat) f job, fs[i]? = some f → jobs[i]? = some job →
        ∃ out, sendMessages C cfg now job = .ok out ∧ f.payload <:+ out := by
  obtain ⟨fs, h1, h2⟩ := C20_plan cfg he hf chainID t ht payload hl hbig
  refine ⟨fs, _, h1, h2, by simp, ?_⟩
  intro i f job hi hj
  rw [List.getElem?_map, hi] at hj
  simp only [Option.map_some, Option.some.injEq] at hj
  subst hj
  have hmem : f ∈ fs := List.mem_of_getElem? hi
  obtain ⟨hne, hfit⟩ := h1.fits f hmem
  have hlen : (messageBytes t 2 (putLE 8 chainID.toNat ++ putLE 8 f.startPos ++ putLE 8 payload.length ++ f.payload)).length
      = 33 + f.payload.length := by
    simp [messageBytes, putLE_length]; omega
  unfold sendMessages
  simp only [Bool.false_eq_true, if_false, ha, hest, not_true_eq_false, and_false, hd]
  rw [if_neg]
  · simp only [sealPacket]
    refine ⟨_, rfl, ?_⟩
    simp only [plainPacket, messageBytes]
    simp only [← List.append_assoc]
    exact List.suffix_append _ _
  · have hb : 44 + (33 + f.payload.length) < 2 ^ 32 := by omega
    rw [len32, hlen, Nat.mod_eq_of_lt (show 33 + f.payload.length < 2 ^ 32 by omega)]
    simp only [containerHeadersSize, packetSize, messageHeadersSize]
    rw [Nat.mod_eq_of_lt hb, Nat.mod_eq_of_lt (by omega)]
    simp; omega

example : let cfg : Cfg := ⟨1024, true, true⟩
    25 ≤ cfg.established.toNat ∧ cfg.established.toNat + 53 < 2 ^ 32 ∧ cfg.fragmentation = true ∧
    cfg.established.toNat < (List.replicate 2000 (0 : Byte)).length := by
  refine ⟨by decide, by decide, rfl, ?_⟩
  rw [List.length_replicate]; decide

/-! ## C18, C19 -/

/-- C18: every packet with application data sent by a single write, `WriteMessageSingle` or a flush of the
delayed buffer is at most `GetEstablishedPacketSize()` bytes long. -/
theorem C18_packet_size (C : Crypto) (cfg : Cfg) (now : Now) (hk : KeyOK now.cipherKey) (ha : KeyOK now.aux)
    (job : Job) (hc : job.confidential = true) (hi : job.internal = false) (out : Bytes)
    (h : sendMessages C cfg now job = .ok out) : out.length ≤ packetSize cfg := by
  unfold sendMessages at h
  rw [hc, hi] at h
  simp only [if_true] at h
  cases hck : now.cipherKey with
  | none => rw [hck] at h; cases h
  | some k =>
    rw [hck] at h
    simp only [Option.map_some, Bool.false_eq_true, not_false_eq_true, true_and] at h
    split at h
    · cases h
    · split at h
      · cases h
      · next hsize =>
        split at h
        · cases h
        · split at h
          · cases h
          · cases h
            rw [List.length_take]
            have : (containerHeadersSize + len32 job.messages) % 2 ^ 32 =
                (containerHeadersSize + job.messages.length) % 2 ^ 32 := by
              unfold len32 containerHeadersSize; omega
            omega

/-- The size is a wrapping `uint32` sum. -/
example : packetSize ⟨1024, true, true⟩ = 1077 ∧ packetSize ⟨0xFFFFFFFF, true, true⟩ = 52 := by decide +kernel

/-- C18 for fragments: every fragment's packet has at most the established packet size. -/
theorem C18_fragment_size (C : Crypto) (cfg : Cfg) (he : 25 ≤ cfg.established.toNat)
    (he2 : cfg.established.toNat + 53 < 2 ^ 32) (chainID : W64) (t : W32)
    (ht : t ≠ typeKeyExchange ∧ t ≠ typeNegotiation) (payload : Bytes) (hl : payload.length < 2 ^ 32)
    (jobs : List Job) (hj : writeMessageAsync cfg chainID t payload = .fragmented jobs) (now : Now)
    (ha : KeyOK now.aux) (job : Job) (hm : job ∈ jobs) (out : Bytes)
    (h : sendMessages C cfg now job = .ok out) : out.length ≤ packetSize cfg := by
  have hps : packetSize cfg = cfg.established.toNat + 53 := by
    simp only [packetSize, containerHeadersSize, messageHeadersSize]
    omega
  have hcond : cfg.fragmentation = true ∧ cfg.established.toNat < payload.length := by
    have hm : len32 payload = payload.length := Nat.mod_eq_of_lt hl
    unfold writeMessageAsync at hj
    split at hj
    · next hc =>
      rw [hm] at hc
      split at hj
      · cases hj
      · next hf => exact ⟨by simpa using hf, hc.1⟩
    · simp only at hj
      split at hj <;> cases hj
  obtain ⟨fs, h1, h2⟩ := C20_plan cfg he hcond.1 chainID t ht payload hl hcond.2
  rw [h2] at hj
  cases hj
  rw [List.mem_map] at hm
  obtain ⟨f, hfm, rfl⟩ := hm
  obtain ⟨-, hfit⟩ := h1.fits f hfm
  have hlen : (messageBytes t 2 (putLE 8 chainID.toNat ++ putLE 8 f.startPos ++ putLE 8 payload.length ++ f.payload)).length
      = 33 + f.payload.length := by
    simp [messageBytes, putLE_length]; omega
  unfold sendMessages at h
  simp only [Bool.false_eq_true, if_false, not_false_eq_true, true_and] at h
  split at h
  · cases h
  · split at h
    · cases h
    · obtain ⟨pkt, e1, e2, -, -⟩ := seal_spec C now.aux now.aux now.sessionID false now.packetID
        (messageBytes t 2 (putLE 8 chainID.toNat ++ putLE 8 f.startPos ++ putLE 8 payload.length ++ f.payload)) ha ha id
      rw [e1] at h
      simp only at h
      split at h
      · cases h
      · have : out.length ≤ pkt.length := by
          cases hx : now.aux with
          | none => rw [hx] at h; cases h; exact Nat.le_refl _
          | some a => rw [hx] at h; cases h; rw [List.length_take]; omega
        rw [hlen] at e2
        omega

/-- Hypotheses of `C18_fragment_size`: three fragments, the first of them sent. -/
example : ∃ j1 j2 j3 out, writeMessageAsync ⟨30, true, false⟩ 1 7 (List.replicate 31 9) =
      .fragmented [j1, j2, j3, ⟨false, false, messageBytes 7 2 (fragmentPayload ⟨1, 18, 31, List.replicate 6 9⟩)⟩,
        ⟨false, false, messageBytes 7 2 (fragmentPayload ⟨1, 24, 31, List.replicate 6 9⟩)⟩,
        ⟨false, false, messageBytes 7 2 (fragmentPayload ⟨1, 30, 31, [9]⟩)⟩] ∧
    sendMessages toy ⟨30, true, false⟩ exNow j1 = .ok out ∧ out.length = 83 :=
  ⟨⟨false, false, messageBytes 7 2 (fragmentPayload ⟨1, 0, 31, List.replicate 6 9⟩)⟩,
   ⟨false, false, messageBytes 7 2 (fragmentPayload ⟨1, 6, 31, List.replicate 6 9⟩)⟩,
   ⟨false, false, messageBytes 7 2 (fragmentPayload ⟨1, 12, 31, List.replicate 6 9⟩)⟩, _,
   by decide +kernel, rfl, by decide +kernel⟩

/-- C19 (restriction that holds): without fragmentation an application message below 4 GiB is refused by
`Write`/`WriteMessage`/`WriteMessageAsync`, with nothing sent, exactly if it is larger than the established
payload size. Missing: larger payloads, see `C19_violated`. -/
theorem C19_refused_partial (cfg : Cfg) (hf : cfg.fragmentation = false) (chainID : W64) (t : W32)
    (ht : t ≠ typeKeyExchange ∧ t ≠ typeNegotiation) (payload : Bytes) (hl : payload.length < 2 ^ 32) :
    (cfg.established.toNat < payload.length →
      writeMessageAsync cfg chainID t payload = .tooBig cfg.established.toNat payload.length) ∧
    (payload.length ≤ cfg.established.toNat →
      writeMessageAsync cfg chainID t payload =
        if cfg.delay then .later (messageBytes t 1 payload)
        else .now ⟨true, false, messageBytes t 1 payload⟩) := by
  have hint : isInternal t = false := by simp [isInternal, ht]
  have hm : len32 payload = payload.length := Nat.mod_eq_of_lt hl
  have hfl : setIsConfidential 0 (t != typeKeyExchange) = 1 := by
    have : (t != typeKeyExchange) = true := by simpa using ht.1
    rw [this]; decide
  constructor
  · intro hb
    unfold writeMessageAsync
    rw [if_pos ⟨by rw [hm]; exact hb, by simp [hint]⟩, if_pos (by simp [hf])]
  · intro hb
    unfold writeMessageAsync
    rw [if_neg (by rw [hm]; omega)]
    simp only [hfl, single, hint]
    cases cfg.delay <;> rfl

example : writeMessageAsync ⟨3, false, true⟩ 1 7 [1, 2, 3, 4] = .tooBig 3 4 ∧
    writeMessageAsync ⟨4, false, true⟩ 1 7 [1, 2, 3, 4] = .later (messageBytes 7 1 [1, 2, 3, 4]) := by decide +kernel

/-- C19: a message that fits is never refused as too big by `sendMessages`. -/
theorem C19_fits (C : Crypto) (cfg : Cfg) (he2 : cfg.established.toNat + 53 < 2 ^ 32) (now : Now) (t : W32)
    (flags : Byte) (payload : Bytes) (hl : payload.length ≤ cfg.established.toNat) :
    sendMessages C cfg now (single t flags payload) ≠ .err .tooBig := by
  intro h
  unfold sendMessages at h
  have hlen : (single t flags payload).messages.length = 9 + payload.length := by
    simp [single, messageBytes, putLE_length]; omega
  split at h
  · cases h
  · split at h
    · cases h
    · split at h
      · next hc =>
        have h1 := hc.2
        rw [len32, hlen] at h1
        simp only [packetSize, containerHeadersSize, messageHeadersSize] at h1
        omega
      · split at h
        · cases h
        · simp only at h
          split at h <;> cases h

/-- `WriteMessageSingle` does not look at the size, but `sendMessages` refuses an oversized message. -/
theorem C19_single_refused (C : Crypto) (cfg : Cfg) (now : Now) (t : W32)
    (ht : t ≠ typeKeyExchange ∧ t ≠ typeNegotiation) (payload : Bytes) (hl : payload.length + 53 < 2 ^ 32)
    (hbig : cfg.established.toNat < payload.length) (hc : now.cipherKey.isSome) (he : now.established = true) :
    sendMessages C cfg now (writeMessageSingle t payload) = .err .tooBig := by
  have hint : isInternal t = false := by simp [isInternal, ht]
  have hlen : (writeMessageSingle t payload).messages.length = 9 + payload.length := by
    simp [writeMessageSingle, single, messageBytes, putLE_length]; omega
  unfold sendMessages
  have hcf : (writeMessageSingle t payload).confidential = true := conf_flags t ht.1
  have hi : (writeMessageSingle t payload).internal = false := hint
  obtain ⟨k, hk⟩ := Option.isSome_iff_exists.mp hc
  rw [hcf, hi, hk]
  simp only [if_true, Option.map_some, he, Bool.false_eq_true, not_false_eq_true, not_true_eq_false,
    and_false, if_false, true_and]
  rw [if_pos]
  rw [len32, hlen]
  simp only [packetSize, containerHeadersSize, messageHeadersSize]
  omega

/-- C19 as stated is false: a payload of 4 GiB and 5 bytes is larger than the established size 1024, but is
not refused; without send delay a packet of 58 bytes, the beginning of the message, is sent and the write
succeeds. -/
theorem C19_violated (C : Crypto) (t : W32) (ht : t ≠ typeKeyExchange ∧ t ≠ typeNegotiation) (chainID : W64)
    (payload : Bytes) (hl : payload.length = 2 ^ 32 + 5) (now : Now) (k : Bytes) (hk : now.cipherKey = some k)
    (hk32 : k.length = 32) (ha : KeyOK now.aux) (he : now.established = true) (hd : now.done = false) :
    ∃ job out, writeMessageAsync ⟨1024, false, false⟩ chainID t payload = .now job ∧
      sendMessages C ⟨1024, false, false⟩ now job = .ok out ∧ out.length = 58 := by
  have hint : isInternal t = false := by simp [isInternal, ht]
  have hfl : setIsConfidential 0 (t != typeKeyExchange) = 1 := by
    have : (t != typeKeyExchange) = true := by simpa using ht.1
    rw [this]; decide
  have hml : (messageBytes t 1 payload).length = 2 ^ 32 + 14 := by
    simp [messageBytes, putLE_length, hl]
  refine ⟨⟨true, false, messageBytes t 1 payload⟩, ?_⟩
  obtain ⟨pkt, e1, e2, -, -⟩ := seal_spec C now.aux (some k) now.sessionID true now.packetID
    (messageBytes t 1 payload) ha (by intro b hb; cases hb; exact hk32) (by intro h; cases h)
  refine ⟨pkt.take 58, ?_, ?_, ?_⟩
  · unfold writeMessageAsync
    rw [if_neg (by rw [len32, hl]; simp)]
    simp only [hfl, single, hint]
    rfl
  · unfold sendMessages
    simp only [if_true, hk, Option.map_some, he, Bool.false_eq_true, not_false_eq_true, not_true_eq_false,
      and_false, if_false, true_and, e1, hd]
    rw [if_neg]
    · rw [hml, show (containerHeadersSize + (2 ^ 32 + 14)) % 2 ^ 32 = 58 by decide]
    · rw [len32, hml]; decide
  · rw [List.length_take, e2, hml]; decide

example : ∃ payload : Bytes, payload.length = 2 ^ 32 + 5 := ⟨List.replicate (2 ^ 32 + 5) 0, List.length_replicate⟩

/-- C61: a send that comes to the last check after the session became Closing or Closed hands nothing to the backend and
returns an error. -/
theorem C61_no_write (C : Crypto) (cfg : Cfg) (now : Now) (hk : KeyOK now.cipherKey) (ha : KeyOK now.aux) (job : Job)
    (hd : now.done = true) : ∃ e, sendMessages C cfg now job = .err e := by
  unfold sendMessages
  split
  · exact ⟨_, rfl⟩
  · next key hkey =>
    split
    · exact ⟨_, rfl⟩
    · split
      · exact ⟨_, rfl⟩
      · have hs : ∃ out, sealPacket C now.aux key now.sessionID job.confidential now.packetID job.messages = some out := by
          cases hc : job.confidential with
          | false =>
            rw [hc] at hkey
            simp at hkey; subst hkey
            obtain ⟨p, h, _⟩ := seal_spec C now.aux now.aux now.sessionID false now.packetID job.messages ha ha id
            exact ⟨p, h⟩
          | true =>
            rw [hc] at hkey
            simp only [if_true, Option.map_eq_some_iff] at hkey
            obtain ⟨k, hck, e⟩ := hkey
            subst e
            obtain ⟨p, h, _⟩ := seal_spec C now.aux (some k) now.sessionID true now.packetID job.messages ha
              (by rw [← hck]; exact hk) (by simp)
            exact ⟨p, h⟩
        obtain ⟨out, h⟩ := hs
        rw [h]
        simp only [hd, if_true]
        exact ⟨_, rfl⟩

/-- The same packet goes out if the session is not closed. -/
example : ∃ out e, sendMessages toy ⟨1024, true, false⟩ exNow (single 16 1 [7]) = .ok out ∧
    sendMessages toy ⟨1024, true, false⟩ { exNow with done := true } (single 16 1 [7]) = .err e :=
  ⟨_, _, rfl, rfl⟩

#print axioms C61_no_write
#print axioms C15_encrypted_partial
#print axioms C15_violated
#print axioms C18_packet_size
#print axioms C18_fragment_size
#print axioms C19_refused_partial
#print axioms C19_fits
#print axioms C19_single_refused
#print axioms C19_violated
#print axioms C20_covers
#print axioms C20_plan
#print axioms C20_hangs

end Verif.Send
