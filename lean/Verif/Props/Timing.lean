import Verif.Lemmas.Timing
import Verif.Props.Packet
/-!
# Property theorems C146: the time a packet takes says nothing about its checksums

The full claim: of two packets of the same length which are refused, neither takes longer than the
other on account of the checksums they carry.
-/
namespace Verif.Timing
open Verif.Headers Verif.Packet

/-! ## What holds -/

/-- The first word of the checksum of the header is wrong under this key. -/
def FarOff (C : Crypto) (w : Nat) (key : Option Bytes) (pid iv enc : Bytes) : Prop :=
  (((clear C key iv enc).take 16).take w) ≠
    (C.poly (polyKey C pid key) (((clear C key iv enc).drop 32).take 4)).take w

/-- What is done for a packet which is wrong under every key: the same for every such packet. -/
def refusal (len : Nat) (keys : List (Option Bytes)) : List Op :=
  .cipher 8 :: ((keys.filter (·.isSome)).flatMap fun _ => [.cipher (len - 8), .mac 4, .compare 1])
    ++ [.cipher (len - 8), .mac 4, .compare 1]

theorem far_try (C : Crypto) (w n : Nat) (pid enc : Bytes) (key : Option Bytes) (iv : Bytes)
    (hk : KeyOK key) (hi : key ≠ none → iv.length = 8 ∨ iv.length = 12 ∨ iv.length = 24)
    (hl : 36 ≤ enc.length) (hf : FarOff C w key pid iv enc) :
    tryDecrypt C pid enc key iv = .ok none ∧
    tryTrace C w (n + 1) pid enc key iv = [.cipher enc.length, .mac 4, .compare 1] := by
  have hp : plainOf C key iv enc = some (clear C key iv enc) := by
    cases key with
    | none => rfl
    | some k => exact crypt_some (hk k rfl) (hi (by simp)) enc
  have hlen := clear_length C key iv enc
  have h36 : 36 ≤ (clear C key iv enc).length := by omega
  have hs : headersChecksum C key pid
      (BitVec.ofNat 32 (getLE (((clear C key iv enc).drop 32).take 4))) =
      C.poly (polyKey C pid key) (((clear C key iv enc).drop 32).take 4) := by
    rw [headersChecksum, length_le_take _ h36]
  have hne : C.poly (polyKey C pid key) (((clear C key iv enc).drop 32).take 4) ≠
      (clear C key iv enc).take 16 := fun e => hf (by rw [e])
  simp only [tryDecrypt, tryTrace, hp, readAfterIV_eq _ _ h36, hs, if_pos hne, true_and]
  simp only [compareSteps]
  rw [if_neg (fun e => hf e.symm)]

theorem far_keys (C : Crypto) (w n : Nat) (pid enc iv : Bytes) (keys : List (Option Bytes))
    (hk : ∀ k ∈ keys, KeyOK k) (hi : iv.length = 24) (hl : 36 ≤ enc.length)
    (hf : ∀ k ∈ keys, k ≠ none → FarOff C w k pid iv enc) :
    tryKeys C pid enc iv keys = .ok none ∧
    tryKeysTrace C w (n + 1) pid enc iv keys =
      (keys.filter (·.isSome)).flatMap fun _ => [.cipher enc.length, .mac 4, .compare 1] := by
  induction keys with
  | nil => exact ⟨rfl, rfl⟩
  | cons k keys ih =>
    have := ih (fun k h => hk k (List.mem_cons_of_mem _ h)) (fun k h => hf k (List.mem_cons_of_mem _ h))
    cases k with
    | none => simpa [tryKeys, tryKeysTrace] using this
    | some k =>
      have a := far_try C w n pid enc (some k) iv (hk _ (by simp)) (fun _ => .inr (.inr hi)) hl
        (hf _ (by simp) (by simp))
      simp only [tryKeys, tryKeysTrace, a.1, a.2, this.1, this.2, true_and]
      simp

/-- C146, the part which holds: for packets with a checksum of the header which is wrong from its first
word under every key of the receiver (what somebody without the keys sends, but for a chance of 256^-w
per key), the work depends on nothing but the length of the packet and the number of keys. -/
theorem C146_partial (C : Crypto) (w n : Nat) (aux : Option Bytes) (keys : List (Option Bytes))
    (sid : SessID) (packet : Bytes) (ha : KeyOK aux) (hk : ∀ k ∈ keys, KeyOK k)
    (hl : 44 ≤ packet.length)
    (hf : ∀ k ∈ keys, k ≠ none → FarOff C w k (wirePacketID C aux packet)
      (sid.bytes ++ wirePacketID C aux packet) (packet.drop 8))
    (hfa : FarOff C w aux (wirePacketID C aux packet) (wirePacketID C aux packet) (packet.drop 8)) :
    decryptTrace C w (n + 1) aux keys (some sid) packet = refusal packet.length keys ∧
    decrypt C aux keys (some sid) packet = .err .cannotDecrypt := by
  have hpid : (wirePacketID C aux packet).length = 8 := by
    have : (packet.take 8).length = 8 := by rw [List.length_take]; omega
    rw [wirePacketID, clear_length, this]
  have hlen : 36 ≤ (packet.drop 8).length := by rw [List.length_drop]; omega
  have a := far_keys C w n _ (packet.drop 8) (remoteIV (some sid) (wirePacketID C aux packet)) keys hk
    (remoteIV_length _ _ hpid) hlen hf
  have b := far_try C w n _ (packet.drop 8) aux (wirePacketID C aux packet) ha (fun _ => .inl hpid) hlen hfa
  have hd : decrypt C aux keys (some sid) packet = .err .cannotDecrypt := by
    simp only [decrypt]
    rw [if_neg (by rw [containerHeadersSize]; omega), decryptPacketID_eq C aux packet ha]
    simp only [a.1, b.1]
  refine ⟨?_, hd⟩
  simp only [decryptTrace]
  rw [if_neg (by rw [containerHeadersSize]; omega), decryptPacketID_eq C aux packet ha]
  simp only [hd, a.1, a.2, b.2, refusal, List.length_drop, List.append_nil]

/-! ## What does not hold -/

/-- The packet `p` with another checksum of the messages and other messages. -/
def forged (p tag body : Bytes) : Bytes := p.take 24 ++ (tag ++ ((p.drop 40).take 4 ++ body))

theorem forged_self (p : Bytes) : forged p ((p.drop 24).take 16) (p.drop 44) = p := by
  simp only [forged]
  have h1 : (p.drop 40).take 4 ++ p.drop 44 = p.drop 40 := by
    have := List.take_append_drop 4 (p.drop 40)
    rw [List.drop_drop] at this
    exact this
  have h2 : (p.drop 24).take 16 ++ p.drop 40 = p.drop 24 := by
    have := List.take_append_drop 16 (p.drop 24)
    rw [List.drop_drop] at this
    exact this
  rw [h1, h2, List.take_append_drop]

theorem accepted_length {C : Crypto} {aux : Option Bytes} {keys : List (Option Bytes)}
    {remote : Option SessID} {p : Bytes} {r : ContainerHdr × Bytes}
    (h : decrypt C aux keys remote p = .ok r) : 44 ≤ p.length := by
  rcases Nat.lt_or_ge p.length 44 with hl | hl
  · rw [decrypt, if_pos (by rw [containerHeadersSize]; exact hl)] at h; cases h
  · exact hl

/-- The facts behind both theorems. -/
theorem forged_leaks (C : Crypto) (w n : Nat) (aux : Option Bytes) (keys : List (Option Bytes))
    (remote : Option SessID) (p body : Bytes) (r0 : ContainerHdr × Bytes)
    (h0 : decrypt C aux keys remote p = .ok r0) :
    ∃ ks tag pre, ∃ hdr : Bytes → ContainerHdr, tag.length = 16 ∧ r0.2 = xorStream ks 36 (p.drop 44) ∧
      (∀ mc, (hdr mc).packetID = r0.1.packetID) ∧
      ∀ mc : Bytes, mc.length = 16 →
        decrypt C aux keys remote (forged p mc body) =
          (if mc = tag then .ok (hdr mc, xorStream ks 36 body) else .err .invalidChecksum) ∧
        decryptTrace C w n aux keys remote (forged p mc body) =
          pre ++ .compare (compareSteps w n tag mc) :: (if mc = tag then [.deliver] else []) := by
  have hl := accepted_length h0
  have hp := forged_self p
  rw [← hp] at h0
  obtain ⟨ks, tag, pre, hdr, a, b, -, d, e⟩ := decrypt_leaks C w n aux keys remote (p.take 24)
    ((p.drop 40).take 4) ((p.drop 24).take 16) (p.drop 44) body (by simp; omega) (by simp; omega)
    (by simp; omega) r0 h0
  exact ⟨ks, tag, pre, hdr, a, b, d, e⟩

/-- C146 is violated, for every cipher, every checksum function and every session: a packet which the
receiver would accept can be given two wrong checksums of the messages, such that both packets are
refused with the same error, but the second one takes longer.  (`w` bytes are compared at a time.) -/
theorem C146_violated (C : Crypto) (w n : Nat) (hw : w * (n + 2) = 16) (aux : Option Bytes)
    (keys : List (Option Bytes)) (remote : Option SessID) (cost : Op → Nat)
    (hc : ∀ i j, i < j → cost (.compare i) < cost (.compare j))
    (p : Bytes) (r0 : ContainerHdr × Bytes) (h0 : decrypt C aux keys remote p = .ok r0) :
    ∃ t1 t2 : Bytes, t1.length = 16 ∧ t2.length = 16 ∧
      decrypt C aux keys remote (forged p t1 (p.drop 44)) = .err .invalidChecksum ∧
      decrypt C aux keys remote (forged p t2 (p.drop 44)) = .err .invalidChecksum ∧
      time cost (decryptTrace C w (n + 2) aux keys remote (forged p t1 (p.drop 44))) <
        time cost (decryptTrace C w (n + 2) aux keys remote (forged p t2 (p.drop 44))) := by
  obtain ⟨ks, tag, pre, hdr, ht, -, -, h⟩ := forged_leaks C w (n + 2) aux keys remote p (p.drop 44) r0 h0
  have hw0 : 0 < w := Nat.pos_of_ne_zero (by rintro rfl; omega)
  have hw16 : w < 16 := by
    have : w * (n + 2) = w * n + w + w := by rw [Nat.mul_add]; omega
    omega
  -- the first word wrong; only the last byte wrong
  obtain ⟨z, hz⟩ : ∃ z, tag.drop 15 = [z] := List.length_eq_one_iff.mp (by simp [ht])
  let t1 : Bytes := tag.take 0 ++ ((tag.headD 0) ^^^ 1) :: tag.tail
  let t2 : Bytes := tag.take 15 ++ [z ^^^ 1]
  obtain ⟨x, xs, hx⟩ : ∃ x xs, tag = x :: xs := by
    cases tag with
    | nil => simp at ht
    | cons x xs => exact ⟨x, xs, rfl⟩
  have hflip : ∀ x : Byte, x ^^^ 1 ≠ x := by decide +kernel
  have l1 : t1.length = 16 := by simp only [t1, hx]; simp; simpa [hx] using ht
  have l2 : t2.length = 16 := by simp only [t2]; simp; omega
  have e1 : t1.take w ≠ tag.take w := by
    obtain ⟨v, rfl⟩ : ∃ v, w = v + 1 := ⟨w - 1, by omega⟩
    simp only [t1, hx, List.take_zero, List.nil_append, List.headD_cons, List.tail_cons,
      List.take_succ_cons, ne_eq, List.cons.injEq, not_and]
    exact fun e => absurd e (hflip x)
  have e2 : t2 ≠ tag := by
    intro e
    have h1 : tag = tag.take 15 ++ [z] := by rw [← hz, List.take_append_drop]
    have h2 : tag.take 15 ++ [z ^^^ 1] = tag.take 15 ++ [z] := by rw [← h1]; exact e
    have := List.append_cancel_left h2
    simp only [List.cons.injEq, and_true] at this
    exact hflip z this
  have e3 : t2.take w = tag.take w := by
    simp only [t2]
    rw [List.take_append_of_le_length (by simp; omega), List.take_take, Nat.min_eq_left (by omega)]
  have e1' : t1 ≠ tag := fun e => e1 (by rw [e])
  obtain ⟨a1, a2⟩ := h t1 l1
  obtain ⟨b1, b2⟩ := h t2 l2
  rw [if_neg e1'] at a1 a2
  rw [if_neg e2] at b1 b2
  refine ⟨t1, t2, l1, l2, a1, b1, ?_⟩
  have s1 : compareSteps w (n + 2) tag t1 = 1 := by
    simp only [compareSteps]; rw [if_neg (fun e => e1 e.symm)]
  have s2 : 1 < compareSteps w (n + 2) tag t2 := by
    simp only [compareSteps, e3, if_true]
    split <;> omega
  have := hc _ _ s2
  rw [a2, b2, s1]
  simp only [time, List.map_append, List.map_cons, List.map_nil, List.sum_append, List.sum_cons,
    List.sum_nil]
  omega

/-- C146, what can be done with it: somebody who has no key, but holds back one packet `p` which the
receiver would accept, and measures how long the receiver takes, finds a checksum for any messages of
their choice (enciphered: `body`) with `n * 256^w` packets; without the clock it would be `256^16`.
The search sees nothing but the time. -/
theorem C146_forgery (C : Crypto) (w n : Nat) (hw : w * n = 16) (aux : Option Bytes)
    (keys : List (Option Bytes)) (remote : Option SessID) (cost : Op → Nat)
    (hc : ∀ i j, i < j → cost (.compare i) < cost (.compare j)) (hd : 0 < cost .deliver)
    (p : Bytes) (r0 : ContainerHdr × Bytes) (h0 : decrypt C aux keys remote p = .ok r0) (body : Bytes) :
    let ask := fun tag => time cost (decryptTrace C w n aux keys remote (forged p tag body))
    let found := search ask w n []
    found.1.length = n * 256 ^ w ∧ found.2 ∈ found.1 ∧
    ∃ ks h, r0.2 = xorStream ks 36 (p.drop 44) ∧ h.packetID = r0.1.packetID ∧
      decrypt C aux keys remote (forged p found.2 body) = .ok (h, xorStream ks 36 body) := by
  obtain ⟨ks, tag, pre, hdr, ht, hr, hid, h⟩ := forged_leaks C w n aux keys remote p body r0 h0
  intro ask found
  have hask : ∀ t t', t.length = w * n → t'.length = w * n →
      score w n tag t < score w n tag t' → ask t < ask t' := by
    intro t t' l l' hs
    have a := (h t (by omega)).2
    have b := (h t' (by omega)).2
    have mono : ∀ i j, i ≤ j → cost (.compare i) ≤ cost (.compare j) := by
      intro i j hij
      rcases Nat.lt_or_ge i j with hlt | hge
      · exact Nat.le_of_lt (hc i j hlt)
      · rw [Nat.le_antisymm hij hge]; exact Nat.le_refl _
    simp only [ask, a, b, time, List.map_append, List.map_cons, List.sum_append, List.sum_cons]
    simp only [score] at hs
    have full : compareSteps w n tag tag = n := by
      have := compareSteps_app w n 0 tag [] [] (by omega)
      simpa [compareSteps] using this
    have le := compareSteps_le w n tag t
    by_cases h1 : t = tag
    · subst h1
      rw [if_pos rfl, full] at hs
      have := compareSteps_le w n t t'
      split at hs
      · rename_i e; subst e; omega
      · omega
    · rw [if_neg h1] at hs ⊢
      by_cases h2 : t' = tag
      · subst h2
        rw [full, if_pos rfl]
        have := mono _ _ le
        simp
        omega
      · rw [if_neg h2] at hs ⊢
        have := hc _ _ (show compareSteps w n tag t < compareSteps w n tag t' by omega)
        simp
        omega
  have hf := search_finds ask w n tag (by omega) hask n 0 (by omega) [] tag (by simp) (by simp)
  have hn : 0 < n := Nat.pos_of_ne_zero (by rintro rfl; omega)
  refine ⟨search_count _ _ _ _, ?_, ks, hdr tag, hr, hid tag, ?_⟩
  · show found.2 ∈ found.1
    rw [show found.2 = tag from hf.1]; exact hf.2 hn
  · rw [show found.2 = tag from hf.1, (h tag ht).1, if_pos rfl]

/-- If the contents of the packet held back are known, `body` can be chosen such that the receiver gets
exactly the messages wanted. -/
theorem C146_chosen (C : Crypto) (w n : Nat) (hw : w * n = 16) (aux : Option Bytes)
    (keys : List (Option Bytes)) (remote : Option SessID) (cost : Op → Nat)
    (hc : ∀ i j, i < j → cost (.compare i) < cost (.compare j)) (hd : 0 < cost .deliver)
    (p : Bytes) (r0 : ContainerHdr × Bytes) (h0 : decrypt C aux keys remote p = .ok r0)
    (want : Bytes) (hl : want.length = r0.2.length) :
    let body := xorBytes (xorBytes (p.drop 44) r0.2) want
    let ask := fun tag => time cost (decryptTrace C w n aux keys remote (forged p tag body))
    ∃ h, decrypt C aux keys remote (forged p (search ask w n []).2 body) = .ok (h, want) := by
  intro body ask
  obtain ⟨-, -, ks, h, hr, -, e⟩ := C146_forgery C w n hw aux keys remote cost hc hd p r0 h0 body
  refine ⟨h, ?_⟩
  rw [e]
  congr 2
  have aux2 : ∀ (i : Nat) (a b : Bytes), b.length = a.length →
      xorStream ks i (xorBytes (xorBytes a (xorStream ks i a)) b) = b := by
    intro i a
    induction a generalizing i with
    | nil => intro b hb; have := List.eq_nil_of_length_eq_zero hb; subst this; rfl
    | cons x xs ih =>
      intro b hb
      cases b with
      | nil => simp at hb
      | cons y ys =>
        have := ih (i + 1) ys (by simpa using hb)
        simp only [xorBytes] at this ⊢
        simp only [xorStream, List.zipWith_cons_cons, this, List.cons.injEq, and_true]
        rw [← BitVec.xor_assoc x x, BitVec.xor_self, BitVec.zero_xor, BitVec.xor_comm (ks i) y,
          BitVec.xor_assoc, BitVec.xor_self, BitVec.xor_zero]
  simp only [body, hr]
  exact aux2 36 _ _ (by rw [hl, hr, xorStream_length])

/-! ## Examples -/

/-- Functions for the examples. -/
def toy : Crypto :=
  { keyStream := fun _ _ i => BitVec.ofNat 8 (i * 7 + 3), poly := fun _ m => List.replicate 16 (BitVec.ofNat 8 m.length),
    blake3 := fun x => x, poly_length := fun _ _ => by simp }

/-- A packet of the example session. -/
def toyPacket : Bytes := (sealPacket toy none (some (List.replicate 32 9)) ⟨1, 2⟩ true 5 [10, 20, 30]).getD []

/-- The hypotheses are met, and the search of `C146_forgery` with words of one byte. -/
example : decrypt toy none [some (List.replicate 32 9)] (some ⟨1, 2⟩) toyPacket =
    .ok (containerSet toy (some (List.replicate 32 9)) (packetIDBytes 5) [10, 20, 30], [10, 20, 30]) := by
  decide +kernel

/-- A cost as the theorems ask for. -/
def unit : Op → Nat
  | .cipher k => k
  | .mac k => k
  | .compare k => k
  | .deliver => 1

example : (∀ i j, i < j → unit (.compare i) < unit (.compare j)) ∧ 0 < unit .deliver :=
  ⟨fun _ _ h => h, by decide⟩

/-- The times for three checksums: wrong from the first byte, wrong in the last one, right. -/
example :
    let t := (toyPacket.drop 24).take 16
    let ask := fun tag => decryptTrace toy 1 16 none [some (List.replicate 32 9)] (some ⟨1, 2⟩)
      (forged toyPacket tag (toyPacket.drop 44))
    ask ((t.headD 0 ^^^ 1) :: t.tail) = [.cipher 8, .cipher 39, .mac 4, .compare 16, .mac 3, .compare 1] ∧
    ask (t.take 15 ++ [t.getLastD 0 ^^^ 1]) =
      [.cipher 8, .cipher 39, .mac 4, .compare 16, .mac 3, .compare 16] ∧
    ask t = [.cipher 8, .cipher 39, .mac 4, .compare 16, .mac 3, .compare 16, .deliver] := by
  decide +kernel

/-- With words of 8 bytes, as on amd64, the two halves of the checksum are still told apart. -/
example :
    let t := (toyPacket.drop 24).take 16
    let ask := fun tag => decryptTrace toy 8 2 none [some (List.replicate 32 9)] (some ⟨1, 2⟩)
      (forged toyPacket tag (toyPacket.drop 44))
    ask ((t.headD 0 ^^^ 1) :: t.tail) = [.cipher 8, .cipher 39, .mac 4, .compare 2, .mac 3, .compare 1] ∧
    ask (t.take 15 ++ [t.getLastD 0 ^^^ 1]) =
      [.cipher 8, .cipher 39, .mac 4, .compare 2, .mac 3, .compare 2] := by
  decide +kernel

/-- A packet of somebody without the key meets the hypotheses of `C146_partial`. -/
example : decryptTrace toy 1 16 none [none, some (List.replicate 32 9)] (some ⟨1, 2⟩) (List.replicate 60 1)
      = refusal 60 [none, some (List.replicate 32 9)] ∧
    FarOff toy 1 (some (List.replicate 32 9)) (List.replicate 8 1) ((⟨1, 2⟩ : SessID).bytes ++ List.replicate 8 1)
      (List.replicate 52 1) ∧
    FarOff toy 1 none (List.replicate 8 1) (List.replicate 8 1) (List.replicate 52 1) := by
  refine ⟨by decide +kernel, ?_, ?_⟩ <;> (simp only [FarOff]; decide +kernel)

#print axioms C146_partial
#print axioms C146_violated
#print axioms C146_forgery
#print axioms C146_chosen

end Verif.Timing
