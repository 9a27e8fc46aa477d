import Verif.Lemmas.Contents
import Verif.Props.Packet
/-! # Property theorems C178: what an observer of the packets learns about their contents -/
namespace Verif.Contents
open Verif.Packet Verif.Headers

/-- C178, as far as it holds: if no two packets are sealed with the same key and nonce (and none with the
key and nonce the packet IDs are encrypted with), then nothing that is sent tells the actual contents from
any others of the same sizes.  The key stream that explains the others differs from the actual one for
the keys and nonces of these packets only.  Missing for the full property: with a PSK, packets of different
sessions and of the two peers share keys and nonces. -/
theorem C178_partial (C : Crypto) (aux : Option Bytes) (ha : KeyOK aux) (l : List Sent)
    (hk : ∀ p ∈ l, p.key.length = 32)
    (hn : l.Pairwise (fun p q => (p.key, sendIV p.session p.confidential (packetIDBytes p.id)) ≠
      (q.key, sendIV q.session q.confidential (packetIDBytes q.id))))
    (hz : ∀ p ∈ l, aux = some p.key → sendIV p.session p.confidential (packetIDBytes p.id) ≠ emptyIV)
    (hs : ∀ p ∈ l, p.other.length = p.actual.length) :
    ∃ ks, seenOther (withStream C ks) aux l = seen C aux l ∧
      ∀ k iv, (∀ p ∈ l, (p.key, sendIV p.session p.confidential (packetIDBytes p.id)) ≠ (k, iv)) →
        ks k iv = C.keyStream k iv := by
  refine ⟨swapped C l, ?_, ?_⟩
  · apply List.map_congr_left
    intro p hp
    rw [seal_eq _ aux p _ (hk p hp) ha, seal_eq C aux p _ (hk p hp) ha]
    have hb : xorStream ((withStream C (swapped C l)).keyStream p.key p.iv) 0
        (body (withStream C (swapped C l)) p.key p.id p.other) =
        xorStream (C.keyStream p.key p.iv) 0 (body C p.key p.id p.actual) := by
      refine xorStream_swap _ _ (body C p.key p.id p.actual) (body C p.key p.id p.other) 0 ?_ ?_
      · rw [body_length, body_length, hs p hp]
      · intro j _
        simp only [withStream, swapped, find_self l hn p hp, Nat.zero_add]
    rw [hb]
    cases aux with
    | none => rfl
    | some a =>
      have : (withStream C (swapped C l)).keyStream a emptyIV = C.keyStream a emptyIV := by
        funext i
        have hf : l.find? (fun q => decide (q.key = a ∧ q.iv = emptyIV)) = none := by
          rw [List.find?_eq_none]
          intro q hq h
          obtain ⟨h1, h2⟩ := of_decide_eq_true h
          exact hz q hq (by rw [h1]) h2
        simp only [withStream, swapped, hf]
      simp only [this]
  · intro k iv h
    funext i
    have hf : l.find? (fun q => decide (q.key = k ∧ q.iv = iv)) = none := by
      rw [List.find?_eq_none]
      intro q hq h'
      obtain ⟨h1, h2⟩ := of_decide_eq_true h'
      exact h q hq (by rw [h1, ← h2]; rfl)
    simp only [swapped, hf]

/-- C178 for everything one session sends that is encrypted with exchanged keys, over all its keys:
with fewer than 2^64 packet ID requests, whatever keys and messages the packets have, an observer learns
the number of packets, their IDs and sizes at most. -/
theorem C178_session_partial (C : Crypto) (aux : Option Bytes) (ha : KeyOK aux) (s : SessID)
    (hs : s ≠ ⟨0, 0⟩) (ts : List Taker) (ht : ts.length < 2 ^ 64) (key actual other : W64 → Bytes)
    (hk : ∀ i, (key i).length = 32) (hl : ∀ i, (other i).length = (actual i).length) :
    Hidden C aux (((takeIDs 0 ts).filter (fun x => x.1 = .send true)).map
      (fun x => ⟨key x.2, s, true, x.2, actual x.2, other x.2⟩)) := by
  have key : ∀ l : List Sent, l = ((takeIDs 0 ts).filter (fun x => x.1 = .send true)).map
      (fun x => ⟨key x.2, s, true, x.2, actual x.2, other x.2⟩) → Hidden C aux l := by
    rintro l rfl
    refine (C178_partial C aux ha _ ?_ ?_ ?_ ?_).imp fun _ h => h.1
    · intro p hp
      obtain ⟨x, -, rfl⟩ := List.mem_map.1 hp
      exact hk _
    · rw [List.pairwise_map]
      apply List.Pairwise.imp _ ((takeIDs_nodup ts 0 ht).filter _)
      intro x y hxy he
      exact hxy (sendIV_inj s s _ _ (Prod.mk.inj he).2).2
    · intro p hp _ he
      obtain ⟨x, -, rfl⟩ := List.mem_map.1 hp
      have h0 : emptyIV = sendIV ⟨0, 0⟩ true (packetIDBytes 0) := by decide +kernel
      exact hs (sendIV_inj s _ _ _ (he.trans h0)).1
    · intro p hp
      obtain ⟨x, -, rfl⟩ := List.mem_map.1 hp
      exact hl _
  exact key _ rfl

/-- The sizes are not hidden: a packet is 44 bytes longer than its messages. -/
theorem C178_sizes (C : Crypto) (aux : Option Bytes) (ha : KeyOK aux) (p : Sent)
    (hk : p.key.length = 32) :
    ∃ pkt, seen C aux [p] = [some pkt] ∧ pkt.length = p.actual.length + 44 := by
  obtain ⟨pkt, h, hl, -⟩ := seal_spec C aux (some p.key) p.session p.confidential p.id p.actual ha
    (fun b hb => by cases hb; exact hk) (fun h => by cases h)
  exact ⟨pkt, by simp [seen, h], hl⟩

/-- C178 is violated by packets under the auxiliary key: of two packets with the same packet ID, of any two
sessions with the same PSK (or the two peers), each byte of the contents of the one follows from the same
byte of the other and the two packets.  So who knows the contents of one (its identity key, say) reads
the other. -/
theorem C178_violated (C : Crypto) (a : Bytes) (ha : a.length = 32) (s t : SessID) (pid : W64)
    (m1 m2 p1 p2 : Bytes)
    (h1 : sealPacket C (some a) (some a) s false pid m1 = some p1)
    (h2 : sealPacket C (some a) (some a) t false pid m2 = some p2) (i : Nat) (hi1 : i < m1.length)
    (hi2 : i < m2.length) :
    m2.getD i 0 = p1.getD (44 + i) 0 ^^^ p2.getD (44 + i) 0 ^^^ m1.getD i 0 := by
  have hd : ∀ (m p : Bytes) (s : SessID), sealPacket C (some a) (some a) s false pid m = some p →
      i < m.length → p.getD (44 + i) 0 = m.getD i 0 ^^^ C.keyStream a (packetIDBytes pid) (36 + i) := by
    intro m p s h hi
    have e := seal_eq C (some a) ⟨a, s, false, pid, m, []⟩ m ha (fun b hb => by cases hb; exact ha)
    rw [show sealPacket C (some a) (some a) s false pid m = _ from e] at h
    injection h with h
    subst h
    have hx : ∀ (ks : Nat → Byte) (b : Bytes) (n j : Nat), j < b.length →
        (xorStream ks n b).getD j 0 = b.getD j 0 ^^^ ks (n + j) := by
      intro ks b
      induction b with
      | nil => intro n j hj; simp at hj
      | cons y ys ih =>
        intro n j hj
        cases j with
        | zero => simp [xorStream]
        | succ j =>
          have := ih (n + 1) j (by simpa using hj)
          simp only [xorStream, List.getD_cons_succ, this]
          rw [show n + 1 + j = n + (j + 1) by omega]
    have hl : (xorStream (C.keyStream a emptyIV) 0 (packetIDBytes pid)).length = 8 := by
      rw [xorStream_length]; exact putLE_length _ _
    simp only [List.getD_eq_getElem?_getD] at hx ⊢
    rw [List.getElem?_append_right (by rw [hl]; omega), hl, show 44 + i - 8 = 36 + i by omega,
      hx _ _ _ _ (by rw [body_length]; omega)]
    have hb : (body C a pid m)[36 + i]? = m[i]? := by
      rw [body, List.getElem?_drop, show 8 + (36 + i) = 44 + i by omega]
      conv => rhs; rw [← plainPacket_drop C (some a) pid m]
      rw [List.getElem?_drop]
    rw [hb, Nat.zero_add]; rfl
  rw [hd m1 p1 s h1 hi1, hd m2 p2 t h2 hi2]
  generalize m1.getD i 0 = x; generalize m2.getD i 0 = y
  generalize C.keyStream a _ _ = z
  have e : x ^^^ z ^^^ (y ^^^ z) ^^^ x = (x ^^^ x) ^^^ (z ^^^ z) ^^^ y := by ac_rfl
  rw [e]; simp

/-- So the contents are not hidden: if two sessions with one PSK send the same first packet, this is
seen, whatever the key stream is. -/
theorem C178_violated_hidden (C : Crypto) (a : Bytes) (ha : a.length = 32) (s t : SessID) (pid : W64) :
    ¬ Hidden C (some a) [⟨a, s, false, pid, [0], [0]⟩, ⟨a, t, false, pid, [0], [1]⟩] := by
  intro ⟨ks, h⟩
  simp only [seenOther, seen, List.map_cons, List.map_nil, List.cons.injEq, and_true] at h
  have hk : KeyOK (some a) := fun b hb => by cases hb; exact ha
  obtain ⟨p1, h1, -⟩ := seal_spec C (some a) (some a) s false pid [0] hk hk id
  obtain ⟨p2, h2, -⟩ := seal_spec C (some a) (some a) t false pid [0] hk hk id
  have e1 := C178_violated C a ha s t pid [0] [0] p1 p2 h1 h2 0 (by simp) (by simp)
  have e2 := C178_violated (withStream C ks) a ha s t pid [0] [1] p1 p2 (h.1.trans h1) (h.2.trans h2) 0
    (by simp) (by simp)
  rw [← show ([0] : Bytes).getD 0 0 = _ from e1] at e2
  exact absurd e2 (by decide)

/-- Nor are the packet IDs, which are encrypted if there is a PSK: as the first packet of a session has the
ID 1 (C151), who has seen it and any other packet of any session with this PSK knows the ID of the
other. -/
theorem C178_violated_ids (C : Crypto) (a : Bytes) (ha : a.length = 32) (s t : SessID) (c1 c2 : Bool)
    (k1 k2 : Bytes) (hk1 : k1.length = 32) (hk2 : k2.length = 32) (pid : W64) (m1 m2 p1 p2 : Bytes)
    (h1 : sealPacket C (some a) (some k1) s c1 1 m1 = some p1)
    (h2 : sealPacket C (some a) (some k2) t c2 pid m2 = some p2) :
    packetIDBytes pid = xorBytes (xorBytes (p1.take 8) (p2.take 8)) (packetIDBytes 1) := by
  rw [C17_violated_packet_ids C a ha s t c1 c2 k1 k2 hk1 hk2 1 pid m1 m2 p1 p2 h1 h2]
  have hl : (packetIDBytes 1).length = (packetIDBytes pid).length := by
    simp [packetIDBytes, putLE_length]
  generalize packetIDBytes 1 = x at hl ⊢
  generalize packetIDBytes pid = y at hl ⊢
  induction x generalizing y with
  | nil => cases y with
    | nil => rfl
    | cons b bs => simp at hl
  | cons c cs ih => cases y with
    | nil => simp at hl
    | cons b bs =>
      have := ih bs (by simpa using hl)
      simp only [xorBytes, List.zipWith_cons_cons, List.cons.injEq] at this ⊢
      refine ⟨?_, this⟩
      have e : c ^^^ b ^^^ c = (c ^^^ c) ^^^ b := by ac_rfl
      rw [e]; simp

/-- The hypotheses of `C178_partial` can be met, with two keys, a PSK, and packets of both kinds. -/
example : ∃ ks, seenOther (withStream toy ks) (some (List.replicate 32 9))
      [⟨List.replicate 32 9, ⟨1, 2⟩, false, 1, [1, 2], [3, 4]⟩, ⟨List.replicate 32 5, ⟨1, 2⟩, true, 2, [7], [8]⟩,
        ⟨List.replicate 32 6, ⟨1, 2⟩, true, 3, [], []⟩] =
    seen toy (some (List.replicate 32 9))
      [⟨List.replicate 32 9, ⟨1, 2⟩, false, 1, [1, 2], [3, 4]⟩, ⟨List.replicate 32 5, ⟨1, 2⟩, true, 2, [7], [8]⟩,
        ⟨List.replicate 32 6, ⟨1, 2⟩, true, 3, [], []⟩] := by
  obtain ⟨ks, h, -⟩ := C178_partial toy (some (List.replicate 32 9)) (fun b hb => by cases hb; rfl)
    [⟨List.replicate 32 9, ⟨1, 2⟩, false, 1, [1, 2], [3, 4]⟩, ⟨List.replicate 32 5, ⟨1, 2⟩, true, 2, [7], [8]⟩,
        ⟨List.replicate 32 6, ⟨1, 2⟩, true, 3, [], []⟩] (by decide +kernel) (by decide +kernel)
    (by decide +kernel) (by decide +kernel)
  exact ⟨ks, h⟩

/-- Two first packets of sessions with one PSK: the second content is read off. -/
example :
    (match sealPacket toy (some (List.replicate 32 9)) (some (List.replicate 32 9)) ⟨1, 2⟩ false 1 [1, 2],
        sealPacket toy (some (List.replicate 32 9)) (some (List.replicate 32 9)) ⟨3, 4⟩ false 1 [7, 8] with
      | some p, some q => (xorBytes (xorBytes (p.drop 44) (q.drop 44)) [1, 2] == [7, 8]) &&
          (p.take 8 == q.take 8) && (p.take 8 != packetIDBytes 1)
      | _, _ => false) = true := by decide +kernel

#print axioms C178_partial
#print axioms C178_session_partial
#print axioms C178_sizes
#print axioms C178_violated
#print axioms C178_violated_hidden
#print axioms C178_violated_ids

end Verif.Contents
