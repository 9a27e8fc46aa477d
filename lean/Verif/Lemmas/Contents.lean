import Verif.Lemmas.Packet
import Verif.Spec.Contents
namespace Verif.Contents
open Verif.Packet Verif.Headers

theorem plainPacket_length (C : Crypto) (key : Option Bytes) (pid : W64) (m : Bytes) :
    (plainPacket C key (packetIDBytes pid) m).length = 44 + m.length := by
  simp only [plainPacket, containerSet, headersChecksum, messagesChecksum, List.length_append,
    C.poly_length, putLE_length, packetIDBytes]

/-- The messages stand at the end of the plain text. -/
theorem plainPacket_drop (C : Crypto) (key : Option Bytes) (pid : W64) (m : Bytes) :
    (plainPacket C key (packetIDBytes pid) m).drop 44 = m := by
  have h : ∀ a : Bytes, a.length = 44 → (a ++ m).drop 44 = m := by
    intro a ha; rw [← ha]; exact List.drop_left
  simp only [plainPacket]
  apply h
  simp only [containerSet, headersChecksum, messagesChecksum, List.length_append,
    C.poly_length, putLE_length, packetIDBytes]

theorem xorStream_swap (ks ks' : Nat → Byte) (a b : Bytes) (i : Nat) (hl : a.length = b.length)
    (h : ∀ j, j < a.length → ks' (i + j) = ks (i + j) ^^^ a.getD j 0 ^^^ b.getD j 0) :
    xorStream ks' i b = xorStream ks i a := by
  induction a generalizing b i with
  | nil => cases b with
    | nil => rfl
    | cons y ys => simp at hl
  | cons x xs ih =>
    cases b with
    | nil => simp at hl
    | cons y ys =>
      have h0 := h 0 (by simp)
      simp only [Nat.add_zero, List.getD_cons_zero] at h0
      have := ih ys (i + 1) (by simpa using hl) (fun j hj => by
        have := h (j + 1) (by simpa using hj)
        simpa [Nat.add_assoc, Nat.add_comm 1 j] using this)
      simp only [xorStream, this, h0]
      congr 1
      have e : y ^^^ (ks i ^^^ x ^^^ y) = y ^^^ y ^^^ (x ^^^ ks i) := by
        ac_rfl
      rw [e]; simp

/-- The plain text that is encrypted: everything but the packet ID. -/
def body (C : Crypto) (key : Bytes) (pid : W64) (m : Bytes) : Bytes :=
  (plainPacket C (some key) (packetIDBytes pid) m).drop 8

theorem body_length (C : Crypto) (key : Bytes) (pid : W64) (m : Bytes) :
    (body C key pid m).length = 36 + m.length := by
  simp only [body, List.length_drop, plainPacket_length]; omega

/-- The nonce of a packet. -/
def Sent.iv (p : Sent) : Bytes := sendIV p.session p.confidential (packetIDBytes p.id)

theorem iv_length (p : Sent) : p.iv.length = 8 ∨ p.iv.length = 12 ∨ p.iv.length = 24 := by
  simp only [Sent.iv]
  cases p.confidential
  · exact .inl (putLE_length _ _)
  · right; right; simp [sendIV, SessID.bytes, putLE_length, packetIDBytes]

/-- What is sent, written out. -/
theorem seal_eq (C : Crypto) (aux : Option Bytes) (p : Sent) (m : Bytes) (hk : p.key.length = 32)
    (ha : KeyOK aux) :
    sealPacket C aux (some p.key) p.session p.confidential p.id m =
      some ((match aux with
        | none => packetIDBytes p.id
        | some a => xorStream (C.keyStream a emptyIV) 0 (packetIDBytes p.id)) ++
        xorStream (C.keyStream p.key p.iv) 0 (body C p.key p.id m)) := by
  have h1 : crypt C p.key (sendIV p.session p.confidential (packetIDBytes p.id))
      ((plainPacket C (some p.key) (packetIDBytes p.id) m).drop 8) =
      some (xorStream (C.keyStream p.key p.iv) 0 (body C p.key p.id m)) := crypt_some hk (iv_length p) _
  cases aux with
  | none => simp only [sealPacket, h1]
  | some a => simp only [sealPacket, h1, crypt_some (ha a rfl) (.inr (.inr emptyIV_length))]

/-- The key stream under which the other contents look like the actual ones. -/
def swapped (C : Crypto) (l : List Sent) (k iv : Bytes) (i : Nat) : Byte :=
  match l.find? (fun p => decide (p.key = k ∧ p.iv = iv)) with
  | none => C.keyStream k iv i
  | some p => C.keyStream k iv i ^^^ (body C k p.id p.actual).getD i 0 ^^^ (body C k p.id p.other).getD i 0

theorem find_self (l : List Sent) (h : l.Pairwise (fun p q => (p.key, p.iv) ≠ (q.key, q.iv))) (p : Sent)
    (hp : p ∈ l) : l.find? (fun q => decide (q.key = p.key ∧ q.iv = p.iv)) = some p := by
  induction l with
  | nil => cases hp
  | cons x xs ih =>
    rw [List.pairwise_cons] at h
    rcases List.mem_cons.1 hp with rfl | hp
    · simp
    · have := h.1 p hp
      have hne : ¬ (x.key = p.key ∧ x.iv = p.iv) := fun e => this (by rw [e.1, e.2])
      rw [List.find?_cons_of_neg (by simpa using hne)]
      exact ih h.2 hp

end Verif.Contents
