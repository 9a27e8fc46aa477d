import Verif.Model.ClosedWrite
import Verif.Props.SizeChange
/-!
# C142: a write to a closed session fails with ErrAlreadyClosed
-/
namespace Verif.ClosedWrite
open Verif.Send Verif.Headers

/-- C142 for the result of a call: it fails, and every error says that the session is closed. -/
def SaysClosed (r : Res) : Prop := ∃ es, r = .errs es ∧ es ≠ [] ∧ ∀ e ∈ es, e = .alreadyClosed

/-- An application message. -/
def Ordinary (t : W32) : Prop := t ≠ typeKeyExchange ∧ t ≠ typeNegotiation

theorem ordinary_internal {t : W32} (h : Ordinary t) : isInternal t = false := by
  simp [isInternal, h.1, h.2]

theorem ordinary_flags {t : W32} (h : Ordinary t) : setIsConfidential 0 (t != typeKeyExchange) = 1 := by
  have : (t != typeKeyExchange) = true := by simp [h.1]
  rw [this]; decide

/-- C142 (restriction that holds): in a session that never was Established, for a message that is not bigger than the limit, if
messages are delayed or the session had keys.
Missing for the full C142: see the four negations. -/
theorem C142_partial {s : Sess} (he : s.established = false) (hk : s.delay = true ∨ s.keys = true) (c : Choices) (tries : Nat) {t : W32}
    (ht : Ordinary t) {p : Bytes} (hp : p.length ≤ s.size.toNat) : SaysClosed (writeMessage s c tries t p) := by
  have hl : len32 p = p.length := Nat.mod_eq_of_lt (by have := s.size.isLt; omega)
  refine ⟨[.alreadyClosed], ?_, by simp, by simp⟩
  unfold writeMessage
  rw [if_neg (by rw [hl]; omega)]
  simp only [ordinary_flags ht, ordinary_internal ht, he]
  have hc : isConfidential 1#8 = true := by decide
  cases hd : s.delay
  · rw [hd] at hk
    have hk : s.keys = true := by rcases hk with h | h; cases h; exact h
    simp [sendMessages, single, hk, ordinary_internal ht, he]
  · simp [hc]

/-- C142, what holds without a delay: a write of a message that need not be fragmented fails in any case, also `WriteMessageSingle`. -/
theorem C142_fails_partial {s : Sess} (hd : s.delay = false) (c : Choices) (tries : Nat) {t : W32} (ht : Ordinary t) {p : Bytes}
    (hp : p.length ≤ s.size.toNat ∨ s.fragmentation = false ∧ p.length < 2 ^ 32) :
    (∃ e, writeMessage s c tries t p = .errs [e]) ∧ (∃ e, writeMessageSingle s c t p = .errs [e]) := by
  refine ⟨?_, _, rfl⟩
  unfold writeMessage
  split
  · rename_i h
    rcases hp with hp | ⟨hf, hp⟩
    · have hl : len32 p = p.length := Nat.mod_eq_of_lt (by have := s.size.isLt; omega)
      rw [hl] at h; omega
    · rw [if_pos (by simp [hf])]; exact ⟨_, rfl⟩
  · simp only [hd]
    simp

/-- Negation of C142: with a delay, every message that fits is accepted by a session that was Established: the write succeeds,
and nobody will ever send the message. -/
theorem C142_violated_success {s : Sess} (hd : s.delay = true) (he : s.established = true) (hb : s.buf = 0) (hs : s.size.toNat + 53 < 2 ^ 32)
    {t : W32} (ht : Ordinary t) {p : Bytes} (hp : p.length ≤ s.size.toNat) :
    writeMessage s ⟨fun _ => false, fun _ => false, false⟩ 1 t p = .ok p.length := by
  have hl : len32 p = p.length := Nat.mod_eq_of_lt (by omega)
  have hc : isConfidential 1#8 = true := by decide
  have hps : s.packetSize false = s.size.toNat + 53 := by
    simp only [Sess.packetSize, Sess.read, he, containerHeadersSize, messageHeadersSize]; simp; omega
  unfold writeMessage
  rw [if_neg (by rw [hl]; omega)]
  simp only [ordinary_flags ht, ordinary_internal ht, he, hd]
  simp [hc, delayed, hps, hb, containerHeadersSize, messageHeadersSize]
  omega

/-- Negation of C142: the same for a message that has to be fragmented, with and without a delay. -/
theorem C142_violated_fragments {s : Sess} (hf : s.fragmentation = true) {t : W32} (ht : Ordinary t) {p : Bytes}
    (h1 : s.size.toNat < p.length) (h2 : p.length + 24 < 2 ^ 32) :
    writeMessage s ⟨fun _ => true, fun _ => true, true⟩ 1 t p = .ok p.length := by
  have hl : len32 p = p.length := Nat.mod_eq_of_lt (by omega)
  have hr : s.read true = 0 := by simp [Sess.read]
  obtain ⟨fs, hfs, -⟩ := fragmentLoop_covers 0 p.length (2 ^ 32 - 24) (by omega) p.length 0 p (Nat.le_refl _) (by omega)
  have hfr : fragments ⟨0, true, s.delay⟩ 0 p = some fs := by
    have : ((0 : W32) - BitVec.ofNat 32 fragmentHeadersSize).toNat = 2 ^ 32 - 24 := by decide
    simp only [fragments, this]; exact hfs
  unfold writeMessage
  rw [if_pos ⟨by rw [hl]; exact h1, by simp [ordinary_internal ht]⟩, if_neg (by simp [hf])]
  simp only [hr, hfr]
  rfl

/-- Negation of C142: a message that fits is refused because of its size: `GetEstablishedPacketSize` is 53 then. -/
theorem C142_violated_size {s : Sess} (he : s.established = true) (hk : s.keys = true) (hb : s.buf = 0)
    {t : W32} (ht : Ordinary t) {p : Bytes} (hp : p.length ≤ s.size.toNat) (hn : p ≠ []) (h2 : p.length + 53 < 2 ^ 32) :
    writeMessage s ⟨fun _ => false, fun _ => true, false⟩ 1 t p = .errs [.tooBig 53 (53 + p.length)] := by
  have hl : len32 p = p.length := Nat.mod_eq_of_lt (by omega)
  have hc : isConfidential 1#8 = true := by decide
  have hn : 0 < p.length := List.length_pos_iff.mpr hn
  have hps : s.packetSize true = 53 := by simp [Sess.packetSize, Sess.read, containerHeadersSize, messageHeadersSize]
  unfold writeMessage
  rw [if_neg (by rw [hl]; omega)]
  simp only [ordinary_flags ht, ordinary_internal ht, he]
  cases hd : s.delay
  · have : (containerHeadersSize + len32 (messageBytes t 1 p)) % 2 ^ 32 > 53 := by
      simp only [len32, SizeChange.message_length, containerHeadersSize]; omega
    simp only [sendMessages, single, hk, ordinary_internal ht, he, hps]
    rw [if_pos this]
    simp [SizeChange.message_length, containerHeadersSize]; omega
  · simp [hc, delayed, hps, hb, containerHeadersSize, messageHeadersSize, hn]

/-- Negation of C142: without keys and without a delay the error is another one. -/
theorem C142_violated_keys {s : Sess} (hd : s.delay = false) (hk : s.keys = false) (c : Choices) (tries : Nat)
    {t : W32} (ht : Ordinary t) {p : Bytes} (hp : p.length ≤ s.size.toNat) : writeMessage s c tries t p = .errs [.canceled] := by
  have hl : len32 p = p.length := Nat.mod_eq_of_lt (by have := s.size.isLt; omega)
  have hc : isConfidential 1#8 = true := by decide
  unfold writeMessage
  rw [if_neg (by rw [hl]; omega)]
  simp only [ordinary_flags ht, hd]
  simp [sendMessages, single, hk, hc]

/-- None of these results is what C142 asks for. -/
example : ¬ SaysClosed (.ok 3) ∧ ¬ SaysClosed (.errs [.tooBig 53 56]) ∧ ¬ SaysClosed (.errs [.canceled]) := by
  simp [SaysClosed]

/-- The four negations and the two restrictions for a message of three bytes (five with a size of 4). -/
example : writeMessage ⟨1024, true, true, true, true, 0⟩ ⟨fun _ => false, fun _ => false, false⟩ 1 7 [1, 2, 3] = .ok 3 ∧
    writeMessage ⟨4, true, false, false, false, 0⟩ ⟨fun _ => true, fun _ => true, true⟩ 1 7 [1, 2, 3, 4, 5] = .ok 5 ∧
    writeMessage ⟨4, true, false, false, false, 0⟩ ⟨fun _ => true, fun _ => true, false⟩ 1 7 [1, 2, 3, 4, 5] = .errs [.alreadyClosed] ∧
    writeMessage ⟨1024, true, true, true, true, 0⟩ ⟨fun _ => false, fun _ => true, false⟩ 1 7 [1, 2, 3] = .errs [.tooBig 53 56] ∧
    writeMessage ⟨1024, true, true, true, true, 60⟩ ⟨fun _ => false, fun k => decide (k < 5), false⟩ 9 7 [1, 2, 3] = .ok 3 ∧
    writeMessage ⟨1024, true, false, true, true, 0⟩ ⟨fun _ => false, fun _ => false, false⟩ 1 7 [1, 2, 3] = .errs [.alreadyClosed] ∧
    writeMessage ⟨1024, true, false, false, false, 0⟩ ⟨fun _ => true, fun _ => true, false⟩ 1 7 [1, 2, 3] = .errs [.canceled] ∧
    writeMessage ⟨1024, true, true, false, false, 0⟩ ⟨fun _ => false, fun _ => true, false⟩ 1 7 [1, 2, 3] = .errs [.alreadyClosed] := by
  decide +kernel

example : Ordinary 7 := by constructor <;> decide

#print axioms C142_partial
#print axioms C142_fails_partial
#print axioms C142_violated_success
#print axioms C142_violated_fragments
#print axioms C142_violated_size
#print axioms C142_violated_keys

end Verif.ClosedWrite
