import Verif.Model.Names
import Verif.Props.Codec
/-!
# C124: names
-/
namespace Verif.Names
open Verif.Headers

theorem repr_inj {m n : Nat} (h : Nat.repr m = Nat.repr n) : m = n := by
  have h1 : Nat.toDigits 10 m = Nat.toDigits 10 n := by
    have := congrArg String.toList h
    simpa [Nat.repr] using this
  have h2 := Nat.ofDigitChars_toDigits (b := 10) (n := m) (by decide) (by decide)
  rw [h1, Nat.ofDigitChars_toDigits (by decide) (by decide)] at h2
  exact h2.symm

/-- The names of the channels as they are: shifted by 5, and modulo 256. -/
theorem C124_channel_partial (c : W32) (hc : c.toNat < 0xFFFFFFEC) :
    ∃ t, typeChannel c = some t ∧ messageType t = "channel" ++ Nat.repr ((c.toNat + 5) % 256) := by
  have h1 : (c + 1).toNat = c.toNat + 1 := by
    rw [BitVec.toNat_add]
    show (c.toNat + 1) % _ = _
    omega
  have hA : typeReservedAbove.toNat = 0xFFFFFFED := by decide
  refine ⟨c + 1, ?_, ?_⟩
  · unfold typeChannel
    rw [if_neg]
    intro h
    rw [ge_iff_le, BitVec.le_def, h1, hA] at h
    omega
  · have hne : ∀ t : W32, (t.toNat = 0 ∨ 0xFFFFFFED ≤ t.toNat) → c + 1 ≠ t := by
      intro t ht e
      rw [← e, h1] at ht
      omega
    unfold messageType
    rw [if_neg (hne _ (.inl (by decide))), if_neg (hne _ (.inr (by decide))), if_neg (hne _ (.inr (by decide))), if_pos]
    · congr 2
      rw [BitVec.toNat_setWidth, BitVec.toNat_sub, h1]
      have hr : typeReadWrite.toNat = 0xFFFFFFFC := by decide
      rw [hr]
      omega
    · rw [ge_iff_le, BitVec.le_def, BitVec.lt_def, h1, hA]
      refine ⟨?_, by omega⟩
      show 1 ≤ _
      omega

/-- Channels have the same name exactly if their numbers are equal modulo 256. -/
theorem C124_distinct_partial (c d : W32) (hc : c.toNat < 0xFFFFFFEC) (hd : d.toNat < 0xFFFFFFEC) (tc td : W32)
    (htc : typeChannel c = some tc) (htd : typeChannel d = some td) :
    messageType tc = messageType td ↔ c.toNat % 256 = d.toNat % 256 := by
  obtain ⟨t1, h1, h2⟩ := C124_channel_partial c hc
  obtain ⟨t2, h3, h4⟩ := C124_channel_partial d hd
  rw [htc] at h1; cases h1
  rw [htd] at h3; cases h3
  rw [h2, h4, String.append_right_inj]
  constructor
  · intro h
    have := repr_inj h
    omega
  · intro h
    congr 1
    omega

example : typeChannel 7 = some 8 ∧ messageType 8 = "channel12" := by decide +kernel

/-- **C124 is violated**: no channel has the name of its number. -/
theorem C124_violated (c t : W32) (hc : c.toNat < 0xFFFFFFEC) (ht : typeChannel c = some t) :
    messageType t ≠ "channel" ++ Nat.repr c.toNat := by
  obtain ⟨t1, h1, h2⟩ := C124_channel_partial c hc
  rw [ht] at h1; cases h1
  rw [h2, Ne, String.append_right_inj]
  intro h
  have := repr_inj h
  omega

/-- **C124 is violated**: channels 0 and 256 have the same name, the one that channel 5 should have; and so do the types of
the negotiation and the reserved ones. -/
theorem C124_violated_distinct : typeChannel 0 = some 1 ∧ typeChannel 256 = some 257 ∧ messageType 1 = "channel5" ∧
    messageType 257 = "channel5" ∧ messageType typeNegotiation = messageType typeReservedAbove := by decide +kernel

/-- A channel is not taken for another kind of message. -/
theorem C124_kinds_partial (c t : W32) (hc : c.toNat < 0xFFFFFFEC) (ht : typeChannel c = some t) :
    messageType t ∉ ["undefined", "key_exchange", "read_write", "unknown"] ∧ [messageType typeUndefined, messageType typeKeyExchange,
      messageType typeReadWrite, messageType typeNegotiation].Nodup := by
  obtain ⟨t1, h1, h2⟩ := C124_channel_partial c hc
  rw [ht] at h1; cases h1
  refine ⟨?_, by decide +kernel⟩
  rw [h2]
  intro h
  have key : ∀ s : String, "channel" ++ Nat.repr ((c.toNat + 5) % 256) = s → s.toList.head? = some 'c' := by
    intro s hs
    subst hs
    rw [String.toList_append]
    rfl
  simp only [List.mem_cons, List.not_mem_nil, or_false] at h
  rcases h with h | h | h | h <;> exact absurd (key _ h) (by decide +kernel)

/-- **C124 for states**: different states have different names, and none is `unknown`. -/
theorem C124_states (a b : Lifecycle.SState) : (sessionState a = sessionState b → a = b) ∧ sessionState a ≠ "unknown" := by
  cases a <;> cases b <;> decide +kernel

/-- **C124 for packet IDs**: the name is the decimal number, and different IDs have different names. -/
theorem C124_packet_ids (v w : W64) : packetID (some (packetIDBytes v)) = Nat.repr v.toNat ∧
    (packetID (some (packetIDBytes v)) = packetID (some (packetIDBytes w)) → v = w) := by
  have h : ∀ v : W64, packetID (some (packetIDBytes v)) = Nat.repr v.toNat := by
    intro v
    have h1 : getLE (putLE 8 v.toNat) = v.toNat := by
      rw [getLE_putLE]
      exact Nat.mod_eq_of_lt v.isLt
    simp only [packetID, packetIDValue, packetIDBytes, h1, BitVec.ofNat_toNat, BitVec.setWidth_eq]
  refine ⟨h v, fun he => ?_⟩
  rw [h, h] at he
  exact BitVec.eq_of_toNat_eq (repr_inj he)

/-- **C124 for keys**: different keys have different names. -/
theorem C124_secrets (m n : Nat) (h : secretID m = secretID n) : m = n := by
  have hd : ∀ k, ∃ c, (Nat.repr k).toList.head? = some c ∧ c.isDigit = true := by
    intro k
    have h1 : (Nat.repr k).toList = Nat.toDigits 10 k := by simp [Nat.repr]
    rw [h1]
    cases hl : Nat.toDigits 10 k with
    | nil => exact absurd hl Nat.toDigits_ne_nil
    | cons c l => exact ⟨c, rfl, Nat.isDigit_of_mem_toDigits (b := 10) (by decide) (by decide) (by rw [hl]; simp)⟩
  have hne : ∀ k s, Nat.repr k = s → s.toList.head? ∉ [some 'r', some 'p'] := by
    intro k s hs hm
    obtain ⟨c, h1, h2⟩ := hd k
    rw [hs] at h1
    rw [h1] at hm
    simp only [List.mem_cons, Option.some.injEq, List.not_mem_nil, or_false] at hm
    rcases hm with rfl | rfl <;> exact absurd h2 (by decide)
  rcases m with _ | _ | _ | _ | m <;> rcases n with _ | _ | _ | _ | n <;>
    first
    | rfl
    | exact absurd h (by decide +kernel)
    | exact repr_inj h
    | exact absurd (show _ ∈ _ from by decide) (hne _ _ h)
    | exact absurd (show _ ∈ _ from by decide) (hne _ _ h.symm)

#print axioms C124_channel_partial
#print axioms C124_distinct_partial
#print axioms C124_violated
#print axioms C124_violated_distinct
#print axioms C124_kinds_partial
#print axioms C124_states
#print axioms C124_packet_ids
#print axioms C124_secrets

end Verif.Names
