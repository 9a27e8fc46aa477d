import Verif.Model.Signature
/-!
# Property theorems C147: what Sign has signed is accepted by VerifySignature

The full claim: after `i.Sign(signature, data)` the call `r.VerifySignature(signature, data)` succeeds for
every identity `r` with the public key of `i`; and neither crashes.
-/
namespace Verif.Signature
open Verif.Identity

/-- C147, the part which holds: with 64 bytes of room and an identity which has its private key, the
signature is accepted by the identity itself and by the remote identity made of its public key. -/
theorem C147_partial (E : Ed25519) (priv : Bytes) (i r : Keys) (room data : Bytes)
    (hi : newIdentityFromPrivateKey priv = .ok i) (hr : newRemoteIdentityFromPublicKey i.pub = .ok r)
    (hroom : room.length = 64) :
    ∃ s, sign E i room data = .ok s ∧ s.length = 64 ∧
      verifySignature E i s data = .ok () ∧ verifySignature E r s data = .ok () := by
  simp only [newIdentityFromPrivateKey] at hi
  split at hi
  · cases hi
  · rename_i hp
    have hp : priv.length = 64 := by omega
    cases hi
    simp only [newRemoteIdentityFromPublicKey] at hr
    split at hr
    · cases hr
    · rename_i hq
      cases hr
      have hs := E.sign_length priv data
      have hc : copyInto room (E.sign priv data) = E.sign priv data := by
        simp only [copyInto]
        rw [List.take_of_length_le (by omega), List.drop_of_length_le (by omega), List.append_nil]
      refine ⟨E.sign priv data, ?_, hs, ?_, ?_⟩
      · simp [sign, hp, hc]
      · simp only [verifySignature, E.verify_sign priv data hp, if_true]; rw [if_neg hq]
      · simp only [verifySignature, E.verify_sign priv data hp, if_true]; rw [if_neg hq]

/-- What is behind the 64 bytes is left as it was, and nothing is written behind the end of the slice. -/
theorem C147_rest (E : Ed25519) (i : Keys) (room data s : Bytes) (h : sign E i room data = .ok s) :
    s.length = room.length ∧ s.drop 64 = room.drop 64 := by
  simp only [sign] at h
  split at h
  · cases h
  · cases h
    have hs := E.sign_length i.priv data
    simp only [copyInto, hs]
    constructor
    · simp only [List.length_append, List.length_take, List.length_drop, hs]; omega
    · rw [List.drop_append]
      simp only [List.length_take, hs]
      rw [List.drop_of_length_le (by simp only [List.length_take]; omega), List.nil_append, List.drop_drop]
      by_cases h : room.length ≤ 64
      · rw [List.drop_of_length_le (by omega), List.drop_of_length_le (by omega)]
      · congr 1; omega

/-- C147 is violated for every other length of the slice, too short or too long: `Sign` reports nothing, and
what it leaves in the slice is refused by everybody. -/
theorem C147_violated (E : Ed25519) (i r : Keys) (room data : Bytes) (hp : i.priv.length = 64)
    (hr : r.pub.length = 32) (hroom : room.length ≠ 64) :
    ∃ s, sign E i room data = .ok s ∧ verifySignature E r s data = .err .invalidSignature := by
  have hs : sign E i room data = .ok (copyInto room (E.sign i.priv data)) := by simp [sign, hp]
  refine ⟨_, hs, ?_⟩
  have hl := (C147_rest E i room data _ hs).1
  have hv : ¬ E.verify r.pub data (copyInto room (E.sign i.priv data)) = true := by
    intro h
    have := E.verify_length _ _ _ h
    omega
  simp only [verifySignature]
  rw [if_neg (by omega), if_neg hv]

/-- C147 is violated for remote identities: they have no private key, and `Sign` crashes. -/
theorem C147_violated_panic (E : Ed25519) (pub : Bytes) (r : Keys) (room data : Bytes)
    (hr : newRemoteIdentityFromPublicKey pub = .ok r) :
    sign E r room data = .panic ∧ verifySignature E r room data ≠ .panic := by
  simp only [newRemoteIdentityFromPublicKey] at hr
  split at hr
  · cases hr
  · rename_i hp
    cases hr
    refine ⟨by simp [sign], ?_⟩
    simp only [verifySignature, if_neg hp]
    split <;> simp

/-- An identity put together by hand (the fields are exported) without keys crashes in both. -/
theorem C147_violated_empty (E : Ed25519) (room data : Bytes) :
    sign E ⟨[], []⟩ room data = .panic ∧ verifySignature E ⟨[], []⟩ room data = .panic := by
  simp [sign, verifySignature]

/-! ## Examples -/

/-- A scheme of signatures for the examples: 64 copies of the first byte of the public key plus the
length of the data. -/
def toy : Ed25519 :=
  { sign := fun k m => List.replicate 64 ((publicOf k).headD 0 + BitVec.ofNat 8 m.length)
    verify := fun k m s => s == List.replicate 64 (k.headD 0 + BitVec.ofNat 8 m.length)
    sign_length := fun _ _ => by simp
    verify_sign := fun _ _ _ => by simp
    verify_length := fun k m s h => by
      have := eq_of_beq h
      rw [this]; simp }

def alice : Keys := ⟨List.replicate 32 7, List.replicate 64 7⟩

example : newIdentityFromPrivateKey (List.replicate 64 7) = .ok alice ∧
    newRemoteIdentityFromPublicKey alice.pub = .ok ⟨List.replicate 32 7, []⟩ := by
  decide +kernel

/-- With 64 bytes it works; with 63 and with 65 it does not; and other data are not accepted. -/
example :
    sign toy alice (List.replicate 64 0) [1, 2] = .ok (List.replicate 64 9) ∧
    verifySignature toy alice (List.replicate 64 9) [1, 2] = .ok () ∧
    verifySignature toy alice (List.replicate 64 9) [1, 2, 3] = .err .invalidSignature ∧
    sign toy alice (List.replicate 63 0) [1, 2] = .ok (List.replicate 63 9) ∧
    verifySignature toy alice (List.replicate 63 9) [1, 2] = .err .invalidSignature ∧
    sign toy alice (List.replicate 66 0) [1, 2] = .ok (List.replicate 64 9 ++ [0, 0]) ∧
    verifySignature toy alice (List.replicate 64 9 ++ [0, 0]) [1, 2] = .err .invalidSignature := by
  decide +kernel

#print axioms C147_partial
#print axioms C147_rest
#print axioms C147_violated
#print axioms C147_violated_panic
#print axioms C147_violated_empty

end Verif.Signature
