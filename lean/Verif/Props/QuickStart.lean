import Verif.Spec.SshKeys
import Verif.Props.Identity
/-!
# C140: the key files of the quick start can be used
-/
namespace Verif.Identity
open Verif.SshKeys

/-- C140 for a pair of files: `NewIdentity` on the directory gives the identity with this private key, and `NewRemoteIdentity`
on the public key file gives the public key of it. -/
def Usable (P : Pem) (priv pub : Bytes) (k : Bytes) : Prop :=
  (∃ evs, callRun P ⟨some priv, some pub⟩ .start evs = some (⟨some priv, some pub⟩, .done (.of k))) ∧
  newRemoteIdentity P (some pub) = .ok ⟨publicOf k, []⟩
where
  /-- the steps of one call -/
  callRun (P : Pem) : Dir → PC → List Ev → Option (Dir × PC)
  | d, pc, [] => some (d, pc)
  | d, pc, e :: es => match callStep P d pc e with
    | some (d', pc') => callRun P d' pc' es
    | none => none

/-- C140, the part that holds: for files that the package has written itself, instead of ssh-keygen. -/
theorem C140_partial (P : Pem) (k : Bytes) (hk : k.length = 64) :
    Usable P (P.encode true k) (P.encode false (publicOf k)) k := by
  refine ⟨⟨[.go, .go, .go, .go], ?_⟩, ?_⟩
  · simp [Usable.callRun, callStep, parseKey, P.decode_encode, hk]
  · simp [newRemoteIdentity, parseKey, P.decode_encode, publicOf, hk]

example : key1.length = 64 := by decide +kernel

theorem privBlob_length (cipher kdf opts pk priv : Bytes) (hpk : pk.length = 32) : 64 < (privBlob cipher kdf opts pk priv).length := by
  simp [privBlob, magic, str, be32, ascii, pubBlob, ed25519Name]
  omega

/-- What a call of `NewIdentity` can come to when the file of the private key is there and its block is not of 64 bytes. -/
def Refused (d : Dir) (x : Dir × PC) : Prop := x.1 = d ∧ (x.2 = .start ∨ x.2 = .stat ∨ x.2 = .read ∨ x.2 = .failed)

theorem refused_run (P : Pem) {text b : Bytes} {pub : Option Bytes} (hd : P.decode text = some b) (hb : b.length ≠ 64) :
    ∀ (evs : List Ev) {d : Dir} {pc : PC} {x : Dir × PC}, Refused ⟨some text, pub⟩ (d, pc) → Usable.callRun P d pc evs = some x →
      Refused ⟨some text, pub⟩ x := by
  intro evs
  induction evs with
  | nil => intro d pc x h hr; simp only [Usable.callRun, Option.some.injEq] at hr; subst hr; exact h
  | cons e es ih =>
    intro d pc x h hr
    simp only [Usable.callRun] at hr
    split at hr
    · rename_i d' pc' hs
      refine ih ?_ hr
      obtain ⟨rfl, h⟩ := h
      rcases h with h | h | h | h <;> (simp only at h; subst h) <;> cases e <;>
        simp [callStep, parseKey, hd, hb] at hs <;> (obtain ⟨rfl, rfl⟩ := hs; simp [Refused])
    · simp at hr

/-- Negation of C140 for the private key: whatever the key, its encryption and its public part, `NewIdentity` does not return
an identity, in no run; if the file can be read it returns an error. -/
theorem C140_violated_private (P : Pem) {text cipher kdf opts pk priv : Bytes} {pub : Option Bytes}
    (hpk : pk.length = 32) (hd : P.decode text = some (privBlob cipher kdf opts pk priv)) :
    (∀ evs x, Usable.callRun P ⟨some text, pub⟩ .start evs = some x → ∀ k, x.2 ≠ .done k) ∧
    Usable.callRun P ⟨some text, pub⟩ .start [.go, .go, .go] = some (⟨some text, pub⟩, .failed) := by
  have hb : (privBlob cipher kdf opts pk priv).length ≠ 64 := by have := privBlob_length cipher kdf opts pk priv hpk; omega
  constructor
  · intro evs x hr k
    rcases (refused_run P hd hb evs ⟨rfl, .inl rfl⟩ hr).2 with h | h | h | h <;> rw [h] <;> simp
  · simp [Usable.callRun, callStep, parseKey, hd, hb]

theorem pubFile_no_block (pk comment : Bytes) (hc : (10 : Byte) ∉ comment) : ¬ HasBlock (pubFile pk comment) := by
  rintro (⟨t, h⟩ | ⟨s, t, h⟩)
  · have := congrArg List.head? h
    simp [pubFile, pemBegin, dashes, ed25519Name, ascii] at this
  · have hb : (10 : Byte) ∉ ed25519Name ++ [32] ++ base64 (pubBlob pk) ++ [32] ++ comment := by
      simp only [List.mem_append, not_or]
      refine ⟨⟨⟨⟨by decide +kernel, by decide⟩, fun h => (base64_chars _ _ h).1 rfl⟩, by decide⟩, hc⟩
    unfold pubFile at h
    generalize ed25519Name ++ [32] ++ base64 (pubBlob pk) ++ [32] ++ comment = body at h hb
    apply hb
    have hl := congrArg List.length h
    simp only [List.length_append, List.length_cons, List.length_nil] at hl
    have hp : pemBegin.length = 10 := by decide
    have h1 : (body ++ [10])[s.length]? = some 10 := by
      rw [← h]
      simp
    rw [List.getElem?_append_left (by omega)] at h1
    exact List.mem_of_getElem? h1

/-- Negation of C140 for the public key: `NewRemoteIdentity` crashes the program for every file that ssh-keygen has written. -/
theorem C140_violated_public (P : Pem) (hP : ∀ text, P.decode text ≠ none → HasBlock text) (pk comment : Bytes)
    (hc : (10 : Byte) ∉ comment) : newRemoteIdentity P (some (pubFile pk comment)) = .panic := by
  have : P.decode (pubFile pk comment) = none := by
    cases h : P.decode (pubFile pk comment) with
    | none => rfl
    | some b => exact absurd (hP _ (by rw [h]; simp)) (pubFile_no_block pk comment hc)
  simp [newRemoteIdentity, parseKey, this]

/-- The law about the beginning of a block holds for the instance. -/
example : ∀ text, realPem.decode text ≠ none → HasBlock text := by
  intro text h
  left
  have key : ∀ t, readBlock t text ≠ none → pemBegin <+: text := by
    intro t ht
    unfold readBlock at ht
    split at ht
    · rename_i hp
      have h1 : pemBegin <+: beginLine t := ⟨32 :: (keyType t ++ dashes ++ [10]), by simp [beginLine, pemBegin, ascii]⟩
      exact h1.trans (List.isPrefixOf_iff_prefix.mp hp)
    · simp at ht
  have h' : pemRead text ≠ none := h
  unfold pemRead at h'
  split at h'
  · rename_i b hb; exact key true (by rw [hb]; simp)
  · exact key false h'

/-- A block with such contents, and an unencrypted key as ssh-keygen makes it: check numbers, both keys, a comment and padding. -/
example (P : Pem) : ∃ text, P.decode text = some (privBlob (ascii ['n','o','n','e']) (ascii ['n','o','n','e']) [] (publicOf key1)
    (be32 7 ++ be32 7 ++ pubBlob (publicOf key1) ++ str key1 ++ str (ascii ['m','e']) ++ [1, 2, 3, 4, 5])) :=
  ⟨_, P.decode_encode true _⟩

/-- A real line. -/
example : pubFile ((List.range 32).map (BitVec.ofNat 8 ·)) (ascii "user@host".toList) =
    ascii ("ssh-ed25519 AAAAC3NzaC1lZDI1NTE5AAAAIAABAgMEBQYHCAkKCwwNDg8QERITFBUWFxgZGhscHR4f user@host\n").toList := by
  decide +kernel

#print axioms C140_partial
#print axioms C140_violated_private
#print axioms C140_violated_public

end Verif.Identity
