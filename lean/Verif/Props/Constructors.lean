import Verif.Spec.Constructors
import Verif.Lemmas.Pem
/-!
# C161, C162: what the constructors of `Identity` return

C161, from the comments of the constructors: "The returned identity (if it is not `nil`) could be used as both: local and remote"
(identity.go:68-69, 77-78), "could be used only as a remote identity" (identity.go:98-99, 112-113).

C162, from errors.go:83-84, 101-102: a key of a wrong size is an `ErrWrongKeyLength`, keys that could not be read or parsed are an
`ErrCannotLoadKeys`, so that the caller can find out what has happened.
-/
namespace Verif.Constructors
open Verif.Identity Verif.Signature

/-! ### The same as in `Verif.Identity` -/

/-- A result without the form of the error. -/
def Ret.erase (r : Ret) (err : KeyErr) : Outcome KeyErr Keys :=
  match r.identity, r.err with
  | some k, none => .ok k
  | _, _ => .err err

/-- The constructors from keys are those of `Verif.Identity`. -/
theorem C161_same_keys (b : Bytes) :
    (newIdentityFromPrivateKey b).erase (.wrongLength 64 b.length) = Identity.newIdentityFromPrivateKey b ∧
    (newRemoteIdentityFromPublicKey b).erase (.wrongLength 32 b.length) = Identity.newRemoteIdentityFromPublicKey b := by
  unfold newIdentityFromPrivateKey newRemoteIdentityFromPublicKey Identity.newIdentityFromPrivateKey
    Identity.newRemoteIdentityFromPublicKey
  constructor <;> split <;> rfl

/-- `NewRemoteIdentity` is the one of `Verif.Identity`. -/
theorem C161_same_remote (P : Pem) (file : Option Bytes) :
    (∀ k, newRemoteIdentity P file = .ok ⟨some k, none⟩ ↔ Identity.newRemoteIdentity P file = .ok k) ∧
    ((∃ e, newRemoteIdentity P file = .ok ⟨none, some e⟩) ↔ ∃ e, Identity.newRemoteIdentity P file = .err e) ∧
    (newRemoteIdentity P file = .panic ↔ Identity.newRemoteIdentity P file = .panic) := by
  unfold newRemoteIdentity Identity.newRemoteIdentity loadKey parseKey
  cases file with
  | none => simp
  | some t =>
    cases hd : P.decode t with
    | none => simp [hd]
    | some b => by_cases hb : b.length = 32 <;> simp [hd, hb]

/-- What the calls of `NewIdentity` in `Verif.Identity` have found so far. -/
def Agrees (P : Pem) : PC → Prop
  | .openPriv k | .writePriv k _ => k.length = 64
  | .openPub k | .writePub k _ => k.length = 64 ∧ ∃ env : Env, env.mkdir = true ∧ ((env.absent = true ∧ env.gen = some k ∧ env.savePriv = true) ∨
      (env.absent = false ∧ env.pubAbsent = true ∧ loadKey P 64 env.file = .ok k))
  | .statPub k => ∃ file, loadKey P 64 file = .ok k
  | .done k => ∃ env, newIdentity P env = .ok ⟨some k, none⟩
  | .failed => ∃ env k e, newIdentity P env = .ok ⟨some k, some e⟩
  | .panicked => ∃ env, newIdentity P env = .panic
  | _ => True

theorem loadKey_parse (P : Pem) (t : Bytes) (k : Bytes) : parseKey P 64 t = .ok k → loadKey P 64 (some t) = .ok k ∧ k.length = 64 := by
  intro h
  unfold parseKey at h
  split at h
  · cases h
  · next b hb =>
    split at h
    · cases h
    · next hl =>
      cases h
      have hl : k.length = 64 := by omega
      exact ⟨by simp [loadKey, hb, hl], hl⟩

theorem loadKey_length {P : Pem} {n : Nat} {f : Option Bytes} {k : Bytes} (h : loadKey P n f = .ok k) : k.length = n := by
  unfold loadKey at h
  (repeat' split at h) <;> cases h
  rename_i h; omega

theorem agrees_step {P : Pem} {d d' : Dir} {pc pc' : PC} {e : Ev} (h : Agrees P pc) (hs : callStep P d pc e = some (d', pc')) :
    Agrees P pc' := by
  have hfail : Agrees P .failed :=
    ⟨⟨false, false, none, false, false, none, false⟩, _, _, rfl⟩
  cases pc <;> cases e <;> simp only [callStep] at hs <;> (try cases hs) <;> (try exact hfail) <;> (try trivial)
  all_goals (repeat' split at hs) <;> (try cases hs) <;> (try exact hfail) <;> (try trivial)
  all_goals (try assumption)
  · split <;> trivial
  · exact ⟨h, ⟨true, true, some _, true, true, none, false⟩, rfl, .inl ⟨rfl, rfl, rfl⟩⟩
  · -- the second file is written
    obtain ⟨hl, env, h1, ⟨h2, h3, h4⟩ | ⟨h2, h3, h4⟩⟩ := h
    · exact ⟨{ env with savePub := true }, by simp [newIdentity, prepareKeys, h1, h2, generateAndSaveKeys, h3, h4, save]⟩
    · exact ⟨{ env with savePub := true }, by simp [newIdentity, prepareKeys, h1, h2, loadKeys, h3, h4, save]⟩
  · rename_i hk
    exact ⟨_, (loadKey_parse P _ _ hk).1⟩
  · rename_i text ht _ hp
    refine ⟨⟨true, false, none, true, true, some text, false⟩, ?_⟩
    have : loadKey P 64 (some text) = .panic := by
      unfold parseKey at hp
      split at hp
      · simp [loadKey, *]
      · split at hp <;> cases hp
    simp [newIdentity, prepareKeys, loadKeys, this]
  · obtain ⟨f, hf⟩ := h
    split
    · exact ⟨loadKey_length hf, ⟨true, false, none, true, true, f, true⟩, rfl, .inr ⟨rfl, rfl, hf⟩⟩
    · exact ⟨⟨true, false, none, true, true, f, false⟩, by simp [newIdentity, prepareKeys, loadKeys, hf]⟩
  · obtain ⟨f, hf⟩ := h
    exact ⟨⟨true, false, none, true, true, f, false⟩, by simp [newIdentity, prepareKeys, loadKeys, hf]⟩

/-- Every call of `NewIdentity` in `Verif.Identity` ends like `newIdentity` with some answers of the file system. -/
theorem C161_same_calls {P : Pem} {as : List Act} {s : Identity.State} (h : runActs P .init as = some s) : ∀ pc ∈ s.calls, Agrees P pc := by
  have key : ∀ (as : List Act) (s s' : Identity.State), (∀ pc ∈ s.calls, Agrees P pc) → runActs P s as = some s' → ∀ pc ∈ s'.calls, Agrees P pc := by
    intro as
    induction as with
    | nil => intro s s' hi hs; cases hs; exact hi
    | cons a as ih =>
      intro s s' hi hs
      simp only [runActs] at hs
      split at hs <;> try (cases hs; done)
      rename_i s1 h1
      refine ih s1 s' ?_ hs
      clear ih hs
      cases a <;> simp only [step] at h1
      · cases h1
        intro pc hpc
        rcases List.mem_append.mp hpc with h | h
        · exact hi pc h
        · rw [List.mem_singleton.mp h]; trivial
      · (repeat' split at h1) <;> cases h1
        rename_i pc0 hpc0 _ d pc1 hc
        intro pc hpc
        rcases List.mem_or_eq_of_mem_set hpc with h | h
        · exact hi pc h
        · rw [h]; exact agrees_step (hi _ (List.mem_of_getElem? hpc0)) hc
      · (repeat' split at h1) <;> cases h1
        intro pc hpc
        rcases List.mem_or_eq_of_mem_set hpc with h | h
        · exact hi pc h
        · rw [h]; trivial
  exact key as _ s (by intro pc h; cases h) h

/-! ### C161 -/

theorem usable_of (E : Ed25519) (k : Bytes) (h : k.length = 64) : UsableLocal E (.of k) ∧ UsableRemote E (.of k) := by
  have hp : (publicOf k).length = 32 := by simp [publicOf, h]
  refine ⟨fun data => ⟨E.sign k data, ?_, ?_⟩, fun sig data => ?_⟩
  · have hs := E.sign_length k data
    simp only [sign, Keys.of, h, ne_eq, not_true_eq_false, if_false, copyInto]
    rw [List.take_of_length_le (by simp [hs]), List.drop_of_length_le (by simp [hs]), List.append_nil]
  · simp [verifySignature, Keys.of, hp, E.verify_sign k data h]
  · by_cases hv : E.verify (publicOf k) data sig = true <;> simp [verifySignature, Keys.of, hp, hv]

/-- What `NewIdentity` can leave in the identity: no keys, together with an error; the generated key; the loaded key. -/
theorem newIdentity_cases {P : Pem} {env : Env} {r : Ret} (h : newIdentity P env = .ok r) :
    (r.identity = some ⟨[], []⟩ ∧ r.err ≠ none) ∨ (∃ g, env.gen = some g ∧ r.identity = some (.of g)) ∨
      ∃ b, loadKey P 64 env.file = .ok b ∧ r.identity = some (.of b) := by
  obtain ⟨mk, ab, gen, sp, sq, file, pa⟩ := env
  cases mk
  · simp only [newIdentity, prepareKeys] at h
    cases h; simp
  · cases ab
    · cases hl : loadKey P 64 file with
      | ok b =>
        right; right
        cases pa <;> simp [newIdentity, prepareKeys, loadKeys, hl] at h <;> exact ⟨b, rfl, by rw [← h]⟩
      | err e => simp [newIdentity, prepareKeys, loadKeys, hl] at h; left; rw [← h]; simp
      | panic => simp [newIdentity, prepareKeys, loadKeys, hl] at h
      | block => simp [newIdentity, prepareKeys, loadKeys, hl] at h
    · cases gen with
      | none => simp [newIdentity, prepareKeys, generateAndSaveKeys] at h; left; rw [← h]; simp
      | some g =>
        right; left
        refine ⟨g, rfl, ?_⟩
        cases sp <;> cases sq <;> simp [newIdentity, prepareKeys, generateAndSaveKeys, save] at h <;> rw [← h]

/-- **C161 for `NewIdentity`**: if `GenerateKey` makes keys of the right size, an identity that is returned without an error can be used
as both; one that is returned with an error can be used as both, or has no keys at all. -/
theorem C161_identity_partial (E : Ed25519) {P : Pem} {env : Env} {r : Ret} (hg : ∀ g, env.gen = some g → g.length = 64)
    (h : newIdentity P env = .ok r) :
    ∃ k, r.identity = some k ∧ ((UsableLocal E k ∧ UsableRemote E k) ∨ (r.err ≠ none ∧ k = ⟨[], []⟩)) := by
  rcases newIdentity_cases h with ⟨h1, h2⟩ | ⟨g, h1, h2⟩ | ⟨b, h1, h2⟩
  · exact ⟨_, h1, .inr ⟨h2, rfl⟩⟩
  · exact ⟨_, h2, .inl (usable_of E g (hg g h1))⟩
  · exact ⟨_, h2, .inl (usable_of E b (loadKey_length h1))⟩

/-- **C161, the other constructors**: they return nil exactly when they return an error; what they return otherwise can be used. -/
theorem C161_others (E : Ed25519) (P : Pem) (b : Bytes) (file : Option Bytes) :
    (∀ r, r = newIdentityFromPrivateKey b → (r.identity = none ↔ r.err ≠ none) ∧ ∀ k ∈ r.identity, UsableLocal E k ∧ UsableRemote E k) ∧
    (∀ r, r = newRemoteIdentityFromPublicKey b → (r.identity = none ↔ r.err ≠ none) ∧ ∀ k ∈ r.identity, UsableRemote E k) ∧
    (∀ r, newRemoteIdentity P file = .ok r → (r.identity = none ↔ r.err ≠ none) ∧ ∀ k ∈ r.identity, UsableRemote E k) := by
  have hrem : ∀ p : Bytes, p.length = 32 → UsableRemote E ⟨p, []⟩ := by
    intro p hp sig data
    by_cases hv : E.verify p data sig = true <;> simp [verifySignature, hp, hv]
  refine ⟨?_, ?_, ?_⟩
  · rintro r rfl
    unfold newIdentityFromPrivateKey
    split
    · simp
    · refine ⟨by simp, fun k hk => ?_⟩
      cases hk
      exact usable_of E b (by omega)
  · rintro r rfl
    unfold newRemoteIdentityFromPublicKey
    split
    · simp
    · refine ⟨by simp, fun k hk => ?_⟩
      cases hk
      exact hrem b (by omega)
  · intro r hr
    unfold newRemoteIdentity at hr
    split at hr <;> cases hr
    · rename_i hk
      refine ⟨by simp, fun k hk' => ?_⟩
      cases hk'
      exact hrem _ (loadKey_length hk)
    · simp

/-- Negation of C161: if the directory cannot be made, no key can be generated, or the key file cannot be read or holds a key of another
size, `NewIdentity` returns an identity which is not nil and crashes whatever it is used for. -/
theorem C161_violated (E : Ed25519) (P : Pem) (env : Env)
    (h : env.mkdir = false ∨ (env.absent = true ∧ env.gen = none) ∨ (env.absent = false ∧ ∃ e, loadKey P 64 env.file = .err e)) :
    ∃ k e, newIdentity P env = .ok ⟨some k, some e⟩ ∧
      ∀ sig data, sign E k sig data = .panic ∧ verifySignature E k sig data = .panic := by
  obtain ⟨mk, ab, gen, sp, sq, file, pa⟩ := env
  have hk : ∀ sig data, sign E ⟨[], []⟩ sig data = .panic ∧ verifySignature E ⟨[], []⟩ sig data = .panic := by
    intro sig data; simp [sign, verifySignature]
  cases mk
  · exact ⟨⟨[], []⟩, _, rfl, hk⟩
  · simp only [Bool.true_eq_false, false_or] at h
    rcases h with ⟨h1, h2⟩ | ⟨h1, e, h2⟩
    · subst h1 h2
      exact ⟨⟨[], []⟩, _, rfl, hk⟩
    · subst h1
      exact ⟨⟨[], []⟩, _, by simp only [newIdentity, prepareKeys, loadKeys, h2]; rfl, hk⟩

/-- An identity that could not be saved can be used, but the next start will not find it: the call has failed. -/
theorem C161_unsaved (P : Pem) (env : Env) (g : Bytes) (h1 : env.mkdir = true) (h2 : env.absent = true) (h3 : env.gen = some g) :
    (∃ e, newIdentity P env = .ok ⟨some (.of g), e⟩) ∧
      (newIdentity P env = .ok ⟨some (.of g), none⟩ ↔ env.savePriv = true ∧ env.savePub = true) := by
  obtain ⟨mk, ab, gen, sp, sq, file, pa⟩ := env
  simp only at h1 h2 h3
  subst h1 h2 h3
  cases sp <;> cases sq <;> simp [newIdentity, prepareKeys, generateAndSaveKeys, save]

/-! ### C162 -/

/-- **C162 for keys in files**: if `NewIdentity` or `NewRemoteIdentity` finds a key of another size, the error is recognised as
`ErrWrongKeyLength` with the two sizes. -/
theorem C162_files_partial (P : Pem) (env : Env) (text b : Bytes) (hd : P.decode text = some b) :
    (b.length ≠ 64 → env.mkdir = true → env.absent = false → env.file = some text →
      ∃ k e, newIdentity P env = .ok ⟨k, some e⟩ ∧ isWrongLength 64 b.length e = true ∧ isCannotLoadKeys e = true) ∧
    (b.length ≠ 32 → ∃ k e, newRemoteIdentity P (some text) = .ok ⟨k, some e⟩ ∧ isWrongLength 32 b.length e = true) := by
  refine ⟨fun hb h1 h2 h3 => ?_, fun hb => ?_⟩
  · have hl : loadKey P 64 env.file = .err (newErrWrongKeyLength 64 b.length) := by simp [loadKey, h3, hd, hb]
    refine ⟨_, _, by simp only [newIdentity, prepareKeys, loadKeys, h1, h2, hl]; rfl, ?_⟩
    simp [isWrongLength, isCannotLoadKeys, newErrCannotLoadKeys, errorf, newErrWrongKeyLength]
  · have hl : loadKey P 32 (some text) = .err (newErrWrongKeyLength 32 b.length) := by simp [loadKey, hd, hb]
    refine ⟨_, _, by simp only [newRemoteIdentity, hl]; rfl, ?_⟩
    simp [isWrongLength, errorf, newErrWrongKeyLength]

/-- **C162, `NewIdentity`**: an error is recognised as `ErrCannotLoadKeys` exactly if the directory exists and the private key as well, that
is, if it was about loading. -/
theorem C162_load (P : Pem) (env : Env) (k : Option Keys) (e : Chain) (h : newIdentity P env = .ok ⟨k, some e⟩) :
    isCannotLoadKeys e = true ↔ env.mkdir = true ∧ env.absent = false := by
  obtain ⟨mk, ab, gen, sp, sq, file, pa⟩ := env
  cases mk
  · simp [newIdentity, prepareKeys] at h; simp [isCannotLoadKeys, ← h.2, errorf]
  · cases ab
    · cases hl : loadKey P 64 file with
      | ok b =>
        cases pa <;> cases sq <;> simp [newIdentity, prepareKeys, loadKeys, hl, save] at h
        simp [isCannotLoadKeys, ← h.2, newErrCannotLoadKeys]
      | err e => simp [newIdentity, prepareKeys, loadKeys, hl] at h; simp [isCannotLoadKeys, ← h.2, newErrCannotLoadKeys]
      | panic => simp [newIdentity, prepareKeys, loadKeys, hl] at h
      | block => simp [newIdentity, prepareKeys, loadKeys, hl] at h
    · cases gen with
      | none => simp [newIdentity, prepareKeys, generateAndSaveKeys] at h; simp [isCannotLoadKeys, ← h.2, errorf]
      | some g =>
        cases sp <;> cases sq <;> simp [newIdentity, prepareKeys, generateAndSaveKeys, save] at h <;>
          simp [isCannotLoadKeys, ← h.2, errorf]

/-- Negation of C162: the constructors from keys return a pointer, `*ErrWrongKeyLength`, which is another type: no key of a wrong size is
recognised. -/
theorem C162_violated (b : Bytes) (n m : Nat) :
    (b.length ≠ 64 → ∃ e, newIdentityFromPrivateKey b = ⟨none, some e⟩ ∧ isWrongLength n m e = false) ∧
    (b.length ≠ 32 → ∃ e, newRemoteIdentityFromPublicKey b = ⟨none, some e⟩ ∧ isWrongLength n m e = false) :=
  ⟨fun h => ⟨_, if_pos h, rfl⟩, fun h => ⟨_, if_pos h, rfl⟩⟩

/-- Negation of C162: what `NewRemoteIdentity` could not read or parse is never recognised as `ErrCannotLoadKeys`. -/
theorem C162_violated_remote (P : Pem) (file : Option Bytes) (k : Option Keys) (e : Chain) (h : newRemoteIdentity P file = .ok ⟨k, some e⟩) :
    isCannotLoadKeys e = false := by
  unfold newRemoteIdentity at h
  split at h <;> cases h
  rename_i hl
  unfold loadKey at hl
  (repeat' split at hl) <;> cases hl <;> simp [isCannotLoadKeys, errorf, newErrWrongKeyLength]

/-! ### Examples -/

/-- A call that finds a directory with a key file of this text, and a public key. -/
def finds (text : Option Bytes) : Env := ⟨true, false, none, true, true, text, false⟩

def good : Bytes := List.replicate 64 7

/-- A call that loads a key; one that makes it; one that makes it and cannot save it; one that loads it and cannot save the public key. -/
example : newIdentity realPem (finds (some (pemText true good))) = .ok ⟨some (.of good), none⟩ := by decide +kernel

example : newIdentity realPem ⟨true, true, some good, true, true, none, true⟩ = .ok ⟨some (.of good), none⟩ ∧
    newIdentity realPem ⟨true, true, some good, true, false, none, true⟩ = .ok ⟨some (.of good), some [.lib, .lib, .sys]⟩ ∧
    newIdentity realPem { finds (some (pemText true good)) with pubAbsent := true, savePub := false } =
      .ok ⟨some (.of good), some [.lib, .cannotLoadKeys, .lib, .sys]⟩ := by decide +kernel

/-- A key file with a key of two bytes, without a key, and one that cannot be read. -/
example : newIdentity realPem (finds (some (pemText true [1, 2]))) =
      .ok ⟨some ⟨[], []⟩, some [.lib, .cannotLoadKeys, .lib, .lib, .wrongLength 64 2]⟩ ∧
    newIdentity realPem (finds (some [])) = .panic ∧
    newIdentity realPem (finds none) = .ok ⟨some ⟨[], []⟩, some [.lib, .cannotLoadKeys, .lib, .lib, .sys]⟩ ∧
    newRemoteIdentity realPem (some (pemText false [1, 2])) = .ok ⟨none, some [.lib, .lib, .wrongLength 32 2]⟩ ∧
    newRemoteIdentity realPem none = .ok ⟨none, some [.lib, .lib, .sys]⟩ := by decide +kernel

/-- No directory; no random numbers. -/
example : newIdentity realPem { finds none with mkdir := false } = .ok ⟨some ⟨[], []⟩, some [.lib, .sys]⟩ ∧
    newIdentity realPem { finds none with absent := true } = .ok ⟨some ⟨[], []⟩, some [.lib, .sys]⟩ := by decide +kernel

/-- Keys of a wrong size, given directly. -/
example : newIdentityFromPrivateKey [1, 2] = ⟨none, some [.wrongLengthPtr 64 2]⟩ ∧ newIdentityFromPrivateKey good = ⟨some (.of good), none⟩ ∧
    newRemoteIdentityFromPublicKey [] = ⟨none, some [.wrongLengthPtr 32 0]⟩ := by decide +kernel

#print axioms C161_same_keys
#print axioms C161_same_remote
#print axioms C161_same_calls
#print axioms C161_identity_partial
#print axioms C161_others
#print axioms C161_violated
#print axioms C161_unsaved
#print axioms C162_files_partial
#print axioms C162_load
#print axioms C162_violated
#print axioms C162_violated_remote

end Verif.Constructors
