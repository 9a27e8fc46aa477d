import Verif.Lemmas.KeyExchangeSess
/-!
# Properties of the key exchange: C33, C34, C36, C39, C40, C41, C42
-/
namespace Verif.KX
open Verif.Headers

variable {C : Crypto} {cfg : Cfg}

theorem runActs_reachable {remote : Option Bytes} : ∀ (as : List Act) {s s' : State}, Reachable C cfg remote s →
    runActs C cfg s as = .ok s' → Reachable C cfg remote s' := by
  intro as
  induction as with
  | nil => intro s s' h hs; simp only [runActs, Outcome.ok.injEq] at hs; subst hs; exact h
  | cons a as ih =>
    intro s s' h hs
    simp only [runActs] at hs
    split at hs <;> try (simp only [reduceCtorEq] at hs; done)
    rename_i s1 h1
    exact ih (.step a h h1) hs

/-! ### A small instance of the primitives, for examples and witnesses -/

/-- 31 bytes of a key. -/
def norm31 (b : Bytes) : Bytes := (b ++ List.replicate 31 0).take 31

theorem norm31_length (b : Bytes) : (norm31 b).length = 31 := by simp [norm31]

theorem zipWith_xor_comm : ∀ (a b : Bytes), List.zipWith (· ^^^ ·) a b = List.zipWith (· ^^^ ·) b a := by
  intro a
  induction a with
  | nil => intro b; cases b <;> rfl
  | cons x a ih =>
    intro b
    cases b with
    | nil => rfl
    | cons y b => simp only [List.zipWith_cons_cons, ih b, BitVec.xor_comm]

/-- A point of low order. -/
def lowOrder : Bytes := 1 :: List.replicate 31 0

/-- Signatures are a tag with the public key; the ECDH function combines both keys byte by byte, and gives zero for a
point of low order. -/
def toy : Crypto where
  verify pub sig _ := sig = 5 :: norm31 (pub.drop 1) ++ List.replicate 32 0
  sign k _ := 5 :: norm31 k ++ List.replicate 32 0
  idPub k := 3 :: norm31 k
  dh a b := if b = lowOrder then zeroKey else 1 :: List.zipWith (· ^^^ ·) (norm31 a) (norm31 (b.drop 1))
  pub a := 2 :: norm31 a
  blake3 m := (m ++ List.replicate 32 0).take 32
  sha3 m := (m ++ List.replicate 32 0).take 32
  sign_length k m := by simp [norm31_length]
  idPub_length k := by simp [norm31_length]
  pub_length k := by simp [norm31_length]
  dh_length k p := by split <;> simp [zeroKey, norm31_length]
  blake3_length m := by simp
  sha3_length m := by simp
  verify_sign k m := by
    simp only [List.drop_succ_cons, List.drop_zero, decide_eq_true_eq]
    rw [show norm31 (norm31 k) = norm31 k by
      have := norm31_length k
      simp only [norm31] at this ⊢
      rw [List.take_append_of_le_length (by omega), List.take_of_length_le (by omega)]]
  dh_comm a b := by
    have h : ∀ k, (2 :: norm31 k : Bytes) ≠ lowOrder := fun k => by simp [lowOrder]
    have hn : ∀ k, norm31 (norm31 k) = norm31 k := fun k => by
      have := norm31_length k
      simp only [norm31] at this ⊢
      rw [List.take_append_of_le_length (by omega), List.take_of_length_le (by omega)]
    simp only [h, if_false, List.drop_succ_cons, List.drop_zero, hn]
    rw [zipWith_xor_comm]

/-- The state after a run, with a default. -/
def okState (r : Outcome Crash State) : State := match r with | .ok s => s | _ => State.init none

def isOk (r : Outcome Crash State) : Bool := match r with | .ok _ => true | _ => false

theorem okState_eq {r : Outcome Crash State} (h : isOk r = true) : r = .ok (okState r) := by
  cases r <;> simp_all [isOk, okState]

theorem reachable_run {remote : Option Bytes} {as : List Act} (h : isOk (runActs C cfg (State.init remote) as) = true) :
    Reachable C cfg remote (okState (runActs C cfg (State.init remote) as)) :=
  runActs_reachable as .init (okState_eq h)

/-- Two peers. -/
def alice : Cfg := ⟨1, none, [7], ⟨100, 1⟩⟩
def bob : Cfg := ⟨1, none, [8], ⟨200, 2⟩⟩
/-- Bob's messages with the ECDH keys 1 and 2, and an answer. -/
def bob1 : Bytes := kxMessage toy bob (toy.pub [1]) false
def bob2 : Bytes := kxMessage toy bob (toy.pub [2]) false
def bobAnswer : Bytes := kxMessage toy bob (toy.pub [1]) true

/-- `Handle` without interruption. -/
def handle (b : Bytes) : List Act := [.recv b, .reader, .reader, .reader, .reader]
/-- The loop makes a key and sends it. -/
def rotate (k : Bytes) (now : Nat) : List Act :=
  [.tick, .main none 0 true, .main (some k) now true, .main none 0 true, .main none 0 true, .main none 0 true]

def aliceAt (as : List Act) : State := okState (runActs toy alice (State.init none) as)

/-! ### C33 -/

/-- C33: with a known identity, a message without a valid signature of that identity (its first 64 bytes, over the 82
bytes that follow) has no effect at all. -/
theorem C33_ignored {s : State} {id b : Bytes} (hid : s.remoteIdentity = some id) (hr : s.reader = .idle)
    (hbad : b.length < 146 ∨ C.verify id (b.take 64) ((b.drop 64).take 82) = false) : step C cfg s (.recv b) = .ok s := by
  have hp : ∃ e, parseAndCheck C cfg (some id) b = .err e ∧ report e = [] := by
    unfold parseAndCheck
    by_cases hl : b.length < kxSignedSize
    · exact ⟨.tooShort, by rw [if_pos hl], rfl⟩
    · have hv : C.verify id (sigOf b) (bodyOf b) = false := by
        rcases hbad with h | h
        · exact absurd h hl
        · exact h
      exact ⟨.badSignature, by rw [if_neg hl, if_pos (by simpa [checkSig] using hv)], rfl⟩
  obtain ⟨e, h1, h2⟩ := hp
  simp only [step, hr, hid, h1, h2, List.append_nil]
  rw [← hid, ← hr]

/-- C33, the whole session: whenever the remote keys, the remote identity or the remote session ID change, an exchange
counts as successful, or an answer is started, the reader is handling a message that was validly signed by the pinned
identity. -/
theorem C33_effect {remote : Option Bytes} {s s' : State} {a : Act} (hr : Reachable C cfg remote s)
    (hs : step C cfg s a = .ok s')
    (hne : s'.keys.nextRemote ≠ s.keys.nextRemote ∨ s'.keys.prevRemote ≠ s.keys.prevRemote ∨
      s'.remoteIdentity ≠ s.remoteIdentity ∨ s'.remoteSessionID ≠ s.remoteSessionID ∨ s'.successes ≠ s.successes ∨
      s.answers.length < s'.answers.length) :
    a = .reader ∧ ∃ id b msg, s'.remoteIdentity = some id ∧ 146 ≤ b.length ∧
      C.verify id (b.take 64) ((b.drop 64).take 82) = true ∧ msg = KxMsg.decode ((b.drop 64).take 82) ∧
      (s.reader = .parsed b msg ∨ s.reader = .finish msg) := by
  have hrd := readerOK_reachable hr
  by_cases h1 : ∃ b, a = .recv b
  · exfalso
    obtain ⟨b, rfl⟩ := h1
    simp only [step] at hs
    split at hs
    · split at hs <;> simp only [Outcome.ok.injEq, reduceCtorEq] at hs <;> subst hs <;> simp at hne
    · simp at hs
  · by_cases h2 : a = .reader
    · subst h2
      refine ⟨rfl, ?_⟩
      simp only [step, readerStep] at hs
      split at hs
      · simp at hs
      · rename_i b msg hrd'
        split at hs
        · simp at hs
        · simp only [Outcome.ok.injEq] at hs
          simp only [ReaderOK, hrd'] at hrd
          rcases enter_cases s b msg hrd with ⟨he, _⟩ | ⟨id, hv, _, _, he⟩
          · rw [he] at hs; subst hs; simp at hne
          · rw [he] at hs
            exact ⟨id, b, msg, by rw [← hs], hv.len, hv.sig, hv.dec, .inl hrd'⟩
      · split at hs <;> simp only [Outcome.ok.injEq, reduceCtorEq] at hs
        subst hs; simp at hne
      · split at hs <;> simp only [Outcome.ok.injEq, reduceCtorEq] at hs
        rename_i s1 hp
        obtain ⟨k, hk, _⟩ := publish_eq hp
        subst hs; simp [hk] at hne
      · rename_i msg hrd'
        simp only [Outcome.ok.injEq] at hs
        simp only [ReaderOK, hrd'] at hrd
        obtain ⟨id, b, h3, hv⟩ := hrd
        exact ⟨id, b, msg, by rw [← hs, (finish_frame s msg).1]; exact h3, hv.len, hv.sig, hv.dec, .inr hrd'⟩
    · exfalso
      have hf := step_frame hs (fun b e => h1 ⟨b, e⟩) h2
      rcases hne with h | h | h | h | h | h
      · exact h hf.nextRemote
      · exact h hf.prevRemote
      · exact h hf.remoteIdentity
      · exact h hf.remoteSessionID
      · exact h hf.successes
      · exact absurd hf.answers (by omega)

example : (okState (runActs toy alice (State.init (some (toy.idPub [8]))) (handle bob1))).keys.nextRemote = some (toy.pub [1]) ∧
    toy.verify (toy.idPub [9]) (bob1.take 64) ((bob1.drop 64).take 82) = false := by decide +kernel

/-! ### C34 -/

/-- C34: an identity, once known (configured or adopted), never changes, and neither does the remote session ID. -/
theorem C34_pinned : ∀ (as : List Act) {s s' : State}, runActs C cfg s as = .ok s' →
    (∀ id, s.remoteIdentity = some id → s'.remoteIdentity = some id) ∧
    (∀ x, s.remoteSessionID = some x → s'.remoteSessionID = some x) := by
  have one : ∀ {a : Act} {s s' : State}, step C cfg s a = .ok s' →
      (∀ id, s.remoteIdentity = some id → s'.remoteIdentity = some id) ∧
      (∀ x, s.remoteSessionID = some x → s'.remoteSessionID = some x) := by
    intro a s s' hs
    by_cases h1 : ∃ b, a = .recv b
    · obtain ⟨b, rfl⟩ := h1
      simp only [step] at hs
      split at hs
      · split at hs <;> simp only [Outcome.ok.injEq, reduceCtorEq] at hs <;> subst hs <;> simp
      · simp at hs
    · by_cases h2 : a = .reader
      · subst h2
        simp only [step, readerStep] at hs
        split at hs
        · simp at hs
        · split at hs
          · simp at hs
          · simp only [Outcome.ok.injEq] at hs; subst hs
            unfold enter
            split
            · exact ⟨fun _ h => h, fun _ h => h⟩
            · split
              · exact ⟨fun _ h => h, fun _ h => h⟩
              · rename_i id' hid
                refine ⟨fun id h => ?_, fun x h => by simp [h]⟩
                rw [h] at hid
                simp only [Option.some_or, Option.some.injEq] at hid
                rw [hid]
        · split at hs <;> simp only [Outcome.ok.injEq, reduceCtorEq] at hs
          subst hs; simp
        · split at hs <;> simp only [Outcome.ok.injEq, reduceCtorEq] at hs
          rename_i s1 hp
          obtain ⟨k, hk, _⟩ := publish_eq hp
          subst hs; simp [hk]
        · rename_i msg _
          simp only [Outcome.ok.injEq] at hs; subst hs
          rw [(finish_frame s msg).1, (finish_frame s msg).2.1]
          exact ⟨fun _ h => h, fun _ h => h⟩
      · have hf := step_frame hs (fun b e => h1 ⟨b, e⟩) h2
        rw [hf.remoteIdentity, hf.remoteSessionID]
        exact ⟨fun _ h => h, fun _ h => h⟩
  intro as
  induction as with
  | nil => intro s s' h; simp only [runActs, Outcome.ok.injEq] at h; subst h; exact ⟨fun _ h => h, fun _ h => h⟩
  | cons a as ih =>
    intro s s' h
    simp only [runActs] at h
    split at h <;> try (simp only [reduceCtorEq] at h; done)
    rename_i s1 hs1
    exact ⟨fun id hi => (ih h).1 id ((one hs1).1 id hi), fun x hx => (ih h).2 x ((one hs1).2 x hx)⟩

/-- C34: an identity is adopted only from a message which it has signed itself, and in which it names itself; the
remote session ID is that of the first message accepted. -/
theorem C34_adopted {remote : Option Bytes} {s s' : State} {a : Act} (hr : Reachable C cfg remote s)
    (hs : step C cfg s a = .ok s') :
    (∀ id, s.remoteIdentity = none → s'.remoteIdentity = some id → ∃ b, s.reader = .parsed b (KxMsg.decode ((b.drop 64).take 82)) ∧
      C.verify id (b.take 64) ((b.drop 64).take 82) = true ∧ (KxMsg.decode ((b.drop 64).take 82)).identityPublicKey = id) ∧
    (∀ x, s.remoteSessionID = none → s'.remoteSessionID = some x →
      ∃ b, s.reader = .parsed b (KxMsg.decode ((b.drop 64).take 82)) ∧ (KxMsg.decode ((b.drop 64).take 82)).sessionID = x) := by
  have hrd := readerOK_reachable hr
  have key : (s'.remoteIdentity ≠ s.remoteIdentity ∨ s'.remoteSessionID ≠ s.remoteSessionID) →
      ∃ id b, s.reader = .parsed b (KxMsg.decode (bodyOf b)) ∧ s'.remoteIdentity = some id ∧
        C.verify id (sigOf b) (bodyOf b) = true ∧
        (s.remoteIdentity = some id ∨ (s.remoteIdentity = none ∧ id = (KxMsg.decode (bodyOf b)).identityPublicKey)) ∧
        s'.remoteSessionID = s.remoteSessionID.or (some (KxMsg.decode (bodyOf b)).sessionID) := by
    intro hne
    obtain ⟨rfl, id, b, msg, h1, h2, h3, h4, h5⟩ := C33_effect hr hs (by rcases hne with h | h <;> simp [h])
    rcases h5 with h5 | h5
    · simp only [step, readerStep, h5] at hs
      split at hs
      · simp at hs
      · simp only [Outcome.ok.injEq] at hs
        simp only [ReaderOK, h5] at hrd
        rcases enter_cases s b msg hrd with ⟨he, _⟩ | ⟨id', hv, _, hid, he⟩
        · rw [he] at hs; subst hs; simp at hne
        · rw [he] at hs; subst hs
          simp only [Option.some.injEq] at h1; subst h1
          have hd := hv.dec
          subst hd
          exact ⟨id', b, h5, rfl, hv.sig, hid, rfl⟩
    · simp only [step, readerStep, h5, Outcome.ok.injEq] at hs
      subst hs
      rw [(finish_frame s msg).1, (finish_frame s msg).2.1] at hne
      simp at hne
  refine ⟨fun id h1 h2 => ?_, fun x h1 h2 => ?_⟩
  · obtain ⟨id', b, k1, k2, k3, k4, _⟩ := key (.inl (by rw [h1, h2]; simp))
    rw [h2] at k2; simp only [Option.some.injEq] at k2; subst k2
    rcases k4 with k4 | k4
    · rw [h1] at k4; simp at k4
    · exact ⟨b, k1, k3, k4.2.symm⟩
  · obtain ⟨id', b, k1, _, _, _, k5⟩ := key (.inr (by rw [h1, h2]; simp))
    rw [h1, h2] at k5
    simp only [Option.none_or, Option.some.injEq] at k5
    exact ⟨b, k1, k5.symm⟩

/-- C34: while no identity is known, the next properly self-signed message is adopted. -/
theorem C34_first {s : State} {id b : Bytes} {msg : KxMsg} (hid : s.remoteIdentity = none) (hr : s.reader = .idle)
    (hc : s.ctx = false) (hm : s.main.locks = false) (hv : Valid C cfg id b msg) (hself : msg.identityPublicKey = id) :
    ∃ s', runActs C cfg s [.recv b, .reader] = .ok s' ∧ s'.remoteIdentity = some id ∧
      s'.remoteSessionID = s.remoteSessionID.or (some msg.sessionID) := by
  have hp := (parse_valid hv).2
  have hs := hv.sig
  rw [← hself] at hs
  refine ⟨enter C { s with reader := .parsed b msg } b msg, ?_, ?_, ?_⟩
  · simp [runActs, step, hr, hid, hp, readerStep, hm]
  · simp [enter, hc, hid, adopt, hs]
    exact hself
  · simp [enter, hc, hid, adopt, hs]

example : (aliceAt (handle bob1)).remoteIdentity = some (toy.idPub [8]) ∧ (aliceAt (handle bob1)).remoteSessionID = some ⟨200, 2⟩ := by
  decide +kernel

/-! ### C36 -/

theorem xorBytes_inj : ∀ (k a b : Bytes), k.length = a.length → k.length = b.length → xorBytes k a = xorBytes k b → a = b := by
  intro k
  induction k with
  | nil =>
    intro a b ha hb _
    rw [List.length_nil] at ha hb
    rw [List.length_eq_zero_iff.1 ha.symm, List.length_eq_zero_iff.1 hb.symm]
  | cons x k ih =>
    intro a b ha hb h
    cases a with
    | nil => simp at ha
    | cons y a =>
      cases b with
      | nil => simp at hb
      | cons z b =>
        simp only [xorBytes, List.zipWith_cons_cons, List.cons.injEq] at h
        have h1 : y = z := by
          have := congrArg (x ^^^ ·) h.1
          simpa [← BitVec.xor_assoc] using this
        rw [h1, ih a b (by simpa using ha) (by simpa using hb) h.2]

/-- C36: from the same ECDH secret, PSKs with different hashes give different keys. -/
theorem C36_keys_differ {priv pub p1 p2 k1 k2 : Bytes}
    (hh : hash C p1 [salt, cipherKeyLabel] ≠ hash C p2 [salt, cipherKeyLabel])
    (h1 : generateSharedKey C (some p1) (some priv) (some pub) = .ok k1)
    (h2 : generateSharedKey C (some p2) (some priv) (some pub) = .ok k2) : k1 ≠ k2 := by
  intro he
  simp only [generateSharedKey] at h1 h2
  split at h1 <;> simp only [Outcome.ok.injEq, reduceCtorEq] at h1
  split at h2 <;> simp only [Outcome.ok.injEq, reduceCtorEq] at h2
  refine hh (xorBytes_inj (C.dh priv pub) _ _ ?_ ?_ (h1.trans (he.trans h2.symm)))
  · rw [C.dh_length]; simp [hash, C.sha3_length]
  · rw [C.dh_length]; simp [hash, C.sha3_length]

/-- C36: a key with a PSK differs from the key without one, unless the hash of the PSK is zero. -/
theorem C36_psk_matters {priv pub p k1 k2 : Bytes} (hh : hash C p [salt, cipherKeyLabel] ≠ List.replicate 32 0)
    (h1 : generateSharedKey C (some p) (some priv) (some pub) = .ok k1)
    (h2 : generateSharedKey C none (some priv) (some pub) = .ok k2) : k1 ≠ k2 := by
  intro he
  have hz : ∀ k : Bytes, xorBytes k (List.replicate k.length 0) = k := by
    intro k
    induction k with
    | nil => rfl
    | cons x k ih =>
      simp only [xorBytes, List.length_cons, List.replicate_succ, List.zipWith_cons_cons] at ih ⊢
      rw [ih]; simp
  simp only [generateSharedKey] at h1 h2
  split at h1 <;> simp only [Outcome.ok.injEq, reduceCtorEq] at h1
  split at h2 <;> simp only [Outcome.ok.injEq, reduceCtorEq] at h2
  have h3 := hz (C.dh priv pub)
  rw [C.dh_length] at h3
  refine hh (xorBytes_inj (C.dh priv pub) _ _ ?_ ?_ (h1.trans (he.trans (h2.symm.trans h3.symm))))
  · rw [C.dh_length]; simp [hash, C.sha3_length]
  · rw [C.dh_length]; simp

/-- The input of the first hash function for a PSK and a label (hash.go:14-21). -/
def preHashInput (psk label : Bytes) : Bytes := psk ++ (salt ++ label)

/-- C36: the inputs of the first hash function are different for different PSKs, and for the two purposes, whatever the
PSKs. -/
theorem C36_inputs :
    (∀ label p1 p2, preHashInput p1 label = preHashInput p2 label → p1 = p2) ∧
    (∀ p1 p2, preHashInput p1 cipherKeyLabel ≠ preHashInput p2 auxCipherKeyLabel) := by
  refine ⟨fun label p1 p2 h => List.append_cancel_right h, fun p1 p2 h => ?_⟩
  have h' := congrArg (fun l => l.reverse.take 9) h
  simp only [preHashInput, List.reverse_append, List.append_assoc] at h'
  rw [List.take_append_of_le_length (by decide), List.take_append_of_le_length (by decide)] at h'
  exact absurd h' (by decide)

/-- C36: the inputs of the second hash function: equal only for the same purpose and equal results of the first. -/
theorem C36_inputs_second (p1 p2 : Bytes) :
    (∀ label, C.blake3 (preHashInput p1 label) ++ (salt ++ label) = C.blake3 (preHashInput p2 label) ++ (salt ++ label) →
      C.blake3 (preHashInput p1 label) = C.blake3 (preHashInput p2 label)) ∧
    C.blake3 (preHashInput p1 cipherKeyLabel) ++ (salt ++ cipherKeyLabel) ≠
      C.blake3 (preHashInput p2 auxCipherKeyLabel) ++ (salt ++ auxCipherKeyLabel) := by
  refine ⟨fun label h => List.append_cancel_right h, fun h => ?_⟩
  have := congrArg List.length h
  simp only [List.length_append, C.blake3_length] at this
  exact absurd this (by decide)

/-- The salt and the labels in full. -/
example : salt.map BitVec.toNat = "xaionaro-go/secureio.KeyExchanger".toList.map Char.toNat ∧
    cipherKeyLabel.map BitVec.toNat = "cipherKey".toList.map Char.toNat ∧
    auxCipherKeyLabel.map BitVec.toNat = "auxCipherKey".toList.map Char.toNat := by decide +kernel

/-- The keys are computed from these inputs. -/
theorem C36_hash (psk label : Bytes) : hash C psk [salt, label] = C.sha3 (C.blake3 (preHashInput psk label) ++ (salt ++ label)) := by
  simp [hash, preHashInput]

/-- C36: where the two uses of the PSK get their keys from: the key of the packets before the exchange is the whole hash with the one
label, the exchanged key is XORed byte by byte with the hash with the other. -/
theorem C36_derived (psk : Bytes) :
    auxCipherKey C psk = C.sha3 (C.blake3 (preHashInput psk auxCipherKeyLabel) ++ (salt ++ auxCipherKeyLabel)) ∧
    ∀ {priv pub k : Bytes}, generateSharedKey C (some psk) (some priv) (some pub) = .ok k →
      k = (C.dh priv pub).zipWith (· ^^^ ·) (C.sha3 (C.blake3 (preHashInput psk cipherKeyLabel) ++ (salt ++ cipherKeyLabel))) := by
  refine ⟨?_, fun h => ?_⟩
  · rw [auxCipherKey, C36_hash, List.take_of_length_le (by rw [C.sha3_length]; decide)]
  · simp only [generateSharedKey] at h
    split at h <;> simp only [Outcome.ok.injEq, reduceCtorEq] at h
    rw [← h, C36_hash, xorBytes]

example : ∃ k1 k2, generateSharedKey toy (some [1]) (some [1]) (some (toy.pub [2])) = .ok k1 ∧
    generateSharedKey toy (some [2]) (some [1]) (some (toy.pub [2])) = .ok k2 ∧
    hash toy [1] [salt, cipherKeyLabel] ≠ hash toy [2] [salt, cipherKeyLabel] :=
  ⟨_, _, rfl, rfl, by decide +kernel⟩

/-! ### C39 -/

/-- C39, what does hold: a message with the current ECDH key changes no key. -/
theorem C39_current_partial {s : State} {b : Bytes} {msg : KxMsg} (h : s.keys.nextRemote = some msg.kxPublicKey) :
    (enter C s b msg).keys = s.keys := by
  unfold enter
  split
  · rfl
  · split
    · rfl
    · simp [Keys.receive, h]

/-- Negation of C39, in general: any message ever signed by the peer, of whatever session and age, is accepted as
current (if its answers mode is the configured one, which does not change): its key becomes the current remote key. -/
theorem C39_violated {s : State} {id b : Bytes} {msg : KxMsg} (hid : s.remoteIdentity = some id) (hr : s.reader = .idle)
    (hc : s.ctx = false) (hm : s.main.locks = false) (hv : Valid C cfg id b msg) :
    ∃ s', runActs C cfg s [.recv b, .reader] = .ok s' ∧ s'.keys.nextRemote = some msg.kxPublicKey := by
  have hp := (parse_valid hv).1
  refine ⟨enter C { s with reader := .parsed b msg } b msg, ?_, ?_⟩
  · simp [runActs, step, hr, hid, hp, readerStep, hm]
  · simp only [enter, hc, hid, Option.some_or, Keys.receive, Bool.false_eq_true, if_false]
    split <;> simp_all

/-- Negation of C39: Bob's first message, played back after his second one, and a message of another session of his.
The session keys of Alice are changed by both. -/
theorem C39_violated_witness :
    (aliceAt (rotate [4] 5 ++ handle bob1 ++ handle bob2)).keys.nextRemote = some (toy.pub [2]) ∧
    (aliceAt (rotate [4] 5 ++ handle bob1 ++ handle bob2 ++ handle bob1)).keys.nextRemote = some (toy.pub [1]) ∧
    (aliceAt (rotate [4] 5 ++ handle bob1 ++ handle bob2 ++ handle bob1)).sess.cipherKeys ≠
      (aliceAt (rotate [4] 5 ++ handle bob1 ++ handle bob2)).sess.cipherKeys ∧
    (aliceAt (rotate [4] 5 ++ handle bob1 ++ handle (kxMessage toy { bob with sessionID := ⟨77, 7⟩ } (toy.pub [3]) false))).keys.nextRemote =
      some (toy.pub [3]) := by decide +kernel

example : Valid toy alice (toy.idPub [8]) bob1 (KxMsg.decode (bodyOf bob1)) :=
  ⟨by decide +kernel, by decide +kernel, rfl, by decide +kernel, by decide +kernel⟩

/-! ### C40 -/

/-- C40, what does hold: a step of the exchanger panics only if a local key and an accepted remote key have the zero
Diffie-Hellman secret, or if the random generator failed before. -/
theorem C40_cause_partial {remote : Option Bytes} {s : State} {a : Act} (hr : Reachable C cfg remote s) :
    step C cfg s a ≠ .panic ∧ ∀ e, step C cfg s a = .err e →
      (∃ x ∈ s.gens, ∃ y ∈ s.accepted, C.dh x.1 y = List.replicate 32 0) ∨ Report.genFailed ∈ s.reports := by
  refine ⟨(crash_cause hr).1, fun e he => ?_⟩
  rcases (crash_cause hr).2 e he with ⟨_, h⟩ | ⟨_, h1, h2⟩
  · obtain ⟨a, b, ha, hb, hz⟩ := secrets_none h
    have hk := keysOK_reachable hr
    have ha' : a ∈ s.gens.map (·.1) := by
      rcases ha with ha | ha
      · exact hk.nextLocal a ha
      · exact hk.prevLocal a ha
    have hb' : b ∈ s.accepted := by
      rcases hb with hb | hb
      · exact hk.nextRemote b hb
      · exact hk.prevRemote b hb
    obtain ⟨x, hx, rfl⟩ := List.mem_map.1 ha'
    exact .inl ⟨x, hx, b, hb', hz⟩
  · rcases (pubOK_reachable hr).ansSend h2 with h | h
    · exact absurd h1 h
    · exact .inr h

/-- C40 for honest peers: if every accepted public key belongs to a private key and no two private keys have the zero
secret, nothing panics while the random generator works. -/
theorem C40_honest_partial {remote : Option Bytes} {s : State} {a : Act} (hr : Reachable C cfg remote s)
    (hacc : ∀ y ∈ s.accepted, ∃ k, y = C.pub k) (hdh : ∀ k1 k2, C.dh k1 (C.pub k2) ≠ List.replicate 32 0)
    (hgen : Report.genFailed ∉ s.reports) : step C cfg s a ≠ .panic ∧ ∀ e, step C cfg s a ≠ .err e := by
  refine ⟨(C40_cause_partial hr).1, fun e he => ?_⟩
  rcases (C40_cause_partial hr).2 e he with ⟨x, _, y, hy, hz⟩ | h
  · obtain ⟨k, rfl⟩ := hacc y hy
    exact hdh _ _ hz
  · exact hgen h

example : Reachable toy alice none (aliceAt (rotate [4] 5 ++ handle bob1)) ∧
    (aliceAt (rotate [4] 5 ++ handle bob1)).accepted = [toy.pub [1]] ∧
    (∀ k1 k2, toy.dh k1 (toy.pub k2) ≠ List.replicate 32 0) := by
  refine ⟨reachable_run (by decide +kernel), by decide +kernel, fun k1 k2 => ?_⟩
  simp [toy, lowOrder, List.replicate_succ]

/-- Negation of C40, in general: a signed message with a key of low order (zero secret, but not the zero key) panics
every receiver which has a local key. -/
theorem C40_violated {s : State} {id b k : Bytes} {msg : KxMsg} (hid : s.remoteIdentity = some id) (hr : s.reader = .idle)
    (hc : s.ctx = false) (hm : s.main.locks = false) (hv : Valid C cfg id b msg) (hk : s.keys.nextLocal = some k)
    (hz : C.dh k msg.kxPublicKey = zeroKey) : runActs C cfg s [.recv b, .reader, .reader] = .err .zeroSecret := by
  have hp := (parse_valid hv).1
  have hl : (s.keys.receive msg.kxPublicKey).nextLocal = some k := by unfold Keys.receive; split <;> simp [hk]
  have hn : (s.keys.receive msg.kxPublicKey).nextRemote = some msg.kxPublicKey := by
    unfold Keys.receive; split
    · assumption
    · rfl
  have hs : secrets C cfg.psk (s.keys.receive msg.kxPublicKey) = none := by
    unfold secrets
    have : secret C cfg.psk (s.keys.receive msg.kxPublicKey) 0 = none := by
      simp [secret, Keys.pair, hl, hn, generateSharedKey, hz]
    rw [this]
  simp [runActs, step, hr, hid, hp, readerStep, hm, enter, hc, hs]

/-- Negation of C40: without a configured identity anybody can do it. -/
theorem C40_violated_witness :
    runActs toy alice (aliceAt (rotate [4] 5)) [.recv (kxMessage toy bob lowOrder false), .reader, .reader] = .err .zeroSecret ∧
    Reachable toy alice none (aliceAt (rotate [4] 5)) := by
  exact ⟨by decide +kernel, reachable_run (by decide +kernel)⟩

/-- Negation of C40: after a failure of the random generator, answering a message dereferences nil. -/
theorem C40_violated_nil : runActs toy alice (State.init none)
    (handle bob1 ++ [.answer 0 none 0 true, .answer 0 none 0 true, .answer 0 none 0 true, .answer 0 none 0 true]) =
      .err .nilPublicKey := by decide +kernel

/-! ### C41 -/

/-- C41: a signed message with another answers mode or with the zero key is reported, and that is all. -/
theorem C41_ignored {s : State} {id b : Bytes} (hid : s.remoteIdentity = some id) (hr : s.reader = .idle)
    (hl : 146 ≤ b.length) (hsig : C.verify id (b.take 64) ((b.drop 64).take 82) = true) :
    ((KxMsg.decode ((b.drop 64).take 82)).answersMode ≠ cfg.mode →
      step C cfg s (.recv b) = .ok { s with reports := s.reports ++ [.modeMismatch] }) ∧
    ((KxMsg.decode ((b.drop 64).take 82)).answersMode = cfg.mode →
      (KxMsg.decode ((b.drop 64).take 82)).kxPublicKey = List.replicate 32 0 →
      step C cfg s (.recv b) = .ok { s with reports := s.reports ++ [.zeroKey] }) := by
  have hl' : ¬ b.length < kxSignedSize := by simp only [kxSignedSize]; omega
  have hsig' : C.verify id (sigOf b) (bodyOf b) = true := hsig
  refine ⟨fun hm => ?_, fun hm hz => ?_⟩
  · have hp : parseAndCheck C cfg s.remoteIdentity b = .err .modeMismatch := by
      unfold parseAndCheck
      rw [if_neg hl', if_neg (by simp [hid, checkSig, hsig'])]
      exact if_pos hm
    simp only [step, hr, hp, report]
  · have hp : parseAndCheck C cfg s.remoteIdentity b = .err .zeroKey := by
      unfold parseAndCheck
      rw [if_neg hl', if_neg (by simp [hid, checkSig, hsig']), if_neg (by simpa [bodyOf] using hm)]
      exact if_pos hz
    simp only [step, hr, hp, report]

/-- What the modes prescribe: does a message complete the exchange, and is it answered? -/
def prescribed (mode : Nat) (answer : Bool) : Bool × Bool :=
  match mode, answer with
  | 1, false => (false, true)
  | 1, true => (true, false)
  | 2, false => (true, true)
  | 2, true => (true, false)
  | 3, _ => (true, false)
  | _, _ => (false, false)

/-- C41: handling an acceptable message from start to end: the exchange succeeds, and an answer is started, as the mode
prescribes; the key is the current one and the secrets are those of the keys. -/
theorem C41_handle {s s' : State} {id b : Bytes} {msg : KxMsg} (hid : s.remoteIdentity = some id) (hr : s.reader = .idle)
    (hc : s.ctx = false) (hm : s.main.locks = false) (hv : Valid C cfg id b msg)
    (hmode : cfg.mode = 1 ∨ cfg.mode = 2 ∨ cfg.mode = 3)
    (hs : runActs C cfg s [.recv b, .reader, .reader, .reader, .reader] = .ok s') :
    s'.successes = s.successes + (if (prescribed cfg.mode.toNat (isAnswer msg.flags)).1 then 1 else 0) ∧
    s'.answers = s.answers ++ (if (prescribed cfg.mode.toNat (isAnswer msg.flags)).2 then [.start] else []) ∧
    s'.keys = s.keys.receive msg.kxPublicKey ∧ s'.reader = .idle ∧ s'.reports = s.reports := by
  have hp := (parse_valid hv).1
  simp only [runActs, step, hr, hid, hp, readerStep, hm, enter, hc, Bool.false_eq_true, if_false, Option.some_or] at hs
  split at hs <;> try (simp only [reduceCtorEq] at hs; done)
  rename_i h1
  split at h1 <;> try (simp only [reduceCtorEq] at h1; done)
  simp only [Outcome.ok.injEq] at h1
  subst h1
  simp only at hs
  split at hs <;> try (simp only [reduceCtorEq] at hs; done)
  rename_i h2
  split at h2 <;> try (simp only [reduceCtorEq] at h2; done)
  rename_i hpub
  simp only [Outcome.ok.injEq] at h2
  subst h2
  obtain ⟨k, hk, _⟩ := publish_eq hpub
  subst hk
  simp only [Outcome.ok.injEq] at hs
  subst hs
  rcases hmode with h | h | h <;> cases hans : isAnswer msg.flags <;>
    simp [finish, succeeds, answered, h, hans, prescribed]

example : Valid toy alice (toy.idPub [8]) bobAnswer (KxMsg.decode (bodyOf bobAnswer)) ∧
    isOk (runActs toy alice { aliceAt (rotate [4] 5) with remoteIdentity := some (toy.idPub [8]) } (handle bobAnswer)) ∧
    isAnswer (KxMsg.decode (bodyOf bobAnswer)).flags = true ∧ isAnswer (KxMsg.decode (bodyOf bob1)).flags = false :=
  ⟨⟨by decide +kernel, by decide +kernel, rfl, by decide +kernel, by decide +kernel⟩, by decide +kernel, by decide +kernel,
    by decide +kernel⟩

/-- An observation beside C33 and C41: while no identity is known, the mode is checked before any signature, so any 146
bytes with a wrong mode are reported as an error, which closes the session (session.go:2099-2103). -/
theorem C41_unverified {s : State} {b : Bytes} (hid : s.remoteIdentity = none) (hr : s.reader = .idle) (hl : 146 ≤ b.length)
    (hm : (KxMsg.decode (bodyOf b)).answersMode ≠ cfg.mode) :
    step C cfg s (.recv b) = .ok { s with reports := s.reports ++ [.modeMismatch] } := by
  have hl' : ¬ b.length < kxSignedSize := by simp only [kxSignedSize]; omega
  have hp : parseAndCheck C cfg none b = .err .modeMismatch := by
    unfold parseAndCheck
    rw [if_neg hl', if_neg (by simp [checkSig]), if_pos hm]
  simp only [step, hr, hid, hp, report]

example : (KxMsg.decode (bodyOf (List.replicate 146 0))).answersMode ≠ alice.mode := by decide +kernel

/-! ### C42 -/

/-- C42: at every moment the session has either no keys at all, its channel being open, or a whole set of four which
`updateSecrets` computed at once from the keys the exchanger had at some time before, with a current key of 32 bytes;
the channel was then closed exactly once. -/
theorem C42_keys {remote : Option Bytes} {s : State} (hr : Reachable C cfg remote s) :
    (s.sess.cipherKeys = [] ∧ s.sess.closes = 0) ∨
    (∃ k0 k1 k2 k3, s.sess.cipherKeys = [some k0, k1, k2, k3] ∧ k0.length = 32 ∧ s.sess.closes = 1 ∧
      ∃ s0 as, Reachable C cfg remote s0 ∧ runActs C cfg s0 as = .ok s ∧
        secrets C cfg.psk s0.keys = some [some k0, k1, k2, k3]) := by
  rcases (sessOK_reachable hr).keys with h | ⟨l, x, ⟨s0, as, h1, h2, h3⟩, h4, _, h6, h7, _, h9⟩
  · exact .inl ⟨h.1, h.2.2⟩
  · obtain ⟨a, b, c, d, rfl, _⟩ := secrets_eq h3
    simp only [List.getElem?_cons_zero, Option.some.injEq] at h6
    subst h6
    exact .inr ⟨x, b, c, d, h4, h7, h9, s0, as, h1, h2, h3⟩

/-- C42: once there, the current key stays, whatever happens. -/
theorem C42_available {remote : Option Bytes} : ∀ (as : List Act) {s s' : State}, Reachable C cfg remote s →
    s.sess.cipherKeys ≠ [] → runActs C cfg s as = .ok s' → ∃ k, s'.sess.cipherKeys[0]? = some (some k) ∧ k.length = 32 := by
  intro as
  induction as with
  | nil =>
    intro s s' hr hne hs
    simp only [runActs, Outcome.ok.injEq] at hs; subst hs
    rcases C42_keys hr with ⟨h, _⟩ | ⟨k0, _, _, _, h, h2, _⟩
    · exact absurd h hne
    · exact ⟨k0, by simp [h], h2⟩
  | cons a as ih =>
    intro s s' hr hne hs
    simp only [runActs] at hs
    split at hs <;> try (simp only [reduceCtorEq] at hs; done)
    rename_i s1 hs1
    refine ih (.step a hr hs1) ?_ hs
    rcases (sessStep hs1).sess with he | ⟨l, hp, hset, h0⟩
    · rw [he]; exact hne
    · obtain ⟨s0, as, _, _, hl⟩ := pending_taken hr l hp
      rw [setSecrets_taken hl h0 (sessOK_reachable hr).pre, Option.some.injEq] at hset
      rw [← hset]
      obtain ⟨a, b, c, d, rfl, _⟩ := secrets_eq hl
      simp

/-- C42: `GetCipherKeysWait` never panics, never returns keys without a current one, does not wait once they are
there, and before that returns nil only at the end of the context. -/
theorem C42_wait {remote : Option Bytes} {s : State} (hr : Reachable C cfg remote s) (byCtx ctx : Bool) :
    getCipherKeysWait s.sess byCtx ctx ≠ .panic ∧
    (∀ keys, getCipherKeysWait s.sess byCtx ctx = .ok (some keys) →
      ∃ k0 k1 k2 k3, keys = [some k0, k1, k2, k3] ∧ k0.length = 32) ∧
    (s.sess.cipherKeys ≠ [] → getCipherKeysWait s.sess byCtx ctx = .ok (some s.sess.cipherKeys)) ∧
    (s.sess.cipherKeys = [] → getCipherKeysWait s.sess byCtx ctx = if byCtx && ctx then .ok none else .block) := by
  have hok := (sessOK_reachable hr).keys
  rcases C42_keys hr with ⟨h, _⟩ | ⟨k0, k1, k2, k3, h, h2, _⟩
  · have hc : s.sess.chanClosed = false := by
      rcases hok with h' | ⟨l, x, _, h4, h5, _⟩
      · exact h'.2.1
      · rw [← h4, h] at h5; simp at h5
    cases byCtx <;> cases ctx <;> simp [getCipherKeysWait, h, hc]
  · have : getCipherKeysWait s.sess byCtx ctx = .ok (some [some k0, k1, k2, k3]) := by simp [getCipherKeysWait, h]
    rw [this]
    refine ⟨by simp, fun keys hk => ?_, fun _ => by rw [h], fun h0 => by rw [h] at h0; cases h0⟩
    simp only [Outcome.ok.injEq, Option.some.injEq] at hk
    exact ⟨k0, k1, k2, k3, hk.symm, h2⟩

/-- C42: no schedule makes `setSecrets` close the channel twice. -/
theorem C42_no_double_close {remote : Option Bytes} {s : State} {a : Act} (hr : Reachable C cfg remote s) :
    step C cfg s a ≠ .err .doubleClose := by
  intro h
  rcases (crash_cause hr).2 _ h with ⟨h, _⟩ | ⟨h, _⟩ <;> simp at h

example : (aliceAt (rotate [4] 5 ++ handle bob1)).sess.cipherKeys.length = 4 ∧ (aliceAt (rotate [4] 5 ++ handle bob1)).sess.closes = 1 := by
  decide +kernel

#print axioms C33_ignored
#print axioms C33_effect
#print axioms C34_pinned
#print axioms C34_adopted
#print axioms C34_first
#print axioms C36_keys_differ
#print axioms C36_psk_matters
#print axioms C36_inputs
#print axioms C36_inputs_second
#print axioms C36_hash
#print axioms C36_derived
#print axioms C39_current_partial
#print axioms C39_violated
#print axioms C39_violated_witness
#print axioms C40_cause_partial
#print axioms C40_honest_partial
#print axioms C40_violated
#print axioms C40_violated_witness
#print axioms C40_violated_nil
#print axioms C41_ignored
#print axioms C41_handle
#print axioms C41_unverified
#print axioms C42_keys
#print axioms C42_available
#print axioms C42_wait
#print axioms C42_no_double_close

end Verif.KX
