import Verif.Props.Forget
/-!
# C164: `GetRemoteIdentity` returns the identity that has signed the keys of the session

`GetRemoteIdentity` (session.go:2011-2018) returns `sess.remoteIdentity`, which `setRemoteIdentityFromPublicKey`
(key_exchanger.go:402-406) sets to the field of the exchanger; both begin with the configured value (session.go:428,
2094).  Here it is the field `remoteIdentity` of the model of the exchanger.
-/
namespace Verif.KX
open Verif.Headers

variable {C : Crypto} {cfg : Cfg}

/-- Is there a message among those received so far that `id` has signed and that carries the ECDH public key `r`? -/
def SignedBy (C : Crypto) (as : List Act) (id r : Bytes) : Prop :=
  ∃ b, Act.recv b ∈ as ∧ 146 ≤ b.length ∧ C.verify id (b.take 64) ((b.drop 64).take 82) = true ∧
    (KxMsg.decode ((b.drop 64).take 82)).kxPublicKey = r

theorem SignedBy.mono {as as' : List Act} {id r : Bytes} (h : SignedBy C as id r) (hs : ∀ a ∈ as, a ∈ as') :
    SignedBy C as' id r := by
  obtain ⟨b, h1, h2⟩ := h
  exact ⟨b, hs _ h1, h2⟩

/-- The keys accepted so far are signed by the remote identity, and all that the reader and the answers do is for a
known identity. -/
structure Believed (C : Crypto) (remote : Option Bytes) (as : List Act) (s : State) : Prop where
  acc : ∀ r ∈ s.accepted, ∃ id, s.remoteIdentity = some id ∧ SignedBy C as id r
  hand : ∀ b msg, s.reader = .parsed b msg → Act.recv b ∈ as
  past : s.reader.locks = true → s.accepted ≠ []
  ans : s.answers ≠ [] → s.accepted ≠ []
  suc : s.successes ≠ 0 → s.accepted ≠ []
  cfgd : ∀ id, remote = some id → s.remoteIdentity = some id
  new : remote = none → s.accepted = [] → s.remoteIdentity = none

theorem believed_step {remote : Option Bytes} {as : List Act} {s s' : State} {a : Act} (hr : Reachable C cfg remote s)
    (ih : Believed C remote as s) (hs : step C cfg s a = .ok s') : Believed C remote (as ++ [a]) s' := by
  have mono : ∀ x ∈ as, x ∈ as ++ [a] := fun x hx => List.mem_append_left _ hx
  have hacc : ∀ r ∈ s.accepted, ∃ id, s.remoteIdentity = some id ∧ SignedBy C (as ++ [a]) id r := fun r hrm =>
    have ⟨id, h1, h2⟩ := ih.acc r hrm
    ⟨id, h1, h2.mono mono⟩
  by_cases h1 : ∃ b, a = .recv b
  · obtain ⟨b, rfl⟩ := h1
    simp only [step] at hs
    split at hs
    · rename_i hrd
      split at hs <;> simp only [Outcome.ok.injEq, reduceCtorEq] at hs <;> subst hs
      · refine ⟨hacc, ?_, by simp [Reader.locks], ih.ans, ih.suc, ih.cfgd, ih.new⟩
        intro b' msg' he
        simp only [Reader.parsed.injEq] at he
        simp [he.1]
      · exact ⟨hacc, fun b' m h => mono _ (ih.hand b' m h), ih.past, ih.ans, ih.suc, ih.cfgd, ih.new⟩
    · simp at hs
  · by_cases h2 : a = .reader
    · subst h2
      have hok := readerOK_reachable hr
      simp only [step, readerStep] at hs
      split at hs
      · simp at hs
      · rename_i b msg hrd
        simp only [ReaderOK, hrd] at hok
        split at hs
        · simp at hs
        · simp only [Outcome.ok.injEq] at hs
          subst hs
          rcases enter_cases s b msg hok with ⟨he, _⟩ | ⟨id, hv, _, hid, he⟩ <;> rw [he]
          · exact ⟨hacc, by simp, by simp [Reader.locks], ih.ans, ih.suc, ih.cfgd, ih.new⟩
          · refine ⟨?_, by simp, by simp, by simp, by simp, ?_, by simp⟩
            · intro r hrm
              simp only [List.mem_append, List.mem_singleton] at hrm
              refine ⟨id, rfl, ?_⟩
              rcases hrm with hrm | rfl
              · obtain ⟨id', h3, h4⟩ := hacc r hrm
                rcases hid with hid | hid
                · rw [hid, Option.some.injEq] at h3; exact h3 ▸ h4
                · rw [hid.1] at h3; simp at h3
              · exact ⟨b, mono _ (ih.hand b msg hrd), hv.len, hv.sig, by rw [hv.dec]; rfl⟩
            · intro id' h
              have := ih.cfgd id' h
              rcases hid with hid | hid
              · rw [hid] at this; exact this
              · rw [hid.1] at this; simp at this
      · rename_i msg hrd
        split at hs <;> simp only [Outcome.ok.injEq, reduceCtorEq] at hs
        subst hs
        exact ⟨hacc, by simp, fun _ => ih.past (by simp [hrd, Reader.locks]), ih.ans, ih.suc, ih.cfgd, ih.new⟩
      · rename_i msg l hrd
        split at hs <;> simp only [Outcome.ok.injEq, reduceCtorEq] at hs
        rename_i s1 hp
        obtain ⟨k, hk, _⟩ := publish_eq hp
        subst hs; rw [hk]
        exact ⟨hacc, by simp, fun _ => ih.past (by simp [hrd, Reader.locks]), ih.ans, ih.suc, ih.cfgd, ih.new⟩
      · rename_i msg hrd
        simp only [Outcome.ok.injEq] at hs; subst hs
        have hne : s.accepted ≠ [] := ih.past (by simp [hrd, Reader.locks])
        obtain ⟨f1, -, -, f4, f5, -⟩ := finish_frame (cfg := cfg) s msg
        exact ⟨by rw [f1, f4]; exact hacc, by simp [f5], by simp [f5, Reader.locks], fun _ => by rw [f4]; exact hne,
          fun _ => by rw [f4]; exact hne, by rw [f1]; exact ih.cfgd, by rw [f1, f4]; exact ih.new⟩
    · have hf := step_frame hs (fun b e => h1 ⟨b, e⟩) h2
      refine ⟨by rw [hf.accepted, hf.remoteIdentity]; exact hacc,
        by rw [hf.reader]; exact fun b' m h => mono _ (ih.hand b' m h),
        by rw [hf.reader, hf.accepted]; exact ih.past, ?_, by rw [hf.successes, hf.accepted]; exact ih.suc,
        by rw [hf.remoteIdentity]; exact ih.cfgd, by rw [hf.remoteIdentity, hf.accepted]; exact ih.new⟩
      intro hne
      rw [hf.accepted]
      refine ih.ans fun h => hne ?_
      have := hf.answers
      rw [h] at this
      exact List.eq_nil_of_length_eq_zero (by simpa using this)

theorem believed_from {remote : Option Bytes} : ∀ (as pre : List Act) {s s' : State}, Reachable C cfg remote s →
    Believed C remote pre s → runActs C cfg s as = .ok s' → Believed C remote (pre ++ as) s' := by
  intro as
  induction as with
  | nil =>
    intro pre s s' _ hb h
    simp only [runActs, Outcome.ok.injEq] at h; subst h; simpa using hb
  | cons a as ih =>
    intro pre s s' hr hb h
    simp only [runActs] at h
    split at h <;> try (simp only [reduceCtorEq] at h; done)
    rename_i s1 hs1
    have := ih (pre ++ [a]) (.step a hr hs1) (believed_step hr hb hs1) h
    simpa using this

theorem believed {remote : Option Bytes} {as : List Act} {s : State}
    (h : runActs C cfg (State.init remote) as = .ok s) : Believed C remote as s := by
  have h0 : Believed C remote [] (State.init remote) :=
    ⟨by simp [State.init], by simp [State.init], by simp [State.init, Reader.locks], by simp [State.init],
      by simp [State.init], by simp [State.init], by simp [State.init]⟩
  simpa using believed_from as [] .init h0 h

/-- C164: every exchanged key of a session is the shared key of an own ECDH key and of an ECDH public key in a message
that was received and signed by the identity that `GetRemoteIdentity` returns. -/
theorem C164_keys {remote : Option Bytes} {as : List Act} {s : State} {k : Bytes}
    (h : runActs C cfg (State.init remote) as = .ok s) (hk : some k ∈ s.sess.cipherKeys) :
    ∃ id, s.remoteIdentity = some id ∧
      ∃ b, Act.recv b ∈ as ∧ 146 ≤ b.length ∧ C.verify id (b.take 64) ((b.drop 64).take 82) = true ∧
      ∃ a ∈ s.gens.map (·.1), generateSharedKey C cfg.psk (some a)
        (some (KxMsg.decode ((b.drop 64).take 82)).kxPublicKey) = .ok k := by
  obtain ⟨-, -, -, -, a, -, r, -, ha, hr, hg⟩ := C127_origin_partial (runActs_reachable as .init h) hk
  obtain ⟨id, h1, b, h2, h3, h4, rfl⟩ := (believed h).acc r hr
  exact ⟨id, h1, b, h2, h3, h4, a, ha, hg⟩

/-- C164: with a configured remote identity `GetRemoteIdentity` always returns this one; without, it returns nil exactly
as long as no message was accepted. -/
theorem C164_known {remote : Option Bytes} {as : List Act} {s : State}
    (h : runActs C cfg (State.init remote) as = .ok s) :
    (∀ id, remote = some id → s.remoteIdentity = some id) ∧
    (s.remoteIdentity = none ↔ remote = none ∧ s.accepted = []) := by
  have hb := believed h
  refine ⟨hb.cfgd, fun hn => ⟨?_, ?_⟩, fun ⟨h1, h2⟩ => hb.new h1 h2⟩
  · cases hr : remote with
    | none => rfl
    | some id => rw [hb.cfgd id hr] at hn; simp at hn
  · cases ha : s.accepted with
    | nil => rfl
    | cons r l =>
      obtain ⟨id, h1, -⟩ := hb.acc r (by simp [ha])
      rw [hn] at h1; simp at h1

/-- C164: `GetRemoteIdentity` does not return nil once an exchange counts as successful (the session leaves
`KeyExchanging`), an answer is on its way or an exchanged key is there. -/
theorem C164_in_time {remote : Option Bytes} {as : List Act} {s : State}
    (h : runActs C cfg (State.init remote) as = .ok s)
    (ht : s.successes ≠ 0 ∨ s.answers ≠ [] ∨ ∃ k, some k ∈ s.sess.cipherKeys) : ∃ id, s.remoteIdentity = some id := by
  have hb := believed h
  have key : s.accepted ≠ [] → ∃ id, s.remoteIdentity = some id := by
    intro hne
    obtain ⟨r, hr⟩ := List.exists_mem_of_ne_nil _ hne
    obtain ⟨id, h1, -⟩ := hb.acc r hr
    exact ⟨id, h1⟩
  rcases ht with h1 | h1 | ⟨k, hk⟩
  · exact key (hb.suc h1)
  · exact key (hb.ans h1)
  · obtain ⟨id, h1, -⟩ := C164_keys h hk
    exact ⟨id, h1⟩

/-- Alice, who knows nobody yet, makes a key and gets the answer of Bob. -/
example : let s := aliceAt (rotate [4] 10 ++ handle bobAnswer)
    s.remoteIdentity = some (toy.idPub [8]) ∧ s.successes = 1 ∧ s.sess.cipherKeys.length = 4 ∧
      (s.sess.cipherKeys[0]?).join ≠ none ∧ toy.verify (toy.idPub [8]) (bobAnswer.take 64) ((bobAnswer.drop 64).take 82) = true := by
  decide +kernel

/-- Before, and after a message with a bad signature, she knows nobody. -/
example : (aliceAt (rotate [4] 10)).remoteIdentity = none ∧
    (aliceAt (rotate [4] 10 ++ [.recv ((bobAnswer.take 4) ++ 77 :: bobAnswer.drop 5), .reader])).remoteIdentity = none := by
  decide +kernel

/-- With Carol configured the message of Bob is not accepted. -/
example : (okState (runActs toy alice (State.init (some (toy.idPub [9]))) (rotate [4] 10 ++ [.recv bobAnswer]))).remoteIdentity =
    some (toy.idPub [9]) := by decide +kernel

#print axioms C164_keys
#print axioms C164_known
#print axioms C164_in_time

end Verif.KX
