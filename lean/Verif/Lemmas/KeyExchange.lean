import Verif.Model.KeyExchange
/-!
# Lemmas about the key exchanger
-/
namespace Verif.KX
open Verif.Headers

variable {C : Crypto} {cfg : Cfg}

theorem publish_eq {s s' : State} {l : List (Option Bytes)} (h : publish s l = some s') :
    ∃ k, s' = { s with sess := k } ∧ ((k = s.sess ∧ (l[0]?).join.getD [] = []) ∨
      (setSecrets s.sess l = some k ∧ (l[0]?).join.getD [] ≠ [])) := by
  unfold publish at h
  split at h
  · rename_i hz
    simp only [Option.some.injEq] at h; subst h
    exact ⟨s.sess, rfl, .inl ⟨rfl, hz⟩⟩
  · rename_i hz
    cases hk : setSecrets s.sess l with
    | none => simp [hk] at h
    | some k =>
      simp only [hk, Option.map_some, Option.some.injEq] at h
      exact ⟨k, h.symm, .inr ⟨rfl, hz⟩⟩

/-- What `updateLocalKey` leaves alone. -/
structure GenFrame (s s' : State) : Prop where
  remoteIdentity : s'.remoteIdentity = s.remoteIdentity
  remoteSessionID : s'.remoteSessionID = s.remoteSessionID
  nextRemote : s'.keys.nextRemote = s.keys.nextRemote
  prevRemote : s'.keys.prevRemote = s.keys.prevRemote
  reader : s'.reader = s.reader
  accepted : s'.accepted = s.accepted
  successes : s'.successes = s.successes
  created : s'.created = s.created
  sent : s'.sent = s.sent
  answers : s'.answers = s.answers
  main : s'.main = s.main

theorem GenFrame.refl (s : State) : GenFrame s s := ⟨rfl, rfl, rfl, rfl, rfl, rfl, rfl, rfl, rfl, rfl, rfl⟩

theorem genStep_frame {s s' : State} {key : Option Bytes} {now : Nat} {g : Gen} {o : Option Gen}
    (h : genStep C cfg s key now g = .ok (s', o)) : GenFrame s s' := by
  cases g with
  | check => simp only [genStep, Outcome.ok.injEq, Prod.mk.injEq] at h; rw [← h.1]; exact .refl _
  | gen =>
    simp only [genStep] at h
    split at h <;> simp only [Outcome.ok.injEq, Prod.mk.injEq] at h <;> rw [← h.1] <;>
      exact ⟨rfl, rfl, rfl, rfl, rfl, rfl, rfl, rfl, rfl, rfl, rfl⟩
  | snapshot =>
    simp only [genStep] at h
    split at h <;> simp only [Outcome.ok.injEq, Prod.mk.injEq, reduceCtorEq] at h
    rw [← h.1]; exact .refl _
  | publish l =>
    simp only [genStep] at h
    split at h <;> simp only [Outcome.ok.injEq, Prod.mk.injEq, reduceCtorEq] at h
    rename_i s1 hp
    obtain ⟨k, hk, _⟩ := publish_eq hp
    rw [← h.1, hk]
    exact ⟨rfl, rfl, rfl, rfl, rfl, rfl, rfl, rfl, rfl, rfl, rfl⟩

theorem sendPublicKey_ok {s s' : State} {a ok : Bool} (h : sendPublicKey C cfg s a ok = .ok s') :
    (∃ p, s.nextPub = some p ∧ s' = { s with sent := s.sent ++ [kxMessage C cfg p a] }) ∨
    s' = { s with ctx := true, reports := s.reports ++ [.sendFailed] } := by
  unfold sendPublicKey at h
  split at h
  · simp at h
  · split at h <;> simp only [Outcome.ok.injEq] at h
    · rename_i p hp _; exact .inl ⟨p, hp, h.symm⟩
    · exact .inr h.symm

/-- What the goroutines other than the reader leave alone. -/
structure Frame (s s' : State) : Prop where
  remoteIdentity : s'.remoteIdentity = s.remoteIdentity
  remoteSessionID : s'.remoteSessionID = s.remoteSessionID
  nextRemote : s'.keys.nextRemote = s.keys.nextRemote
  prevRemote : s'.keys.prevRemote = s.keys.prevRemote
  reader : s'.reader = s.reader
  accepted : s'.accepted = s.accepted
  successes : s'.successes = s.successes
  created : s'.created = s.created
  answers : s'.answers.length ≤ s.answers.length

theorem GenFrame.frame {s s' : State} (h : GenFrame s s') : Frame s s' :=
  ⟨h.remoteIdentity, h.remoteSessionID, h.nextRemote, h.prevRemote, h.reader, h.accepted, h.successes, h.created,
    by rw [h.answers]; exact Nat.le_refl _⟩

theorem frame_main {s s' : State} (h : Frame s s') (m : Main) : Frame s { s' with main := m } :=
  ⟨h.remoteIdentity, h.remoteSessionID, h.nextRemote, h.prevRemote, h.reader, h.accepted, h.successes, h.created, h.answers⟩

theorem frame_answers {s s' : State} (h : Frame s s') (as : List Answer) (hl : as.length ≤ s.answers.length) :
    Frame s { s' with answers := as } :=
  ⟨h.remoteIdentity, h.remoteSessionID, h.nextRemote, h.prevRemote, h.reader, h.accepted, h.successes, h.created, hl⟩

theorem frame_send {s s' : State} {a ok : Bool} (h : sendPublicKey C cfg s a ok = .ok s') : Frame s s' := by
  rcases sendPublicKey_ok h with ⟨p, _, rfl⟩ | rfl <;> exact ⟨rfl, rfl, rfl, rfl, rfl, rfl, rfl, rfl, Nat.le_refl _⟩

theorem frame_refl (s : State) : Frame s s := (GenFrame.refl s).frame

/-- Every step that is not one of `Handle`. -/
theorem step_frame {s s' : State} {a : Act} (h : step C cfg s a = .ok s') (h1 : ∀ b, a ≠ .recv b) (h2 : a ≠ .reader) :
    Frame s s' := by
  cases a with
  | recv b => exact absurd rfl (h1 b)
  | reader => exact absurd rfl h2
  | tick =>
    simp only [step] at h
    split at h <;> simp only [Outcome.ok.injEq, reduceCtorEq] at h
    subst h; exact frame_main (frame_refl s) _
  | main key now ok =>
    simp only [step, mainStep] at h
    split at h
    · split at h <;> simp only [Outcome.ok.injEq, reduceCtorEq] at h
      · rename_i hg; subst h; exact frame_main (genStep_frame hg).frame _
      · rename_i hg; subst h; exact frame_main (genStep_frame hg).frame _
    · split at h <;> simp only [Outcome.ok.injEq, reduceCtorEq] at h
      rename_i hg; subst h; exact frame_main (frame_send hg) _
    · simp at h
  | retry ok =>
    simp only [step] at h
    split at h
    · split at h <;> simp only [Outcome.ok.injEq, reduceCtorEq] at h
      rename_i hg; subst h; exact frame_send hg
    · simp at h
  | timeout =>
    simp only [step] at h
    split at h <;> simp only [Outcome.ok.injEq, reduceCtorEq] at h
    subst h; exact ⟨rfl, rfl, rfl, rfl, rfl, rfl, rfl, rfl, Nat.le_refl _⟩
  | done =>
    simp only [step] at h
    split at h <;> simp only [Outcome.ok.injEq, reduceCtorEq] at h
    subst h; exact frame_main (frame_refl s) _
  | answer i key now ok =>
    simp only [step, answerStep] at h
    split at h
    · simp at h
    · simp only [Outcome.ok.injEq] at h; subst h; exact frame_answers (frame_refl s) _ (by simp)
    · split at h <;> simp only [Outcome.ok.injEq, reduceCtorEq] at h
      · rename_i hg; subst h; exact frame_answers (genStep_frame hg).frame _ (by simp)
      · rename_i hg; subst h; exact frame_answers (genStep_frame hg).frame _ (by simp)
    · split at h <;> simp only [Outcome.ok.injEq, reduceCtorEq] at h
      rename_i hg; subst h
      exact frame_answers (frame_send hg) _ (List.length_eraseIdx_le ..)
  | cancel => simp only [step, Outcome.ok.injEq] at h; subst h; exact ⟨rfl, rfl, rfl, rfl, rfl, rfl, rfl, rfl, Nat.le_refl _⟩

/-- A message that passed `parseAndCheck` under the identity `id`. -/
structure Valid (C : Crypto) (cfg : Cfg) (id b : Bytes) (msg : KxMsg) : Prop where
  len : 146 ≤ b.length
  sig : C.verify id (sigOf b) (bodyOf b) = true
  dec : msg = KxMsg.decode (bodyOf b)
  mode : msg.answersMode = cfg.mode
  key : msg.kxPublicKey ≠ zeroKey

theorem parse_ok {remote : Option Bytes} {b : Bytes} {msg : KxMsg} (h : parseAndCheck C cfg remote b = .ok msg) :
    146 ≤ b.length ∧ (∀ id, remote = some id → C.verify id (sigOf b) (bodyOf b) = true) ∧
    msg = KxMsg.decode (bodyOf b) ∧ msg.answersMode = cfg.mode ∧ msg.kxPublicKey ≠ zeroKey := by
  unfold parseAndCheck at h
  split at h
  · simp at h
  · rename_i hl
    split at h
    · simp at h
    · rename_i hv
      split at h
      · simp at h
      · rename_i hm
        split at h
        · simp at h
        · rename_i hz
          simp only [Outcome.ok.injEq] at h
          subst h
          refine ⟨by simp only [kxSignedSize] at hl; omega, ?_, rfl, by simpa using hm, hz⟩
          intro id hid
          subst hid
          simpa [checkSig] using hv

theorem parse_valid {id b : Bytes} {msg : KxMsg} (h : Valid C cfg id b msg) :
    parseAndCheck C cfg (some id) b = .ok msg ∧ parseAndCheck C cfg none b = .ok msg := by
  have hl : ¬ b.length < kxSignedSize := by have := h.len; simp only [kxSignedSize]; omega
  have hm := h.dec
  have h1 := h.mode
  have h2 := h.key
  rw [hm] at h1 h2
  simp only [parseAndCheck, checkSig, hl, h.sig, h1, h2, if_false, ne_eq, not_true_eq_false, reduceCtorEq]
  exact ⟨by rw [hm], by rw [hm]⟩

/-- What is known about the message in hand. -/
def ReaderOK (C : Crypto) (cfg : Cfg) (s : State) : Prop :=
  match s.reader with
  | .idle => True
  | .parsed b msg => 146 ≤ b.length ∧ (∀ id, s.remoteIdentity = some id → C.verify id (sigOf b) (bodyOf b) = true) ∧
      msg = KxMsg.decode (bodyOf b) ∧ msg.answersMode = cfg.mode ∧ msg.kxPublicKey ≠ zeroKey
  | .snapshot msg => ∃ id b, s.remoteIdentity = some id ∧ Valid C cfg id b msg
  | .publish msg _ => ∃ id b, s.remoteIdentity = some id ∧ Valid C cfg id b msg
  | .finish msg => ∃ id b, s.remoteIdentity = some id ∧ Valid C cfg id b msg

/-- The two outcomes of the critical section. -/
theorem enter_cases (s : State) (b : Bytes) (msg : KxMsg)
    (h : 146 ≤ b.length ∧ (∀ id, s.remoteIdentity = some id → C.verify id (sigOf b) (bodyOf b) = true) ∧
      msg = KxMsg.decode (bodyOf b) ∧ msg.answersMode = cfg.mode ∧ msg.kxPublicKey ≠ zeroKey) :
    (enter C s b msg = { s with reader := .idle } ∧ (s.ctx = true ∨ (s.remoteIdentity = none ∧
      C.verify msg.identityPublicKey (sigOf b) (bodyOf b) = false))) ∨
    ∃ id, Valid C cfg id b msg ∧ s.ctx = false ∧
      (s.remoteIdentity = some id ∨ (s.remoteIdentity = none ∧ id = msg.identityPublicKey)) ∧
      enter C s b msg = { s with
        remoteIdentity := some id
        remoteSessionID := s.remoteSessionID.or (some msg.sessionID)
        keys := s.keys.receive msg.kxPublicKey
        accepted := s.accepted ++ [msg.kxPublicKey]
        reader := .snapshot msg } := by
  obtain ⟨h1, h2, h3, h4, h5⟩ := h
  unfold enter
  cases hc : s.ctx with
  | true => exact .inl ⟨by simp, .inl rfl⟩
  | false =>
    cases hid : s.remoteIdentity with
    | some id => exact .inr ⟨id, ⟨h1, h2 id hid, h3, h4, h5⟩, rfl, .inl rfl, by simp⟩
    | none =>
      cases hv : C.verify msg.identityPublicKey (sigOf b) (bodyOf b) with
      | false => exact .inl ⟨by simp [adopt, hv], .inr ⟨rfl, rfl⟩⟩
      | true => exact .inr ⟨_, ⟨h1, hv, h3, h4, h5⟩, rfl, .inr ⟨rfl, rfl⟩, by simp [adopt, hv]⟩

theorem finish_frame (s : State) (msg : KxMsg) :
    (finish cfg s msg).remoteIdentity = s.remoteIdentity ∧ (finish cfg s msg).remoteSessionID = s.remoteSessionID ∧
    (finish cfg s msg).keys = s.keys ∧ (finish cfg s msg).accepted = s.accepted ∧ (finish cfg s msg).reader = .idle ∧
    (finish cfg s msg).sess = s.sess ∧ (finish cfg s msg).main = s.main ∧ (finish cfg s msg).nextPub = s.nextPub ∧
    (finish cfg s msg).nextCreated = s.nextCreated ∧ (finish cfg s msg).gens = s.gens ∧
    (finish cfg s msg).reports = s.reports ∧ (finish cfg s msg).sent = s.sent := by
  unfold finish
  cases succeeds cfg msg <;> simp

theorem readerOK_reachable {remote : Option Bytes} {s : State} (h : Reachable C cfg remote s) : ReaderOK C cfg s := by
  induction h with
  | init => trivial
  | @step s s' a hr hs ih =>
    by_cases h1 : ∃ b, a = .recv b
    · obtain ⟨b, rfl⟩ := h1
      simp only [step] at hs
      split at hs
      · split at hs <;> simp only [Outcome.ok.injEq, reduceCtorEq] at hs
        · rename_i msg hp; subst hs; exact parse_ok hp
        · rename_i hrd _ _ _; subst hs; simp only [ReaderOK, hrd]
      · simp at hs
    · by_cases h2 : a = .reader
      · subst h2
        simp only [step, readerStep] at hs
        split at hs
        · simp at hs
        · rename_i b msg hrd
          split at hs
          · simp at hs
          · simp only [Outcome.ok.injEq] at hs; subst hs
            simp only [ReaderOK, hrd] at ih
            rcases enter_cases s b msg ih with ⟨he, _⟩ | ⟨id, hv, _, _, he⟩ <;> rw [he]
            · trivial
            · exact ⟨id, b, rfl, hv⟩
        · rename_i msg hrd
          split at hs <;> simp only [Outcome.ok.injEq, reduceCtorEq] at hs
          subst hs
          simp only [ReaderOK, hrd] at ih ⊢
          exact ih
        · rename_i msg l hrd
          split at hs <;> simp only [Outcome.ok.injEq, reduceCtorEq] at hs
          rename_i s1 hp
          obtain ⟨k, hk, _⟩ := publish_eq hp
          subst hs
          simp only [ReaderOK, hrd, hk] at ih ⊢
          exact ih
        · rename_i msg hrd
          simp only [Outcome.ok.injEq] at hs; subst hs
          simp only [ReaderOK, (finish_frame s msg).2.2.2.2.1]
      · have hf := step_frame hs (fun b e => h1 ⟨b, e⟩) h2
        simp only [ReaderOK, hf.reader, hf.remoteIdentity] at ih ⊢
        exact ih

end Verif.KX
