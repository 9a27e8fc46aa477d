import Verif.Lemmas.Amplify
/-! Counting what the answers mode prescribes (helpers for C176). -/
namespace Verif.KX
open Verif.Headers
variable {C : Crypto} {cfg : Cfg}

/-- An answer in the hands of the reader. -/
def Reader.replies : Reader → Nat
  | .idle => 0
  | .parsed _ m => (isAnswer m.flags).toNat
  | .snapshot m => (isAnswer m.flags).toNat
  | .publish m _ => (isAnswer m.flags).toNat
  | .finish m => (isAnswer m.flags).toNat

/-- An answer that is not accepted yet. -/
def Reader.unread : Reader → Nat
  | .parsed _ m => (isAnswer m.flags).toNat
  | _ => 0

/-- An accepted message. -/
def Reader.held : Reader → Nat
  | .idle => 0
  | .parsed _ _ => 0
  | _ => 1

/-- An accepted request. -/
def Reader.heldRequest : Reader → Nat
  | .idle => 0
  | .parsed _ _ => 0
  | .snapshot m => (!isAnswer m.flags).toNat
  | .publish m _ => (!isAnswer m.flags).toNat
  | .finish m => (!isAnswer m.flags).toNat

/-- An answer arrives. -/
def Act.reply : Act → Bool
  | .recv b => isAnswerMsg b
  | _ => false

structure Ledger (cfg : Cfg) (s s' : State) (a : Act) : Prop where
  waits : cfg.mode = 1 → s'.successes + s'.reader.replies ≤ s.successes + s.reader.replies + a.reply.toNat
  counts : cfg.mode ≠ 1 → s'.successes + s'.reader.held + s.accepted.length = s.successes + s.reader.held + s'.accepted.length
  answers : cfg.mode ≠ 3 →
    s'.accepted.length + s'.reader.unread + s.sent.countP isAnswerMsg + s.answers.length + s.reader.heldRequest +
      s.reports.count .sendFailed ≤
    s.accepted.length + s.reader.unread + s'.sent.countP isAnswerMsg + s'.answers.length + s'.reader.heldRequest +
      s'.reports.count .sendFailed + a.reply.toNat
  silent : cfg.mode = 3 → s'.sent.countP isAnswerMsg + s'.answers.length ≤ s.sent.countP isAnswerMsg + s.answers.length

theorem Ledger.same {s s' : State} {a : Act} (h1 : s'.successes = s.successes) (h2 : s'.reader = s.reader)
    (h3 : s'.accepted = s.accepted)
    (h4 : s.sent.countP isAnswerMsg + s.answers.length + s.reports.count .sendFailed ≤
      s'.sent.countP isAnswerMsg + s'.answers.length + s'.reports.count .sendFailed)
    (h5 : s'.sent.countP isAnswerMsg + s'.answers.length ≤ s.sent.countP isAnswerMsg + s.answers.length) :
    Ledger cfg s s' a := by
  refine ⟨fun _ => ?_, fun _ => ?_, fun _ => ?_, fun _ => h5⟩
  · rw [h1, h2]; omega
  · rw [h1, h2, h3]
  · rw [h2, h3]; omega

theorem genStep_reports {s s' : State} {key : Option Bytes} {now : Nat} {g : Gen} {o : Option Gen}
    (h : genStep C cfg s key now g = .ok (s', o)) : s'.reports.count .sendFailed = s.reports.count .sendFailed := by
  cases g with
  | check => simp only [genStep, Outcome.ok.injEq, Prod.mk.injEq] at h; rw [← h.1]
  | gen =>
    simp only [genStep] at h
    split at h <;> simp only [Outcome.ok.injEq, Prod.mk.injEq] at h <;> rw [← h.1]
    simp [List.count_append, List.count_cons]
  | snapshot =>
    simp only [genStep] at h
    split at h <;> simp only [Outcome.ok.injEq, Prod.mk.injEq, reduceCtorEq] at h
    rw [← h.1]
  | publish l =>
    simp only [genStep] at h
    split at h <;> simp only [Outcome.ok.injEq, Prod.mk.injEq, reduceCtorEq] at h
    rename_i s1 hp
    obtain ⟨k, rfl, -⟩ := publish_eq hp
    rw [← h.1]

theorem ledger_step {remote : Option Bytes} {s s' : State} {a : Act} (hr : Reachable C cfg remote s)
    (hs : step C cfg s a = .ok s') : Ledger cfg s s' a := by
  have send : ∀ {t : State} {x ok : Bool}, sendPublicKey C cfg s x ok = .ok t →
      t.sent.countP isAnswerMsg ≤ s.sent.countP isAnswerMsg + x.toNat ∧
      s.sent.countP isAnswerMsg + s.reports.count .sendFailed + x.toNat ≤
        t.sent.countP isAnswerMsg + t.reports.count .sendFailed ∧
      t.answers = s.answers ∧ t.reader = s.reader ∧ t.successes = s.successes ∧ t.accepted = s.accepted := by
    intro t x ok h
    rcases sendPublicKey_ok h with ⟨p, hp, rfl⟩ | rfl
    · have := isAnswerMsg_kxMessage (C := C) (cfg := cfg) p x (nextPub_length hr hp)
      refine ⟨?_, ?_, rfl, rfl, rfl, rfl⟩
      · simp only [List.countP_append, List.countP_singleton, this]; cases x <;> simp
      · simp only [List.countP_append, List.countP_singleton, this]; cases x <;> simp; omega
    · refine ⟨by simp, ?_, rfl, rfl, rfl, rfl⟩
      simp only [List.count_append, List.count_singleton]
      cases x <;> simp <;> omega
  cases a with
  | recv b =>
    simp only [step] at hs
    split at hs
    · rename_i hi
      split at hs <;> simp only [Outcome.ok.injEq, reduceCtorEq] at hs
      · rename_i msg hp
        subst hs
        obtain ⟨h2, -, h3, -⟩ := parse_ok hp
        have e : (isAnswer msg.flags) = isAnswerMsg b := by rw [h3]; rfl
        refine ⟨fun _ => ?_, fun _ => ?_, fun _ => ?_, fun _ => Nat.le_refl _⟩
        · simp only [hi, Reader.replies, Act.reply, e]; omega
        · simp only [hi, Reader.held]
        · simp only [hi, Reader.unread, Reader.heldRequest, Act.reply, e]; omega
      · subst hs
        refine .same rfl rfl rfl ?_ (Nat.le_refl _)
        simp only [List.count_append]; omega
    · simp at hs
  | reader =>
    simp only [step, readerStep] at hs
    split at hs
    · simp at hs
    · rename_i b msg hm
      split at hs
      · simp at hs
      · simp only [Outcome.ok.injEq] at hs
        subst hs
        unfold enter
        split
        · refine ⟨fun _ => ?_, fun _ => ?_, fun _ => ?_, fun _ => Nat.le_refl _⟩ <;>
            simp only [hm, Reader.replies, Reader.held, Reader.unread, Reader.heldRequest] <;> omega
        · split
          · refine ⟨fun _ => ?_, fun _ => ?_, fun _ => ?_, fun _ => Nat.le_refl _⟩ <;>
              simp only [hm, Reader.replies, Reader.held, Reader.unread, Reader.heldRequest] <;> omega
          · refine ⟨fun _ => ?_, fun _ => ?_, fun _ => ?_, fun _ => Nat.le_refl _⟩ <;>
              simp only [hm, Reader.replies, Reader.held, Reader.unread, Reader.heldRequest, List.length_append,
                List.length_singleton] <;> cases isAnswer msg.flags <;> simp <;> omega
    · rename_i msg hm
      split at hs
      · simp at hs
      · simp only [Outcome.ok.injEq] at hs
        subst hs
        refine ⟨fun _ => ?_, fun _ => ?_, fun _ => ?_, fun _ => Nat.le_refl _⟩ <;>
          simp only [hm, Reader.replies, Reader.held, Reader.unread, Reader.heldRequest] <;> omega
    · rename_i msg l hm
      split at hs
      · simp at hs
      · rename_i s1 hp
        simp only [Outcome.ok.injEq] at hs
        obtain ⟨k, rfl, -⟩ := publish_eq hp
        subst hs
        refine ⟨fun _ => ?_, fun _ => ?_, fun _ => ?_, fun _ => Nat.le_refl _⟩ <;>
          simp only [hm, Reader.replies, Reader.held, Reader.unread, Reader.heldRequest] <;> omega
    · rename_i msg hm
      simp only [Outcome.ok.injEq] at hs
      subst hs
      obtain ⟨-, -, -, h4, h5, -, -, -, -, -, h11, h12⟩ := finish_frame (cfg := cfg) s msg
      have hsu : (finish cfg s msg).successes = s.successes + (isAnswer msg.flags || cfg.mode != 1).toNat := by
        unfold finish succeeds
        cases isAnswer msg.flags || cfg.mode != 1 <;> rfl
      have han : (finish cfg s msg).answers.length = s.answers.length + (!isAnswer msg.flags && cfg.mode != 3).toNat := by
        unfold finish answered
        cases !isAnswer msg.flags && cfg.mode != 3 <;> simp
      refine ⟨fun h => ?_, fun h => ?_, fun h => ?_, fun h => ?_⟩
      rotate_left
      · have hn : (cfg.mode != 1) = true := bne_iff_ne.2 h
        simp only [hm, h4, h5, hsu, Reader.held, hn, Bool.or_true, Bool.toNat_true]
      · have hn : (cfg.mode != 3) = true := bne_iff_ne.2 h
        simp only [hm, h4, h5, h11, h12, han, Reader.unread, Reader.heldRequest, hn, Bool.and_true]; omega
      all_goals
        simp only [hm, h4, h5, h11, h12, hsu, han, Reader.replies, Reader.held, Reader.unread, Reader.heldRequest]
        cases isAnswer msg.flags <;> simp [h] <;> omega
  | tick =>
    simp only [step] at hs
    split at hs <;> simp only [Outcome.ok.injEq, reduceCtorEq] at hs
    subst hs
    exact .same rfl rfl rfl (Nat.le_refl _) (Nat.le_refl _)
  | main key now ok =>
    simp only [step, mainStep] at hs
    split at hs
    · rename_i g hm
      split at hs <;> simp only [Outcome.ok.injEq, reduceCtorEq] at hs
      · rename_i s1 g' hg
        have f := genStep_frame hg
        have q := genStep_reports hg
        subst hs
        exact .same f.successes f.reader f.accepted (by simp only [f.sent, f.answers, q]; omega)
          (by simp only [f.sent, f.answers]; omega)
      · rename_i s1 hg
        have f := genStep_frame hg
        have q := genStep_reports hg
        subst hs
        exact .same f.successes f.reader f.accepted (by simp only [f.sent, f.answers, q]; omega)
          (by simp only [f.sent, f.answers]; omega)
    · rename_i hm
      split at hs <;> simp only [Outcome.ok.injEq, reduceCtorEq] at hs
      rename_i s1 hsp
      obtain ⟨h1, h2, h3, h4, h5, h6⟩ := send hsp
      subst hs
      simp only [Bool.toNat_false] at h1 h2
      exact .same h5 h4 h6 (by simp only [h3]; omega) (by simp only [h3]; omega)
    · simp at hs
  | retry ok =>
    simp only [step] at hs
    split at hs
    · split at hs <;> simp only [Outcome.ok.injEq, reduceCtorEq] at hs
      rename_i s1 hsp
      obtain ⟨h1, h2, h3, h4, h5, h6⟩ := send hsp
      subst hs
      simp only [Bool.toNat_false] at h1 h2
      exact .same h5 h4 h6 (by simp only [h3]; omega) (by simp only [h3]; omega)
    · simp at hs
  | timeout =>
    simp only [step] at hs
    split at hs <;> simp only [Outcome.ok.injEq, reduceCtorEq] at hs
    subst hs
    exact .same rfl rfl rfl (by simp only [List.count_append]; omega) (Nat.le_refl _)
  | done =>
    simp only [step] at hs
    split at hs <;> simp only [Outcome.ok.injEq, reduceCtorEq] at hs
    subst hs
    exact .same rfl rfl rfl (Nat.le_refl _) (Nat.le_refl _)
  | answer i key now ok =>
    simp only [step, answerStep] at hs
    split at hs
    · simp at hs
    · simp only [Outcome.ok.injEq] at hs
      subst hs
      exact .same rfl rfl rfl (by simp only [List.length_set]; omega) (by simp only [List.length_set]; omega)
    · rename_i g hm
      split at hs <;> simp only [Outcome.ok.injEq, reduceCtorEq] at hs
      · rename_i s1 g' hg
        have f := genStep_frame hg
        have q := genStep_reports hg
        subst hs
        exact .same f.successes f.reader f.accepted (by simp only [f.sent, q, List.length_set]; omega)
          (by simp only [f.sent, List.length_set]; omega)
      · rename_i s1 hg
        have f := genStep_frame hg
        have q := genStep_reports hg
        subst hs
        exact .same f.successes f.reader f.accepted (by simp only [f.sent, q, List.length_set]; omega)
          (by simp only [f.sent, List.length_set]; omega)
    · rename_i hm
      split at hs <;> simp only [Outcome.ok.injEq, reduceCtorEq] at hs
      rename_i s1 hsp
      obtain ⟨h1, h2, h3, h4, h5, h6⟩ := send hsp
      subst hs
      have hlt : i < s.answers.length := by
        rcases Nat.lt_or_ge i s.answers.length with h | h
        · exact h
        · rw [List.getElem?_eq_none h] at hm; simp at hm
      simp only [Bool.toNat_true] at h1 h2
      exact .same h5 h4 h6 (by simp only [List.length_eraseIdx, hlt, if_true]; omega)
        (by simp only [List.length_eraseIdx, hlt, if_true]; omega)
  | cancel =>
    simp only [step, Outcome.ok.injEq] at hs
    subst hs
    exact .same rfl rfl rfl (Nat.le_refl _) (Nat.le_refl _)

theorem ledger_run {remote : Option Bytes} : ∀ (as : List Act) {s s' : State}, Reachable C cfg remote s →
    runActs C cfg s as = .ok s' →
    (cfg.mode = 1 → s'.successes + s'.reader.replies ≤ s.successes + s.reader.replies + as.countP Act.reply) ∧
    (cfg.mode ≠ 1 → s'.successes + s'.reader.held + s.accepted.length = s.successes + s.reader.held + s'.accepted.length) ∧
    (cfg.mode ≠ 3 → s'.accepted.length + s'.reader.unread + s.sent.countP isAnswerMsg + s.answers.length +
        s.reader.heldRequest + s.reports.count .sendFailed ≤
      s.accepted.length + s.reader.unread + s'.sent.countP isAnswerMsg + s'.answers.length + s'.reader.heldRequest +
        s'.reports.count .sendFailed + as.countP Act.reply) ∧
    (cfg.mode = 3 → s'.sent.countP isAnswerMsg + s'.answers.length ≤ s.sent.countP isAnswerMsg + s.answers.length) := by
  intro as
  induction as with
  | nil => intro s s' _ h; simp only [runActs, Outcome.ok.injEq] at h; subst h; simp
  | cons a as ih =>
    intro s s' hr h
    simp only [runActs] at h
    split at h <;> try (simp at h; done)
    rename_i s1 h1
    have c := ledger_step hr h1
    obtain ⟨i1, i2, i3, i4⟩ := ih (.step a hr h1) h
    have hb : ∀ b : Bool, (if b = true then 1 else 0) = b.toNat := by decide
    simp only [List.countP_cons, hb]
    refine ⟨fun h => ?_, fun h => ?_, fun h => ?_, fun h => ?_⟩
    · have := i1 h; have := c.waits h; omega
    · have := i2 h; have := c.counts h; omega
    · have := i3 h; have := c.answers h; omega
    · have := i4 h; have := c.silent h; omega

theorem received_replies (as : List Act) : as.countP Act.reply = (received as).countP isAnswerMsg := by
  induction as with
  | nil => rfl
  | cons a as ih => cases a <;> simp [received, Act.reply, List.countP_cons, ih] <;> rfl

end Verif.KX
