import Verif.Model.Ephemeral
import Verif.Props.Forget
/-!
# C167: GetEphemeralKeys returns the last generated shared keys
-/
namespace Verif.KX
open Verif.Headers

variable {C : Crypto} {cfg : Cfg} {remote : Option Bytes}

theorem EphReach.reachable {s : State} {cur} (h : EphReach C cfg remote s cur) : Reachable C cfg remote s := by
  induction h with
  | init => exact .init
  | step a _ hs ih => exact .step a ih hs

theorem Reachable.eph {s : State} (h : Reachable C cfg remote s) : ∃ cur, EphReach C cfg remote s cur := by
  induction h with
  | init => exact ⟨_, .init⟩
  | step a _ hs ih => obtain ⟨cur, h⟩ := ih; exact ⟨_, .step a h hs⟩

theorem runEph_reach : ∀ (as : List Act) {s s' : State} {cur cur'}, EphReach C cfg remote s cur →
    runEph C cfg s cur as = .ok (s', cur') → EphReach C cfg remote s' cur' := by
  intro as
  induction as with
  | nil => intro s s' cur cur' h hr; simp only [runEph, Outcome.ok.injEq, Prod.mk.injEq] at hr; rw [← hr.1, ← hr.2]; exact h
  | cons a as ih =>
    intro s s' cur cur' h hr
    simp only [runEph] at hr
    split at hr <;> try (simp only [reduceCtorEq] at hr; done)
    rename_i s1 hs1
    exact ih (.step a h hs1) hr

theorem publish_given {s s' : State} {l : List (Option Bytes)} (h : publish s l = some s') :
    (given l = none ∧ s'.sess = s.sess) ∨
      (given l = some l ∧ (l[0]?).join.getD [] ≠ [] ∧ setSecrets s.sess l = some s'.sess) := by
  unfold publish at h
  unfold given
  split at h
  · rename_i h0
    simp only [Option.some.injEq] at h
    exact .inl ⟨by rw [if_pos h0], by rw [h]⟩
  · rename_i h0
    rw [Option.map_eq_some_iff] at h
    obtain ⟨k, h1, h2⟩ := h
    exact .inr ⟨by rw [if_neg h0], h0, by rw [h1, ← h2]⟩

theorem genStep_given {s s' : State} {key : Option Bytes} {now : Nat} {g : Gen} {o : Option Gen}
    (h : genStep C cfg s key now g = .ok (s', o)) :
    (∃ l, g = .publish l ∧ publish s l = some s') ∨ ((∀ l, g ≠ .publish l) ∧ s'.sess = s.sess) := by
  cases g with
  | check => simp only [genStep, Outcome.ok.injEq, Prod.mk.injEq] at h; exact .inr ⟨by simp, by rw [← h.1]⟩
  | gen =>
    simp only [genStep] at h
    split at h <;> simp only [Outcome.ok.injEq, Prod.mk.injEq] at h <;> exact .inr ⟨by simp, by rw [← h.1]⟩
  | snapshot =>
    simp only [genStep] at h
    split at h <;> simp only [Outcome.ok.injEq, Prod.mk.injEq, reduceCtorEq] at h
    exact .inr ⟨by simp, by rw [← h.1]⟩
  | publish l =>
    simp only [genStep] at h
    split at h <;> simp only [Outcome.ok.injEq, Prod.mk.injEq, reduceCtorEq] at h
    rename_i s1 hp
    exact .inl ⟨l, rfl, by rw [hp, h.1]⟩

theorem send_sess {s s' : State} {answer ok : Bool} (h : sendPublicKey C cfg s answer ok = .ok s') : s'.sess = s.sess := by
  unfold sendPublicKey at h
  split at h
  · simp at h
  · split at h <;> simp only [Outcome.ok.injEq] at h <;> rw [← h]

/-- What a step does with the keys of the session. -/
theorem step_given {s s' : State} {a : Act} (hs : step C cfg s a = .ok s') :
    (handed s a = none ∧ s'.sess = s.sess) ∨
      (∃ l, handed s a = some l ∧ Pending s l ∧ (l[0]?).join.getD [] ≠ [] ∧ setSecrets s.sess l = some s'.sess) := by
  cases a with
  | recv b =>
    refine .inl ⟨rfl, ?_⟩
    simp only [step] at hs
    split at hs
    · split at hs <;> simp only [Outcome.ok.injEq, reduceCtorEq] at hs <;> rw [← hs]
    · simp at hs
  | reader =>
    simp only [step, readerStep] at hs
    split at hs
    · simp at hs
    · rename_i b msg hr
      split at hs
      · simp at hs
      · simp only [Outcome.ok.injEq] at hs
        refine .inl ⟨by simp [handed, hr], ?_⟩
        rw [← hs]; unfold enter; split
        · rfl
        · split <;> rfl
    · rename_i msg hr
      split at hs <;> simp only [Outcome.ok.injEq, reduceCtorEq] at hs
      exact .inl ⟨by simp [handed, hr], by rw [← hs]⟩
    · rename_i msg l hr
      split at hs <;> simp only [Outcome.ok.injEq, reduceCtorEq] at hs
      rename_i s1 hp
      have e : s'.sess = s1.sess := by rw [← hs]
      rcases publish_given hp with ⟨h1, h2⟩ | ⟨h1, h2, h3⟩
      · exact .inl ⟨by simp [handed, hr, h1], by rw [e, h2]⟩
      · exact .inr ⟨l, by simp [handed, hr, h1], .inl ⟨msg, hr⟩, h2, by rw [h3, e]⟩
    · rename_i msg hr
      simp only [Outcome.ok.injEq] at hs
      refine .inl ⟨by simp [handed, hr], ?_⟩
      rw [← hs]; unfold finish; simp only; split <;> rfl
  | tick =>
    refine .inl ⟨rfl, ?_⟩
    simp only [step] at hs
    split at hs <;> simp only [Outcome.ok.injEq, reduceCtorEq] at hs
    rw [← hs]
  | main key now ok =>
    simp only [step, mainStep] at hs
    split at hs
    · rename_i g hm
      have key : ∀ s1 o, genStep C cfg s key now g = .ok (s1, o) → s'.sess = s1.sess →
          (handed s (.main key now ok) = none ∧ s'.sess = s.sess) ∨
          (∃ l, handed s (.main key now ok) = some l ∧ Pending s l ∧ (l[0]?).join.getD [] ≠ [] ∧
            setSecrets s.sess l = some s'.sess) := by
        intro s1 o hg e
        rcases genStep_given hg with ⟨l, rfl, hp⟩ | ⟨h1, h2⟩
        · rcases publish_given hp with ⟨h1, h2⟩ | ⟨h1, h2, h3⟩
          · exact .inl ⟨by simp [handed, hm, h1], by rw [e, h2]⟩
          · exact .inr ⟨l, by simp [handed, hm, h1], .inr (.inl hm), h2, by rw [h3, e]⟩
        · refine .inl ⟨?_, by rw [e, h2]⟩
          simp only [handed, hm]
          cases g with
          | publish l => exact absurd rfl (h1 l)
          | _ => rfl
      split at hs <;> simp only [Outcome.ok.injEq, reduceCtorEq] at hs
      · rename_i s1 g' hg; exact key s1 _ hg (by rw [← hs])
      · rename_i s1 hg; exact key s1 _ hg (by rw [← hs])
    · rename_i hm
      split at hs <;> simp only [Outcome.ok.injEq, reduceCtorEq] at hs
      rename_i s1 hsd
      exact .inl ⟨by simp [handed, hm], by rw [← hs]; exact (send_sess hsd :)⟩
    · simp at hs
  | retry ok =>
    refine .inl ⟨rfl, ?_⟩
    simp only [step] at hs
    split at hs
    · split at hs <;> simp only [Outcome.ok.injEq, reduceCtorEq] at hs
      rename_i s1 hsd
      rw [← hs]; exact send_sess hsd
    · simp at hs
  | timeout =>
    refine .inl ⟨rfl, ?_⟩
    simp only [step] at hs
    split at hs <;> simp only [Outcome.ok.injEq, reduceCtorEq] at hs
    rw [← hs]
  | done =>
    refine .inl ⟨rfl, ?_⟩
    simp only [step] at hs
    split at hs <;> simp only [Outcome.ok.injEq, reduceCtorEq] at hs
    rw [← hs]
  | answer i key now ok =>
    simp only [step, answerStep] at hs
    split at hs
    · simp at hs
    · rename_i hm
      simp only [Outcome.ok.injEq] at hs
      exact .inl ⟨by simp [handed, hm], by rw [← hs]⟩
    · rename_i g hm
      have key : ∀ s1 o, genStep C cfg s key now g = .ok (s1, o) → s'.sess = s1.sess →
          (handed s (.answer i key now ok) = none ∧ s'.sess = s.sess) ∨
          (∃ l, handed s (.answer i key now ok) = some l ∧ Pending s l ∧ (l[0]?).join.getD [] ≠ [] ∧
            setSecrets s.sess l = some s'.sess) := by
        intro s1 o hg e
        rcases genStep_given hg with ⟨l, rfl, hp⟩ | ⟨h1, h2⟩
        · rcases publish_given hp with ⟨h1, h2⟩ | ⟨h1, h2, h3⟩
          · exact .inl ⟨by simp [handed, hm, h1], by rw [e, h2]⟩
          · exact .inr ⟨l, by simp [handed, hm, h1], .inr (.inr (List.mem_of_getElem? hm)), h2, by rw [h3, e]⟩
        · refine .inl ⟨?_, by rw [e, h2]⟩
          simp only [handed, hm]
          cases g with
          | publish l => exact absurd rfl (h1 l)
          | _ => rfl
      split at hs <;> simp only [Outcome.ok.injEq, reduceCtorEq] at hs
      · rename_i s1 g' hg; exact key s1 _ hg (by rw [← hs])
      · rename_i s1 hg; exact key s1 _ hg (by rw [← hs])
    · rename_i hm
      split at hs <;> simp only [Outcome.ok.injEq, reduceCtorEq] at hs
      rename_i s1 hsd
      exact .inl ⟨by simp [handed, hm], by rw [← hs]; exact (send_sess hsd :)⟩
  | cancel =>
    simp only [step, Outcome.ok.injEq] at hs
    exact .inl ⟨rfl, by rw [← hs]⟩

/-- C167: at every moment, whatever overlaps, `GetEphemeralKeys` returns the keys that packets are encrypted and decrypted
with (`GetCipherKeys`). -/
theorem C167_in_use {s : State} {cur : List (Option Bytes)} (h : EphReach C cfg remote s cur) :
    getEphemeralKeys cur = s.sess.cipherKeys := by
  unfold getEphemeralKeys
  induction h with
  | init => rfl
  | @step s s' cur a h hs ih =>
    unfold secretsAfter
    rcases step_given hs with ⟨h1, h2⟩ | ⟨l, h1, hp, h0, hset⟩
    · rw [h1, h2]; exact ih
    · obtain ⟨s0, as, _, _, hl⟩ := pending_taken h.reachable l hp
      rw [setSecrets_taken hl h0 (sessOK_reachable h.reachable).pre, Option.some.injEq] at hset
      rw [h1, ← hset]; rfl

/-- C167: there are none, or four of which the first is there; each is computed from a private key
made in this session and a public key accepted in it. -/
theorem C167_whole {s : State} {cur : List (Option Bytes)} (h : EphReach C cfg remote s cur) :
    (getEphemeralKeys cur = [] ∨
      ((getEphemeralKeys cur).length = 4 ∧ ∃ k, (getEphemeralKeys cur)[0]? = some (some k) ∧ k.length = 32)) ∧
    ∀ k, some k ∈ getEphemeralKeys cur → ∃ a ∈ s.gens.map (·.1), ∃ r ∈ s.accepted,
      generateSharedKey C cfg.psk (some a) (some r) = .ok k := by
  rw [C167_in_use h]
  constructor
  · rcases (sessOK_reachable h.reachable).keys with ⟨h0, _⟩ | ⟨l, x, _, h1, h2, h3, h4, _⟩
    · exact .inl h0
    · exact .inr ⟨by rw [h1]; exact h2, x, by rw [h1]; exact h3, h4⟩
  · intro k hk
    obtain ⟨_, _, _, _, a, _, r, _, ha, hr, hg⟩ := C127_origin_partial h.reachable hk
    exact ⟨a, ha, r, hr, hg⟩

/-- C167, if key updates do not overlap: when no update is under way, the first of the keys is computed from the last private
key this side made and the last public key it accepted, as soon as there are both. -/
theorem C167_last_partial {s : State} {cur : List (Option Bytes)} (h : EphReach C cfg remote s cur)
    (hs : SerialReach C cfg remote s) (hq : Quiet s) {a r : Bytes} (ha : (s.gens.map (·.1)).getLast? = some a)
    (hr : s.accepted.getLast? = some r) :
    ∃ k, generateSharedKey C cfg.psk (some a) (some r) = .ok k ∧ (getEphemeralKeys cur)[0]? = some (some k) := by
  rw [C167_in_use h]
  have hl : s.keys.nextLocal = some a := by
    have := congrArg Prod.fst (histOK_reachable hs.reachable).loc
    simp only [last2_last] at this
    rw [this, ha]
  have hp : s.keys.pair 0 = (some a, some r) := by simp [Keys.pair, hl, accepted_last hs.reachable, hr]
  obtain ⟨k, hk⟩ := published_some hs hq (i := 0) (by omega) hp
  refine ⟨k, ?_, published_key hs hq (by omega) ⟨k, hk⟩ hk⟩
  simp only [secret, hp] at hk
  split at hk <;> simp_all

/-- C167, if key updates of one side do not overlap: once each side has accepted the other's current public key, the first of
the keys is the same on both. -/
theorem C167_common_partial {cfgA cfgB : Cfg} {rA rB : Option Bytes} {sA sB : State} {eA eB : List (Option Bytes)}
    (hA : EphReach C cfgA rA sA eA) (hB : EphReach C cfgB rB sB eB) (sA' : SerialReach C cfgA rA sA)
    (sB' : SerialReach C cfgB rB sB) (hpsk : cfgA.psk = cfgB.psk) (qA : Quiet sA) (qB : Quiet sB)
    (hAB : sB.accepted.getLast? = sA.nextPub) (hBA : sA.accepted.getLast? = sB.nextPub)
    (nA : sA.nextPub ≠ none) (nB : sB.nextPub ≠ none) :
    ∃ k, (getEphemeralKeys eA)[0]? = some (some k) ∧ (getEphemeralKeys eB)[0]? = some (some k) := by
  rw [C167_in_use hA, C167_in_use hB]
  exact C35_sessions_partial sA' sB' hpsk qA qB hAB hBA nA nB

/-- The three exchanges of `thirdKey`. -/
def thirdEph : Outcome Crash (State × List (Option Bytes)) := runEph toy alice (State.init none) [] thirdKey

example : thirdEph = .ok (aliceAt thirdKey,
    [some (toy.dh [9] (toy.pub [1])), none, some (toy.dh [6] (toy.pub [1])), none]) := by decide +kernel

/-- Before an exchange there are none. -/
example : runEph toy alice (State.init none) [] (rotate [4] 5) = .ok (aliceAt (rotate [4] 5), []) := by decide +kernel

example : EphReach toy alice none (aliceAt thirdKey)
    [some (toy.dh [9] (toy.pub [1])), none, some (toy.dh [6] (toy.pub [1])), none] ∧
    SerialReach toy alice none (aliceAt thirdKey) ∧ Quiet (aliceAt thirdKey) ∧
    ((aliceAt thirdKey).gens.map (·.1)).getLast? = some [9] ∧ (aliceAt thirdKey).accepted.getLast? = some (toy.pub [1]) :=
  ⟨runEph_reach _ .init (by decide +kernel : thirdEph = _), thirdKey_reach.serial, by decide +kernel, by decide +kernel,
    by decide +kernel⟩

/-- Both sides after an exchange. -/
example : ∃ eA eB, EphReach toy alice none aliceDone eA ∧ EphReach toy bob none bobDone eB ∧
    SerialReach toy alice none aliceDone ∧ SerialReach toy bob none bobDone ∧ Quiet aliceDone ∧ Quiet bobDone ∧
    bobDone.accepted.getLast? = aliceDone.nextPub ∧ aliceDone.accepted.getLast? = bobDone.nextPub ∧
    aliceDone.nextPub ≠ none ∧ bobDone.nextPub ≠ none := by
  obtain ⟨eA, hA⟩ := aliceDone_reach.serial.reachable.eph
  obtain ⟨eB, hB⟩ := bobDone_reach.serial.reachable.eph
  exact ⟨eA, eB, hA, hB, aliceDone_reach.serial, bobDone_reach.serial, by decide +kernel, by decide +kernel, by decide +kernel,
    by decide +kernel, by decide +kernel, by decide +kernel⟩

/-- Negation of C167 with overlapping updates: the keys 6 and 9 were made after the key 4, no update is under way, and
`GetEphemeralKeys` returns only what was made with the key 4. -/
theorem C167_violated : ∃ s cur, EphReach toy alice none s cur ∧ Quiet s ∧ s.gens.map (·.1) = [[4], [6], [9]] ∧
    s.accepted.getLast? = some (toy.pub [1]) ∧ getEphemeralKeys cur = [some (toy.dh [4] (toy.pub [1])), none, none, none] ∧
    generateSharedKey toy alice.psk (some [9]) (some (toy.pub [1])) ≠ .ok (toy.dh [4] (toy.pub [1])) :=
  ⟨aliceAt raceOfThree, _, runEph_reach raceOfThree .init (by decide +kernel : _ = Outcome.ok (aliceAt raceOfThree,
    [some (toy.dh [4] (toy.pub [1])), none, none, none])), by decide +kernel, by decide +kernel, by decide +kernel, rfl, by decide +kernel⟩

/-- A step that is not possible blocks. -/
example : runEph toy alice (State.init none) [] [.reader] = .block := rfl

#print axioms C167_in_use
#print axioms C167_whole
#print axioms C167_last_partial
#print axioms C167_common_partial
#print axioms C167_violated

end Verif.KX
