import Verif.Lemmas.KeyExchangeSess
/-!
# The key exchanger when key updates do not overlap
-/
namespace Verif.KX
open Verif.Headers

variable {C : Crypto} {cfg : Cfg} {remote : Option Bytes}

/-- Is the goroutine inside `updateLocalKey`? -/
def Answer.critical : Answer → Bool
  | .gen _ => true
  | _ => false

/-- At most one goroutine is inside `updateLocalKey` or the critical section of `Handle`. -/
structure Excl (s : State) : Prop where
  rm : s.reader.locks = true → s.main.locks = false
  ra : s.reader.locks = true → ∀ g, Answer.gen g ∉ s.answers
  ma : s.main.locks = true → ∀ g, Answer.gen g ∉ s.answers
  aa : ∀ (i j : Nat) g g', s.answers[i]? = some (Answer.gen g) → s.answers[j]? = some (Answer.gen g') → i = j

/-- Runs in which key updates do not overlap. -/
inductive SerialReach (C : Crypto) (cfg : Cfg) (remote : Option Bytes) : State → Prop
  | init : SerialReach C cfg remote (State.init remote)
  | step {s s'} (a : Act) : SerialReach C cfg remote s → step C cfg s a = .ok s' → Excl s' → SerialReach C cfg remote s'

theorem SerialReach.reachable {s : State} (h : SerialReach C cfg remote s) : Reachable C cfg remote s := by
  induction h with
  | init => exact .init
  | step a _ hs _ ih => exact .step a ih hs

theorem SerialReach.excl {s : State} (h : SerialReach C cfg remote s) : Excl s := by
  cases h with
  | init => constructor <;> simp [State.init, Reader.locks, Main.locks]
  | step a _ _ he => exact he

theorem mem_set_index {as : List Answer} {i : Nat} {x y : Answer} (h : y ∈ as.set i x) :
    y = x ∨ ∃ j, j ≠ i ∧ as[j]? = some y := by
  obtain ⟨j, hj⟩ := List.mem_iff_getElem?.1 h
  by_cases hji : j = i
  · subst hji
    rw [List.getElem?_set] at hj
    split at hj
    · split at hj
      · simp only [Option.some.injEq] at hj; exact .inl hj.symm
      · simp at hj
    · simp at *
  · exact .inr ⟨j, hji, by rwa [List.getElem?_set_ne (Ne.symm hji)] at hj⟩

/-- Keys were changed, and their secrets are not yet passed on. -/
def Dirty (s : State) : Prop :=
  (∃ msg, s.reader = .snapshot msg) ∨ (∃ msg l, s.reader = .publish msg l) ∨
  (∃ g, s.main = .gen g ∧ g.late = true) ∨ (∃ g, .gen g ∈ s.answers ∧ g.late = true)

/-- The session has the secrets of the current keys. -/
def Published (C : Crypto) (cfg : Cfg) (s : State) : Prop :=
  ∃ l, secrets C cfg.psk s.keys = some l ∧ ((l[0]?).join.getD [] ≠ [] → s.sess.cipherKeys = l)

theorem Pending.dirty {s : State} {l : List (Option Bytes)} (h : Pending s l) : Dirty s := by
  rcases h with ⟨msg, h⟩ | h | h
  · exact .inr (.inl ⟨msg, l, h⟩)
  · exact .inr (.inr (.inl ⟨_, h, rfl⟩))
  · exact .inr (.inr (.inr ⟨_, h, rfl⟩))

theorem genStep_late {s s' : State} {key : Option Bytes} {now : Nat} {g : Gen} {o : Option Gen}
    (h : genStep C cfg s key now g = .ok (s', o)) (hl : g.late = true) :
    (∃ g', o = some g' ∧ g'.late = true) ∨
    ∃ l, g = .publish l ∧ o = none ∧ ((l[0]?).join.getD [] = [] ∧ s'.sess = s.sess ∨ setSecrets s.sess l = some s'.sess) := by
  cases g with
  | check => simp [Gen.late] at hl
  | gen => simp [Gen.late] at hl
  | snapshot =>
    simp only [genStep] at h
    split at h <;> simp only [Outcome.ok.injEq, Prod.mk.injEq, reduceCtorEq] at h
    exact .inl ⟨_, h.2.symm, rfl⟩
  | publish l =>
    simp only [genStep] at h
    split at h <;> simp only [Outcome.ok.injEq, Prod.mk.injEq, reduceCtorEq] at h
    obtain ⟨rfl, rfl⟩ := h
    rename_i s1 hp
    obtain ⟨k, hk, hk2⟩ := publish_eq hp
    subst hk
    refine .inr ⟨l, rfl, rfl, ?_⟩
    rcases hk2 with hk2 | hk2
    · exact .inl ⟨hk2.2, hk2.1⟩
    · exact .inr hk2.1

/-- The reader is moved by its own steps only; the loop and the answers by theirs. -/
theorem step_main_frame {s s' : State} {a : Act} {g : Gen} (hs : step C cfg s a = .ok s') (hm : s.main = .gen g)
    (ha : ∀ key now ok, a ≠ .main key now ok) : s'.main = s.main := by
  cases a with
  | recv b =>
    simp only [step] at hs
    split at hs
    · split at hs <;> simp only [Outcome.ok.injEq, reduceCtorEq] at hs <;> subst hs <;> rfl
    · simp at hs
  | reader =>
    simp only [step, readerStep] at hs
    split at hs
    · simp at hs
    · split at hs
      · simp at hs
      · simp only [Outcome.ok.injEq] at hs; subst hs
        unfold enter
        repeat' split
        all_goals rfl
    · split at hs <;> simp only [Outcome.ok.injEq, reduceCtorEq] at hs
      subst hs; rfl
    · split at hs <;> simp only [Outcome.ok.injEq, reduceCtorEq] at hs
      rename_i s1 hp
      obtain ⟨k, hk, _⟩ := publish_eq hp
      subst hs; subst hk; rfl
    · rename_i msg _
      simp only [Outcome.ok.injEq] at hs; subst hs
      exact (finish_frame (cfg := cfg) s msg).2.2.2.2.2.2.1
  | tick => simp [step, hm] at hs
  | main key now ok => exact absurd rfl (ha key now ok)
  | retry ok => simp [step, hm] at hs
  | timeout => simp [step, hm] at hs
  | done => simp [step, hm] at hs
  | answer i key now ok =>
    simp only [step, answerStep] at hs
    split at hs
    · simp at hs
    · simp only [Outcome.ok.injEq] at hs; subst hs; rfl
    · split at hs <;> simp only [Outcome.ok.injEq, reduceCtorEq] at hs
      · rename_i hg; subst hs; exact (genStep_frame hg).main
      · rename_i hg; subst hs; exact (genStep_frame hg).main
    · split at hs <;> simp only [Outcome.ok.injEq, reduceCtorEq] at hs
      rename_i hg; subst hs
      rcases sendPublicKey_ok hg with ⟨p, _, rfl⟩ | rfl <;> rfl
  | cancel => simp only [step, Outcome.ok.injEq] at hs; subst hs; rfl

/-- An answer stays where it is unless it is moved itself. -/
theorem step_answer_frame {s s' : State} {a : Act} {g : Gen} {i : Nat} (hs : step C cfg s a = .ok s')
    (hi : s.answers[i]? = some (.gen g)) (ha : ∀ key now ok, a ≠ .answer i key now ok) : .gen g ∈ s'.answers := by
  have hmem : Answer.gen g ∈ s.answers := List.mem_of_getElem? hi
  cases a with
  | recv b =>
    simp only [step] at hs
    split at hs
    · split at hs <;> simp only [Outcome.ok.injEq, reduceCtorEq] at hs <;> subst hs <;> exact hmem
    · simp at hs
  | reader =>
    simp only [step, readerStep] at hs
    split at hs
    · simp at hs
    · split at hs
      · simp at hs
      · simp only [Outcome.ok.injEq] at hs; subst hs
        unfold enter
        repeat' split
        all_goals exact hmem
    · split at hs <;> simp only [Outcome.ok.injEq, reduceCtorEq] at hs
      subst hs; exact hmem
    · split at hs <;> simp only [Outcome.ok.injEq, reduceCtorEq] at hs
      rename_i s1 hp
      obtain ⟨k, hk, _⟩ := publish_eq hp
      subst hs; subst hk; exact hmem
    · simp only [Outcome.ok.injEq] at hs; subst hs
      simp only [finish]
      split
      · exact List.mem_append_left _ hmem
      · exact hmem
  | tick =>
    simp only [step] at hs
    split at hs <;> simp only [Outcome.ok.injEq, reduceCtorEq] at hs
    subst hs; exact hmem
  | main key now ok =>
    simp only [step, mainStep] at hs
    split at hs
    · split at hs <;> simp only [Outcome.ok.injEq, reduceCtorEq] at hs
      · rename_i hg; subst hs; simp only [(genStep_frame hg).answers]; exact hmem
      · rename_i hg; subst hs; simp only [(genStep_frame hg).answers]; exact hmem
    · split at hs <;> simp only [Outcome.ok.injEq, reduceCtorEq] at hs
      rename_i hg; subst hs
      rcases sendPublicKey_ok hg with ⟨p, _, rfl⟩ | rfl <;> exact hmem
    · simp at hs
  | retry ok =>
    simp only [step] at hs
    split at hs
    · split at hs <;> simp only [Outcome.ok.injEq, reduceCtorEq] at hs
      rename_i hg; subst hs
      rcases sendPublicKey_ok hg with ⟨p, _, rfl⟩ | rfl <;> exact hmem
    · simp at hs
  | timeout =>
    simp only [step] at hs
    split at hs <;> simp only [Outcome.ok.injEq, reduceCtorEq] at hs
    subst hs; exact hmem
  | done =>
    simp only [step] at hs
    split at hs <;> simp only [Outcome.ok.injEq, reduceCtorEq] at hs
    subst hs; exact hmem
  | answer j key now ok =>
    have hji : j ≠ i := fun h => ha key now ok (by rw [h])
    have hset : ∀ x, Answer.gen g ∈ s.answers.set j x := fun x => by
      apply List.mem_of_getElem? (i := i)
      rw [List.getElem?_set_ne hji]; exact hi
    simp only [step, answerStep] at hs
    split at hs
    · simp at hs
    · simp only [Outcome.ok.injEq] at hs; subst hs; exact hset _
    · split at hs <;> simp only [Outcome.ok.injEq, reduceCtorEq] at hs
      · subst hs; exact hset _
      · subst hs; exact hset _
    · rename_i hj
      split at hs <;> simp only [Outcome.ok.injEq, reduceCtorEq] at hs
      rename_i hg; subst hs
      rcases sendPublicKey_ok hg with ⟨p, _, rfl⟩ | rfl <;>
      · rw [List.mem_eraseIdx_iff_getElem?]
        exact ⟨i, fun h => hji h.symm, hi⟩
  | cancel => simp only [step, Outcome.ok.injEq] at hs; subst hs; exact hmem

/-- A step leaves the dirty state only by passing the secrets on. -/
theorem dirty_step {s s' : State} {a : Act} (hs : step C cfg s a = .ok s') (hd : Dirty s) :
    Dirty s' ∨ ∃ l, Pending s l ∧ ((l[0]?).join.getD [] = [] ∧ s'.sess = s.sess ∨ setSecrets s.sess l = some s'.sess) := by
  rcases hd with ⟨msg, hd⟩ | ⟨msg, l, hd⟩ | ⟨g, hd, hl⟩ | ⟨g, hd, hl⟩
  · by_cases h1 : ∃ b, a = .recv b
    · obtain ⟨b, rfl⟩ := h1
      simp [step, hd] at hs
    · by_cases h2 : a = .reader
      · subst h2
        simp only [step, readerStep, hd] at hs
        split at hs <;> simp only [Outcome.ok.injEq, reduceCtorEq] at hs
        subst hs; exact .inl (.inr (.inl ⟨msg, _, rfl⟩))
      · have hf := step_frame hs (fun b e => h1 ⟨b, e⟩) h2
        exact .inl (.inl ⟨msg, by rw [hf.reader]; exact hd⟩)
  · by_cases h1 : ∃ b, a = .recv b
    · obtain ⟨b, rfl⟩ := h1
      simp [step, hd] at hs
    · by_cases h2 : a = .reader
      · subst h2
        simp only [step, readerStep, hd] at hs
        split at hs <;> simp only [Outcome.ok.injEq, reduceCtorEq] at hs
        rename_i s1 hp
        obtain ⟨k, hk, hk2⟩ := publish_eq hp
        subst hs; subst hk
        refine .inr ⟨l, .inl ⟨msg, hd⟩, ?_⟩
        rcases hk2 with hk2 | hk2
        · exact .inl ⟨hk2.2, hk2.1⟩
        · exact .inr hk2.1
      · have hf := step_frame hs (fun b e => h1 ⟨b, e⟩) h2
        exact .inl (.inr (.inl ⟨msg, l, by rw [hf.reader]; exact hd⟩))
  · by_cases h1 : ∃ key now ok, a = .main key now ok
    · obtain ⟨key, now, ok, rfl⟩ := h1
      simp only [step, mainStep, hd] at hs
      split at hs <;> simp only [Outcome.ok.injEq, reduceCtorEq] at hs
      · rename_i s1 g' hg
        subst hs
        rcases genStep_late hg hl with ⟨g'', h1, h2⟩ | ⟨l, h1, h2, h3⟩
        · simp only [Option.some.injEq] at h1; subst h1
          exact .inl (.inr (.inr (.inl ⟨g', rfl, h2⟩)))
        · simp at h2
      · rename_i s1 hg
        subst hs
        rcases genStep_late hg hl with ⟨g'', h1, h2⟩ | ⟨l, h1, h2, h3⟩
        · simp at h1
        · exact .inr ⟨l, .inr (.inl (by rw [hd, h1])), h3⟩
    · have := step_main_frame hs hd (fun key now ok e => h1 ⟨key, now, ok, e⟩)
      exact .inl (.inr (.inr (.inl ⟨g, by rw [this]; exact hd, hl⟩)))
  · obtain ⟨i, hi⟩ := List.mem_iff_getElem?.1 hd
    by_cases h1 : ∃ key now ok, a = .answer i key now ok
    · obtain ⟨key, now, ok, rfl⟩ := h1
      have hlt : i < s.answers.length := by
        rw [List.getElem?_eq_some_iff] at hi; exact hi.1
      simp only [step, answerStep, hi] at hs
      split at hs <;> simp only [Outcome.ok.injEq, reduceCtorEq] at hs
      · rename_i s1 g' hg
        subst hs
        rcases genStep_late hg hl with ⟨g'', h1, h2⟩ | ⟨l, h1, h2, h3⟩
        · simp only [Option.some.injEq] at h1; subst h1
          exact .inl (.inr (.inr (.inr ⟨g', List.mem_set hlt _, h2⟩)))
        · simp at h2
      · rename_i s1 hg
        subst hs
        rcases genStep_late hg hl with ⟨g'', h1, h2⟩ | ⟨l, h1, h2, h3⟩
        · simp at h1
        · exact .inr ⟨l, .inr (.inr (by rw [← h1]; exact hd)), h3⟩
    · exact .inl (.inr (.inr (.inr ⟨g, step_answer_frame hs hi (fun key now ok e => h1 ⟨key, now, ok, e⟩), hl⟩)))

/-- A goroutine is about to generate a key. -/
def GenAt (s : State) : Prop := s.main = .gen .gen ∨ .gen .gen ∈ s.answers

theorem genStep_gen {s s' : State} {key : Option Bytes} {now : Nat} {g : Gen} {o : Option Gen}
    (h : genStep C cfg s key now g = .ok (s', o)) (ho : o = some .gen) : g = .check ∧ s' = s ∧ s.nextCreated ≤ s.created := by
  cases g with
  | check =>
    simp only [genStep, Outcome.ok.injEq, Prod.mk.injEq] at h
    obtain ⟨rfl, rfl⟩ := h
    split at ho
    · simp at ho
    · exact ⟨rfl, rfl, by omega⟩
  | gen =>
    simp only [genStep] at h
    split at h <;> simp only [Outcome.ok.injEq, Prod.mk.injEq] at h <;> rw [ho] at h <;> simp at h
  | snapshot =>
    simp only [genStep] at h
    split at h <;> simp only [Outcome.ok.injEq, Prod.mk.injEq, reduceCtorEq] at h
    rw [ho] at h; simp at h
  | publish l =>
    simp only [genStep] at h
    split at h <;> simp only [Outcome.ok.injEq, Prod.mk.injEq, reduceCtorEq] at h
    rw [ho] at h; simp at h

/-- How a goroutine gets there. -/
theorem genAt_step {s s' : State} {a : Act} (hs : step C cfg s a = .ok s') (he : Excl s) (hg : GenAt s') :
    (GenAt s ∧ s'.nextCreated = s.nextCreated) ∨ (s.nextCreated ≤ s.created ∧ s'.nextCreated = s.nextCreated) := by
  cases a with
  | recv b =>
    simp only [step] at hs
    split at hs
    · split at hs <;> simp only [Outcome.ok.injEq, reduceCtorEq] at hs <;> subst hs <;> exact .inl ⟨hg, rfl⟩
    · simp at hs
  | reader =>
    simp only [step, readerStep] at hs
    split at hs
    · simp at hs
    · split at hs
      · simp at hs
      · simp only [Outcome.ok.injEq] at hs; subst hs
        rename_i b msg _ _
        have h1 : (enter C s b msg).nextCreated = s.nextCreated ∧ (enter C s b msg).main = s.main ∧
            (enter C s b msg).answers = s.answers := by
          unfold enter
          repeat' split
          all_goals exact ⟨rfl, rfl, rfl⟩
        simp only [GenAt, h1.2.1, h1.2.2] at hg
        exact .inl ⟨hg, h1.1⟩
    · split at hs <;> simp only [Outcome.ok.injEq, reduceCtorEq] at hs
      subst hs; exact .inl ⟨hg, rfl⟩
    · split at hs <;> simp only [Outcome.ok.injEq, reduceCtorEq] at hs
      rename_i s1 hp
      obtain ⟨k, hk, _⟩ := publish_eq hp
      subst hs; subst hk; exact .inl ⟨hg, rfl⟩
    · rename_i msg _
      simp only [Outcome.ok.injEq] at hs; subst hs
      obtain ⟨f1, f2, f3, f4, f5, f6, f7, f8, f9, f10, f11, _⟩ := finish_frame (cfg := cfg) s msg
      refine .inl ⟨?_, f9⟩
      rcases hg with hg | hg
      · exact .inl (by rw [← f7]; exact hg)
      · refine .inr ?_
        simp only [finish] at hg
        split at hg
        · simpa using hg
        · exact hg
  | tick =>
    simp only [step] at hs
    split at hs <;> simp only [Outcome.ok.injEq, reduceCtorEq] at hs
    subst hs
    rcases hg with hg | hg
    · simp at hg
    · exact .inl ⟨.inr hg, rfl⟩
  | main key now ok =>
    simp only [step, mainStep] at hs
    split at hs
    · rename_i g hm
      have aux : ∀ {s1 : State} {o : Option Gen} (m : Main), genStep C cfg s key now g = .ok (s1, o) →
          (m = .gen .gen → o = some .gen) → GenAt { s1 with main := m } →
          (GenAt s ∧ s1.nextCreated = s.nextCreated) ∨ (s.nextCreated ≤ s.created ∧ s1.nextCreated = s.nextCreated) := by
        intro s1 o m hgs k1 hg
        rcases hg with hg | hg
        · obtain ⟨_, h2, h3⟩ := genStep_gen hgs (k1 hg)
          exact .inr ⟨h3, by rw [h2]⟩
        · simp only [(genStep_frame hgs).answers] at hg
          exact absurd hg (he.ma (by simp [hm, Main.locks]) _)
      split at hs <;> simp only [Outcome.ok.injEq, reduceCtorEq] at hs
      · rename_i hgs; subst hs; have := aux _ hgs (by simp) hg; exact this
      · rename_i hgs; subst hs; have := aux _ hgs (by split <;> simp) hg; exact this
    · split at hs <;> simp only [Outcome.ok.injEq, reduceCtorEq] at hs
      rename_i hgs; subst hs
      rcases hg with hg | hg
      · simp at hg
      · rcases sendPublicKey_ok hgs with ⟨p, _, rfl⟩ | rfl <;> exact .inl ⟨.inr hg, rfl⟩
    · simp at hs
  | retry ok =>
    simp only [step] at hs
    split at hs
    · split at hs <;> simp only [Outcome.ok.injEq, reduceCtorEq] at hs
      rename_i hgs; subst hs
      rcases sendPublicKey_ok hgs with ⟨p, _, rfl⟩ | rfl <;> exact .inl ⟨hg, rfl⟩
    · simp at hs
  | timeout =>
    simp only [step] at hs
    split at hs <;> simp only [Outcome.ok.injEq, reduceCtorEq] at hs
    subst hs
    rcases hg with hg | hg
    · simp at hg
    · exact .inl ⟨.inr hg, rfl⟩
  | done =>
    simp only [step] at hs
    split at hs <;> simp only [Outcome.ok.injEq, reduceCtorEq] at hs
    subst hs
    rcases hg with hg | hg
    · simp at hg
    · exact .inl ⟨.inr hg, rfl⟩
  | answer i key now ok =>
    simp only [step, answerStep] at hs
    split at hs
    · simp at hs
    · simp only [Outcome.ok.injEq] at hs; subst hs
      rcases hg with hg | hg
      · exact .inl ⟨.inl hg, rfl⟩
      · rcases mem_set_answers hg with hg | hg
        · exact .inl ⟨.inr hg, rfl⟩
        · split at hg <;> simp at hg
    · rename_i g hi
      have hmem : Answer.gen g ∈ s.answers := List.mem_of_getElem? hi
      have aux : ∀ {s1 : State} {o : Option Gen} (x : Answer), genStep C cfg s key now g = .ok (s1, o) →
          (x = .gen .gen → o = some .gen) → GenAt { s1 with answers := s.answers.set i x } →
          (GenAt s ∧ s1.nextCreated = s.nextCreated) ∨ (s.nextCreated ≤ s.created ∧ s1.nextCreated = s.nextCreated) := by
        intro s1 o x hgs k1 hg
        rcases hg with hg | hg
        · simp only [(genStep_frame hgs).main] at hg
          exact absurd hmem (he.ma (by simp [hg, Main.locks]) _)
        · rcases mem_set_index hg with hg | ⟨j, hj, hg⟩
          · obtain ⟨_, h2, h3⟩ := genStep_gen hgs (k1 hg.symm)
            exact .inr ⟨h3, by rw [h2]⟩
          · exact absurd (he.aa j i _ _ hg hi) hj
      split at hs <;> simp only [Outcome.ok.injEq, reduceCtorEq] at hs
      · rename_i hgs; subst hs; have := aux _ hgs (by simp) hg; exact this
      · rename_i hgs; subst hs; have := aux _ hgs (by simp) hg; exact this
    · split at hs <;> simp only [Outcome.ok.injEq, reduceCtorEq] at hs
      rename_i hgs; subst hs
      rcases sendPublicKey_ok hgs with ⟨p, _, rfl⟩ | rfl <;>
      · rcases hg with hg | hg
        · exact .inl ⟨.inl hg, rfl⟩
        · exact .inl ⟨.inr (List.mem_of_mem_eraseIdx hg), rfl⟩
  | cancel => simp only [step, Outcome.ok.injEq] at hs; subst hs; exact .inl ⟨hg, rfl⟩

/-- When the confirmed stamp changes. -/
theorem created_step {s s' : State} {a : Act} (hs : step C cfg s a = .ok s') :
    (s'.created = s.created ∧ s'.successes = s.successes) ∨
    (s'.created = s.nextCreated ∧ s'.successes = s.successes + 1 ∧ s'.nextCreated = s.nextCreated ∧ s'.gens = s.gens ∧
      s.reader.locks = true ∧ s'.main = s.main ∧ (∀ g, .gen g ∈ s'.answers → .gen g ∈ s.answers)) := by
  by_cases h1 : ∃ b, a = .recv b
  · obtain ⟨b, rfl⟩ := h1
    simp only [step] at hs
    split at hs
    · split at hs <;> simp only [Outcome.ok.injEq, reduceCtorEq] at hs <;> subst hs <;> exact .inl ⟨rfl, rfl⟩
    · simp at hs
  · by_cases h2 : a = .reader
    · subst h2
      simp only [step, readerStep] at hs
      split at hs
      · simp at hs
      · split at hs
        · simp at hs
        · simp only [Outcome.ok.injEq] at hs; subst hs
          unfold enter
          repeat' split
          all_goals exact .inl ⟨rfl, rfl⟩
      · split at hs <;> simp only [Outcome.ok.injEq, reduceCtorEq] at hs
        subst hs; exact .inl ⟨rfl, rfl⟩
      · split at hs <;> simp only [Outcome.ok.injEq, reduceCtorEq] at hs
        rename_i s1 hp
        obtain ⟨k, hk, _⟩ := publish_eq hp
        subst hs; subst hk; exact .inl ⟨rfl, rfl⟩
      · rename_i msg hrd
        simp only [Outcome.ok.injEq] at hs; subst hs
        cases hsu : succeeds cfg msg with
        | false => left; simp [finish, hsu]
        | true =>
          right
          refine ⟨by simp [finish, hsu], by simp [finish, hsu], by simp [finish, hsu], by simp [finish, hsu],
            by simp [hrd, Reader.locks], by simp [finish, hsu], ?_⟩
          intro g hg
          simp only [finish, hsu, if_true] at hg
          split at hg
          · simpa using hg
          · exact hg
    · have hf := step_frame hs (fun b e => h1 ⟨b, e⟩) h2
      exact .inl ⟨hf.created, hf.successes⟩

/-- What holds when key updates do not overlap. -/
structure SerialInv (C : Crypto) (cfg : Cfg) (s : State) : Prop where
  pending : ∀ l, Pending s l → secrets C cfg.psk s.keys = some l
  published : ¬ Dirty s → Published C cfg s
  created : s.created ≤ s.nextCreated
  genAt : GenAt s → s.nextCreated ≤ s.created
  stamps : (s.gens.map (·.2)).Pairwise (· < ·)
  last : ∀ x ∈ s.gens, x.2 ≤ s.nextCreated

theorem serialInv {s : State} (h : SerialReach C cfg remote s) : SerialInv C cfg s := by
  induction h with
  | init =>
    refine ⟨?_, fun _ => ⟨[none, none, none, none], rfl, by simp⟩, by simp [State.init], by simp [State.init, GenAt],
      by simp [State.init], by simp [State.init]⟩
    rintro l (⟨_, h⟩ | h | h) <;> simp [State.init] at h
  | @step s s' a hr hs he' ih =>
    have he := hr.excl
    have hsess := sessStep hs
    -- the clean part, when the keys stay
    have clean : s'.keys = s.keys → ¬ Dirty s' → Published C cfg s' := by
      intro hk hd
      by_cases hds : Dirty s
      · rcases dirty_step hs hds with h | ⟨l, hp, h⟩
        · exact absurd h hd
        · have hl := ih.pending l hp
          refine ⟨l, by rw [hk]; exact hl, fun h0 => ?_⟩
          rcases h with ⟨hz, _⟩ | h
          · exact absurd hz h0
          · rw [setSecrets_taken hl h0 (sessOK_reachable hr.reachable).pre, Option.some.injEq] at h
            rw [← h]
      · obtain ⟨l, h1, h2⟩ := ih.published hds
        refine ⟨l, by rw [hk]; exact h1, ?_⟩
        rcases hsess.sess with h | ⟨l', hp, _⟩
        · rw [h]; exact h2
        · exact absurd hp.dirty hds
    cases keyStep hs with
    | same hk hg ha hp hn =>
      refine ⟨?_, clean hk, ?_, ?_, by rw [hg]; exact ih.stamps, by rw [hg, hn]; exact ih.last⟩
      · intro l hl
        rcases hsess.pending l hl with h | ⟨h, _⟩
        · rw [hk]; exact ih.pending l h
        · rw [hk]; exact h
      · rcases created_step hs with h | h
        · rw [h.1, hn]; exact ih.created
        · rw [h.1, hn]; exact Nat.le_refl _
      · intro hga
        rcases created_step hs with h | h
        · rw [h.1]
          rcases genAt_step hs he hga with ⟨h1, h2⟩ | ⟨h1, h2⟩
          · rw [h2]; exact ih.genAt h1
          · rw [h2]; exact h1
        · rw [h.1, hn]; exact Nat.le_refl _
    | rotate priv now hk hg ha hp hn hw =>
      have hle := ih.genAt hw
      have hc : s'.created = s.created := by
        rcases created_step hs with h | h
        · exact h.1
        · exfalso
          rw [h.2.2.2.1] at hg
          have := congrArg List.length hg
          simp at this
      have hlt : s.nextCreated < s'.nextCreated := by rw [hn]; split <;> omega
      have hnp : ∀ l, ¬ Pending s l := by
        intro l hl
        rcases hl with ⟨msg, hl⟩ | hl | hl
        · have hlk : s.reader.locks = true := by simp [hl, Reader.locks]
          rcases hw with hw | hw
          · have := he.rm hlk; rw [hw] at this; simp [Main.locks] at this
          · exact he.ra hlk _ hw
        · rcases hw with hw | hw
          · rw [hw] at hl; simp at hl
          · exact he.ma (by simp [hl, Main.locks]) _ hw
        · rcases hw with hw | hw
          · exact he.ma (by simp [hw, Main.locks]) _ hl
          · obtain ⟨i, hi⟩ := List.mem_iff_getElem?.1 hw
            obtain ⟨j, hj⟩ := List.mem_iff_getElem?.1 hl
            have := he.aa i j _ _ hi hj
            subst this
            rw [hi] at hj; simp at hj
      have hnk : s'.keys ≠ s.keys ∨ s'.keys = s.keys := by
        by_cases h : s'.keys = s.keys
        · exact .inr h
        · exact .inl h
      refine ⟨?_, ?_, by rw [hc]; have := ih.created; omega, ?_, ?_, ?_⟩
      · intro l hl
        rcases hsess.pending l hl with h | ⟨h, h2⟩
        · exact absurd h (hnp l)
        · rw [h2]; exact h
      · intro hd
        rcases hnk with h | h
        · exfalso
          -- the goroutine that made the key is about to compute the secrets
          apply hd
          cases a with
          | main key now ok =>
            simp only [step, mainStep] at hs
            split at hs
            · rename_i g hm
              split at hs <;> simp only [Outcome.ok.injEq, reduceCtorEq] at hs
              · rename_i s1 g' hgs
                rcases genStep_keys hgs with ⟨k1, _⟩ | ⟨_, _, _, k2, _⟩
                · subst hs; exact absurd k1 h
                · simp only [Option.some.injEq] at k2; subst k2; subst hs
                  exact .inr (.inr (.inl ⟨.snapshot, rfl, rfl⟩))
              · rename_i s1 hgs
                rcases genStep_keys hgs with ⟨k1, _⟩ | ⟨_, _, _, k2, _⟩
                · subst hs; exact absurd k1 h
                · simp at k2
            · split at hs <;> simp only [Outcome.ok.injEq, reduceCtorEq] at hs
              rename_i hgs; subst hs
              rcases sendPublicKey_ok hgs with ⟨p, _, rfl⟩ | rfl <;> exact absurd rfl h
            · simp at hs
          | answer i key now ok =>
            simp only [step, answerStep] at hs
            split at hs
            · simp at hs
            · simp only [Outcome.ok.injEq] at hs; subst hs; exact absurd rfl h
            · rename_i g hi
              have hilt : i < s.answers.length := by
                rw [List.getElem?_eq_some_iff] at hi; exact hi.1
              split at hs <;> simp only [Outcome.ok.injEq, reduceCtorEq] at hs
              · rename_i s1 g' hgs
                rcases genStep_keys hgs with ⟨k1, _⟩ | ⟨_, _, _, k2, _⟩
                · subst hs; exact absurd k1 h
                · simp only [Option.some.injEq] at k2; subst k2; subst hs
                  exact .inr (.inr (.inr ⟨.snapshot, List.mem_set hilt _, rfl⟩))
              · rename_i s1 hgs
                rcases genStep_keys hgs with ⟨k1, _⟩ | ⟨_, _, _, k2, _⟩
                · subst hs; exact absurd k1 h
                · simp at k2
            · split at hs <;> simp only [Outcome.ok.injEq, reduceCtorEq] at hs
              rename_i hgs; subst hs
              rcases sendPublicKey_ok hgs with ⟨p, _, rfl⟩ | rfl <;> exact absurd rfl h
          | recv b =>
            simp only [step] at hs
            split at hs
            · split at hs <;> simp only [Outcome.ok.injEq, reduceCtorEq] at hs <;> subst hs <;> exact absurd rfl h
            · simp at hs
          | reader =>
            exfalso
            simp only [step, readerStep] at hs
            split at hs
            · simp at hs
            · split at hs
              · simp at hs
              · simp only [Outcome.ok.injEq] at hs; subst hs
                rename_i b msg _ _
                have hge : (enter C s b msg).gens = s.gens := by
                  unfold enter
                  repeat' split
                  all_goals rfl
                rw [hge] at hg
                have := congrArg List.length hg
                simp at this
            · split at hs <;> simp only [Outcome.ok.injEq, reduceCtorEq] at hs
              subst hs; exact absurd rfl h
            · split at hs <;> simp only [Outcome.ok.injEq, reduceCtorEq] at hs
              rename_i s1 hp
              obtain ⟨k, hk1, _⟩ := publish_eq hp
              subst hs; subst hk1; exact absurd rfl h
            · rename_i msg _
              simp only [Outcome.ok.injEq] at hs; subst hs
              exact absurd (finish_frame (cfg := cfg) s msg).2.2.1 h
          | tick =>
            simp only [step] at hs
            split at hs <;> simp only [Outcome.ok.injEq, reduceCtorEq] at hs
            subst hs; exact absurd rfl h
          | retry ok =>
            simp only [step] at hs
            split at hs
            · split at hs <;> simp only [Outcome.ok.injEq, reduceCtorEq] at hs
              rename_i hgs; subst hs
              rcases sendPublicKey_ok hgs with ⟨p, _, rfl⟩ | rfl <;> exact absurd rfl h
            · simp at hs
          | timeout =>
            simp only [step] at hs
            split at hs <;> simp only [Outcome.ok.injEq, reduceCtorEq] at hs
            subst hs; exact absurd rfl h
          | done =>
            simp only [step] at hs
            split at hs <;> simp only [Outcome.ok.injEq, reduceCtorEq] at hs
            subst hs; exact absurd rfl h
          | cancel => simp only [step, Outcome.ok.injEq] at hs; subst hs; exact absurd rfl h
        · exact clean h hd
      · intro hga
        rcases genAt_step hs he hga with ⟨_, h⟩ | ⟨_, h⟩ <;> omega
      · rw [hg, List.map_append, List.pairwise_append]
        refine ⟨ih.stamps, by simp, ?_⟩
        intro x hx y hy
        simp only [List.map_cons, List.map_nil, List.mem_cons, List.not_mem_nil, or_false] at hy
        obtain ⟨z, hz, rfl⟩ := List.mem_map.1 hx
        have := ih.last z hz
        rw [hy, ← hn]; omega
      · intro x hx
        rw [hg] at hx
        simp only [List.mem_append, List.mem_cons, List.not_mem_nil, or_false] at hx
        rcases hx with hx | hx
        · have := ih.last x hx; omega
        · rw [hx, hn]; exact Nat.le_refl _
    | receive pub b msg hk hg ha hp hn hw hrd hb hm =>
      have hlk : s'.reader.locks = true := by simp [hrd, Reader.locks]
      refine ⟨?_, ?_, ?_, ?_, by rw [hg]; exact ih.stamps, by rw [hg, hn]; exact ih.last⟩
      · intro l hl
        exfalso
        rcases hl with ⟨msg', hl⟩ | hl | hl
        · rw [hrd] at hl; simp at hl
        · have := he'.rm hlk; rw [hl] at this; simp [Main.locks] at this
        · exact he'.ra hlk _ hl
      · intro hd; exact absurd (.inl ⟨msg, hrd⟩) hd
      · rcases created_step hs with h | h
        · rw [h.1, hn]; exact ih.created
        · rw [h.1, hn]; exact Nat.le_refl _
      · intro hga
        exfalso
        rcases hga with hga | hga
        · have := he'.rm hlk; rw [hga] at this; simp [Main.locks] at this
        · exact he'.ra hlk _ hga

end Verif.KX
