import Verif.Lemmas.KeyExchangeSerial
/-!
# Histories of keys
-/
namespace Verif.KX
open Verif.Headers

variable {C : Crypto} {cfg : Cfg} {remote : Option Bytes}

/-- A list without immediate repetitions, in order. -/
def collapse : List Bytes → List Bytes
  | [] => []
  | [x] => [x]
  | x :: y :: l => if x = y then collapse (y :: l) else x :: collapse (y :: l)

/-- The last and the last but one element. -/
def last2 (l : List Bytes) : Option Bytes × Option Bytes := (l.reverse[0]?, l.reverse[1]?)

theorem last2_snoc (l : List Bytes) (x : Bytes) : last2 (l ++ [x]) = (some x, (last2 l).1) := by
  simp [last2]

theorem last2_last (l : List Bytes) : (last2 l).1 = l.getLast? := by
  simp only [last2, List.getLast?_eq_head?_reverse, List.head?_eq_getElem?]

theorem collapse_ne (x : Bytes) (l : List Bytes) : collapse (x :: l) ≠ [] := by
  induction l generalizing x with
  | nil => simp [collapse]
  | cons y l ih =>
    simp only [collapse]
    split
    · exact ih y
    · simp

theorem collapse_last : ∀ l : List Bytes, (collapse l).getLast? = l.getLast? := by
  intro l
  induction l with
  | nil => rfl
  | cons x l ih =>
    cases l with
    | nil => rfl
    | cons y l =>
      simp only [collapse]
      split
      · rw [ih]; simp [List.getLast?_cons_cons]
      · rw [List.getLast?_cons_cons, ← ih]
        obtain ⟨z, zs, hz⟩ := List.exists_cons_of_ne_nil (collapse_ne y l)
        rw [hz, List.getLast?_cons_cons]

theorem collapse_snoc : ∀ (l : List Bytes) (x : Bytes),
    collapse (l ++ [x]) = if l.getLast? = some x then collapse l else collapse l ++ [x] := by
  intro l
  induction l with
  | nil => intro x; simp [collapse]
  | cons y l ih =>
    intro x
    cases l with
    | nil =>
      simp only [List.cons_append, List.nil_append, collapse, List.getLast?_singleton, Option.some.injEq]
      split <;> simp_all
    | cons z l =>
      have := ih x
      simp only [List.cons_append] at this ⊢
      simp only [collapse, this, List.getLast?_cons_cons]
      split <;> split <;> simp

/-- The keys in use are the last two of the history. -/
structure HistOK (s : State) : Prop where
  loc : (s.keys.nextLocal, s.keys.prevLocal) = last2 (s.gens.map (·.1))
  rem : (s.keys.nextRemote, s.keys.prevRemote) = last2 (collapse s.accepted)

theorem histOK_reachable {s : State} (h : Reachable C cfg remote s) : HistOK s := by
  induction h with
  | init => exact ⟨rfl, rfl⟩
  | @step s s' a _ hs ih =>
    obtain ⟨h1, h2⟩ := ih
    cases keyStep hs with
    | same hk hg ha _ _ => exact ⟨by rw [hk, hg]; exact h1, by rw [hk, ha]; exact h2⟩
    | rotate priv now hk hg ha _ _ _ =>
      refine ⟨?_, by rw [hk, ha]; exact h2⟩
      rw [hg, List.map_append, List.map_cons, List.map_nil, last2_snoc, hk, ← h1]
      rfl
    | receive pub _ _ hk hg ha _ _ _ _ _ _ =>
      have hloc : s'.keys.nextLocal = s.keys.nextLocal ∧ s'.keys.prevLocal = s.keys.prevLocal := by
        rw [hk]; unfold Keys.receive; split <;> exact ⟨rfl, rfl⟩
      refine ⟨by rw [hloc.1, hloc.2, hg]; exact h1, ?_⟩
      rw [ha, collapse_snoc]
      have hn : s.keys.nextRemote = s.accepted.getLast? := by
        rw [← collapse_last, ← last2_last, ← h2]
      rw [hk]
      unfold Keys.receive
      rw [← hn]
      split
      · exact h2
      · rw [last2_snoc, ← h2]

/-- `kx.locker`. -/
theorem mutex {s : State} (h : Reachable C cfg remote s) : s.reader.locks = true → s.main.locks = false := by
  induction h with
  | init => simp [State.init, Reader.locks]
  | @step s s' a _ hs ih =>
    intro hl
    by_cases hml : s.main.locks = true
    · -- the loop is inside: the reader was not, and cannot enter
      have hrl : s.reader.locks = false := by
        cases hrl : s.reader.locks with
        | false => rfl
        | true => rw [ih hrl] at hml; simp at hml
      exfalso
      by_cases h1 : ∃ b, a = .recv b
      · obtain ⟨b, rfl⟩ := h1
        simp only [step] at hs
        split at hs
        · rename_i hrd
          split at hs <;> simp only [Outcome.ok.injEq, reduceCtorEq] at hs <;> subst hs <;> simp_all [Reader.locks]
        · simp at hs
      · by_cases h2 : a = .reader
        · subst h2
          simp only [step, readerStep] at hs
          split at hs
          · simp at hs
          · simp [hml] at hs
          all_goals (rename_i hrd; simp [hrd, Reader.locks] at hrl)
        · have hf := step_frame hs (fun b e => h1 ⟨b, e⟩) h2
          rw [hf.reader, hrl] at hl
          simp at hl
    · have hml' : s.main.locks = false := by simpa using hml
      cases a with
      | recv b =>
        simp only [step] at hs
        split at hs
        · split at hs <;> simp only [Outcome.ok.injEq, reduceCtorEq] at hs <;> subst hs <;> exact hml'
        · simp at hs
      | reader =>
        simp only [step, readerStep] at hs
        split at hs
        · simp at hs
        · split at hs
          · simp at hs
          · simp only [Outcome.ok.injEq] at hs; subst hs
            unfold enter
            repeat' split
            all_goals exact hml'
        · split at hs <;> simp only [Outcome.ok.injEq, reduceCtorEq] at hs
          subst hs; exact hml'
        · split at hs <;> simp only [Outcome.ok.injEq, reduceCtorEq] at hs
          rename_i s1 hp
          obtain ⟨k, hk, _⟩ := publish_eq hp
          subst hs; subst hk; exact hml'
        · rename_i msg _
          simp only [Outcome.ok.injEq] at hs; subst hs
          rw [(finish_frame (cfg := cfg) s msg).2.2.2.2.2.2.1]; exact hml'
      | tick =>
        simp only [step] at hs
        split at hs <;> simp only [Outcome.ok.injEq, reduceCtorEq] at hs
        rename_i hc
        subst hs
        simp only [hc.2.2] at hl
        simp at hl
      | main key now ok =>
        simp only [step, mainStep] at hs
        split at hs
        · rename_i g hm; simp [hm, Main.locks] at hml'
        · split at hs <;> simp only [Outcome.ok.injEq, reduceCtorEq] at hs
          rename_i hg; subst hs; rfl
        · simp at hs
      | retry ok =>
        simp only [step] at hs
        split at hs
        · split at hs <;> simp only [Outcome.ok.injEq, reduceCtorEq] at hs
          rename_i hg; subst hs
          rcases sendPublicKey_ok hg with ⟨p, _, rfl⟩ | rfl <;> exact hml'
        · simp at hs
      | timeout =>
        simp only [step] at hs
        split at hs <;> simp only [Outcome.ok.injEq, reduceCtorEq] at hs
        subst hs; rfl
      | done =>
        simp only [step] at hs
        split at hs <;> simp only [Outcome.ok.injEq, reduceCtorEq] at hs
        subst hs; rfl
      | answer i key now ok =>
        simp only [step, answerStep] at hs
        split at hs
        · simp at hs
        · simp only [Outcome.ok.injEq] at hs; subst hs; exact hml'
        · split at hs <;> simp only [Outcome.ok.injEq, reduceCtorEq] at hs
          · rename_i hg; subst hs; simp only [(genStep_frame hg).main]; exact hml'
          · rename_i hg; subst hs; simp only [(genStep_frame hg).main]; exact hml'
        · split at hs <;> simp only [Outcome.ok.injEq, reduceCtorEq] at hs
          rename_i hg; subst hs
          rcases sendPublicKey_ok hg with ⟨p, _, rfl⟩ | rfl <;> exact hml'
      | cancel => simp only [step, Outcome.ok.injEq] at hs; subst hs; exact hml'

/-- Runs in which no message is accepted before the first local key is there. -/
inductive PreparedReach (C : Crypto) (cfg : Cfg) (remote : Option Bytes) : State → Prop
  | init : PreparedReach C cfg remote (State.init remote)
  | step {s s'} (a : Act) : PreparedReach C cfg remote s → step C cfg s a = .ok s' →
      (s'.accepted ≠ [] → s'.nextPub ≠ none) → PreparedReach C cfg remote s'

theorem PreparedReach.reachable {s : State} (h : PreparedReach C cfg remote s) : Reachable C cfg remote s := by
  induction h with
  | init => exact .init
  | step a _ hs _ ih => exact .step a ih hs

theorem PreparedReach.prep {s : State} (h : PreparedReach C cfg remote s) : s.accepted ≠ [] → s.nextPub ≠ none := by
  cases h with
  | init => simp [State.init]
  | step a _ _ he => exact he

/-- Where accepted messages leave traces. -/
structure TraceOK (s : State) : Prop where
  reader : s.reader.locks = true → s.accepted ≠ []
  answers : s.answers ≠ [] → s.accepted ≠ []

theorem traceOK {s : State} (h : Reachable C cfg remote s) : TraceOK s := by
  induction h with
  | init => constructor <;> simp [State.init, Reader.locks]
  | @step s s' a _ hs ih =>
    by_cases h1 : ∃ b, a = .recv b
    · obtain ⟨b, rfl⟩ := h1
      simp only [step] at hs
      split at hs
      · rename_i hrd
        split at hs <;> simp only [Outcome.ok.injEq, reduceCtorEq] at hs <;> subst hs
        · exact ⟨by simp [Reader.locks], ih.answers⟩
        · exact ⟨ih.reader, ih.answers⟩
      · simp at hs
    · by_cases h2 : a = .reader
      · subst h2
        simp only [step, readerStep] at hs
        split at hs
        · simp at hs
        · split at hs
          · simp at hs
          · simp only [Outcome.ok.injEq] at hs; subst hs
            unfold enter
            split
            · exact ⟨by simp [Reader.locks], ih.answers⟩
            · split
              · exact ⟨by simp [Reader.locks], ih.answers⟩
              · exact ⟨by simp, by simp⟩
        · rename_i hrd
          split at hs <;> simp only [Outcome.ok.injEq, reduceCtorEq] at hs
          subst hs; exact ⟨fun _ => ih.reader (by simp [hrd, Reader.locks]), ih.answers⟩
        · rename_i hrd
          split at hs <;> simp only [Outcome.ok.injEq, reduceCtorEq] at hs
          rename_i s1 hp
          obtain ⟨k, hk, _⟩ := publish_eq hp
          subst hs; subst hk; exact ⟨fun _ => ih.reader (by simp [hrd, Reader.locks]), ih.answers⟩
        · rename_i msg hrd
          simp only [Outcome.ok.injEq] at hs; subst hs
          have hf := finish_frame (cfg := cfg) s msg
          have := ih.reader (by simp [hrd, Reader.locks])
          exact ⟨fun _ => by rw [hf.2.2.2.1]; exact this, fun _ => by rw [hf.2.2.2.1]; exact this⟩
      · have hf := step_frame hs (fun b e => h1 ⟨b, e⟩) h2
        refine ⟨by rw [hf.reader, hf.accepted]; exact ih.reader, fun hne => ?_⟩
        rw [hf.accepted]
        apply ih.answers
        intro h0
        have := hf.answers
        rw [h0] at this
        exact hne (List.length_eq_zero_iff.1 (by simpa using this))

theorem prepared_answers {s : State} (h : PreparedReach C cfg remote s) : ∀ g, Answer.gen g ∉ s.answers := by
  induction h with
  | init => simp [State.init]
  | @step s s' a hr hs hp ih =>
    intro g hg
    cases a with
    | recv b =>
      simp only [step] at hs
      split at hs
      · split at hs <;> simp only [Outcome.ok.injEq, reduceCtorEq] at hs <;> subst hs <;> exact ih g hg
      · simp at hs
    | reader =>
      simp only [step, readerStep] at hs
      split at hs
      · simp at hs
      · split at hs
        · simp at hs
        · simp only [Outcome.ok.injEq] at hs; subst hs
          rename_i b msg _ _
          have : (enter C s b msg).answers = s.answers := by
            unfold enter
            repeat' split
            all_goals rfl
          rw [this] at hg
          exact ih g hg
      · split at hs <;> simp only [Outcome.ok.injEq, reduceCtorEq] at hs
        subst hs; exact ih g hg
      · split at hs <;> simp only [Outcome.ok.injEq, reduceCtorEq] at hs
        rename_i s1 hp
        obtain ⟨k, hk, _⟩ := publish_eq hp
        subst hs; subst hk; exact ih g hg
      · simp only [Outcome.ok.injEq] at hs; subst hs
        simp only [finish] at hg
        split at hg
        · simp only [List.mem_append, List.mem_cons, List.not_mem_nil, or_false, reduceCtorEq] at hg; exact ih g hg
        · exact ih g hg
    | tick =>
      simp only [step] at hs
      split at hs <;> simp only [Outcome.ok.injEq, reduceCtorEq] at hs
      subst hs; exact ih g hg
    | main key now ok =>
      simp only [step, mainStep] at hs
      split at hs
      · split at hs <;> simp only [Outcome.ok.injEq, reduceCtorEq] at hs
        · rename_i hgs; subst hs; simp only [(genStep_frame hgs).answers] at hg; exact ih g hg
        · rename_i hgs; subst hs; simp only [(genStep_frame hgs).answers] at hg; exact ih g hg
      · split at hs <;> simp only [Outcome.ok.injEq, reduceCtorEq] at hs
        rename_i hgs; subst hs
        rcases sendPublicKey_ok hgs with ⟨p, _, rfl⟩ | rfl <;> exact ih g hg
      · simp at hs
    | retry ok =>
      simp only [step] at hs
      split at hs
      · split at hs <;> simp only [Outcome.ok.injEq, reduceCtorEq] at hs
        rename_i hgs; subst hs
        rcases sendPublicKey_ok hgs with ⟨p, _, rfl⟩ | rfl <;> exact ih g hg
      · simp at hs
    | timeout =>
      simp only [step] at hs
      split at hs <;> simp only [Outcome.ok.injEq, reduceCtorEq] at hs
      subst hs; exact ih g hg
    | done =>
      simp only [step] at hs
      split at hs <;> simp only [Outcome.ok.injEq, reduceCtorEq] at hs
      subst hs; exact ih g hg
    | answer i key now ok =>
      simp only [step, answerStep] at hs
      split at hs
      · simp at hs
      · rename_i hi
        have hne : s.answers ≠ [] := by intro h0; simp [h0] at hi
        have := hr.prep ((traceOK hr.reachable).answers hne)
        simp only [if_neg this, Outcome.ok.injEq] at hs; subst hs
        rcases mem_set_answers hg with hg | hg
        · exact ih g hg
        · simp at hg
      · rename_i g' hi
        exact ih g' (List.mem_of_getElem? hi)
      · split at hs <;> simp only [Outcome.ok.injEq, reduceCtorEq] at hs
        rename_i hgs; subst hs
        rcases sendPublicKey_ok hgs with ⟨p, _, rfl⟩ | rfl <;> exact ih g (List.mem_of_mem_eraseIdx hg)
    | cancel => simp only [step, Outcome.ok.injEq] at hs; subst hs; exact ih g hg

theorem PreparedReach.serial {s : State} (h : PreparedReach C cfg remote s) : SerialReach C cfg remote s := by
  induction h with
  | init => exact .init
  | @step s s' a hr hs hp ih =>
    have hr' := PreparedReach.step a hr hs hp
    have hn := prepared_answers hr'
    refine .step a ih hs ⟨mutex hr'.reachable, fun _ => hn, fun _ => hn, ?_⟩
    intro i j g g' hi _
    exact absurd (List.mem_of_getElem? hi) (hn g)

end Verif.KX
