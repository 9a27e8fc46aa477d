import Verif.Lemmas.LifecyclePause
/-!
# Closing comes to an end
-/
namespace Verif.Lifecycle

/-- A closing session whose reader can no longer get stuck. -/
structure Ending (s : State) : Prop where
  st : s.st = .closing ∨ s.st = .closed
  start : s.start = .over
  kx : s.kx = true
  reader : s.reader ≠ .entered ∧ s.reader ≠ .noticing ∧ s.reader ≠ .resetting
  waiting : s.reader = .waiting → s.pauseWait = false
  closer : s.reader = .checking ∨ s.reader = .waiting ∨ s.reader = .reading →
    s.closer = .waiting ∨ s.closer = .closing ∨ s.closer = .saw ∨ s.closer = .requested ∨ s.expired = true

/-- Steps of closing. -/
def ownClose : Act → Bool
  | .flush => true
  | .cancelFunc => true
  | .reader _ _ _ => true
  | .closer _ => true
  | _ => false

def Reader.closeRank : Reader → Nat
  | .ended => 0
  | .lastReset => 1
  | .lastState => 2
  | .leavingLate => 3
  | .leavingEarly => 4
  | .leaving => 5
  | .top => 6
  | .reporting => 7
  | .failedLive _ => 8
  | .packet => 8
  | .failed _ => 9
  | .returned _ => 10
  | .reading => 11
  | _ => 12

def Closer.rank : Closer → Nat
  | .off => 6
  | .waiting => 5
  | .closing => 4
  | .saw => 3
  | .requested => 2
  | .failed => 1
  | .over => 0

def closeMeasure (s : State) : Nat := 2 * s.flushing + s.cancelling + s.closer.rank + s.reader.closeRank

theorem ending_step {cfg : Cfg} {s s' : State} {a : Act} (hd : cfg.deadlines = true) (ht : Threads s) (h : Ending s)
    (hs : step cfg s a = .ok s') :
    Ending s' ∧ if ownClose a = true then closeMeasure s' < closeMeasure s else closeMeasure s' ≤ closeMeasure s := by
  obtain ⟨h1, h2, h3, h4, h5, h6⟩ := h
  have p4 := ht.isReading
  cases a with
  | pauser i =>
    simp only [step, pauserStep, setDeadline, hd, if_true] at hs
    (repeat' split at hs) <;> (try (simp at hs; done)) <;>
    simp only [Outcome.ok.injEq] at hs <;> subst hs <;>
    simp only [ownClose, closeMeasure] <;> refine ⟨⟨h1, h2, h3, h4, h5, ?_⟩, by simp⟩ <;> grind
  | reader fresh stop handled =>
    simp only [step, readerStep, setState, closeSess, resetReadDeadline, setDeadline,
      List.mem_cons, List.not_mem_nil, or_false, hd, if_true] at hs
    (repeat' split at hs) <;> (try (simp at hs; done)) <;>
    simp only [Outcome.ok.injEq] at hs <;> subst hs <;> clear ht <;>
    simp only [ownClose, closeMeasure] <;>
    (refine ⟨?_, ?_⟩
     · constructor <;> grind [isDone]
     · grind [Reader.closeRank, isDone])
  | _ =>
    simp only [step, closerStep, startStep, setState, closeSess, setDeadline, badStates,
      List.mem_cons, List.not_mem_nil, or_false, hd, if_true] at hs
    (repeat' split at hs) <;> (try (simp at hs; done)) <;>
    simp only [Outcome.ok.injEq] at hs <;> subst hs <;> clear ht <;>
    simp only [ownClose, closeMeasure] <;>
    (refine ⟨?_, ?_⟩
     · constructor <;> grind
     · grind [Closer.rank])

/-- As long as the session is not closed, one of its own steps is possible. -/
theorem ending_enabled {cfg : Cfg} {s : State} (ht : Threads s) (h : Ending s) :
    (s.st = .closed ∧ s.reader = .ended ∧ s.closer = .over) ∨
      ∃ a, ownClose a = true ∧ Unaided s a ∧ ∃ s', step cfg s a = .ok s' := by
  obtain ⟨h1, h2, h3, h4, h5, h6⟩ := h
  by_cases hf : s.flushing = 0
  · by_cases hc : s.cancelling = 0
    · by_cases hr : s.reader = .ended ∨ (s.reader = .reading ∧ s.expired = false)
      · by_cases hcl : s.closer = .over
        · rcases hr with hr | hr
          · exact .inl ⟨ht.last (.inr hr), hr, hcl⟩
          · have := h6 (.inr (.inr hr.1))
            simp [hcl, hr.2] at this
        · right
          have hctx : s.ctx = true := by
            rcases hr with hr | hr
            · exact ht.ctx (.inr (.inr hr))
            · rcases h1 with h1 | h1
              · rcases ht.closing h1 with h | h | h | h
                · omega
                · omega
                · exact h
                · rw [hr.1] at h; cases h
              · rcases ht.closed h1 with h | h <;> rw [hr.1] at h <;> cases h
          refine ⟨.closer false, rfl, trivial, ?_⟩
          simp only [step, closerStep]
          cases hk : s.closer with
          | off => exact absurd (ht.closerOff.mp hk) (by simp [h2])
          | waiting => simp only [hctx, if_true]; exact ⟨_, rfl⟩
          | over => exact absurd hk hcl
          | requested => exact ⟨_, rfl⟩
          | _ => exact ⟨_, rfl⟩
      · right
        refine ⟨.reader .data false false, rfl, fun h => ?_, ?_⟩
        · left
          cases he : s.expired
          · exact absurd (.inr ⟨h, he⟩) hr
          · rfl
        · simp only [step, readerStep]
          cases hk : s.reader with
          | off => exact absurd (ht.readerOff.mp hk) (by simp [h2])
          | noticing => exact absurd hk h4.2.1
          | waiting => simp only [h5 hk]; exact ⟨_, rfl⟩
          | reading => simp only; split; · exact ⟨_, rfl⟩
                       · split <;> exact ⟨_, rfl⟩
          | returned r => cases r <;> exact ⟨_, rfl⟩
          | failedLive r => simp only; split <;> exact ⟨_, rfl⟩
          | leaving => simp only; split <;> exact ⟨_, rfl⟩
          | ended => exact absurd (.inl hk) hr
          | _ => exact ⟨_, rfl⟩
    · right
      refine ⟨.cancelFunc, rfl, trivial, ?_⟩
      simp only [step, hc, h2, if_false]
      exact ⟨_, rfl⟩
  · right
    refine ⟨.flush, rfl, trivial, ?_⟩
    simp only [step, hf, h2, if_false]
    exact ⟨_, rfl⟩

/-- The condition under which closing comes to an end. -/
theorem ending_start {cfg : Cfg} {s s' : State} {a : Act} (ht : Threads s) (hpa : Pausing s)
    (hs : step cfg s a = .ok s') (h1 : s.st ≠ .closing ∧ s.st ≠ .closed) (h2 : s'.st = .closing) (h3 : s.start = .over)
    (h4 : s.kx = true) (h5 : s.reader ≠ .entered ∧ s.reader ≠ .noticing ∧ s.reader ≠ .resetting)
    (h6 : s.reader = .waiting → s.st ≠ .paused) : Ending s' := by
  have p1 := hpa.free
  have p2 := ht.closer h1.1 h1.2
  have p3 := ht.closerOff
  clear ht hpa
  cases a with
  | pauser i =>
    simp only [step, pauserStep, setDeadline] at hs
    (repeat' split at hs) <;> (try (simp at hs; done)) <;>
    simp only [Outcome.ok.injEq] at hs <;> subst hs <;> exact absurd h2 h1.1
  | _ =>
    simp only [step, readerStep, closerStep, startStep, setState, closeSess, resetReadDeadline, setDeadline, badStates,
      List.mem_cons, List.not_mem_nil, or_false] at hs
    (repeat' split at hs) <;> (try (simp at hs; done)) <;>
    simp only [Outcome.ok.injEq] at hs <;> subst hs <;>
    constructor <;> grind

end Verif.Lifecycle
