import Verif.Model.Lifecycle
/-!
# Invariants of the life of a session
-/
namespace Verif.Lifecycle

/-- How far `Start` and the key exchange are, and the state. -/
structure Phase (s : State) : Prop where
  early : s.neg = .none ∨ s.neg = .first → s.st = .new ∨ s.st = .keyExchanging ∨ s.st = .closing ∨ s.st = .closed
  mid : s.neg = .entered ∨ s.neg = .running → s.st = .negotiating ∨ s.st = .closing ∨ s.st = .closed
  late : s.neg = .connected → s.st = .established ∨ s.st = .paused ∨ s.st = .closing ∨ s.st = .closed
  before : s.start = .no ∨ s.start = .context ∨ s.start = .sendInfo ∨ s.start = .negotiator →
    (s.st = .new ∨ s.st = .closing ∨ s.st = .closed) ∧ s.kx = false ∧ s.neg = .none
  after : s.start ≠ .no → s.start ≠ .context → s.start ≠ .sendInfo → s.start ≠ .negotiator → s.st ≠ .new
  state : ∀ go, s.start = .state go → s.kx = false ∧ s.neg = .none
  count : s.kxCount = 0 ↔ s.neg = .none
  starts : s.starts = if s.start = .no then 0 else 1
  connects : s.connects = if s.neg = .connected then 1 else 0
  closes : s.closes ≤ 1 ∧ (s.closes = 1 → s.st = .closing ∨ s.st = .closed)

theorem phase_init : Phase State.init := by
  constructor <;> simp [State.init]

set_option maxHeartbeats 1000000 in
theorem phase_step {cfg : Cfg} {s s' : State} {a : Act} (h : Phase s) (hs : step cfg s a = .ok s') : Phase s' := by
  obtain ⟨h1, h2, h3, h4, h5, h10, h6, h7, h8, h9⟩ := h
  cases a <;> simp only [step, readerStep, closerStep, pauserStep, startStep, setState, closeSess,
      resetReadDeadline, setDeadline, badStates, List.mem_cons, List.not_mem_nil, or_false] at hs <;>
    (repeat' split at hs) <;> (try (simp at hs; done)) <;>
    simp only [Outcome.ok.injEq] at hs <;> subst hs <;>
    constructor <;> grind

/-- Where the threads are. -/
structure Threads (s : State) : Prop where
  isReading : s.isReading = true ↔ s.reader = .checking ∨ s.reader = .noticing ∨ s.reader = .resetting ∨
    s.reader = .waiting ∨ s.reader = .reading ∨ ∃ r, s.reader = .returned r
  closer : s.st ≠ .closing → s.st ≠ .closed → s.closer = .off ∨ s.closer = .waiting
  closerOff : s.closer = .off ↔ s.start ≠ .over
  readerOff : s.reader = .off ↔ s.start ≠ .reader ∧ s.start ≠ .over
  last : s.reader = .lastReset ∨ s.reader = .ended → s.st = .closed
  closed : s.st = .closed → s.reader = .lastReset ∨ s.reader = .ended
  ctx : s.reader = .lastState ∨ s.reader = .lastReset ∨ s.reader = .ended → s.ctx = true
  closing : s.st = .closing → 0 < s.flushing ∨ 0 < s.cancelling ∨ s.ctx = true ∨ s.reader = .leavingLate

theorem threads_init : Threads State.init := by
  constructor <;> simp [State.init]

theorem threads_step {cfg : Cfg} {s s' : State} {a : Act} (h : Threads s) (hs : step cfg s a = .ok s') :
    Threads s' := by
  obtain ⟨h1, h2, h3, h4, h5, h6, h7, h8⟩ := h
  cases a <;> simp only [step, readerStep, closerStep, pauserStep, startStep, setState, closeSess,
      resetReadDeadline, setDeadline, badStates, List.mem_cons, List.not_mem_nil, or_false] at hs <;>
    (repeat' split at hs) <;> (try (simp at hs; done)) <;>
    simp only [Outcome.ok.injEq] at hs <;> subst hs <;>
    constructor <;> grind [isDone]

theorem st_cases (s : State) : s.st = .new ∨ s.st = .closed ∨ s.st = .keyExchanging ∨ s.st = .negotiating ∨
    s.st = .established ∨ s.st = .paused ∨ s.st = .closing := by
  cases s.st <;> simp

/-- Pausing: the lock, the channels, and the reader. -/
structure Pausing (s : State) : Prop where
  free : s.st ≠ .paused → s.st ≠ .closing → s.st ≠ .closed → s.pauseWait = false
  taken : s.st = .paused → s.pauseWait = true
  closed : ∀ c ∈ s.closedChans, c < s.nextChan
  current : ∀ c, s.pauseChan = some c → c + 1 = s.nextChan ∧ c ∉ s.closedChans
  detached : s.st = .paused → s.nextChan - 1 ∈ s.closedChans → s.reader = .resetting ∨ s.reader = .waiting
  fresh : s.st = .paused → 0 < s.nextChan

theorem pausing_init : Pausing State.init := by
  constructor <;> simp [State.init]

theorem pausing_step {cfg : Cfg} {s s' : State} {a : Act} (hp : Phase s) (ht : Threads s) (h : Pausing s)
    (hs : step cfg s a = .ok s') :
    Pausing s' := by
  obtain ⟨h1, h2, h3, h4, h6, h7⟩ := h
  have p1 := hp.early
  have p2 := hp.mid
  have p3 := hp.before
  have p4 := ht.readerOff
  have p5 := st_cases s
  cases a <;> simp only [step, readerStep, closerStep, pauserStep, startStep, setState, closeSess,
      resetReadDeadline, setDeadline, badStates, List.mem_cons, List.not_mem_nil, or_false] at hs <;>
    (repeat' split at hs) <;> (try (simp at hs; done)) <;>
    simp only [Outcome.ok.injEq] at hs <;> subst hs <;>
    constructor <;> clear hp ht <;> grind


theorem inv_reachable {cfg : Cfg} {s : State} (h : Reachable cfg s) : Phase s ∧ Threads s ∧ Pausing s := by
  induction h with
  | init => exact ⟨phase_init, threads_init, pausing_init⟩
  | step a _ hs ih => exact ⟨phase_step ih.1 hs, threads_step ih.2.1 hs, pausing_step ih.1 ih.2.1 ih.2.2 hs⟩

end Verif.Lifecycle
