import Verif.Props.Lifecycle
/-!
# The backend after a session has ended or paused: C108, C109
-/
namespace Verif.Lifecycle

/-- The backend can be read by somebody else: it is open, and reads do not fail at once because of a deadline in the past. -/
def Usable (s : State) : Prop := s.expired = false ∧ s.backendClosed = false

instance (s : State) : Decidable (Usable s) := inferInstanceAs (Decidable (_ ∧ _))

/-- A run whose steps all satisfy a condition. -/
def runIf (p : State → Act → Bool) (cfg : Cfg) : State → List Act → Option State
  | s, [] => some s
  | s, a :: as =>
    match p s a, step cfg s a with
    | true, .ok s' => runIf p cfg s' as
    | _, _ => none

theorem runIf_ind {p : State → Act → Bool} {cfg : Cfg} {R : State → Prop}
    (hR : ∀ s a s', R s → p s a = true → step cfg s a = .ok s' → R s') :
    ∀ (as : List Act) (s s' : State), R s → runIf p cfg s as = some s' → R s'
  | [], s, s', h, hr => by simp only [runIf, Option.some.injEq] at hr; exact hr ▸ h
  | a :: as, s, s', h, hr => by
    simp only [runIf] at hr
    split at hr
    · rename_i h1 h2
      exact runIf_ind hR as _ _ (hR _ _ _ h h1 h2) hr
    · cases hr

/-- The state after a run, with a default. -/
def runTo (p : State → Act → Bool) (as : List Act) : State := (runIf p net State.init as).getD State.init

theorem runTo_ind {p : State → Act → Bool} {R : State → Prop} {as : List Act}
    (hR : ∀ s a s', R s → p s a = true → step net s a = .ok s' → R s') (h0 : R State.init)
    (h : (runIf p net State.init as).isSome = true) : R (runTo p as) := by
  cases hr : runIf p net State.init as with
  | none => simp [hr] at h
  | some s => simpa [runTo, hr] using runIf_ind hR as _ _ h0 hr

/-! ## C108 -/

/-- Steps that put the deadline into the past (session.go:2227): the reader has not answered this interrupt before it happens. -/
def Timely (s : State) : Act → Prop
  | .closer _ => s.closer = .requested → s.happened < s.requested ∧ s.reader ≠ .ended
  | .pauser i =>
    match s.pausers[i]? with
    | some (.requested _) => s.happened < s.requested ∧ s.reader ≠ .ended
    | _ => True
  | _ => True

/-- `Timely` as a check. -/
def timelyB (s : State) : Act → Bool
  | .closer _ => s.closer ≠ .requested || (s.happened < s.requested && s.reader ≠ .ended)
  | .pauser i =>
    match s.pausers[i]? with
    | some (.requested _) => s.happened < s.requested && s.reader ≠ .ended
    | _ => true
  | _ => true

theorem timelyB_iff {s : State} {a : Act} : timelyB s a = true ↔ Timely s a := by
  cases a with
  | closer d => simp only [timelyB, Timely]; grind
  | pauser i => simp only [timelyB, Timely]; split <;> grind
  | _ => simp [timelyB, Timely]

inductive ReachableTimely (cfg : Cfg) : State → Prop
  | init : ReachableTimely cfg State.init
  | step {s s'} (a : Act) : ReachableTimely cfg s → Timely s a → step cfg s a = .ok s' → ReachableTimely cfg s'

/-- A deadline in the past belongs to an interrupt that the reader has not answered yet. -/
structure Accounted (s : State) : Prop where
  expired : s.expired = true → s.happened < s.requested
  ended : s.reader = .ended → s.expired = false
  opened : s.backendClosed = false
  closer : s.closer ≠ .failed

theorem accounted_step {cfg : Cfg} {s s' : State} {a : Act} (hd : cfg.deadlines = true) (hn : s.reader = .off ↔ s.start ≠ .reader ∧ s.start ≠ .over)
    (h : Accounted s) (ha : Timely s a) (hs : step cfg s a = .ok s') : Accounted s' := by
  obtain ⟨h1, h2, h3, h4⟩ := h
  cases a with
  | reader fresh stop handled =>
    simp only [step, readerStep, resetReadDeadline, setDeadline, closeSess, setState, hd, if_true] at hs
    clear ha
    cases hrd : s.reader with
    | returned r => cases r <;> simp only [hrd] at * <;> (repeat' split at hs) <;> (try (simp at hs; done)) <;>
        simp only [Outcome.ok.injEq] at hs <;> (try subst hs) <;> constructor <;> grind
    | _ => simp only [hrd] at * <;> (repeat' split at hs) <;> (try (simp at hs; done)) <;>
        simp only [Outcome.ok.injEq] at hs <;> (try subst hs) <;> constructor <;> grind
  | closer detach =>
    simp only [Timely] at ha
    simp only [step, closerStep, setDeadline, setState, hd, if_true] at hs
    (repeat' split at hs) <;> (try (simp at hs; done)) <;>
      simp only [Outcome.ok.injEq] at hs <;> (try subst hs) <;> constructor <;> grind
  | pauser i =>
    simp only [Timely] at ha
    simp only [step, pauserStep, setDeadline, hd, if_true] at hs
    (repeat' split at hs) <;> (try (simp at hs; done)) <;>
      simp only [Outcome.ok.injEq] at hs <;> (try subst hs) <;> constructor <;> grind
  | _ =>
    clear ha
    simp only [step, startStep, setState, closeSess, badStates] at hs
    (repeat' split at hs) <;> (try (simp at hs; done)) <;>
      simp only [Outcome.ok.injEq] at hs <;> (try subst hs) <;> constructor <;> grind

theorem timely_reachable {cfg : Cfg} {s : State} (h : ReachableTimely cfg s) : Reachable cfg s := by
  induction h with
  | init => exact .init
  | step a _ _ hs ih => exact .step a ih hs

/-- `WaitForClosure` can return as far as the reader and the backend closer are concerned (session.go:630-643, 2274). -/
def Finished (s : State) : Prop := s.reader = .ended ∧ s.closer = .over

instance (s : State) : Decidable (Finished s) := inferInstanceAs (Decidable (_ ∧ _))

theorem accounted_reachable {cfg : Cfg} {s : State} (hd : cfg.deadlines = true) (h : ReachableTimely cfg s) :
    Accounted s := by
  induction h with
  | init => constructor <;> simp [State.init]
  | step a hr ha hs ih =>
    exact accounted_step hd (inv_reachable (timely_reachable hr)).2.1.readerOff ih ha hs

/-- C108 for a backend with deadlines whose interrupts are in time: each deadline in the past is set before the reader
has answered the interrupt it belongs to.  Missing: interrupts that come late (`C108_violated`). -/
theorem C108_partial {cfg : Cfg} {s : State} (hd : cfg.deadlines = true) (hr : ReachableTimely cfg s)
    (hf : Finished s) : Usable s :=
  ⟨(accounted_reachable hd hr).ended hf.1, (accounted_reachable hd hr).opened⟩

/-- With deadlines the session never closes the backend, in time or not. -/
theorem C108_open {cfg : Cfg} {s : State} (hd : cfg.deadlines = true) (hr : Reachable cfg s) :
    s.backendClosed = false := by
  suffices h : s.backendClosed = false ∧ s.closer ≠ .failed from h.1
  induction hr with
  | init => simp [State.init]
  | step a _ hs ih =>
    obtain ⟨h1, h2⟩ := ih
    cases a <;> simp only [step, readerStep, closerStep, pauserStep, startStep, setState, closeSess, resetReadDeadline,
        setDeadline, badStates, hd, if_true] at hs <;>
      (repeat' split at hs) <;> (try (simp at hs; done)) <;>
      simp only [Outcome.ok.injEq] at hs <;> subst hs <;> grind

/-- Steps of an execution in which only the reader ends the session: because of a packet (`DetachOn…`), or of an error
of the backend.  Until then nobody calls `Close`, and nobody cancels the context; `SetPause(true)` is not called. -/
def Alone (s : State) : Act → Prop
  | .close => isDone s = true
  | .pause => False
  | .cancel => isDone s = true ∨ s.reader = .leavingEarly
  | _ => True

/-- `Alone` as a check. -/
def aloneB (s : State) : Act → Bool
  | .close => isDone s
  | .pause => false
  | .cancel => isDone s || s.reader = .leavingEarly
  | _ => true

theorem aloneB_iff {s : State} {a : Act} : aloneB s a = true ↔ Alone s a := by
  cases a <;> simp [aloneB, Alone]

inductive ReachableAlone (cfg : Cfg) : State → Prop
  | init : ReachableAlone cfg State.init
  | step {s s'} (a : Act) : ReachableAlone cfg s → Alone s a → step cfg s a = .ok s' → ReachableAlone cfg s'

/-- The reader has left, or will at its next step. -/
def Left (s : State) : Prop :=
  (s.reader = .top ∧ isDone s = true) ∨ s.reader = .leaving ∨ s.reader = .leavingEarly ∨ s.reader = .leavingLate ∨
    s.reader = .lastState ∨ s.reader = .lastReset ∨ s.reader = .ended

structure Own (s : State) : Prop where
  fresh : s.requested = 0 ∧ s.expired = false ∧ s.backendClosed = false ∧ s.pausers = [] ∧ s.st ≠ .paused
  closer : s.closer = .off ∨ s.closer = .waiting ∨ s.closer = .closing ∨ s.closer = .over
  closing : 0 < s.flushing ∨ 0 < s.cancelling → isDone s = true
  left : isDone s = true ∨ s.ctx = true → Left s
  waited : s.closer = .closing ∨ s.closer = .over → Left s
  noPause : s.reader ≠ .noticing ∧ s.reader ≠ .resetting ∧ s.reader ≠ .waiting

theorem own_step {cfg : Cfg} {s s' : State} {a : Act} (ht : Threads s)
    (h : Own s) (ha : Alone s a) (hs : step cfg s a = .ok s') : Own s' := by
  obtain ⟨h1, h2, h3, h4, h5, h6⟩ := h
  have t1 := ht.isReading
  have t2 := ht.readerOff
  clear ht
  simp only [Left, isDone, decide_eq_true_eq] at *
  cases a with
  | reader fresh stop handled =>
    simp only [step, readerStep, resetReadDeadline, setDeadline, closeSess, setState] at hs
    clear ha
    cases hrd : s.reader with
    | returned r => cases r <;> simp only [hrd] at * <;> (repeat' split at hs) <;> (try (simp at hs; done)) <;>
        simp only [Outcome.ok.injEq] at hs <;> (try subst hs) <;> constructor <;>
        simp only [Left, isDone, decide_eq_true_eq] at * <;> grind
    | _ => simp only [hrd] at * <;> (repeat' split at hs) <;> (try (simp at hs; done)) <;>
        simp only [Outcome.ok.injEq] at hs <;> (try subst hs) <;> constructor <;>
        simp only [Left, isDone, decide_eq_true_eq] at * <;> grind
  | close =>
    simp only [Alone, isDone, decide_eq_true_eq] at ha
    simp only [step, closeSess, setState, List.mem_singleton] at hs
    (repeat' split at hs) <;>
      simp only [Outcome.ok.injEq] at hs <;> (try subst hs) <;> constructor <;>
      simp only [Left, isDone, decide_eq_true_eq] at * <;> grind
  | pause => exact ha.elim
  | pauser i => simp [step, pauserStep, h1] at hs
  | _ =>
    simp only [Alone, isDone, decide_eq_true_eq] at ha
    simp only [step, startStep, closerStep, setDeadline, setState, badStates, List.mem_cons, List.not_mem_nil, or_false] at hs
    (repeat' split at hs) <;> (try (simp at hs; done)) <;>
      simp only [Outcome.ok.injEq] at hs <;> (try subst hs) <;> constructor <;>
      simp only [Left, isDone, decide_eq_true_eq] at * <;> grind

theorem alone_reachable {cfg : Cfg} {s : State} (h : ReachableAlone cfg s) : Reachable cfg s := by
  induction h with
  | init => exact .init
  | step a _ _ hs ih => exact .step a ih hs

/-- C108 for a session that ends by itself, for any backend: it detaches without touching the backend. -/
theorem C108_detach {cfg : Cfg} {s : State} (hr : ReachableAlone cfg s) : Usable s ∧ s.requested = 0 := by
  suffices h : Own s from ⟨⟨h.fresh.2.1, h.fresh.2.2.1⟩, h.fresh.1⟩
  induction hr with
  | init => constructor <;> simp [State.init, isDone]
  | step a hr ha hs ih => exact own_step (inv_reachable (alone_reachable hr)).2.1 ih ha hs

/-- The user closes the session; the reader leaves because of the interrupt. -/
def closedInTime : List Act :=
  serving ++ [.close, .flush, .cancelFunc] ++ List.replicate 4 (.closer true) ++ List.replicate 7 rd

example : ReachableTimely net (runTo timelyB closedInTime) ∧
    Finished (runTo timelyB closedInTime) ∧
    (runTo timelyB closedInTime).requested = 1 :=
  ⟨runTo_ind (fun _ a _ hr hp hs => .step a hr (timelyB_iff.mp hp) hs) .init (by decide +kernel), by decide +kernel, by decide +kernel⟩

/-- The session detaches: a packet ends the loop. -/
def detached : List Act :=
  serving ++ [rd, rd, .reader .data true false] ++ List.replicate 4 rd ++ [.closer true, .closer true, .close]

example : ReachableAlone net (runTo aloneB detached) ∧ Finished (runTo aloneB detached) ∧ (runTo aloneB detached).closesRefused = 1 :=
  ⟨runTo_ind (fun _ a _ hr hp hs => .step a hr (aloneB_iff.mp hp) hs) .init (by decide +kernel), by decide +kernel, by decide +kernel⟩

/-- A packet arrives while the user closes the session: the backend closer has seen that the reader is in `Read`, but
the reader leaves before the interrupt. -/
def lateInterrupt : List Act :=
  serving ++ [.close, .flush, .cancelFunc, .closer true, .closer true] ++ List.replicate 8 rd ++ [.closer true, .closer true]

/-- Negation of C108: after `Close` the session has ended and never resets the read deadline that it has put into the
past, so that each `Read` of the next user of the backend fails with a time-out. -/
theorem C108_violated : ∃ s, Reachable net s ∧ Finished s ∧ ¬ Usable s ∧
    ∀ a s', step net s a = .ok s' → Finished s' ∧ ¬ Usable s' := by
  refine ⟨at' lateInterrupt, reachable_run (by decide +kernel), by decide +kernel, by decide +kernel, ?_⟩
  have h1 : (at' lateInterrupt).reader = .ended := by decide +kernel
  have h2 : (at' lateInterrupt).closer = .over := by decide +kernel
  have h3 : (at' lateInterrupt).expired = true := by decide +kernel
  have h4 : (at' lateInterrupt).start = .over := by decide +kernel
  have h5 : (at' lateInterrupt).pausers = [] := by decide +kernel
  generalize at' lateInterrupt = s at *
  intro a s' hs
  simp only [Finished, Usable]
  cases a <;> simp only [step, readerStep, closerStep, pauserStep, startStep, setState, closeSess, badStates, h1, h2, h4, h5,
      List.getElem?_nil] at hs <;>
    (repeat' split at hs) <;> (try (simp at hs; done)) <;>
    simp only [Outcome.ok.injEq] at hs <;> subst hs <;> grind

/-- The property needs deadlines: otherwise the session closes the backend (session.go:671-678). -/
theorem C108_without_deadlines : ∃ s, Reachable ⟨false⟩ s ∧ Finished s ∧ ¬ Usable s := by
  refine ⟨okState (runActs ⟨false⟩ State.init (serving ++ [.close, .flush, .cancelFunc] ++ List.replicate 5 (.closer false) ++
    List.replicate 7 rd)), reachable_run (by decide +kernel), by decide +kernel, by decide +kernel⟩

/-! ## C109 -/

/-- C109 for polite callers: while the session is paused and no `SetPause(true)` call is under way, the reader is about
to reset the deadline (one step, which cannot block) or the backend is usable.  Missing: the backend is usable as soon as
`SetPause(true)` returns (`C109_violated`), and impolite callers. -/
theorem C109_partial {cfg : Cfg} {s : State} (hd : cfg.deadlines = true) (hr : ReachablePolite cfg s)
    (hst : s.st = .paused) (hp : s.pausers = []) :
    (s.reader = .resetting ∧ ∀ f b h, ∃ s', step cfg s (.reader f b h) = .ok s' ∧ s'.reader = .waiting ∧ s'.st = .paused ∧ Usable s') ∨
    (s.reader = .waiting ∧ Usable s) := by
  have hi := inv_reachable (polite_reachable hr)
  obtain ⟨hc, hq⟩ := polite_inv hd hr
  have h1 : s.nextChan - 1 ∈ s.closedChans := by
    rcases hc.current hst with h | ⟨p, hp', _⟩
    · exact h
    · rw [hp] at hp'; cases hp'
  rcases hi.2.2.detached hst h1 with h | h
  · refine .inl ⟨h, fun f b hh => ?_⟩
    simp only [step, readerStep, h]
    refine ⟨_, rfl, rfl, ?_, ?_, ?_⟩
    · simp only [resetReadDeadline, setDeadline]; split <;> (try split) <;> exact hst
    · have := hq.expired
      simp only [resetReadDeadline, setDeadline, hd, if_true]; grind
    · have := hq.live
      simp only [resetReadDeadline, setDeadline, hd, if_true]; grind
  · exact .inr ⟨h, hq.waiting h, hq.live.2.2.2.1⟩

def paused : List Act := serving ++ pausing ++ [rd, .pauser 0]

example : ReachablePolite net (runTo (fun s a => decide (Polite s a)) paused) ∧
    (runTo (fun s a => decide (Polite s a)) paused).st = .paused ∧ (runTo (fun s a => decide (Polite s a)) paused).pausers = [] ∧
    (runTo (fun s a => decide (Polite s a)) paused).reader = .waiting :=
  ⟨runTo_ind (fun _ a _ hr hp hs => .step a hr (of_decide_eq_true hp) hs) .init (by decide +kernel), by decide +kernel, by decide +kernel,
    by decide +kernel⟩

/-- The reader is about to look at the state when `SetPause(true)` is called. -/
def pausedEarly : List Act := connected ++ [rd, rd, .pause, .pauser 0, .pauser 0, .pauser 0, rd, rd, .pauser 0]

/-- Negation of C109, one `SetPause(true)` call: it has returned without an error, and the deadline is still in the past,
because the reader releases the caller before it resets the deadline. -/
theorem C109_violated : ∃ s, ReachablePolite net s ∧ s.st = .paused ∧ s.pausers = [] ∧ s.pauseRets = [⟨true, true, false⟩] ∧
    ¬ Usable s :=
  ⟨runTo (fun s a => decide (Polite s a)) pausedEarly,
    runTo_ind (fun _ a _ hr hp hs => .step a hr (of_decide_eq_true hp) hs) .init (by decide +kernel), by decide +kernel, by decide +kernel,
    by decide +kernel, by decide +kernel⟩

/-- An impolite caller: the second pause begins while the reader is still in the first.  The reader resets the deadline
between the two steps of the interrupt; the call does not return, and the deadline stays in the past. -/
def pausedTwice : List Act :=
  serving ++ pausing ++ [.pauser 0, .unpause, .pause, .pauser 0, .pauser 0, rd, .pauser 0]

example : (at' pausedTwice).reader = .waiting ∧ (at' pausedTwice).st = .paused ∧ (at' pausedTwice).pausers.length = 1 ∧
    (at' pausedTwice).expired = true := by decide +kernel

#print axioms C108_partial
#print axioms C108_open
#print axioms C108_detach
#print axioms C108_violated
#print axioms C108_without_deadlines
#print axioms C109_partial
#print axioms C109_violated

end Verif.Lifecycle
