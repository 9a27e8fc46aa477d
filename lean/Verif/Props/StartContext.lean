import Verif.Props.Lifecycle
/-!
# C160: cancelling the context given to Start ends the session

`Start(ctx)` takes a context (session.go:607-628), from which the context of the session is derived (session.go:616). As everywhere in
Go, cancelling it is the request to stop: the session should end like one that was closed. This is so only with exceptions: a session
that is paused never ends (like C67), one whose reader is at an unlucky place does not either (like C68), and if the context is
cancelled before `Start` has made its messengers, the program crashes.
-/
namespace Verif.Lifecycle

/-- What `Start` still has to do needs a messenger. -/
def NeedsMessenger (s : State) : Prop := s.start = .context ∨ s.start = .sendInfo ∨ s.start = .state true

/-- **C160, it is noticed**: as long as a started session with a cancelled context is neither closing nor closed, the next step of the
backend closer, which is always possible, makes it so. -/
theorem C160_noticed {cfg : Cfg} {s : State} (hr : Reachable cfg s) (h3 : s.start = .over) (hc : s.ctx = true)
    (h1 : s.st ≠ .closing ∧ s.st ≠ .closed) (d : Bool) :
    step cfg s (.closer d) = .ok { s with st := .closing, closer := .closing } := by
  have ht := (inv_reachable hr).2.1
  have hw : s.closer = .waiting := by
    rcases ht.closer h1.1 h1.2 with h | h
    · exact absurd h3 (ht.closerOff.mp h)
    · exact h
  simp [step, closerStep, hw, hc, setState, h1.2]

/-- **C160 with the exceptions of C68**: if the reader is not at one of its unlucky places when the backend closer notices the cancelled
context, then the session ends whatever calls are made: as long as it is not closed with all its goroutines ended, one of its own steps is
possible without the peer, and there can be only finitely many of them. -/
theorem C160_ends_partial {cfg : Cfg} {s : State} (hd : cfg.deadlines = true) (hr : Reachable cfg s) (h3 : s.start = .over)
    (h4 : s.kx = true) (hc : s.ctx = true) (h1 : s.st ≠ .closing ∧ s.st ≠ .closed)
    (h5 : s.reader ≠ .entered ∧ s.reader ≠ .noticing ∧ s.reader ≠ .resetting) (h6 : s.reader = .waiting → s.st ≠ .paused) (d : Bool) :
    ∃ s1, step cfg s (.closer d) = .ok s1 ∧ s1.st = .closing ∧ ∀ as s2, runActs cfg s1 as = .ok s2 →
      (as.filter ownClose).length ≤ closeMeasure s1 ∧
      ((s2.st = .closed ∧ s2.reader = .ended ∧ s2.closer = .over) ∨
        ∃ b, ownClose b = true ∧ Unaided s2 b ∧ ∃ s3, step cfg s2 b = .ok s3) :=
  ⟨_, C160_noticed hr h3 hc h1 d, rfl, fun _ _ hrun =>
    C68_closes_partial hd hr (C160_noticed hr h3 hc h1 d) h1 rfl h3 h4 h5 h6 hrun⟩

/-- **C160, `Start`**: without a cancelled context no step of `Start` crashes; nor does one once the messengers exist. -/
theorem C160_start_partial {s : State} (h : s.ctx = false ∨ ¬ NeedsMessenger s) (e : Crash) : startStep s ≠ .err e := by
  unfold NeedsMessenger at h
  unfold startStep
  (repeat' split) <;> simp_all

/-- A session whose `Start` has returned needs no more messengers, whatever happens. -/
theorem C160_start_over {cfg : Cfg} : ∀ (as : List Act) {s s' : State}, s.start = .over → runActs cfg s as = .ok s' → s'.start = .over := by
  intro as
  induction as with
  | nil => intro s s' h hs; simp only [runActs, Outcome.ok.injEq] at hs; subst hs; exact h
  | cons a as ih =>
    intro s s' h hs
    simp only [runActs] at hs
    split at hs <;> try (simp at hs; done)
    rename_i s1 hs1
    refine ih ?_ hs
    clear ih hs
    cases a <;> simp only [step, readerStep, closerStep, pauserStep, startStep, setState, closeSess,
        resetReadDeadline, setDeadline, badStates, List.mem_cons, List.not_mem_nil, or_false] at hs1 <;>
      (repeat' split at hs1) <;> (try (simp at hs1; done)) <;>
      (try (simp only [Outcome.ok.injEq] at hs1; subst hs1)) <;> grind

/-- Negation of C160: a session that is paused when its context is cancelled stays closing for ever once the backend closer has noticed
it: `SetPause(false)` is refused, and the reader waits for it. -/
theorem C160_violated : ∃ s s1, Reachable net s ∧ s.st = .paused ∧ s.pausers = [] ∧ s.ctx = true ∧ s.closes = 0 ∧
    step net s (.closer false) = .ok s1 ∧ ∀ as s', runActs net s1 as = .ok s' → s'.st = .closing ∧ s'.reader = .waiting := by
  have h : isOk (runActs net State.init (serving ++ pausing ++ [rd, .pauser 0, .cancel])) = true := by decide +kernel
  have h' : isOk (step net (at' (serving ++ pausing ++ [rd, .pauser 0, .cancel])) (.closer false)) = true := by decide +kernel
  refine ⟨_, _, reachable_run h, by decide +kernel, by decide +kernel, by decide +kernel, by decide +kernel, okState_eq h', ?_⟩
  have key : ∀ (as : List Act) (s s' : State), s.reader = .waiting → s.pauseWait = true → s.st = .closing →
      s.start = .over → runActs net s as = .ok s' → s'.st = .closing ∧ s'.reader = .waiting := by
    intro as
    induction as with
    | nil => intro s s' h1 _ h3 _ hs; simp only [runActs, Outcome.ok.injEq] at hs; subst hs; exact ⟨h3, h1⟩
    | cons a as ih =>
      intro s s' h1 h2 h3 h4 hs
      simp only [runActs] at hs
      split at hs <;> try (simp at hs; done)
      rename_i s1 hs1
      have : s1.reader = .waiting ∧ s1.pauseWait = true ∧ s1.st = .closing ∧ s1.start = .over := by
        clear ih hs
        cases a <;> simp only [step, readerStep, closerStep, pauserStep, startStep, setState, closeSess,
            resetReadDeadline, setDeadline, badStates, List.mem_cons, List.not_mem_nil, or_false] at hs1 <;>
          (repeat' split at hs1) <;> (try (simp at hs1; done)) <;>
          (try (simp only [Outcome.ok.injEq] at hs1; subst hs1)) <;> grind
      exact ih s1 s' this.1 this.2.1 this.2.2.1 this.2.2.2 hs
  exact fun as s' hs => key as _ s' (by decide +kernel) (by decide +kernel) (by decide +kernel) (by decide +kernel) hs

/-- Negation of C160: if the context is cancelled while `Start` still needs a messenger, `Start` crashes the program, in at most two
steps of its own; in particular with a context that was cancelled before the call. -/
theorem C160_start_violated {cfg : Cfg} {s : State} (hc : s.ctx = true) (h : NeedsMessenger s) :
    ∃ n ≤ 2, runActs cfg s (List.replicate n .startNext) = .err .nilMessenger := by
  rcases h with h | h | h
  · exact ⟨2, by omega, by simp [List.replicate, runActs, step, startStep, h, hc]⟩
  · exact ⟨1, by omega, by simp [List.replicate, runActs, step, startStep, h, hc]⟩
  · exact ⟨1, by omega, by simp [List.replicate, runActs, step, startStep, h, hc]⟩

/-- With a context that is cancelled already when `Start` is called, `Start` never gets further, whatever else happens. -/
theorem C160_start_never {cfg : Cfg} {s s' : State} {as : List Act} (hc : s.ctx = true) (hs : s.start = .context ∨ s.start = .sendInfo)
    (hrun : runActs cfg s as = .ok s') : s'.start = .context ∨ s'.start = .sendInfo := by
  have key : ∀ (as : List Act) (s s' : State), s.ctx = true → (s.start = .context ∨ s.start = .sendInfo) → runActs cfg s as = .ok s' →
      s'.start = .context ∨ s'.start = .sendInfo := by
    intro as
    induction as with
    | nil => intro s s' _ h hs; simp only [runActs, Outcome.ok.injEq] at hs; subst hs; exact h
    | cons a as ih =>
      intro s s' h1 h2 hs
      simp only [runActs] at hs
      split at hs <;> try (simp at hs; done)
      rename_i s1 hs1
      have : s1.ctx = true ∧ (s1.start = .context ∨ s1.start = .sendInfo) := by
        clear ih hs
        cases a <;> simp only [step, readerStep, closerStep, pauserStep, startStep, setState, closeSess,
            resetReadDeadline, setDeadline, badStates, List.mem_cons, List.not_mem_nil, or_false] at hs1 <;>
          (repeat' split at hs1) <;> (try (simp at hs1; done)) <;>
          (try (simp only [Outcome.ok.injEq] at hs1; subst hs1)) <;> grind
      exact ih s1 s' this.1 this.2 hs
  exact key as s s' hc hs hrun

/-! ### Examples -/

/-- A session that serves, cancelled: the hypotheses of `C160_ends_partial` hold, and so it ends. -/
example : isOk (runActs net State.init (serving ++ [.cancel])) = true ∧
    (let s := at' (serving ++ [.cancel])
     s.start = .over ∧ s.kx = true ∧ s.ctx = true ∧ s.st = .established ∧ s.reader = .reading) ∧
    (let s := at' (serving ++ [.cancel] ++ List.replicate 4 (.closer false) ++ List.replicate 7 rd)
     s.st = .closed ∧ s.reader = .ended ∧ s.closer = .over ∧ s.closes = 0) := by decide +kernel

/-- The context cancelled in advance; between the two messengers; and late enough. -/
example : runActs net State.init [.startCall, .cancel, .startNext, .startNext] = .err .nilMessenger ∧
    runActs net State.init [.startCall, .startNext, .startNext, .startNext, .cancel, .startNext] = .err .nilMessenger :=
  ⟨crashOf_eq (by decide +kernel), crashOf_eq (by decide +kernel)⟩

example : isOk (runActs net State.init [.startCall, .startNext, .startNext, .startNext, .startNext, .cancel, .startNext, .startNext,
    .startNext]) = true := by decide +kernel

/-- `Close` during `Start` cancels the context as well. -/
example : runActs net State.init [.startCall, .startNext, .close, .flush, .cancelFunc, .startNext] = .err .nilMessenger :=
  crashOf_eq (by decide +kernel)

/-- A `Close` before the state is set: `Start` makes no key exchanger and needs no second messenger. -/
example : isOk (runActs net State.init [.startCall, .startNext, .startNext, .close, .flush, .cancelFunc, .startNext, .startNext,
    .startNext, .startNext]) = true := by decide +kernel

#print axioms C160_noticed
#print axioms C160_ends_partial
#print axioms C160_start_partial
#print axioms C160_start_over
#print axioms C160_violated
#print axioms C160_start_violated
#print axioms C160_start_never

end Verif.Lifecycle
