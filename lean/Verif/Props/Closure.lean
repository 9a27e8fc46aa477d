import Verif.Lemmas.Closure
/-!
# C125: WaitForClosure waits until everything has finished

The ghost `late` lists what the user and the backend see after some `WaitForClosure` has returned: reads of the backend,
calls of handlers, of `OnConnect` and of `Error`.
-/
namespace Verif.Closure

/-- Nothing happens any more. -/
structure Quiet (s : State) : Prop where
  closed : s.closed = true
  reader : s.reader = .over
  closer : s.closer = .over
  kxLoop : s.kxLoop ≠ .run
  kxWaiter : s.kxWaiter ≠ .run
  msgrs : ∀ m ∈ s.msgrs, m.waits = false
  delayed : s.delayed ≠ .run

theorem Th.live_zero {t : Th} (h : t.live = 0) : t ≠ .run := by
  intro he; rw [he] at h; exact absurd h (by decide)

/-- C125, at the moment when `WaitForClosure` returns: if it returns after `Start` has, the session is Closed, and the
reader, the backend closer, the loop of the key exchanger, the goroutines of all messengers and the delayed sender have
ended. -/
theorem C125_finished_partial {s s' : State} (h : Reachable s) (hst : s.starting = .returned)
    (hw : step s .wait = some s') : Quiet s' := by
  have hi := inv_reachable h
  simp only [step] at hw
  split at hw
  · next h0 =>
    cases hw
    have hwg := hi.wg
    have hr : s.reader = .over := by
      have h1 := hi.reader (.inr hst)
      have h2 : s.reader.live = 0 := by omega
      cases hr : s.reader <;> rw [hr] at h1 h2 <;> first | rfl | exact absurd rfl h1 | exact absurd h2 (by decide)
    refine ⟨hi.closed (.inr hr), hr, ?_, ?_, Th.live_zero (by show s.kxWaiter.live = 0; omega),
      liveCount_zero _ (by show liveCount s.msgrs = 0; omega), Th.live_zero (by show s.delayed.live = 0; omega)⟩
    · have h1 := hi.closer hst
      have h2 : s.closer.live = 0 := by omega
      show s.closer = .over
      cases hc : s.closer <;> rw [hc] at h1 h2 <;> first | rfl | exact absurd rfl h1 | exact absurd h2 (by decide)
    · have h1 : s.kxWaiter ≠ .run := Th.live_zero (by omega)
      have h2 := hi.kx
      have h3 := hi.kxOver
      show s.kxLoop ≠ .run
      cases hk : s.kxWaiter <;> simp_all
  · cases hw

/-- What stays so after the reader has ended; `base` is what had happened before. -/
structure Ended (base : List Ev) (s : State) : Prop where
  started : s.starting = .returned
  ctx : s.ctx = true
  closed : s.closed = true
  reader : s.reader = .over
  late : ∃ new, s.late = base ++ new ∧ Ev.read ∉ new ∧ Ev.handle ∉ new

theorem Ended.log {base : List Ev} {s : State} (h : Ended base s) (e : Ev) (h1 : e ≠ .read) (h2 : e ≠ .handle) :
    Ended base (s.log e) := by
  unfold State.log; split
  · refine ⟨h.started, h.ctx, h.closed, h.reader, ?_⟩
    obtain ⟨new, hl, hr, hh⟩ := h.late
    refine ⟨new ++ [e], by simp [hl], ?_, ?_⟩
    · simp only [List.mem_append, List.mem_singleton, not_or]; exact ⟨hr, h1.symm⟩
    · simp only [List.mem_append, List.mem_singleton, not_or]; exact ⟨hh, h2.symm⟩
  · exact h

theorem Ended.logIf {base : List Ev} {s : State} (h : Ended base s) (b : Bool) (e : Ev) (h1 : e ≠ .read)
    (h2 : e ≠ .handle) : Ended base (s.logIf b e) := by
  unfold State.logIf; split
  · exact h.log e h1 h2
  · exact h

theorem ended_step {base : List Ev} {s s' : State} {a : Act} (h : Ended base s) (hs : step s a = some s') :
    Ended base s' := by
  obtain ⟨hst, hx, hc, hr, hl⟩ := h
  cases a with
  | start => simp [step, startStep, hst] at hs
  | newMessenger => simp only [step, hx, if_true, Option.some.injEq] at hs; subst hs; exact ⟨hst, hx, hc, hr, hl⟩
  | messengerGone i =>
    simp only [step] at hs
    split at hs
    · split at hs
      · cases hs; exact ⟨hst, hx, hc, hr, hl⟩
      · cases hs
    · cases hs
  | answered err =>
    simp only [step] at hs
    split at hs
    · cases hs; refine Ended.logIf ?_ _ .error (by decide) (by decide); exact ⟨hst, hx, hc, hr, hl⟩
    · cases hs
  | closerGone err =>
    simp only [step] at hs
    split at hs
    · cases hs; refine Ended.logIf ?_ _ .error (by decide) (by decide); exact ⟨hst, hx, hc, hr, hl⟩
    · cases hs
  | negotiate e => simp [step, hr] at hs
  | _ =>
    first
    | (simp [step, hr] at hs; done)
    | (cases hs; exact ⟨hst, hx, hc, hr, hl⟩)
    | (simp only [step] at hs
       split at hs <;> cases hs <;> first
        | exact ⟨hst, rfl, hc, hr, hl⟩
        | exact ⟨hst, hx, hc, rfl, hl⟩
        | exact ⟨hst, hx, hc, hr, hl⟩
        | (refine Ended.log ?_ .error (by decide) (by decide); exact ⟨hst, hx, hc, hr, hl⟩)
        | (refine Ended.log ?_ .connect (by decide) (by decide); exact ⟨hst, hx, hc, hr, hl⟩))

theorem ended_run {base : List Ev} {s s' : State} {as : List Act} (h : Ended base s) (hs : runActs s as = some s') :
    Ended base s' := by
  induction as generalizing s with
  | nil => cases hs; exact h
  | cons a as ih =>
    simp only [runActs] at hs
    split at hs
    · next s1 h1 => exact ih (ended_step h h1) hs
    · cases hs

/-- C125, the part that holds: after a `WaitForClosure` that returns after `Start` has, whatever is called and whatever
happens, the session stays Closed, the backend is not read and no handler is called.
Missing for the full C125: `OnConnect` and `Error`, see `C125_violated` and `C125_violated_error`; a session that has not
been started, see `C125_violated_early`. -/
theorem C125_after_partial {s s1 s2 : State} {as : List Act} (h : Reachable s) (hst : s.starting = .returned)
    (hw : step s .wait = some s1) (hrun : runActs s1 as = some s2) :
    s2.closed = true ∧ ∃ new, s2.late = s1.late ++ new ∧ Ev.read ∉ new ∧ Ev.handle ∉ new := by
  have hq := C125_finished_partial h hst hw
  have hc := (inv_reachable (.step _ h hw)).ctx (.inr (.inr hq.reader))
  have hst1 : s1.starting = .returned := by
    simp only [step] at hw
    split at hw <;> cases hw
    exact hst
  have he := ended_run (base := s1.late) ⟨hst1, hc, hq.closed, hq.reader, [], by simp⟩ hrun
  exact ⟨he.closed, he.late⟩

/-- All goroutines have ended that could still call something. -/
structure Silent (base : List Ev) (s : State) : Prop where
  started : s.starting = .returned
  ctx : s.ctx = true
  reader : s.reader = .over
  closer : s.closer = .over
  kxLoop : s.kxLoop ≠ .run
  answers : s.answers = 0
  fin : s.fin ≠ .run
  ping : s.ping ≠ .run
  onConnect : s.onConnect ≠ .run
  late : s.late = base

theorem silent_step {base : List Ev} {s s' : State} {a : Act} (h : Silent base s) (hs : step s a = some s') :
    Silent base s' := by
  obtain ⟨h1, h2, h3, h4, h5, h6, h7, h8, h9, h10⟩ := h
  cases a with
  | start => simp [step, startStep, h1] at hs
  | messengerGone i =>
    simp only [step] at hs
    split at hs
    · split at hs
      · cases hs; exact ⟨h1, h2, h3, h4, h5, h6, h7, h8, h9, h10⟩
      · cases hs
    · cases hs
  | _ =>
    first
    | (simp [step, h3, h4, h5, h6, h7, h8, h9] at hs; done)
    | (cases hs; exact ⟨h1, h2, h3, h4, h5, h6, h7, h8, h9, h10⟩)
    | (simp only [step] at hs
       split at hs <;> cases hs <;> first
        | exact ⟨h1, h2, h3, h4, h5, h6, h7, h8, h9, h10⟩
        | exact ⟨h1, rfl, h3, h4, h5, h6, h7, h8, h9, h10⟩)

/-- C125 holds entirely for sessions in which, when `WaitForClosure` returns, `OnConnect` has returned or was never due, the
negotiation has ended, and no key-exchange message is being answered: then nothing at all happens afterwards.  These are
the goroutines that `stopWaitGroup` does not count. -/
theorem C125_silent_partial {s s1 s2 : State} {as : List Act} (h : Reachable s) (hst : s.starting = .returned)
    (hw : step s .wait = some s1) (ha : s.answers = 0) (hf : s.fin ≠ .run) (hp : s.ping ≠ .run)
    (ho : s.onConnect ≠ .run) (hrun : runActs s1 as = some s2) : s2.late = s1.late := by
  have hq := C125_finished_partial h hst hw
  have hc := (inv_reachable (.step _ h hw)).ctx (.inr (.inr hq.reader))
  have h0 : Silent s1.late s1 := by
    obtain ⟨q1, q2, q3, q4, q5, q6, q7⟩ := hq
    simp only [step] at hw
    split at hw <;> cases hw
    exact ⟨hst, hc, q2, q3, q4, ha, hf, hp, ho, rfl⟩
  clear hw h hq hc
  generalize s1.late = base at h0 ⊢
  induction as generalizing s1 with
  | nil => cases hrun; exact h0.late
  | cons a as ih =>
    simp only [runActs] at hrun
    split at hrun
    · next s3 h3 =>
      exact ih (s1 := s3) hrun (silent_step h0 h3)
    · cases hrun

/-- `Start`. -/
def startActs : List Act := [.start, .start, .start, .start, .start]

/-- Everything that `WaitForClosure` waits for ends. -/
def endActs : List Act :=
  [.leave, .setClosed, .readerGone, .closerGone false, .kxGone, .messengerGone 0, .messengerGone 1]

/-- A session that is closed while it waits for the remote side. -/
def plainRun : List Act := startActs ++ [.read, .close, .cancel] ++ endActs ++ [.kxWaiterGone]

theorem reachable_run {as : List Act} {s s' : State} (h : Reachable s) (hr : runActs s as = some s') : Reachable s' := by
  induction as generalizing s with
  | nil => cases hr; exact h
  | cons a as ih =>
    simp only [runActs] at hr
    split at hr
    · next s1 h1 => exact ih (.step a h h1) hr
    · cases hr

/-- The state after a run. -/
def after (as : List Act) : State := (runActs State.init as).getD State.init

theorem reachable_after {as : List Act} (h : (runActs State.init as).isSome = true) : Reachable (after as) := by
  obtain ⟨s, hs⟩ := Option.isSome_iff_exists.mp h
  rw [after, hs]
  exact reachable_run .init hs

example : Reachable (after plainRun) ∧ (after plainRun).starting = .returned ∧
    (step (after plainRun) .wait).isSome = true ∧ (after plainRun).answers = 0 ∧ (after plainRun).fin ≠ .run ∧
    (after plainRun).ping ≠ .run ∧ (after plainRun).onConnect ≠ .run :=
  ⟨reachable_after (by decide +kernel), by decide +kernel⟩

/-- The first key exchange succeeds, the goroutine of `OnConnect` is created, and before it runs the session is closed. -/
def connectRun : List Act :=
  startActs ++ [.read, .negotiate false, .close, .cancel] ++ endActs ++ [.kxWaiterGone, .wait]

/-- C125 as stated is false: `OnConnect` is called after `WaitForClosure` has returned. -/
theorem C125_violated : ∃ s s1, Reachable s ∧ s.starting = .returned ∧ s.waited = true ∧ s.closed = true ∧ s.late = [] ∧
    step s .callOnConnect = some s1 ∧ s1.late = [.connect] :=
  ⟨after connectRun, (step (after connectRun) .callOnConnect).getD State.init, reachable_after (by decide +kernel),
    by decide +kernel⟩

/-- The same with a negotiation, whose end calls `OnConnect`, once. -/
example : (after (startActs ++ [.read, .negotiate true, .connect, .finGone, .callOnConnect, .onConnectGone, .startDelayed])).onConnect = .over ∧
    (after (startActs ++ [.read, .negotiate true, .connect])).onConnect = .run ∧
    runActs State.init (startActs ++ [.read, .negotiate true, .connect, .connect]) = none ∧
    runActs State.init (startActs ++ [.read, .negotiate true, .callOnConnect]) = none := by decide +kernel

/-- The loop of the key exchanger goes on until the context ends or the key exchanger stops. -/
example : runActs State.init (startActs ++ [.kxGone]) = none ∧
    (after (startActs ++ [.kxTimeout, .kxGone])).kxLoop = .over := by decide +kernel

/-- The session is closed while the reader handles a key-exchange message: the loop of the key exchanger and its waiter
end, then the reader creates the goroutine of the answer. -/
def answerRun : List Act :=
  startActs ++ [.read, .close, .cancel, .kxGone, .kxWaiterGone, .kxMessage, .leave, .setClosed, .readerGone,
    .closerGone false, .messengerGone 0, .messengerGone 1, .wait]

/-- C125 is false for `Error` as well: the answer to a key-exchange message cannot be sent after `WaitForClosure` has
returned, and `Error` is called. -/
theorem C125_violated_error : ∃ s s1, Reachable s ∧ s.starting = .returned ∧ s.waited = true ∧ s.closed = true ∧
    s.late = [] ∧ step s (.answered true) = some s1 ∧ s1.late = [.error] :=
  ⟨after answerRun, (step (after answerRun) (.answered true)).getD State.init, reachable_after (by decide +kernel),
    by decide +kernel⟩

/-- C125 is false for a session that is not started, or being started: `WaitForClosure` returns at once, the session works
afterwards. -/
theorem C125_violated_early : ∃ s, Reachable s ∧ s.waited = true ∧ s.closed = false ∧ s.late = [.read, .handle] :=
  ⟨after ([.wait] ++ startActs ++ [.read, .deliver]), reachable_after (by decide +kernel), by decide +kernel⟩

#print axioms C125_finished_partial
#print axioms C125_after_partial
#print axioms C125_silent_partial
#print axioms C125_violated
#print axioms C125_violated_error
#print axioms C125_violated_early

end Verif.Closure
