import Verif.Spec.CloseReport
/-!
# C159: closing a session is not an error

`EventHandler.Error` "is called when there's an error occurred which is nowhere else to return to" (event_handler.go:9-11). A session
that its user closes has no error; nevertheless goroutines which notice the end of the session by a failed write report it.
-/
namespace Verif.CloseReport

theorem done_stays {s s' : State} {a : Act} (hd : s.done = true) (hs : step s a = some s') : s'.done = true := by
  cases a <;> simp only [step] at hs
  all_goals repeat' split at hs
  all_goals first
    | (simp at hs; done)
    | (simp only [Option.some.injEq] at hs; subst hs; simp [State.sendKey, State.fail, hd])

theorem step_no_read {s s' : State} {a : Act} (hd : s.done = true) (hs : step s a = some s') :
    s'.reports = s.reports ∨ ∃ r, s'.reports = s.reports ++ [r] ∧ r ≠ .read := by
  cases a <;> simp only [step] at hs
  all_goals repeat' split at hs
  all_goals first
    | (simp at hs; done)
    | (simp only [Option.some.injEq] at hs; subst hs; simp_all [State.sendKey, State.fail]; done)
    | contradiction

/-- C159 for the reader: after `Close` no failed `Read` of the backend is reported, although it is `Close` that makes `Read` fail
(session.go:852). Missing for C159: the other goroutines. -/
theorem C159_read_partial : ∀ (as : List Act) {s s' : State}, s.done = true → run s as = some s' → Report.read ∉ since s s' := by
  suffices h : ∀ (as : List Act) {s s' : State}, s.done = true → run s as = some s' →
      ∃ l, s'.reports = s.reports ++ l ∧ Report.read ∉ l by
    intro as s s' hd hr
    obtain ⟨l, h1, h2⟩ := h as hd hr
    simpa [since, h1] using h2
  intro as
  induction as with
  | nil =>
    intro s s' _ h
    simp only [run, Option.some.injEq] at h
    subst h
    exact ⟨[], by simp, by simp⟩
  | cons a as ih =>
    intro s s' hd h
    simp only [run, Option.bind_eq_some_iff] at h
    obtain ⟨s1, h1, h2⟩ := h
    obtain ⟨l, h3, h4⟩ := ih (done_stays hd h1) h2
    rcases step_no_read hd h1 with h5 | ⟨r, h5, h6⟩
    · exact ⟨l, by rw [h3, h5], h4⟩
    · exact ⟨r :: l, by rw [h3, h5]; simp, by simp [h4, Ne.symm h6]⟩

/-- The read that `Close` interrupts: without `Close` the same failure is reported. -/
example : run State.init [.begin, .sendKey, .success, .check, .close, .cancel, .readFails, .readError false, .loopEnds] =
    some ⟨true, true, false, .over, .over, 0, .off, []⟩ := by decide

example : (run State.init [.begin, .sendKey, .success, .check, .readFails, .readError false]).map State.reports =
    some [.read] := by decide

/-- Nothing is under way any more. -/
structure Silent (s : State) : Prop where
  done : s.done = true
  loop : s.loop = .idle ∨ s.loop = .over ∨ (s.loop = .begin ∧ s.ctx = true)
  answers : s.answers = 0
  neg : s.neg = .off ∨ s.neg = .over
  reader : ∀ m ms, s.reader ≠ .got (m :: ms)

theorem silent_step {s s' : State} {a : Act} (h : Silent s) (ha : harmless s a = true) (hs : step s a = some s') :
    Silent s' ∧ s'.reports = s.reports := by
  obtain ⟨hd, hl, han, hn, hr⟩ := h
  cases a with
  | packet ms =>
    simp only [harmless, List.isEmpty_iff] at ha
    subst ha
    simp only [step] at hs
    split at hs <;> simp at hs
    subst hs
    exact ⟨⟨hd, hl, han, hn, by simp⟩, rfl⟩
  | negotiate => simp [harmless] at ha
  | tick =>
    simp only [harmless] at ha
    simp only [step] at hs
    split at hs <;> simp at hs
    subst hs
    exact ⟨⟨hd, .inr (.inr ⟨rfl, ha⟩), han, hn, hr⟩, rfl⟩
  | message =>
    simp only [step] at hs
    split at hs
    · simp only [Option.some.injEq] at hs; subst hs
      exact ⟨⟨hd, hl, han, hn, by simp⟩, rfl⟩
    · exact absurd ‹_› (hr _ _)
    · exact absurd ‹_› (hr _ _)
    · simp at hs
  | _ =>
    simp only [step] at hs
    repeat' split at hs
    all_goals try (simp at hs; done)
    all_goals simp only [Option.some.injEq] at hs
    all_goals first
      | (subst hs; refine ⟨⟨?_, ?_, ?_, ?_, ?_⟩, ?_⟩ <;> grind [State.kxDone, State.sendKey, State.fail])
      | (exfalso; grind [State.kxDone])

/-- C159 for a session at rest: if nothing is under way when `Close` is called, nothing is reported afterwards, whatever `Read` of the backend
returns, whenever the timers fire later, and in whatever order the goroutines end. Missing for C159: exchanges, negotiations and
messages that are under way. -/
theorem C159_rest_partial {s s1 s' : State} {as : List Act} (hr : AtRest s) (hc : step s .close = some s1)
    (ha : allHarmless s1 as = true) (h : run s1 as = some s') : since s s' = [] := by
  have h1 : Silent s1 ∧ s1.reports = s.reports := by
    simp only [step] at hc
    split at hc <;> simp at hc
    subst hc
    exact ⟨⟨rfl, .inl hr.loop, hr.answers, hr.neg, fun m ms => hr.reader _⟩, rfl⟩
  have main : ∀ (as : List Act) {s s' : State}, Silent s → allHarmless s as = true → run s as = some s' →
      s'.reports = s.reports := by
    intro as
    induction as with
    | nil =>
      intro s s' _ _ h
      simp only [run, Option.some.injEq] at h
      rw [h]
    | cons a as ih =>
      intro s s' hs ha h
      simp only [run, Option.bind_eq_some_iff] at h
      obtain ⟨s2, h2, h3⟩ := h
      simp only [allHarmless, Bool.and_eq_true, h2] at ha
      have h4 := silent_step hs ha.1 h2
      exact (ih h4.1 ha.2 h3).trans h4.2
  simp [since, main as h1.1 ha h, h1.2]

/-- The first exchange and the negotiation are over, and the reader waits for a packet. -/
def resting : List Act := [.begin, .sendKey, .check, .packet [.key true], .message, .message, .success, .negotiate, .ping, .collect,
  .negEnds, .check]

example : ∃ s s1, run State.init resting = some s ∧ AtRest s ∧ step s .close = some s1 ∧
    allHarmless s1 [.cancel, .readFails, .readError false, .tick, .begin, .loopEnds] = true ∧
    (run s1 [.cancel, .readFails, .readError false, .tick, .begin, .loopEnds]).map State.loop = some .over :=
  ⟨⟨false, false, false, .reading, .idle, 0, .over, []⟩, _, by decide, ⟨by decide, by decide, by decide, by simp⟩, rfl,
    by decide, by decide⟩

/-- C159 is violated: `Close` is the first and only thing that goes wrong, and then an error is reported. A retry of the key exchange that
does not notice the closed context, an update that begins while `Close` runs, an answer to the peer, the end of `Timeout`, a message of the key
exchange or a ping that arrive meanwhile, and in every session that is closed during the negotiation: its end. -/
theorem C159_violated :
    (∃ as bs s s', run State.init as = some s ∧ s.done = false ∧ s.reports = [] ∧ run s (.close :: bs) = some s' ∧
      s'.reports = [.keySend]) ∧
    (∃ as bs s s', run State.init as = some s ∧ AtRest s ∧ s.reports = [] ∧ run s (.close :: .tick :: bs) = some s' ∧
      s'.reports = [.keySend]) ∧
    (∃ as bs s s', run State.init as = some s ∧ s.loop = .idle ∧ s.reports = [] ∧ run s (.close :: .answer :: bs) = some s' ∧
      s'.reports = [.keySend]) ∧
    (∃ as bs s s', run State.init as = some s ∧ s.done = false ∧ s.reports = [] ∧ run s (.close :: bs) = some s' ∧
      s'.reports = [.keyTimeout]) ∧
    (∃ as bs s s', run State.init as = some s ∧ AtRest s ∧ s.reports = [] ∧ run s (.close :: bs) = some s' ∧
      s'.reports = [.keyMessage]) ∧
    (∃ as bs s s', run State.init as = some s ∧ AtRest s ∧ s.reports = [] ∧ run s (.close :: bs) = some s' ∧
      s'.reports = [.pong]) ∧
    (∃ as bs s s', run State.init as = some s ∧ s.loop = .idle ∧ s.reports = [] ∧ run s (.close :: bs) = some s' ∧
      s'.reports = [.ping]) := by
  have rest : AtRest ⟨false, false, false, .reading, .idle, 0, .over, []⟩ := ⟨by decide, by decide, by decide, by simp⟩
  refine ⟨⟨[.begin, .sendKey], [.cancel, .retry, .sendKey], _, _, rfl, rfl, rfl, rfl, rfl⟩,
    ⟨resting, [.begin, .sendKey], ⟨false, false, false, .reading, .idle, 0, .over, []⟩, _, by decide, rest, rfl, rfl, rfl⟩,
    ⟨[.begin, .sendKey, .success, .check, .packet [.key false], .message], [], _, _, rfl, rfl, rfl, rfl, rfl⟩,
    ⟨[.begin, .sendKey], [.cancel, .timeout], _, _, rfl, rfl, rfl, rfl, rfl⟩,
    ⟨resting, [.cancel, .packet [.key true], .message], ⟨false, false, false, .reading, .idle, 0, .over, []⟩, _, by decide, rest, rfl,
      rfl, rfl⟩,
    ⟨resting, [.packet [.ping], .message], ⟨false, false, false, .reading, .idle, 0, .over, []⟩, _, by decide, rest, rfl, rfl, rfl⟩,
    ⟨[.begin, .sendKey, .success, .negotiate], [.ping], _, _, rfl, rfl, rfl, rfl, rfl⟩⟩

/-- C159 is violated by every `Close` during which the negotiator collects answers: when it is the only goroutine that still has something to do, the
report is the only thing it can do. -/
theorem C159_negotiation {s s1 s2 s' : State} {as : List Act} (hn : s.neg = .collecting) (hc : step s .close = some s1)
    (hx : step s1 .cancel = some s2) (has : ∀ a ∈ as, a ≠ .pings ∧ a ≠ .negEnds) (h : run s2 as = some s')
    (ho : s'.neg = .over) : Report.cancelled ∈ since s s' := by
  have h2 : s2.neg = .collecting ∧ s2.reports = s.reports := by
    simp only [step] at hc
    split at hc <;> simp at hc
    subst hc
    simp only [step, if_true, Option.some.injEq] at hx
    subst hx
    exact ⟨hn, rfl⟩
  suffices main : ∀ (as : List Act) {t t' : State}, (∀ a ∈ as, a ≠ .pings ∧ a ≠ .negEnds) → run t as = some t' →
      ∃ l, t'.reports = t.reports ++ l ∧ (t.neg = .collecting → t'.neg = .over → Report.cancelled ∈ l) by
    obtain ⟨l, h3, h4⟩ := main as has h
    rw [h2.2] at h3
    simpa [since, h3] using h4 h2.1 ho
  intro as
  induction as with
  | nil =>
    intro t t' _ h
    simp only [run, Option.some.injEq] at h
    subst h
    exact ⟨[], by simp, by intro h1 h2; rw [h1] at h2; cases h2⟩
  | cons a as ih =>
    intro t t' ha h
    simp only [run, Option.bind_eq_some_iff] at h
    obtain ⟨t1, h1, h3⟩ := h
    obtain ⟨l, h4, h5⟩ := ih (fun b hb => ha b (List.mem_cons_of_mem _ hb)) h3
    have ha := ha a (List.mem_cons_self ..)
    have hstep : ∃ l1, t1.reports = t.reports ++ l1 ∧
        (t.neg = .collecting → t1.neg = .collecting ∨ Report.cancelled ∈ l1) := by
      cases a <;> simp only [step] at h1
      all_goals repeat' split at h1
      all_goals first
        | (simp at h1; done)
        | (simp only [Option.some.injEq] at h1; subst h1; simp_all [State.sendKey, State.fail]; done)
        | (simp only [Option.some.injEq] at h1; subst h1; unfold State.sendKey State.fail; split <;> simp_all)
    obtain ⟨l1, h6, h7⟩ := hstep
    refine ⟨l1 ++ l, by rw [h4, h6]; simp, fun h8 h9 => ?_⟩
    rcases h7 h8 with h10 | h10
    · exact List.mem_append.2 (.inr (h5 h10 h9))
    · exact List.mem_append.2 (.inl h10)

example : ∃ s s1 s2 s', run State.init [.begin, .sendKey, .success, .negotiate, .ping, .collect] = some s ∧ s.neg = .collecting ∧
    s.reports = [] ∧ step s .close = some s1 ∧ step s1 .cancel = some s2 ∧ run s2 [.loopEnds, .negCancelled] = some s' ∧
    s'.neg = .over ∧ s'.reports = [.cancelled] :=
  ⟨_, _, _, _, rfl, rfl, rfl, rfl, rfl, rfl, rfl, rfl⟩

#print axioms C159_read_partial
#print axioms C159_rest_partial
#print axioms C159_violated
#print axioms C159_negotiation

/-- What the goroutines do without a report. An error closes the session and its context; `Close` is done once, and only it cancels the context;
the reader ends at its next look at the state, with the context cancelled or not. -/
example : (run State.init [.begin, .sendKey, .timeout]).map (fun s => (s.done, s.ctx, s.kxClosed, s.reports)) =
      some (true, true, true, [.keyTimeout]) ∧
    (run State.init [.check, .readFails, .readError false]).map (fun s => (s.done, s.ctx, s.reports)) = some (true, true, [.read]) ∧
    (run State.init [.check, .readFails, .readError true]).map (fun s => (s.done, s.ctx, s.reader)) = some (false, false, .check) ∧
    run State.init [.close, .close] = none ∧ run State.init [.cancel] = none ∧
    (run State.init [.close, .check]).map (·.reader) = some .over ∧ (run State.init [.close, .cancel, .check]).map (·.reader) = some .over := by
  decide
/-- Between the two steps of `Close` only writes fail: a message of the key exchange is handled, the loops do not end, and neither does the
negotiation. An exchanger that has closed itself begins no update. -/
example : (run State.init [.check, .packet [.key false], .close, .message]).map (fun s => (s.answers, s.reports)) = some (1, []) ∧
    run State.init [.begin, .sendKey, .success, .close, .loopEnds] = none ∧
    run State.init [.begin, .sendKey, .close, .stopWaiting] = none ∧
    run State.init [.negotiate, .collect, .close, .negCancelled] = none ∧
    (run State.init [.begin, .sendKey, .close, .timeout, .tick, .begin]).map (fun s => (s.ctx, s.loop)) = some (false, .idle) := by decide
/-- A failed send closes the exchanger, whether the context of the session is cancelled or not. -/
example : (run State.init [.begin, .close, .sendKey]).map (fun s => (s.ctx, s.kxClosed, s.reports)) = some (false, true, [.keySend]) ∧
    (run State.init [.begin, .close, .sendKey, .stopWaiting, .loopEnds]).map (·.loop) = some .over := by decide
/-- The ticker is looked at only between updates, the wait ends only with its reasons, and an answer is sent once. -/
example : run State.init [.begin, .sendKey, .tick] = none ∧ run State.init [.begin, .sendKey, .stopWaiting] = none ∧
    (run State.init [.check, .packet [.key false], .message, .answer]).map (·.answers) = some 0 ∧
    run State.init [.check, .packet [.key false], .message, .answer, .answer] = none := by decide

end Verif.CloseReport
