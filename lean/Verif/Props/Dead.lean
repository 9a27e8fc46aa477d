import Verif.Props.Detach
/-!
# A Closed session is dead: C175

README.md, "Closing / Closed": "If state `Closed` is reached it means the session is dead and nothing will ever happen to it
anymore."
-/
namespace Verif.Lifecycle

/-- What the user and the backend see: calls of `OnConnect`, errors of `Read` given to `Error`, a read deadline, a closed backend,
successful calls of `Start` and `Close`. -/
structure Seen where
  connects : Nat
  errors : Nat
  expired : Bool
  backendClosed : Bool
  starts : Nat
  closes : Nat
  deriving DecidableEq, Repr

def seen (s : State) : Seen := ⟨s.connects, s.errors, s.expired, s.backendClosed, s.starts, s.closes⟩

/-- The threads that are not finished when the state becomes Closed: the backend closer, the last step of the reader, calls of
`SetPause(true)` that are about to interrupt the reader, and the start of the negotiation. -/
structure Silent (s : State) : Prop where
  st : s.st = .closed
  reader : s.reader = .ended
  closer : s.closer = .over
  neg : s.neg = .connected
  pausers : ∀ p ∈ s.pausers, ∃ c e, p = .waiting c e

theorem silent_step {cfg : Cfg} {s s' : State} {a : Act} (hp : Phase s) (ht : Threads s) (h : Silent s)
    (hs : step cfg s a = .ok s') : Silent s' ∧ seen s' = seen s := by
  obtain ⟨h1, h2, h3, h4, h5⟩ := h
  have p1 := hp.count
  have p2 := ht.closerOff
  clear hp ht
  have p3 : s.start = .over := by grind
  have p4 : ∀ (i : Nat) (p : Pauser), s.pausers[i]? = some p → ∃ c e, p = .waiting c e := fun i p hm => h5 p (List.mem_of_getElem? hm)
  have p5 : ∀ (i : Nat) (p : Pauser), p ∈ s.pausers.eraseIdx i → ∃ c e, p = .waiting c e :=
    fun i p hm => h5 p ((List.eraseIdx_sublist s.pausers i).subset hm)
  cases a <;> simp only [step, readerStep, closerStep, pauserStep, startStep, setState, closeSess, badStates, p3, h1, h2, h3, h4,
      List.mem_cons, List.not_mem_nil, or_false] at hs <;>
    (repeat' split at hs) <;> (try (simp at hs; done)) <;>
    simp only [Outcome.ok.injEq] at hs <;> subst hs <;>
    refine ⟨⟨?_, ?_, ?_, ?_, ?_⟩, ?_⟩ <;> first | assumption | rfl | grind

/-- C175 once the threads are finished: nothing happens any more, whatever is called. -/
theorem C175_silent_partial {cfg : Cfg} {as : List Act} {s s' : State} (hr : Reachable cfg s) (h : Silent s)
    (hs : runActs cfg s as = .ok s') : Silent s' ∧ seen s' = seen s := by
  induction as generalizing s with
  | nil => simp only [runActs, Outcome.ok.injEq] at hs; subst hs; exact ⟨h, rfl⟩
  | cons a as ih =>
    simp only [runActs] at hs
    split at hs <;> (try (simp at hs; done))
    rename_i t ht
    have hi := inv_reachable hr
    have h1 := silent_step hi.1 hi.2.1 h ht
    have h2 := ih (.step a hr ht) h1.1 hs
    exact ⟨h2.1, h2.2.trans h1.2⟩

/-- What may happen to a session that is Closed. -/
structure Rest (s s' : State) : Prop where
  st : s'.st = .closed
  errors : s'.errors = s.errors
  starts : s'.starts = s.starts
  closes : s'.closes = s.closes
  reads : s'.reader = .lastReset ∨ s'.reader = .ended
  connects : s'.connects = s.connects ∨ (s.connects = 0 ∧ s'.connects = 1)
  backend : s.closer = .over → s'.backendClosed = s.backendClosed

theorem rest_step {cfg : Cfg} {s s' : State} {a : Act} (hp : Phase s) (ht : Threads s) (h : s.st = .closed)
    (hs : step cfg s a = .ok s') : Rest s s' ∧ (s.closer = .over → s'.closer = .over) := by
  have p1 := hp.connects
  have p2 := ht.closed h
  have p3 := ht.readerOff
  have p4 := ht.closerOff
  clear hp ht
  cases a <;> simp only [step, readerStep, closerStep, pauserStep, startStep, setState, closeSess, resetReadDeadline,
      setDeadline, badStates, h, List.mem_cons, List.not_mem_nil, or_false] at hs <;>
    (repeat' split at hs) <;> (try (simp at hs; done)) <;>
    simp only [Outcome.ok.injEq] at hs <;> subst hs <;>
    refine ⟨⟨?_, ?_, ?_, ?_, ?_, ?_, ?_⟩, ?_⟩ <;> grind

/-- C175, what holds as soon as the state is Closed: it stays Closed, the backend is not read any more, no error of it is
reported, `Start` and `Close` do not succeed, and `OnConnect` is called once at most, if it was not called before.  Missing: that it
is not called, and that the backend is left alone (`C175_violated`). -/
theorem C175_partial {cfg : Cfg} {as : List Act} {s s' : State} (hr : Reachable cfg s) (h : s.st = .closed)
    (hs : runActs cfg s as = .ok s') : Rest s s' := by
  have key : Rest s s' ∧ (s.closer = .over → s'.closer = .over) := by
    induction as generalizing s with
    | nil =>
      simp only [runActs, Outcome.ok.injEq] at hs
      subst hs
      exact ⟨⟨h, rfl, rfl, rfl, (inv_reachable hr).2.1.closed h, .inl rfl, fun _ => rfl⟩, id⟩
    | cons a as ih =>
      simp only [runActs] at hs
      split at hs <;> (try (simp at hs; done))
      rename_i t ht
      have hi := inv_reachable hr
      obtain ⟨h1, h2⟩ := rest_step hi.1 hi.2.1 h ht
      obtain ⟨h3, h4⟩ := ih (.step a hr ht) h1.st hs
      refine ⟨⟨h3.st, h3.errors.trans h1.errors, h3.starts.trans h1.starts, h3.closes.trans h1.closes, h3.reads, ?_,
        fun hc => (h3.backend (h2 hc)).trans (h1.backend hc)⟩, fun hc => h4 (h2 hc)⟩
      have := h1.connects
      have := h3.connects
      omega
  exact key.1

/-! ### Negation -/

/-- The negotiation is about to end when the session is closed; the reader ends. -/
def deadConnect : List Act :=
  started ++ [.kxSuccess, .negotiate, .negStart, rd, rd, rd, .close, .flush, .cancelFunc] ++ List.replicate 7 rd

/-- A packet ends the loop of the reader while the backend closer is about to interrupt it. -/
def deadInterrupt : List Act :=
  serving ++ [.close, .flush, .cancelFunc, .closer false, .closer false] ++ List.replicate 7 rd

/-- Negation of C175: `OnConnect` is called, a read deadline is put into the past, and the backend is closed, of a session that is
Closed. -/
theorem C175_violated :
    (∃ s s', Reachable net s ∧ s.st = .closed ∧ step net s .connect = .ok s' ∧ s'.connects = s.connects + 1) ∧
    (∃ s s', Reachable net s ∧ s.st = .closed ∧ s.expired = false ∧
      runActs net s [.closer false, .closer false] = .ok s' ∧ s'.expired = true) ∧
    (∃ s s', Reachable ⟨false⟩ s ∧ s.st = .closed ∧ s.backendClosed = false ∧
      runActs ⟨false⟩ s (List.replicate 3 (.closer false)) = .ok s' ∧ s'.backendClosed = true) := by
  refine ⟨⟨at' deadConnect, okState (step net (at' deadConnect) .connect), reachable_run (by decide +kernel), by decide +kernel,
      okState_eq (by decide +kernel), by decide +kernel⟩,
    ⟨at' deadInterrupt, okState (runActs net (at' deadInterrupt) [.closer false, .closer false]), reachable_run (by decide +kernel),
      by decide +kernel, by decide +kernel, okState_eq (by decide +kernel), by decide +kernel⟩,
    ⟨okState (runActs ⟨false⟩ State.init deadInterrupt), okState (runActs ⟨false⟩ (okState (runActs ⟨false⟩ State.init deadInterrupt))
      (List.replicate 3 (.closer false))), reachable_run (by decide +kernel),
      by decide +kernel, by decide +kernel, okState_eq (by decide +kernel), by decide +kernel⟩⟩

/-! ### Examples -/

/-- The hypotheses of `C175_silent_partial`, and what it says. -/
example : let s := at' (deadInterrupt ++ [.closer false, .closer false, rd])
    s.st = .closed ∧ s.reader = .ended ∧ s.closer = .over ∧ s.neg = .connected ∧ s.pausers = [] := by decide +kernel

example : let as : List Act := deadInterrupt ++ [.closer false, .closer false, rd]
    seen (at' (as ++ [.startCall, .close, .pause, .unpause, .cancel, .kxSuccess])) = seen (at' as) ∧
    isOk (runActs net State.init (as ++ [.startCall, .close, .pause, .unpause, .cancel, .kxSuccess])) = true ∧
    (at' (as ++ [.startCall, .close, .pause, .unpause, .cancel, .kxSuccess])).closesRefused = 1 := by decide +kernel

/-- The hypotheses of `C175_partial`: the session is Closed, and `OnConnect` is called. -/
example : (at' deadConnect).st = .closed ∧ (at' deadConnect).connects = 0 ∧
    isOk (runActs net (at' deadConnect) [.connect, .closer false, .closer false]) = true ∧
    (okState (runActs net (at' deadConnect) [.connect, .closer false, .closer false])).connects = 1 ∧
    (okState (runActs net (at' deadConnect) [.connect, .closer false, .closer false])).closer = .over := by decide +kernel

#print axioms C175_silent_partial
#print axioms C175_partial
#print axioms C175_violated

end Verif.Lifecycle
