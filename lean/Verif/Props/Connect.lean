import Verif.Props.Lifecycle
/-!
# C120: OnConnect means that the session is established
-/
namespace Verif.Lifecycle

/-- C120, the part that holds: a call of `OnConnect` in a session which nobody has closed makes it Established.
Missing: sessions that are Closing or Closed (`C120_violated`). -/
theorem C120_partial {cfg : Cfg} {s s' : State} {a : Act} (hr : Reachable cfg s) (hs : step cfg s a = .ok s')
    (hc : s'.connects ≠ s.connects) (ho : s.st ≠ .closing ∧ s.st ≠ .closed) : s'.st = .established ∧ s.st = .negotiating := by
  have p2 := (inv_reachable hr).1.mid
  clear hr
  cases a <;> simp only [step, readerStep, closerStep, pauserStep, startStep, setState, closeSess, resetReadDeadline,
      setDeadline, badStates, List.mem_cons, List.not_mem_nil, or_false] at hs <;>
    (repeat' split at hs) <;> (try (simp at hs; done)) <;>
    simp only [Outcome.ok.injEq] at hs <;> subst hs <;> grind

/-- C120, the other direction: no session gets Established (or Paused) without `OnConnect`. -/
theorem C120_told {cfg : Cfg} {s : State} (hr : Reachable cfg s) (h : s.st = .established ∨ s.st = .paused) :
    s.connects = 1 := by
  have hp := (inv_reachable hr).1
  have p1 := hp.early
  have p2 := hp.mid
  have p3 := hp.connects
  clear hp hr
  cases hn : s.neg <;> grind

example : Reachable net (at' connected) ∧ (at' connected).st = .established ∧ (at' connected).connects = 1 ∧
    (at' (started ++ [.kxSuccess, .negotiate, .negStart])).st = .negotiating ∧
    (at' (started ++ [.kxSuccess, .negotiate, .negStart])).connects = 0 :=
  ⟨reachable_run (by decide +kernel), by decide +kernel, by decide +kernel, by decide +kernel, by decide +kernel⟩

/-- `Close` is called before the negotiation is over, and the session closes. -/
def closedEarly : List Act := started ++ [.kxSuccess, .negotiate, .negStart, .close, .flush, .cancelFunc] ++ List.replicate 5 rd

/-- Negation of C120: the session is already Closed and has never been Established, and `OnConnect` is called. -/
theorem C120_violated : ∃ s s', Reachable net s ∧ step net s .connect = .ok s' ∧ s.st = .closed ∧ s.connects = 0 ∧
    s'.st = .closed ∧ s'.connects = 1 := by
  refine ⟨at' closedEarly, okState (step net (at' closedEarly) .connect), reachable_run (by decide +kernel),
    okState_eq (by decide +kernel), by decide +kernel, by decide +kernel, by decide +kernel, by decide +kernel⟩

#print axioms C120_partial
#print axioms C120_told
#print axioms C120_violated

end Verif.Lifecycle
