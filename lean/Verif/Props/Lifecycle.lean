import Verif.Lemmas.LifecyclePolite
import Verif.Lemmas.LifecycleClose
/-!
# Life of a session: C27 - C31, C62, C66 - C68, C70 (`Start`, `Close`, `SetPause`)

Any interleaving of the calls `Start`, `Close` and `SetPause`, of the reader, of the backend closer and of the
callbacks of the key exchanger and the negotiator is a `Reachable` sequence of steps.
-/
namespace Verif.Lifecycle

/-! ### Runs -/

theorem runActs_reachable {cfg : Cfg} : ∀ (as : List Act) {s s' : State}, Reachable cfg s →
    runActs cfg s as = .ok s' → Reachable cfg s' := by
  intro as
  induction as with
  | nil => intro s s' hr h; simp only [runActs, Outcome.ok.injEq] at h; subst h; exact hr
  | cons a as ih =>
    intro s s' hr h
    simp only [runActs] at h
    split at h <;> try (simp at h; done)
    rename_i s1 h1
    exact ih (.step a hr h1) h

/-- The state after a run, with a default. -/
def okState (r : Outcome Crash State) : State := match r with | .ok s => s | _ => State.init

/-- Does the run go through? -/
def isOk (r : Outcome Crash State) : Bool := match r with | .ok _ => true | _ => false

def crashOf (r : Outcome Crash State) : Option Crash := match r with | .err e => some e | _ => none

theorem okState_eq {r : Outcome Crash State} (h : isOk r = true) : r = .ok (okState r) := by
  cases r <;> simp_all [isOk, okState]

theorem crashOf_eq {r : Outcome Crash State} {e : Crash} (h : crashOf r = some e) : r = .err e := by
  cases r <;> simp_all [crashOf]

theorem reachable_run {cfg : Cfg} {as : List Act} (h : isOk (runActs cfg State.init as) = true) :
    Reachable cfg (okState (runActs cfg State.init as)) :=
  runActs_reachable as .init (okState_eq h)

/-- A session with a backend that has deadlines. -/
def net : Cfg := ⟨true⟩

/-- `Start`. -/
def started : List Act := .startCall :: List.replicate 7 .startNext

/-- `Start`, key exchange and negotiation. -/
def connected : List Act := started ++ [.kxSuccess, .negotiate, .negStart, .connect]

def rd : Act := .reader .data false false

/-- A connected session whose reader is in `Read`. -/
def serving : List Act := connected ++ [rd, rd, rd]

/-- `SetPause(true)`, the read interrupt, and the reader up to the lock. -/
def pausing : List Act := [.pause, .pauser 0, .pauser 0, .pauser 0] ++ List.replicate 8 rd

/-- The state after a run from the beginning. -/
def at' (as : List Act) : State := okState (runActs net State.init as)

example : (at' serving).st = .established ∧ (at' serving).reader = .reading ∧ (at' serving).connects = 1 := by
  decide +kernel

example : (at' (serving ++ pausing)).st = .paused ∧ (at' (serving ++ pausing)).reader = .resetting ∧
    (at' (serving ++ pausing ++ [rd, .pauser 0])).pauseRets = [⟨true, true, false⟩] := by decide +kernel

/-! ### C27 -/

/-- C27: a closing session can only become closed, and a closed one stays closed, whatever happens. -/
theorem C27_final {cfg : Cfg} {s s' : State} {a : Act} (hs : step cfg s a = .ok s') :
    (s.st = .closing → s'.st = .closing ∨ s'.st = .closed) ∧ (s.st = .closed → s'.st = .closed) := by
  cases a <;> simp only [step, readerStep, closerStep, pauserStep, startStep, setState, closeSess, resetReadDeadline,
      setDeadline, badStates, List.mem_cons, List.not_mem_nil, or_false] at hs <;>
    (repeat' split at hs) <;> (try (simp at hs; done)) <;>
    simp only [Outcome.ok.injEq] at hs <;> subst hs <;> grind

/-- ... for any number of steps. -/
theorem C27_final_run {cfg : Cfg} : ∀ (as : List Act) {s s' : State}, runActs cfg s as = .ok s' →
    (s.st = .closing → s'.st = .closing ∨ s'.st = .closed) ∧ (s.st = .closed → s'.st = .closed) := by
  intro as
  induction as with
  | nil => intro s s' h; simp only [runActs, Outcome.ok.injEq] at h; subst h; exact ⟨.inl, id⟩
  | cons a as ih =>
    intro s s' h
    simp only [runActs] at h
    split at h <;> try (simp at h; done)
    rename_i s1 h1
    have h2 := ih h
    have h3 := C27_final h1
    exact ⟨fun h => (h3.1 h).elim h2.1 (fun h => .inr (h2.2 h)), fun h => h2.2 (h3.2 h)⟩

example : (at' (serving ++ [.close])).st = .closing ∧ (at' (serving ++ [.close])).timers = 1 ∧
    (at' (serving ++ [.close, .flush, .cancelFunc] ++ List.replicate 4 (.closer false) ++ List.replicate 7 rd)).st = .closed := by
  decide +kernel

/-! ### C28 -/

/-- C28: the state changes only in these ways: New to KeyExchanging, KeyExchanging to Negotiating, Negotiating to
Established, Established to Paused by `SetPause(true)`, Paused to Established by `SetPause(false)`, and to Closing or
Closed.  (The property says that the first state after New is KeyExchanging: see `C28_violated`.) -/
theorem C28_phases_partial {cfg : Cfg} {s s' : State} {a : Act} (hr : Reachable cfg s) (hs : step cfg s a = .ok s')
    (hne : s'.st ≠ s.st) :
    (s'.st = .keyExchanging ∧ s.st = .new) ∨ (s'.st = .negotiating ∧ s.st = .keyExchanging) ∨
    (s'.st = .established ∧ s.st = .negotiating) ∨ (s'.st = .paused ∧ s.st = .established ∧ a = .pause) ∨
    (s'.st = .established ∧ s.st = .paused ∧ a = .unpause) ∨ s'.st = .closing ∨ s'.st = .closed := by
  have hp := (inv_reachable hr).1
  have p1 := hp.early
  have p2 := hp.mid
  have p3 := hp.before
  have p5 := st_cases s
  clear hp hr
  cases a <;> simp only [step, readerStep, closerStep, pauserStep, startStep, setState, closeSess, resetReadDeadline,
      setDeadline, badStates, List.mem_cons, List.not_mem_nil, or_false] at hs <;>
    (repeat' split at hs) <;> (try (simp at hs; done)) <;>
    simp only [Outcome.ok.injEq] at hs <;> subst hs <;> grind

/-- Negation of C28: `Close` before `Start` makes a new session Closing. -/
theorem C28_violated : ∃ s s', Reachable net s ∧ step net s .close = .ok s' ∧ s.st = .new ∧ s'.st = .closing :=
  ⟨State.init, closeSess State.init, .init, rfl, rfl, rfl⟩

example : (at' started).st = .keyExchanging ∧ (at' (started ++ [.kxSuccess, .negotiate])).st = .negotiating ∧
    (at' connected).st = .established := by decide +kernel

/-! ### C29 -/

/-- C29, `SetPause(true)`: in the state Established the session is paused and the call goes on (its result is the
subject of `C29_result_partial`); in any other state nothing changes and the call returns an error. -/
theorem C29_pause {cfg : Cfg} {s s' : State} (hs : step cfg s .pause = .ok s') :
    (s.st = .established → s'.st = .paused ∧ s'.pausers = s.pausers ++ [.interrupting s.nextChan] ∧
      s'.pauseRets = s.pauseRets) ∧
    (s.st ≠ .established → s'.st = s.st ∧ s'.pauseRets = s.pauseRets ++ [⟨true, false, true⟩]) := by
  have p5 := st_cases s
  simp only [step, setState, badStates, List.mem_cons, List.not_mem_nil, or_false] at hs
  (repeat' split at hs) <;> (try (simp at hs; done)) <;>
    simp only [Outcome.ok.injEq] at hs <;> subst hs <;> grind

/-- C29, `SetPause(false)`: in the state Paused the session is established again and the call succeeds; in any other
state nothing changes and the call returns an error. -/
theorem C29_unpause {cfg : Cfg} {s s' : State} (hs : step cfg s .unpause = .ok s') :
    (s.st = .paused → s'.st = .established ∧ s'.pauseRets = s.pauseRets ++ [⟨false, true, false⟩]) ∧
    (s.st ≠ .paused → s'.st = s.st ∧ s'.pauseRets = s.pauseRets ++ [⟨false, false, true⟩]) := by
  have p5 := st_cases s
  simp only [step, setState, badStates, List.mem_cons, List.not_mem_nil, or_false] at hs
  (repeat' split at hs) <;> (try (simp at hs; done)) <;>
    simp only [Outcome.ok.injEq] at hs <;> subst hs <;> grind

/-- Neither call can block on `pauseWaitLocker` or unlock it wrongly: if no other call is inside, it goes on. -/
theorem C29_proceeds {cfg : Cfg} {s : State} (hr : Reachable cfg s) (hl : locked s = false) :
    (∃ s', step cfg s .pause = .ok s') ∧ ∃ s', step cfg s .unpause = .ok s' := by
  have hpa := (inv_reachable hr).2.2
  constructor
  · simp only [step, hl]
    by_cases h : s.st = .established
    · simp [h, hpa.free (by simp [h]) (by simp [h]) (by simp [h])]
    · simp [h]
  · simp only [step, hl]
    by_cases h : s.st = .paused
    · simp [h, hpa.taken h]
    · simp [h]

/-- C29 for backends with deadlines: a `SetPause` call returns nil exactly when it changed the state. -/
theorem C29_result_partial {cfg : Cfg} {s : State} (hd : cfg.deadlines = true) (hr : Reachable cfg s) :
    ∀ r ∈ s.pauseRets, r.err = !r.changed := (rets_reachable hd hr).rets

/-- Negation of C29 without deadlines: `SetPause(true)` pauses the session and returns an error.  (The reader noticed
the pause after a packet had arrived.) -/
theorem C29_violated : ∃ s, Reachable ⟨false⟩ s ∧ s.st = .paused ∧ s.pauseRets = [⟨true, true, true⟩] := by
  have h : isOk (runActs ⟨false⟩ State.init
    (serving ++ [.pause, .pauser 0, .pauser 0, .pauser 0] ++ List.replicate 7 rd ++ [.pauser 0])) = true := by decide +kernel
  refine ⟨_, reachable_run h, ?_⟩
  decide +kernel

/-! ### C30 -/

/-- C30, safety: when `SetPause(true)` returns (and its pause is still the current one), the reader is detached: it is
not reading and cannot go on before `SetPause(false)`. -/
theorem C30_detached {cfg : Cfg} {s s' : State} {i c : Nat} {e : Bool} (hr : Reachable cfg s)
    (hi : s.pausers[i]? = some (.waiting c e)) (hs : step cfg s (.pauser i) = .ok s') (hst : s.st = .paused)
    (hc : c + 1 = s.nextChan) : (s'.reader = .resetting ∨ s'.reader = .waiting) ∧ s'.pauseWait = true := by
  have hpa := (inv_reachable hr).2.2
  simp only [step, pauserStep, hi] at hs
  split at hs <;> try (simp at hs; done)
  rename_i hcc
  simp only [Outcome.ok.injEq] at hs; subst hs
  refine ⟨hpa.detached hst ?_, hpa.taken hst⟩
  rwa [← hc, Nat.add_sub_cancel]

example : (at' (serving ++ pausing ++ [rd])).pausers = [.waiting 0 false] ∧ (at' (serving ++ pausing ++ [rd])).st = .paused ∧
    (at' (serving ++ pausing ++ [rd])).nextChan = 1 := by decide +kernel

theorem pending_run {cfg : Cfg} {c : Nat} : ∀ (as : List Act) {s s' : State}, Reachable cfg s → Pending c s →
    (∀ a ∈ as, a ≠ .pause ∧ a ≠ .unpause ∧ a ≠ .close) → runActs cfg s as = .ok s' →
    s'.st ≠ .paused ∨ c ∈ s'.closedChans ∨
      (Pending c s' ∧ pauseMeasure s' + (as.filter own).length ≤ pauseMeasure s) := by
  have stay : ∀ (as : List Act) {s s' : State}, (s.st ≠ .paused ∨ c ∈ s.closedChans) → Reachable cfg s →
      (∀ a ∈ as, a ≠ .pause ∧ a ≠ .unpause ∧ a ≠ .close) → runActs cfg s as = .ok s' →
      s'.st ≠ .paused ∨ c ∈ s'.closedChans := by
    intro as
    induction as with
    | nil => intro s s' h _ _ hs; simp only [runActs, Outcome.ok.injEq] at hs; subst hs; exact h
    | cons a as ih =>
      intro s s' h hr ha hs
      simp only [runActs] at hs
      split at hs <;> try (simp at hs; done)
      rename_i s1 h1
      refine ih ?_ (.step a hr h1) (fun b hb => ha b (List.mem_cons_of_mem _ hb)) hs
      by_cases hst : s.st = .paused
      · have hcc := h.resolve_left (fun h => h hst)
        right
        clear ha hs ih
        cases a <;> simp only [step, readerStep, closerStep, pauserStep, startStep, setState, closeSess,
            resetReadDeadline, setDeadline, badStates, List.mem_cons, List.not_mem_nil, or_false] at h1 <;>
          (repeat' split at h1) <;> (try (simp at h1; done)) <;>
          simp only [Outcome.ok.injEq] at h1 <;> subst h1 <;> grind
      · left
        intro h2
        have := C28_phases_partial hr h1 (by rw [h2]; exact fun h => hst h.symm)
        have ha' := (ha a List.mem_cons_self).1
        grind
  intro as
  induction as with
  | nil =>
    intro s s' _ hp _ hs
    simp only [runActs, Outcome.ok.injEq] at hs; subst hs
    exact .inr (.inr ⟨hp, by simp⟩)
  | cons a as ih =>
    intro s s' hr hp ha hs
    simp only [runActs] at hs
    split at hs <;> try (simp at hs; done)
    rename_i s1 h1
    have hinv := inv_reachable hr
    have hst := pending_step hinv.1 hinv.2.1 hp h1 (ha a List.mem_cons_self)
    have ha' := fun b hb => ha b (List.mem_cons_of_mem _ hb)
    rcases hst.1 with h | h | h
    · rcases stay as (.inl h) (.step a hr h1) ha' hs with h | h
      · exact .inl h
      · exact .inr (.inl h)
    · rcases stay as (.inr h) (.step a hr h1) ha' hs with h | h
      · exact .inl h
      · exact .inr (.inl h)
    · rcases ih (.step a hr h1) h ha' hs with h2 | h2 | h2
      · exact .inl h2
      · exact .inr (.inl h2)
      · refine .inr (.inr ⟨h2.1, ?_⟩)
        have := hst.2
        by_cases ho : own a = true
        · simp only [ho, if_true] at this
          rw [List.filter_cons_of_pos ho]
          simp only [List.length_cons]
          omega
        · simp only [ho] at this
          rw [List.filter_cons_of_neg ho]
          simp at this
          omega

/-- C30, progress (backends with deadlines): if `SetPause(true)` is called when the reader has left any previous
pause, and nobody calls `SetPause` or `Close` until it returns, then it returns: as long as its channel is not closed
and the session is paused, the reader or the call itself can make a step without the help of the peer, and there can be
only finitely many such steps (`pauseMeasure` bounds their number). -/
theorem C30_returns_partial {cfg : Cfg} {s s1 s2 : State} {as : List Act} (hd : cfg.deadlines = true)
    (hr : Reachable cfg s) (hst : s.st = .established) (hrd : s.reader ≠ .resetting ∧ s.reader ≠ .waiting)
    (hs : step cfg s .pause = .ok s1) (ha : ∀ a ∈ as, a ≠ .pause ∧ a ≠ .unpause ∧ a ≠ .close)
    (hrun : runActs cfg s1 as = .ok s2) :
    s2.st ≠ .paused ∨ s.nextChan ∈ s2.closedChans ∨
      ((as.filter own).length ≤ pauseMeasure s1 ∧ ∃ a, own a = true ∧ Unaided s2 a ∧ ∃ s3, step cfg s2 a = .ok s3) := by
  have hinv := inv_reachable hr
  have hp : Pending s.nextChan s1 := by
    simp only [step, hst, if_true] at hs
    (repeat' split at hs) <;> (try (simp at hs; done))
    simp only [Outcome.ok.injEq] at hs; subst hs
    have h1 := hinv.2.1.last
    have h2 := hinv.1.before
    have h3 := hinv.1.state
    have h4 := hinv.1.early
    refine ⟨rfl, rfl, by grind, by grind, by grind, by grind, by grind, fun go hgo => ?_⟩
    have := h4 (.inl (h3 go hgo).2)
    simp [hst] at this
  have hr1 : Reachable cfg s1 := .step .pause hr hs
  have hr2 := runActs_reachable as hr1 hrun
  rcases pending_run as hr1 hp ha hrun with h | h | h
  · exact .inl h
  · exact .inr (.inl h)
  · have hinv2 := inv_reachable hr2
    exact .inr (.inr ⟨by omega, pending_enabled hinv2.2.1 hinv2.2.2 (awake_reachable hd hr2) h.1⟩)

/-- Once its channel is closed the call can return. -/
theorem C30_channel {cfg : Cfg} {s : State} {i c : Nat} {e : Bool} (hi : s.pausers[i]? = some (.waiting c e))
    (hc : c ∈ s.closedChans) : ∃ s', step cfg s (.pauser i) = .ok s' ∧ s'.pauseRets = s.pauseRets ++ [⟨true, true, e⟩] := by
  simp only [step, pauserStep, hi, hc, if_true]
  exact ⟨_, rfl, rfl⟩

/-- A `SetPause(true)` call that waits for a channel which nobody will ever close. -/
structure Hung (c : Nat) (s : State) : Prop where
  chan : ∀ d, s.pauseChan = some d → d ≠ c
  notClosed : c ∉ s.closedChans
  old : c < s.nextChan

theorem hung_step {cfg : Cfg} {s s' : State} {a : Act} {c : Nat} (h : Hung c s) (hs : step cfg s a = .ok s') :
    Hung c s' := by
  obtain ⟨h1, h2, h3⟩ := h
  cases a <;> simp only [step, readerStep, closerStep, pauserStep, startStep, setState, closeSess,
      resetReadDeadline, setDeadline, badStates, List.mem_cons, List.not_mem_nil, or_false] at hs <;>
    (repeat' split at hs) <;> (try (simp at hs; done)) <;>
    simp only [Outcome.ok.injEq] at hs <;> subst hs <;> constructor <;> grind

theorem hung_run {cfg : Cfg} {c : Nat} : ∀ (as : List Act) {s s' : State}, Hung c s → runActs cfg s as = .ok s' →
    Hung c s' := by
  intro as
  induction as with
  | nil => intro s s' h hs; simp only [runActs, Outcome.ok.injEq] at hs; subst hs; exact h
  | cons a as ih =>
    intro s s' h hs
    simp only [runActs] at hs
    split at hs <;> try (simp at hs; done)
    rename_i s1 h1
    exact ih (hung_step h h1) hs

/-- Negation of C30: a second `SetPause(true)`, which itself fails, makes the first one wait for ever.  No execution
whatever makes it return. -/
theorem C30_violated : ∃ s, Reachable net s ∧ s.pausers = [.waiting 0 false] ∧ s.pauseRets = [⟨true, false, true⟩] ∧
    ∀ as s', runActs net s as = .ok s' → 0 ∉ s'.closedChans := by
  have h : isOk (runActs net State.init (serving ++ [.pause, .pauser 0, .pauser 0, .pauser 0, .pause])) = true := by
    decide +kernel
  refine ⟨_, reachable_run h, by decide +kernel, by decide +kernel, fun as s' hs => (hung_run as ⟨?_, ?_, ?_⟩ hs).notClosed⟩
  all_goals decide +kernel

/-- Negation of C30 for one caller that waits for each call: `SetPause(true)`, `SetPause(false)`, `SetPause(true)`.  If
the second pause comes before the reader left the first one, the last call never returns (unless someone else un-pauses
and pauses the session: here, as long as nobody calls `SetPause`). -/
theorem C30_violated_sequential : ∃ s, Reachable net s ∧ s.pauseRets = [⟨true, true, false⟩, ⟨false, true, false⟩] ∧
    s.pausers = [.waiting 1 false] ∧
    ∀ as s', (∀ a ∈ as, a ≠ .unpause) → runActs net s as = .ok s' → 1 ∉ s'.closedChans := by
  have h : isOk (runActs net State.init (serving ++ pausing ++ [.pauser 0, .unpause, .pause, .pauser 0, .pauser 0, .pauser 0, rd])) = true := by
    decide +kernel
  refine ⟨_, reachable_run h, by decide +kernel, by decide +kernel, ?_⟩
  have key : ∀ (as : List Act) (s s' : State), s.reader = .waiting → s.pauseWait = true → 1 ∉ s.closedChans →
      (∀ a ∈ as, a ≠ .unpause) → s.start = .over → runActs net s as = .ok s' → 1 ∉ s'.closedChans := by
    intro as
    induction as with
    | nil => intro s s' _ _ h _ _ hs; simp only [runActs, Outcome.ok.injEq] at hs; subst hs; exact h
    | cons a as ih =>
      intro s s' h1 h2 h3 h4 h5 hs
      simp only [runActs] at hs
      split at hs <;> try (simp at hs; done)
      rename_i s1 hs1
      have ha := h4 a List.mem_cons_self
      have : s1.reader = .waiting ∧ s1.pauseWait = true ∧ 1 ∉ s1.closedChans ∧ s1.start = .over := by
        clear ih hs h4
        cases a <;> simp only [step, readerStep, closerStep, pauserStep, startStep, setState, closeSess,
            resetReadDeadline, setDeadline, badStates, List.mem_cons, List.not_mem_nil, or_false] at hs1 <;>
          (repeat' split at hs1) <;> (try (simp at hs1; done)) <;>
          simp only [Outcome.ok.injEq] at hs1 <;> subst hs1 <;> grind
      exact ih s1 s' this.1 this.2.1 this.2.2.1 (fun b hb => h4 b (List.mem_cons_of_mem _ hb)) this.2.2.2 hs
  intro as s' ha hs
  exact key as _ s' (by decide +kernel) (by decide +kernel) (by decide +kernel) ha (by decide +kernel) hs

/-! ### C31 -/

/-- C31: `Start` succeeds at most once; `Close` succeeds at most once. -/
theorem C31_once {cfg : Cfg} {s : State} (hr : Reachable cfg s) : s.starts ≤ 1 ∧ s.closes ≤ 1 := by
  have hp := (inv_reachable hr).1
  refine ⟨?_, hp.closes.1⟩
  rw [hp.starts]
  split <;> omega

/-- C31: a call of `Close` succeeds exactly if the session is neither closing nor closed, and the others are
refused; the same for `Start` and a session that is not started. -/
theorem C31_result {cfg : Cfg} {s s' : State} :
    (step cfg s .close = .ok s' →
      if s.st = .closing ∨ s.st = .closed then s'.closes = s.closes ∧ s'.closesRefused = s.closesRefused + 1 ∧ s'.st = s.st
      else s'.closes = s.closes + 1 ∧ s'.closesRefused = s.closesRefused ∧ s'.st = .closing) ∧
    (step cfg s .startCall = .ok s' →
      if s.start = .no then s'.starts = s.starts + 1 ∧ s'.startsRefused = s.startsRefused
      else s'.starts = s.starts ∧ s'.startsRefused = s.startsRefused + 1 ∧ s'.start = s.start) := by
  constructor
  · intro hs
    simp only [step, closeSess, setState, Outcome.ok.injEq, List.mem_singleton] at hs
    subst hs
    cases h : s.st <;> simp [h]
  · intro hs
    simp only [step] at hs
    split at hs <;> (simp only [Outcome.ok.injEq] at hs; subst hs) <;> simp_all

example : (at' (serving ++ [.close, .close, .startCall])).closes = 1 ∧ (at' (serving ++ [.close, .close])).closesRefused = 1 ∧
    (at' (serving ++ [.close, .close, .startCall])).startsRefused = 1 := by decide +kernel

/-! ### C62 -/

/-- C62: `OnConnect` is called at most once, and only after a successful key exchange.  (That the negotiator calls its
callback at most once and only after `Start` is assumed here.) -/
theorem C62_once {cfg : Cfg} {s : State} (hr : Reachable cfg s) : s.connects ≤ 1 ∧ (0 < s.connects → 0 < s.kxCount) := by
  have hp := (inv_reachable hr).1
  have h1 := hp.connects
  have h2 := hp.count
  grind

example : (at' (serving ++ [.kxSuccess, .kxSuccess])).connects = 1 ∧ (at' (serving ++ [.kxSuccess, .kxSuccess])).kxCount = 3 := by
  decide +kernel

/-! ### C66 -/

/-- C66 for polite callers (backends with deadlines, see `Polite`): if `SetPause(true)` is only called after the reader
has left the previous pause, and `SetPause(false)` only after `SetPause(true)` returned, then no error is reported and
the session does not close itself. -/
theorem C66_polite_partial {cfg : Cfg} {s : State} (hd : cfg.deadlines = true) (hr : ReachablePolite cfg s) :
    s.errors = 0 ∧ s.st ≠ .closing ∧ s.st ≠ .closed := by
  have h := (polite_inv hd hr).2
  exact ⟨h.errors, h.live.1, h.live.2.1⟩

theorem politeRun {cfg : Cfg} : ∀ (as : List Act) {s : State}, ReachablePolite cfg s →
    (∀ (n : Nat) (h : n < as.length) s', runActs cfg s (as.take n) = .ok s' → Polite s' as[n]) →
    ∀ s', runActs cfg s as = .ok s' → ReachablePolite cfg s' := by
  intro as
  induction as with
  | nil => intro s hr _ s' h; simp only [runActs, Outcome.ok.injEq] at h; subst h; exact hr
  | cons a as ih =>
    intro s hr hp s' h
    simp only [runActs] at h
    split at h <;> try (simp at h; done)
    rename_i s1 h1
    refine ih (.step a hr (hp 0 (by simp) s (by simp [runActs])) h1) (fun n hn s2 h2 => ?_) s' h
    have := hp (n + 1) (by simp; omega) s2 (by simp only [List.take_succ_cons, runActs, h1]; exact h2)
    simpa using this

/-- Two rounds of pausing and resuming, politely. -/
def politeActs : List Act := serving ++ pausing ++ [.pauser 0, .unpause, rd, rd] ++ pausing ++ [.pauser 0, .unpause, rd, rd]

instance (s : State) : (a : Act) → Decidable (Polite s a)
  | .pause => inferInstanceAs (Decidable (_ ∧ _))
  | .unpause => inferInstanceAs (Decidable (s.pausers = []))
  | .close => inferInstanceAs (Decidable False)
  | .cancel => inferInstanceAs (Decidable False)
  | .reader fresh stop _ => inferInstanceAs (Decidable (fresh = .data ∧ stop = false))
  | .startCall => inferInstanceAs (Decidable True)
  | .startNext => inferInstanceAs (Decidable True)
  | .flush => inferInstanceAs (Decidable True)
  | .cancelFunc => inferInstanceAs (Decidable True)
  | .timer => inferInstanceAs (Decidable True)
  | .kxSuccess => inferInstanceAs (Decidable True)
  | .negotiate => inferInstanceAs (Decidable True)
  | .negStart => inferInstanceAs (Decidable True)
  | .connect => inferInstanceAs (Decidable True)
  | .pauser _ => inferInstanceAs (Decidable True)
  | .closer _ => inferInstanceAs (Decidable True)

example : ReachablePolite net (at' politeActs) ∧ (at' politeActs).reader = .reading ∧ (at' politeActs).requested = 2 ∧
    (at' politeActs).pauseRets = [⟨true, true, false⟩, ⟨false, true, false⟩, ⟨true, true, false⟩, ⟨false, true, false⟩] := by
  refine ⟨politeRun politeActs .init (fun n hn s' hs => ?_) _ (okState_eq (by decide +kernel)), by decide +kernel⟩
  have h : ∀ n (h : n < politeActs.length), Polite (okState (runActs net State.init (politeActs.take n))) politeActs[n] := by
    decide +kernel
  have := h n hn
  rw [hs] at this
  exact this

/-- Negation of C66: `SetPause` calls alone make a session report an error and close itself.  The backend gives no
error, and nobody calls `Close`.  The reader resets the deadline of the second pause between the two steps of the
interrupt, so that the deadline stays in the past and is taken for a real time-out. -/
theorem C66_violated : ∃ as s, (∀ a ∈ as, a ≠ .close ∧ a ≠ .cancel ∧ ∀ f b h, a = .reader f b h → f = .data ∧ b = false) ∧
    runActs net State.init as = .ok s ∧ s.errors = 1 ∧ s.st = .closing := by
  have h : isOk (runActs net State.init (serving ++ pausing ++ [.pauser 0, .unpause, .pause, .pauser 0, .pauser 0, rd,
    .pauser 0, .unpause, rd, rd, rd, rd, rd, rd])) = true := by decide +kernel
  refine ⟨_, _, ?_, okState_eq h, by decide +kernel, by decide +kernel⟩
  intro a ha
  have hall : ∀ a ∈ (serving ++ pausing ++ [.pauser 0, .unpause, .pause, .pauser 0, .pauser 0, rd,
    .pauser 0, .unpause, rd, rd, rd, rd, rd, rd] : List Act), a ≠ .close ∧ a ≠ .cancel ∧
      ((match a with | .reader f b _ => decide (f = .data ∧ b = false) | _ => true) = true) := by decide +kernel
  refine ⟨(hall a ha).1, (hall a ha).2.1, fun f b hh e => ?_⟩
  have := (hall a ha).2.2
  rw [e] at this
  simpa using this

/-! ### C67 -/

/-- Negation of C67: after `Close` on a paused session the session stays Closing for ever, and the reader never ends, so
`CloseAndWait` does not return. -/
theorem C67_violated : ∃ s s1, Reachable net s ∧ s.st = .paused ∧ s.pauseRets = [⟨true, true, false⟩] ∧ s.pausers = [] ∧
    step net s .close = .ok s1 ∧ ∀ as s', runActs net s1 as = .ok s' → s'.st = .closing ∧ s'.reader = .waiting := by
  have h : isOk (runActs net State.init (serving ++ pausing ++ [rd, .pauser 0])) = true := by decide +kernel
  refine ⟨_, closeSess (at' (serving ++ pausing ++ [rd, .pauser 0])), reachable_run h, by decide +kernel,
    by decide +kernel, by decide +kernel, rfl, ?_⟩
  have key : ∀ (as : List Act) (s s' : State), s.reader = .waiting → s.pauseWait = true → s.st = .closing →
      s.start = .over → runActs net s as = .ok s' → s'.st = .closing ∧ s'.reader = .waiting := by
    intro as
    induction as with
    | nil => intro s s' h1 _ h2 _ hs; simp only [runActs, Outcome.ok.injEq] at hs; subst hs; exact ⟨h2, h1⟩
    | cons a as ih =>
      intro s s' h1 h2 h3 h5 hs
      simp only [runActs] at hs
      split at hs <;> try (simp at hs; done)
      rename_i s1 hs1
      have : s1.reader = .waiting ∧ s1.pauseWait = true ∧ s1.st = .closing ∧ s1.start = .over := by
        clear ih hs
        cases a <;> simp only [step, readerStep, closerStep, pauserStep, startStep, setState, closeSess,
            resetReadDeadline, setDeadline, badStates, List.mem_cons, List.not_mem_nil, or_false] at hs1 <;>
          (repeat' split at hs1) <;> (try (simp at hs1; done)) <;>
          simp only [Outcome.ok.injEq] at hs1 <;> subst hs1 <;> grind
      exact ih s1 s' this.1 this.2.1 this.2.2.1 this.2.2.2 hs
  intro as s' hs
  exact key as _ s' (by decide +kernel) (by decide +kernel) (by decide +kernel) (by decide +kernel) hs

/-! ### C68 -/

theorem ending_run {cfg : Cfg} (hd : cfg.deadlines = true) : ∀ (as : List Act) {s s' : State}, Reachable cfg s → Ending s →
    runActs cfg s as = .ok s' → Ending s' ∧ closeMeasure s' + (as.filter ownClose).length ≤ closeMeasure s := by
  intro as
  induction as with
  | nil =>
    intro s s' _ hp hs
    simp only [runActs, Outcome.ok.injEq] at hs; subst hs
    exact ⟨hp, by simp⟩
  | cons a as ih =>
    intro s s' hr hp hs
    simp only [runActs] at hs
    split at hs <;> try (simp at hs; done)
    rename_i s1 h1
    have hst := ending_step hd (inv_reachable hr).2.1 hp h1
    have h2 := ih (.step a hr h1) hst.1 hs
    refine ⟨h2.1, ?_⟩
    have := hst.2
    by_cases ho : ownClose a = true
    · simp only [ho, if_true] at this
      rw [List.filter_cons_of_pos ho]
      simp only [List.length_cons]
      omega
    · simp only [ho] at this
      rw [List.filter_cons_of_neg ho]
      simp at this
      omega

/-- C68 and C67 with an exception for three instants of the reader: if a started session begins to close (by `Close` or
by itself) when the reader is not between its check of the state and `setIsReading(true)` (`entered`), nor in the middle
of `waitForUnpause`, nor detached by a pause, then, whatever calls are made, the session ends: as long as it is not
closed with all its goroutines ended, one of its own steps is possible without the peer, and there can be only finitely
many of them (`closeMeasure` bounds their number). -/
theorem C68_closes_partial {cfg : Cfg} {s s1 s2 : State} {a : Act} {as : List Act} (hd : cfg.deadlines = true)
    (hr : Reachable cfg s) (hs : step cfg s a = .ok s1) (h1 : s.st ≠ .closing ∧ s.st ≠ .closed) (h2 : s1.st = .closing)
    (h3 : s.start = .over) (h4 : s.kx = true)
    (h5 : s.reader ≠ .entered ∧ s.reader ≠ .noticing ∧ s.reader ≠ .resetting) (h6 : s.reader = .waiting → s.st ≠ .paused)
    (hrun : runActs cfg s1 as = .ok s2) :
    (as.filter ownClose).length ≤ closeMeasure s1 ∧
    ((s2.st = .closed ∧ s2.reader = .ended ∧ s2.closer = .over) ∨
      ∃ b, ownClose b = true ∧ Unaided s2 b ∧ ∃ s3, step cfg s2 b = .ok s3) := by
  have hinv := inv_reachable hr
  have he := ending_start hinv.2.1 hinv.2.2 hs h1 h2 h3 h4 h5 h6
  have hr1 : Reachable cfg s1 := .step a hr hs
  have hrun' := ending_run hd as hr1 he hrun
  have hinv2 := inv_reachable (runActs_reachable as hr1 hrun)
  exact ⟨by omega, ending_enabled hinv2.2.1 hrun'.1⟩

example : ∃ s1, step net (at' serving) .close = .ok s1 ∧ s1.st = .closing ∧ (at' serving).start = .over ∧
    (at' serving).kx = true ∧ (at' serving).reader = .reading := ⟨_, rfl, by decide +kernel⟩

/-- Nothing can happen without the peer, apart from calls of the API, and the session is not closed. -/
def StuckClosing (s : State) : Prop :=
  s.st = .closing ∧ s.reader = .reading ∧ s.closer = .over ∧ s.expired = false ∧ s.backendClosed = false ∧
    s.flushing = 0 ∧ s.cancelling = 0 ∧ s.pausers = [] ∧ s.start = .over

/-- In such a state the session stays until the peer sends something. -/
theorem stuck_stays {cfg : Cfg} : ∀ (as : List Act) {s s' : State}, StuckClosing s →
    (∀ a ∈ as, ∀ f b h, a ≠ .reader f b h) → runActs cfg s as = .ok s' → StuckClosing s' := by
  intro as
  induction as with
  | nil => intro s s' h _ hs; simp only [runActs, Outcome.ok.injEq] at hs; subst hs; exact h
  | cons a as ih =>
    intro s s' h ha hs
    simp only [runActs] at hs
    split at hs <;> try (simp at hs; done)
    rename_i s1 hs1
    refine ih ?_ (fun b hb => ha b (List.mem_cons_of_mem _ hb)) hs
    have hna := ha a List.mem_cons_self
    obtain ⟨h1, h2, h3, h4, h5, h6, h7, h8, h9⟩ := h
    clear ih hs ha
    unfold StuckClosing
    cases a <;> simp only [step, readerStep, closerStep, pauserStep, startStep, setState, closeSess,
        resetReadDeadline, setDeadline, badStates, List.mem_cons, List.not_mem_nil, or_false] at hs1 <;>
      (repeat' split at hs1) <;> (try (simp at hs1; done)) <;>
      (try (simp only [Outcome.ok.injEq] at hs1; subst hs1)) <;> grind

/-- Negation of C68: the backend closer looks at `isReading` after the reader checked the state but before it
announced that it reads; `Read` is never interrupted. -/
theorem C68_violated : ∃ s, Reachable net s ∧ StuckClosing s := by
  have h : isOk (runActs net State.init (connected ++ [rd, .close, .flush, .cancelFunc, .closer false, .closer false, rd, rd])) = true := by
    decide +kernel
  refine ⟨_, reachable_run h, ?_⟩
  unfold StuckClosing
  decide +kernel

/-- Negation of C68 with a pause that is over: the reader, still leaving the pause, resets the deadline which the
backend closer has just set. -/
theorem C68_violated_pause : ∃ s, Reachable net s ∧ StuckClosing s := by
  have h : isOk (runActs net State.init (serving ++ pausing ++ [.pauser 0, .unpause, .close, .flush, .cancelFunc] ++
    List.replicate 4 (.closer false) ++ [rd, rd])) = true := by decide +kernel
  refine ⟨_, reachable_run h, ?_⟩
  unfold StuckClosing
  decide +kernel

/-! ### C70 -/

/-- C70 for `Start`, `Close` and `SetPause`: once the key exchanger exists, no step crashes. -/
theorem C70_no_crash_partial {cfg : Cfg} {s : State} {a : Act} {e : Crash} (hr : Reachable cfg s) (hk : s.kx = true) :
    step cfg s a ≠ .err e := by
  intro hs
  have hinv := inv_reachable hr
  have p1 := hinv.1.before
  have p4 := hinv.1.state
  have p2 := hinv.2.2.current
  have p3 := hinv.2.2.taken
  clear hinv hr
  cases a <;> simp only [step, readerStep, closerStep, pauserStep, startStep] at hs <;>
    (repeat' split at hs) <;> (try (simp at hs; done)) <;> grind

/-- Negation of C70: `Close` on a session that was not started crashes. -/
theorem C70_violated_new : ∃ s, Reachable net s ∧ s.start = .no ∧ step net s .flush = .err .nilSendInfo ∧
    step net s .timer = .err .nilKeyExchanger :=
  ⟨closeSess State.init, .step .close .init rfl, rfl, rfl, rfl⟩

/-- Negation of C70: `Close` during `Start`, before the key exchanger exists, crashes, even if it is called by the key
exchanger itself (session.go:2099-2101) which could not send. -/
theorem C70_violated_start : ∃ s, Reachable net s ∧ s.start = .state true ∧ s.closes = 1 ∧
    step net s .timer = .err .nilKeyExchanger := by
  have h : isOk (runActs net State.init [.startCall, .startNext, .startNext, .startNext, .close]) = true := by decide +kernel
  exact ⟨_, reachable_run h, by decide +kernel, by decide +kernel, crashOf_eq (by decide +kernel)⟩

example : (at' started).kx = true := by decide +kernel

end Verif.Lifecycle

open Verif.Lifecycle
/-- `Start` after a `Close`: the key exchange is not begun; in every other state than those three it is. -/
example (s : State) (h : s.start = .negotiator) : ∃ s', startStep s = .ok s' ∧
    (s'.start = .state false ↔ s.st = .keyExchanging ∨ s.st = .closing ∨ s.st = .closed) := by
  refine ⟨_, by simp only [startStep, h]; rfl, ?_⟩
  by_cases hs : s.st = .keyExchanging ∨ s.st = .closing ∨ s.st = .closed <;> simp [hs]

#print axioms C27_final
#print axioms C27_final_run
#print axioms C28_phases_partial
#print axioms C28_violated
#print axioms C29_pause
#print axioms C29_unpause
#print axioms C29_proceeds
#print axioms C29_result_partial
#print axioms C29_violated
#print axioms C30_detached
#print axioms C30_returns_partial
#print axioms C30_channel
#print axioms C30_violated
#print axioms C30_violated_sequential
#print axioms C31_once
#print axioms C31_result
#print axioms C62_once
#print axioms C66_polite_partial
#print axioms C66_violated
#print axioms C67_violated
#print axioms C68_closes_partial
#print axioms C68_violated
#print axioms C68_violated_pause
#print axioms C70_no_crash_partial
#print axioms C70_violated_new
#print axioms C70_violated_start
