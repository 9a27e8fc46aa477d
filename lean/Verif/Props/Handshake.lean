import Verif.Lemmas.Handshake
/-!
# The first key exchange: C96, C97
-/
namespace Verif.Handshake

/-! ## C96 -/

/-- If all that can happen are ticks, both loops are at their tickers or have given up. -/
theorem idle_of_onlyTicks {mode : Nat} {s : Sys} (h : OnlyTicks mode s) (x : Bool) : (s.side x).main = .idle ∨ GivenUp s x := by
  cases hc : (s.side x).closed with
  | true => exact .inr hc
  | false =>
    refine .inl ?_
    cases hm : (s.side x).main with
    | idle => rfl
    | start =>
      have := h (.loop x false 0) _ (by simp only [step, Sys.stopped, Act.actor, hc, stepOpen, loopStep, hm]; rfl)
      cases this
    | gen =>
      have := h (.loop x false 0) _ (by simp only [step, Sys.stopped, Act.actor, hc, stepOpen, loopStep, hm]; rfl)
      cases this
    | send =>
      have := h (.loop x false 0) _ (by simp only [step, Sys.stopped, Act.actor, hc, stepOpen, loopStep, hm]; rfl)
      cases this
    | waiting =>
      have := h (.retry x) _ (by simp only [step, Sys.stopped, Act.actor, hc, stepOpen, hm]; rfl)
      cases this

/-- C96 (restriction that holds): in every execution of both sides, with losses or not: a side that has neither finished nor given up,
and has not skipped its first update, has something to do before the next `KeyUpdateInterval` ends; and in the modes "answer" and
"disable" this holds for all sides.
Missing for the full C96: in the default mode the loop skips the update if an answering goroutine is faster, see `C96_violated`. -/
theorem C96_partial {mode : Nat} {s : Sys} (h : Reachable mode s) (hq : OnlyTicks mode s) (x : Bool)
    (hx : mode ≠ 1 ∨ (s.side x).skipped = false) : Finished s x ∨ GivenUp s x := by
  have g := good h x
  rcases idle_of_onlyTicks hq x with hm | hc
  · rcases g.ticker hm with h1 | h1 | h1
    · exact .inl h1
    · exact .inr h1
    · rcases hx with hx | hx
      · exact .inl (g.byAnswer hx (.inl (g.skips h1)))
      · simp [hx] at h1
  · exact .inr hc

/-- Both sides are started.  The message of side a arrives at side b before the loop of b runs; b answers, a is done; the loop of b sees
that a key has been made, and waits for its ticker. -/
def lateLoop : List Act :=
  [.loop false true 1, .loop false true 1, .loop false true 1, .recv true 0, .answer true 0 2, .answer true 0 2, .answer true 0 2,
    .answer true 0 2, .answer true 0 2, .recv false 0, .done false, .loop true true 3]

/-- The state that this leads to. -/
def stuck : Sys :=
  ⟨⟨1, 1, true, .idle, 1, none, [], false, false, 1, false⟩, ⟨0, 2, true, .idle, 0, none, [], true, true, 0, false⟩, [], []⟩

theorem lateLoop_stuck : run 1 .init lateLoop = some stuck := by decide +kernel

theorem stuck_onlyTicks : OnlyTicks 1 stuck := by
  intro act s' h
  cases act with
  | tick x => rfl
  | loop x skips now => cases x <;> simp [step, Sys.stopped, Act.actor, stepOpen, loopStep, stuck, Sys.side] at h
  | retry x => cases x <;> simp [step, Sys.stopped, Act.actor, stepOpen, stuck, Sys.side] at h
  | done x => cases x <;> simp [step, Sys.stopped, Act.actor, stepOpen, stuck, Sys.side] at h
  | timeout x => cases x <;> simp [step, Sys.stopped, Act.actor, stepOpen, stuck, Sys.side] at h
  | recv x i => cases x <;> simp [step, Sys.stopped, Act.actor, stepOpen, stuck, Sys.side, Sys.inbox] at h
  | answer x i now => cases x <;> simp [step, Sys.stopped, Act.actor, stepOpen, answerStep, stuck, Sys.side] at h
  | lose x i => cases x <;> simp [step, Sys.stopped, Act.actor, stepOpen, stuck, Sys.inbox] at h

/-- C96 fails in the default mode, although nothing is lost: side a has finished, side b has not and does nothing until the ticker of
`KeyUpdateInterval` (one minute by default). -/
theorem C96_violated : ∃ s : Sys, Path 1 (fun act => !act.isTick && !act.isLoss) .init s ∧ OnlyTicks 1 s ∧
    Finished s false ∧ ¬ Finished s true ∧ ¬ GivenUp s true :=
  ⟨stuck, path_run (by decide) lateLoop_stuck, stuck_onlyTicks, by decide, by decide, by decide⟩

/-- Not vacuous: with the loops in front both sides finish, and then nothing but ticks is left. -/
example : (run 1 .init [.loop false true 1, .loop false true 1, .loop false true 1, .loop true true 1, .loop true true 1, .loop true true 1,
    .recv true 0, .answer true 0 2, .answer true 0 2, .recv false 0, .recv false 0, .answer false 0 2, .answer false 0 2, .recv true 0,
    .done false, .done true]) =
    some ⟨⟨1, 1, true, .idle, 1, none, [], false, false, 1, false⟩, ⟨1, 1, true, .idle, 1, none, [], false, false, 1, false⟩, [], []⟩ := by
  decide +kernel

/-- The side that was stuck finishes after its tick. -/
example : (run 1 stuck [.tick true, .loop true false 9, .loop true false 9, .loop true false 9, .recv false 0, .answer false 0 9,
    .answer false 0 9, .recv true 0]).any (fun s => decide (Finished s true)) = true := by decide +kernel

/-! ## C97 -/

theorem last_get (l : List Answer) (a : Answer) : (l ++ [a])[l.length]? = some a := by simp
theorem last_set (l : List Answer) (a b : Answer) : (l ++ [a]).set l.length b = l ++ [b] := by simp
theorem last_erase (l : List Answer) (a : Answer) : (l ++ [a]).eraseIdx l.length = l := by
  rw [List.eraseIdx_append_of_length_le (Nat.le_refl _)]; simp

/-- What an answer achieves: it is on its way. -/
def Answered (mode : Nat) (s : Sys) (y : Bool) : Prop :=
  ∃ s', Path mode (RoundTrip (!y)) s s' ∧ s'.inbox (!y) = s.inbox (!y) ++ [true] ∧ s'.side (!y) = s.side (!y)

theorem Answered.head {mode : Nat} {s : Sys} {y : Bool} {act : Act} (t : Side) (hp : RoundTrip (!y) act = true)
    (hs : Handshake.step mode s act = some (s.put y t)) (h : Answered mode (s.put y t) y) : Answered mode s y := by
  obtain ⟨s', h1, h2, h3⟩ := h
  refine ⟨s', .head act hp hs h1, by rw [h2, inbox_put], ?_⟩
  rw [h3, side_put, if_neg (by cases y <;> decide)]

theorem answer_send (mode : Nat) (s : Sys) (y : Bool) (hc : (s.side y).closed = false) (l : List Answer)
    (ha : (s.side y).answers = l ++ [.send]) : Answered mode s y := by
  refine ⟨_, .step (.answer y l.length 0) (by cases y <;> rfl) (.refl s)
    (by simp only [step, Sys.stopped, Act.actor, hc, stepOpen, answerStep, ha, last_get]; rfl), ?_, ?_⟩
  · simp [Sys.send]
  · simp

theorem answer_skip (mode : Nat) (s : Sys) (y : Bool) (hc : (s.side y).closed = false) (l : List Answer)
    (ha : (s.side y).answers = l ++ [.skip]) : Answered mode s y := by
  refine .head (act := .answer y l.length 0) _ (by cases y <;> rfl)
    (by simp only [step, Sys.stopped, Act.actor, hc, stepOpen, answerStep, ha, last_get]; rfl) (answer_send _ _ _ ?_ l ?_)
  · simpa using hc
  · simp

theorem answer_make (mode : Nat) (s : Sys) (y : Bool) (hc : (s.side y).closed = false) (l : List Answer)
    (ha : (s.side y).answers = l ++ [.make]) : Answered mode s y := by
  refine .head (act := .answer y l.length 0) _ (by cases y <;> rfl)
    (by simp only [step, Sys.stopped, Act.actor, hc, stepOpen, answerStep, ha, last_get]; rfl) (answer_skip _ _ _ ?_ l ?_)
  · simpa [Side.newKey] using hc
  · simp [Side.newKey]

theorem answer_check (mode : Nat) (s : Sys) (y : Bool) (hc : (s.side y).closed = false) (l : List Answer)
    (ha : (s.side y).answers = l ++ [.check]) : Answered mode s y := by
  refine .head (act := .answer y l.length 0) _ (by cases y <;> rfl)
    (by simp only [step, Sys.stopped, Act.actor, hc, stepOpen, answerStep, ha, last_get]; rfl) ?_
  by_cases h : (s.side y).next > (s.side y).created
  · exact answer_skip _ _ _ (by simpa using hc) l (by simp [h])
  · exact answer_make _ _ _ (by simpa using hc) l (by simp [h])

/-- The answering goroutine at the end of the list sends its answer. -/
theorem answer_start (mode : Nat) (s : Sys) (y : Bool) (hc : (s.side y).closed = false) (l : List Answer)
    (ha : (s.side y).answers = l ++ [.start]) : Answered mode s y := by
  refine .head (act := .answer y l.length 0) _ (by cases y <;> rfl)
    (by simp only [step, Sys.stopped, Act.actor, hc, stepOpen, answerStep, ha, last_get]; rfl) ?_
  by_cases h : (s.side y).hasKey = true
  · exact answer_send _ _ _ (by simpa using hc) l (by simp [h])
  · exact answer_check _ _ _ (by simpa using hc) l (by simp [h])

/-- C97 (restriction that holds): in the modes "answer and wait" and "answer", in every execution, with any losses: a side that has not
finished, has not given up and has not skipped its update is on its way to send its key, and when it waits it finishes by the next message
that it sends again, if this and its answer arrive.
Missing for the full C97: the mode "disable", see `C97_violated`; a loop that skips, see `C96_violated`. -/
theorem C97_partial {mode : Nat} (hmode : mode = 1 ∨ mode = 2) {s : Sys} (h : Reachable mode s) (x : Bool) (hf : ¬ Finished s x)
    (hg : ¬ GivenUp s x) (hk : (s.side x).skipped = false) :
    (s.side x).main ≠ .idle ∧
    ((s.side x).main = .waiting → ¬ GivenUp s (!x) → ∃ s', Path mode (RoundTrip x) s s' ∧ Finished s' x) := by
  have g := good h x
  have hc : (s.side x).closed = false := by simpa [GivenUp] using hg
  have hn : (s.side x).notify = none := Decidable.byContradiction fun e => hf (g.note e)
  refine ⟨fun hm => ?_, fun hm hy => ?_⟩
  · rcases g.ticker hm with h1 | h1 | h1
    · exact hf h1
    · exact hg h1
    · simp [hk] at h1
  have hcy : (s.side (!x)).closed = false := by simpa [GivenUp] using hy
  have hxx : ¬ (!x) = x := by cases x <;> decide
  have htake : (s.side x).take = s.side x := by simp [Side.take, hn]
  -- the message is sent again and arrives
  have hput : s.put x (s.side x) = s := by cases x <;> rfl
  have e1 : step mode s (.retry x) = some (s.send x false) := by
    simp only [step, Sys.stopped, Act.actor, hc, stepOpen, hm, htake, hput]; rfl
  have e2 : step mode (s.send x false) (.recv (!x) (s.inbox (!x)).length) =
      some (((s.send x false).setInbox (!x) (s.inbox (!x))).put (!x) ((s.side (!x)).handle mode false)) := by
    simp [step, Sys.stopped, Act.actor, hcy, stepOpen, Sys.send, List.eraseIdx_append_of_length_le]
  have hh : ((s.side (!x)).handle mode false).closed = false ∧ ((s.side (!x)).handle mode false).answers = (s.side (!x)).answers ++ [.start] := by
    rcases hmode with rfl | rfl <;> simp [Side.handle, hcy]
  obtain ⟨s3, h3, h4, h5⟩ := answer_start mode
    (((s.send x false).setInbox (!x) (s.inbox (!x))).put (!x) ((s.side (!x)).handle mode false)) (!x) (by simpa using hh.1)
    (s.side (!x)).answers (by simpa using hh.2)
  simp only [Bool.not_not] at h3 h4 h5
  refine ⟨(s3.setInbox x ((s3.inbox x).eraseIdx (s3.inbox x).length.pred)).put x ((s3.side x).handle mode true),
    .step (.recv x (s3.inbox x).length.pred) rfl (.head _ (by simp [RoundTrip]) e1 (.head _ rfl e2 h3)) ?_, ?_⟩
  · simp [step, Sys.stopped, Act.actor, stepOpen, h4, h5, hc, hxx]
  · simp [Finished, Side.handle]

/-- The first message to b is lost, that to a arrives. -/
def oneLost : List Act :=
  [.loop false true 1, .loop false true 1, .loop false true 1, .loop true true 1, .loop true true 1, .loop true true 1,
    .lose true 0, .recv false 0, .done false]

/-- The state that this leads to. -/
def lone : Sys :=
  ⟨⟨1, 1, true, .idle, 1, none, [], false, false, 1, false⟩, ⟨0, 1, true, .waiting, 1, none, [], false, false, 0, false⟩, [], []⟩

/-- Side a is at its ticker, and nothing is on its way to b, which has not finished. -/
structure Alone (s : Sys) : Prop where
  main : (s.side false).main = .idle
  answers : (s.side false).answers = []
  inbox : s.inbox true = []
  unfinished : (s.side true).successes = 0

@[simp] theorem take_successes (t : Side) : t.take.successes = t.successes := by
  unfold Side.take; split <;> rfl

theorem alone_step {s s' : Sys} {act : Act} (h : Alone s) (ha : (act != .tick false) = true) (hs : step 3 s act = some s') : Alone s' := by
  obtain ⟨h1, h2, h3, h4⟩ := h
  unfold step at hs
  split at hs
  · cases hs
  cases act with
  | loop x skips now =>
    cases x
    · simp [stepOpen, loopStep, h1] at hs
    · simp only [stepOpen, loopStep] at hs
      split at hs <;> cases hs
      · constructor <;> split <;> simpa
      · constructor <;> simp only [Side.updateLocalKey, Side.newKey] <;> split <;> simpa
      · constructor <;> simp [Sys.send, *]
  | retry x =>
    cases x
    · simp [stepOpen, h1] at hs
    · simp only [stepOpen] at hs
      split at hs <;> cases hs
      constructor <;> split <;> simp [Sys.send, *]
  | done x =>
    cases x
    · simp [stepOpen, h1] at hs
    · simp only [stepOpen] at hs
      split at hs <;> cases hs
      constructor <;> simp [*]
  | timeout x =>
    cases x
    · simp [stepOpen, h1] at hs
    · simp only [stepOpen] at hs
      split at hs <;> cases hs
      constructor <;> split <;> simp [*]
  | tick x =>
    cases x
    · exact absurd ha (by decide)
    · simp only [stepOpen] at hs
      split at hs <;> cases hs
      constructor <;> simp [*]
  | recv x i =>
    cases x
    · simp only [stepOpen] at hs
      split at hs <;> cases hs
      constructor <;> simp [Side.handle, *]
    · simp [stepOpen, h3] at hs
  | answer x i now =>
    cases x
    · simp [stepOpen, answerStep, h2] at hs
    · simp only [stepOpen, answerStep] at hs
      split at hs <;> cases hs <;> constructor <;> simp [Side.newKey, Sys.send, *]
  | lose x i =>
    cases x
    · simp only [stepOpen] at hs
      split at hs <;> cases hs
      constructor <;> simp [*]
    · simp [stepOpen, h3] at hs

/-- C97 fails in the mode "disable": one lost message, and the other side does not finish, however often it sends its key again, until
the ticker of `KeyUpdateInterval` of the side that has finished. -/
theorem C97_violated : run 3 .init oneLost = some lone ∧ (lone.side true).main = .waiting ∧ Finished lone false ∧
    ∀ s', Path 3 (fun act => act != .tick false) lone s' → ¬ Finished s' true := by
  refine ⟨by decide +kernel, by decide, by decide, ?_⟩
  intro s' hp
  have H : Alone s' := by
    generalize hs : lone = s0 at hp
    induction hp with
    | refl => subst hs; constructor <;> decide
    | step act ha _ hst ih => exact alone_step ih ha hst
  simp [Finished, H.unfinished]

/-- Not vacuous: a message is lost, and side b waits; it finishes by its next message. -/
example : (run 1 .init [.loop true true 1, .loop true true 1, .loop true true 1, .lose false 0]).any
      (fun s => decide ((s.side true).main = .waiting ∧ ¬ Finished s true ∧ ¬ GivenUp s true ∧ (s.side true).skipped = false)) = true ∧
    (run 1 .init [.loop true true 1, .loop true true 1, .loop true true 1, .lose false 0, .retry true, .recv false 0, .answer false 0 1,
      .answer false 0 1, .answer false 0 1, .answer false 0 1, .answer false 0 1, .recv true 0]).any
      (fun s => decide (Finished s true)) = true := by decide +kernel

#print axioms C96_partial
#print axioms C96_violated
#print axioms C97_partial
#print axioms C97_violated

end Verif.Handshake
