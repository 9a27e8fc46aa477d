import Verif.Lemmas.CloseReturns
import Verif.Props.CloseFlush
/-!
# C158: `Close` returns immediately

"It will send a signal to close the session, but it will return immediately (without waiting until everything will
finish)" (session.go:2250-2252). `Close` runs `startClosing`, whose loop calls `sendDelayedNow` until that finds nothing
to send (session.go:2240-2245).
-/
namespace Verif.DelayedSend

/-- A `Close` that has not returned can always make a step, whatever the other goroutines do (for example, if the
sender loop hangs in `backend.Write`): it waits for nothing and nobody, and it does not panic. It never writes to the
backend itself. -/
theorem C158_never_waits {cfg : Cfg} {s : State} (hf : cfg.frag = false) (hr : Reachable cfg s) (hc : closing s) :
    (∃ b s', step cfg s (.closerFlush b none) = .ok s') ∧
      ∀ ok o, step cfg s (.closerFlush (.write ok) o) = .block := by
  obtain ⟨f, hc⟩ := hc
  have hd := ((inv_reachable hr).2 hf).1
  have hdone : s.done = true := hd.closerDone (by rw [hc]; simp)
  have hch := hd.closerChecked f (by rw [hc]; simp [Closer.flush?])
  have hok := hd.core.flushOK f (by rw [hc]; simp [Closer.flush?])
  have nope : ∀ {b e}, step cfg s (.closerFlush b none) ≠ .err e := by
    intro b e h
    rcases C72_only_two_partial hf hr h with ⟨_, h1⟩ | ⟨_, ⟨i, h1⟩, _⟩ <;> simp at h1
  cases f with
  | acquired n => exact ⟨⟨.swap, _, by simp only [step, hc, flushStep]; rfl⟩, fun ok o => by simp [step, hc, flushStep]⟩
  | swapped x ms =>
    refine ⟨?_, fun ok o => by simp [step, hc, flushStep]⟩
    by_cases h : ms = []
    · subst h
      exact ⟨.close, _, by simp only [step, hc, flushStep, hok.1, ne_eq, not_true, if_false, Bool.false_eq_true]; rfl⟩
    · exact ⟨.check, _, by simp only [step, hc, flushStep, h, hdone, if_true, if_false]; rfl⟩
  | checked x ms => exact absurd rfl (hch x ms)
  | wrote x ms k =>
    exact ⟨⟨.close, _, by simp only [step, hc, flushStep, hok.1, if_false, Bool.false_eq_true]; rfl⟩,
      fun ok o => by simp [step, hc, flushStep]⟩
  | ended x ms =>
    refine ⟨⟨.release, ?_⟩, fun ok o => by simp [step, hc, flushStep]⟩
    have h1 := @nope .release
    cases h2 : step cfg s (.closerFlush .release none) with
    | ok s' => exact ⟨s', rfl⟩
    | err e => exact absurd h2 h1
    | panic =>
      exfalso
      simp only [step, hc, flushStep] at h2
      have := @release_no_panic s x
      cases hrel : release s x with
      | ok t => rw [hrel] at h2; cases ms <;> simp [begin, acquire] at h2
      | err e => rw [hrel] at h2; simp at h2
      | panic => exact this.1 hrel
      | block => exact this.2 hrel
    | block =>
      exfalso
      simp only [step, hc, flushStep] at h2
      have := @release_no_panic s x
      cases hrel : release s x with
      | ok t => rw [hrel] at h2; cases ms <;> simp [begin, acquire] at h2
      | err e => rw [hrel] at h2; simp at h2
      | panic => exact this.1 hrel
      | block => exact this.2 hrel

theorem run_left {cfg : Cfg} (hf : cfg.frag = false) : ∀ (as : List Act) {s s' : State}, Reachable cfg s →
    (closing s ∨ returned s) → runActs cfg s as = .ok s' →
    s.accepted.length ≤ s'.accepted.length ∧ (closing s' ∨ returned s') ∧
      left s' + ownSteps as ≤ left s + 4 * newMessages s s'
  | [], s, s', _, hc, h => by
    simp only [runActs, Outcome.ok.injEq] at h
    subst h
    exact ⟨Nat.le_refl _, hc, by simp [ownSteps]⟩
  | a :: as, s, s', hr, hc, h => by
    simp only [runActs] at h
    split at h <;> try (simp at h; done)
    rename_i s1 hs
    obtain ⟨h1, h2⟩ := step_left hf hr hc hs
    obtain ⟨h3, h4, h5⟩ := run_left hf as (.step a hr hs) h1 h
    have h6 := (step_later hs).accepted.length_le
    refine ⟨by omega, h4, ?_⟩
    simp only [ownSteps, List.countP_cons, newMessages] at *
    omega

/-- C158 with a limit: `Close` returns after at most 7 steps, and at most 4 more for each message that other goroutines
add after the call. In whatever state it is called, and whatever the others do. Missing for C158: a bound that does not
depend on the messages added, which does not exist (`C158_violated`). -/
theorem C158_bound_partial {cfg : Cfg} {s s1 s' : State} {r : Option Nat} {as : List Act} (hf : cfg.frag = false)
    (hr : Reachable cfg s) (hc : step cfg s (.close r) = .ok s1) (h : runActs cfg s1 as = .ok s') :
    ownSteps as ≤ 7 + 4 * newMessages s1 s' := by
  obtain ⟨-, -, -, -, -, n, hcl⟩ := close_effect hc
  have h1 := (run_left hf as (.step _ hr hc) (.inl ⟨_, hcl⟩) h).2.2
  have : left s1 ≤ 7 := by
    have := waitingBuf_le s1
    simp only [left, hcl]
    omega
  omega

/-- C158 if the others leave the buffer alone: `Close` has returned once it has made 7 steps, and nothing can prevent
it from making them (`C158_never_waits`). -/
theorem C158_alone_partial {cfg : Cfg} {s s1 s' : State} {r : Option Nat} {as : List Act} (hf : cfg.frag = false)
    (hr : Reachable cfg s) (hc : step cfg s (.close r) = .ok s1) (h : runActs cfg s1 as = .ok s')
    (hn : s'.accepted = s1.accepted) (h7 : ownSteps as ≥ 7) : returned s' := by
  obtain ⟨-, -, -, -, -, n, hcl⟩ := close_effect hc
  have h1 := run_left hf as (.step _ hr hc) (.inl ⟨_, hcl⟩) h
  have h2 : left s1 ≤ 7 := by
    have := waitingBuf_le s1
    simp only [left, hcl]
    omega
  have h3 : newMessages s1 s' = 0 := by simp [newMessages, hn]
  rcases h1.2.1 with ⟨f, hc2⟩ | h4
  · exfalso
    have h5 : left s' = 0 := by omega
    simp only [left, hc2] at h5
    cases f <;> simp only at h5 <;> repeat' split at h5
    all_goals omega
  · exact h4

/-- The sender loop hangs in `backend.Write` while a message waits: `Close` returns all the same. -/
def hangs : List Act :=
  connected ++ [.write exMsg none, .timer none, .mainFlush .swap none, .mainFlush .check none, .write [4] none]

def closeAlone : List Act :=
  [.closerFlush .swap none, .closerFlush .check none, .closerFlush .close none, .closerFlush .release none,
    .closerFlush .swap none, .closerFlush .close none, .closerFlush .release none]

example : (okState exCfg hangs).main = .flush none (.checked 1 [exMsg]) := by decide +kernel

example : isOk (runActs exCfg State.init (hangs ++ [.close none])) = true ∧
    (okState exCfg (hangs ++ [.close none])).closer = .flush (.acquired 3) ∧
    isOk (runActs exCfg State.init (hangs ++ [.close none] ++ closeAlone)) = true ∧ ownSteps closeAlone = 7 ∧
    (okState exCfg (hangs ++ [.close none] ++ closeAlone)).closer = .over ∧
    (okState exCfg (hangs ++ [.close none] ++ closeAlone)).accepted =
      (okState exCfg (hangs ++ [.close none])).accepted ∧
    (okState exCfg (hangs ++ [.close none] ++ closeAlone)).main = .flush none (.checked 1 [exMsg]) := by
  decide +kernel

/-- One round: a writer adds a message, and `Close` finds it. -/
def closeRound : List Act :=
  [.write exMsg none, .closerFlush .swap none, .closerFlush .check none, .closerFlush .close none,
    .closerFlush .release none]

/-- A state in which `Close` is about to look whether there is something to send. -/
structure Looking (s : State) : Prop where
  reach : Reachable exCfg s
  buf : s.buf = []
  main : s.main = .idle
  ctx : s.ctx = false
  closer : ∃ n, s.closer = .flush (.acquired n)

theorem round_loops {s : State} (h : Looking s) :
    ∃ s', runActs exCfg s closeRound = .ok s' ∧ Looking s' ∧ s'.accepted.length = s.accepted.length + 1 := by
  obtain ⟨n, hc⟩ := h.closer
  -- the message is accepted
  have hw : ∃ s1, step exCfg s (.write exMsg none) = .ok s1 ∧ s1.buf = [exMsg] ∧ s1.main = .idle ∧ s1.ctx = false ∧
      s1.closer = .flush (.acquired n) ∧ s1.accepted.length = s.accepted.length + 1 := by
    have he : ∀ e, step exCfg s (.write exMsg none) ≠ .err e := by
      intro e he
      rcases C72_only_two_partial rfl h.reach he with ⟨_, h1⟩ | ⟨_, ⟨i, h1⟩, _⟩ <;> simp at h1
    have hb : ¬ (44 + bufSize s.buf + exMsg.length > exCfg.limit) := by rw [h.buf]; decide
    have hm : s.main ≠ .before := by rw [h.main]; simp
    simp only [step, tryAppend, hm, if_false, hb] at he ⊢
    by_cases h1 : (s.infos s.cur).refs + 1 = 1
    · simp [h1] at he
    · simp only [h1, if_false, Outcome.ok.injEq]
      exact ⟨_, rfl, by simp [h.buf], h.main, h.ctx, hc, by simp⟩
  obtain ⟨s1, hs1, hb1, hm1, hx1, hc1, ha1⟩ := hw
  have hr1 : Reachable exCfg s1 := .step _ h.reach hs1
  have hd1 := ((inv_reachable hr1).2 rfl).1.closerDone (by rw [hc1]; simp)
  -- swap
  have hs2 : ∃ s2, step exCfg s1 (.closerFlush .swap none) = .ok s2 ∧ s2.buf = [] ∧ s2.main = .idle ∧ s2.ctx = false ∧
      s2.done = true ∧ s2.closer = .flush (.swapped s1.cur [exMsg]) ∧ s2.accepted = s1.accepted := by
    simp only [step, hc1, flushStep, hb1, Outcome.ok.injEq]
    exact ⟨_, rfl, rfl, hm1, hx1, hd1, rfl, rfl⟩
  obtain ⟨s2, hs2, hb2, hm2, hx2, hd2, hc2, ha2⟩ := hs2
  have hr2 : Reachable exCfg s2 := .step _ hr1 hs2
  -- check
  have hs3 : ∃ s3, step exCfg s2 (.closerFlush .check none) = .ok s3 ∧ s3.buf = [] ∧ s3.main = .idle ∧ s3.ctx = false ∧
      s3.closer = .flush (.wrote s1.cur [exMsg] false) ∧ s3.accepted = s2.accepted := by
    simp only [step, hc2, flushStep, hd2, if_true, List.cons_ne_self, reduceCtorEq, if_false, Outcome.ok.injEq]
    exact ⟨_, rfl, hb2, hm2, hx2, rfl, rfl⟩
  obtain ⟨s3, hs3, hb3, hm3, hx3, hc3, ha3⟩ := hs3
  have hr3 : Reachable exCfg s3 := .step _ hr2 hs3
  have hok := ((inv_reachable hr3).2 rfl).1.core.flushOK (.wrote s1.cur [exMsg] false) (by rw [hc3]; simp [Closer.flush?])
  -- close of the channel
  have hs4 : ∃ s4, step exCfg s3 (.closerFlush .close none) = .ok s4 ∧ s4.buf = [] ∧ s4.main = .idle ∧ s4.ctx = false ∧
      s4.closer = .flush (.ended s1.cur [exMsg]) ∧ s4.accepted = s3.accepted := by
    simp only [step, hc3, flushStep, hok.1, Bool.false_eq_true, if_false, Outcome.ok.injEq]
    exact ⟨_, rfl, hb3, hm3, hx3, rfl, rfl⟩
  obtain ⟨s4, hs4, hb4, hm4, hx4, hc4, ha4⟩ := hs4
  have hr4 : Reachable exCfg s4 := .step _ hr3 hs4
  -- release, and the next round begins
  have hs5 : ∃ s5, step exCfg s4 (.closerFlush .release none) = .ok s5 ∧ s5.buf = [] ∧ s5.main = .idle ∧ s5.ctx = false ∧
      (∃ k, s5.closer = .flush (.acquired k)) ∧ s5.accepted = s4.accepted := by
    obtain ⟨⟨b, s5, h5⟩, -⟩ := C158_never_waits (cfg := exCfg) rfl hr4 ⟨_, hc4⟩
    have hb : b = .release := by
      cases b <;> simp [step, hc4, flushStep] at h5 ⊢
    subst hb
    refine ⟨s5, h5, ?_⟩
    simp only [step, hc4, flushStep] at h5
    cases hrel : release s4 s1.cur with
    | ok t =>
      have e := release_alike hrel
      have e2 := release_still hrel
      rw [hrel] at h5
      simp only [List.isEmpty_cons, begin, acquire, Outcome.ok.injEq] at h5
      subst h5
      refine ⟨e.buf.trans hb4, e.main.trans hm4, e.ctx.trans hx4, ⟨_, rfl⟩, ?_⟩
      obtain ⟨l, hl⟩ := e2.accepted
      simp only [release] at hrel
      repeat' split at hrel
      all_goals try (simp at hrel; done)
      all_goals (simp only [Outcome.ok.injEq] at hrel; subst hrel; rfl)
    | err e => rw [hrel] at h5; simp at h5
    | panic => rw [hrel] at h5; simp at h5
    | block => rw [hrel] at h5; simp at h5
  obtain ⟨s5, hs5, hb5, hm5, hx5, hc5, ha5⟩ := hs5
  refine ⟨s5, ?_, ⟨.step _ hr4 hs5, hb5, hm5, hx5, hc5⟩, by rw [ha5, ha4, ha3, ha2, ha1]⟩
  simp only [closeRound, runActs, hs1, hs2, hs3, hs4, hs5]

/-- `n` rounds. -/
def closeRounds : Nat → List Act
  | 0 => []
  | n + 1 => closeRound ++ closeRounds n

theorem runActs_app {cfg : Cfg} : ∀ (as bs : List Act) {s s1 : State}, runActs cfg s as = .ok s1 →
    runActs cfg s (as ++ bs) = runActs cfg s1 bs
  | [], bs, s, s1, h => by simp only [runActs, Outcome.ok.injEq] at h; subst h; rfl
  | a :: as, bs, s, s1, h => by
    simp only [runActs, List.cons_append] at h ⊢
    split at h <;> try (simp at h; done)
    rename_i hs
    exact runActs_app as bs h

/-- C158 is violated: the loop of `startClosing` goes on as long as other goroutines write. `Close` is called on a
session with nothing to send, and for every `n` there is an execution in which it has made at least `n` steps and has not
returned. All messages were accepted after the call and none is sent. -/
theorem C158_violated : ∃ s1, step exCfg (okState exCfg connected) (.close none) = .ok s1 ∧ s1.buf = [] ∧
    ∀ n, ∃ as s', runActs exCfg s1 as = .ok s' ∧ ownSteps as ≥ n ∧ closing s' ∧ s'.ctx = false ∧ s'.wire = [] ∧
      s'.accepted.length = n := by
  have hstep : step exCfg (okState exCfg connected) (.close none) = .ok (okState exCfg (connected ++ [.close none])) := by
    have h1 : runActs exCfg State.init (connected ++ [.close none]) = .ok (okState exCfg (connected ++ [.close none])) :=
      okState_eq (by decide +kernel)
    have h2 := runActs_app connected [.close none] (okState_eq (cfg := exCfg) (as := connected) (by decide +kernel))
    rw [h2] at h1
    simp only [runActs] at h1
    split at h1 <;> first | assumption | (simp only [Outcome.ok.injEq] at h1; subst h1; assumption) | simp at h1
  refine ⟨_, hstep, by decide +kernel, ?_⟩
  have h0 : Looking (okState exCfg (connected ++ [.close none])) :=
    ⟨runActs_reachable (okState_eq (by decide +kernel)), by decide +kernel, by decide +kernel, by decide +kernel,
      ⟨2, by decide +kernel⟩⟩
  have hrun : ∀ n {s}, Looking s → ∃ s', runActs exCfg s (closeRounds n) = .ok s' ∧ Looking s' ∧
      s'.accepted.length = s.accepted.length + n := by
    intro n
    induction n with
    | zero => exact fun h => ⟨_, rfl, h, rfl⟩
    | succ n ih =>
      intro s h
      obtain ⟨s1, h1, h2, h3⟩ := round_loops h
      obtain ⟨s2, h4, h5, h6⟩ := ih h2
      exact ⟨s2, by rw [closeRounds, runActs_app _ _ h1]; exact h4, h5, by omega⟩
  intro n
  obtain ⟨s', h1, h2, h3⟩ := hrun n h0
  have hown : ∀ n, ownSteps (closeRounds n) = 4 * n := by
    intro n
    induction n with
    | zero => rfl
    | succ n ih =>
      simp only [ownSteps, closeRounds, List.countP_append] at ih ⊢
      rw [ih]
      have : List.countP own closeRound = 4 := by decide
      omega
  obtain ⟨k, hk⟩ := h2.closer
  refine ⟨_, s', h1, by rw [hown]; omega, ⟨_, hk⟩, h2.ctx, ?_, ?_⟩
  · have hn : ∀ x ms, (okState exCfg connected).main.flush? ≠ [.checked x ms] := by
      have : (okState exCfg connected).main.flush? = [] := by decide +kernel
      rw [this]; simp
    rw [C128_violated_all hn hstep (runActs_later _ h1)]
    decide +kernel
  · rw [h3]
    have : (okState exCfg (connected ++ [.close none])).accepted = [] := by decide +kernel
    rw [this]; simp

#print axioms C158_never_waits
#print axioms C158_bound_partial
#print axioms C158_alone_partial
#print axioms C158_violated

end Verif.DelayedSend
