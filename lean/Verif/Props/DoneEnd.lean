import Verif.Lemmas.DelayedStuck
import Verif.Props.DelayedSend
/-!
# C144: the channel of `Done` is closed in the end

"Done returns a channel which should be used to wait until a real sending will be performed" (send_info.go:76-79); the example of
README.md waits with `<-sendInfo.Done()` and reads the error afterwards. So the channel has to be closed in the end, with an error if
the message is not sent.
-/
namespace Verif.DelayedSend

/-- The packets that are being sent now. -/
def sending (s : State) : List Flush := s.main.flush? ++ s.closer.flush?

/-- C144: a message without a result is in the buffer or in a packet that is being sent. -/
theorem C144_where_partial {cfg : Cfg} {s : State} (hf : cfg.frag = false) (hr : Reachable cfg s) {u : User} (hu : u ∈ s.users)
    {k : Nat} (hk : u.idx = some k) (ho : (s.infos u.info).closed = false) :
    ∃ b m, s.accepted[k]? = some (b, m) ∧
      ((u.info = s.cur ∧ m ∈ s.buf) ∨ ∃ f ∈ sending s, u.info ∈ f.pend) := by
  have h := ((inv_reachable hr).2 hf).1.core
  obtain ⟨m, h1, -⟩ := h.users u hu k hk
  refine ⟨_, m, h1, ?_⟩
  rcases h.waits u hu (by rw [hk]; simp) ho with e | hp
  · refine .inl ⟨e, ?_⟩
    rw [h.bufEq, ← h.curBatch, ← e]
    simp only [msgsOf, List.mem_map, List.mem_filter]
    exact ⟨_, ⟨List.mem_of_getElem? h1, by simp⟩, rfl⟩
  · exact .inr hp

/-- The steps of a flush up to the closing of the channel; `ok` is what the backend answers. -/
def Flush.rest (done ok : Bool) : Flush → List FAct
  | .swapped _ [] => [.close]
  | .swapped _ _ => if done then [.check, .close] else [.check, .write ok, .close]
  | .checked _ _ => [.write ok, .close]
  | .wrote _ _ _ => [.close]
  | _ => []

theorem Flush.rest_length (done ok : Bool) (f : Flush) : (f.rest done ok).length ≤ 3 := by
  unfold Flush.rest
  split <;> (try split) <;> simp

/-- C144: a packet that is being sent by the sender loop, or by `onConnect`, gets its result by at most three steps of that thread,
which wait for nothing but the answer of the backend. -/
theorem C144_sent_partial {cfg : Cfg} {s : State} (hf : cfg.frag = false) (hr : Reachable cfg s) {f : Flush} {x : Nat} (ok : Bool)
    (hm : f ∈ s.main.flush?) (hx : x ∈ f.pend) :
    ∃ s' : State, runActs cfg s ((f.rest s.done ok).map (.mainFlush · none)) = .ok s' ∧ (s'.infos x).closed = true := by
  have h := ((inv_reachable hr).2 hf).1.core.flushOK f (List.mem_append_left _ hm)
  cases hmain : s.main <;> simp only [hmain, Main.flush?, List.mem_singleton, List.not_mem_nil] at hm
  all_goals subst hm
  all_goals cases f <;> simp only [Flush.pend, List.mem_singleton, List.not_mem_nil] at hx
  all_goals subst hx
  all_goals simp only [FlushOK] at h
  all_goals try (rename_i msgs; cases msgs)
  all_goals cases hd : s.done
  all_goals simp [runActs, step, flushStep, hmain, Flush.rest, h.1, hd, setResult]

/-- The same for the packets that `Close` sends. -/
theorem C144_closer_partial {cfg : Cfg} {s : State} (hf : cfg.frag = false) (hr : Reachable cfg s) {f : Flush} {x : Nat} (ok : Bool)
    (hm : f ∈ s.closer.flush?) (hx : x ∈ f.pend) :
    ∃ s' : State, runActs cfg s ((f.rest s.done ok).map (.closerFlush · none)) = .ok s' ∧ (s'.infos x).closed = true := by
  have h := ((inv_reachable hr).2 hf).1.core.flushOK f (List.mem_append_right _ hm)
  cases hmain : s.closer <;> simp only [hmain, Closer.flush?, List.mem_singleton, List.not_mem_nil] at hm
  all_goals subst hm
  all_goals cases f <;> simp only [Flush.pend, List.mem_singleton, List.not_mem_nil] at hx
  all_goals subst hx
  all_goals simp only [FlushOK] at h
  all_goals try (rename_i msgs; cases msgs)
  all_goals cases hd : s.done
  all_goals simp [runActs, step, flushStep, hmain, Flush.rest, h.1, hd, setResult]

/-- C144: what is in the buffer gets its result while the sender loop waits for its timer: at most five steps of the loop. -/
theorem C144_buffer_partial {cfg : Cfg} {s : State} (hf : cfg.frag = false) (hr : Reachable cfg s) (ok : Bool)
    (hm : s.main = .idle) :
    ∃ (as : List FAct) (s' : State), as.length ≤ 4 ∧ runActs cfg s (.timer none :: as.map (.mainFlush · none)) = .ok s' ∧
      (s'.infos s.cur).closed = true := by
  have h := ((inv_reachable hr).2 hf).1.core
  have hn : s.cur ≠ s.next := by
    have := (inv_reachable hr).1.ref.held_lt (x := s.cur) (by simp [held])
    omega
  cases hb : s.buf with
  | nil =>
    refine ⟨[.swap, .close], ?_⟩
    simp [runActs, step, begin, acquire, flushStep, hm, hb, h.curOpen, setInfo, hn]
  | cons m l =>
    cases hd : s.done with
    | true =>
      refine ⟨[.swap, .check, .close], ?_⟩
      simp [runActs, step, begin, acquire, flushStep, hm, hb, h.curOpen, setInfo, hn, hd, setResult]
    | false =>
      refine ⟨[.swap, .check, .write ok, .close], ?_⟩
      simp [runActs, step, begin, acquire, flushStep, hm, hb, h.curOpen, setInfo, hn, hd, setResult]

/-! ### The violation -/

theorem acquire_cur {s s' : State} {r n} (hs : acquire s r = .ok (s', n)) : s'.cur = s.cur := by
  unfold acquire at hs
  cases r with
  | none => simp only [Outcome.ok.injEq, Prod.mk.injEq] at hs; obtain ⟨rfl, _⟩ := hs; rfl
  | some k =>
    simp only at hs
    repeat' split at hs
    all_goals try (simp at hs; done)
    simp only [Outcome.ok.injEq, Prod.mk.injEq] at hs; obtain ⟨rfl, _⟩ := hs; rfl

theorem acquireError_cur {s s' : State} {r n} (hs : acquireError s r = .ok (s', n)) : s'.cur = s.cur := by
  unfold acquireError at hs
  split at hs
  · rename_i h1
    have h2 := acquire_cur h1
    simp only [Outcome.ok.injEq, Prod.mk.injEq] at hs; obtain ⟨rfl, _⟩ := hs; exact h2
  · rename_i h; exact absurd hs (by intro e; exact h _ _ e)

theorem release_cur {s s' : State} {x} (hs : release s x = .ok s') : s'.cur = s.cur := by
  unfold release at hs
  simp only at hs
  repeat' split at hs
  all_goals try (simp at hs; done)
  all_goals (simp only [Outcome.ok.injEq] at hs; subst hs; rfl)

theorem giveUp_cur {s s' : State} {i : Nat} {m : Bytes} {r} (hs : giveUp s i m r = .ok s') :
    s'.cur = s.cur ∧ s'.main = s.main ∧ s'.closer = s.closer ∧ s'.done = s.done := by
  unfold giveUp at hs
  split at hs <;> try (simp at hs; done)
  rename_i h1
  have h := acquireError_alike h1
  have h2 := acquireError_cur h1
  simp only [Outcome.ok.injEq] at hs; subst hs
  exact ⟨h2, h.main, h.closer, h.done⟩

theorem tryAppend_cur {cfg : Cfg} {s s' : State} {m : Bytes} {r} (hs : tryAppend cfg s m r = .ok s') : s'.cur = s.cur := by
  unfold tryAppend at hs
  simp only at hs
  repeat' split at hs
  all_goals try (simp at hs; done)
  · rename_i h1
    have h2 := acquireError_cur h1
    simp only [Outcome.ok.injEq] at hs; subst hs; exact h2
  all_goals (simp only [Outcome.ok.injEq] at hs; subst hs; rfl)

/-- After the end nobody takes the buffer any more. -/
theorem over_step {cfg : Cfg} {s s' : State} {a : Act} (ho : Over s) (hs : step cfg s a = .ok s') : Over s' ∧ s'.cur = s.cur := by
  have alike : ∀ {t : State}, t.cur = s.cur → t.main = s.main → t.closer = s.closer → t.done = s.done → Over t ∧ t.cur = s.cur :=
    fun h1 h2 h3 h4 => ⟨⟨h2.trans ho.main, by rw [h3]; exact ho.closer, h4.trans ho.done⟩, h1⟩
  cases a with
  | write m' r => exact ⟨(tryAppend_stays ho hs).1, tryAppend_cur hs⟩
  | retry i r =>
    simp only [step] at hs
    split at hs
    · have ho1 : Over { s with writers := s.writers.eraseIdx i } := ⟨ho.main, ho.closer, ho.done⟩
      have h2 := tryAppend_cur hs
      exact ⟨(tryAppend_stays ho1 hs).1, h2⟩
    · simp at hs
  | refused r =>
    simp only [step] at hs
    repeat' split at hs
    all_goals try (simp at hs; done)
    rename_i h1
    have h := acquireError_alike h1
    have h2 := acquireError_cur h1
    simp only [Outcome.ok.injEq] at hs; subst hs
    exact alike h2 h.main h.closer h.done
  | inc i r =>
    simp only [step] at hs
    split at hs
    · split at hs
      · have h := giveUp_cur hs
        exact alike h.1 h.2.1 h.2.2.1 h.2.2.2
      · simp only [Outcome.ok.injEq] at hs; subst hs; exact alike rfl rfl rfl rfl
    · split at hs
      all_goals simp only [Outcome.ok.injEq] at hs; subst hs; exact alike rfl rfl rfl rfl
    · simp at hs
  | poke i handoff r =>
    simp only [step] at hs
    split at hs
    · rw [if_pos ho.main] at hs
      split at hs
      · have h := giveUp_cur hs
        exact alike h.1 h.2.1 h.2.2.1 h.2.2.2
      · simp only [Outcome.ok.injEq] at hs; subst hs; exact alike rfl rfl rfl rfl
    · simp at hs
  | sendNowChan i =>
    simp only [step, ho.main] at hs
    repeat' split at hs
    all_goals simp_all
  | userRelease i =>
    simp only [step] at hs
    repeat' split at hs
    all_goals try (simp at hs; done)
    have h := release_alike hs
    have h2 := release_cur hs
    exact alike h2 h.main h.closer h.done
  | connect r => simp [step, ho.main] at hs
  | timer r => simp [step, ho.main] at hs
  | handle r => simp [step, ho.main] at hs
  | mainFlush b r => simp [step, ho.main] at hs
  | mainRelease => simp [step, ho.main] at hs
  | mainExit => simp [step, ho.main] at hs
  | close r => simp [step, ho.done] at hs
  | closerFlush b r =>
    simp only [step] at hs
    split at hs
    · rename_i f hf; exact absurd hf (ho.closer f)
    · simp at hs
  | setDone =>
    simp only [step, Outcome.ok.injEq] at hs; subst hs
    exact alike rfl rfl rfl ho.done.symm
  | fragment r =>
    simp only [step] at hs
    repeat' split at hs
    all_goals try (simp at hs; done)
    rename_i h1
    have h := acquire_alike h1
    have h2 := acquire_cur h1
    simp only [Outcome.ok.injEq] at hs; subst hs
    exact alike h2 h.main h.closer h.done
  | _ =>
    simp only [step] at hs
    repeat' split at hs
    all_goals try (simp at hs; done)
    all_goals (simp only [Outcome.ok.injEq] at hs; subst hs; exact alike rfl rfl rfl rfl)

/-- C144 is violated: when the sender loop has ended, and `Close` is not sending, the channel of a message in the buffer is never
closed. -/
theorem C144_violated_all {cfg : Cfg} (hf : cfg.frag = false) {s s' : State} (hr : Reachable cfg s) (hm : s.main = .exited)
    (hc : ∀ f, s.closer ≠ .flush f) (hd : s.done = true) {u : User} (hu : u.info = s.cur) (hl : Later cfg s s') :
    (s'.infos u.info).closed = false := by
  have main : Over s' ∧ s'.cur = s.cur := by
    induction hl with
    | refl => exact ⟨⟨hm, hc, hd⟩, rfl⟩
    | step a _ hs ih =>
      have h := over_step ih.1 hs
      exact ⟨h.1, h.2.trans ih.2⟩
  rw [hu, ← main.2]
  exact ((inv_reachable (later_reachable hl hr)).2 hf).1.core.curOpen

/-- And such a state exists: `WriteMessageAsync` accepts a message after `Close`, and `<-sendInfo.Done()` waits for ever. -/
theorem C144_violated : ∃ (s : State) (u : User), Reachable exCfg s ∧ u ∈ s.users ∧ u.idx = some 0 ∧ s.accepted.map (·.2) = [exMsg] ∧
    s.closer = .over ∧ ∀ s', Later exCfg s s' → (s'.infos u.info).closed = false := by
  have hr : Reachable exCfg (okState exCfg lostRun) := runActs_reachable (okState_eq (by decide +kernel))
  refine ⟨okState exCfg lostRun, ⟨2, some 0, false⟩, ?_⟩
  refine ⟨hr, by decide +kernel, rfl, by decide +kernel, by decide +kernel, fun s' hl => ?_⟩
  have h1 : (okState exCfg lostRun).closer = .over := by decide +kernel
  exact C144_violated_all rfl hr (by decide +kernel) (by rw [h1]; simp) (by decide +kernel) (by decide +kernel) hl

/-! ### Examples -/

/-- A state that meets the hypotheses of `C144_where_partial` and `C144_buffer_partial`. -/
example : let s := okState exCfg (connected ++ [.write exMsg none])
    s.users = [⟨s.cur, some 0, false⟩] ∧ (s.infos s.cur).closed = false ∧ s.main = .idle ∧ s.buf = [exMsg] := by decide +kernel

/-- One for `C144_sent_partial`. -/
example : let s := okState exCfg (connected ++ [.write exMsg none, .timer none, .mainFlush .swap none])
    s.main.flush? = [.swapped 1 [exMsg]] ∧ (s.infos 1).closed = false := by decide +kernel

/-- `sendMessages` may also fail before its last check: the result is an error, and nothing is written. -/
example : let s := okState exCfg (connected ++ [.write exMsg none, .timer none, .mainFlush .swap none, .mainFlush .refuse none,
      .mainFlush .close none])
    s.main.flush? = [.ended 1 [exMsg]] ∧ (s.infos 1).closed = true ∧ (s.infos 1).err = true ∧ s.wire = [] := by decide +kernel

/-- One for `C144_closer_partial`. -/
example : let s := okState exCfg (connected ++ [.write exMsg none, .close none, .closerFlush .swap none])
    s.closer.flush? = [.swapped 1 [exMsg]] ∧ (s.infos 1).closed = false := by decide +kernel

#print axioms C144_where_partial
#print axioms C144_sent_partial
#print axioms C144_closer_partial
#print axioms C144_buffer_partial
#print axioms C144_violated_all
#print axioms C144_violated

end Verif.DelayedSend
