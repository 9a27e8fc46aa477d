import Verif.Lemmas.DelayedStuck
import Verif.Props.DelayedSend
/-!
# C130: a write ends when the session has ended

A write that finds the buffer full waits in `waitForSend` for the sender loop and tries again (session.go:1607-1635). When
the loop has ended, `waitForSend` notices that (session.go:1652-1658) and makes a `SendInfo` with an error, but only as
the value of its own parameter: `writeMessageAsync` never sees it and tries again, for ever.

`GetEstablishedPacketSize` may become smaller when the session is Closed (session.go:588-600), never greater, so a message
that does not fit into `cfg.limit` does not fit then either.
-/
namespace Verif.DelayedSend

/-- C130 is violated: after the end of the sender loop and of `Close`, a call whose message does not fit beside the
messages that are in the buffer never returns, whatever happens. -/
theorem C130_violated_all {cfg : Cfg} {s s' : State} {m : Bytes} (hm : s.main = .exited) (hc : ∀ f, s.closer ≠ .flush f)
    (hd : s.done = true) (hb : s.buf ≠ []) (hbig : 44 + bufSize s.buf + m.length > cfg.limit) (hl : Later cfg s s') :
    (s.writers.map Writer.msg).count m ≤ (s'.writers.map Writer.msg).count m := by
  have main : Over s' ∧ Jammed cfg s' m ∧ (pending s).count m ≤ (pending s').count m := by
    induction hl with
    | refl => exact ⟨⟨hm, hc, hd⟩, ⟨hb, hbig⟩, Nat.le_refl _⟩
    | step a _ hs ih =>
      obtain ⟨h1, h2, h3⟩ := ih
      have h := step_stays h1 h2 hs
      exact ⟨h.over, jammed_mono h2 h.buf, Nat.le_trans h3 h.count⟩
  exact main.2.2

/-- One round of such a call: it is not blocked, and comes back to where it was with one more `SendInfo` allocated. -/
theorem spin_round {cfg : Cfg} {s : State} {m : Bytes} (hm : s.main = .exited) (hb : s.buf ≠ [])
    (hbig : 44 + bufSize s.buf + m.length > cfg.limit) (hw : s.writers = [.retry m]) (hr : 0 < (s.infos s.cur).refs)
    (hn : s.cur < s.next) :
    ∃ s', runActs cfg s [.retry 0 none, .inc 0 none, .poke 0 false none] = .ok s' ∧ s'.main = .exited ∧ s'.buf = s.buf ∧
      s'.writers = [.retry m] ∧ s'.cur = s.cur ∧ 0 < (s'.infos s'.cur).refs ∧ s'.cur < s'.next ∧ s'.next = s.next + 1 ∧
      s'.users = s.users := by
  have hne : (s.infos s.cur).refs + 1 ≠ 1 := by omega
  have h1 : step cfg s (.retry 0 none) = .ok { s with writers := [.full s.cur m] } := by
    simp only [step, hw, List.getElem?_cons_zero, List.eraseIdx_cons_zero, tryAppend, hm, hbig, hb, if_true, if_false,
      reduceCtorEq, List.nil_append]
  have h2 : step cfg { s with writers := [.full s.cur m] } (.inc 0 none) =
      .ok { incRef s s.cur with writers := [.poking s.cur m true] } := by
    simp only [step, List.getElem?_cons_zero, List.eraseIdx_cons_zero, hne, if_false, List.nil_append, incRef]
  refine ⟨{ s with
    infos := setInfo (setInfo (incRef s s.cur).infos s.next ⟨((incRef s s.cur).infos s.next).refs + 1, true, false,
      ((incRef s s.cur).infos s.next).err, s.ids + 1, ((incRef s s.cur).infos s.next).batch⟩) s.next
      ⟨((incRef s s.cur).infos s.next).refs + 1, true, true, true, s.ids + 1, ((incRef s s.cur).infos s.next).batch⟩
    next := s.next + 1, ids := s.ids + 1, writers := [.retry m] }, ?_, hm, rfl, rfl, rfl, ?_, Nat.lt_succ_of_lt hn, rfl, rfl⟩
  · simp only [runActs, h1, h2]
    simp only [step, List.getElem?_cons_zero, List.eraseIdx_cons_zero, if_true, List.nil_append, incRef, hm,
      giveUp, acquireError, acquire]
    simp [setInfo]
  · have e : s.cur ≠ s.next := by omega
    show 0 < (setInfo _ _ _ s.cur).refs
    simp only [setInfo, e, if_false, incRef, if_true]
    omega

/-- Rounds of a call. -/
def rounds : Nat → List Act
  | 0 => []
  | n + 1 => [.retry 0 none, .inc 0 none, .poke 0 false none] ++ rounds n

theorem runActs_append (cfg : Cfg) (as bs : List Act) (s s1 : State) (h : runActs cfg s as = .ok s1) :
    runActs cfg s (as ++ bs) = runActs cfg s1 bs := by
  induction as generalizing s with
  | nil => simp only [runActs, Outcome.ok.injEq] at h; subst h; rfl
  | cons a as ih =>
    simp only [List.cons_append, runActs] at h ⊢
    split at h <;> try (simp at h; done)
    exact ih _ h

/-- C130 is violated by a busy loop: such a call goes round as often as one likes, and every round allocates. -/
theorem C130_violated_busy {cfg : Cfg} {m : Bytes} (n : Nat) : ∀ {s : State}, s.main = .exited → s.buf ≠ [] →
    44 + bufSize s.buf + m.length > cfg.limit → s.writers = [.retry m] → 0 < (s.infos s.cur).refs → s.cur < s.next →
    ∃ s', runActs cfg s (rounds n) = .ok s' ∧ s'.writers = [.retry m] ∧ s'.next = s.next + n ∧ s'.users = s.users := by
  induction n with
  | zero => intro s _ _ _ hw _ _; exact ⟨s, rfl, hw, rfl, rfl⟩
  | succ n ih =>
    intro s hm hb hbig hw hr hn
    obtain ⟨s1, h1, h2, h3, h4, h5, h6, h7, h8, h9⟩ := spin_round hm hb hbig hw hr hn
    obtain ⟨s2, g1, g2, g3, g4⟩ := ih h2 (by rw [h3]; exact hb) (by rw [h3]; exact hbig) h4 h6 h7
    refine ⟨s2, ?_, g2, by omega, by rw [g4, h9]⟩
    rw [rounds, runActs_append _ _ _ _ _ h1]; exact g1

/-- Three messages; only one fits into a packet at a time. -/
def tightCfg : Cfg := ⟨60, false⟩
def tightA : Bytes := [1, 0, 0, 0, 1, 0, 0, 0, 1, 65]
def tightB : Bytes := [1, 0, 0, 0, 1, 0, 0, 0, 1, 66]
def tightC : Bytes := [1, 0, 0, 0, 1, 0, 0, 0, 1, 67]

/-- The first is accepted, the other two calls wait for room; then `Close` is called, throws the first away and ends, and
the sender loop ends; the second call gets the room. -/
def closeJam : List Act :=
  connected ++ [.write tightA none, .write tightB none, .write tightC none, .close none, .closerFlush .swap none,
    .closerFlush .check none, .closerFlush .close none, .closerFlush .release none, .closerFlush .swap none,
    .closerFlush .close none, .closerFlush .release none, .mainExit,
    .inc 0 none, .poke 1 false none, .retry 1 none, .inc 0 none, .poke 0 false none]

/-- C130 is violated: three calls were made while the session was established, nobody calls anything after `Close`, and
the third call never returns. -/
theorem C130_violated : ∃ s, Reachable tightCfg s ∧ s.closer = .over ∧ s.ctx = true ∧ s.buf = [tightB] ∧
    s.writers = [.retry tightC] ∧ (∀ s', Later tightCfg s s' → tightC ∈ s'.writers.map Writer.msg) ∧
    ∀ n, ∃ s', runActs tightCfg s (rounds n) = .ok s' ∧ s'.writers = [.retry tightC] ∧ s'.next = s.next + n := by
  have e1 : (okState tightCfg closeJam).main = .exited := by decide +kernel
  have e2 : (okState tightCfg closeJam).buf = [tightB] := by decide +kernel
  have e3 : (okState tightCfg closeJam).writers = [.retry tightC] := by decide +kernel
  have e4 : (okState tightCfg closeJam).closer = .over := by decide +kernel
  have hb : (okState tightCfg closeJam).buf ≠ [] := by rw [e2]; simp
  have hbig : 44 + bufSize (okState tightCfg closeJam).buf + tightC.length > tightCfg.limit := by rw [e2]; decide
  refine ⟨okState tightCfg closeJam, runActs_reachable (okState_eq (by decide +kernel)), e4, by decide +kernel, e2, e3, ?_, ?_⟩
  · intro s' hl
    have h := C130_violated_all e1 (by rw [e4]; simp) (by decide +kernel) hb hbig hl
    rw [e3] at h
    have h2 : List.count tightC (List.map Writer.msg [Writer.retry tightC]) = 1 := by decide
    rw [h2] at h
    exact List.count_pos_iff.1 h
  · intro n
    obtain ⟨s', h1, h2, h3, -⟩ := C130_violated_busy n e1 hb hbig e3 (by decide +kernel) (by decide +kernel)
    exact ⟨s', h1, h2, h3⟩

/-- A few steps of one call, others doing nothing: the call at position `i` gets to `w`. -/
structure Goes (cfg : Cfg) (s : State) (i n : Nat) (s1 : State) (w : Writer) : Prop where
  run : ∃ as : List Act, as.length ≤ n ∧ runActs cfg s as = .ok s1
  writers : s1.writers = s.writers.eraseIdx i ++ [w]
  buf : s1.buf = s.buf
  main : s1.main = s.main
  ctx : s1.ctx = s.ctx
  users : s1.users = s.users

theorem Goes.trans {cfg : Cfg} {s s1 s2 : State} {i n k : Nat} {w w' : Writer} (h : Goes cfg s i n s1 w)
    (h' : Goes cfg s1 (s.writers.eraseIdx i).length k s2 w') : Goes cfg s i (n + k) s2 w' := by
  obtain ⟨as, ha, hr⟩ := h.run
  obtain ⟨bs, hb, hr'⟩ := h'.run
  refine ⟨⟨as ++ bs, by rw [List.length_append]; omega, by rw [runActs_append _ _ _ _ _ hr]; exact hr'⟩, ?_,
    h'.buf.trans h.buf, h'.main.trans h.main, h'.ctx.trans h.ctx, h'.users.trans h.users⟩
  rw [h'.writers, h.writers]
  simp [List.eraseIdx_append_of_length_le]

theorem Goes.last {cfg : Cfg} {s s1 : State} {i n : Nat} {w : Writer} (h : Goes cfg s i n s1 w) :
    s1.writers[(s.writers.eraseIdx i).length]? = some w := by
  rw [h.writers]; simp

theorem Goes.mono {cfg : Cfg} {s s1 : State} {i n k : Nat} {w : Writer} (h : Goes cfg s i n s1 w) (hk : n ≤ k) :
    Goes cfg s i k s1 w := by
  obtain ⟨as, ha, hr⟩ := h.run
  exact ⟨⟨as, by omega, hr⟩, h.writers, h.buf, h.main, h.ctx, h.users⟩

theorem goes_one {cfg : Cfg} {s s1 : State} {i : Nat} {w : Writer} {a : Act} (hs : step cfg s a = .ok s1)
    (h1 : s1.writers = s.writers.eraseIdx i ++ [w]) (h2 : s1.buf = s.buf) (h3 : s1.main = s.main) (h4 : s1.ctx = s.ctx)
    (h5 : s1.users = s.users) : Goes cfg s i 1 s1 w :=
  ⟨⟨[a], Nat.le_refl _, by simp only [runActs, hs]⟩, h1, h2, h3, h4, h5⟩

theorem goes_giveUp {cfg : Cfg} {s t : State} {i : Nat} {m : Bytes} {a : Act}
    (ht : t.writers = s.writers ∧ t.buf = s.buf ∧ t.main = s.main ∧ t.ctx = s.ctx ∧ t.users = s.users)
    (h : step cfg s a = giveUp t i m none) : ∃ s1, Goes cfg s i 1 s1 (.retry m) := by
  obtain ⟨t1, t2, t3, t4, t5⟩ := ht
  have e : ∃ s1, giveUp t i m none = .ok s1 ∧ s1.writers = t.writers.eraseIdx i ++ [.retry m] ∧ s1.buf = t.buf ∧
      s1.main = t.main ∧ s1.ctx = t.ctx ∧ s1.users = t.users := ⟨_, rfl, rfl, rfl, rfl, rfl, rfl⟩
  obtain ⟨s1, e0, e1, e2, e3, e4, e5⟩ := e
  exact ⟨s1, goes_one (h.trans e0) (by rw [e1, t1]) (e2.trans t2) (e3.trans t3) (e4.trans t4) (e5.trans t5)⟩

theorem goes_waiting {cfg : Cfg} {s : State} {i x : Nat} {m : Bytes} (hc : s.ctx = true)
    (hw : s.writers[i]? = some (.waiting x m)) : ∃ s1, Goes cfg s i 1 s1 (.retry m) :=
  ⟨{ s with writers := s.writers.eraseIdx i ++ [.retry m] },
    goes_one (a := .wake i) (by simp only [step, hw, hc, true_or, if_true]) rfl rfl rfl rfl rfl⟩

theorem goes_poking {cfg : Cfg} {s : State} {i x : Nat} {m : Bytes} {first : Bool} (hc : s.ctx = true) (hm : s.main = .exited)
    (hw : s.writers[i]? = some (.poking x m first)) : ∃ s1, Goes cfg s i 2 s1 (.retry m) := by
  cases first with
  | true =>
    obtain ⟨s1, h⟩ := goes_giveUp (cfg := cfg) (s := s) (t := s) (i := i) (m := m) (a := .poke i false none)
      ⟨rfl, rfl, rfl, rfl, rfl⟩ (by simp only [step, hw, hm, if_true])
    exact ⟨s1, h.mono (by omega)⟩
  | false =>
    have h : Goes cfg s i 1 { s with writers := s.writers.eraseIdx i ++ [.waiting x m] } (.waiting x m) :=
      goes_one (a := .poke i false none) (by simp only [step, hw, hm, if_true, Bool.false_eq_true, if_false]) rfl rfl rfl rfl rfl
    obtain ⟨s1, h1⟩ := goes_waiting (cfg := cfg) (h.ctx.trans hc) h.last
    exact ⟨s1, h.trans h1⟩

/-- A call gets back to the critical section in three steps, when the session has ended. -/
theorem goes_back {cfg : Cfg} {s : State} {i : Nat} {w : Writer} (hc : s.ctx = true) (hm : s.main = .exited)
    (hw : s.writers[i]? = some w) : w = .retry w.msg ∨ ∃ s1, Goes cfg s i 3 s1 (.retry w.msg) := by
  cases w with
  | retry m => exact .inl rfl
  | waiting x m =>
    obtain ⟨s1, h⟩ := goes_waiting (cfg := cfg) hc hw
    exact .inr ⟨s1, h.mono (by omega)⟩
  | poking x m first =>
    obtain ⟨s1, h⟩ := goes_poking (cfg := cfg) hc hm hw
    exact .inr ⟨s1, h.mono (by omega)⟩
  | full x m =>
    by_cases hr : (s.infos x).refs + 1 = 1
    · obtain ⟨s1, h⟩ := goes_giveUp (cfg := cfg) (s := s) (t := incRef s x) (i := i) (m := m) (a := .inc i none)
        ⟨rfl, rfl, rfl, rfl, rfl⟩ (by simp only [step, hw, hr, if_true])
      exact .inr ⟨s1, h.mono (by omega)⟩
    · have h : Goes cfg s i 1 { incRef s x with writers := s.writers.eraseIdx i ++ [.poking x m true] } (.poking x m true) :=
        goes_one (a := .inc i none) (by simp only [step, hw, hr, if_false]) rfl rfl rfl rfl rfl
      obtain ⟨s1, h1⟩ := goes_poking (cfg := cfg) (h.ctx.trans hc) (h.main.trans hm) h.last
      exact .inr ⟨s1, h.trans h1⟩
  | again x m =>
    by_cases hr : (s.infos x).refs + 1 = 1
    · have h : Goes cfg s i 1 { incRef s x with writers := s.writers.eraseIdx i ++ [.waiting x m] } (.waiting x m) :=
        goes_one (a := .inc i none) (by simp only [step, hw, hr, if_true]) rfl rfl rfl rfl rfl
      obtain ⟨s1, h1⟩ := goes_waiting (cfg := cfg) (h.ctx.trans hc) h.last
      exact .inr ⟨s1, (h.trans h1).mono (by omega)⟩
    · have h : Goes cfg s i 1 { incRef s x with writers := s.writers.eraseIdx i ++ [.poking x m false] } (.poking x m false) :=
        goes_one (a := .inc i none) (by simp only [step, hw, hr, if_false]) rfl rfl rfl rfl rfl
      obtain ⟨s1, h1⟩ := goes_poking (cfg := cfg) (h.ctx.trans hc) (h.main.trans hm) h.last
      exact .inr ⟨s1, h.trans h1⟩

/-- A call at the critical section returns if the buffer is empty or has room. -/
theorem retry_returns {cfg : Cfg} {s : State} {i : Nat} {m : Bytes} (hr : Reachable cfg s) (hm : s.main = .exited)
    (hw : s.writers[i]? = some (.retry m)) (hfit : s.buf = [] ∨ 44 + bufSize s.buf + m.length ≤ cfg.limit) :
    ∃ s' u, step cfg s (.retry i none) = .ok s' ∧ s'.writers = s.writers.eraseIdx i ∧ s'.users = s.users ++ [u] := by
  have hcur : 0 < (s.infos s.cur).refs := by
    have h := (inv_reachable hr).1.ref
    have h1 := h.le s.cur
    have h2 : 0 < (held s).count s.cur := List.count_pos_iff.2 (h.firmHeld _ (by simp [firm]))
    omega
  by_cases hbig : 44 + bufSize s.buf + m.length > cfg.limit
  · have hb : s.buf = [] := by rcases hfit with h | h; exact h; omega
    rw [hb] at hbig
    simp only [step, hw, tryAppend, hm, hbig, hb, if_true, if_false, reduceCtorEq, acquireError, acquire]
    exact ⟨_, _, rfl, rfl, rfl⟩
  · have hne : ¬((s.infos s.cur).refs + 1 = 1) := by omega
    simp only [step, hw, tryAppend, hm, hbig, if_false, reduceCtorEq, hne]
    exact ⟨_, _, rfl, rfl, rfl⟩

/-- C130, what remains of it: when the session has ended, a call of `WriteMessageAsync` that finds the buffer empty or
with room for its message returns a `SendInfo`, wherever it is, within four steps of its own; it does not need anybody
else. Missing for C130: calls that find the buffer filled by others; and `Write` waits for the result in addition, which
ends with the context. -/
theorem C130_partial {cfg : Cfg} {s : State} {i : Nat} {w : Writer} (hr : Reachable cfg s) (hc : s.ctx = true)
    (hm : s.main = .exited) (hw : s.writers[i]? = some w)
    (hfit : s.buf = [] ∨ 44 + bufSize s.buf + w.msg.length ≤ cfg.limit) :
    ∃ as s' u, as.length ≤ 4 ∧ runActs cfg s as = .ok s' ∧ s'.writers = s.writers.eraseIdx i ∧ s'.users = s.users ++ [u] := by
  rcases goes_back (cfg := cfg) hc hm hw with h | ⟨s1, h⟩
  · rw [h] at hw
    obtain ⟨s', u, h1, h2, h3⟩ := retry_returns hr hm hw hfit
    exact ⟨[.retry i none], s', u, by simp, by simp only [runActs, h1], h2, h3⟩
  · obtain ⟨as, ha, hrun⟩ := h.run
    have hr1 : Reachable cfg s1 := later_reachable (runActs_later as hrun) hr
    obtain ⟨s', u, h1, h2, h3⟩ := retry_returns hr1 (h.main.trans hm) h.last (by rw [h.buf]; exact hfit)
    refine ⟨as ++ [.retry (s.writers.eraseIdx i).length none], s', u, by simp; omega, ?_, ?_, by rw [h3, h.users]⟩
    · rw [runActs_append _ _ _ _ _ hrun]; simp only [runActs, h1]
    · rw [h2, h.writers]; simp [List.eraseIdx_append_of_length_le]

/-! ### The hypotheses can be met -/

/-- The state of `closeJam` before the second call gets the room. -/
example : let s := okState tightCfg (closeJam.take 16)
    s.main = .exited ∧ s.ctx = true ∧ s.buf = [] ∧ s.writers = [.full 1 tightB, .full 1 tightC] ∧
    isOk (runActs tightCfg State.init (closeJam.take 16)) = true := by decide +kernel

/-- The first message to a full buffer of a session that has ended gives up and tries again; a repeated one waits. -/
example : let s := okState tightCfg (closeJam.take 17)
    s.writers = [.full 1 tightC, .poking 1 tightB true] ∧
    (okState tightCfg (closeJam.take 18)).writers = [.full 1 tightC, .retry tightB] := by decide +kernel

#print axioms C130_violated_all
#print axioms C130_violated_busy
#print axioms C130_violated
#print axioms C130_partial

end Verif.DelayedSend
