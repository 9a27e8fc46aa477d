import Verif.Lemmas.Merge
import Verif.Props.DelayedSend
/-!
# Messages are merged: C173

README: "it merges all your messages collected in 50 microseconds into a one".  Messages that were accepted while no flush took
the buffer are in the same packet.  When the timer flushes is C126.
-/
namespace Verif.DelayedSend

/-- C173: a packet consists of the messages that were accepted for it, all of them, in their order. -/
theorem C173_packet {cfg : Cfg} {s : State} (hf : cfg.frag = false) (hr : Reachable cfg s) :
    ∀ p ∈ s.wire, p.2 = (s.accepted.filter (fun a => a.1 = p.1)).map (·.2) :=
  fun p hp => (((inv_reachable hr).2 hf).1.core.wireStatus p hp).2.1

/-- While no flush takes the buffer, all accepted messages are for the same packet. -/
theorem C173_together {cfg : Cfg} {s s' : State} {as : List Act} (hn : ∀ a ∈ as, swapping a = false)
    (hr : runActs cfg s as = .ok s') :
    ∃ ms : List Bytes, s'.accepted = s.accepted ++ ms.map (fun m => (s.swaps, m)) ∧ s'.swaps = s.swaps := by
  induction as generalizing s with
  | nil => simp only [runActs, Outcome.ok.injEq] at hr; subst hr; exact ⟨[], by simp, rfl⟩
  | cons a as ih =>
    simp only [runActs] at hr
    split at hr <;> (try (simp at hr; done))
    rename_i t ht
    obtain ⟨h1, h2⟩ := step_tag ht
    have h2 := h2 (hn a (by simp))
    obtain ⟨ms, h3, h4⟩ := ih (fun b hb => hn b (List.mem_cons_of_mem _ hb)) hr
    rw [h2] at h3 h4
    rcases h1 with h1 | ⟨m, h1⟩
    · exact ⟨ms, by rw [h3, h1], h4⟩
    · exact ⟨m :: ms, by rw [h3, h1]; simp, h4⟩

theorem later_accepted {cfg : Cfg} {s s' : State} (h : Later cfg s s') : s.accepted <+: s'.accepted := by
  induction h with
  | refl => exact List.prefix_refl _
  | step a _ hs ih => exact ih.trans (step_later hs).accepted

/-- C173, what holds: the messages accepted while no flush takes the buffer are in one packet, next to each other and in their
order, or in none at all.  Missing: that a flush has a reason (`C173_violated`). -/
theorem C173_partial {cfg : Cfg} {s s1 s2 : State} {as : List Act} (hf : cfg.frag = false) (hr : Reachable cfg s)
    (hn : ∀ a ∈ as, swapping a = false) (h1 : runActs cfg s as = .ok s1) (h2 : Later cfg s1 s2) :
    ∃ (ms : List Bytes) (b : Nat), s1.accepted = s.accepted ++ ms.map (fun m => (b, m)) ∧
      ∀ p ∈ s2.wire, if p.1 = b then ms <:+: p.2 else p.2 = ((s.accepted ++ s2.accepted.drop s1.accepted.length).filter
        (fun a => a.1 = p.1)).map (·.2) := by
  obtain ⟨ms, ha, hb⟩ := C173_together hn h1
  refine ⟨ms, s.swaps, ha, fun p hp => ?_⟩
  have hr2 := later_reachable h2 (later_reachable (runActs_later as h1) hr)
  have hp := C173_packet hf hr2 p hp
  obtain ⟨rest, hrest⟩ := later_accepted h2
  rw [← hrest, ha] at hp
  split
  · rename_i hpb
    refine ⟨(s.accepted.filter (fun a => a.1 = p.1)).map (·.2), (rest.filter (fun a => a.1 = p.1)).map (·.2), ?_⟩
    rw [hp]
    simp only [List.filter_append, List.map_append, hpb]
    congr 2
    have : ∀ l : List Bytes, l = ((l.map (fun m => (s.swaps, m))).filter (fun a => decide (a.1 = s.swaps))).map (·.2) := by
      intro l
      induction l with
      | nil => rfl
      | cons m l ih => simp only [List.map_cons, decide_true, List.filter_cons_of_pos]; rw [← ih]
    exact this ms
  · rename_i hpb
    rw [hp, ← hrest, List.drop_left]
    have : (ms.map (fun m => (s.swaps, m))).filter (fun a => decide (a.1 = p.1)) = [] := by
      rw [List.filter_eq_nil_iff]
      intro a hm
      obtain ⟨m, _, rfl⟩ := List.mem_map.1 hm
      simpa using fun h => hpb h.symm
    simp only [List.filter_append, List.map_append, this, List.map_nil, List.append_nil]

/-- The messages written since the last flush, the timer, and its packet. -/
def timerFlush : List Act :=
  [.timer none, .mainFlush .swap none, .mainFlush .check none, .mainFlush (.write true) none, .mainFlush .close none,
    .mainFlush .release none]

theorem runActs_cons {cfg : Cfg} {s s' : State} {a : Act} {as : List Act} (h : runActs cfg s (a :: as) = .ok s') :
    ∃ t, step cfg s a = .ok t ∧ runActs cfg t as = .ok s' := by
  simp only [runActs] at h
  split at h <;> (try (simp at h; done))
  exact ⟨_, ‹_›, h⟩

theorem release_buf {s s' : State} {x} (hs : release s x = .ok s') : s'.buf = s.buf := by
  unfold release at hs
  simp only at hs
  repeat' split at hs
  all_goals try (simp at hs; done)
  all_goals (simp only [Outcome.ok.injEq] at hs; subst hs; rfl)

theorem write_fits {cfg : Cfg} {s s' : State} {m : Bytes} {r : Option Nat} (hm : 44 + bufSize s.buf + m.length ≤ cfg.limit)
    (hs : step cfg s (.write m r) = .ok s') :
    s'.buf = s.buf ++ [m] ∧ s'.main = s.main ∧ s'.wire = s.wire ∧ s'.done = s.done := by
  simp only [step, tryAppend] at hs
  split at hs
  · simp at hs
  · split at hs
    · omega
    · split at hs
      · simp at hs
      · simp only [Outcome.ok.injEq] at hs
        subst hs
        exact ⟨rfl, rfl, rfl, rfl⟩

/-- C173 for writes and the timer: messages that fit into a packet are sent in one packet when the timer expires. -/
theorem C173_timer {cfg : Cfg} {ms : List Bytes} {s s' : State} (hb : 44 + bufSize (s.buf ++ ms) ≤ cfg.limit) (hi : s.main = .idle)
    (hne : s.buf ++ ms ≠ []) (hd : s.done = false) (hr : runActs cfg s (ms.map (fun m => .write m none) ++ timerFlush) = .ok s') :
    s'.wire.map (·.2) = s.wire.map (·.2) ++ [s.buf ++ ms] ∧ s'.buf = [] := by
  induction ms generalizing s with
  | cons m ms ih =>
    simp only [List.map_cons, List.cons_append, runActs] at hr
    split at hr <;> (try (simp at hr; done))
    rename_i t ht
    have hm : 44 + bufSize s.buf + m.length ≤ cfg.limit := by
      simp only [bufSize, List.map_append, List.map_cons, List.sum_append, List.sum_cons] at hb ⊢
      omega
    obtain ⟨h1, h2, h3, h4⟩ := write_fits hm ht
    have := ih (s := t) (by rw [h1]; simpa using hb) (h2.trans hi) (by rw [h1]; simp) (h4.trans hd) hr
    rw [h1, h3] at this
    simpa using this
  | nil =>
    simp only [List.map_nil, List.nil_append, List.append_nil] at hr hne ⊢
    obtain ⟨s1, h1, hr⟩ := runActs_cons hr
    simp only [step, hi, if_true, begin, acquire, Outcome.ok.injEq] at h1
    subst h1
    obtain ⟨s2, h2, hr⟩ := runActs_cons hr
    simp only [step, flushStep, Outcome.ok.injEq] at h2
    subst h2
    obtain ⟨s3, h3, hr⟩ := runActs_cons hr
    simp only [step, flushStep, hne, if_false, hd, Bool.false_eq_true, Outcome.ok.injEq] at h3
    subst h3
    obtain ⟨s4, h4, hr⟩ := runActs_cons hr
    simp only [step, flushStep, setResult, if_true, Outcome.ok.injEq] at h4
    subst h4
    obtain ⟨s5, h5, hr⟩ := runActs_cons hr
    simp only [step, flushStep] at h5
    split at h5 <;> (try (simp at h5; done))
    · rename_i h6
      split at h6
      · simp at h6
      · simp only [Outcome.ok.injEq, Prod.mk.injEq, FRes.running.injEq] at h6
        obtain ⟨rfl, rfl⟩ := h6
        simp only [Outcome.ok.injEq] at h5
        subst h5
        obtain ⟨s6, h7, hr⟩ := runActs_cons hr
        simp only [runActs, Outcome.ok.injEq] at hr
        subst hr
        simp only [step, flushStep] at h7
        split at h7 <;> (try (simp at h7; done))
        all_goals
          rename_i h8
          split at h8 <;> (try (simp at h8; done))
        rename_i h9
        simp only [Outcome.ok.injEq, Prod.mk.injEq, FRes.over.injEq] at h8
        obtain ⟨rfl, -⟩ := h8
        simp only [Outcome.ok.injEq] at h7
        subst h7
        exact ⟨by simp [(release_fields h9).2.2.2], release_buf h9⟩
    · rename_i h6
      split at h6 <;> simp at h6

/-! ### Negation -/

def mergeCfg : Cfg := ⟨50, false⟩

/-- A message is written while `onConnect` flushes, a second one finds no room, and its request to flush is handled after
`onConnect` has finished. -/
def staleRequest : List Act :=
  [.connect none, .write [1, 2, 3] none, .write [4, 5, 6, 7] none, .inc 0 none, .mainFlush .swap none, .mainFlush .check none,
    .mainFlush (.write true) none, .mainFlush .close none, .mainFlush .release none, .mainFlush .swap none,
    .mainFlush .close none, .mainFlush .release none, .poke 0 true none]

/-- Then a short message is written, … -/
def staleWrite : List Act := [.write [8] none, .handle none, .mainFlush .swap none, .mainFlush .check none,
    .mainFlush (.write true) none, .mainFlush .close none, .mainFlush .release none, .mainRelease]

/-- Negation of C173: after the connection a message leaves by itself at once, without an expiry of the timer, a full buffer or a
`SendNowAndWait`, and the next message, which would fit, gets a packet of its own: the loop does not know of the flushes of
`onConnect`, and takes a request for a packet that is sent for a new one. -/
theorem C173_violated :
    isOk (runActs mergeCfg State.init (staleRequest ++ staleWrite ++ [.write [9] none] ++ timerFlush)) = true ∧
    (okState mergeCfg staleRequest).buf = [] ∧ (okState mergeCfg staleRequest).wire.map (·.2) = [[[1, 2, 3]]] ∧
    (okState mergeCfg (staleRequest ++ staleWrite ++ [.write [9] none] ++ timerFlush)).wire.map (·.2) = [[[1, 2, 3]], [[8]], [[9]]] ∧
    44 + bufSize [[8], [9]] ≤ mergeCfg.limit := by decide +kernel

/-! ### Examples -/

/-- The hypotheses of `C173_partial`: three writes, of which the last has to wait for a flush. -/
example : let as : List Act := [.write [1, 2, 3] none, .write [4] none, .timer none, .write [5] none, .write [6, 7, 8] none]
    (as.all (fun a => swapping a == false)) = true ∧ isOk (runActs mergeCfg (okState mergeCfg connected) as) = true ∧
    (okState mergeCfg (connected ++ as)).accepted.map (·.2) = [[1, 2, 3], [4], [5]] ∧
    (okState mergeCfg (connected ++ as ++ timerFlush.tail)).wire.map (·.2) = [[[1, 2, 3], [4], [5]]] := by decide +kernel

/-- The hypotheses of `C173_timer`. -/
example : let s := okState mergeCfg (connected ++ [.write [1, 2, 3] none])
    44 + bufSize (s.buf ++ [[4], [5]]) ≤ mergeCfg.limit ∧ s.main = .idle ∧ s.done = false ∧
    isOk (runActs mergeCfg s ([[4], [5]].map (fun m => .write m none) ++ timerFlush)) = true := by decide +kernel

/-- In the loop a request for a packet that was sent is not taken for a new one. -/
example : let as : List Act := connected ++ [.write [1, 2, 3] none, .write [4, 5, 6, 7] none, .inc 0 none] ++ timerFlush ++
      [.poke 0 true none, .write [8] none, .handle none, .mainRelease, .write [9] none] ++ timerFlush
    (okState mergeCfg as).wire.map (·.2) = [[[1, 2, 3]], [[8], [9]]] := by decide +kernel

#print axioms C173_packet
#print axioms C173_together
#print axioms C173_partial
#print axioms C173_timer
#print axioms C173_violated

end Verif.DelayedSend
