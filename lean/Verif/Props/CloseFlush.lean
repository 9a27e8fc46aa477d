import Verif.Lemmas.DelayedClose
import Verif.Props.DelayedSend
/-!
# C128: `Close` sends what was accepted before

`Close` ends with a loop that calls `sendDelayedNow` until nothing is left (session.go:2240-2245), so messages which
wait for the send delay are meant to go out. The state is already Closing at that time, and `sendMessages` refuses to
send in that state (session.go:682-689, 1965-1967): the loop throws the messages away.
-/
namespace Verif.DelayedSend

theorem close_effect {cfg : Cfg} {s s1 : State} {r : Option Nat} (hc : step cfg s (.close r) = .ok s1) :
    s1.done = true ∧ s1.main = s.main ∧ s1.wire = s.wire ∧ s1.swaps = s.swaps ∧ s.accepted <+: s1.accepted ∧
      ∃ n, s1.closer = .flush (.acquired n) := by
  simp only [step] at hc
  split at hc
  · exact absurd hc (by simp)
  · obtain ⟨t, n, rfl, h⟩ := begin_still hc
    obtain ⟨t2, n2, e, h2⟩ := begin_fields hc
    have hd : t.done = true := by
      have : ({ t with closer := .flush (.acquired n) } : State).done = t2.done := by rw [e]
      exact this.trans h2.1
    exact ⟨hd, h.main, h.wire, h.swaps, h.accepted, n, rfl⟩

/-- `Close` violates C128 in every state in which it can be called, unless the sender loop is just between the check of
the state and the write: nothing that was accepted and not yet sent is ever sent. -/
theorem C128_violated_all {cfg : Cfg} {s s1 s' : State} {r : Option Nat} (hn : ∀ x ms, s.main.flush? ≠ [.checked x ms])
    (hc : step cfg s (.close r) = .ok s1) (hl : Later cfg s1 s') : s'.wire = s.wire := by
  obtain ⟨hd, hm, hw, -, -, n, hcl⟩ := close_effect hc
  refine ((C61_nothing_after_close hd ?_ hl).1).trans hw
  intro f hf x ms e
  subst e
  rw [hm, hcl] at hf
  simp only [Closer.flush?, List.mem_append, List.mem_singleton, reduceCtorEq, or_false] at hf
  revert hf hn
  cases s.main <;> simp only [Main.flush?, List.not_mem_nil, List.mem_singleton]
  all_goals (intro hn e; first | exact hn x ms (by rw [e]) | exact e.elim)

/-- A message is accepted, `Close` is called and runs to its end, and the sender loop ends. -/
def closeWaiting : List Act :=
  connected ++ [.write exMsg none, .close none, .closerFlush .swap none, .closerFlush .check none,
    .closerFlush .close none, .closerFlush .release (some 0), .closerFlush .swap none, .closerFlush .close none,
    .closerFlush .release none, .mainExit]

/-- C128 is violated: the message was accepted while the session was established, the backend never refused anything, and
the message is never sent; its sender is told so. -/
theorem C128_violated : ∃ s, Reachable exCfg s ∧ s.closer = .over ∧ s.accepted.map (·.2) = [exMsg] ∧
    (∃ u ∈ s.users, u.idx = some 0 ∧ (s.infos u.info).closed = true ∧ (s.infos u.info).err = true) ∧
    ∀ s', Later exCfg s s' → s'.wire = [] := by
  refine ⟨okState exCfg closeWaiting, runActs_reachable (okState_eq (by decide +kernel)), by decide +kernel,
    by decide +kernel, ⟨⟨1, some 0, false⟩, by decide +kernel⟩, ?_⟩
  intro s' h
  have hd : (okState exCfg closeWaiting).done = true := by decide +kernel
  have hf : (okState exCfg closeWaiting).main.flush? ++ (okState exCfg closeWaiting).closer.flush? = [] := by decide +kernel
  have := (C61_nothing_after_close hd (by intro f hm; rw [hf] at hm; simp at hm) h).1
  rw [this]; decide +kernel

/-- C128, what remains of it: after `Close` at most one more packet is written, namely the one the sender loop was
about to write. Missing for C128: the other accepted messages. -/
theorem C128_one_partial {cfg : Cfg} {s s1 s' : State} {r : Option Nat} (hf : cfg.frag = false) (hr : Reachable cfg s)
    (hc : step cfg s (.close r) = .ok s1) (hl : Later cfg s1 s') :
    s'.wire = s.wire ∨ ∃ x ms b, s.main.flush? = [.checked x ms] ∧ s'.wire = s.wire ++ [(b, ms)] := by
  have hr1 : Reachable cfg s1 := .step _ hr hc
  obtain ⟨hd, hm, hw, -, -, -⟩ := close_effect hc
  by_cases hn : ∀ x ms, s.main.flush? ≠ [.checked x ms]
  · exact .inl (C128_violated_all hn hc hl)
  have hn : ∃ x ms, s.main.flush? = [.checked x ms] := by
    apply Classical.byContradiction
    intro h
    exact hn fun x ms e => h ⟨x, ms, e⟩
  obtain ⟨x, ms, hx⟩ := hn
  have main : s'.done = true ∧ ((NotChecked s' ∧ (s'.wire = s.wire ∨ ∃ b, s'.wire = s.wire ++ [(b, ms)])) ∨
      (s'.main.flush? = [.checked x ms] ∧ s'.wire = s.wire)) := by
    induction hl with
    | refl => exact ⟨hd, .inr ⟨by rw [hm, hx], hw⟩⟩
    | @step s2 s3 a hl hs ih =>
      have hr2 := later_reachable hl hr1
      have hq := step_quiet hs
      have hl1 := step_later hs
      have hd3 := hq.1 ih.1
      have hi := ((inv_reachable (Reachable.step _ hr2 hs)).2 hf).1
      refine ⟨hd3, ?_⟩
      rcases ih.2 with ⟨h1, h2⟩ | ⟨h1, h2⟩
      · have h3 := hq.2.1 ih.1 h1
        exact .inl ⟨h3.1, by rw [h3.2]; exact h2⟩
      have notCh : (∀ y ns, s3.main.flush? ≠ [.checked y ns]) → NotChecked s3 := by
        intro h f hfm y ns e
        subst e
        rcases List.mem_append.1 hfm with h4 | h4
        · revert h4 h
          cases s3.main <;> simp only [Main.flush?, List.not_mem_nil, List.mem_singleton]
          all_goals (intro h e; first | exact h y ns (by rw [e]) | exact e.elim)
        · exact hi.closerChecked _ h4 y ns rfl
      by_cases hmf : ∃ b o, a = .mainFlush b o
      · obtain ⟨b, o, rfl⟩ := hmf
        have key : ∀ {f t rr}, s2.main.flush? = [f] → flushStep s2 f b = .ok (t, rr) → ∃ ok, rr = .running (.wrote x ms ok) ∧
            (t.wire = s2.wire ∨ ∃ c, t.wire = s2.wire ++ [(c, ms)]) := by
          intro f t rr hfl hst
          rw [h1] at hfl
          cases hfl
          cases b <;> simp only [flushStep, Outcome.ok.injEq, Prod.mk.injEq, reduceCtorEq] at hst
          rename_i ok
          obtain ⟨rfl, rfl⟩ := hst
          refine ⟨ok, rfl, ?_⟩
          cases ok
          · exact .inl rfl
          · exact .inr ⟨_, rfl⟩
        have fin : ∀ {ok}, s3.main.flush? = [.wrote x ms ok] →
            (s3.wire = s2.wire ∨ ∃ c, s3.wire = s2.wire ++ [(c, ms)]) →
            NotChecked s3 ∧ (s3.wire = s.wire ∨ ∃ b, s3.wire = s.wire ++ [(b, ms)]) := by
          intro ok h4 h5
          rw [h2] at h5
          exact ⟨notCh (by rw [h4]; intro y ns e; simp at e), h5⟩
        refine .inl ?_
        simp only [step] at hs
        split at hs
        · rename_i f hm2
          have hfl : s2.main.flush? = [f] := by rw [hm2]; rfl
          split at hs <;> try (simp at hs; done)
          · rename_i hst
            obtain ⟨ok, e1, e2⟩ := key hfl hst
            simp only [FRes.running.injEq] at e1
            subst e1
            simp only [Outcome.ok.injEq] at hs; subst hs
            exact fin rfl e2
          · rename_i hst
            obtain ⟨ok, e1, e2⟩ := key hfl hst
            simp at e1
          · rename_i hst
            obtain ⟨ok, e1, e2⟩ := key hfl hst
            simp at e1
        · rename_i c f hm2
          have hfl : s2.main.flush? = [f] := by rw [hm2]; rfl
          split at hs <;> try (simp at hs; done)
          · rename_i hst
            obtain ⟨ok, e1, e2⟩ := key hfl hst
            simp only [FRes.running.injEq] at e1
            subst e1
            simp only [Outcome.ok.injEq] at hs; subst hs
            exact fin rfl e2
          · rename_i hst
            obtain ⟨ok, e1, e2⟩ := key hfl hst
            simp at e1
        · simp at hs
      · have hw3 : s3.wire = s.wire := by
          by_cases hcf : ∃ b o, a = .closerFlush b o
          · obtain ⟨b, o, rfl⟩ := hcf
            exact (close_drops hf hr2 hs).trans h2
          · exact (hl1.wire (fun b o e => hmf ⟨b, o, e⟩) (fun b o e => hcf ⟨b, o, e⟩)).trans h2
        rcases hl1.main (fun b o e => hmf ⟨b, o, e⟩) with h4 | h4 | ⟨n, h4⟩
        · exact .inr ⟨h4.trans h1, hw3⟩
        · exact .inl ⟨notCh (by rw [h4]; intro y ns e; simp at e), .inl hw3⟩
        · exact .inl ⟨notCh (by rw [h4]; intro y ns e; simp at e), .inl hw3⟩
  rcases main.2 with ⟨-, h | ⟨b, h⟩⟩ | ⟨-, h⟩
  · exact .inl h
  · exact .inr ⟨x, ms, b, hx, h⟩
  · exact .inl h

/-- C128, the senders are told: when the loop of `Close` is over, the result of every message that was accepted before
`Close` is final, except for the packet which the sender loop itself is just handling; and the result says whether the
message was sent. -/
theorem C128_told_partial {cfg : Cfg} {s s1 s' : State} {r : Option Nat} (hf : cfg.frag = false) (hr : Reachable cfg s)
    (hc : step cfg s (.close r) = .ok s1) (hl : Later cfg s1 s') (ho : s'.closer = .over) {u : User} (hu : u ∈ s'.users)
    {k : Nat} (hk : u.idx = some k) (hlt : k < s.accepted.length) :
    ((s'.infos u.info).closed = true ∧ ∃ b m, s.accepted[k]? = some (b, m) ∧
      ((s'.infos u.info).err = false ↔ ∃ p ∈ s'.wire, p.1 = b) ∧ ∀ p ∈ s'.wire, p.1 = b → m ∈ p.2) ∨
    u.info ∈ s'.main.flush?.flatMap Flush.roles := by
  have hr1 : Reachable cfg s1 := .step _ hr hc
  obtain ⟨-, -, -, hsw, hacc, n, hcl⟩ := close_effect hc
  have main : s.accepted <+: s'.accepted ∧ s.swaps ≤ s'.swaps ∧ (s.swaps < s'.swaps ∨ ∃ n, s'.closer = .flush (.acquired n)) := by
    clear ho hu
    induction hl with
    | refl => exact ⟨hacc, Nat.le_of_eq hsw.symm, .inr ⟨n, hcl⟩⟩
    | @step s2 s3 a hl hs ih =>
      have hl1 := step_later hs
      refine ⟨ih.1.trans hl1.accepted, Nat.le_trans ih.2.1 hl1.swaps, ?_⟩
      rcases ih.2.2 with h1 | ⟨n2, h1⟩
      · exact .inl (Nat.lt_of_lt_of_le h1 hl1.swaps)
      by_cases hcf : ∃ b o, a = .closerFlush b o
      · obtain ⟨b, o, rfl⟩ := hcf
        refine .inl (Nat.lt_of_le_of_lt ih.2.1 ?_)
        simp only [step, h1] at hs
        split at hs <;> try (simp at hs; done)
        · rename_i hst
          simp only [Outcome.ok.injEq] at hs; subst hs
          have := (flushStep_swaps hst).2.1 ⟨_, rfl⟩
          exact this
        · rename_i hst
          simp only [Outcome.ok.injEq] at hs; subst hs
          have := (flushStep_swaps hst).2.1 ⟨_, rfl⟩
          exact this
        · rename_i hst
          obtain ⟨t, n, rfl, h⟩ := begin_still hs
          have := (flushStep_swaps hst).2.1 ⟨_, rfl⟩
          exact Nat.lt_of_lt_of_le this (Nat.le_of_eq h.swaps.symm)
      by_cases hcl2 : ∃ o, a = .close o
      · obtain ⟨o, rfl⟩ := hcl2
        obtain ⟨n, h⟩ := (close_effect hs).2.2.2.2.2
        exact .inr ⟨n, h⟩
      · exact .inr ⟨n2, (hl1.closer (fun o e => hcl2 ⟨o, e⟩) (fun b o e => hcf ⟨b, o, e⟩)).trans h1⟩
  have hr' := later_reachable hl hr1
  have hi := (inv_reachable hr').2 hf
  obtain ⟨⟨t, ht⟩, -, hlt2⟩ := main
  have hlt2 : s.swaps < s'.swaps := by
    rcases hlt2 with h | ⟨n, h⟩
    · exact h
    · rw [ho] at h; simp at h
  have hk2 : s'.accepted[k]? = s.accepted[k]? := by rw [← ht, List.getElem?_append_left hlt]
  cases hcd : (s'.infos u.info).closed with
  | true =>
    obtain ⟨b, m, h1, h2, h3⟩ := C45_result_partial hf hr' hu hk hcd
    exact .inl ⟨rfl, b, m, hk2 ▸ h1, h2, h3⟩
  | false =>
    refine .inr ?_
    have h1 := hi.2 u.info hcd
    rw [ho] at h1
    simp only [Closer.flush?, List.append_nil, List.mem_cons] at h1
    rcases h1 with h1 | h1
    · obtain ⟨m, h2, -⟩ := hi.1.core.users u hu k hk
      rw [hk2] at h2
      have h3 := ((inv_reachable hr).2 hf).1.core.accLe _ (List.mem_of_getElem? h2)
      rw [h1, hi.1.core.curBatch] at h3
      simp only at h3
      omega
    · exact h1

/-! ### The hypotheses can be met -/

/-- `Close` while a message is waiting. -/
example : isOk (runActs exCfg State.init (connected ++ [.write exMsg none, .close none])) = true ∧
    (okState exCfg (connected ++ [.write exMsg none])).buf = [exMsg] ∧
    (okState exCfg (connected ++ [.write exMsg none])).main.flush? = [] := by decide +kernel

/-- The sender loop has passed the check when `Close` comes, and writes its packet afterwards. -/
def closeLate : List Act :=
  connected ++ [.write exMsg none, .timer none, .mainFlush .swap none, .mainFlush .check none]

example : (okState exCfg closeLate).main.flush? = [.checked 1 [exMsg]] ∧ (okState exCfg closeLate).wire = [] ∧
    (okState exCfg (closeLate ++ [.close none, .mainFlush (.write true) none])).wire = [(1, [exMsg])] ∧
    isOk (runActs exCfg State.init (closeLate ++ [.close none, .mainFlush (.write true) none])) = true := by decide +kernel

/-- `Close` is over while the loop still handles its packet. -/
example : (okState exCfg (closeLate ++ [.close none, .closerFlush .swap none, .closerFlush .close none,
      .closerFlush .release none])).closer = .over ∧
    (okState exCfg (closeLate ++ [.close none, .closerFlush .swap none, .closerFlush .close none,
      .closerFlush .release none])).users = [⟨1, some 0, false⟩] ∧
    (okState exCfg (closeLate ++ [.close none, .closerFlush .swap none, .closerFlush .close none,
      .closerFlush .release none])).main.flush? = [.checked 1 [exMsg]] := by decide +kernel

#print axioms C128_violated_all
#print axioms C128_violated
#print axioms C128_one_partial
#print axioms C128_told_partial

end Verif.DelayedSend
