import Verif.Lemmas.KeySuccess
/-!
# C106 with time: a key update that has succeeded does not time out
-/
namespace Verif.KeyTimer

/-- The full statement: whenever the loop makes or takes the key that it waits for (a step of the loop from `.gen`) and then a message
arrives that completes the exchange, the update does not end with a time-out.

This part: it holds for every update that begins after time 0 (when the first exchange is over, or at least its key is made) if no
message that completes an exchange arrives between emptying the channel and making the key (`l0`). -/
theorem C106_timed_partial {c : Cfg} (hi : 0 < c.interval) {s s' t : St} (hr : Path c anything .init s) (h0 : 0 < s.now) (hm : s.main = .start)
    {k0 k1 : Nat} {l0 l : List Act} (hl0 : l0.any isLoop = false) (hd0 : l0.any (completes c) = false) (hl : l.countP isLoop ≤ 1)
    (hd : l.any (completes c) = true) (hrun : run c s (.loop k0 :: (l0 ++ .loop k1 :: l)) = some s') (hs : step c s' .timeout = some t) :
    t.main = .idle ∧ t.closed = false ∧ t.reported = s'.reported := by
  simp only [run, Option.bind_eq_some_iff] at hrun
  obtain ⟨s1, hs1, hrun⟩ := hrun
  obtain ⟨s2, hr2, hrun⟩ := run_append hrun
  simp only [run, Option.bind_eq_some_iff] at hrun
  obtain ⟨s3, hs3, hr3⟩ := hrun
  have hc : s.closed = false := by
    cases hc : s.closed with
    | false => rfl
    | true => simp [step, hc] at hs1
  have hinv := reach_inv hi hr hc
  have hlate := hinv.late h0
  simp only [step, hc, Bool.false_eq_true, if_false, stepOpen, St.loop, hm, Option.some.injEq] at hs1
  have hg : Gen s1 := by
    split at hs1
    · rename_i hsk
      have ht : s.tickAt ≠ none := fun ht => by
        have := (hinv.first ht).2.2.1 (by simp [hm])
        omega
      have := hinv.pend (.inr ⟨hm, ht⟩)
      have := hinv.skip
      omega
    · subst hs1
      exact ⟨rfl, rfl, hlate.1, fun a ha => by rcases hlate.2 a ha with h | h <;> simp [h]⟩
  have hg2 := run_gen hg hl0 hd0 hr2
  obtain ⟨hu, hse⟩ := gen_upd hg2 hs3
  obtain ⟨hu', hw⟩ := run_upd hu (by rw [if_pos hse]; exact hl) hr3
  have hw := hw (.inr hd)
  unfold step at hs
  split at hs
  · simp at hs
  · rename_i hcl
    simp only [stepOpen] at hs
    split at hs
    · rename_i hmw
      have ht := (take_upd (c := c) hu' hmw.1).2.1 hw
      rw [if_pos ht] at hs
      cases hs
      refine ⟨ht, ?_, ?_⟩
      · unfold St.take; split
        · split <;> simpa [St.toIdle] using hcl
        · simpa using hcl
      · unfold St.take; split
        · split <;> simp [St.toIdle]
        · rfl
    · cases hs

/-- An answer arrives while the loop is between emptying the channel and making the new key (a late answer to a repeated request): its
notification fills the channel, the notification of the next success is dropped, and the loop finds only the old one.  If the other side
does not answer once more, the session ends with a time-out of the key exchange that has succeeded. -/
theorem C106_timed_violated : ∃ s, Path ⟨2, 1, 1⟩ anything .init s ∧ s.main = .gen ∧ 0 < s.now ∧ s.created = s.next ∧
    ∃ s' t, Path ⟨2, 1, 1⟩ noClose s s' ∧ s.successes < s'.successes ∧ s'.main = .waiting ∧ s.next < s'.next ∧ s'.created = s'.next ∧
      s'.awaited = s'.next ∧ step ⟨2, 1, 1⟩ s' .timeout = some t ∧ t.closed = true ∧ t.reported = true :=
  ⟨⟨2, 5, 5, true, 0, .gen, 5, 1, some 4, false, 0, some 5, [], 2, false, false, false⟩,
   prompt_path (l := connected ++ [.pass, .pass, .loop 7, .loop 7, .recv true]) (by decide +kernel), rfl, by decide, rfl,
   ⟨3, 7, 7, true, 2, .waiting, 7, 3, some 4, false, 0, none, [], 3, false, false, false⟩,
   ⟨3, 7, 7, true, 2, .waiting, 7, 3, some 4, false, 0, none, [], 3, false, true, true⟩,
   prompt_path (l := [.loop 7, .loop 7, .recv true, .done, .pass]) (by decide +kernel), by decide, rfl, by decide, rfl, rfl,
   by decide +kernel, rfl, rfl⟩

/-- The first exchange, if the clock is set back: the loop and an answering goroutine have both made a key, and the stamp of the second is
lower than the one that the loop waits for.  No answer ends the update, not even one to each of its messages. -/
theorem C106_timed_clock : ∃ s, Path ⟨2, 1, 1⟩ anything .init s ∧ s.main = .waiting ∧ s.next < s.awaited ∧
    ∃ s' t, Path ⟨2, 1, 1⟩ noClose s s' ∧ s'.main = .waiting ∧ s.successes + 3 = s'.successes ∧ s'.created = s'.next ∧
      step ⟨2, 1, 1⟩ s' .timeout = some t ∧ t.closed = true ∧ t.reported = true :=
  ⟨⟨0, 0, 4, true, 0, .waiting, 5, 1, none, false, 2, none, [], 0, false, false, false⟩,
   prompt_path (l := [.recv false, .answer 0 4, .answer 0 4, .loop 5, .loop 5, .loop 5, .answer 0 4, .answer 0 4, .answer 0 4])
     (by decide +kernel), rfl, by decide,
   ⟨1, 4, 4, true, 0, .waiting, 5, 1, none, false, 2, none, [], 3, false, false, false⟩,
   ⟨1, 4, 4, true, 0, .waiting, 5, 1, none, false, 2, none, [], 3, false, true, true⟩,
   prompt_path (l := [.recv true, .done, .recv true, .retry, .recv true, .done, .pass]) (by decide +kernel), rfl, by decide, rfl,
   by decide +kernel, rfl, rfl⟩

/-- The hypotheses of `C106_timed_partial` can be met: a request and a late answer come between the steps, and the loop looks into the channel
only when the timer fires. -/
example : (prompt ⟨2, 1, 1⟩ anything .init (connected ++ [.pass, .pass, .loop 7])).map (fun s => (s.now, s.main)) = some (2, .start) ∧
    ((prompt ⟨2, 1, 1⟩ anything .init (connected ++ [.pass, .pass, .loop 7])).bind
      (run ⟨2, 1, 1⟩ · (.loop 7 :: ([.recv false] ++ .loop 7 :: [.answer 0 0, .recv true, .loop 7, .answer 0 0, .pass])))).map
      (fun s => (s.now, s.main, s.notify, (step ⟨2, 1, 1⟩ s .timeout).map (fun t => (t.main, t.closed)))) =
    some (3, .waiting, some 7, some (.idle, false)) := by decide +kernel
/-- A notification that is in the channel is emptied before the new key is made, and so is the channel when the loop finds an old one in it.
(Here the old one is of an answer to a request of the peer, in the mode that does not wait for answers.) -/
example : ((prompt ⟨2, 1, 2⟩ anything .init [.recv false, .loop 5]).map (fun s => (s.main, s.notify)) = some (.gen, none)) ∧
    (prompt ⟨2, 1, 1⟩ anything .init (connected ++ [.pass, .pass, .loop 7, .recv true])).map (fun s => (s.main, s.notify)) =
      some (.start, some 5) ∧
    (prompt ⟨2, 1, 1⟩ anything .init (connected ++ [.pass, .pass, .loop 7, .recv true, .loop 7])).map (fun s => (s.main, s.notify)) =
      some (.gen, none) ∧
    (prompt ⟨2, 1, 1⟩ anything .init (connected ++ [.pass, .pass, .loop 7, .loop 7, .recv true, .loop 7, .loop 7, .retry])).map
      (fun s => (s.main, s.notify)) = some (.waiting, none) := by decide +kernel
/-- If the clock is set back, the stamp of the new key is the next one after that of the old key. -/
example : (prompt ⟨2, 1, 1⟩ anything .init (connected ++ [.pass, .pass, .loop 3, .loop 3, .loop 3])).map (fun s => (s.created, s.next)) =
      some (5, 6) := by decide +kernel
/-- An answering goroutine does not make another key while an exchange is in progress, but sends the one that is there. -/
example : (run ⟨2, 1, 1⟩ .init [.recv false, .answer 0 4, .loop 5, .loop 5, .answer 0 4, .answer 0 4, .answer 0 4]).map
      (fun s => (s.next, s.skipUntil, s.answers)) = some (5, 2, []) := by decide +kernel

end Verif.KeyTimer

#print axioms Verif.KeyTimer.C106_timed_partial
#print axioms Verif.KeyTimer.C106_timed_violated
#print axioms Verif.KeyTimer.C106_timed_clock
