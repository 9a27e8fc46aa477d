import Verif.Lemmas.Retry
/-!
# C163: repeated requests; C99: their options
-/
namespace Verif.Retry

/-! ## C163: a request that is not answered is repeated every RetryInterval until Timeout -/

/-- On a computer and with a backend that are fast enough: while the loop waits, a request has been sent at each multiple of
`RetryInterval` so far and at no other time, and `Timeout` is not over. -/
theorem C163_regular {o : Opts} (hr : 0 < o.retry) {s : St} (h : Prompt o s) (hw : s.phase = .waiting) (hq : Quiet s) :
    s.sends.reverse = multiples o.retry.toNat (s.now / o.retry.toNat + 1) ∧ s.now < o.timeout.toNat := by
  obtain ⟨m, b1, b2, b3, b4, b5, b6, b7, b8, b9⟩ := (prompt_fast hr h).busy (.inl hw)
  rcases hq with hq | hq | ⟨-, hq1, hq2, -⟩
  · simp [hw] at hq
  · simp [hw] at hq
  · rw [hq1] at b5
    simp only [hq2, Bool.false_eq_true, false_and, and_false, or_false, true_and] at b9
    have hm : s.now / o.retry.toNat = m := by
      rw [Nat.div_eq_iff (by omega)]
      omega
    rw [hm]
    exact ⟨b5, b9.2⟩

/-- The update is given up at `Timeout`, not before and not later, and only after a request at each earlier multiple of `RetryInterval`. -/
theorem C163_gives_up {o : Opts} (hr : 0 < o.retry) {s s' : St} (h : Prompt o s) (h0 : s.res = none) (hs : step o s .timeout = some s')
    (ht : s'.res = some .timeout) :
    s.now = o.timeout.toNat ∧ (∀ k, k * o.retry.toNat < o.timeout.toNat → k * o.retry.toNat ∈ s'.sends) ∧
      s'.ctx = true ∧ s'.errors = s.errors + 1 := by
  have h' := prompt_fast hr (.step _ h (by simp) hs)
  obtain ⟨-, n, hn, hse, hT, -⟩ := h'.done ht
  simp only [step] at hs
  split at hs
  · rename_i hw
    obtain ⟨m, b1, b2, b3, b4, b5, b6, b7, b8, b9⟩ := (prompt_fast hr h).busy (.inl hw.1)
    have hnow : s.now = o.timeout.toNat := by
      rcases b9 with b9 | b9
      · simp [b9.2.1] at hw
      · exact b9.2.2
    refine ⟨hnow, fun k hk => ?_, ?_⟩
    · rw [← List.mem_reverse, hse]
      refine List.mem_map.2 ⟨k, List.mem_range.2 ?_, rfl⟩
      exact Nat.lt_of_mul_lt_mul_right (Nat.lt_of_lt_of_le hk hT)
    · cases hs
      split at ht
      · split at ht <;> simp [St.over] at ht
      · rename_i hse
        rw [if_neg hse]
        exact ⟨rfl, rfl⟩
  · cases hs

/-- In all executions, however slow: the loop never sends more often than once per `RetryInterval`, on average since it waits. -/
theorem C163_rate {o : Opts} (hr : 0 < o.retry) {l : List Act} {s : St} (h : run o .init l = some s) (hf : s.phase ≠ .first) :
    o.retry.toNat * (s.sends.length - 1) ≤ s.now - s.begun := by
  have h1 : Rate o.retry.toNat .init := ⟨by simp [St.init], by simp [St.init]⟩
  obtain ⟨m, h3, h4, h5, h6⟩ := (run_rate hr h1 h).ex hf
  have := Nat.mul_le_mul_left o.retry.toNat (show s.sends.length - 1 ≤ m by omega)
  omega

/-- In all executions: once the success is in the channel, nothing is sent any more and the update does not time out. -/
theorem C163_success {o : Opts} {l : List Act} {s s' : St} (hn : s.note = true) (h0 : s.res = none)
    (hp : s.phase = .first ∨ s.phase = .waiting ∨ s.phase = .sending) (h : run o s l = some s') :
    s'.sends = s.sends ∧ s'.res ≠ some .timeout := by
  have h1 : Safe s.sends s := ⟨rfl, .inl ⟨h0, hn, by rcases hp with hp | hp | hp <;> simp [hp], by rcases hp with hp | hp | hp <;> simp [hp]⟩⟩
  obtain ⟨h2, h3⟩ := run_safe h1 h
  refine ⟨h2, fun hr => ?_⟩
  rcases h3 with h3 | h3
  · simp [hr] at h3
  · simp [hr] at h3

/-- `RetryInterval` 2, `Timeout` 5: requests at 0, 2 and 4, then the time-out. -/
example : (prompt ⟨9, 2, 5⟩ .init
    [.sent true, .pass, .pass, .retry, .sent true, .pass, .pass, .retry, .sent true]).map
      (fun s => (s.phase, s.sends, decide (Quiet s))) = some (.waiting, [4, 2, 0], true) ∧
    (prompt ⟨9, 2, 5⟩ .init
    [.sent true, .pass, .pass, .retry, .sent true, .pass, .pass, .retry, .sent true, .pass, .timeout, .loop]).map
      (fun s => (s.phase, s.sends, s.res, s.now, s.ctx, s.errors)) = some (.idle, [4, 2, 0], some .timeout, 5, true, 1) := by
  decide +kernel
/-- If the time-out is a multiple of `RetryInterval`, the last request is sent or not, as the `select` likes. -/
example : (prompt ⟨9, 2, 2⟩ .init [.sent true, .pass, .pass, .timeout]).map (fun s => (s.sends, s.res)) = some ([0], some .timeout) ∧
    (prompt ⟨9, 2, 2⟩ .init [.sent true, .pass, .pass, .retry, .sent true, .timeout]).map (fun s => (s.sends, s.res)) =
      some ([2, 0], some .timeout) := by decide +kernel
/-- A success ends the update, in whichever case of the `select` it is seen; the channel is empty then. -/
example : [Act.success, .retry, .timeout].all (fun a =>
    (prompt ⟨9, 2, 2⟩ .init [.sent true, .pass, .pass, .notify, a, .loop]).map (fun s => (s.phase, s.sends, s.res, s.note, s.errors)) ==
      some (.idle, [0], some .success, false, 0)) = true := by decide +kernel
/-- A closed exchanger stops, be it by its context or by the closed channel. -/
example : [Act.stop, .success, .retry, .timeout].all (fun a =>
    (run ⟨9, 2, 2⟩ .init [.sent true, .pass, .pass, .cancel, .close, a, .loop]).map (fun s => (s.phase, s.sends, s.res, s.errors)) ==
      some (.idle, [0], some .stopped, 0)) = true ∧
    (run ⟨9, 2, 2⟩ .init [.sent false, .stop]).map (fun s => (s.phase, s.res, s.errors)) = some (.back, some .stopped, 1) ∧
    run ⟨9, 2, 2⟩ .init [.sent true, .close] = none ∧ run ⟨9, 2, 2⟩ .init [.sent true, .stop] = none ∧
    run ⟨9, 2, 2⟩ .init [.sent true, .success] = none ∧ run ⟨9, 2, 2⟩ .init [.sent true, .retry] = none ∧
    run ⟨9, 2, 2⟩ .init [.sent true, .timeout] = none ∧ run ⟨9, 2, 2⟩ .init [.sent true, .cancel, .notify] = none ∧
    run ⟨9, 2, 2⟩ .init [.sent true, .loop] = none ∧ run ⟨9, 2, 2⟩ .init [.sent true, .sent true] = none := by decide +kernel
/-- A slow backend: five units for the first message and three for the second; the ticks meanwhile are one tick, and the bound of
`C163_rate` is met. -/
example : (run ⟨9, 1, 9⟩ .init [.pass, .pass, .pass, .pass, .pass, .sent true, .pass, .retry, .pass, .pass, .pass, .sent true, .retry,
    .sent true]).map (fun s => (s.phase, s.now, s.begun, s.sends, s.tickC)) = some (.waiting, 9, 5, [9, 6, 0], false) ∧
    (run ⟨9, 1, 9⟩ .init [.pass, .pass, .pass, .pass, .pass, .sent true, .pass, .retry, .sent true, .pass, .retry]).map
      (fun s => (s.phase, s.now - s.begun, s.sends.length - 1)) = some (.sending, 2, 2) := by decide +kernel

/-! ## C99: no value of the options crashes the program -/

/-- The full statement is without `hi`, `hr`.  This part: options that are not negative (zero means the default value) do not. -/
theorem C99_update_partial {o : Opts} (hi : 0 ≤ o.interval) (hr : 0 ≤ o.retry) {l : List Act} {s : St}
    (h : run (resolve o) .init l = some s) : s.phase ≠ .crashed := by
  have h1 : 0 < (resolve o).interval := by simp only [resolve]; split <;> omega
  have h2 : 0 < (resolve o).retry := by simp only [resolve]; split <;> omega
  revert h
  generalize resolve o = r at *
  have key : ∀ {l : List Act} {s s' : St}, s.phase ≠ .crashed → run r s l = some s' → s'.phase ≠ .crashed := by
    intro l
    induction l with
    | nil => intro s s' h hs; simp only [run, Option.some.injEq] at hs; subst hs; exact h
    | cons a l ih =>
      intro s s' h hs
      simp only [run, Option.bind_eq_some_iff] at hs
      obtain ⟨s1, hs1, hs⟩ := hs
      refine ih ?_ hs
      cases a <;> simp only [step] at hs1
      · rw [if_neg h] at hs1; cases hs1; exact h
      · split at hs1
        · cases hs1; simp [St.begin, show ¬ r.retry ≤ 0 by omega]
        · split at hs1 <;> cases hs1; simp
      · split at hs1 <;> cases hs1; simp [St.over]
      · split at hs1 <;> cases hs1; simp [St.over]
      · split at hs1 <;> cases hs1; split <;> simp [St.over]
      · split at hs1 <;> cases hs1; split <;> simp [St.over]
      · split at hs1 <;> cases hs1; simp [show ¬ r.interval ≤ 0 by omega]
      · split at hs1 <;> cases hs1; exact h
      · split at hs1 <;> cases hs1; exact h
      · split at hs1 <;> cases hs1; exact h
  exact key (by simp [St.init])

/-- A negative `RetryInterval` panics in a goroutine of the library as soon as the first message is sent: nobody can recover. -/
theorem C99_violated_retry {o : Opts} (hr : o.retry < 0) (ok : Bool) :
    ∃ s, run (resolve o) .init [.sent ok] = some s ∧ s.phase = .crashed := by
  refine ⟨_, rfl, ?_⟩
  have h : (resolve o).retry ≤ 0 := by simp only [resolve]; split <;> omega
  simp [St.begin, h]

/-- A negative `KeyUpdateInterval` panics as soon as the first exchange is over. -/
theorem C99_violated_interval {o : Opts} (hi : o.interval < 0) (hr : 0 ≤ o.retry) :
    ∃ s, run (resolve o) .init [.sent true, .notify, .success, .loop] = some s ∧ s.phase = .crashed := by
  have h : (resolve o).interval ≤ 0 := by simp only [resolve]; split <;> omega
  have h2 : ¬ (resolve o).retry ≤ 0 := by simp only [resolve]; split <;> omega
  refine ⟨_, by simp [run, step, St.init, St.begin, h2, St.seen, St.over]; rfl, ?_⟩
  simp [h]

/-- A negative `Timeout` does not crash; the exchanger gives up without waiting, whatever the network is like. -/
theorem C99_negative_timeout {o : Opts} (ht : o.timeout < 0) (hr : 0 ≤ o.retry) {s : St} (h : Prompt (resolve o) s)
    (hw : s.phase = .waiting) : s.now = 0 ∧ ¬ Quiet s ∧ s.sends = [0] ∧ ∃ s', step (resolve o) s .timeout = some s' := by
  have h1 : (resolve o).timeout < 0 := by simp only [resolve]; split <;> omega
  have h2 : 0 < (resolve o).retry := by simp only [resolve]; split <;> omega
  obtain ⟨m, b1, b2, b3, b4, b5, b6, b7, b8, b9⟩ := (prompt_fast h2 h).busy (.inl hw)
  have hz : (resolve o).timeout.toNat = 0 := by omega
  have hn : s.now = 0 ∧ s.timerC = true := by
    rcases b9 with b9 | b9
    · omega
    · exact ⟨by omega, b9.2.1⟩
  have hm : m = 0 := by
    rcases Nat.eq_zero_or_pos m with hm | hm
    · exact hm
    · have := Nat.mul_le_mul_right (resolve o).retry.toNat hm
      omega
  have htc : s.tickC = false := by
    cases htc : s.tickC with
    | false => rfl
    | true => have := b6 htc; omega
  refine ⟨hn.1, ?_, ?_, ?_⟩
  · rintro (hq | hq | ⟨-, -, hq, -⟩)
    · simp [hw] at hq
    · simp [hw] at hq
    · simp [hn.2] at hq
  · rw [htc, hm] at b5
    have : s.sends.reverse = [0] := by simpa [multiples] using b5
    simpa using congrArg List.reverse this
  · simp only [step, hw, hn.2, and_self, if_true]
    exact ⟨_, rfl⟩

/-- Zero means a minute, a second, a minute. -/
example : resolve ⟨0, 0, 0⟩ = ⟨60000000000, 1000000000, 60000000000⟩ ∧ resolve ⟨1, 2, 3⟩ = ⟨1, 2, 3⟩ ∧
    resolve ⟨-1, -2, -3⟩ = ⟨-1, -2, -3⟩ := by decide +kernel
/-- The hypotheses can be met; with a negative time-out a success may be seen all the same, if it is there already. -/
example : (prompt (resolve ⟨0, 0, -1⟩) .init [.sent true]).map (fun s => (s.phase, s.now)) = some (.waiting, 0) ∧
    (prompt (resolve ⟨0, 0, -1⟩) .init [.sent true, .timeout]).map (fun s => (s.res, s.errors)) = some (some .timeout, 1) ∧
    (prompt (resolve ⟨0, 0, -1⟩) .init [.notify, .sent true, .timeout]).map (fun s => (s.res, s.errors)) = some (some .success, 0) ∧
    (run (resolve ⟨-1, 0, 0⟩) .init [.sent true, .pass, .notify, .pass]).map (·.phase) = some .waiting ∧
    (run (resolve ⟨0, -1, 0⟩) .init [.sent true, .pass]) = none := by decide +kernel

/-- Ticks and the time-out wait in their channels while a slow backend is writing; of several ticks one is kept. -/
example : (run ⟨9, 3, 20⟩ .init [.sent true, .pass, .pass, .pass, .retry, .pass, .pass, .pass, .pass, .sent true, .retry]).map
      (fun s => (s.phase, s.sends)) = some (.sending, [7, 3, 0]) ∧
    (run ⟨9, 2, 20⟩ .init [.sent true, .pass, .pass, .pass, .pass, .pass, .retry, .sent true]).map
      (fun s => (s.phase, s.tickC, s.sends)) = some (.waiting, false, [5, 0]) ∧
    (run ⟨9, 3, 4⟩ .init [.sent true, .pass, .pass, .pass, .retry, .pass, .pass, .sent true, .timeout]).map
      (fun s => (s.res, s.now)) = some (some .timeout, 5) := by decide +kernel

end Verif.Retry

#print axioms Verif.Retry.C163_regular
#print axioms Verif.Retry.C163_gives_up
#print axioms Verif.Retry.C163_rate
#print axioms Verif.Retry.C163_success
#print axioms Verif.Retry.C99_update_partial
#print axioms Verif.Retry.C99_violated_retry
#print axioms Verif.Retry.C99_violated_interval
#print axioms Verif.Retry.C99_negative_timeout
