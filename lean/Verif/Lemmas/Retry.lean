import Verif.Spec.Retry
/-!
# Lemmas about repeated requests
-/
namespace Verif.Retry

/-! ## The rate, in all executions -/

structure Rate (R : Nat) (s : St) : Prop where
  first : s.phase = .first → s.sends.length = 1 ∧ s.tickC = false ∧ s.tickAt = none
  ex : s.phase ≠ .first → ∃ m, s.sends.length ≤ m + 1 ∧ (s.tickC = true → s.sends.length ≤ m) ∧ s.begun + R * m ≤ s.now ∧
    ∀ t, s.tickAt = some t → s.begun + R * m + R ≤ t

theorem step_rate {o : Opts} (hr : 0 < o.retry) {s s' : St} {a : Act} (h : Rate o.retry.toNat s) (hs : step o s a = some s')
    (hc : s'.phase ≠ .crashed ∨ s.phase ≠ .first) : Rate o.retry.toNat s' := by
  obtain ⟨h1, h2⟩ := h
  generalize hR : o.retry.toNat = R at *
  cases a with
  | pass =>
    simp only [step] at hs
    split at hs
    · cases hs
    · cases hs
      by_cases hf : s.phase = .first
      · obtain ⟨h3, h4, h5⟩ := h1 hf
        exact ⟨fun _ => by simp [St.pass, h3, h4, h5], fun hn => absurd hf hn⟩
      · obtain ⟨m, h3, h4, h5, h6⟩ := h2 hf
        refine ⟨fun hn => absurd hn hf, fun _ => ?_⟩
        simp only [St.pass, hR]
        cases ht : s.tickAt with
        | none => exact ⟨m, h3, by simpa using h4, by omega, by simp⟩
        | some t =>
          have h7 := h6 t ht
          by_cases hd : t ≤ s.now + 1
          · have hm : R * (m + 1) = R * m + R := Nat.mul_succ R m
            refine ⟨m + 1, by omega, fun _ => h3, by omega, fun t' ht' => ?_⟩
            simp [hd] at ht'
            omega
          · refine ⟨m, h3, by simpa [hd] using h4, by omega, fun t' ht' => ?_⟩
            simp [hd] at ht'
            omega
  | sent ok =>
    simp only [step] at hs
    split at hs
    · rename_i hf
      cases hs
      obtain ⟨h3, h4, h5⟩ := h1 hf
      have hz : R * 0 = 0 := Nat.mul_zero R
      unfold St.begin
      rw [if_neg (by omega)]
      refine ⟨by simp, fun _ => ⟨0, ?_, by simp, by simp, by simp [hR]⟩⟩
      cases ok <;> simp [h3]
    · rename_i hf
      split at hs
      · cases hs
        obtain ⟨m, h3, h4, h5, h6⟩ := h2 hf
        exact ⟨by simp, fun _ => ⟨m, by cases ok <;> exact h3, by cases ok <;> exact h4, by cases ok <;> exact h5,
          by cases ok <;> exact h6⟩⟩
      · cases hs
  | stop =>
    simp only [step] at hs
    split at hs
    · rename_i hw
      cases hs
      obtain ⟨m, h3, h4, h5, h6⟩ := h2 (by simp [hw.1])
      exact ⟨by simp [St.over], fun _ => ⟨m, h3, by simp [St.over], h5, by simp [St.over]⟩⟩
    · cases hs
  | success =>
    simp only [step] at hs
    split at hs
    · rename_i hw
      cases hs
      obtain ⟨m, h3, h4, h5, h6⟩ := h2 (by simp [hw.1])
      exact ⟨by simp [St.over], fun _ => ⟨m, h3, by simp [St.over], h5, by simp [St.over]⟩⟩
    · cases hs
  | retry =>
    simp only [step] at hs
    split at hs
    · rename_i hw
      cases hs
      obtain ⟨m, h3, h4, h5, h6⟩ := h2 (by simp [hw.1])
      split
      · exact ⟨by simp [St.over], fun _ => ⟨m, h3, by simp [St.over], h5, by simp [St.over]⟩⟩
      · refine ⟨by simp, fun _ => ⟨m, ?_, by simp, h5, h6⟩⟩
        have := h4 hw.2
        simp only [List.length_cons]
        omega
    · cases hs
  | timeout =>
    simp only [step] at hs
    split at hs
    · rename_i hw
      cases hs
      obtain ⟨m, h3, h4, h5, h6⟩ := h2 (by simp [hw.1])
      split
      · exact ⟨by simp [St.over], fun _ => ⟨m, h3, by simp [St.over], h5, by simp [St.over]⟩⟩
      · exact ⟨by simp [St.over], fun _ => ⟨m, h3, by simp [St.over], h5, by simp [St.over]⟩⟩
    · cases hs
  | loop =>
    simp only [step] at hs
    split at hs
    · rename_i hw
      cases hs
      obtain ⟨m, h3, h4, h5, h6⟩ := h2 (by simp [hw])
      exact ⟨by dsimp only; split <;> simp, fun _ => ⟨m, h3, h4, h5, h6⟩⟩
    · cases hs
  | notify =>
    simp only [step] at hs
    split at hs
    · cases hs
    · cases hs; exact ⟨h1, h2⟩
  | cancel =>
    simp only [step] at hs
    split at hs
    · cases hs
    · cases hs; exact ⟨h1, h2⟩
  | close =>
    simp only [step] at hs
    split at hs
    · cases hs
    · cases hs; exact ⟨h1, h2⟩

theorem run_rate {o : Opts} (hr : 0 < o.retry) : ∀ {l : List Act} {s s' : St}, Rate o.retry.toNat s → run o s l = some s' →
    Rate o.retry.toNat s'
  | [], _, _, h, hs => by simp only [run, Option.some.injEq] at hs; subst hs; exact h
  | a :: l, s, s', h, hs => by
    simp only [run, Option.bind_eq_some_iff] at hs
    obtain ⟨s1, hs1, hs⟩ := hs
    refine run_rate hr (step_rate hr h hs1 ?_) hs
    by_cases hf : s.phase = .first
    · refine .inl ?_
      cases a <;> simp only [step, hf, reduceCtorEq, false_and, false_or, if_false, if_true, Option.some.injEq] at hs1
      · subst hs1; simp [St.pass, hf]
      · subst hs1
        unfold St.begin
        rw [if_neg (by omega)]
        simp
      · split at hs1 <;> cases hs1; simp [hf]
      · subst hs1; simp [hf]
      · split at hs1 <;> cases hs1; simp [hf]
    · exact .inr hf

/-! ## Success -/

structure Safe (sends : List Nat) (s : St) : Prop where
  sends : s.sends = sends
  cases : (s.res = none ∧ s.note = true ∧ s.phase ≠ .back ∧ s.phase ≠ .idle) ∨
    ((s.res = some .success ∨ s.res = some .stopped) ∧ (s.phase = .back ∨ s.phase = .idle ∨ s.phase = .crashed))

theorem step_safe {o : Opts} {l : List Nat} {s s' : St} {a : Act} (h : Safe l s) (hs : step o s a = some s') : Safe l s' := by
  obtain ⟨h1, h2⟩ := h
  cases a with
  | pass => simp only [step] at hs; split at hs <;> cases hs; exact ⟨h1, h2⟩
  | sent ok =>
    simp only [step] at hs
    split at hs
    · rename_i hf
      cases hs
      have h2 : s.res = none ∧ s.note = true := by
        rcases h2 with h2 | h2
        · exact ⟨h2.1, h2.2.1⟩
        · simp [hf] at h2
      unfold St.begin
      split <;> cases ok <;> exact ⟨h1, .inl ⟨h2.1, h2.2, by simp, by simp⟩⟩
    · split at hs
      · rename_i hf
        cases hs
        cases ok <;> exact ⟨h1, by simpa [hf] using h2⟩
      · cases hs
  | stop =>
    simp only [step] at hs; split at hs <;> cases hs
    exact ⟨h1, .inr (by simp [St.over])⟩
  | success =>
    simp only [step] at hs; split at hs <;> cases hs
    exact ⟨h1, .inr (by simp only [St.over]; split <;> simp)⟩
  | retry =>
    simp only [step] at hs; split at hs <;> cases hs
    rename_i hw
    have hn : s.note = true := by rcases h2 with h2 | h2; exact h2.2.1; simp [hw.1] at h2
    rw [if_pos (by simp [St.seen, hn])]
    exact ⟨h1, .inr (by simp only [St.over]; split <;> simp)⟩
  | timeout =>
    simp only [step] at hs; split at hs <;> cases hs
    rename_i hw
    have hn : s.note = true := by rcases h2 with h2 | h2; exact h2.2.1; simp [hw.1] at h2
    rw [if_pos (by simp [St.seen, hn])]
    exact ⟨h1, .inr (by simp only [St.over]; split <;> simp)⟩
  | loop =>
    simp only [step] at hs; split at hs <;> cases hs
    rename_i hw
    refine ⟨h1, .inr ⟨?_, by dsimp only; split <;> simp⟩⟩
    rcases h2 with h2 | h2
    · exact absurd hw h2.2.2.1
    · exact h2.1
  | notify =>
    simp only [step] at hs; split at hs <;> cases hs
    refine ⟨h1, ?_⟩
    rcases h2 with h2 | h2
    · exact .inl ⟨h2.1, rfl, h2.2.2⟩
    · exact .inr h2
  | cancel => simp only [step] at hs; split at hs <;> cases hs; exact ⟨h1, h2⟩
  | close => simp only [step] at hs; split at hs <;> cases hs; exact ⟨h1, h2⟩

theorem run_safe {o : Opts} {sends : List Nat} : ∀ {l : List Act} {s s' : St}, Safe sends s → run o s l = some s' → Safe sends s'
  | [], _, _, h, hs => by simp only [run, Option.some.injEq] at hs; subst hs; exact h
  | a :: l, s, s', h, hs => by
    simp only [run, Option.bind_eq_some_iff] at hs
    obtain ⟨s1, hs1, hs⟩ := hs
    exact run_safe (step_safe h hs1) hs

/-! ## Fast computers -/

theorem multiples_succ (r n : Nat) : multiples r (n + 1) = multiples r n ++ [n * r] := by
  simp [multiples, List.range_succ]

/-- The update is under way, and `m` ticks have been. -/
structure Busy (R T : Nat) (s : St) (m : Nat) : Prop where
  res : s.res = none
  tickAt : s.tickAt = some (m * R + R)
  lo : m * R ≤ s.now
  hi : s.now < m * R + R
  sends : s.sends.reverse = multiples R (if s.tickC then m else m + 1)
  pos : s.tickC = true → 0 < m
  exact : s.tickC = true ∨ s.phase = .sending → s.now = m * R
  one : s.phase = .sending → s.tickC = false
  timer : s.timer = some T ∧ s.timerC = false ∧ s.now < T ∨ s.timer = none ∧ s.timerC = true ∧ s.now = T

/-- What is known of executions on fast computers. -/
structure Fast (o : Opts) (s : St) : Prop where
  first : s.phase = .first → s.now = 0 ∧ s.sends = [0] ∧ s.res = none
  busy : s.phase = .waiting ∨ s.phase = .sending → ∃ m, Busy o.retry.toNat o.timeout.toNat s m
  done : s.res = some .timeout → (s.phase = .back ∨ s.phase = .idle ∨ s.phase = .crashed) ∧
    ∃ n, 0 < n ∧ s.sends.reverse = multiples o.retry.toNat n ∧ o.timeout.toNat ≤ n * o.retry.toNat ∧ (n - 1) * o.retry.toNat ≤ o.timeout.toNat

theorem over_fast {o : Opts} {s : St} {r : Res} (hr : r ≠ .timeout) : Fast o (s.over r) :=
  ⟨by simp [St.over], by simp [St.over], by simp [St.over, hr]⟩

theorem step_fast {o : Opts} (hr : 0 < o.retry) {s s' : St} {a : Act} (h : Fast o s) (hq : a = .pass → Quiet s)
    (hs : step o s a = some s') : Fast o s' := by
  obtain ⟨h1, h2, h3⟩ := h
  have hR : 0 < o.retry.toNat := by omega
  cases a with
  | pass =>
    simp only [step] at hs; split at hs <;> cases hs
    rename_i hcr
    rcases hq rfl with hq | hq | ⟨hq, hq1, hq2, -⟩
    · exact absurd hq hcr
    · exact ⟨by simp [St.pass, hq], by simp [St.pass, hq], h3⟩
    · refine ⟨by simp [St.pass, hq], fun _ => ?_, h3⟩
      obtain ⟨m, h⟩ := h2 (.inl hq)
      obtain ⟨b1, b2, b3, b4, b5, b6, b7, b8, b9⟩ := h
      have hm : (m + 1) * o.retry.toNat = m * o.retry.toNat + o.retry.toNat := Nat.succ_mul _ _
      simp only [hq2, Bool.true_eq_false, Bool.false_eq_true, false_and, and_false, or_false, true_and] at b9
      by_cases hd : m * o.retry.toNat + o.retry.toNat ≤ s.now + 1
      · refine ⟨m + 1, ⟨b1, ?_, ?_, ?_, ?_, ?_, ?_, ?_, ?_⟩⟩
        · simp [St.pass, b2, hd, hm]
        · simp only [St.pass]; omega
        · simp only [St.pass]; omega
        · simpa [St.pass, b2, hd, hq1] using b5
        · simp
        · intro _; simp only [St.pass]; omega
        · simp [St.pass, hq]
        · simp only [St.pass, b9.1, hq2]
          by_cases ht : o.timeout.toNat ≤ s.now + 1
          · exact .inr (by simp [ht]; omega)
          · exact .inl (by simp [ht]; omega)
      · refine ⟨m, ⟨b1, ?_, ?_, ?_, ?_, ?_, ?_, ?_, ?_⟩⟩
        · simp [St.pass, b2, hd]
        · simp only [St.pass]; omega
        · simp only [St.pass]; omega
        · simpa [St.pass, b2, hd, hq1] using b5
        · simp [St.pass, b2, hd, hq1]
        · simp [St.pass, b2, hd, hq1, hq]
        · simp [St.pass, hq]
        · simp only [St.pass, b9.1, hq2]
          by_cases ht : o.timeout.toNat ≤ s.now + 1
          · exact .inr (by simp [ht]; omega)
          · exact .inl (by simp [ht]; omega)
  | sent ok =>
    simp only [step] at hs
    split at hs
    · rename_i hf
      cases hs
      obtain ⟨f1, f2, f3⟩ := h1 hf
      unfold St.begin
      rw [if_neg (by omega)]
      refine ⟨by simp, fun _ => ⟨0, ?_⟩, ?_⟩
      · have hn : (if ok = true then s else { s with ctx := true, errors := s.errors + 1 }).now = 0 := by cases ok <;> exact f1
        have hse : (if ok = true then s else { s with ctx := true, errors := s.errors + 1 }).sends = [0] := by cases ok <;> exact f2
        have hre : (if ok = true then s else { s with ctx := true, errors := s.errors + 1 }).res = none := by cases ok <;> exact f3
        refine ⟨hre, by simp [hn], by simp, by simp [hn]; omega, by simp [hse, multiples], by simp, by simp, by simp, ?_⟩
        simp only [hn]
        by_cases ht : o.timeout ≤ 0
        · exact .inr (by simp [ht]; omega)
        · exact .inl (by simp [ht]; omega)
      · have hre : (if ok = true then s else { s with ctx := true, errors := s.errors + 1 }).res = none := by cases ok <;> exact f3
        simp [hre]
    · split at hs
      · rename_i hf
        cases hs
        obtain ⟨m, b1, b2, b3, b4, b5, b6, b7, b8, b9⟩ := h2 (.inr hf)
        have b8 := b8 hf
        refine ⟨by simp, fun _ => ⟨m, ?_⟩, by cases ok <;> simp [b1]⟩
        cases ok
        · exact ⟨b1, b2, b3, b4, b5, b6, by simp [b8], by simp, b9⟩
        · exact ⟨b1, b2, b3, b4, b5, b6, by simp [b8], by simp, b9⟩
      · cases hs
  | stop =>
    simp only [step] at hs; split at hs <;> cases hs
    exact over_fast (by simp)
  | success =>
    simp only [step] at hs; split at hs <;> cases hs
    exact over_fast (by split <;> simp)
  | retry =>
    simp only [step] at hs; split at hs <;> cases hs
    rename_i hw
    split
    · exact over_fast (by split <;> simp)
    · obtain ⟨m, b1, b2, b3, b4, b5, b6, b7, b8, b9⟩ := h2 (.inl hw.1)
      have b7 := b7 (.inl hw.2)
      refine ⟨by simp, fun _ => ⟨m, b1, b2, b3, b4, ?_, by simp, fun _ => b7, by simp, b9⟩, by simp [b1]⟩
      rw [hw.2, if_pos rfl] at b5
      simp [b5, multiples_succ, b7]
  | timeout =>
    simp only [step] at hs; split at hs <;> cases hs
    rename_i hw
    split
    · exact over_fast (by split <;> simp)
    · obtain ⟨m, b1, b2, b3, b4, b5, b6, b7, b8, b9⟩ := h2 (.inl hw.1)
      refine ⟨by simp [St.over], by simp [St.over], fun _ => ⟨by simp [St.over], ?_⟩⟩
      have hT : s.now = o.timeout.toNat := by rcases b9 with b9 | b9; simp [b9.2.1] at hw; exact b9.2.2
      cases htc : s.tickC
      · rw [htc] at b5
        have hm : (m + 1) * o.retry.toNat = m * o.retry.toNat + o.retry.toNat := Nat.succ_mul _ _
        exact ⟨m + 1, by omega, by simpa [St.over] using b5, by omega, by rw [Nat.add_sub_cancel]; omega⟩
      · rw [htc] at b5
        have b7 := b7 (.inl htc)
        have hle : (m - 1) * o.retry.toNat ≤ m * o.retry.toNat := Nat.mul_le_mul_right _ (by omega)
        exact ⟨m, b6 htc, by simpa [St.over] using b5, by omega, by omega⟩
  | loop =>
    simp only [step] at hs; split at hs <;> cases hs
    rename_i hw
    refine ⟨by dsimp only; split <;> simp, by dsimp only; split <;> simp, fun ht => ⟨by dsimp only; split <;> simp, (h3 ht).2⟩⟩
  | notify =>
    simp only [step] at hs; split at hs <;> cases hs
    refine ⟨h1, fun hp => ?_, h3⟩
    obtain ⟨m, b1, b2, b3, b4, b5, b6, b7, b8, b9⟩ := h2 hp
    exact ⟨m, b1, b2, b3, b4, b5, b6, b7, b8, b9⟩
  | cancel =>
    simp only [step] at hs; split at hs <;> cases hs
    refine ⟨h1, fun hp => ?_, h3⟩
    obtain ⟨m, b1, b2, b3, b4, b5, b6, b7, b8, b9⟩ := h2 hp
    exact ⟨m, b1, b2, b3, b4, b5, b6, b7, b8, b9⟩
  | close =>
    simp only [step] at hs; split at hs <;> cases hs
    refine ⟨h1, fun hp => ?_, h3⟩
    obtain ⟨m, b1, b2, b3, b4, b5, b6, b7, b8, b9⟩ := h2 hp
    exact ⟨m, b1, b2, b3, b4, b5, b6, b7, b8, b9⟩

theorem prompt_fast {o : Opts} (hr : 0 < o.retry) {s : St} (h : Prompt o s) : Fast o s := by
  induction h with
  | init => exact ⟨by simp [St.init], by simp [St.init], by simp [St.init]⟩
  | step a _ hq hs ih => exact step_fast hr ih hq hs

theorem Prompt.of_list {o : Opts} : ∀ {l : List Act} {s s' : St}, Prompt o s → prompt o s l = some s' → Prompt o s'
  | [], _, _, h, hs => by simp only [prompt, Option.some.injEq] at hs; subst hs; exact h
  | a :: l, s, s', h, hs => by
    simp only [prompt] at hs
    split at hs
    · rename_i hq
      simp only [Option.bind_eq_some_iff] at hs
      obtain ⟨s1, hs1, hs⟩ := hs
      exact Prompt.of_list (.step a h hq hs1) hs
    · cases hs

end Verif.Retry
