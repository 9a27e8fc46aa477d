import Verif.Lemmas.KeyTimer
/-!
# Lemmas about key updates that have succeeded
-/
namespace Verif.KeyTimer

/-- While the loop is in one update: the loop waits for a key that is not newer than the newest, and what is in the channel counts. -/
structure Upd (s : St) : Prop where
  main : s.main = .send ∨ s.main = .waiting ∨ s.main = .idle
  key : s.hasKey = true
  ans : ∀ a ∈ s.answers, a = .start ∨ a = .send ∨ a = .skip
  await : s.main ≠ .idle → s.awaited ≤ s.next
  note : s.main ≠ .idle → ∀ v, s.notify = some v → s.awaited ≤ v

/-- The loop has seen the success or will see it. -/
def Won (s : St) : Prop := s.main = .idle ∨ ∃ v, s.notify = some v ∧ s.awaited ≤ v

theorem take_upd {c : Cfg} {s : St} (h : Upd s) (hm : s.main = .waiting) :
    Upd (s.take c) ∧ (Won s → (s.take c).main = .idle) ∧ (s.take c).main ≠ .send := by
  obtain ⟨h1, h2, h3, h4, h5⟩ := h
  unfold St.take
  split
  · rename_i v hv
    have := h5 (by simp [hm]) v hv
    rw [if_pos this]
    exact ⟨⟨.inr (.inr rfl), h2, h3, by simp [St.toIdle], by simp [St.toIdle]⟩, fun _ => rfl, by simp [St.toIdle]⟩
  · rename_i hn
    refine ⟨⟨h1, h2, h3, h4, h5⟩, fun hw => ?_, by simp [hm]⟩
    rcases hw with hw | ⟨v, hv, _⟩
    · exact hw
    · simp [hn] at hv

theorem step_upd {c : Cfg} {s s' : St} {a : Act} (h : Upd s) (hl : isLoop a = true → s.main = .send) (hs : step c s a = some s') :
    Upd s' ∧ (Won s ∨ completes c a = true → Won s') ∧ (s.main ≠ .send ∨ isLoop a = true → s'.main ≠ .send) := by
  unfold step at hs
  split at hs
  · split at hs
    · cases hs
      rename_i ha
      subst ha
      obtain ⟨h1, h2, h3, h4, h5⟩ := h
      exact ⟨⟨h1, h2, h3, h4, h5⟩, by simp [completes, Won], by simp [isLoop]⟩
    · cases hs
  · cases a with
    | pass =>
      simp only [stepOpen, Option.some.injEq] at hs
      subst hs
      obtain ⟨h1, h2, h3, h4, h5⟩ := h
      unfold St.pass
      split
      · split
        · exact ⟨⟨h1, h2, h3, h4, h5⟩, by simp [completes, Won], by simp [isLoop]⟩
        · exact ⟨⟨h1, h2, h3, h4, h5⟩, by simp [completes, Won], by simp [isLoop]⟩
      · exact ⟨⟨h1, h2, h3, h4, h5⟩, by simp [completes, Won], by simp [isLoop]⟩
    | loop k =>
      have hm := hl rfl
      simp only [stepOpen, St.loop, hm, Option.some.injEq] at hs
      subst hs
      obtain ⟨h1, h2, h3, h4, h5⟩ := h
      refine ⟨⟨.inr (.inl rfl), h2, h3, fun _ => h4 (by simp [hm]), fun _ => h5 (by simp [hm])⟩, ?_, by simp⟩
      simp [completes, Won, hm]
    | retry =>
      simp only [stepOpen] at hs
      split at hs
      · rename_i hm
        cases hs
        have := take_upd (c := c) h hm
        exact ⟨this.1, by simp only [completes, Bool.false_eq_true, or_false]; exact fun hw => .inl (this.2.1 hw), fun _ => this.2.2⟩
      · cases hs
    | done =>
      simp only [stepOpen] at hs
      split at hs
      · rename_i hm
        cases hs
        have := take_upd (c := c) h hm.1
        exact ⟨this.1, by simp only [completes, Bool.false_eq_true, or_false]; exact fun hw => .inl (this.2.1 hw), fun _ => this.2.2⟩
      · cases hs
    | timeout =>
      simp only [stepOpen] at hs
      split at hs
      · rename_i hm
        cases hs
        have := take_upd (c := c) h hm.1
        split
        · exact ⟨this.1, by simp only [completes, Bool.false_eq_true, or_false]; exact fun hw => .inl (this.2.1 hw), fun _ => this.2.2⟩
        · rename_i hne
          obtain ⟨⟨h1, h2, h3, h4, h5⟩, hw, hse⟩ := this
          exact ⟨⟨h1, h2, h3, h4, h5⟩, by simp only [completes, Bool.false_eq_true, or_false]; exact fun w => absurd (hw w) hne,
            fun _ => hse⟩
      · cases hs
    | recv b =>
      simp only [stepOpen] at hs
      split at hs
      · cases hs
      · cases hs
        obtain ⟨h1, h2, h3, h4, h5⟩ := h
        unfold St.handle
        cases hb : (b || c.mode != 1) <;> cases hd : (!b && c.mode != 3) <;>
          simp only [if_true, if_false, Bool.false_eq_true, completes, hb]
        · exact ⟨⟨h1, h2, h3, h4, h5⟩, by simp [Won], by simp [isLoop]⟩
        · refine ⟨⟨h1, h2, fun a ha => ?_, h4, h5⟩, by simp [Won], by simp [isLoop]⟩
          simp only [List.mem_append, List.mem_singleton] at ha
          rcases ha with ha | ha
          · exact h3 a ha
          · exact .inl ha
        all_goals
          refine ⟨⟨h1, h2, fun a ha => ?_, h4, fun hm v hv => ?_⟩, fun _ => ?_, by simp [isLoop]⟩
          · first
            | exact h3 a ha
            | simp only [List.mem_append, List.mem_singleton] at ha
              rcases ha with ha | ha
              · exact h3 a ha
              · exact .inl ha
          · simp only [Option.some.injEq] at hv
            cases hn : s.notify with
            | none => simp [hn] at hv; rw [← hv]; exact h4 hm
            | some w => simp [hn] at hv; rw [← hv]; exact h5 hm w hn
          · by_cases hm : s.main = .idle
            · exact .inl hm
            · refine .inr ⟨_, rfl, ?_⟩
              cases hn : s.notify with
              | none => exact h4 hm
              | some w => exact h5 hm w hn
    | answer i k =>
      simp only [stepOpen, St.answer] at hs
      obtain ⟨h1, h2, h3, h4, h5⟩ := h
      have hset : ∀ b, b = .start ∨ b = .send ∨ b = .skip → ∀ a ∈ s.answers.set i b, a = .start ∨ a = .send ∨ a = .skip := by
        intro b hb a ha
        rcases List.mem_or_eq_of_mem_set ha with ha | ha
        · exact h3 a ha
        · rw [ha]; exact hb
      split at hs
      · cases hs
      · cases hs
        exact ⟨⟨h1, h2, hset _ (by simp [h2]), h4, h5⟩, by simp [completes, Won], by simp [isLoop]⟩
      · rename_i hi
        have := h3 _ (List.mem_of_getElem? hi)
        simp at this
      · rename_i hi
        have := h3 _ (List.mem_of_getElem? hi)
        simp at this
      · cases hs
        exact ⟨⟨h1, h2, hset _ (by simp), h4, h5⟩, by simp [completes, Won], by simp [isLoop]⟩
      · cases hs
        exact ⟨⟨h1, h2, fun a ha => h3 a (List.mem_of_mem_eraseIdx ha), h4, h5⟩, by simp [completes, Won], by simp [isLoop]⟩
    | fail =>
      simp only [stepOpen] at hs
      split at hs
      · cases hs
        obtain ⟨h1, h2, h3, h4, h5⟩ := h
        exact ⟨⟨h1, h2, h3, h4, h5⟩, by simp [completes, Won, St.giveUp], by simp [isLoop, St.giveUp]⟩
      · cases hs
    | pause =>
      simp only [stepOpen] at hs
      split at hs
      · cases hs
        obtain ⟨h1, h2, h3, h4, h5⟩ := h
        exact ⟨⟨h1, h2, h3, h4, h5⟩, by simp [completes, Won], by simp [isLoop]⟩
      · cases hs
    | resume =>
      simp only [stepOpen] at hs
      split at hs
      · cases hs
        obtain ⟨h1, h2, h3, h4, h5⟩ := h
        exact ⟨⟨h1, h2, h3, h4, h5⟩, by simp [completes, Won], by simp [isLoop]⟩
      · cases hs
    | close =>
      simp only [stepOpen, Option.some.injEq] at hs
      subst hs
      obtain ⟨h1, h2, h3, h4, h5⟩ := h
      exact ⟨⟨h1, h2, h3, h4, h5⟩, by simp [completes, Won], by simp [isLoop]⟩

theorem step_send {c : Cfg} {s s' : St} {a : Act} (ha : isLoop a = false) (hm : s.main = .send) (hs : step c s a = some s') :
    s'.main = .send := by
  unfold step at hs
  split at hs
  · split at hs
    · cases hs; exact hm
    · cases hs
  · cases a <;> simp only [isLoop, Bool.true_eq_false] at ha <;>
      simp only [stepOpen, hm, reduceCtorEq, false_and, if_false, true_or, or_true, if_true, Option.some.injEq] at hs
    · subst hs; unfold St.pass; split
      · split <;> exact hm
      · exact hm
    · split at hs
      · cases hs
      · cases hs; unfold St.handle; split <;> split <;> exact hm
    · unfold St.answer at hs; split at hs <;> cases hs <;> exact hm
    · subst hs; exact hm
    · split at hs <;> cases hs; rfl
    · split at hs <;> cases hs; rfl
    · subst hs; rfl

theorem run_upd {c : Cfg} : ∀ {l : List Act} {s s' : St}, Upd s → (l.countP isLoop ≤ if s.main = .send then 1 else 0) →
    run c s l = some s' → Upd s' ∧ (Won s ∨ l.any (completes c) = true → Won s')
  | [], s, s', h, _, hr => by
    simp only [run, Option.some.injEq] at hr
    subst hr
    exact ⟨h, by simp⟩
  | a :: l, s, s', h, hl, hr => by
    simp only [run, Option.bind_eq_some_iff] at hr
    obtain ⟨s1, hs, hr⟩ := hr
    rw [List.countP_cons] at hl
    have hla : isLoop a = true → s.main = .send := by
      intro ha
      rw [ha, if_pos rfl] at hl
      split at hl
      · assumption
      · omega
    obtain ⟨h1, h2, h3⟩ := step_upd h hla hs
    have hl1 : l.countP isLoop ≤ if s1.main = .send then 1 else 0 := by
      by_cases hm : s.main = .send
      · cases ha : isLoop a
        · rw [ha] at hl
          simp only [hm, if_true, Bool.false_eq_true, if_false] at hl
          rw [if_pos (step_send ha hm hs)]
          omega
        · rw [ha] at hl
          simp only [hm, if_true] at hl
          omega
      · rw [if_neg hm] at hl
        omega
    have := run_upd h1 hl1 hr
    refine ⟨this.1, fun hw => this.2 ?_⟩
    simp only [List.any_cons, Bool.or_eq_true] at hw
    rcases hw with hw | hw | hw
    · exact .inl (h2 (.inl hw))
    · exact .inl (h2 (.inr hw))
    · exact .inr hw

/-- Before `updateLocalKey`, with nothing in the channel. -/
structure Gen (s : St) : Prop where
  main : s.main = .gen
  note : s.notify = none
  key : s.hasKey = true
  ans : ∀ a ∈ s.answers, a = .start ∨ a = .send ∨ a = .skip

theorem step_gen {c : Cfg} {s s' : St} {a : Act} (ha : isLoop a = false) (hd : completes c a = false) (h : Gen s)
    (hs : step c s a = some s') : Gen s' := by
  obtain ⟨h1, h2, h3, h4⟩ := h
  unfold step at hs
  split at hs
  · split at hs
    · cases hs; exact ⟨h1, h2, h3, h4⟩
    · cases hs
  · cases a <;> simp only [isLoop, Bool.true_eq_false] at ha <;>
      simp only [stepOpen, h1, reduceCtorEq, false_and, if_false, true_or, or_true, if_true, Option.some.injEq] at hs
    · subst hs; unfold St.pass; split
      · split <;> exact ⟨h1, h2, h3, h4⟩
      · exact ⟨h1, h2, h3, h4⟩
    · rename_i b
      split at hs
      · cases hs
      · cases hs
        simp only [completes] at hd
        unfold St.handle
        simp only [hd, Bool.false_eq_true, if_false]
        split
        · refine ⟨h1, h2, h3, fun a ha => ?_⟩
          simp only [List.mem_append, List.mem_singleton] at ha
          rcases ha with ha | ha
          · exact h4 a ha
          · exact .inl ha
        · exact ⟨h1, h2, h3, h4⟩
    · rename_i i k
      have hset : ∀ b, b = .start ∨ b = .send ∨ b = .skip → ∀ a ∈ s.answers.set i b, a = .start ∨ a = .send ∨ a = .skip := by
        intro b hb a ha
        rcases List.mem_or_eq_of_mem_set ha with ha | ha
        · exact h4 a ha
        · rw [ha]; exact hb
      unfold St.answer at hs
      split at hs
      · cases hs
      · cases hs
        exact ⟨h1, h2, h3, hset _ (by simp [h3])⟩
      · rename_i hi
        have := h4 _ (List.mem_of_getElem? hi)
        simp at this
      · rename_i hi
        have := h4 _ (List.mem_of_getElem? hi)
        simp at this
      · cases hs
        exact ⟨h1, h2, h3, hset _ (by simp)⟩
      · cases hs
        exact ⟨h1, h2, h3, fun a ha => h4 a (List.mem_of_mem_eraseIdx ha)⟩
    · subst hs; exact ⟨h1, h2, h3, h4⟩
    · split at hs <;> cases hs; exact ⟨rfl, h2, h3, h4⟩
    · split at hs <;> cases hs; exact ⟨rfl, h2, h3, h4⟩
    · subst hs; exact ⟨rfl, h2, h3, h4⟩

theorem run_gen {c : Cfg} : ∀ {l : List Act} {s s' : St}, Gen s → l.any isLoop = false → l.any (completes c) = false →
    run c s l = some s' → Gen s'
  | [], s, s', h, _, _, hr => by
    simp only [run, Option.some.injEq] at hr
    subst hr
    exact h
  | a :: l, s, s', h, hl, hd, hr => by
    simp only [run, Option.bind_eq_some_iff] at hr
    obtain ⟨s1, hs, hr⟩ := hr
    simp only [List.any_cons, Bool.or_eq_false_iff] at hl hd
    exact run_gen (step_gen hl.1 hd.1 h hs) hl.2 hd.2 hr

theorem gen_upd {c : Cfg} {s s' : St} {k : Nat} (h : Gen s) (hs : step c s (.loop k) = some s') : Upd s' ∧ s'.main = .send := by
  obtain ⟨h1, h2, h3, h4⟩ := h
  unfold step at hs
  split at hs
  · simp at hs
  · simp only [stepOpen, St.loop, h1, Option.some.injEq] at hs
    subst hs
    unfold St.updateLocalKey
    split
    · exact ⟨⟨.inl rfl, h3, h4, fun _ => Nat.le_refl _, fun _ v hv => by simp [h2] at hv⟩, rfl⟩
    · exact ⟨⟨.inl rfl, rfl, h4, fun _ => Nat.le_refl _, fun _ v hv => by simp [St.newKey, h2] at hv⟩, rfl⟩

theorem idle_run {c : Cfg} : ∀ {l : List Act} {s s' : St}, s.main = .idle → l.any isLoop = false → run c s l = some s' → s'.main = .idle
  | [], s, s', h, _, hr => by
    simp only [run, Option.some.injEq] at hr
    subst hr
    exact h
  | a :: l, s, s', h, hl, hr => by
    simp only [run, Option.bind_eq_some_iff] at hr
    obtain ⟨s1, hs, hr⟩ := hr
    simp only [List.any_cons, Bool.or_eq_false_iff] at hl
    refine idle_run ?_ hl.2 hr
    have ha := hl.1
    unfold step at hs
    split at hs
    · split at hs
      · cases hs; exact h
      · cases hs
    · cases a <;> simp only [isLoop, Bool.true_eq_false] at ha <;>
        simp only [stepOpen, h, reduceCtorEq, false_and, false_or, if_false, Option.some.injEq] at hs
      · subst hs; unfold St.pass; split
        · split <;> exact h
        · exact h
      · split at hs
        · cases hs
        · cases hs; unfold St.handle; split <;> split <;> exact h
      · unfold St.answer at hs; split at hs <;> cases hs <;> exact h
      · split at hs <;> cases hs; exact h
      · split at hs <;> cases hs; rfl
      · split at hs <;> cases hs; rfl
      · subst hs; rfl

theorem run_append {c : Cfg} : ∀ {l l' : List Act} {s s' : St}, run c s (l ++ l') = some s' → ∃ s1, run c s l = some s1 ∧ run c s1 l' = some s'
  | [], _, s, _, h => ⟨s, rfl, h⟩
  | a :: l, l', s, s', h => by
    simp only [List.cons_append, run, Option.bind_eq_some_iff] at h ⊢
    obtain ⟨s1, hs, h⟩ := h
    obtain ⟨s2, h1, h2⟩ := run_append h
    exact ⟨s2, ⟨s1, hs, h1⟩, h2⟩

end Verif.KeyTimer
