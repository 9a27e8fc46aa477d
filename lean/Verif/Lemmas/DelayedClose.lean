import Verif.Lemmas.DelayedWire
/-! Delayed sending and `Close` (helpers). -/
namespace Verif.DelayedSend

/-- Fields that most steps leave alone. -/
structure Still (s s' : State) : Prop where
  swaps : s'.swaps = s.swaps
  accepted : s.accepted <+: s'.accepted
  main : s'.main = s.main
  closer : s'.closer = s.closer
  wire : s'.wire = s.wire

theorem Still.refl (s : State) : Still s s := ⟨rfl, List.prefix_refl _, rfl, rfl, rfl⟩

theorem acquire_still {s s' : State} {r n} (hs : acquire s r = .ok (s', n)) : Still s s' := by
  unfold acquire at hs
  cases r with
  | none =>
    simp only [Outcome.ok.injEq, Prod.mk.injEq] at hs
    obtain ⟨rfl, _⟩ := hs; exact ⟨rfl, List.prefix_refl _, rfl, rfl, rfl⟩
  | some k =>
    simp only at hs
    repeat' split at hs
    all_goals try (simp at hs; done)
    simp only [Outcome.ok.injEq, Prod.mk.injEq] at hs
    obtain ⟨rfl, _⟩ := hs; exact ⟨rfl, List.prefix_refl _, rfl, rfl, rfl⟩

theorem acquireError_still {s s' : State} {r n} (hs : acquireError s r = .ok (s', n)) : Still s s' := by
  unfold acquireError at hs
  split at hs
  · rename_i s1 n1 h1
    have := acquire_still h1
    simp only [Outcome.ok.injEq, Prod.mk.injEq] at hs
    obtain ⟨rfl, _⟩ := hs
    exact ⟨this.1, this.2, this.3, this.4, this.5⟩
  · rename_i h; exact absurd hs (by intro e; exact h _ _ e)

theorem release_still {s s' : State} {x} (hs : release s x = .ok s') : Still s s' := by
  unfold release at hs
  simp only at hs
  repeat' split at hs
  all_goals try (simp at hs; done)
  all_goals (simp only [Outcome.ok.injEq] at hs; subst hs; exact ⟨rfl, List.prefix_refl _, rfl, rfl, rfl⟩)

theorem giveUp_still {s s' : State} {i m r} (hs : giveUp s i m r = .ok s') : Still s s' := by
  unfold giveUp at hs
  split at hs <;> try (simp at hs; done)
  rename_i s1 n1 h1
  have := acquireError_still h1
  simp only [Outcome.ok.injEq] at hs
  subst hs
  exact ⟨this.1, this.2, this.3, this.4, this.5⟩

theorem tryAppend_still {cfg : Cfg} {s s' : State} {m r} (hs : tryAppend cfg s m r = .ok s') : Still s s' := by
  unfold tryAppend at hs
  split at hs
  · simp at hs
  split at hs
  · split at hs
    · split at hs <;> try (simp at hs; done)
      rename_i s1 n1 h1
      have := acquireError_still h1
      simp only [Outcome.ok.injEq] at hs; subst hs
      exact ⟨this.1, this.2, this.3, this.4, this.5⟩
    · simp only [Outcome.ok.injEq] at hs; subst hs
      exact ⟨rfl, List.prefix_refl _, rfl, rfl, rfl⟩
  · simp only at hs
    split at hs
    · simp at hs
    · simp only [Outcome.ok.injEq] at hs; subst hs
      exact ⟨rfl, List.prefix_append _ _, rfl, rfl, rfl⟩

theorem begin_still {s s' : State} {r k} (hs : begin s r k = .ok s') : ∃ s1 n, s' = k s1 n ∧ Still s s1 := by
  unfold begin at hs
  split at hs <;> try (simp at hs; done)
  rename_i s1 n h1
  simp only [Outcome.ok.injEq] at hs
  exact ⟨s1, n, hs.symm, acquire_still h1⟩

theorem flushStep_swaps {s s' : State} {f : Flush} {a : FAct} {r : FRes} (hs : flushStep s f a = .ok (s', r)) :
    s.swaps ≤ s'.swaps ∧ ((∃ n, f = .acquired n) → s.swaps < s'.swaps) ∧ ∀ n, r ≠ .running (.acquired n) := by
  unfold flushStep at hs
  split at hs
  · simp only [Outcome.ok.injEq, Prod.mk.injEq] at hs
    obtain ⟨rfl, rfl⟩ := hs
    exact ⟨Nat.le_succ _, fun _ => Nat.lt_succ_self _, by simp⟩
  all_goals
    repeat' split at hs
    all_goals try (simp at hs; done)
    all_goals
      simp only [Outcome.ok.injEq, Prod.mk.injEq] at hs
      obtain ⟨rfl, rfl⟩ := hs
      first
        | exact ⟨Nat.le_refl _, by simp, by simp⟩
        | (rename_i h
           exact ⟨Nat.le_of_eq (release_still h).swaps.symm, by simp, by simp⟩)

/-- What a step does to the counter of swaps, the accepted messages and the flush of the main thread. -/
structure StepLater (s s' : State) (a : Act) : Prop where
  swaps : s.swaps ≤ s'.swaps
  accepted : s.accepted <+: s'.accepted
  closer : (∀ r, a ≠ .close r) → (∀ b r, a ≠ .closerFlush b r) → s'.closer = s.closer
  main : (∀ b r, a ≠ .mainFlush b r) →
    s'.main.flush? = s.main.flush? ∨ s'.main.flush? = [] ∨ ∃ n, s'.main.flush? = [.acquired n]
  wire : (∀ b r, a ≠ .mainFlush b r) → (∀ b r, a ≠ .closerFlush b r) → s'.wire = s.wire

theorem Still.later {s s' : State} (h : Still s s') (a : Act) : StepLater s s' a :=
  ⟨Nat.le_of_eq h.swaps.symm, h.accepted, fun _ _ => h.closer, fun _ => .inl (by rw [h.main]), fun _ _ => h.wire⟩

theorem step_later {cfg : Cfg} {s s' : State} {a : Act} (hs : step cfg s a = .ok s') : StepLater s s' a := by
  have still : ∀ {t : State}, t.swaps = s.swaps → t.accepted = s.accepted → t.main = s.main → t.closer = s.closer →
      t.wire = s.wire → StepLater s t a := fun h1 h2 h3 h4 h5 =>
    Still.later ⟨h1, by rw [h2]; exact List.prefix_refl _, h3, h4, h5⟩ a
  have still2 : ∀ {t : State}, t.swaps = s.swaps → s.accepted <+: t.accepted → t.main = s.main → t.closer = s.closer →
      t.wire = s.wire → StepLater s t a := fun h1 h2 h3 h4 h5 => Still.later ⟨h1, h2, h3, h4, h5⟩ a
  have noflush : ∀ {s1 t : State} {m : Main}, Still s s1 → t = { s1 with main := m } →
      (m.flush? = [] ∨ ∃ n, m.flush? = [.acquired n]) → StepLater s t a := by
    intro s1 t m h1 h2 h3
    subst h2
    exact ⟨Nat.le_of_eq h1.swaps.symm, h1.accepted, fun _ _ => h1.closer, fun _ => .inr h3, fun _ _ => h1.wire⟩
  have flacc : ∀ {s1 : State} {f : Flush} {b : FAct} {r : FRes}, flushStep s f b = .ok (s1, r) → s.accepted <+: s1.accepted := by
    intro s1 f b r h
    rw [flushStep_frame h]
    exact List.prefix_refl _
  have fl1 : ∀ {s1 t : State} {f : Flush} {b b2 : FAct} {r : FRes} {o : Option Nat}, flushStep s f b = .ok (s1, r) →
      t.swaps = s1.swaps → t.accepted = s1.accepted → t.closer = s1.closer → StepLater s t (.mainFlush b2 o) := by
    intro s1 t f b b2 r o h h1 h2 h3
    exact ⟨by rw [h1]; exact (flushStep_swaps h).1, by rw [h2]; exact flacc h, fun _ _ => h3.trans (frame_fields h).2.2.1,
      fun h => absurd rfl (h _ _), fun h => absurd rfl (h _ _)⟩
  have fl2 : ∀ {s1 t : State} {f : Flush} {b b2 : FAct} {r : FRes} {o : Option Nat}, flushStep s f b = .ok (s1, r) →
      t.swaps = s1.swaps → t.accepted = s1.accepted → t.main = s1.main → StepLater s t (.closerFlush b2 o) := by
    intro s1 t f b b2 r o h h1 h2 h3
    exact ⟨by rw [h1]; exact (flushStep_swaps h).1, by rw [h2]; exact flacc h, fun _ h => absurd rfl (h _ _),
      fun _ => .inl (by rw [h3, (frame_fields h).2.1]), fun _ h => absurd rfl (h _ _)⟩
  cases a with
  | write m r => exact (tryAppend_still hs).later _
  | retry i r =>
    simp only [step] at hs
    split at hs
    · have h := tryAppend_still hs
      exact still2 h.1 h.2 h.3 h.4 h.5
    · simp at hs
  | refused r =>
    simp only [step] at hs
    repeat' split at hs
    all_goals try (simp at hs; done)
    rename_i h1
    have h := acquireError_still h1
    simp only [Outcome.ok.injEq] at hs; subst hs
    exact still2 h.1 h.2 h.3 h.4 h.5
  | inc i r =>
    simp only [step] at hs
    repeat' split at hs
    all_goals try (simp at hs; done)
    · have h := giveUp_still hs
      exact still2 h.1 h.2 h.3 h.4 h.5
    all_goals (simp only [Outcome.ok.injEq] at hs; subst hs; exact still rfl rfl rfl rfl rfl)
  | poke i handoff r =>
    simp only [step] at hs
    split at hs
    · rename_i x m first hi
      repeat' split at hs
      all_goals try (simp at hs; done)
      · exact (giveUp_still hs).later _
      · simp only [Outcome.ok.injEq] at hs; subst hs; exact still rfl rfl rfl rfl rfl
      · have h := giveUp_still hs
        refine ⟨Nat.le_of_eq h.swaps.symm, h.accepted, fun _ _ => h.closer, fun _ => ?_, fun _ _ => h.wire⟩
        rw [h.main]; exact .inr (.inl rfl)
      · simp only [Outcome.ok.injEq] at hs; subst hs
        exact ⟨Nat.le_refl _, List.prefix_refl _, fun _ _ => rfl, fun _ => .inr (.inl rfl), fun _ _ => rfl⟩
      · exact (giveUp_still hs).later _
      · simp only [Outcome.ok.injEq] at hs; subst hs; exact still rfl rfl rfl rfl rfl
    · simp at hs
  | wake i =>
    simp only [step] at hs
    repeat' split at hs
    all_goals try (simp at hs; done)
    simp only [Outcome.ok.injEq] at hs; subst hs; exact still rfl rfl rfl rfl rfl
  | tick i =>
    simp only [step] at hs
    repeat' split at hs
    all_goals try (simp at hs; done)
    simp only [Outcome.ok.injEq] at hs; subst hs; exact still rfl rfl rfl rfl rfl
  | sendNow i =>
    simp only [step] at hs
    repeat' split at hs
    all_goals try (simp at hs; done)
    simp only [Outcome.ok.injEq] at hs; subst hs; exact still rfl rfl rfl rfl rfl
  | sendNowChan i =>
    simp only [step] at hs
    repeat' split at hs
    all_goals try (simp at hs; done)
    simp only [Outcome.ok.injEq] at hs; subst hs
    exact ⟨Nat.le_refl _, List.prefix_refl _, fun _ _ => rfl, fun _ => .inr (.inl rfl), fun _ _ => rfl⟩
  | userRelease i =>
    simp only [step] at hs
    repeat' split at hs
    all_goals try (simp at hs; done)
    have h := release_still hs
    exact still2 h.1 h.2 h.3 h.4 h.5
  | connect r =>
    simp only [step] at hs
    split at hs
    · obtain ⟨s1, n, rfl, h⟩ := begin_still hs
      exact noflush h rfl (.inr ⟨n, rfl⟩)
    · simp at hs
  | timer r =>
    simp only [step] at hs
    split at hs
    · obtain ⟨s1, n, rfl, h⟩ := begin_still hs
      exact noflush h rfl (.inr ⟨n, rfl⟩)
    · simp at hs
  | handle r =>
    simp only [step] at hs
    split at hs
    · split at hs
      · simp only [Outcome.ok.injEq] at hs; subst hs
        exact noflush (Still.refl s) rfl (.inl rfl)
      · obtain ⟨s1, n, rfl, h⟩ := begin_still hs
        exact noflush h rfl (.inr ⟨n, rfl⟩)
    · simp at hs
  | mainFlush b r =>
    simp only [step] at hs
    split at hs
    · split at hs <;> try (simp at hs; done)
      · rename_i hf
        simp only [Outcome.ok.injEq] at hs; subst hs
        exact fl1 hf rfl rfl rfl
      · rename_i hf
        simp only [Outcome.ok.injEq] at hs; subst hs
        exact fl1 hf rfl rfl rfl
      · rename_i s1 id hf
        obtain ⟨s2, n, rfl, h⟩ := begin_still hs
        exact ⟨Nat.le_trans (flushStep_swaps hf).1 (Nat.le_of_eq h.swaps.symm), (flacc hf).trans h.accepted,
          fun _ _ => h.closer.trans (frame_fields hf).2.2.1, fun h => absurd rfl (h _ _), fun h => absurd rfl (h _ _)⟩
    · split at hs <;> try (simp at hs; done)
      · rename_i hf
        simp only [Outcome.ok.injEq] at hs; subst hs
        exact fl1 hf rfl rfl rfl
      · rename_i hf
        simp only [Outcome.ok.injEq] at hs; subst hs
        exact fl1 hf rfl rfl rfl
    · simp at hs
  | mainRelease =>
    simp only [step] at hs
    split at hs
    · have h := release_still hs
      refine ⟨Nat.le_of_eq h.swaps.symm, h.accepted, fun _ _ => h.closer, fun _ => ?_, fun _ _ => h.wire⟩
      rw [h.main]; exact .inr (.inl rfl)
    · simp at hs
  | mainExit =>
    simp only [step] at hs
    split at hs
    · simp only [Outcome.ok.injEq] at hs; subst hs
      exact noflush (Still.refl s) rfl (.inl rfl)
    · simp at hs
  | close r =>
    simp only [step] at hs
    split at hs
    · simp at hs
    · obtain ⟨s1, n, rfl, h⟩ := begin_still hs
      exact ⟨Nat.le_of_eq h.swaps.symm, h.accepted, fun h => absurd rfl (h _), fun _ => .inl (by simp only [h.main]),
        fun _ _ => h.wire⟩
  | closerFlush b r =>
    simp only [step] at hs
    split at hs
    · split at hs <;> try (simp at hs; done)
      · rename_i hf
        simp only [Outcome.ok.injEq] at hs; subst hs
        exact fl2 hf rfl rfl rfl
      · rename_i hf
        simp only [Outcome.ok.injEq] at hs; subst hs
        exact fl2 hf rfl rfl rfl
      · rename_i s1 id hf
        obtain ⟨s2, n, rfl, h⟩ := begin_still hs
        exact ⟨Nat.le_trans (flushStep_swaps hf).1 (Nat.le_of_eq h.swaps.symm), (flacc hf).trans h.accepted,
          fun _ h => absurd rfl (h _ _), fun _ => .inl (by simp only [h.main, (frame_fields hf).2.1]),
          fun _ h => absurd rfl (h _ _)⟩
    · simp at hs
  | cancel => simp only [step, Outcome.ok.injEq] at hs; subst hs; exact still rfl rfl rfl rfl rfl
  | setDone => simp only [step, Outcome.ok.injEq] at hs; subst hs; exact still rfl rfl rfl rfl rfl
  | fragment r =>
    simp only [step] at hs
    repeat' split at hs
    all_goals try (simp at hs; done)
    rename_i h1
    have h := acquire_still h1
    simp only [Outcome.ok.injEq] at hs; subst hs
    exact still2 h.1 h.2 h.3 h.4 h.5
  | fragmentDone i er =>
    simp only [step] at hs
    repeat' split at hs
    all_goals try (simp at hs; done)
    simp only [Outcome.ok.injEq] at hs; subst hs; exact still rfl rfl rfl rfl rfl
  | gc x =>
    simp only [step] at hs
    split at hs
    · simp only [Outcome.ok.injEq] at hs; subst hs; exact still rfl rfl rfl rfl rfl
    · simp at hs

end Verif.DelayedSend
