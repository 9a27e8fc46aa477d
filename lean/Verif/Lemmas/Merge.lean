import Verif.Lemmas.DelayedClose
/-! Which packet a message is put into (helpers). -/
namespace Verif.DelayedSend

/-- A step that does not take the buffer: a message may be added to the packet being filled. -/
structure Tag (s s' : State) : Prop where
  swaps : s'.swaps = s.swaps
  accepted : s'.accepted = s.accepted ∨ ∃ m, s'.accepted = s.accepted ++ [(s.swaps, m)]

theorem Tag.refl (s : State) : Tag s s := ⟨rfl, .inl rfl⟩

theorem acquire_tag {s s' : State} {r n} (hs : acquire s r = .ok (s', n)) : Tag s s' ∧ s'.accepted = s.accepted := by
  unfold acquire at hs
  cases r with
  | none =>
    simp only [Outcome.ok.injEq, Prod.mk.injEq] at hs
    obtain ⟨rfl, _⟩ := hs; exact ⟨⟨rfl, .inl rfl⟩, rfl⟩
  | some k =>
    simp only at hs
    repeat' split at hs
    all_goals try (simp at hs; done)
    simp only [Outcome.ok.injEq, Prod.mk.injEq] at hs
    obtain ⟨rfl, _⟩ := hs; exact ⟨⟨rfl, .inl rfl⟩, rfl⟩

theorem acquireError_tag {s s' : State} {r n} (hs : acquireError s r = .ok (s', n)) : Tag s s' := by
  unfold acquireError at hs
  split at hs
  · rename_i s1 n1 h1
    have := (acquire_tag h1).1
    simp only [Outcome.ok.injEq, Prod.mk.injEq] at hs
    obtain ⟨rfl, _⟩ := hs
    exact ⟨this.1, this.2⟩
  · rename_i h; exact absurd hs (by intro e; exact h _ _ e)

theorem release_tag {s s' : State} {x} (hs : release s x = .ok s') : Tag s s' ∧ s'.accepted = s.accepted := by
  unfold release at hs
  simp only at hs
  repeat' split at hs
  all_goals try (simp at hs; done)
  all_goals (simp only [Outcome.ok.injEq] at hs; subst hs; exact ⟨⟨rfl, .inl rfl⟩, rfl⟩)

theorem giveUp_tag {s s' : State} {i m r} (hs : giveUp s i m r = .ok s') : Tag s s' := by
  unfold giveUp at hs
  split at hs <;> try (simp at hs; done)
  rename_i s1 n1 h1
  have := acquireError_tag h1
  simp only [Outcome.ok.injEq] at hs
  subst hs
  exact ⟨this.1, this.2⟩

theorem tryAppend_tag {cfg : Cfg} {s s' : State} {m r} (hs : tryAppend cfg s m r = .ok s') : Tag s s' := by
  unfold tryAppend at hs
  split at hs
  · simp at hs
  split at hs
  · split at hs
    · split at hs <;> try (simp at hs; done)
      rename_i s1 n1 h1
      have := acquireError_tag h1
      simp only [Outcome.ok.injEq] at hs; subst hs
      exact ⟨this.1, this.2⟩
    · simp only [Outcome.ok.injEq] at hs; subst hs
      exact ⟨rfl, .inl rfl⟩
  · simp only at hs
    split at hs
    · simp at hs
    · simp only [Outcome.ok.injEq] at hs; subst hs
      exact ⟨rfl, .inr ⟨m, rfl⟩⟩

theorem begin_tag {s s' : State} {r k} (hs : begin s r k = .ok s') :
    ∃ s1 n, s' = k s1 n ∧ s1.swaps = s.swaps ∧ s1.accepted = s.accepted := by
  unfold begin at hs
  split at hs <;> try (simp at hs; done)
  rename_i s1 n h1
  simp only [Outcome.ok.injEq] at hs
  exact ⟨s1, n, hs.symm, (acquire_tag h1).1.swaps, (acquire_tag h1).2⟩

theorem flushStep_tag {s s' : State} {f : Flush} {a : FAct} {r : FRes} (hs : flushStep s f a = .ok (s', r)) :
    s'.accepted = s.accepted ∧ (a ≠ .swap → s'.swaps = s.swaps) := by
  refine ⟨by rw [flushStep_frame hs], fun ha => ?_⟩
  unfold flushStep at hs
  split at hs
  · exact absurd rfl ha
  all_goals
    repeat' split at hs
    all_goals try (simp at hs; done)
    all_goals
      simp only [Outcome.ok.injEq, Prod.mk.injEq] at hs
      obtain ⟨rfl, rfl⟩ := hs
      first
        | rfl
        | (rename_i h; exact (release_tag h).1.swaps)

/-- The action takes the buffer. -/
def swapping : Act → Bool
  | .mainFlush .swap _ => true
  | .closerFlush .swap _ => true
  | _ => false

theorem step_tag {cfg : Cfg} {s s' : State} {a : Act} (hs : step cfg s a = .ok s') :
    (s'.accepted = s.accepted ∨ ∃ m, s'.accepted = s.accepted ++ [(s.swaps, m)]) ∧ (swapping a = false → s'.swaps = s.swaps) := by
  have of : ∀ {t : State}, Tag s t → (t.accepted = s.accepted ∨ ∃ m, t.accepted = s.accepted ++ [(s.swaps, m)]) ∧
    (swapping a = false → t.swaps = s.swaps) := fun h => ⟨h.accepted, fun _ => h.swaps⟩
  cases a with
  | write m r => exact of (tryAppend_tag hs)
  | retry i r =>
    simp only [step] at hs
    split at hs
    · have h := tryAppend_tag hs
      exact of ⟨h.1, h.2⟩
    · simp at hs
  | refused r =>
    simp only [step] at hs
    repeat' split at hs
    all_goals try (simp at hs; done)
    rename_i h1
    have h := acquireError_tag h1
    simp only [Outcome.ok.injEq] at hs; subst hs
    exact of ⟨h.1, h.2⟩
  | inc i r =>
    simp only [step] at hs
    repeat' split at hs
    all_goals try (simp at hs; done)
    · have h := giveUp_tag hs
      exact of ⟨h.1, h.2⟩
    all_goals (simp only [Outcome.ok.injEq] at hs; subst hs; exact of ⟨rfl, .inl rfl⟩)
  | poke i handoff r =>
    simp only [step] at hs
    repeat' split at hs
    all_goals try (simp at hs; done)
    all_goals first
      | (simp only [Outcome.ok.injEq] at hs; subst hs; exact of ⟨rfl, .inl rfl⟩)
      | (have h := giveUp_tag hs; exact of ⟨h.1, h.2⟩)
  | sendNow i =>
    simp only [step] at hs
    repeat' split at hs
    all_goals try (simp at hs; done)
    simp only [Outcome.ok.injEq] at hs; subst hs; exact of ⟨rfl, .inl rfl⟩
  | userRelease i =>
    simp only [step] at hs
    repeat' split at hs
    all_goals try (simp at hs; done)
    have h := (release_tag hs).1
    exact of ⟨h.1, h.2⟩
  | connect r =>
    simp only [step] at hs
    split at hs
    · obtain ⟨s1, n, rfl, h1, h2⟩ := begin_tag hs
      exact of ⟨h1, .inl h2⟩
    · simp at hs
  | timer r =>
    simp only [step] at hs
    split at hs
    · obtain ⟨s1, n, rfl, h1, h2⟩ := begin_tag hs
      exact of ⟨h1, .inl h2⟩
    · simp at hs
  | handle r =>
    simp only [step] at hs
    split at hs
    · split at hs
      · simp only [Outcome.ok.injEq] at hs; subst hs; exact of ⟨rfl, .inl rfl⟩
      · obtain ⟨s1, n, rfl, h1, h2⟩ := begin_tag hs
        exact of ⟨h1, .inl h2⟩
    · simp at hs
  | mainFlush b r =>
    simp only [step] at hs
    have hb : swapping (.mainFlush b r) = false → b ≠ .swap := by rintro h rfl; simp [swapping] at h
    split at hs
    · split at hs <;> try (simp at hs; done)
      · rename_i hf
        simp only [Outcome.ok.injEq] at hs; subst hs
        exact ⟨.inl (flushStep_tag hf).1, fun h => (flushStep_tag hf).2 (hb h)⟩
      · rename_i hf
        simp only [Outcome.ok.injEq] at hs; subst hs
        exact ⟨.inl (flushStep_tag hf).1, fun h => (flushStep_tag hf).2 (hb h)⟩
      · rename_i s1 id hf
        obtain ⟨s2, n, rfl, h1, h2⟩ := begin_tag hs
        exact ⟨.inl (h2.trans (flushStep_tag hf).1), fun h => h1.trans ((flushStep_tag hf).2 (hb h))⟩
    · split at hs <;> try (simp at hs; done)
      all_goals
        rename_i hf
        simp only [Outcome.ok.injEq] at hs; subst hs
        exact ⟨.inl (flushStep_tag hf).1, fun h => (flushStep_tag hf).2 (hb h)⟩
    · simp at hs
  | mainRelease =>
    simp only [step] at hs
    split at hs
    · have h := (release_tag hs).1
      exact of ⟨h.1, h.2⟩
    · simp at hs
  | close r =>
    simp only [step] at hs
    split at hs
    · simp at hs
    · obtain ⟨s1, n, rfl, h1, h2⟩ := begin_tag hs
      exact of ⟨h1, .inl h2⟩
  | closerFlush b r =>
    simp only [step] at hs
    have hb : swapping (.closerFlush b r) = false → b ≠ .swap := by rintro h rfl; simp [swapping] at h
    split at hs
    · split at hs <;> try (simp at hs; done)
      · rename_i hf
        simp only [Outcome.ok.injEq] at hs; subst hs
        exact ⟨.inl (flushStep_tag hf).1, fun h => (flushStep_tag hf).2 (hb h)⟩
      · rename_i hf
        simp only [Outcome.ok.injEq] at hs; subst hs
        exact ⟨.inl (flushStep_tag hf).1, fun h => (flushStep_tag hf).2 (hb h)⟩
      · rename_i s1 id hf
        obtain ⟨s2, n, rfl, h1, h2⟩ := begin_tag hs
        exact ⟨.inl (h2.trans (flushStep_tag hf).1), fun h => h1.trans ((flushStep_tag hf).2 (hb h))⟩
    · simp at hs
  | fragment r =>
    simp only [step] at hs
    repeat' split at hs
    all_goals try (simp at hs; done)
    rename_i h1
    have h := (acquire_tag h1).1
    simp only [Outcome.ok.injEq] at hs; subst hs
    exact of ⟨h.1, h.2⟩
  | _ =>
    simp only [step] at hs
    repeat' split at hs
    all_goals try (simp at hs; done)
    all_goals (simp only [Outcome.ok.injEq] at hs; subst hs; exact of ⟨rfl, .inl rfl⟩)

end Verif.DelayedSend
