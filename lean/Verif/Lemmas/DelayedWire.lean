import Verif.Lemmas.DelayedBatch
/-! What steps do to the packets on the wire (helpers). -/
namespace Verif.DelayedSend

theorem filter_split (acc : List (Nat × Bytes)) (b : Nat) (bs : List Nat) (hs : acc.Pairwise (fun p q => p.1 ≤ q.1))
    (hb : ∀ c ∈ bs, b < c) :
    acc.filter (fun p => decide (p.1 ∈ b :: bs)) = acc.filter (fun p => decide (p.1 = b)) ++ acc.filter (fun p => decide (p.1 ∈ bs)) := by
  induction acc with
  | nil => rfl
  | cons p acc ih =>
    rw [List.pairwise_cons] at hs
    have ih := ih hs.2
    by_cases h1 : p.1 = b
    · have h2 : p.1 ∉ bs := fun h => by have := hb _ h; omega
      simp only [List.filter_cons, h1, List.mem_cons, true_or, decide_true, if_true]
      rw [if_neg (by simpa [h1] using h2)]
      simp only [List.mem_cons] at ih
      rw [ih]; rfl
    · by_cases h2 : p.1 ∈ bs
      · have h3 : acc.filter (fun p => decide (p.1 = b)) = [] := by
          rw [List.filter_eq_nil_iff]
          intro q hq
          have := hs.1 q hq
          have := hb _ h2
          simp; omega
        rw [h3] at ih
        simp only [List.filter_cons, List.mem_cons, h2, or_true, decide_true, if_true, h1, decide_false, h3]
        simp only [List.mem_cons] at ih
        rw [ih]; rfl
      · simp only [List.filter_cons, List.mem_cons, h2, or_false, h1, decide_false]
        simp only [List.mem_cons] at ih
        simpa using ih

theorem msgs_flatten (acc : List (Nat × Bytes)) (hs : acc.Pairwise (fun p q => p.1 ≤ q.1)) :
    ∀ (bs : List Nat), bs.Pairwise (· < ·) →
      (bs.map (msgsOf acc)).flatten = (acc.filter (fun p => decide (p.1 ∈ bs))).map (·.2) := by
  intro bs
  induction bs with
  | nil => intro _; simp
  | cons b bs ih =>
    intro hp
    rw [List.pairwise_cons] at hp
    rw [filter_split acc b bs hs hp.1]
    simp only [List.map_cons, List.flatten_cons, List.map_append, ih hp.2]
    rfl

/-- No flush is past the check. -/
def NotChecked (s : State) : Prop := ∀ f ∈ s.main.flush? ++ s.closer.flush?, ∀ x msgs, f ≠ .checked x msgs

theorem frame_fields {s s' : State} {f : Flush} {a : FAct} {r : FRes} (hs : flushStep s f a = .ok (s', r)) :
    s'.done = s.done ∧ s'.main = s.main ∧ s'.closer = s.closer ∧ s'.ctx = s.ctx := by
  have e := flushStep_frame hs
  exact ⟨by rw [e], by rw [e], by rw [e], by rw [e]⟩

theorem acquire_fields {s s' : State} {r n} (hs : acquire s r = .ok (s', n)) :
    s'.done = s.done ∧ s'.main = s.main ∧ s'.closer = s.closer ∧ s'.wire = s.wire := by
  unfold acquire at hs
  cases r with
  | none =>
    simp only [Outcome.ok.injEq, Prod.mk.injEq] at hs
    obtain ⟨rfl, _⟩ := hs; exact ⟨rfl, rfl, rfl, rfl⟩
  | some k =>
    simp only at hs
    repeat' split at hs
    all_goals try (simp at hs; done)
    simp only [Outcome.ok.injEq, Prod.mk.injEq] at hs
    obtain ⟨rfl, _⟩ := hs; exact ⟨rfl, rfl, rfl, rfl⟩

theorem acquireError_fields {s s' : State} {r n} (hs : acquireError s r = .ok (s', n)) :
    s'.done = s.done ∧ s'.main = s.main ∧ s'.closer = s.closer ∧ s'.wire = s.wire := by
  unfold acquireError at hs
  split at hs
  · rename_i s1 n1 h1
    simp only [Outcome.ok.injEq, Prod.mk.injEq] at hs
    obtain ⟨rfl, _⟩ := hs
    have h2 := acquire_fields h1
    exact ⟨h2.1, h2.2.1, h2.2.2.1, h2.2.2.2⟩
  · rename_i hx; exact absurd hs (hx s' n)

theorem release_fields {s s' : State} {x} (hs : release s x = .ok s') :
    s'.done = s.done ∧ s'.main = s.main ∧ s'.closer = s.closer ∧ s'.wire = s.wire := by
  unfold release at hs
  simp only at hs
  repeat' split at hs
  all_goals try (simp at hs; done)
  all_goals (simp only [Outcome.ok.injEq] at hs; subst hs; exact ⟨rfl, rfl, rfl, rfl⟩)

theorem begin_fields {s s' : State} {r k} (hs : begin s r k = .ok s') :
    ∃ s1 n, s' = k s1 n ∧ s1.done = s.done ∧ s1.main = s.main ∧ s1.closer = s.closer ∧ s1.wire = s.wire := by
  unfold begin at hs
  split at hs <;> try (simp at hs; done)
  rename_i s1 n h1
  simp only [Outcome.ok.injEq] at hs
  exact ⟨s1, n, hs.symm, acquire_fields h1⟩

theorem tryAppend_fields {cfg : Cfg} {s s' : State} {m r} (hs : tryAppend cfg s m r = .ok s') :
    s'.done = s.done ∧ s'.main = s.main ∧ s'.closer = s.closer ∧ s'.wire = s.wire := by
  unfold tryAppend at hs
  simp only at hs
  split at hs
  · exact absurd hs (by simp)
  split at hs
  · split at hs
    · split at hs <;> try (simp at hs; done)
      rename_i s1 n h1
      simp only [Outcome.ok.injEq] at hs; subst hs
      have h2 := acquireError_fields h1
      exact ⟨h2.1, h2.2.1, h2.2.2.1, h2.2.2.2⟩
    · simp only [Outcome.ok.injEq] at hs; subst hs; exact ⟨rfl, rfl, rfl, rfl⟩
  · split at hs
    · exact absurd hs (by simp)
    · simp only [Outcome.ok.injEq] at hs; subst hs; exact ⟨rfl, rfl, rfl, rfl⟩

theorem giveUp_fields {s s' : State} {i m r} (hs : giveUp s i m r = .ok s') :
    s'.done = s.done ∧ s'.main = s.main ∧ s'.closer = s.closer ∧ s'.wire = s.wire := by
  unfold giveUp at hs
  split at hs <;> try (simp at hs; done)
  rename_i s1 n h1
  simp only [Outcome.ok.injEq] at hs; subst hs
  have h2 := acquireError_fields h1
  exact ⟨h2.1, h2.2.1, h2.2.2.1, h2.2.2.2⟩

/-- What a step does to the flushes and to the wire. -/
theorem step_quiet {cfg : Cfg} {s s' : State} {a : Act} (hs : step cfg s a = .ok s') :
    (s.done = true → s'.done = true) ∧
    (s.done = true → NotChecked s → NotChecked s' ∧ s'.wire = s.wire) ∧
    (s.main = .exited → s'.main = .exited) := by
  have triv : ∀ {t : State}, t.done = s.done ∧ t.main = s.main ∧ t.closer = s.closer ∧ t.wire = s.wire →
      (s.done = true → t.done = true) ∧ (s.done = true → NotChecked s → NotChecked t ∧ t.wire = s.wire) ∧
      (s.main = .exited → t.main = .exited) := by
    intro t ht
    refine ⟨fun h => ht.1.trans h, fun _ h => ⟨?_, ht.2.2.2⟩, fun h => ht.2.1.trans h⟩
    unfold NotChecked; rw [ht.2.1, ht.2.2.1]; exact h
  have noflush : ∀ {t : State} {m : Main}, t.done = s.done → t.main = m → m.flush? = [] → t.closer = s.closer →
      t.wire = s.wire → s.main ≠ .exited →
      (s.done = true → t.done = true) ∧ (s.done = true → NotChecked s → NotChecked t ∧ t.wire = s.wire) ∧
      (s.main = .exited → t.main = .exited) := by
    intro t m h1 h2 h3 h4 h5 h6
    refine ⟨fun h => h1.trans h, fun _ h => ⟨?_, h5⟩, fun h => absurd h h6⟩
    intro f hf
    rw [h2, h3, h4] at hf
    exact h f (List.mem_append.2 (.inr (by simpa using hf)))
  have acq : ∀ {t : State} {m : Main} {n : Nat}, t.done = s.done → t.main = m → m.flush? = [.acquired n] →
      t.closer = s.closer → t.wire = s.wire → s.main ≠ .exited →
      (s.done = true → t.done = true) ∧ (s.done = true → NotChecked s → NotChecked t ∧ t.wire = s.wire) ∧
      (s.main = .exited → t.main = .exited) := by
    intro t m n h1 h2 h3 h4 h5 h6
    refine ⟨fun h => h1.trans h, fun _ h => ⟨?_, h5⟩, fun h => absurd h h6⟩
    intro f hf
    rw [h2, h3, h4] at hf
    rcases List.mem_append.1 hf with h7 | h7
    · simp at h7; subst h7; simp
    · exact h f (List.mem_append.2 (.inr h7))
  -- a flush that is not past the check, in a session that is done
  have fl : ∀ {s1 : State} {f : Flush} {b : FAct} {r : FRes}, flushStep s f b = .ok (s1, r) →
      s.done = true → (∀ x msgs, f ≠ .checked x msgs) →
      s1.wire = s.wire ∧ ∀ g ∈ r.flush?, ∀ x msgs, g ≠ .checked x msgs := by
    intro s1 f b r h1 hd hn
    refine ⟨?_, ?_⟩
    · rcases flushStep_wire h1 with h2 | ⟨x, msgs, h2, _⟩
      · exact h2
      · exact absurd h2 (hn x msgs)
    · intro g hg x msgs e
      cases r with
      | over => simp [FRes.flush?] at hg
      | running g' =>
        simp [FRes.flush?] at hg; subst hg
        have := ((flushStep_unsent h1).1 x msgs e).1
        rw [hd] at this; simp at this
  cases a with
  | write m r => exact triv (tryAppend_fields hs)
  | retry i r =>
    simp only [step] at hs
    split at hs
    · have h1 := tryAppend_fields hs; exact triv ⟨h1.1, h1.2.1, h1.2.2.1, h1.2.2.2⟩
    · exact absurd hs (by simp)
  | refused r =>
    simp only [step] at hs
    split at hs
    · split at hs <;> try (simp at hs; done)
      rename_i s1 n h1
      simp only [Outcome.ok.injEq] at hs; subst hs
      have h2 := acquireError_fields h1; exact triv ⟨h2.1, h2.2.1, h2.2.2.1, h2.2.2.2⟩
    · exact absurd hs (by simp)
  | inc i r =>
    simp only [step] at hs
    split at hs
    · split at hs
      · have h1 := giveUp_fields hs; exact triv ⟨h1.1, h1.2.1, h1.2.2.1, h1.2.2.2⟩
      · simp only [Outcome.ok.injEq] at hs; subst hs; exact triv ⟨rfl, rfl, rfl, rfl⟩
    · split at hs
      · simp only [Outcome.ok.injEq] at hs; subst hs; exact triv ⟨rfl, rfl, rfl, rfl⟩
      · simp only [Outcome.ok.injEq] at hs; subst hs; exact triv ⟨rfl, rfl, rfl, rfl⟩
    · exact absurd hs (by simp)
  | poke i handoff r =>
    simp only [step] at hs
    split at hs
    · rename_i x m first hi
      split at hs
      · split at hs
        · exact triv (giveUp_fields hs)
        · simp only [Outcome.ok.injEq] at hs; subst hs; exact triv ⟨rfl, rfl, rfl, rfl⟩
      · split at hs
        · split at hs
          · rename_i hidle
            have hne : s.main ≠ .exited := by rw [hidle]; simp
            split at hs
            · have h1 := giveUp_fields hs
              exact noflush (m := .got x) h1.1 h1.2.1 rfl h1.2.2.1 h1.2.2.2 hne
            · simp only [Outcome.ok.injEq] at hs; subst hs
              exact noflush (m := .got x) rfl rfl rfl rfl rfl hne
          · exact absurd hs (by simp)
        · split at hs
          · exact triv (giveUp_fields hs)
          · simp only [Outcome.ok.injEq] at hs; subst hs; exact triv ⟨rfl, rfl, rfl, rfl⟩
    · exact absurd hs (by simp)
  | wake i =>
    simp only [step] at hs
    split at hs
    · split at hs
      · simp only [Outcome.ok.injEq] at hs; subst hs; exact triv ⟨rfl, rfl, rfl, rfl⟩
      · exact absurd hs (by simp)
    · exact absurd hs (by simp)
  | tick i =>
    simp only [step] at hs
    split at hs
    · split at hs
      · exact absurd hs (by simp)
      · simp only [Outcome.ok.injEq] at hs; subst hs; exact triv ⟨rfl, rfl, rfl, rfl⟩
    · exact absurd hs (by simp)
  | sendNow i =>
    simp only [step] at hs
    split at hs
    · split at hs
      · exact absurd hs (by simp)
      split at hs
      · exact absurd hs (by simp)
      · simp only [Outcome.ok.injEq] at hs; subst hs; exact triv ⟨rfl, rfl, rfl, rfl⟩
    · exact absurd hs (by simp)
  | sendNowChan i =>
    simp only [step] at hs
    split at hs
    · rename_i u hi
      split at hs
      · split at hs
        · exact absurd hs (by simp)
        split at hs
        · rename_i hidle
          simp only [Outcome.ok.injEq] at hs; subst hs
          exact noflush (m := .got u.info) rfl rfl rfl rfl rfl (by rw [hidle]; simp)
        · exact absurd hs (by simp)
      · exact absurd hs (by simp)
    · exact absurd hs (by simp)
  | userRelease i =>
    simp only [step] at hs
    split at hs
    · split at hs
      · exact absurd hs (by simp)
      split at hs
      · have h1 := release_fields hs; exact triv ⟨h1.1, h1.2.1, h1.2.2.1, h1.2.2.2⟩
      · exact absurd hs (by simp)
    · exact absurd hs (by simp)
  | connect r =>
    simp only [step] at hs
    split at hs
    · rename_i hm
      obtain ⟨s1, n, rfl, h1⟩ := begin_fields hs
      exact acq (n := n) h1.1 rfl rfl h1.2.2.1 h1.2.2.2 (by rw [hm]; simp)
    · exact absurd hs (by simp)
  | timer r =>
    simp only [step] at hs
    split at hs
    · rename_i hm
      obtain ⟨s1, n, rfl, h1⟩ := begin_fields hs
      exact acq (n := n) h1.1 rfl rfl h1.2.2.1 h1.2.2.2 (by rw [hm]; simp)
    · exact absurd hs (by simp)
  | handle r =>
    simp only [step] at hs
    split at hs
    · rename_i x hm
      have hne : s.main ≠ .exited := by rw [hm]; simp
      split at hs
      · simp only [Outcome.ok.injEq] at hs; subst hs
        exact noflush (m := .leaving x) rfl rfl rfl rfl rfl hne
      · obtain ⟨s1, n, rfl, h1⟩ := begin_fields hs
        exact acq (n := n) h1.1 rfl rfl h1.2.2.1 h1.2.2.2 hne
    · exact absurd hs (by simp)
  | mainFlush b r =>
    simp only [step] at hs
    split at hs
    · rename_i f hm
      have hne : s.main ≠ .exited := by rw [hm]; simp
      have hfm : f ∈ s.main.flush? ++ s.closer.flush? := by simp [hm, Main.flush?]
      split at hs <;> try (simp at hs; done)
      · rename_i s1 f1 hf
        simp only [Outcome.ok.injEq] at hs; subst hs
        have hfr := frame_fields hf
        refine ⟨fun h => hfr.1.trans h, fun hd h => ?_, fun h => absurd h hne⟩
        have h2 := fl hf hd (h f hfm)
        refine ⟨fun g hg => ?_, h2.1⟩
        simp only [hfr.2.2.1] at hg
        rcases List.mem_append.1 hg with h3 | h3
        · exact h2.2 g h3
        · exact h g (List.mem_append.2 (.inr h3))
      · rename_i s1 id hf
        simp only [Outcome.ok.injEq] at hs; subst hs
        have hfr := frame_fields hf
        refine ⟨fun h => hfr.1.trans h, fun hd h => ?_, fun h => absurd h hne⟩
        have h2 := fl hf hd (h f hfm)
        refine ⟨fun g hg => ?_, h2.1⟩
        simp only [hfr.2.2.1] at hg
        exact h g (List.mem_append.2 (.inr (by simpa [Main.flush?] using hg)))
      · rename_i s1 id hf
        obtain ⟨s2, n, rfl, h1⟩ := begin_fields hs
        have hfr := frame_fields hf
        refine ⟨fun h => h1.1.trans (hfr.1.trans h), fun hd h => ?_, fun h => absurd h hne⟩
        have h2 := fl hf hd (h f hfm)
        refine ⟨fun g hg => ?_, h1.2.2.2.trans h2.1⟩
        simp only [h1.2.2.1, hfr.2.2.1] at hg
        rcases List.mem_append.1 hg with h3 | h3
        · simp [Main.flush?] at h3; subst h3; simp
        · exact h g (List.mem_append.2 (.inr h3))
    · rename_i d f hm
      have hne : s.main ≠ .exited := by rw [hm]; simp
      have hfm : f ∈ s.main.flush? ++ s.closer.flush? := by simp [hm, Main.flush?]
      split at hs <;> try (simp at hs; done)
      · rename_i s1 f1 hf
        simp only [Outcome.ok.injEq] at hs; subst hs
        have hfr := frame_fields hf
        refine ⟨fun h => hfr.1.trans h, fun hd h => ?_, fun h => absurd h hne⟩
        have h2 := fl hf hd (h f hfm)
        refine ⟨fun g hg => ?_, h2.1⟩
        simp only [hfr.2.2.1] at hg
        rcases List.mem_append.1 hg with h3 | h3
        · exact h2.2 g h3
        · exact h g (List.mem_append.2 (.inr h3))
      · rename_i s1 em id hf
        simp only [Outcome.ok.injEq] at hs; subst hs
        have hfr := frame_fields hf
        refine ⟨fun h => hfr.1.trans h, fun hd h => ?_, fun h => absurd h hne⟩
        have h2 := fl hf hd (h f hfm)
        refine ⟨fun g hg => ?_, h2.1⟩
        simp only [hfr.2.2.1] at hg
        have : (Main.after d).flush? = [] := by cases d <;> rfl
        rw [this] at hg
        exact h g (List.mem_append.2 (.inr (by simpa using hg)))
    · exact absurd hs (by simp)
  | mainRelease =>
    simp only [step] at hs
    split at hs
    · rename_i x hm
      have h1 := release_fields hs
      exact noflush (m := .idle) h1.1 h1.2.1 rfl h1.2.2.1 h1.2.2.2 (by rw [hm]; simp)
    · exact absurd hs (by simp)
  | mainExit =>
    simp only [step] at hs
    split at hs
    · rename_i hm
      simp only [Outcome.ok.injEq] at hs; subst hs
      exact noflush (m := .exited) rfl rfl rfl rfl rfl (by rw [hm.1]; simp)
    · exact absurd hs (by simp)
  | close r =>
    simp only [step] at hs
    split at hs
    · exact absurd hs (by simp)
    · rename_i hd
      obtain ⟨s1, n, rfl, h1⟩ := begin_fields hs
      refine ⟨fun _ => h1.1, fun h => absurd h hd, fun h => h1.2.1.trans h⟩
  | closerFlush b r =>
    simp only [step] at hs
    split at hs
    · rename_i f hm
      have hfm : f ∈ s.main.flush? ++ s.closer.flush? := by simp [hm, Closer.flush?]
      split at hs <;> try (simp at hs; done)
      · rename_i s1 f1 hf
        simp only [Outcome.ok.injEq] at hs; subst hs
        have hfr := frame_fields hf
        refine ⟨fun h => hfr.1.trans h, fun hd h => ?_, fun h => hfr.2.1.trans h⟩
        have h2 := fl hf hd (h f hfm)
        refine ⟨fun g hg => ?_, h2.1⟩
        simp only [hfr.2.1] at hg
        rcases List.mem_append.1 hg with h3 | h3
        · exact h g (List.mem_append.2 (.inl h3))
        · exact h2.2 g h3
      · rename_i s1 id hf
        simp only [Outcome.ok.injEq] at hs; subst hs
        have hfr := frame_fields hf
        refine ⟨fun h => hfr.1.trans h, fun hd h => ?_, fun h => hfr.2.1.trans h⟩
        have h2 := fl hf hd (h f hfm)
        refine ⟨fun g hg => ?_, h2.1⟩
        simp only [hfr.2.1] at hg
        exact h g (List.mem_append.2 (.inl (by simpa [Closer.flush?] using hg)))
      · rename_i s1 id hf
        obtain ⟨s2, n, rfl, h1⟩ := begin_fields hs
        have hfr := frame_fields hf
        refine ⟨fun h => h1.1.trans (hfr.1.trans h), fun hd h => ?_, fun h => h1.2.1.trans (hfr.2.1.trans h)⟩
        have h2 := fl hf hd (h f hfm)
        refine ⟨fun g hg => ?_, h1.2.2.2.trans h2.1⟩
        simp only [h1.2.1, hfr.2.1] at hg
        rcases List.mem_append.1 hg with h3 | h3
        · exact h g (List.mem_append.2 (.inl h3))
        · simp [Closer.flush?] at h3; subst h3; simp
    · exact absurd hs (by simp)
  | cancel =>
    simp only [step, Outcome.ok.injEq] at hs; subst hs; exact triv ⟨rfl, rfl, rfl, rfl⟩
  | setDone =>
    simp only [step, Outcome.ok.injEq] at hs; subst hs
    exact ⟨fun _ => rfl, fun _ h => ⟨h, rfl⟩, fun h => h⟩
  | fragment r =>
    simp only [step] at hs
    split at hs
    · split at hs <;> try (simp at hs; done)
      rename_i s1 n h1
      simp only [Outcome.ok.injEq] at hs; subst hs
      have h2 := acquire_fields h1; exact triv ⟨h2.1, h2.2.1, h2.2.2.1, h2.2.2.2⟩
    · exact absurd hs (by simp)
  | fragmentDone i er =>
    simp only [step] at hs
    split at hs
    · split at hs
      · exact absurd hs (by simp)
      · simp only [Outcome.ok.injEq] at hs; subst hs; exact triv ⟨rfl, rfl, rfl, rfl⟩
    · exact absurd hs (by simp)
  | gc x =>
    simp only [step] at hs
    split at hs
    · simp only [Outcome.ok.injEq] at hs; subst hs; exact triv ⟨rfl, rfl, rfl, rfl⟩
    · exact absurd hs (by simp)

end Verif.DelayedSend
