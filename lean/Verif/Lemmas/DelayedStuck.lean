import Verif.Lemmas.DelayedBatch
/-! Delayed sending after the end of the sender loop (helpers). -/
namespace Verif.DelayedSend

/-- The message of a call that has not returned. -/
def Writer.msg : Writer → Bytes
  | .retry m | .full _ m | .poking _ m _ | .waiting _ m | .again _ m => m

/-- Unfinished calls, by message. -/
def pending (s : State) : List Bytes := s.writers.map Writer.msg

/-- `s'` has the same unfinished calls, buffer and control state. -/
structure Alike (s s' : State) : Prop where
  writers : s'.writers = s.writers
  buf : s'.buf = s.buf
  main : s'.main = s.main
  closer : s'.closer = s.closer
  done : s'.done = s.done
  ctx : s'.ctx = s.ctx

theorem acquire_alike {s s' : State} {r n} (hs : acquire s r = .ok (s', n)) : Alike s s' := by
  unfold acquire at hs
  cases r with
  | none =>
    simp only [Outcome.ok.injEq, Prod.mk.injEq] at hs
    obtain ⟨rfl, _⟩ := hs; exact ⟨rfl, rfl, rfl, rfl, rfl, rfl⟩
  | some k =>
    simp only at hs
    repeat' split at hs
    all_goals try (simp at hs; done)
    simp only [Outcome.ok.injEq, Prod.mk.injEq] at hs
    obtain ⟨rfl, _⟩ := hs; exact ⟨rfl, rfl, rfl, rfl, rfl, rfl⟩

theorem acquireError_alike {s s' : State} {r n} (hs : acquireError s r = .ok (s', n)) : Alike s s' := by
  unfold acquireError at hs
  split at hs
  · rename_i s1 n1 h1
    have := acquire_alike h1
    simp only [Outcome.ok.injEq, Prod.mk.injEq] at hs
    obtain ⟨rfl, _⟩ := hs
    exact ⟨this.1, this.2, this.3, this.4, this.5, this.6⟩
  · rename_i h; exact absurd hs (by intro e; exact h _ _ e)

theorem release_alike {s s' : State} {x} (hs : release s x = .ok s') : Alike s s' := by
  unfold release at hs
  simp only at hs
  repeat' split at hs
  all_goals try (simp at hs; done)
  all_goals (simp only [Outcome.ok.injEq] at hs; subst hs; exact ⟨rfl, rfl, rfl, rfl, rfl, rfl⟩)

theorem count_pending {l : List Writer} {i : Nat} {w : Writer} (h : l[i]? = some w) (m : Bytes) :
    (l.map Writer.msg).count m = ((l.eraseIdx i).map Writer.msg).count m + [w.msg].count m := by
  induction l generalizing i with
  | nil => simp at h
  | cons a l ih =>
    cases i with
    | zero =>
      simp only [List.getElem?_cons_zero, Option.some.injEq] at h
      subst h
      simp only [List.eraseIdx_cons_zero, List.map_cons, List.count_cons, List.count_nil]
      omega
    | succ i =>
      rw [List.getElem?_cons_succ] at h
      have := ih h
      simp only [List.eraseIdx_cons_succ, List.map_cons, List.count_cons] at this ⊢
      omega

theorem count_moved {l : List Writer} {i : Nat} {w w' : Writer} (h : l[i]? = some w) (he : w'.msg = w.msg) (m : Bytes) :
    ((l.eraseIdx i ++ [w']).map Writer.msg).count m = (l.map Writer.msg).count m := by
  rw [count_pending h m, List.map_append, List.count_append, List.map_cons, List.map_nil, he]

/-- Nobody empties the buffer any more. -/
structure Over (s : State) : Prop where
  main : s.main = .exited
  closer : ∀ f, s.closer ≠ .flush f
  done : s.done = true

/-- The message does not fit. -/
def Jammed (cfg : Cfg) (s : State) (m : Bytes) : Prop := s.buf ≠ [] ∧ 44 + bufSize s.buf + m.length > cfg.limit

theorem Alike.over {s s' : State} (h : Alike s s') (ho : Over s) : Over s' :=
  ⟨h.main.trans ho.main, by rw [h.closer]; exact ho.closer, h.done.trans ho.done⟩

/-- One step after the end: the buffer only grows, and a call whose message does not fit does not return. -/
structure Stays (cfg : Cfg) (s s' : State) (m : Bytes) : Prop where
  over : Over s'
  buf : s.buf <+: s'.buf
  count : (pending s).count m ≤ (pending s').count m

theorem jammed_mono {cfg : Cfg} {s s' : State} {m : Bytes} (h : Jammed cfg s m) (hb : s.buf <+: s'.buf) : Jammed cfg s' m := by
  obtain ⟨t, ht⟩ := hb
  refine ⟨?_, ?_⟩
  · rw [← ht]; intro e; exact h.1 (List.append_eq_nil_iff.1 e).1
  · have := h.2
    rw [← ht]
    have e : bufSize (s.buf ++ t) = bufSize s.buf + bufSize t := by simp [bufSize]
    omega

theorem giveUp_stays {cfg : Cfg} {s s' : State} {i : Nat} {w : Writer} {m : Bytes} {r : Option Nat} (ho : Over s)
    (hi : s.writers[i]? = some w) (hs : giveUp s i w.msg r = .ok s') : Stays cfg s s' m := by
  unfold giveUp at hs
  split at hs <;> try (simp at hs; done)
  rename_i s1 n1 h1
  have h := acquireError_alike h1
  simp only [Outcome.ok.injEq] at hs
  subst hs
  refine ⟨⟨h.main.trans ho.main, by show ∀ f, s1.closer ≠ _; rw [h.closer]; exact ho.closer, h.done.trans ho.done⟩, ?_, ?_⟩
  · show s.buf <+: s1.buf
    rw [h.buf]; exact List.prefix_refl _
  · show _ ≤ ((s1.writers.eraseIdx i ++ [Writer.retry w.msg]).map Writer.msg).count m
    rw [h.writers, count_moved (w' := .retry w.msg) hi rfl]
    exact Nat.le_refl _

/-- `tryAppend` without room leaves the call unfinished; otherwise the buffer grows at most. -/
theorem tryAppend_stays {cfg : Cfg} {s s' : State} {m' : Bytes} {r : Option Nat} (ho : Over s)
    (hs : tryAppend cfg s m' r = .ok s') : Over s' ∧ s.buf <+: s'.buf ∧
      (s'.writers = s.writers ∨ s'.writers = s.writers ++ [.full s.cur m']) ∧
      (Jammed cfg s m' → s'.writers = s.writers ++ [.full s.cur m']) := by
  unfold tryAppend at hs
  split at hs
  · simp at hs
  split at hs
  · split at hs
    · rename_i hb
      split at hs <;> try (simp at hs; done)
      rename_i s1 n1 h1
      have h := acquireError_alike h1
      simp only [Outcome.ok.injEq] at hs; subst hs
      refine ⟨⟨h.main.trans ho.main, by show ∀ f, s1.closer ≠ _; rw [h.closer]; exact ho.closer, h.done.trans ho.done⟩, ?_,
        .inl h.writers, fun hj => absurd hb hj.1⟩
      show s.buf <+: s1.buf
      rw [h.buf]; exact List.prefix_refl _
    · simp only [Outcome.ok.injEq] at hs; subst hs
      exact ⟨⟨ho.main, ho.closer, ho.done⟩, List.prefix_refl _, .inr rfl, fun _ => rfl⟩
  · rename_i hfit
    simp only at hs
    split at hs
    · simp at hs
    · simp only [Outcome.ok.injEq] at hs; subst hs
      exact ⟨⟨ho.main, ho.closer, ho.done⟩, List.prefix_append _ _, .inl rfl, fun hj => absurd hj.2 hfit⟩

theorem step_stays {cfg : Cfg} {s s' : State} {a : Act} {m : Bytes} (ho : Over s) (hj : Jammed cfg s m)
    (hs : step cfg s a = .ok s') : Stays cfg s s' m := by
  have alike : ∀ {t : State}, t.writers = s.writers → t.buf = s.buf → t.main = s.main → t.closer = s.closer →
      t.done = s.done → Stays cfg s t m := by
    intro t h1 h2 h3 h4 h5
    refine ⟨⟨h3.trans ho.main, by rw [h4]; exact ho.closer, h5.trans ho.done⟩, by rw [h2]; exact List.prefix_refl _, ?_⟩
    unfold pending; rw [h1]; exact Nat.le_refl _
  have moved : ∀ {t : State} {i : Nat} {w w' : Writer}, s.writers[i]? = some w →
      t.writers = s.writers.eraseIdx i ++ [w'] → w'.msg = w.msg → t.buf = s.buf → t.main = s.main → t.closer = s.closer →
      t.done = s.done → Stays cfg s t m := by
    intro t i w w' hi h1 he h2 h3 h4 h5
    refine ⟨⟨h3.trans ho.main, by rw [h4]; exact ho.closer, h5.trans ho.done⟩, by rw [h2]; exact List.prefix_refl _, ?_⟩
    unfold pending; rw [h1, count_moved hi he]; exact Nat.le_refl _
  cases a with
  | write m' r =>
    obtain ⟨h1, h2, h3, -⟩ := tryAppend_stays ho hs
    refine ⟨h1, h2, ?_⟩
    unfold pending
    rcases h3 with h3 | h3
    · rw [h3]; exact Nat.le_refl _
    · rw [h3, List.map_append, List.count_append]; exact Nat.le_add_right _ _
  | retry i r =>
    simp only [step] at hs
    split at hs
    · rename_i m' hi
      have ho1 : Over { s with writers := s.writers.eraseIdx i } := ⟨ho.main, ho.closer, ho.done⟩
      obtain ⟨h1, h2, h3, h4⟩ := tryAppend_stays ho1 hs
      refine ⟨h1, h2, ?_⟩
      have hc := count_pending hi m
      unfold pending
      by_cases e : m' = m
      · subst e
        rw [h4 hj, hc, List.map_append, List.count_append]
        exact Nat.le_refl _
      · have h0 : [(Writer.retry m').msg].count m = 0 := by
          simp [Writer.msg, List.count_cons, e]
        rw [h0] at hc
        rcases h3 with h3 | h3
        · rw [h3, hc]; exact Nat.le_refl _
        · rw [h3, hc, List.map_append, List.count_append]; exact Nat.le_add_right _ _
    · simp at hs
  | refused r =>
    simp only [step] at hs
    repeat' split at hs
    all_goals try (simp at hs; done)
    rename_i h1
    have h := acquireError_alike h1
    simp only [Outcome.ok.injEq] at hs; subst hs
    exact alike h.1 h.2 h.3 h.4 h.5
  | inc i r =>
    simp only [step] at hs
    split at hs
    · rename_i x m' hi
      split at hs
      · have h := giveUp_stays (cfg := cfg) (m := m) (s := incRef s x) ⟨ho.main, ho.closer, ho.done⟩ hi hs
        exact ⟨h.over, h.buf, h.count⟩
      · simp only [Outcome.ok.injEq] at hs; subst hs
        exact moved hi rfl rfl rfl rfl rfl rfl
    · rename_i x m' hi
      split at hs
      all_goals
        simp only [Outcome.ok.injEq] at hs; subst hs
        exact moved hi rfl rfl rfl rfl rfl rfl
    · simp at hs
  | poke i handoff r =>
    simp only [step] at hs
    split at hs
    · rename_i x m' first hi
      rw [if_pos ho.main] at hs
      split at hs
      · exact giveUp_stays ho hi hs
      · simp only [Outcome.ok.injEq] at hs; subst hs
        exact moved hi rfl rfl rfl rfl rfl rfl
    · simp at hs
  | wake i =>
    simp only [step] at hs
    split at hs
    · rename_i x m' hi
      split at hs
      · simp only [Outcome.ok.injEq] at hs; subst hs
        exact moved hi rfl rfl rfl rfl rfl rfl
      · simp at hs
    · simp at hs
  | tick i =>
    simp only [step] at hs
    split at hs
    · rename_i x m' hi
      split at hs
      · simp at hs
      · simp only [Outcome.ok.injEq] at hs; subst hs
        exact moved hi rfl rfl rfl rfl rfl rfl
    · simp at hs
  | sendNow i =>
    simp only [step] at hs
    repeat' split at hs
    all_goals try (simp at hs; done)
    simp only [Outcome.ok.injEq] at hs; subst hs; exact alike rfl rfl rfl rfl rfl
  | sendNowChan i =>
    simp only [step, ho.main] at hs
    repeat' split at hs
    all_goals simp_all
  | userRelease i =>
    simp only [step] at hs
    repeat' split at hs
    all_goals try (simp at hs; done)
    have h := release_alike hs
    exact alike h.1 h.2 h.3 h.4 h.5
  | connect r => simp [step, ho.main] at hs
  | timer r => simp [step, ho.main] at hs
  | handle r => simp [step, ho.main] at hs
  | mainFlush b r => simp [step, ho.main] at hs
  | mainRelease => simp [step, ho.main] at hs
  | mainExit => simp [step, ho.main] at hs
  | close r => simp [step, ho.done] at hs
  | closerFlush b r =>
    simp only [step] at hs
    split at hs
    · rename_i f hf; exact absurd hf (ho.closer f)
    · simp at hs
  | cancel => simp only [step, Outcome.ok.injEq] at hs; subst hs; exact alike rfl rfl rfl rfl rfl
  | setDone =>
    simp only [step, Outcome.ok.injEq] at hs; subst hs
    exact alike rfl rfl rfl rfl ho.done.symm
  | fragment r =>
    simp only [step] at hs
    repeat' split at hs
    all_goals try (simp at hs; done)
    rename_i h1
    have h := acquire_alike h1
    simp only [Outcome.ok.injEq] at hs; subst hs
    exact alike h.1 h.2 h.3 h.4 h.5
  | fragmentDone i e =>
    simp only [step] at hs
    repeat' split at hs
    all_goals try (simp at hs; done)
    simp only [Outcome.ok.injEq] at hs; subst hs; exact alike rfl rfl rfl rfl rfl
  | gc x =>
    simp only [step] at hs
    repeat' split at hs
    all_goals try (simp at hs; done)
    simp only [Outcome.ok.injEq] at hs; subst hs; exact alike rfl rfl rfl rfl rfl

end Verif.DelayedSend
