import Verif.Spec.CloseReturns
import Verif.Lemmas.DelayedClose
import Verif.Lemmas.DelayedStuck
/-! How many steps `Close` still has to make (helpers). -/
namespace Verif.DelayedSend

/-- 1 if messages are waiting. -/
def waitingBuf (s : State) : Nat := if s.buf = [] then 0 else 1

/-- The steps `Close` has to make if nobody adds a message. -/
def left (s : State) : Nat :=
  match s.closer with
  | .flush (.acquired _) => 3 + 4 * waitingBuf s
  | .flush (.swapped _ ms) => if ms = [] then 2 else 6 + 4 * waitingBuf s
  | .flush (.checked _ _) => 6 + 4 * waitingBuf s
  | .flush (.wrote _ _ _) => 5 + 4 * waitingBuf s
  | .flush (.ended _ ms) => if ms = [] then 1 else 4 + 4 * waitingBuf s
  | _ => 0

theorem waitingBuf_le (s : State) : waitingBuf s ≤ 1 := by unfold waitingBuf; split <;> omega

theorem msgsOf_fresh {acc : List (Nat × Bytes)} {b : Nat} (h : ∀ p ∈ acc, p.1 < b) : msgsOf acc b = [] := by
  unfold msgsOf
  rw [List.map_eq_nil_iff, List.filter_eq_nil_iff]
  intro p hp
  have := h p hp
  simp only [decide_eq_true_eq]
  omega

theorem step_buf {cfg : Cfg} {s s' : State} {a : Act} (hf : cfg.frag = false) (hr : Reachable cfg s)
    (hs : step cfg s a = .ok s') : waitingBuf s' ≤ waitingBuf s + newMessages s s' := by
  have hd := ((inv_reachable hr).2 hf).1.core
  have hd' := ((inv_reachable (Reachable.step _ hr hs)).2 hf).1.core
  have hl := step_later hs
  obtain ⟨t, ht⟩ := hl.accepted
  cases t with
  | cons x t =>
    have := waitingBuf_le s'
    have : newMessages s s' ≥ 1 := by unfold newMessages; rw [← ht]; simp only [List.length_append, List.length_cons]; omega
    omega
  | nil =>
    rw [List.append_nil] at ht
    rcases Nat.lt_or_ge s.swaps s'.swaps with h | h
    · have : s'.buf = [] := by
        rw [hd'.bufEq, ← ht]
        exact msgsOf_fresh fun p hp => Nat.lt_of_le_of_lt (hd.accLe p hp) h
      simp [waitingBuf, this]
    · have e : s'.swaps = s.swaps := Nat.le_antisymm h hl.swaps
      have : s'.buf = s.buf := by rw [hd'.bufEq, hd.bufEq, e, ← ht]
      simp [waitingBuf, this]

theorem left_congr {s s' : State} (h : s'.closer = s.closer) : left s' ≤ left s + 4 * (waitingBuf s' - waitingBuf s) := by
  unfold left
  rw [h]
  repeat' split
  all_goals omega

theorem closing_or_over {cfg : Cfg} {s s' : State} {b : FAct} {o : Option Nat} (hs : step cfg s (.closerFlush b o) = .ok s') :
    closing s ∧ (closing s' ∨ returned s') := by
  simp only [step] at hs
  split at hs <;> try (simp at hs; done)
  rename_i f hc
  refine ⟨⟨f, hc⟩, ?_⟩
  split at hs <;> try (simp at hs; done)
  · simp only [Outcome.ok.injEq] at hs; subst hs; exact .inl ⟨_, rfl⟩
  · simp only [Outcome.ok.injEq] at hs; subst hs; exact .inr rfl
  · obtain ⟨t, n, rfl, h⟩ := begin_still hs
    exact .inl ⟨_, rfl⟩

theorem begin_buf {s s' : State} {r k} (hs : begin s r k = .ok s') : ∃ t n, s' = k t n ∧ t.buf = s.buf := by
  unfold begin at hs
  split at hs <;> try (simp at hs; done)
  rename_i t n h
  simp only [Outcome.ok.injEq] at hs
  exact ⟨t, n, hs.symm, (acquire_alike h).buf⟩

theorem own_left {cfg : Cfg} {s s' : State} {b : FAct} {o : Option Nat} (hf : cfg.frag = false) (hr : Reachable cfg s)
    (hs : step cfg s (.closerFlush b o) = .ok s') : left s' + 1 ≤ left s := by
  have hd := ((inv_reachable hr).2 hf).1
  simp only [step] at hs
  split at hs <;> try (simp at hs; done)
  rename_i f hc
  have hdone : s.done = true := hd.closerDone (by rw [hc]; simp)
  have hch := hd.closerChecked f (by rw [hc]; simp [Closer.flush?])
  cases f with
  | acquired n =>
    cases b <;> simp only [flushStep, reduceCtorEq, Outcome.ok.injEq] at hs
    subst hs
    simp only [left, hc, waitingBuf]
    by_cases h : s.buf = [] <;> simp [h]
  | swapped x ms =>
    cases b <;> simp only [flushStep, reduceCtorEq] at hs
    · by_cases h : ms = []
      · simp [h] at hs
      · simp only [h, if_false, Outcome.ok.injEq] at hs
        subst hs
        simp [left, hc, waitingBuf, h, setResult]; omega
    · by_cases h : ms = []
      · simp [h] at hs
      · simp only [h, hdone, if_true, if_false, Outcome.ok.injEq] at hs
        subst hs
        simp [left, hc, waitingBuf, h, setResult]; omega
    · by_cases h : ms = []
      · simp only [h, ne_eq, not_true, if_false] at hs
        split at hs <;> try (simp at hs; done)
        all_goals (rename_i hq; split at hq <;> try (simp at hq; done))
        all_goals simp only [Outcome.ok.injEq, Prod.mk.injEq, FRes.running.injEq, reduceCtorEq, and_false] at hq
        obtain ⟨rfl, rfl⟩ := hq
        simp only [Outcome.ok.injEq] at hs
        subst hs
        simp [left, hc, h]
      · simp [h] at hs
  | checked x ms => exact absurd rfl (hch x ms)
  | wrote x ms ok =>
    cases b <;> simp only [flushStep, reduceCtorEq] at hs
    split at hs <;> try (simp at hs; done)
    all_goals (rename_i hq; split at hq <;> try (simp at hq; done))
    all_goals simp only [Outcome.ok.injEq, Prod.mk.injEq, FRes.running.injEq, reduceCtorEq, and_false] at hq
    obtain ⟨rfl, rfl⟩ := hq
    simp only [Outcome.ok.injEq] at hs
    subst hs
    simp only [left, hc, waitingBuf]
    by_cases h : ms = [] <;> simp [h] <;> omega
  | ended x ms =>
    cases b <;> simp only [flushStep, reduceCtorEq] at hs
    cases hrel : release s x with
    | ok t =>
      have ha := release_alike hrel
      cases ms with
      | nil =>
        simp only [hrel, List.isEmpty_nil, Outcome.ok.injEq] at hs
        subst hs
        simp [left, hc]
      | cons m ms =>
        simp only [hrel, List.isEmpty_cons] at hs
        obtain ⟨u, n, rfl, h⟩ := begin_buf hs
        simp only at h
        simp [left, hc, waitingBuf, h, ha.buf]; omega
    | err e => simp [hrel] at hs
    | panic => simp [hrel] at hs
    | block => simp [hrel] at hs

theorem step_left {cfg : Cfg} {s s' : State} {a : Act} (hf : cfg.frag = false) (hr : Reachable cfg s)
    (hc : closing s ∨ returned s) (hs : step cfg s a = .ok s') :
    (closing s' ∨ returned s') ∧ left s' + (if own a then 1 else 0) ≤ left s + 4 * newMessages s s' := by
  have hd := ((inv_reachable hr).2 hf).1
  by_cases ho : ∃ b o, a = .closerFlush b o
  · obtain ⟨b, o, rfl⟩ := ho
    have := own_left hf hr hs
    exact ⟨(closing_or_over hs).2, by simp only [own, if_true]; omega⟩
  · have hne : ∀ b r, a ≠ .closerFlush b r := fun b r e => ho ⟨b, r, e⟩
    have hcl : ∀ r, a ≠ .close r := by
      intro r e
      subst e
      have : s.done = true := hd.closerDone (by rcases hc with ⟨f, h⟩ | h <;> rw [h] <;> simp)
      simp [step, this] at hs
    have e := (step_later hs).closer hcl hne
    have h1 := step_buf hf hr hs
    have h2 := left_congr e
    refine ⟨?_, ?_⟩
    · rcases hc with ⟨f, h⟩ | h
      · exact .inl ⟨f, e.trans h⟩
      · exact .inr (e.trans h)
    · have : own a = false := by
        cases a <;> first | rfl | exact absurd rfl (hne _ _)
      rw [this]
      simp only [Bool.false_eq_true, if_false]
      omega

theorem left_le (s : State) : left s ≤ 10 := by
  have := waitingBuf_le s
  unfold left
  repeat' split
  all_goals omega

end Verif.DelayedSend
