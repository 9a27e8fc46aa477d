import Verif.Model.StateWait
/-!
# C32: WaitForState never misses a state that persists
-/
namespace Verif.StateWait

/-- What a waiter knows. -/
def Good (s : State) (w : Waiter) : Prop :=
  match w.pc with
  | .top => True
  | .gotChan c => c ≤ s.chan
  | .waiting c loaded => c ≤ s.chan ∧ loaded ∉ w.wanted ∧ (c = s.chan → s.setting = false → s.state = loaded)
  | .returned r => r ∈ w.wanted ∨ w.ctx = true

theorem good_step {s s' : State} {a : Act} (h : ∀ w ∈ s.waiters, Good s w) (hs : step s a = .ok s') :
    ∀ w ∈ s'.waiters, Good s' w := by
  cases a with
  | setStore x l =>
    simp only [step] at hs
    split at hs <;> try (simp at hs; done)
    split at hs <;> (simp only [Outcome.ok.injEq] at hs; subst hs)
    · exact h
    · intro w hw
      have := h w hw
      unfold Good at this ⊢
      split <;> simp_all
  | setSwap =>
    simp only [step] at hs
    split at hs <;> try (simp at hs; done)
    simp only [Outcome.ok.injEq] at hs; subst hs
    intro w hw
    have := h w hw
    unfold Good at this ⊢
    split <;> simp_all <;> omega
  | wait l =>
    simp only [step, Outcome.ok.injEq] at hs; subst hs
    intro w hw
    rcases List.mem_append.mp hw with hw | hw
    · exact h w hw
    · simp only [List.mem_singleton] at hw; subst hw; simp [Good]
  | endCtx i =>
    simp only [step] at hs
    split at hs <;> try (simp at hs; done)
    rename_i w0 hw0
    simp only [Outcome.ok.injEq] at hs; subst hs
    intro w hw
    rcases List.mem_or_eq_of_mem_set hw with hw | hw
    · exact h w hw
    · subst hw
      have := h w0 (List.mem_of_getElem? hw0)
      unfold Good at this ⊢
      simp only
      split <;> simp_all
  | waiter i b =>
    simp only [step] at hs
    split at hs <;> try (simp at hs; done)
    rename_i w0 hw0
    split at hs <;> try (simp at hs; done)
    rename_i pc hpc
    simp only [Outcome.ok.injEq] at hs; subst hs
    intro w hw
    rcases List.mem_or_eq_of_mem_set hw with hw | hw
    · exact h w hw
    · subst hw
      have := h w0 (List.mem_of_getElem? hw0)
      simp only [waiterStep] at hpc
      unfold Good at this ⊢
      simp only
      (repeat' split at hpc) <;> simp at hpc <;> subst hpc <;> simp_all

theorem good_reachable {s : State} (hr : Reachable s) : ∀ w ∈ s.waiters, Good s w := by
  induction hr with
  | init => simp [State.init]
  | step a _ hs ih => exact good_step ih hs

/-- C32: a call returns only a wanted state, or after its context ended. -/
theorem C32_result {s : State} (hr : Reachable s) {w : Waiter} (hw : w ∈ s.waiters) {r : Nat}
    (h : w.pc = .returned r) : r ∈ w.wanted ∨ w.ctx = true := by
  have := good_reachable hr w hw
  simpa [Good, h] using this

/-- C32: every complete state change wakes a waiting call. -/
theorem C32_woken {s s' : State} (hr : Reachable s) {i : Nat} {w : Waiter} (hw : s.waiters[i]? = some w) {c l : Nat}
    (h : w.pc = .waiting c l) (hs : step s .setSwap = .ok s') : ∃ s'', step s' (.waiter i false) = .ok s'' := by
  have hg := good_reachable hr w (List.mem_of_getElem? hw)
  simp only [Good, h] at hg
  simp only [step] at hs
  split at hs <;> try (simp at hs; done)
  simp only [Outcome.ok.injEq] at hs; subst hs
  simp only [step, hw, waiterStep, h]
  rw [if_neg (by simp), if_pos (by omega)]
  exact ⟨_, rfl⟩

/-- Steps left before a call returns, if the state is a wanted one and stays. -/
def PC.rank : PC → Nat
  | .waiting _ _ => 3
  | .top => 2
  | .gotChan _ => 1
  | .returned _ => 0

/-- C32, no lost wake-up: if the state is a wanted one (and no `Set` call is in its critical section), the next step of
the call is possible, and it brings the call nearer to its end. -/
theorem C32_progress {s : State} (hr : Reachable s) (hset : s.setting = false) {i : Nat} {w : Waiter}
    (hw : s.waiters[i]? = some w) (hst : s.state ∈ w.wanted) (hnr : ∀ r, w.pc ≠ .returned r) :
    ∃ s' w', step s (.waiter i false) = .ok s' ∧ s'.waiters[i]? = some w' ∧ w'.wanted = w.wanted ∧
      w'.pc.rank < w.pc.rank := by
  have hg := good_reachable hr w (List.mem_of_getElem? hw)
  have hi := (List.getElem?_eq_some_iff.mp hw).1
  simp only [step, hw, waiterStep]
  cases hpc : w.pc with
  | top =>
    simp only [hset]
    exact ⟨_, _, rfl, List.getElem?_set_self hi, rfl, by simp [PC.rank]⟩
  | gotChan c =>
    simp only [hst, if_true]
    exact ⟨_, _, rfl, List.getElem?_set_self hi, rfl, by simp [PC.rank]⟩
  | waiting c l =>
    simp only [Good, hpc] at hg
    have hlt : c < s.chan := by
      rcases Nat.lt_or_ge c s.chan with h | h
      · exact h
      · exact absurd (hg.2.2 (by omega) hset ▸ hst) hg.2.1
    simp only [hlt, if_true]
    exact ⟨_, _, rfl, List.getElem?_set_self hi, rfl, by simp [PC.rank]⟩
  | returned r => exact absurd hpc (hnr r)

/-- The calls of other goroutines, and the end of contexts, do not take the call back; a `Set` call in its critical
section can always finish. -/
theorem C32_others {s s' : State} {a : Act} {i : Nat} {w : Waiter} (hw : s.waiters[i]? = some w)
    (ha : ∀ b, a ≠ .waiter i b) (hs : step s a = .ok s') :
    ∃ w', s'.waiters[i]? = some w' ∧ w'.wanted = w.wanted ∧ w'.pc = w.pc := by
  have hi := (List.getElem?_eq_some_iff.mp hw).1
  cases a with
  | waiter j b =>
    simp only [step] at hs
    split at hs <;> try (simp at hs; done)
    split at hs <;> try (simp at hs; done)
    simp only [Outcome.ok.injEq] at hs; subst hs
    refine ⟨w, ?_, rfl, rfl⟩
    rw [List.getElem?_set_ne (by intro h; subst h; exact ha b rfl)]
    exact hw
  | endCtx j =>
    simp only [step] at hs
    split at hs <;> try (simp at hs; done)
    rename_i w0 hw0
    simp only [Outcome.ok.injEq] at hs; subst hs
    by_cases hij : j = i
    · subst hij
      rw [hw] at hw0; simp only [Option.some.injEq] at hw0; subst hw0
      exact ⟨_, List.getElem?_set_self hi, rfl, rfl⟩
    · exact ⟨w, by rw [List.getElem?_set_ne hij]; exact hw, rfl, rfl⟩
  | wait l =>
    simp only [step, Outcome.ok.injEq] at hs; subst hs
    exact ⟨w, by rw [List.getElem?_append_left hi]; exact hw, rfl, rfl⟩
  | setStore x l =>
    simp only [step] at hs
    split at hs <;> try (simp at hs; done)
    split at hs <;> (simp only [Outcome.ok.injEq] at hs; subst hs) <;> exact ⟨w, hw, rfl, rfl⟩
  | setSwap =>
    simp only [step] at hs
    split at hs <;> try (simp at hs; done)
    simp only [Outcome.ok.injEq] at hs; subst hs
    exact ⟨w, hw, rfl, rfl⟩

/-- C32, whole: if from some point on the session is in a wanted state (no further `Set` stores another one), then in
any execution the call makes at most `3` more steps before it has returned; and until then its next step, or the end of
the critical section of a `Set` call, is possible. -/
theorem C32_returns {s : State} (hr : Reachable s) {i : Nat} : ∀ (as : List Act) {s' : State} {w : Waiter},
    s.waiters[i]? = some w → (∀ (n : Nat) s1, runActs s (as.take n) = .ok s1 → s1.state ∈ w.wanted) →
    (∀ a ∈ as, a ≠ .waiter i true) → runActs s as = .ok s' →
    ∃ w', s'.waiters[i]? = some w' ∧ w'.wanted = w.wanted ∧
      w'.pc.rank + (as.filter (fun a => a = .waiter i false)).length ≤ w.pc.rank ∧
      ((∃ r, w'.pc = .returned r) ∨ (∃ s'', step s' .setSwap = .ok s'') ∨ ∃ s'', step s' (.waiter i false) = .ok s'') := by
  intro as
  induction as generalizing s with
  | nil =>
    intro s' w hw hst _ hs
    have hst := hst 0 s rfl
    simp only [runActs, Outcome.ok.injEq] at hs; subst hs
    refine ⟨w, hw, rfl, by simp, ?_⟩
    by_cases hret : ∃ r, w.pc = .returned r
    · exact .inl hret
    · cases hset : s.setting
      · have hp := C32_progress hr hset hw hst (fun r h => hret ⟨r, h⟩)
        obtain ⟨s2, _, h2, _⟩ := hp
        exact .inr (.inr ⟨s2, h2⟩)
      · right; left
        simp [step, hset]
  | cons a as ih =>
    intro s' w hw hst hna hs
    have hst0 := hst 0 s rfl
    simp only [runActs] at hs
    split at hs <;> try (simp at hs; done)
    rename_i s1 h1
    have hst' : ∀ (n : Nat) s2, runActs s1 (as.take n) = .ok s2 → s2.state ∈ w.wanted := by
      intro n s2 h2
      exact hst (n + 1) s2 (by simp only [List.take_succ_cons, runActs, h1]; exact h2)
    by_cases ha : a = .waiter i false
    · subst ha
      have hset : (∀ r, w.pc ≠ .returned r) ∧ (w.pc = .top → s.setting = false) := by
        constructor
        · intro r hpc; simp [step, hw, waiterStep, hpc] at h1
        · intro hpc
          cases hset : s.setting
          · rfl
          · simp [step, hw, waiterStep, hpc, hset] at h1
      have hi := (List.getElem?_eq_some_iff.mp hw).1
      have hdec : ∃ w', s1.waiters[i]? = some w' ∧ w'.wanted = w.wanted ∧ w'.pc.rank < w.pc.rank := by
        simp only [step, hw] at h1
        split at h1 <;> try (simp at h1; done)
        rename_i pc hpc
        simp only [Outcome.ok.injEq] at h1; subst h1
        refine ⟨_, List.getElem?_set_self hi, rfl, ?_⟩
        simp only [waiterStep] at hpc
        cases hp : w.pc with
        | top => simp [hp, hset.2 hp] at hpc; subst hpc; simp [PC.rank]
        | gotChan c => simp [hp, hst0] at hpc; subst hpc; simp [PC.rank]
        | waiting c l =>
          simp only [hp] at hpc
          simp only [Bool.false_eq_true, if_false] at hpc
          split at hpc <;> try (simp at hpc; done)
          simp only [Outcome.ok.injEq] at hpc; subst hpc; simp [PC.rank]
        | returned r => exact absurd hp (hset.1 r)
      obtain ⟨w1, hw1, hwa, hlt⟩ := hdec
      obtain ⟨w2, hw2, hwb, hle, hen⟩ := ih (.step _ hr h1) hw1 (by rw [hwa]; exact hst')
        (fun b hb => hna b (List.mem_cons_of_mem _ hb)) hs
      refine ⟨w2, hw2, hwb.trans hwa, ?_, hen⟩
      simp only [decide_true, List.filter_cons_of_pos, List.length_cons]
      omega
    · have hb : ∀ b, a ≠ .waiter i b := by
        intro b
        cases b
        · exact ha
        · exact hna a List.mem_cons_self
      obtain ⟨w1, hw1, hwa, hpc⟩ := C32_others hw hb h1
      obtain ⟨w2, hw2, hwb, hle, hen⟩ := ih (.step _ hr h1) hw1 (by rw [hwa]; exact hst')
        (fun b hb => hna b (List.mem_cons_of_mem _ hb)) hs
      refine ⟨w2, hw2, hwb.trans hwa, ?_, hen⟩
      rw [List.filter_cons_of_neg (by simpa using ha), ← hpc]
      exact hle

/-- A call waits for state 4; the state becomes 2 and then 4. -/
def exActs : List Act :=
  [.wait [4], .waiter 0 false, .waiter 0 false, .setStore 2 [], .setSwap, .setStore 4 [], .waiter 0 false, .setSwap,
   .waiter 0 false, .waiter 0 false]

example : runActs State.init exActs = .ok ⟨4, 2, false, [⟨[4], false, .returned 4⟩]⟩ := by decide +kernel

/-- A call that waits for the state there is returns in two steps. -/
example : runActs State.init [.wait [0], .waiter 0 false, .waiter 0 false] = .ok ⟨0, 0, false, [⟨[0], false, .returned 0⟩]⟩ := by
  decide +kernel

/-- The same call before the last three steps, which the theorems are about. -/
example : Reachable ⟨4, 1, true, [⟨[4], false, .top⟩]⟩ := by
  have key : ∀ (as : List Act) {s s' : State}, Reachable s → runActs s as = .ok s' → Reachable s' := by
    intro as
    induction as with
    | nil => intro s s' hr h; simp only [runActs, Outcome.ok.injEq] at h; subst h; exact hr
    | cons a as ih =>
      intro s s' hr h
      simp only [runActs] at h
      split at h <;> try (simp at h; done)
      rename_i s1 h1
      exact ih (.step a hr h1) h
  exact key (exActs.take 7) .init (by decide +kernel)

end Verif.StateWait

open Verif.StateWait
#print axioms C32_result
#print axioms C32_woken
#print axioms C32_progress
#print axioms C32_others
#print axioms C32_returns
