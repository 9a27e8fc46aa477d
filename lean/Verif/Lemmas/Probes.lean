import Verif.Lemmas.NegotiatorNet
import Verif.Lemmas.NegotiatorRounds
/-! # The interval of a round of the negotiation -/
namespace Verif.Negotiator

variable {cfg : Cfg} {t : Int}

/-- What a round is about while its probes are sent and collected. -/
structure Searching (cfg : Cfg) (s : State) : Prop where
  sending : ∀ r l, s.pinger = .send r l → 3 < r.width
  wide : ∀ r f, s.pinger = .collect r f → 3 < r.width
  found : ∀ r f, s.pinger = .collect r f → f = .none ∨ f.nextMin = 0 ∨ f.nextMax = add32 f.nextMin (r.width / 3 + 1)
  first : ∀ r, s.pinger.round = some r → r.cur = 0 → r = .first cfg.limit

theorem searching_of {s s' : State} (h : Searching cfg s)
    (hp : s'.pinger = s.pinger ∨ s'.pinger.round = none) : Searching cfg s' := by
  obtain ⟨h1, h2, h3, h4⟩ := h
  rcases hp with hp | hp
  · exact ⟨by rwa [hp], by rwa [hp], by rwa [hp], by rwa [hp]⟩
  · refine ⟨?_, ?_, ?_, by simp [hp]⟩
    · intro r l e; rw [e] at hp; simp [Pinger.round] at hp
    · intro r l e; rw [e] at hp; simp [Pinger.round] at hp
    · intro r l e; rw [e] at hp; simp [Pinger.round] at hp

theorem searching_pinger {s s' : State} {e : PEvent} (h : Searching cfg s) (hm : cfg.maxIter < 2 ^ 32)
    (hc : ∀ r, s.pinger.round = some r → r.cur < cfg.maxIter) (hs : step cfg s (.pinger e) = .ok s') :
    Searching cfg s' := by
  simp only [step, pingerStep] at hs
  split at hs
  · rename_i r hp
    injection hs with hs; subst hs
    simp only [atTop]
    split
    · exact searching_of h (.inr rfl)
    · split
      · exact searching_of h (.inr rfl)
      · rename_i hw
        refine ⟨?_, by simp, by simp, ?_⟩
        · intro r' l e'; simp only [Pinger.send.injEq] at e'; rw [← e'.1]; omega
        · intro r' e' h0
          simp only [Pinger.round, Option.some.injEq] at e'
          subst e'
          exact h.first r (by rw [hp]; rfl) h0
  · rename_i r p ps w hp
    split at hs
    · injection hs with hs; subst hs; exact searching_of h (.inr rfl)
    · split at hs
      · cases hs
      · injection hs with hs; subst hs
        refine ⟨?_, by simp, by simp, ?_⟩
        · intro r' l e'; simp only [Pinger.send.injEq] at e'; rw [← e'.1]; exact h.sending r _ hp
        · intro r' e' h0
          simp only [Pinger.round, Option.some.injEq] at e'
          subst e'
          exact h.first r (by rw [hp]; rfl) h0
  · rename_i r hp
    injection hs with hs; subst hs
    refine ⟨by simp, ?_, ?_, ?_⟩
    · intro r' f e'; simp only [Pinger.collect.injEq] at e'; rw [← e'.1]; exact h.sending r _ hp
    · intro r' f e'; simp only [Pinger.collect.injEq] at e'; exact .inl e'.2.symm
    · intro r' e' h0
      simp only [Pinger.round, Option.some.injEq] at e'
      subst e'
      exact h.first r (by rw [hp]; rfl) h0
  · rename_i r f moved hp
    split at hs
    · rename_i size iter c hc'
      injection hs with hs; subst hs
      refine ⟨by simp, ?_, ?_, ?_⟩
      · intro r' f' e'; simp only [Pinger.collect.injEq] at e'; rw [← e'.1]; exact h.wide r _ hp
      · intro r' f' e'
        simp only [Pinger.collect.injEq] at e'
        obtain ⟨rfl, rfl⟩ := e'
        have := h.found r f hp
        simp only [Found.add]
        by_cases hg : size > f.nextMin
        · simp [hg]
        · simp only [hg, if_false]
          rcases this with rfl | this | this
          · exact .inr (.inl rfl)
          · exact .inr (.inl this)
          · exact .inr (.inr this)
      · intro r' e' h0
        simp only [Pinger.round, Option.some.injEq] at e'
        subst e'
        exact h.first r (by rw [hp]; rfl) h0
    · cases hs
  · rename_i r f hp
    split at hs
    · injection hs with hs; subst hs
      simp only [afterRound]
      split
      · exact searching_of h (.inr rfl)
      · exact searching_of h (.inr rfl)
      · rename_i r' hr
        refine ⟨by simp, by simp, by simp, ?_⟩
        intro r2 e' h0
        simp only [Pinger.round, Option.some.injEq] at e'
        subst e'
        have := finish_cur hm (hc r (by rw [hp]; rfl)) hr
        omega
    · cases hs
  all_goals first
    | (split at hs
       · injection hs with hs; subst hs; exact searching_of h (.inr rfl)
       · cases hs)
    | (injection hs with hs; subst hs; exact searching_of h (.inr rfl))
    | cases hs

theorem searching_step {s s' : State} {a : Act} (h : Searching cfg s) (hm : cfg.maxIter < 2 ^ 32)
    (hc : ∀ r, s.pinger.round = some r → r.cur < cfg.maxIter) (hs : step cfg s a = .ok s') : Searching cfg s' := by
  cases a with
  | pinger e => exact searching_pinger h hm hc hs
  | start en =>
    simp only [step, start] at hs
    (repeat' split at hs) <;> (try (simp only [reduceCtorEq] at hs; done)) <;> simp only [Outcome.ok.injEq] at hs <;>
      subst hs
    · refine ⟨by simp, by simp, by simp, ?_⟩
      intro r e _
      simp only [Pinger.round, Option.some.injEq] at e
      exact e.symm
    · exact searching_of h (.inl rfl)
  | closer => rw [(closer_effect hs).1]; exact searching_of h (.inl rfl)
  | closeCall =>
    simp only [step] at hs
    split at hs <;> (simp only [Outcome.ok.injEq] at hs; subst hs) <;> exact searching_of h (.inl rfl)
  | cancel =>
    simp only [step, Outcome.ok.injEq] at hs
    subst hs
    exact searching_of h (.inl rfl)
  | fin e =>
    simp only [step, finStep] at hs
    (repeat' split at hs) <;> (try (simp only [reduceCtorEq] at hs; done)) <;> simp only [Outcome.ok.injEq] at hs <;>
      subst hs <;> first
      | exact searching_of h (.inl rfl)
      | exact searching_of h (.inr rfl)
  | deliver m w =>
    simp only [step, deliver] at hs
    (repeat' split at hs) <;> (try (simp only [reduceCtorEq] at hs; done)) <;> simp only [Outcome.ok.injEq] at hs <;>
      subst hs <;> exact searching_of h (.inl rfl)
  | reader w =>
    simp only [step, readerStep] at hs
    (repeat' split at hs) <;> (try (simp only [reduceCtorEq] at hs; done)) <;> simp only [Outcome.ok.injEq] at hs <;>
      subst hs <;> exact searching_of h (.inl rfl)

theorem searching_reachable {s : State} (hm : cfg.maxIter < 2 ^ 32) (h0 : 0 < cfg.maxIter) (h : Reachable cfg t s) :
    Searching cfg s := by
  induction h with
  | init => constructor <;> simp [State.init, Pinger.round]
  | step a hr hs ih => exact searching_step ih hm (count_reachable hm h0 hr).round hs

end Verif.Negotiator
