import Verif.Lemmas.NegotiatorNet
/-!
# The number of rounds, the time-outs, and states that are never left
-/
namespace Verif.Negotiator

variable {cfg : Cfg} {t : Int}

def Msg.isPing : Msg → Bool
  | .ping _ _ => true
  | _ => false

/-- The number of probes sent. -/
def State.pings (s : State) : Nat := s.out.countP Msg.isPing

/-- Rounds and probes are counted right, whatever the other side sends. -/
structure Count (cfg : Cfg) (s : State) : Prop where
  round : ∀ r, s.pinger.round = some r → r.cur < cfg.maxIter
  iters : ∀ sz it, Msg.ping sz it ∈ s.out → it < cfg.maxIter
  off : s.pinger = .off → s.pings = 0
  top : ∀ r, s.pinger = .top r → s.pings ≤ 12 * r.cur
  send : ∀ r l, s.pinger = .send r l → s.pings + l.length ≤ 12 * (r.cur + 1)
  collect : ∀ r f, s.pinger = .collect r f → s.pings ≤ 12 * (r.cur + 1)
  all : s.pings ≤ 12 * cfg.maxIter

theorem pings_sent {s : State} {w : Write} {m : Msg} (h : m.isPing = false) :
    (s.out ++ sent w m).countP Msg.isPing = s.out.countP Msg.isPing := by
  simp only [sent]; split <;> simp [h]

theorem pings_sent_le {l : List Msg} {w : Write} {m : Msg} :
    (l ++ sent w m).countP Msg.isPing ≤ l.countP Msg.isPing + 1 := by
  simp only [sent]
  split
  · rw [List.countP_append]
    have : [m].countP Msg.isPing ≤ 1 := List.countP_le_length
    omega
  · simp

theorem finish_cur {r r' : Round} {f : Found} {limit maxIter : Nat} (hm : maxIter < 2 ^ 32) (hr : r.cur < maxIter)
    (h : r.finish limit maxIter f = .next r') :
    r'.cur < maxIter ∧ r'.cur = r.cur + 1 := by
  simp only [Round.finish] at h
  (repeat' split at h) <;> try (simp only [reduceCtorEq] at h; done)
  rename_i hlt
  simp only [RoundEnd.next.injEq] at h
  subst h
  simp only [add32] at hlt ⊢
  omega

/-- A step that leaves the ping sender alone, or lets it leave its round, and sends no ping. -/
theorem count_keep {s s' : State} (h : Count cfg s)
    (hp : s'.pinger = s.pinger ∨ (s'.pinger.round = none ∧ s'.pinger ≠ .off))
    (ho : ∀ sz it, Msg.ping sz it ∈ s'.out ↔ .ping sz it ∈ s.out) (hn : s'.pings = s.pings) : Count cfg s' := by
  obtain ⟨h1, h2, h3, h4, h5, h6, h7⟩ := h
  rcases hp with hp | ⟨hp, hp'⟩
  · constructor
    · rw [hp]; exact h1
    · intro sz it hm; exact h2 sz it ((ho _ _).mp hm)
    · rw [hp, hn]; exact h3
    · rw [hp, hn]; exact h4
    · rw [hp, hn]; exact h5
    · rw [hp, hn]; exact h6
    · rw [hn]; exact h7
  · constructor
    · rw [hp]; simp
    · intro sz it hm; exact h2 sz it ((ho _ _).mp hm)
    · intro h; exact absurd h hp'
    · intro r hr; rw [hr] at hp; simp [Pinger.round] at hp
    · intro r l hr; rw [hr] at hp; simp [Pinger.round] at hp
    · intro r l hr; rw [hr] at hp; simp [Pinger.round] at hp
    · rw [hn]; exact h7

theorem count_pinger {s s' : State} {e : PEvent} (hm : cfg.maxIter < 2 ^ 32) (h : Count cfg s)
    (hs : step cfg s (.pinger e) = .ok s') : Count cfg s' := by
  simp only [step, pingerStep] at hs
  split at hs
  · rename_i r hp
    simp only [Outcome.ok.injEq] at hs
    subst hs
    simp only [atTop]
    split
    · exact count_keep h (Or.inr ⟨rfl, by simp⟩) (by simp) rfl
    · split
      · exact count_keep h (Or.inr ⟨rfl, by simp⟩) (by simp) rfl
      · obtain ⟨h1, h2, h3, h4, h5, h6, h7⟩ := h
        have a := h1 r (by rw [hp]; rfl)
        have b := h4 r hp
        constructor
        · intro r' hr; simp only [Pinger.round, Option.some.injEq] at hr; subst hr; exact a
        · exact h2
        · intro ho; simp at ho
        · intro r' hr; simp at hr
        · intro r' l hr
          simp only [Pinger.send.injEq] at hr
          obtain ⟨rfl, rfl⟩ := hr
          have : r.probes.length = 12 := rfl
          simp only [State.pings] at b ⊢
          omega
        · intro r' l hr; simp at hr
        · exact h7
  · rename_i r p ps w hp
    split at hs
    · simp only [Outcome.ok.injEq] at hs
      subst hs
      exact count_keep h (Or.inr ⟨rfl, by simp⟩) (by simp) rfl
    · split at hs <;> try (simp only [reduceCtorEq] at hs; done)
      simp only [Outcome.ok.injEq] at hs
      subst hs
      obtain ⟨h1, h2, h3, h4, h5, h6, h7⟩ := h
      have a := h1 r (by rw [hp]; rfl)
      have b := h5 r _ hp
      have c : (s.out ++ sent w (.ping p r.cur)).countP Msg.isPing ≤ s.out.countP Msg.isPing + 1 := pings_sent_le
      simp only [State.pings, List.length_cons] at b h7
      constructor
      · intro r' hr; simp only [Pinger.round, Option.some.injEq] at hr; subst hr; exact a
      · intro sz it hmem
        rcases mem_sent_self _ hmem with hmem | ⟨rfl, rfl⟩
        · exact h2 sz it hmem
        · exact a
      · intro ho; simp at ho
      · intro r' hr; simp at hr
      · intro r' l hr
        simp only [Pinger.send.injEq] at hr
        obtain ⟨rfl, rfl⟩ := hr
        simp only [State.pings]
        omega
      · intro r' l hr; simp at hr
      · simp only [State.pings]
        have : 12 * (r.cur + 1) ≤ 12 * cfg.maxIter := Nat.mul_le_mul_left _ a
        omega
  · rename_i r hp
    simp only [Outcome.ok.injEq] at hs
    subst hs
    obtain ⟨h1, h2, h3, h4, h5, h6, h7⟩ := h
    have a := h1 r (by rw [hp]; rfl)
    have b := h5 r _ hp
    constructor
    · intro r' hr; simp only [Pinger.round, Option.some.injEq] at hr; subst hr; exact a
    · exact h2
    · intro ho; simp at ho
    · intro r' hr; simp at hr
    · intro r' l hr; simp at hr
    · intro r' f hr
      simp only [Pinger.collect.injEq] at hr
      obtain ⟨rfl, rfl⟩ := hr
      simp only [State.pings] at b ⊢
      exact b
    · exact h7
  · rename_i r f moved hp
    split at hs <;> try (simp only [reduceCtorEq] at hs; done)
    simp only [Outcome.ok.injEq] at hs
    subst hs
    obtain ⟨h1, h2, h3, h4, h5, h6, h7⟩ := h
    have a := h1 r (by rw [hp]; rfl)
    have b := h6 r _ hp
    constructor
    · intro r' hr; simp only [Pinger.round, Option.some.injEq] at hr; subst hr; exact a
    · exact h2
    · intro ho; simp at ho
    · intro r' hr; simp at hr
    · intro r' l hr; simp at hr
    · intro r' f hr
      simp only [Pinger.collect.injEq] at hr
      obtain ⟨rfl, rfl⟩ := hr
      exact b
    · exact h7
  · rename_i r f hp
    split at hs <;> try (simp only [reduceCtorEq] at hs; done)
    simp only [Outcome.ok.injEq] at hs
    subst hs
    simp only [afterRound]
    split
    · exact count_keep h (Or.inr ⟨rfl, by simp⟩) (by simp) rfl
    · exact count_keep h (Or.inr ⟨rfl, by simp⟩) (by simp) rfl
    · rename_i r' hfin
      obtain ⟨h1, h2, h3, h4, h5, h6, h7⟩ := h
      have a := h1 r (by rw [hp]; rfl)
      have b := h6 r _ hp
      obtain ⟨c, d⟩ := finish_cur hm a hfin
      constructor
      · intro r'' hr; simp only [Pinger.round, Option.some.injEq] at hr; subst hr; exact c
      · exact h2
      · intro ho; simp at ho
      · intro r'' hr
        simp only [Pinger.top.injEq] at hr
        subst hr
        rw [d]
        exact b
      · intro r' l hr; simp at hr
      · intro r' l hr; simp at hr
      · exact h7
  · split at hs <;> try (simp only [reduceCtorEq] at hs; done)
    simp only [Outcome.ok.injEq] at hs
    subst hs
    exact count_keep h (Or.inr ⟨rfl, by simp⟩) (by simp) rfl
  · split at hs <;> try (simp only [reduceCtorEq] at hs; done)
    simp only [Outcome.ok.injEq] at hs
    subst hs
    exact count_keep h (Or.inr ⟨rfl, by simp⟩) (by simp) rfl
  · simp only [Outcome.ok.injEq] at hs
    subst hs
    exact count_keep h (Or.inr ⟨rfl, by simp⟩) (fun sz it => mem_sent_ping (by simp) _) (pings_sent rfl)
  · simp only [Outcome.ok.injEq] at hs
    subst hs
    exact count_keep h (Or.inr ⟨rfl, by simp⟩) (by simp) rfl
  · simp only [reduceCtorEq] at hs

theorem count_step {s s' : State} {a : Act} (hm : cfg.maxIter < 2 ^ 32) (h0 : 0 < cfg.maxIter) (hi : Inv s)
    (h : Count cfg s) (hs : step cfg s a = .ok s') : Count cfg s' := by
  cases a with
  | start en =>
    simp only [step, start] at hs
    split at hs <;> try (simp only [reduceCtorEq] at hs; done)
    rename_i hst
    obtain ⟨hoff, -⟩ := hi.fresh (by simpa using hst)
    split at hs <;> try (simp only [reduceCtorEq] at hs; done)
    split at hs
    · simp only [Outcome.ok.injEq] at hs
      subst hs
      obtain ⟨h1, h2, h3, h4, h5, h6, h7⟩ := h
      have hno := h3 hoff
      constructor
      · intro r hr
        simp only [Pinger.round, Option.some.injEq] at hr
        subst hr
        exact h0
      · exact h2
      · intro ho; simp at ho
      · intro r hr
        simp only [State.pings] at hno ⊢
        omega
      · intro r l hr; simp at hr
      · intro r l hr; simp at hr
      · exact h7
    · simp only [Outcome.ok.injEq] at hs
      subst hs
      exact count_keep h (Or.inl rfl) (by simp) rfl
  | pinger e => exact count_pinger hm h hs
  | fin e =>
    simp only [step, finStep] at hs
    (repeat' split at hs) <;> (try (simp only [reduceCtorEq] at hs; done)) <;> simp only [Outcome.ok.injEq] at hs <;>
      subst hs <;> first
      | exact count_keep h (Or.inl rfl) (by simp) rfl
      | exact count_keep h (Or.inr ⟨rfl, by simp⟩) (by simp) rfl
  | deliver m w =>
    simp only [step, deliver] at hs
    (repeat' split at hs) <;> (try (simp only [reduceCtorEq] at hs; done)) <;> simp only [Outcome.ok.injEq] at hs <;>
      subst hs <;> first
      | exact count_keep h (Or.inl rfl) (by simp) rfl
      | exact count_keep h (Or.inl rfl) (fun sz it => mem_sent_ping (by simp) _) (pings_sent rfl)
  | reader w =>
    simp only [step, readerStep] at hs
    (repeat' split at hs) <;> (try (simp only [reduceCtorEq] at hs; done)) <;> simp only [Outcome.ok.injEq] at hs <;>
      subst hs <;> first
      | exact count_keep h (Or.inl rfl) (by simp) rfl
      | exact count_keep h (Or.inl rfl) (fun sz it => mem_sent_ping (by simp) _) (pings_sent rfl)
  | closeCall =>
    simp only [step] at hs
    split at hs <;> (simp only [Outcome.ok.injEq] at hs; subst hs) <;> exact count_keep h (Or.inl rfl) (by simp) rfl
  | closer =>
    simp only [step, closerStep] at hs
    split at hs <;> try (simp only [reduceCtorEq] at hs; done)
    · split at hs <;> try (simp only [reduceCtorEq] at hs; done)
      split at hs <;> try (simp only [reduceCtorEq] at hs; done)
      · simp only [Outcome.ok.injEq] at hs; subst hs; exact count_keep h (Or.inl rfl) (by simp) rfl
      · split at hs <;> try (simp only [reduceCtorEq] at hs; done)
        simp only [Outcome.ok.injEq] at hs; subst hs; exact count_keep h (Or.inl rfl) (by simp) rfl
    · simp only [Outcome.ok.injEq] at hs; subst hs; exact count_keep h (Or.inl rfl) (by simp) rfl
  | cancel =>
    simp only [step, Outcome.ok.injEq] at hs
    subst hs
    exact count_keep h (Or.inl rfl) (by simp) rfl

theorem count_reachable {s : State} (hm : cfg.maxIter < 2 ^ 32) (h0 : 0 < cfg.maxIter) (h : Reachable cfg t s) :
    Count cfg s := by
  induction h with
  | init => constructor <;> simp [State.init, Pinger.round, State.pings]
  | step a hr hs ih => exact count_step hm h0 (inv_reachable hr) ih hs

/-! ### The read time-out -/

/-- The pinger is about to set its time-out, or has set it, for round `r`. -/
structure Timeouts (t : Int) (s : State) : Prop where
  opt : s.optTimeout = t ∨ (t ≤ 0 ∧ s.optTimeout = infinite)
  later : t ≤ 0 → ∀ r, s.pinger.round = some r → (r.cur = 0 ∧ ∀ f, s.pinger ≠ .collect r f) ∨ s.optTimeout = infinite
  cur : ∀ r f, s.pinger = .collect r f →
    (0 < t → s.readTimeout = t) ∧ (t ≤ 0 → 0 < r.cur → s.readTimeout = infinite)

theorem timeouts_keep {s s' : State} (h : Timeouts t s) (hp : s'.pinger = s.pinger ∨ s'.pinger.round = none)
    (ho : s'.optTimeout = s.optTimeout) (hr : s'.readTimeout = s.readTimeout) : Timeouts t s' := by
  obtain ⟨h1, h2, h3⟩ := h
  rcases hp with hp | hp
  · exact ⟨by rw [ho]; exact h1, by rw [ho, hp]; exact h2, by rw [hr, hp]; exact h3⟩
  · refine ⟨by rw [ho]; exact h1, ?_, ?_⟩
    · intro _ r hr; rw [hp] at hr; simp at hr
    · intro r f hr; rw [hr] at hp; simp [Pinger.round] at hp

theorem timeouts_step {s s' : State} {a : Act} (h : Timeouts t s)
    (hs : step cfg s a = .ok s') : Timeouts t s' := by
  cases a with
  | start en =>
    simp only [step, start] at hs
    (repeat' split at hs) <;> (try (simp only [reduceCtorEq] at hs; done)) <;> simp only [Outcome.ok.injEq] at hs <;>
      subst hs
    · refine ⟨h.opt, ?_, by simp⟩
      intro _ r hr
      simp only [Pinger.round, Option.some.injEq] at hr
      subst hr
      exact Or.inl ⟨rfl, by simp⟩
    · exact timeouts_keep h (Or.inl rfl) rfl rfl
  | pinger e =>
    simp only [step, pingerStep] at hs
    split at hs
    · rename_i r hp
      simp only [Outcome.ok.injEq] at hs
      subst hs
      simp only [atTop]
      split
      · exact timeouts_keep h (Or.inr rfl) rfl rfl
      · split
        · exact timeouts_keep h (Or.inr rfl) rfl rfl
        · refine ⟨h.opt, ?_, by simp⟩
          intro ht r' hr
          simp only [Pinger.round, Option.some.injEq] at hr
          subst hr
          rcases h.later ht r (by rw [hp]; rfl) with ⟨h0, -⟩ | h0
          · exact Or.inl ⟨h0, by simp⟩
          · exact Or.inr h0
    · rename_i r p ps w hp
      split at hs
      · simp only [Outcome.ok.injEq] at hs
        subst hs
        exact timeouts_keep h (Or.inr rfl) rfl rfl
      · split at hs <;> try (simp only [reduceCtorEq] at hs; done)
        simp only [Outcome.ok.injEq] at hs
        subst hs
        refine ⟨h.opt, ?_, by simp⟩
        intro ht r' hr
        simp only [Pinger.round, Option.some.injEq] at hr
        subst hr
        rcases h.later ht r (by rw [hp]; rfl) with ⟨h0, -⟩ | h0
        · exact Or.inl ⟨h0, by simp⟩
        · exact Or.inr h0
    · rename_i r hp
      simp only [Outcome.ok.injEq] at hs
      subst hs
      have hinf : (0 : Int) < infinite := by decide
      have hl := h.later
      have ho := h.opt
      refine ⟨?_, ?_, ?_⟩
      · simp only; split <;> omega
      · intro ht r' hr
        right
        simp only
        split <;> omega
      · intro r' f hr
        simp only [Pinger.collect.injEq] at hr
        obtain ⟨rfl, rfl⟩ := hr
        refine ⟨by simp only; omega, ?_⟩
        intro ht hpos
        rcases hl ht r (by rw [hp]; rfl) with ⟨h0, -⟩ | h0
        · omega
        · exact h0
    · rename_i r f moved hp
      split at hs <;> try (simp only [reduceCtorEq] at hs; done)
      simp only [Outcome.ok.injEq] at hs
      subst hs
      refine ⟨h.opt, ?_, ?_⟩
      · intro ht r' hr
        simp only [Pinger.round, Option.some.injEq] at hr
        subst hr
        rcases h.later ht r (by rw [hp]; rfl) with ⟨_, h0⟩ | h0
        · exact absurd hp (h0 f)
        · exact Or.inr h0
      · intro r' f' hr
        simp only [Pinger.collect.injEq] at hr
        obtain ⟨rfl, rfl⟩ := hr
        exact h.cur r f hp
    · rename_i r f hp
      split at hs <;> try (simp only [reduceCtorEq] at hs; done)
      simp only [Outcome.ok.injEq] at hs
      subst hs
      simp only [afterRound]
      split
      · exact timeouts_keep h (Or.inr rfl) rfl rfl
      · exact timeouts_keep h (Or.inr rfl) rfl rfl
      · refine ⟨h.opt, ?_, by simp⟩
        intro ht r' hr
        rcases h.later ht r (by rw [hp]; rfl) with ⟨_, h0⟩ | h0
        · exact absurd hp (h0 f)
        · exact Or.inr h0
    · split at hs <;> try (simp only [reduceCtorEq] at hs; done)
      simp only [Outcome.ok.injEq] at hs
      subst hs
      exact timeouts_keep h (Or.inr rfl) rfl rfl
    · split at hs <;> try (simp only [reduceCtorEq] at hs; done)
      simp only [Outcome.ok.injEq] at hs
      subst hs
      exact timeouts_keep h (Or.inr rfl) rfl rfl
    · simp only [Outcome.ok.injEq] at hs
      subst hs
      exact timeouts_keep h (Or.inr rfl) rfl rfl
    · simp only [Outcome.ok.injEq] at hs
      subst hs
      exact timeouts_keep h (Or.inr rfl) rfl rfl
    · simp only [reduceCtorEq] at hs
  | fin e =>
    simp only [step, finStep] at hs
    (repeat' split at hs) <;> (try (simp only [reduceCtorEq] at hs; done)) <;> simp only [Outcome.ok.injEq] at hs <;>
      subst hs <;> first
      | exact timeouts_keep h (Or.inl rfl) rfl rfl
      | exact timeouts_keep h (Or.inr rfl) rfl rfl
  | deliver m w =>
    simp only [step, deliver] at hs
    (repeat' split at hs) <;> (try (simp only [reduceCtorEq] at hs; done)) <;> simp only [Outcome.ok.injEq] at hs <;>
      subst hs <;> exact timeouts_keep h (Or.inl rfl) rfl rfl
  | reader w =>
    simp only [step, readerStep] at hs
    (repeat' split at hs) <;> (try (simp only [reduceCtorEq] at hs; done)) <;> simp only [Outcome.ok.injEq] at hs <;>
      subst hs <;> exact timeouts_keep h (Or.inl rfl) rfl rfl
  | closeCall =>
    simp only [step] at hs
    split at hs <;> (simp only [Outcome.ok.injEq] at hs; subst hs) <;> exact timeouts_keep h (Or.inl rfl) rfl rfl
  | closer =>
    simp only [step, closerStep] at hs
    split at hs <;> try (simp only [reduceCtorEq] at hs; done)
    · split at hs <;> try (simp only [reduceCtorEq] at hs; done)
      split at hs <;> try (simp only [reduceCtorEq] at hs; done)
      · simp only [Outcome.ok.injEq] at hs; subst hs; exact timeouts_keep h (Or.inl rfl) rfl rfl
      · split at hs <;> try (simp only [reduceCtorEq] at hs; done)
        simp only [Outcome.ok.injEq] at hs; subst hs; exact timeouts_keep h (Or.inl rfl) rfl rfl
    · simp only [Outcome.ok.injEq] at hs; subst hs; exact timeouts_keep h (Or.inl rfl) rfl rfl
  | cancel =>
    simp only [step, Outcome.ok.injEq] at hs
    subst hs
    exact timeouts_keep h (Or.inl rfl) rfl rfl

theorem timeouts_reachable {s : State} (h : Reachable cfg t s) :
    Timeouts t s := by
  induction h with
  | init => exact ⟨Or.inl rfl, by simp [State.init, Pinger.round], by simp [State.init]⟩
  | step a hr hs ih => exact timeouts_step ih hs

/-! ### States that are never left -/

/-- The finalizer has left because of the context before the ping sender was through. -/
def Abandoned (s : State) : Prop :=
  s.started = true ∧ s.fin = .done ∧ s.est = none ∧ s.okCalls = 0 ∧ s.pinger ≠ .done ∧ s.pinger ≠ .off ∧
    (s.closer = .off ∨ s.closer = .waiting)

/-- The finalizer has left because of the context. -/
def GaveUp (s : State) : Prop := s.started = true ∧ s.fin = .done ∧ s.est = none ∧ s.okCalls = 0

/-- The reader waits for a finalizer that is not there (any more). -/
def ReaderLost (s : State) : Prop := s.started = true ∧ s.reader = .stage ∧ (s.fin = .done ∨ s.fin = .off)

theorem closer_effect {s s' : State} (hs : step cfg s .closer = .ok s') :
    s' = { s with recv := s'.recv, closer := s'.closer } ∧
    ((s.closer = .waiting ∧ s.tasksDone = true ∧ (s'.closer = .closed ∨ s'.closer = .done)) ∨
      (s.closer = .closed ∧ s'.closer = .done)) := by
  simp only [step, closerStep] at hs
  split at hs <;> try (simp only [reduceCtorEq] at hs; done)
  · rename_i hc
    split at hs <;> try (simp only [reduceCtorEq] at hs; done)
    rename_i ht
    split at hs <;> try (simp only [reduceCtorEq] at hs; done)
    · simp only [Outcome.ok.injEq] at hs; subst hs; exact ⟨rfl, Or.inl ⟨hc, ht, Or.inr rfl⟩⟩
    · split at hs <;> try (simp only [reduceCtorEq] at hs; done)
      simp only [Outcome.ok.injEq] at hs; subst hs; exact ⟨rfl, Or.inl ⟨hc, ht, Or.inl rfl⟩⟩
  · rename_i hc
    simp only [Outcome.ok.injEq] at hs; subst hs; exact ⟨rfl, Or.inr ⟨hc, rfl⟩⟩

theorem gaveUp_step {s s' : State} {a : Act} (h : GaveUp s) (hs : step cfg s a = .ok s') : GaveUp s' := by
  obtain ⟨h1, h2, h3, h4⟩ := h
  by_cases ha : a = .closer
  · subst ha
    rw [(closer_effect hs).1]
    exact ⟨h1, h2, h3, h4⟩
  · cases a <;> simp only [step, start, pingerStep, finStep, deliver, readerStep, ne_eq, not_true] at hs ha <;>
      (repeat' split at hs) <;> (try (simp at hs; done)) <;> simp only [Outcome.ok.injEq] at hs <;> subst hs <;>
      simp_all [GaveUp]

theorem abandoned_step {s s' : State} {a : Act} (h : Abandoned s) (hs : step cfg s a = .ok s') : Abandoned s' := by
  obtain ⟨h1, h2, h3, h4, h5, h6, h7⟩ := h
  by_cases ha : a = .closer
  · subst ha
    obtain ⟨-, ⟨hc, ht, -⟩ | ⟨hc, -⟩⟩ := closer_effect hs
    · simp only [State.tasksDone, Bool.and_eq_true, decide_eq_true_eq] at ht
      rcases ht.1 with ht | ht
      · exact absurd ht h6
      · exact absurd ht h5
    · rw [hc] at h7; simp at h7
  · cases a <;> simp only [step, start, pingerStep, finStep, deliver, readerStep, ne_eq, not_true] at hs ha <;>
      (repeat' split at hs) <;> (try (simp at hs; done)) <;> simp only [Outcome.ok.injEq] at hs <;> subst hs <;>
      simp_all [Abandoned, atTop_ne, afterRound_ne]

theorem readerLost_step {s s' : State} {a : Act} (h : ReaderLost s) (hs : step cfg s a = .ok s') : ReaderLost s' := by
  obtain ⟨h1, h2, h3⟩ := h
  by_cases ha : a = .closer
  · subst ha
    rw [(closer_effect hs).1]
    exact ⟨h1, h2, h3⟩
  · cases a <;> simp only [step, start, pingerStep, finStep, deliver, readerStep, ne_eq, not_true] at hs ha <;>
      (repeat' split at hs) <;> (try (simp at hs; done)) <;> simp only [Outcome.ok.injEq] at hs <;> subst hs <;>
      simp_all [ReaderLost]

theorem stuck_step {s s' : State} {a : Act} (h : s.reader = .stuck) (hs : step cfg s a = .ok s') : s'.reader = .stuck := by
  by_cases ha : a = .closer
  · subst ha
    rw [(closer_effect hs).1]
    exact h
  · cases a <;> simp only [step, start, pingerStep, finStep, deliver, readerStep, ne_eq, not_true] at hs ha <;>
      (repeat' split at hs) <;> (try (simp at hs; done)) <;> simp only [Outcome.ok.injEq] at hs <;> subst hs <;>
      simp_all

/-- The channel holds at most 32 items. -/
def Fits (s : State) : Prop := ∀ l, s.recv = .opened l → l.length ≤ 32

theorem fits_step {s s' : State} {a : Act} (h : Fits s) (hs : step cfg s a = .ok s') : Fits s' := by
  by_cases ha : a = .closer
  · subst ha
    intro l hl
    simp only [step, closerStep] at hs
    split at hs
    · split at hs
      · split at hs <;> try (simp only [reduceCtorEq] at hs; done)
        · simp only [Outcome.ok.injEq] at hs; subst hs; exact h l hl
        · split at hs <;> try (simp only [reduceCtorEq] at hs; done)
          simp only [Outcome.ok.injEq] at hs; subst hs; simp at hl
      · simp at hs
    · simp only [Outcome.ok.injEq] at hs; subst hs; simp at hl
    · simp at hs
  · unfold Fits at h ⊢
    cases a with
    | pinger e =>
      cases hp : s.pinger <;> cases e <;> simp only [step, pingerStep, hp] at hs <;>
        (repeat' split at hs) <;> (try (simp at hs; done)) <;> simp only [Outcome.ok.injEq] at hs <;> subst hs <;>
        (try (exact h)) <;> (try (simp_all; done))
      rename_i heq
      rcases take_facts heq with ⟨h1, h2, _⟩ | ⟨is, h1, h2⟩ <;> simp only [h2] <;> intro l hl
      · simp at hl
      · simp only [Chan.opened.injEq] at hl; subst hl
        have := h _ h1
        simp at this; omega
    | reader w =>
      simp only [step, readerStep] at hs
      (repeat' split at hs) <;> (try (simp at hs; done)) <;> simp only [Outcome.ok.injEq] at hs <;> subst hs <;>
        (try (exact h))
      intro l hl
      simp only [Chan.opened.injEq] at hl; subst hl
      simp; omega
    | _ =>
      simp only [step, start, finStep, deliver, ne_eq, not_true] at hs ha <;>
      (repeat' split at hs) <;> (try (simp at hs; done)) <;> simp only [Outcome.ok.injEq] at hs <;> subst hs <;>
      (try (exact h)) <;> simp_all

theorem fits_reachable (h : Reachable cfg t s) : Fits s := by
  induction h with
  | init => intro l hl; simp only [State.init, Chan.opened.injEq] at hl; subst hl; simp
  | step a _ hs ih => exact fits_step ih hs

end Verif.Negotiator
