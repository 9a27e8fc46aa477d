import Verif.Model.Negotiator
/-!
# Invariants of one side of the negotiation
-/
namespace Verif.Negotiator

variable {cfg : Cfg} {t : Int}

theorem runActs_reachable : ∀ (as : List Act) {s s' : State}, Reachable cfg t s →
    runActs cfg s as = .ok s' → Reachable cfg t s' := by
  intro as
  induction as with
  | nil => intro s s' h hs; simp only [runActs, Outcome.ok.injEq] at hs; subst hs; exact h
  | cons a as ih =>
    intro s s' h hs
    simp only [runActs] at hs
    split at hs <;> try (simp only [reduceCtorEq] at hs; done)
    rename_i s1 h1
    exact ih (.step a h h1) hs

/-- A property that no step destroys holds after any run. -/
theorem run_preserves {P : State → Prop} (hstep : ∀ s s' a, P s → step cfg s a = .ok s' → P s') :
    ∀ (as : List Act) {s s' : State}, P s → runActs cfg s as = .ok s' → P s' := by
  intro as
  induction as with
  | nil => intro s s' h hs; simp only [runActs, Outcome.ok.injEq] at hs; subst hs; exact h
  | cons a as ih =>
    intro s s' h hs
    simp only [runActs] at hs
    split at hs <;> try (simp only [reduceCtorEq] at hs; done)
    rename_i s1 h1
    exact ih (hstep _ _ _ h h1) hs

/-- The stages of the finalizer, the calls of `okFunc` and the channel. -/
structure Inv (s : State) : Prop where
  fresh : s.started = false → s.pinger = .off ∧ s.fin = .off ∧ s.okCalls = 0 ∧ s.cancelFn = false ∧ s.closer = .off
  onceOff : s.fin = .off → s.once ≠ .done
  offs : s.pinger = .off ↔ s.fin = .off
  wait : ∀ k, s.fin = .wait k → k ≤ 1 ∧ s.okCalls = 0 ∧ s.est = none ∧
    (k = 0 → s.pinger ≠ .done ∧ s.once ≠ .done) ∧
    (k = 1 → (s.pinger = .done ∧ s.once ≠ .done) ∨ (s.pinger ≠ .done ∧ s.once = .done))
  final : s.fin = .finalize → s.pinger = .done ∧ s.once = .done ∧ s.okCalls = 0 ∧ s.est = none
  ok : s.okCalls ≤ 1
  est : s.est ≠ none → s.okCalls = 1 ∧ s.fin = .done ∧ s.pinger = .done ∧ s.once = .done
  notEst : s.est = none → s.fin = .done → s.okCalls = 0 ∧ s.ctxDone = true
  running : s.once = .running ↔ s.reader = .stage
  closing : s.closer ≠ .off → s.ctxDone = true ∧ s.cancelFn = false
  closedBy : s.recv = .closed ↔ s.closer = .closed
  goneBy : s.recv = .gone ↔ s.closer = .done
  tasks : s.closer = .closed ∨ s.closer = .done →
    (s.pinger = .off ∨ s.pinger = .done) ∧ (s.fin = .off ∨ s.fin = .done)
  stuck : s.reader = .stuck → s.recv = .gone
  sending : s.reader.sending = true → ∃ l, s.recv = .opened l

theorem inv_init : Inv (State.init t) := by
  constructor <;> simp [State.init, Reader.sending]

theorem atTop_ne (s : State) (r : Round) : atTop s r ≠ .off ∧ atTop s r ≠ .done ∧ atTop s r ≠ .stage := by
  simp only [atTop]; (repeat' split) <;> simp

theorem afterRound_ne (r : Round) (f : Found) : afterRound cfg r f ≠ .off ∧ afterRound cfg r f ≠ .done := by
  simp only [afterRound]; split <;> simp

theorem take_facts {c c' : Chan} {i : Nat × Nat} (h : c.take = some (i, c')) :
    (c = .closed ∧ c' = .closed ∧ i = (0, 0)) ∨ ∃ is, c = .opened (i :: is) ∧ c' = .opened is := by
  cases c with
  | opened l => cases l <;> simp_all [Chan.take]
  | closed => simp_all [Chan.take]
  | gone => simp_all [Chan.take]

theorem inv_start {s s' : State} {en : Bool} (h : Inv s) (hs : step cfg s (.start en) = .ok s') : Inv s' := by
  obtain ⟨h1, h1', h2, h3, h4, h5, h6, h7, h8, h9, h10, h11, h12, h13, h14⟩ := h
  simp only [step, start] at hs
  (repeat' split at hs) <;> (try (simp at hs; done)) <;> simp only [Outcome.ok.injEq] at hs <;> subst hs <;>
    constructor <;> grind

theorem inv_pinger {s s' : State} {e : PEvent} (h : Inv s) (hs : step cfg s (.pinger e) = .ok s') : Inv s' := by
  obtain ⟨h1, h1', h2, h3, h4, h5, h6, h7, h8, h9, h10, h11, h12, h13, h14⟩ := h
  simp only [step, pingerStep] at hs
  (repeat' split at hs) <;> (try (simp at hs; done)) <;> simp only [Outcome.ok.injEq] at hs <;> subst hs <;>
    constructor <;> grind [atTop_ne, afterRound_ne, take_facts]

theorem inv_fin {s s' : State} {e : FEvent} (h : Inv s) (hs : step cfg s (.fin e) = .ok s') : Inv s' := by
  obtain ⟨h1, h1', h2, h3, h4, h5, h6, h7, h8, h9, h10, h11, h12, h13, h14⟩ := h
  simp only [step, finStep] at hs
  (repeat' split at hs) <;> (try (simp at hs; done)) <;> simp only [Outcome.ok.injEq] at hs <;> subst hs <;>
    constructor <;> grind [nextStage, Reader.sending]

theorem inv_deliver {s s' : State} {m : Msg} {w : Write} (h : Inv s) (hs : step cfg s (.deliver m w) = .ok s') : Inv s' := by
  obtain ⟨h1, h1', h2, h3, h4, h5, h6, h7, h8, h9, h10, h11, h12, h13, h14⟩ := h
  simp only [step, deliver] at hs
  (repeat' split at hs) <;> (try (simp at hs; done)) <;> simp only [Outcome.ok.injEq] at hs <;> subst hs <;>
    constructor <;> grind [Reader.sending]

theorem inv_reader {s s' : State} {w : Write} (h : Inv s) (hs : step cfg s (.reader w) = .ok s') : Inv s' := by
  obtain ⟨h1, h1', h2, h3, h4, h5, h6, h7, h8, h9, h10, h11, h12, h13, h14⟩ := h
  simp only [step, readerStep] at hs
  (repeat' split at hs) <;> (try (simp at hs; done)) <;> simp only [Outcome.ok.injEq] at hs <;> subst hs <;>
    constructor <;> grind [Reader.sending]

theorem inv_closeCall {s s' : State} (h : Inv s) (hs : step cfg s .closeCall = .ok s') : Inv s' := by
  obtain ⟨h1, h1', h2, h3, h4, h5, h6, h7, h8, h9, h10, h11, h12, h13, h14⟩ := h
  simp only [step] at hs
  (repeat' split at hs) <;> (try (simp at hs; done)) <;> simp only [Outcome.ok.injEq] at hs <;> subst hs <;>
    constructor <;> grind

theorem inv_closer {s s' : State} (h : Inv s) (hs : step cfg s .closer = .ok s') : Inv s' := by
  obtain ⟨h1, h1', h2, h3, h4, h5, h6, h7, h8, h9, h10, h11, h12, h13, h14⟩ := h
  simp only [step, closerStep] at hs
  split at hs
  · split at hs <;> try (simp only [reduceCtorEq] at hs; done)
    rename_i ht
    simp only [State.tasksDone, Bool.and_eq_true, decide_eq_true_eq] at ht
    split at hs <;> try (simp only [reduceCtorEq] at hs; done)
    · simp only [Outcome.ok.injEq] at hs
      subst hs
      constructor <;> grind
    · split at hs <;> try (simp only [reduceCtorEq] at hs; done)
      simp only [Outcome.ok.injEq] at hs
      subst hs
      constructor <;> grind
  · simp only [Outcome.ok.injEq] at hs
    subst hs
    constructor <;> grind
  · simp only [reduceCtorEq] at hs

theorem inv_step {s s' : State} {a : Act} (h : Inv s) (hs : step cfg s a = .ok s') : Inv s' := by
  cases a with
  | start en => exact inv_start h hs
  | pinger e => exact inv_pinger h hs
  | fin e => exact inv_fin h hs
  | deliver m w => exact inv_deliver h hs
  | reader w => exact inv_reader h hs
  | closeCall => exact inv_closeCall h hs
  | closer => exact inv_closer h hs
  | cancel =>
    simp only [step, Outcome.ok.injEq] at hs
    subst hs
    obtain ⟨h1, h1', h2, h3, h4, h5, h6, h7, h8, h9, h10, h11, h12, h13, h14⟩ := h
    constructor <;> grind

theorem inv_reachable {s : State} (h : Reachable cfg t s) : Inv s := by
  induction h with
  | init => exact inv_init
  | step a _ hs ih => exact inv_step ih hs

end Verif.Negotiator
