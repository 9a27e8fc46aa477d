import Verif.Lemmas.Lifecycle
/-!
# Pausing: results, progress of the reader, and read interrupts
-/
namespace Verif.Lifecycle

theorem locked_iff {s : State} : locked s = true ↔ ∃ p ∈ s.pausers, p.holds = true := by
  simp [locked]

theorem locked_index {s : State} (h : locked s = true) : ∃ (i : Nat) (p : Pauser), s.pausers[i]? = some p ∧ p.holds = true := by
  obtain ⟨p, hp, hh⟩ := locked_iff.mp h
  obtain ⟨i, hi⟩ := List.mem_iff_getElem?.mp hp
  exact ⟨i, p, hi, hh⟩

theorem mem_set_self {α : Type} {l : List α} {i : Nat} {x y : α} (h : l[i]? = some x) : y ∈ l.set i y := by
  rw [List.mem_iff_getElem?]
  refine ⟨i, ?_⟩
  have := (List.getElem?_eq_some_iff.mp h).1
  rw [List.getElem?_set_self this]

/-! ### C29 -/

/-- Results when the backend has deadlines. -/
structure Rets (s : State) : Prop where
  rets : ∀ r ∈ s.pauseRets, r.err = !r.changed
  waiting : ∀ c e, Pauser.waiting c e ∈ s.pausers → e = false

theorem rets_step {cfg : Cfg} {s s' : State} {a : Act} (hd : cfg.deadlines = true) (h : Rets s)
    (hs : step cfg s a = .ok s') : Rets s' := by
  obtain ⟨h1, h2⟩ := h
  cases a with
  | pauser i =>
    simp only [step, pauserStep, setDeadline, hd, if_true] at hs
    split at hs <;> try (simp at hs; done)
    · rename_i c hc
      simp only [Outcome.ok.injEq] at hs; subst hs
      refine ⟨h1, fun c' e' hm => ?_⟩
      rcases List.mem_or_eq_of_mem_set hm with h | h
      · exact h2 _ _ h
      · split at h <;> simp_all
    · simp only [Outcome.ok.injEq] at hs; subst hs
      refine ⟨h1, fun c' e' hm => ?_⟩
      rcases List.mem_or_eq_of_mem_set hm with h | h
      · exact h2 _ _ h
      · simp_all
    · simp only [Outcome.ok.injEq] at hs; subst hs
      refine ⟨h1, fun c' e' hm => ?_⟩
      rcases List.mem_or_eq_of_mem_set hm with h | h
      · exact h2 _ _ h
      · simp_all
    · rename_i c e hc
      split at hs <;> try (simp at hs; done)
      simp only [Outcome.ok.injEq] at hs; subst hs
      refine ⟨fun r hr => ?_, fun c' e' hm => h2 _ _ (List.mem_of_mem_eraseIdx hm)⟩
      rcases List.mem_append.mp hr with h | h
      · exact h1 r h
      · simp only [List.mem_singleton] at h
        subst h
        simp [h2 c e (List.mem_of_getElem? hc)]
  | _ =>
    simp only [step, readerStep, closerStep, startStep, setState, closeSess, resetReadDeadline, setDeadline, badStates,
      List.mem_cons, List.not_mem_nil, or_false] at hs
    (repeat' split at hs) <;> (try (simp at hs; done)) <;>
    simp only [Outcome.ok.injEq] at hs <;> subst hs <;>
    constructor <;> grind

theorem rets_reachable {cfg : Cfg} {s : State} (hd : cfg.deadlines = true) (h : Reachable cfg s) : Rets s := by
  induction h with
  | init => constructor <;> simp [State.init]
  | step a _ hs ih => exact rets_step hd ih hs

/-! ### C30 -/

/-- Nothing is lost: a paused session whose reader is still in `Read` has an interrupt on its way. -/
def Awake (s : State) : Prop :=
  s.st = .paused → s.reader = .reading → s.pauseChan ≠ none → locked s = true ∨ s.expired = true

theorem locked_set {s : State} {i : Nat} {p q : Pauser} (h : s.pausers[i]? = some p) (hq : q.holds = true) :
    (s.pausers.set i q).any Pauser.holds = true :=
  List.any_eq_true.mpr ⟨q, mem_set_self h, hq⟩

theorem awake_step {cfg : Cfg} {s s' : State} {a : Act} (hd : cfg.deadlines = true) (hp : Phase s) (ht : Threads s)
    (hpa : Pausing s) (h : Awake s) (hs : step cfg s a = .ok s') : Awake s' := by
  have p1 := hp.early
  have p2 := hp.mid
  have p3 := hp.before
  have p4 := ht.isReading
  have p5 := hpa.taken
  have p6 := st_cases s
  unfold Awake at h ⊢
  cases a with
  | pauser i =>
    simp only [step, pauserStep, setDeadline, hd, if_true] at hs
    split at hs <;> try (simp at hs; done)
    · rename_i c hc
      simp only [Outcome.ok.injEq] at hs; subst hs
      intro h1 h2 h3
      have : s.isReading = true := by grind
      left
      simp only [locked, this, if_true]
      exact locked_set hc rfl
    · rename_i c hc
      simp only [Outcome.ok.injEq] at hs; subst hs
      intro h1 h2 h3
      left
      exact locked_set hc rfl
    · simp only [Outcome.ok.injEq] at hs; subst hs
      intro h1 h2 h3
      right; rfl
    · rename_i c e hc
      split at hs <;> try (simp at hs; done)
      simp only [Outcome.ok.injEq] at hs; subst hs
      intro h1 h2 h3
      rcases h h1 h2 h3 with h4 | h4
      · left
        obtain ⟨p, hp, hh⟩ := locked_iff.mp h4
        rw [locked_iff]
        refine ⟨p, ?_, hh⟩
        simp only
        rw [List.mem_eraseIdx_iff_getElem?]
        obtain ⟨j, hj⟩ := List.mem_iff_getElem?.mp hp
        refine ⟨j, ?_, hj⟩
        intro hji
        subst hji
        rw [hj] at hc
        simp only [Option.some.injEq] at hc
        subst hc
        simp [Pauser.holds] at hh
      · right; exact h4
  | pause =>
    simp only [step, setState, badStates, List.mem_cons, List.not_mem_nil, or_false] at hs
    split at hs <;> try (simp at hs; done)
    split at hs
    · split at hs <;> try (simp at hs; done)
      simp only [Outcome.ok.injEq] at hs; subst hs
      intro _ _ _
      left
      simp [locked, Pauser.holds]
    · simp only [Outcome.ok.injEq] at hs; subst hs
      intro _ _ h3
      simp at h3
  | _ =>
    simp only [step, readerStep, closerStep, startStep, setState, closeSess, resetReadDeadline, setDeadline, badStates,
      List.mem_cons, List.not_mem_nil, or_false] at hs
    (repeat' split at hs) <;> (try (simp at hs; done)) <;>
    simp only [Outcome.ok.injEq] at hs <;> subst hs <;>
    simp only [locked] at h ⊢ <;> grind

theorem awake_reachable {cfg : Cfg} {s : State} (hd : cfg.deadlines = true) (h : Reachable cfg s) : Awake s := by
  induction h with
  | init => simp [Awake, State.init]
  | step a hr hs ih =>
    have := inv_reachable hr
    exact awake_step hd this.1 this.2.1 this.2.2 ih hs

/-! How many steps are left before the reader notices a pause. -/

def Pauser.rank : Pauser → Nat
  | .interrupting _ => 4
  | .saw _ => 3
  | .requested _ => 2
  | .waiting _ _ => 1

def Reader.rank : Reader → Nat
  | .off => 10
  | .reading => 9
  | .returned _ => 8
  | .failed _ => 7
  | .failedLive _ => 6
  | .packet => 6
  | .reporting => 5
  | .top => 4
  | .entered => 3
  | .checking => 2
  | .noticing => 1
  | .leavingEarly => 3
  | .leavingLate => 2
  | .lastState => 1
  | .leaving => 4
  | _ => 0

def Starting.rank : Starting → Nat
  | .over => 0
  | .reader => 1
  | .exchanger => 2
  | .building => 3
  | _ => 4

def pauseMeasure (s : State) : Nat := (s.pausers.map Pauser.rank).sum + s.reader.rank + s.start.rank

/-- A session that was paused with the channel `c`, which the reader has not closed yet. -/
structure Pending (c : Nat) (s : State) : Prop where
  st : s.st = .paused
  chan : s.pauseChan = some c
  reader : s.reader ≠ .resetting ∧ s.reader ≠ .waiting ∧ s.reader ≠ .lastReset ∧ s.reader ≠ .ended
  start : s.start ≠ .no ∧ s.start ≠ .context ∧ s.start ≠ .sendInfo ∧ s.start ≠ .negotiator ∧
    ∀ go, s.start ≠ .state go

/-- Steps that the session takes by itself. -/
def own : Act → Bool
  | .pauser _ => true
  | .reader _ _ _ => true
  | .startNext => true
  | _ => false

/-- A step that does not need the peer: `Read` returns by itself only after a deadline or a close. -/
def Unaided (s : State) : Act → Prop
  | .reader _ _ _ => s.reader = .reading → s.expired = true ∨ s.backendClosed = true
  | _ => True

theorem sum_set {l : List Pauser} {i : Nat} {p q : Pauser} (h : l[i]? = some p) (hlt : q.rank < p.rank) :
    ((l.set i q).map Pauser.rank).sum < (l.map Pauser.rank).sum := by
  induction l generalizing i with
  | nil => simp at h
  | cons x l ih =>
    cases i with
    | zero => simp at h; subst h; simp; omega
    | succ i =>
      simp at h; have := ih h
      simp only [List.set_cons_succ, List.map_cons, List.sum_cons]; omega

theorem sum_eraseIdx {l : List Pauser} {i : Nat} {p : Pauser} (h : l[i]? = some p) :
    ((l.eraseIdx i).map Pauser.rank).sum < (l.map Pauser.rank).sum := by
  induction l generalizing i with
  | nil => simp at h
  | cons x l ih =>
    cases i with
    | zero => simp at h; subst h; cases x <;> simp [Pauser.rank]
    | succ i =>
      simp at h; have := ih h
      simp only [List.eraseIdx_cons_succ, List.map_cons, List.sum_cons]; omega

theorem pending_step {cfg : Cfg} {c : Nat} {s s' : State} {a : Act} (hp : Phase s) (ht : Threads s)
    (h : Pending c s) (hs : step cfg s a = .ok s') (ha : a ≠ .pause ∧ a ≠ .unpause ∧ a ≠ .close) :
    (s'.st ≠ .paused ∨ c ∈ s'.closedChans ∨ Pending c s') ∧
      if own a = true then pauseMeasure s' < pauseMeasure s else pauseMeasure s' ≤ pauseMeasure s := by
  obtain ⟨h1, h2, h3, h4⟩ := h
  have p1 := hp.early
  have p2 := hp.mid
  have p4 := ht.readerOff
  cases a with
  | pauser i =>
    simp only [step, pauserStep, setDeadline] at hs
    simp only [own, if_true, pauseMeasure]
    split at hs <;> try (simp at hs; done)
    · rename_i c' hc
      simp only [Outcome.ok.injEq] at hs; subst hs
      refine ⟨.inr (.inr ⟨h1, h2, h3, h4⟩), ?_⟩
      have := sum_set (q := if s.isReading = true then Pauser.saw c' else Pauser.waiting c' false) hc
        (by split <;> simp [Pauser.rank])
      simp only; omega
    · rename_i c' hc
      simp only [Outcome.ok.injEq] at hs; subst hs
      refine ⟨.inr (.inr ⟨h1, h2, h3, h4⟩), ?_⟩
      have := sum_set (q := Pauser.requested c') hc (by simp [Pauser.rank])
      simp only; omega
    · rename_i c' hc
      have := fun e => sum_set (q := Pauser.waiting c' e) hc (by simp [Pauser.rank])
      split at hs <;> (simp only [Outcome.ok.injEq] at hs; subst hs) <;>
      refine ⟨.inr (.inr ⟨h1, h2, h3, h4⟩), ?_⟩ <;> simp only
      · have := this (!true); omega
      · have := this (!false); omega
    · rename_i c' e hc
      split at hs <;> try (simp at hs; done)
      simp only [Outcome.ok.injEq] at hs; subst hs
      refine ⟨.inr (.inr ⟨h1, h2, h3, h4⟩), ?_⟩
      have := sum_eraseIdx hc
      simp only; omega
  | _ =>
    simp only [step, readerStep, closerStep, startStep, setState, closeSess, resetReadDeadline, setDeadline, badStates,
      List.mem_cons, List.not_mem_nil, or_false] at hs
    (repeat' split at hs) <;> (try (simp at hs; done)) <;>
    simp only [Outcome.ok.injEq] at hs <;> subst hs <;> 
    simp only [own, pauseMeasure] <;> refine ⟨?_, ?_⟩ <;>
    first
      | (grind [Reader.rank, Starting.rank, isDone]; done)
      | (right; right; constructor <;> grind [Reader.rank, Starting.rank, isDone])

/-- Some step of the session itself is possible. -/
theorem pending_enabled {cfg : Cfg} {c : Nat} {s : State} (ht : Threads s) (hpa : Pausing s) (haw : Awake s)
    (h : Pending c s) :
    ∃ a, own a = true ∧ Unaided s a ∧ ∃ s', step cfg s a = .ok s' := by
  obtain ⟨h1, h2, h3, h4⟩ := h
  by_cases hl : locked s = true
  · obtain ⟨i, p, hp, hh⟩ := locked_index hl
    refine ⟨.pauser i, rfl, trivial, ?_⟩
    simp only [step, pauserStep, hp, setDeadline]
    cases p <;> simp [Pauser.holds] at hh ⊢
  · by_cases ho : s.reader = .off
    · have := ht.readerOff.mp ho
      refine ⟨.startNext, rfl, trivial, ?_⟩
      simp only [step, startStep]
      cases hst : s.start <;> simp_all
    · refine ⟨.reader .data false false, rfl, fun hr => ?_, ?_⟩
      · rcases haw h1 hr (by simp [h2]) with h | h
        · exact absurd h hl
        · exact .inl h
      · simp only [step, readerStep]
        cases hr : s.reader with
        | returned r => cases r <;> exact ⟨_, rfl⟩
        | off => exact absurd hr ho
        | noticing =>
          simp only [hl, h2, (hpa.current c h2).2, if_false]
          exact ⟨_, rfl⟩
        | reading =>
          simp only
          split
          · exact ⟨_, rfl⟩
          · split <;> exact ⟨_, rfl⟩
        | resetting => exact absurd hr h3.1
        | waiting => exact absurd hr h3.2.1
        | lastReset => exact absurd hr h3.2.2.1
        | ended => exact absurd hr h3.2.2.2
        | failedLive r => simp only; split <;> exact ⟨_, rfl⟩
        | leaving => simp only; split <;> exact ⟨_, rfl⟩
        | reporting => exact ⟨_, rfl⟩
        | _ => exact ⟨_, rfl⟩

end Verif.Lifecycle
