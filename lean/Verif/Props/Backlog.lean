import Verif.Model.Backlog
import Verif.Props.Lifecycle
/-!
# C171: A session can be closed although its peer does not read
-/
namespace Verif.Backlog
open Verif.Lifecycle (isDone)

variable {k : Kind}

theorem run_append {as bs : List Act} : ∀ {s s' : State}, run k s as = .ok s' → run k s (as ++ bs) = run k s' bs := by
  induction as with
  | nil => intro s s' h; simp only [run, Outcome.ok.injEq] at h; rw [h]; rfl
  | cons a as ih =>
    intro s s' h
    simp only [run, List.cons_append] at h ⊢
    cases hs : step k s a with
    | ok s1 => rw [hs] at h; exact ih h
    | err e => rw [hs] at h; simp at h
    | panic => rw [hs] at h; simp at h
    | block => rw [hs] at h; simp at h

theorem run_preserves {P : State → Prop} : ∀ (as : List Act) {s s' : State},
    (∀ s s' a, a ∈ as → P s → step k s a = .ok s' → P s') → P s → run k s as = .ok s' → P s' := by
  intro as
  induction as with
  | nil => intro s s' _ h hr; simp only [run, Outcome.ok.injEq] at hr; rw [← hr]; exact h
  | cons a as ih =>
    intro s s' hp h hr
    simp only [run] at hr
    split at hr <;> try (simp only [reduceCtorEq] at hr; done)
    rename_i s1 h1
    exact ih (fun s s' b hb => hp s s' b (List.mem_cons_of_mem _ hb)) (hp _ _ a (by simp) h h1) hr

/-- How many goroutines are in `backend.Write`. -/
def inWrite (s : State) : Nat := s.ps.count .writing

/-! ### What the session does -/

theorem done_step {cfg : Lifecycle.Cfg} {s s' : Lifecycle.State} {a : Lifecycle.Act} (h : isDone s = true)
    (hs : Lifecycle.step cfg s a = .ok s') : isDone s' = true := by
  simp only [isDone, decide_eq_true_eq] at *
  cases a <;> simp only [Lifecycle.step, Lifecycle.readerStep, Lifecycle.closerStep, Lifecycle.pauserStep, Lifecycle.startStep,
      Lifecycle.setState, Lifecycle.closeSess, Lifecycle.resetReadDeadline, Lifecycle.setDeadline, Lifecycle.badStates,
      List.mem_cons, List.not_mem_nil, or_false] at hs <;>
    (repeat' split at hs) <;> (try (simp at hs; done)) <;>
    simp only [Outcome.ok.injEq] at hs <;> subst hs <;> grind

theorem shut_step {cfg : Lifecycle.Cfg} {s s' : Lifecycle.State} {a : Lifecycle.Act} (h : s.backendClosed = true)
    (hs : Lifecycle.step cfg s a = .ok s') : s'.backendClosed = true := by
  cases a <;> simp only [Lifecycle.step, Lifecycle.readerStep, Lifecycle.closerStep, Lifecycle.pauserStep, Lifecycle.startStep,
      Lifecycle.setState, Lifecycle.closeSess, Lifecycle.resetReadDeadline, Lifecycle.setDeadline, Lifecycle.badStates] at hs <;>
    (repeat' split at hs) <;> (try (simp at hs; done)) <;>
    simp only [Outcome.ok.injEq] at hs <;> subst hs <;> grind

theorem open_step {cfg : Lifecycle.Cfg} (hd : cfg.deadlines = true) {s s' : Lifecycle.State} {a : Lifecycle.Act}
    (h : s.backendClosed = false ∧ s.closer ≠ .failed) (hs : Lifecycle.step cfg s a = .ok s') :
    s'.backendClosed = false ∧ s'.closer ≠ .failed := by
  obtain ⟨h1, h2⟩ := h
  cases a <;> simp only [Lifecycle.step, Lifecycle.readerStep, Lifecycle.closerStep, Lifecycle.pauserStep, Lifecycle.startStep,
      Lifecycle.setState, Lifecycle.closeSess, Lifecycle.resetReadDeadline, Lifecycle.setDeadline, Lifecycle.badStates, hd,
      if_true] at hs <;>
    (repeat' split at hs) <;> (try (simp at hs; done)) <;>
    simp only [Outcome.ok.injEq] at hs <;> subst hs <;> grind

theorem handling_step {cfg : Lifecycle.Cfg} {s s' : Lifecycle.State} {a : Lifecycle.Act} (hr : isReader a = false)
    (h : s.reader = .packet ∧ s.st ≠ .closed ∧ s.start = .over) (hs : Lifecycle.step cfg s a = .ok s') :
    s'.reader = .packet ∧ s'.st ≠ .closed ∧ s'.start = .over := by
  obtain ⟨h1, h2, h3⟩ := h
  cases a <;> simp only [isReader, Bool.true_eq_false] at hr <;>
    simp only [Lifecycle.step, Lifecycle.closerStep, Lifecycle.pauserStep, Lifecycle.startStep,
      Lifecycle.setState, Lifecycle.closeSess, Lifecycle.setDeadline, Lifecycle.badStates] at hs <;>
    (repeat' split at hs) <;> (try (simp at hs; done)) <;>
    simp only [Outcome.ok.injEq] at hs <;> subst hs <;> grind

/-! ### After Close no write begins -/

theorem count_set {ps : List Pos} {i : Nat} {p q : Pos} (h : ps[i]? = some p) :
    (ps.set i q).count .writing + (if p = .writing then 1 else 0) = ps.count .writing + (if q = .writing then 1 else 0) := by
  obtain ⟨hi, hp⟩ := List.getElem?_eq_some_iff.1 h
  have := List.count_set (a := q) (b := Pos.writing) hi
  have hle : (if p = .writing then 1 else 0) ≤ ps.count Pos.writing := by
    split
    · rename_i hw
      rw [Nat.succ_le_iff, List.count_pos_iff]
      exact hw ▸ hp ▸ List.getElem_mem hi
    · omega
  rw [hp] at this
  simp only [beq_iff_eq] at this
  omega

theorem after_ne (i : Nat) : after i ≠ .writing := by unfold after; split <;> simp

theorem wake_ne {s : Lifecycle.State} {i : Nat} {more : Bool} {p : Pos} (h : wake s i more = some p) : p ≠ .writing := by
  unfold wake at h
  (repeat' split at h) <;> (try (simp at h; done)) <;> (simp only [Option.some.injEq] at h; subst h; simp)

/-- Once the session is Closing or Closed, it stays so, and each step that takes room is the end of a write. -/
theorem closing_step {s s' : State} {a : Act} (hd : isDone s.ses = true) (hs : step k s a = .ok s') :
    isDone s'.ses = true ∧ inWrite s' ≤ inWrite s ∧ inWrite s' + s.room ≤ inWrite s + s'.room := by
  cases a with
  | ses a =>
    simp only [step] at hs
    split at hs
    · simp at hs
    · split at hs <;> try (simp only [reduceCtorEq] at hs; done)
      rename_i s1 h1
      simp only [Outcome.ok.injEq] at hs
      subst hs
      exact ⟨done_step hd h1, Nat.le_refl _, Nat.le_refl _⟩
  | peerReads =>
    simp only [step, Outcome.ok.injEq] at hs
    subst hs
    exact ⟨hd, Nat.le_refl _, by simp only [inWrite]; omega⟩
  | call =>
    simp only [step, Outcome.ok.injEq] at hs
    subst hs
    simp [hd, inWrite]
  | go i more =>
    simp only [step] at hs
    split at hs
    · rename_i hp
      split at hs <;> try (simp only [reduceCtorEq] at hs; done)
      rename_i p hw
      simp only [Outcome.ok.injEq] at hs
      subst hs
      have := count_set (q := p) hp
      simp only [wake_ne hw, if_false, reduceCtorEq] at this
      simp only [inWrite]
      exact ⟨hd, by omega, by omega⟩
    · rename_i hp
      simp only [hd, if_true, Outcome.ok.injEq] at hs
      subst hs
      have := count_set (q := after i) hp
      simp only [after_ne, if_false, reduceCtorEq] at this
      simp only [inWrite]
      exact ⟨hd, by omega, by omega⟩
    · rename_i hp
      have := count_set (q := after i) hp
      simp only [after_ne, if_false, if_true] at this
      split at hs
      · simp only [Outcome.ok.injEq] at hs
        subst hs
        simp only [inWrite]
        exact ⟨hd, by omega, by omega⟩
      · split at hs
        · simp at hs
        · simp only [Outcome.ok.injEq] at hs
          subst hs
          simp only [inWrite]
          exact ⟨hd, by omega, by omega⟩
    · simp at hs

/-- After Close no goroutine begins to write to the backend. -/
theorem C171_no_new {s s' : State} {as : List Act} (hd : isDone s.ses = true) (hr : run k s as = .ok s') :
    inWrite s' ≤ inWrite s :=
  (run_preserves (P := fun t => isDone t.ses = true ∧ inWrite t ≤ inWrite s) as
    (fun _ _ _ _ h hs => ⟨(closing_step h.1 hs).1, Nat.le_trans (closing_step h.1 hs).2.1 h.2⟩) ⟨hd, Nat.le_refl _⟩ hr).2

/-- C171 (what holds): if there is room for the packets that goroutines are writing when the session is closed, or the peer
reads that many, no write waits any more, in any execution.  Missing: a peer that reads nothing (`C171_violated`). -/
theorem C171_partial {s s' : State} {as : List Act} (hd : isDone s.ses = true) (hroom : inWrite s ≤ s.room)
    (hr : run k s as = .ok s') :
    inWrite s' ≤ s'.room ∧ ∀ i more, s'.ps[i]? = some .writing → ∃ t, step k s' (.go i more) = .ok t ∧ t.ps[i]? = some (after i) := by
  have h := run_preserves (P := fun t => isDone t.ses = true ∧ inWrite t ≤ t.room) as
    (fun s s' a _ h hs => by
      have := closing_step h.1 hs
      exact ⟨this.1, by omega⟩) ⟨hd, hroom⟩ hr
  refine ⟨h.2, fun i more hi => ?_⟩
  have hpos : 0 < inWrite s' := List.count_pos_iff.2 (List.mem_of_getElem? hi)
  obtain ⟨hlt, -⟩ := List.getElem?_eq_some_iff.1 hi
  have hne : s'.room ≠ 0 := by have := h.2; omega
  simp only [step, hi]
  split
  · exact ⟨_, rfl, by simp [hlt]⟩
  · exact ⟨_, rfl, by simp [hlt]⟩

/-- C171 for a backend without deadlines: once the session has closed it, no write waits, whatever the peer does. -/
theorem C171_closed {s s' : State} {as : List Act} (hc : s.ses.backendClosed = true) (hr : run k s as = .ok s') :
    ∀ i more, s'.ps[i]? = some .writing → ∃ t, step k s' (.go i more) = .ok t ∧ t.ps[i]? = some (after i) := by
  have h := run_preserves (P := fun t => t.ses.backendClosed = true) as
    (fun s s' a _ h hs => by
      cases a with
      | ses a =>
        simp only [step] at hs
        split at hs
        · simp at hs
        · split at hs <;> try (simp only [reduceCtorEq] at hs; done)
          rename_i s1 h1
          simp only [Outcome.ok.injEq] at hs
          subst hs
          exact shut_step h h1
      | peerReads => simp only [step, Outcome.ok.injEq] at hs; subst hs; exact h
      | call => simp only [step, Outcome.ok.injEq] at hs; subst hs; exact h
      | go i more =>
        simp only [step] at hs
        (repeat' split at hs) <;> (try (simp at hs; done)) <;>
          (simp only [Outcome.ok.injEq] at hs; subst hs; exact h)) hc hr
  intro i more hi
  obtain ⟨hlt, -⟩ := List.getElem?_eq_some_iff.1 hi
  simp only [step, hi, fails, h, Bool.true_or, if_true]
  exact ⟨_, rfl, by simp [hlt]⟩

/-- A goroutine of the session that does not wait for room ends with at most two steps of its own. -/
theorem C171_ends {s : State} (hd : isDone s.ses = true) (hctx : s.ses.ctx = true) {i : Nat} (hi : i < 2)
    (hon : s.ses.neg = .connected ∧ s.ses.kx = true) {p : Pos} (hp : s.ps[i]? = some p)
    (hw : p = .writing → fails k s.ses = true ∨ 0 < s.room) :
    ∃ n, n ≤ 2 ∧ ∃ s', run k s (List.replicate n (.go i false)) = .ok s' ∧ s'.ps[i]? = some .ended := by
  obtain ⟨hlt, -⟩ := List.getElem?_eq_some_iff.1 hp
  have hidle : ∀ t : State, t.ses = s.ses → t.ps[i]? = some .idle → ∃ t', step k t (.go i false) = .ok t' ∧ t'.ps[i]? = some .ended := by
    intro t ht hti
    obtain ⟨hlt', -⟩ := List.getElem?_eq_some_iff.1 hti
    have hwk : wake s.ses i false = some .ended := by
      have : i = 0 ∨ i = 1 := by omega
      rcases this with rfl | rfl <;> simp [wake, hon.1, hon.2, hctx]
    simp only [step, hti, ht, hwk]
    exact ⟨_, rfl, by simp [hlt']⟩
  have hafter : after i = .idle := by unfold after; rw [if_pos (by omega)]
  have two : ∀ t : State, t.ses = s.ses → t.ps[i]? = some .idle → step k s (.go i false) = .ok t →
      ∃ n, n ≤ 2 ∧ ∃ s', run k s (List.replicate n (.go i false)) = .ok s' ∧ s'.ps[i]? = some .ended := by
    intro t h1 h2 h3
    obtain ⟨t', h4, h5⟩ := hidle t h1 h2
    exact ⟨2, Nat.le_refl _, t', by simp [List.replicate, run, h3, h4], h5⟩
  cases p with
  | ended => exact ⟨0, by omega, s, rfl, hp⟩
  | idle =>
    obtain ⟨t, h1, h2⟩ := hidle s rfl hp
    exact ⟨1, by omega, t, by simp [List.replicate, run, h1], h2⟩
  | checking =>
    refine two { s with ps := s.ps.set i .idle } rfl (by simp [hlt]) ?_
    simp only [step, hp, hd, if_true, hafter]
  | writing =>
    rcases hw rfl with h | h
    · refine two { s with ps := s.ps.set i .idle } rfl (by simp [hlt]) ?_
      simp only [step, hp, h, if_true, hafter]
    · by_cases hf : fails k s.ses = true
      · refine two { s with ps := s.ps.set i .idle } rfl (by simp [hlt]) ?_
        simp only [step, hp, hf, if_true, hafter]
      · refine two { s with room := s.room - 1, ps := s.ps.set i .idle } rfl (by simp [hlt]) ?_
        simp only [step, hp, hf, Bool.false_eq_true, if_false, hafter]
        rw [if_neg (by omega)]

/-! ### A peer that does not read -/

/-- Goroutine `i` waits in `backend.Write` of a backend like a `net.Conn`. -/
structure Waits (s : State) (i : Nat) : Prop where
  writing : s.ps[i]? = some .writing
  full : s.room = 0
  opened : s.ses.backendClosed = false ∧ s.ses.closer ≠ .failed

theorem waits_step {s s' : State} {a : Act} {i : Nat} (h : Waits s i) (ha : a ≠ .peerReads)
    (hs : step .setReadDeadline s a = .ok s') : Waits s' i := by
  obtain ⟨h1, h2, h3⟩ := h
  cases a with
  | ses a =>
    simp only [step] at hs
    split at hs
    · simp at hs
    · split at hs <;> try (simp only [reduceCtorEq] at hs; done)
      rename_i s1 hs1
      simp only [Outcome.ok.injEq] at hs
      subst hs
      exact ⟨h1, h2, open_step rfl h3 hs1⟩
  | peerReads => exact absurd rfl ha
  | call =>
    simp only [step, Outcome.ok.injEq] at hs
    subst hs
    obtain ⟨hlt, -⟩ := List.getElem?_eq_some_iff.1 h1
    exact ⟨by rw [List.getElem?_append_left hlt]; exact h1, h2, h3⟩
  | go j more =>
    by_cases hij : j = i
    · subst hij
      have hf : fails .setReadDeadline s.ses = false := by simp [fails, h3.1]
      simp [step, h1, hf, h2] at hs
    · simp only [step] at hs
      (repeat' split at hs) <;> (try (simp at hs; done)) <;> (try omega) <;>
        (simp only [Outcome.ok.injEq] at hs; subst hs
         refine ⟨?_, h2, h3⟩
         dsimp only
         rw [List.getElem?_set_ne hij]; exact h1)

/-- The goroutines of the session are running: it has been established. -/
structure On (s : Lifecycle.State) : Prop where
  neg : s.neg = .connected
  count : 0 < s.kxCount
  kx : s.kx = true

theorem on_step {cfg : Lifecycle.Cfg} {s s' : Lifecycle.State} {a : Lifecycle.Act} (h : On s)
    (hs : Lifecycle.step cfg s a = .ok s') : On s' := by
  obtain ⟨h1, h2, h3⟩ := h
  cases a <;> simp only [Lifecycle.step, Lifecycle.readerStep, Lifecycle.closerStep, Lifecycle.pauserStep, Lifecycle.startStep,
      Lifecycle.setState, Lifecycle.closeSess, Lifecycle.resetReadDeadline, Lifecycle.setDeadline, Lifecycle.badStates] at hs <;>
    (repeat' split at hs) <;> (try (simp at hs; done)) <;>
    simp only [Outcome.ok.injEq] at hs <;> subst hs <;> constructor <;> grind

/-- Steps of the senders do not change the rest of the session. -/
theorem step_ses {P : Lifecycle.State → Prop} {s s' : State} {a : Act} (h : P s.ses)
    (hp : ∀ b t, a = .ses b → (isReader b = false ∨ s.ps[2]? = some .idle) → Lifecycle.step (lcfg k) s.ses b = .ok t → P t)
    (hs : step k s a = .ok s') : P s'.ses := by
  cases a with
  | ses b =>
    simp only [step] at hs
    split at hs
    · simp at hs
    · rename_i hc
      split at hs <;> try (simp only [reduceCtorEq] at hs; done)
      rename_i s1 h1
      simp only [Outcome.ok.injEq] at hs
      subst hs
      refine hp b s1 rfl ?_ h1
      by_cases hb : isReader b = true
      · exact .inr (Classical.byContradiction fun hne => hc ⟨hb, hne⟩)
      · exact .inl (by simpa using hb)
  | peerReads => simp only [step, Outcome.ok.injEq] at hs; subst hs; exact h
  | call => simp only [step, Outcome.ok.injEq] at hs; subst hs; exact h
  | go i more =>
    simp only [step] at hs
    (repeat' split at hs) <;> (try (simp at hs; done)) <;>
      (simp only [Outcome.ok.injEq] at hs; subst hs; exact h)

/-- Negation of C171: a goroutine of an established session waits in `backend.Write`, and the peer does not read.  Whatever
happens, Close included, it waits for ever, and WaitForClosure and CloseAndWait do not return: only the deadline for reading
is changed, and the backend is not closed. -/
theorem C171_violated {s : State} {i : Nat} (hi : i < 2) (hon : On s.ses) (h : Waits s i) :
    ∀ as s', .peerReads ∉ as → run .setReadDeadline s as = .ok s' → s'.ps[i]? = some .writing ∧ waitReturns s' = false := by
  intro as s' hn hr
  have hw := run_preserves (P := fun t => Waits t i ∧ On t.ses) as
    (fun s s' a ha hp hs => ⟨waits_step hp.1 (fun hc => hn (hc ▸ ha)) hs, step_ses hp.2 (fun _ _ _ _ => on_step hp.2) hs⟩) ⟨h, hon⟩ hr
  refine ⟨hw.1.writing, ?_⟩
  have : i = 0 ∨ i = 1 := by omega
  rcases this with rfl | rfl <;> simp [waitReturns, hw.2.neg, hw.2.kx, hw.1.writing]

/-- Negation of C171 for the reader: if it is a handler that waits, the session does not even get Closed, and the reader,
which would close the channels of Read, never ends. -/
theorem C171_violated_handler {s : State} (h : Waits s 2) (hr : s.ses.reader = .packet) (hc : s.ses.st ≠ .closed)
    (ho : s.ses.start = .over) :
    ∀ as s', .peerReads ∉ as → run .setReadDeadline s as = .ok s' →
      s'.ses.st ≠ .closed ∧ s'.ses.reader = .packet ∧ waitReturns s' = false := by
  intro as s' hn hrun
  have hw := run_preserves
    (P := fun t => Waits t 2 ∧ t.ses.reader = .packet ∧ t.ses.st ≠ .closed ∧ t.ses.start = .over) as
    (fun s s' a ha hp hs => by
      refine ⟨waits_step hp.1 (fun hc => hn (hc ▸ ha)) hs, ?_⟩
      refine step_ses (P := fun t => t.reader = .packet ∧ t.st ≠ .closed ∧ t.start = .over) hp.2 ?_ hs
      intro b t _ hb ht
      rcases hb with hb | hb
      · exact handling_step hb hp.2 ht
      · rw [hp.1.writing] at hb; simp at hb) ⟨h, hr, hc, ho⟩ hrun
  exact ⟨hw.2.2.1, hw.2.1, by simp [waitReturns, hw.2.1]⟩

/-! ### Examples -/

def sv : List Act := Lifecycle.serving.map .ses
def rd : Act := .ses Lifecycle.rd
/-- Close with its steps, and then the backend closer. -/
def closing : List Act := [.ses .close, .ses .flush, .ses .cancelFunc] ++ List.replicate 4 (.ses (.closer false))
/-- The reader ends after an interrupt. -/
def ending : List Act := List.replicate 7 rd
def seen (r : Outcome Lifecycle.Crash State) : Option (Lifecycle.SState × List Pos × Nat × Bool) :=
  match r with
  | .ok s => some (s.ses.st, s.ps, s.room, waitReturns s)
  | _ => none
def both : List Act := [.go 0 false, .go 1 false]

/-- Nobody is writing: everything ends. -/
example : seen (run .setReadDeadline (State.init 0) (sv ++ closing ++ ending ++ both)) =
    some (.closed, [.ended, .ended, .idle], 0, true) := by decide +kernel

/-- WaitForClosure waits for the backend closer. -/
example : (match run .setReadDeadline (State.init 0) (sv ++ closing ++ ending ++ both) with
    | .ok s => waitReturns s && !waitReturns { s with ses := { s.ses with closer := .waiting } }
    | _ => false) = true := by decide +kernel

/-- The delayed sender waits: the session gets Closed, but WaitForClosure does not return, until the peer reads. -/
example : seen (run .setReadDeadline (State.init 0) (sv ++ [.go 0 true, .go 0 true] ++ closing ++ ending ++ [.go 1 false])) =
      some (.closed, [.writing, .ended, .idle], 0, false) ∧
    seen (run .setReadDeadline (State.init 0) (sv ++ [.go 0 true, .go 0 true] ++ closing ++ ending ++ [.go 1 false, .go 0 true])) = none ∧
    seen (run .setReadDeadline (State.init 0) (sv ++ [.go 0 true, .go 0 true] ++ closing ++ ending ++
      [.go 1 false, .peerReads, .go 0 true, .go 0 false])) = some (.closed, [.ended, .ended, .idle], 0, true) := by decide +kernel

/-- With a backend that has `SetDeadline` only, the write is interrupted, too, if it gets to notice it before the reader
resets the deadline; a backend without deadlines is closed. -/
example : seen (run .setDeadline (State.init 0) (sv ++ [.go 0 true, .go 0 true] ++ closing ++ [.go 0 true] ++ ending ++ both)) =
      some (.closed, [.ended, .ended, .idle], 0, true) ∧
    seen (run .setDeadline (State.init 0) (sv ++ [.go 0 true, .go 0 true] ++ closing ++ ending ++ [.go 0 true])) = none ∧
    seen (run .nothing (State.init 0) (sv ++ [.go 0 true, .go 0 true] ++ closing ++ [.ses (.closer false)] ++ ending ++
      [.go 0 true] ++ both)) = some (.closed, [.ended, .ended, .idle], 0, true) := by decide +kernel

/-- A handler that answers: the reader does not go on. -/
example : seen (run .setReadDeadline (State.init 0) (sv ++ [rd, rd, .go 2 true, .go 2 true, .ses .close, .ses .flush,
      .ses .cancelFunc, .ses (.closer false), .ses (.closer false)])) = some (.closing, [.idle, .idle, .writing], 0, false) ∧
    seen (run .setReadDeadline (State.init 0) (sv ++ [rd, rd, .go 2 true, .go 2 true, rd])) = none ∧
    seen (run .setReadDeadline (State.init 1) (sv ++ [rd, rd, .go 2 true, .go 2 true, .go 2 true, rd])) =
      some (.established, [.idle, .idle, .idle], 0, false) := by decide +kernel

/-- A call of the user: it is refused after Close, and otherwise takes room. -/
example : seen (run .setReadDeadline (State.init 5) (sv ++ [.call, .go 3 true, .go 3 true])) =
      some (.established, [.idle, .idle, .idle, .ended], 4, false) ∧
    seen (run .setReadDeadline (State.init 5) (sv ++ [.call, .ses .close, .go 3 true])) =
      some (.closing, [.idle, .idle, .idle, .ended], 5, false) ∧
    seen (run .setReadDeadline (State.init 5) (sv ++ [.call, .go 3 true, .go 3 true, .go 3 true])) = none := by decide +kernel

/-- Nobody sends before they are there. -/
example : [.go 0 true, .go 0 false, .go 1 true, .go 1 false, .go 2 true, .go 3 true].all (fun a =>
      (seen (run .setReadDeadline (State.init 5) [a])).isNone) = true ∧
    [.go 0 false, .go 1 false, .go 2 true, .go 2 false].all (fun a =>
      (seen (run .setReadDeadline (State.init 5) (sv ++ [a]))).isNone) = true := by decide +kernel

/-- The hypotheses of the theorems. -/
example : ∃ s, run .setReadDeadline (State.init 0) (sv ++ [.go 0 true, .go 0 true]) = .ok s ∧ On s.ses ∧ Waits s 0 := by
  refine ⟨_, rfl, ⟨rfl, by decide +kernel, rfl⟩, rfl, rfl, rfl, by decide +kernel⟩

example : ∃ s, run .setReadDeadline (State.init 0) (sv ++ [rd, rd, .go 2 true, .go 2 true]) = .ok s ∧ Waits s 2 ∧
    s.ses.reader = .packet ∧ s.ses.st ≠ .closed ∧ s.ses.start = .over := by
  refine ⟨_, rfl, ⟨rfl, rfl, rfl, by decide +kernel⟩, rfl, by decide +kernel, rfl⟩

example : ∃ s, run .setReadDeadline (State.init 1) (sv ++ [.go 0 true, .go 0 true] ++ closing) = .ok s ∧ isDone s.ses = true ∧
    s.ses.ctx = true ∧ inWrite s ≤ s.room ∧ s.ses.neg = .connected ∧ s.ses.kx = true := by
  refine ⟨_, rfl, ?_⟩; decide +kernel

example : ∃ s, run .nothing (State.init 0) (sv ++ [.go 0 true, .go 0 true] ++ closing ++ [.ses (.closer false)]) = .ok s ∧
    s.ses.backendClosed = true ∧ s.ps[0]? = some .writing := by
  refine ⟨_, rfl, ?_⟩; decide +kernel

/-- A full buffer blocks the sender; it does not crash. -/
example : run .setReadDeadline (State.init 0) [.call, .go 3 true, .go 3 true] = .block := rfl

#print axioms C171_no_new
#print axioms C171_partial
#print axioms C171_closed
#print axioms C171_ends
#print axioms C171_violated
#print axioms C171_violated_handler

end Verif.Backlog
