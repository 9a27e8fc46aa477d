import Verif.Lemmas.LifecyclePause
/-!
# Read interrupts when `SetPause` is called politely
-/
namespace Verif.Lifecycle

/-- A call or step that respects these rules: `SetPause(true)` is called only after the reader has left the previous
pause, `SetPause(false)` only after `SetPause(true)` has returned; nobody closes the session, the backend gives no
errors of its own, and no packet ends the loop. -/
def Polite (s : State) : Act → Prop
  | .pause => s.reader ≠ .resetting ∧ s.reader ≠ .waiting
  | .unpause => s.pausers = []
  | .close => False
  | .cancel => False
  | .reader fresh stop _ => fresh = .data ∧ stop = false
  | _ => True

inductive ReachablePolite (cfg : Cfg) : State → Prop
  | init : ReachablePolite cfg State.init
  | step {s s'} (a : Act) : ReachablePolite cfg s → Polite s a → step cfg s a = .ok s' → ReachablePolite cfg s'

theorem polite_reachable {cfg : Cfg} {s : State} (h : ReachablePolite cfg s) : Reachable cfg s := by
  induction h with
  | init => exact .init
  | step a _ _ hs ih => exact .step a ih hs

/-- The channel of a `SetPause(true)` call. -/
def Pauser.chan : Pauser → Nat
  | .interrupting c => c
  | .saw c => c
  | .requested c => c
  | .waiting c _ => c

/-- The pausers' part of the invariant. -/
structure Calls (s : State) : Prop where
  locked : locked s = true → s.st = .paused ∧ s.expired = false ∧ s.reader ≠ .resetting ∧ s.reader ≠ .waiting
  requested : ∀ c, Pauser.requested c ∈ s.pausers → s.happened < s.requested
  current : s.st = .paused → s.nextChan - 1 ∈ s.closedChans ∨ ∃ p ∈ s.pausers, p.chan = s.nextChan - 1
  single : s.pausers.countP Pauser.holds ≤ 1

/-- The rest. -/
structure Quiet (s : State) : Prop where
  live : s.st ≠ .closing ∧ s.st ≠ .closed ∧ s.ctx = false ∧ s.backendClosed = false ∧ s.flushing = 0 ∧ s.cancelling = 0
  closer : s.closer = .off ∨ s.closer = .waiting
  errors : s.errors = 0
  counts : s.happened ≤ s.requested
  expired : s.expired = true → s.happened < s.requested ∧ (s.st = .paused ∨ s.reader = .resetting)
  waiting : s.reader = .waiting → s.expired = false
  timeout : s.reader = .returned .timeout ∨ s.reader = .failed .timeout ∨ s.reader = .failedLive .timeout →
    s.expired = true
  reader : s.reader ≠ .returned .other ∧ s.reader ≠ .failed .other ∧ s.reader ≠ .failedLive .other ∧
    s.reader ≠ .failed .data ∧ s.reader ≠ .failedLive .data ∧ s.reader ≠ .reporting ∧ s.reader ≠ .leaving ∧
    s.reader ≠ .leavingEarly ∧ s.reader ≠ .leavingLate ∧ s.reader ≠ .lastState ∧ s.reader ≠ .lastReset ∧ s.reader ≠ .ended

theorem reader_res (r : ReadResult) : r = .data ∨ r = .timeout ∨ r = .other := by cases r <;> simp

local macro "reader_case" h:ident : tactic => `(tactic|
  ((repeat' split at $h:ident) <;> (try (simp at $h:ident; done)) <;>
    simp only [Outcome.ok.injEq] at $h:ident <;> (try subst $h:ident) <;> constructor <;> grind))

theorem quiet_reader {cfg : Cfg} {s s' : State} {handled : Bool} (hd : cfg.deadlines = true)
    (hc : Calls s) (h : Quiet s) (hs : step cfg s (.reader .data false handled) = .ok s') : Quiet s' := by
  obtain ⟨h1, h2, h3, h4, h5, h6, h7, h8⟩ := h
  have q3 := hc.locked
  have hl : isDone s = false := by simp [isDone, h1]
  simp only [step, readerStep, resetReadDeadline, setDeadline, hd, if_true] at hs
  clear hc
  cases hrd : s.reader with
  | returned r => cases r <;> simp only [hrd, hl] at * <;> reader_case hs
  | failed r => cases r <;> simp only [hrd, hl] at * <;> reader_case hs
  | failedLive r => cases r <;> simp only [hrd, hl] at * <;> reader_case hs
  | _ => simp only [hrd, hl] at * <;> reader_case hs

theorem quiet_step {cfg : Cfg} {s s' : State} {a : Act} (hd : cfg.deadlines = true) (hp : Phase s)
    (ht : Threads s) (hpa : Pausing s) (hc : Calls s) (h : Quiet s) (ha : Polite s a) (hs : step cfg s a = .ok s') :
    Quiet s' := by
  cases a with
  | close => exact absurd ha (by simp [Polite])
  | cancel => exact absurd ha (by simp [Polite])
  | reader fresh stop handled =>
    obtain ⟨ha1, ha2⟩ := ha
    subst ha1; subst ha2
    exact quiet_reader hd hc h hs
  | pauser i =>
    obtain ⟨h1, h2, h3, h4, h5, h6, h7, h8⟩ := h
    simp only [step, pauserStep, setDeadline, hd, if_true] at hs
    split at hs <;> try (simp at hs; done)
    · simp only [Outcome.ok.injEq] at hs; subst hs
      exact ⟨h1, h2, h3, h4, h5, h6, h7, h8⟩
    · simp only [Outcome.ok.injEq] at hs; subst hs
      refine ⟨h1, h2, h3, ?_, ?_, h6, h7, h8⟩ <;> grind
    · rename_i c hi
      have hl : Lifecycle.locked s = true := locked_iff.mpr ⟨_, List.mem_of_getElem? hi, rfl⟩
      have hq := hc.requested c (List.mem_of_getElem? hi)
      simp only [Outcome.ok.injEq] at hs; subst hs
      have := hc.locked hl
      refine ⟨h1, h2, h3, h4, ?_, ?_, ?_, h8⟩ <;> grind
    · split at hs <;> try (simp at hs; done)
      simp only [Outcome.ok.injEq] at hs; subst hs
      exact ⟨h1, h2, h3, h4, h5, h6, h7, h8⟩
  | unpause =>
    obtain ⟨h1, h2, h3, h4, h5, h6, h7, h8⟩ := h
    have q1 := hpa.detached
    have q2 : s.st = .paused → s.nextChan - 1 ∈ s.closedChans := by
      intro h
      rcases hc.current h with h | ⟨p, hp, _⟩
      · exact h
      · rw [show s.pausers = [] from ha] at hp
        cases hp
    simp only [step, setState, badStates, List.mem_cons, List.not_mem_nil, or_false] at hs
    (repeat' split at hs) <;> (try (simp at hs; done)) <;>
    simp only [Outcome.ok.injEq] at hs <;> subst hs <;>
    refine ⟨?_, h2, h3, h4, ?_, h6, h7, h8⟩ <;> clear hp ht hpa hc ha <;> grind
  | _ =>
    obtain ⟨h1, h2, h3, h4, h5, h6, h7, h8⟩ := h
    have p1 := hp.early
    have p2 := hp.mid
    have p3 := hp.before
    have p4 := ht.readerOff
    simp only [Polite] at ha
    simp only [step, closerStep, startStep, setState, badStates, List.mem_cons, List.not_mem_nil, or_false] at hs
    (repeat' split at hs) <;> (try (simp at hs; done)) <;>
    simp only [Outcome.ok.injEq] at hs <;> subst hs <;> clear hp ht hpa hc <;>
    constructor <;> grind

theorem locked_set_le {s : State} {i : Nat} {p q : Pauser} (h : s.pausers[i]? = some p)
    (hq : q.holds = true → p.holds = true) (hl : (s.pausers.set i q).any Pauser.holds = true) : locked s = true := by
  obtain ⟨x, hx, hh⟩ := List.any_eq_true.mp hl
  rcases List.mem_or_eq_of_mem_set hx with h1 | h1
  · exact locked_iff.mpr ⟨x, h1, hh⟩
  · subst h1; exact locked_iff.mpr ⟨p, List.mem_of_getElem? h, hq hh⟩

theorem countP_set {l : List Pauser} {i : Nat} {p q : Pauser} (h : l[i]? = some p) :
    (l.set i q).countP Pauser.holds + (if p.holds then 1 else 0) =
      l.countP Pauser.holds + (if q.holds then 1 else 0) := by
  induction l generalizing i with
  | nil => simp at h
  | cons x l ih =>
    cases i with
    | zero => simp at h; subst h; simp only [List.set_cons_zero, List.countP_cons]; omega
    | succ i =>
      simp at h
      have := ih h
      simp only [List.set_cons_succ, List.countP_cons]; omega

theorem locked_countP {s : State} : locked s = true ↔ 0 < s.pausers.countP Pauser.holds := by
  rw [List.countP_pos_iff, locked_iff]

theorem chan_set {s : State} {i : Nat} {p q : Pauser} {c : Nat} (h : s.pausers[i]? = some p) (hq : q.chan = p.chan)
    (hx : ∃ x ∈ s.pausers, x.chan = c) : ∃ x ∈ s.pausers.set i q, x.chan = c := by
  obtain ⟨x, hx, hc⟩ := hx
  obtain ⟨j, hj⟩ := List.mem_iff_getElem?.mp hx
  by_cases hij : j = i
  · subst hij
    rw [h] at hj; simp only [Option.some.injEq] at hj; subst hj
    exact ⟨q, mem_set_self h, by rw [hq, hc]⟩
  · refine ⟨x, List.mem_iff_getElem?.mpr ⟨j, ?_⟩, hc⟩
    rw [List.getElem?_set_ne (by omega)]; exact hj

theorem chan_erase {s : State} {i : Nat} {p : Pauser} {c : Nat} (h : s.pausers[i]? = some p) (hne : p.chan ≠ c)
    (hx : ∃ x ∈ s.pausers, x.chan = c) : ∃ x ∈ s.pausers.eraseIdx i, x.chan = c := by
  obtain ⟨x, hx, hc⟩ := hx
  obtain ⟨j, hj⟩ := List.mem_iff_getElem?.mp hx
  refine ⟨x, ?_, hc⟩
  rw [List.mem_eraseIdx_iff_getElem?]
  refine ⟨j, ?_, hj⟩
  intro hij
  subst hij
  rw [hj] at h
  simp only [Option.some.injEq] at h
  subst h
  exact hne hc

theorem calls_step {cfg : Cfg} {s s' : State} {a : Act} (hd : cfg.deadlines = true) (hp : Phase s)
    (ht : Threads s) (hc : Calls s) (h : Quiet s) (ha : Polite s a) (hs : step cfg s a = .ok s') :
    Calls s' := by
  obtain ⟨c1, c2, c3, c4⟩ := hc
  cases a with
  | close => exact absurd ha (by simp [Polite])
  | cancel => exact absurd ha (by simp [Polite])
  | reader fresh stop handled =>
    obtain ⟨ha1, ha2⟩ := ha
    subst ha1; subst ha2
    obtain ⟨h1, h2, h3, h4, h5, h6, h7, h8⟩ := h
    have hl : isDone s = false := by simp [isDone, h1]
    have hq : ∀ c, Pauser.requested c ∈ s.pausers → Lifecycle.locked s = true :=
      fun c h => locked_iff.mpr ⟨_, h, rfl⟩
    simp only [step, readerStep, resetReadDeadline, setDeadline, hd, if_true] at hs
    clear hp ht
    cases hrd : s.reader with
    | returned r =>
      cases r <;> simp only [hrd, hl] at * <;> (simp only [Outcome.ok.injEq] at hs; subst hs; constructor) <;>
        simp only [Lifecycle.locked] at * <;> grind
    | failed r =>
      cases r <;> simp only [hrd, hl] at * <;> (simp only [Outcome.ok.injEq] at hs; subst hs; constructor) <;>
        simp only [Lifecycle.locked] at * <;> grind
    | failedLive r =>
      cases r <;> simp only [hrd, hl] at * <;> (repeat' split at hs) <;>
        (simp only [Outcome.ok.injEq] at hs; subst hs; constructor) <;>
        simp only [Lifecycle.locked] at * <;> grind
    | _ =>
      simp only [hrd, hl] at * <;> (repeat' split at hs) <;> (try (simp at hs; done)) <;>
        simp only [Outcome.ok.injEq] at hs <;> (try subst hs) <;> constructor <;>
        simp only [Lifecycle.locked] at * <;> grind
  | pauser i =>
    simp only [step, pauserStep, setDeadline, hd, if_true] at hs
    split at hs <;> try (simp at hs; done)
    · rename_i c hi
      have hlk : Lifecycle.locked s = true := locked_iff.mpr ⟨_, List.mem_of_getElem? hi, rfl⟩
      simp only [Outcome.ok.injEq] at hs; subst hs
      refine ⟨fun _ => c1 hlk, fun c' h' => ?_, fun h' => ?_, ?_⟩
      · rcases List.mem_or_eq_of_mem_set h' with h | h
        · exact c2 _ h
        · split at h <;> cases h
      · rcases c3 h' with h | h
        · exact .inl h
        · exact .inr (chan_set hi (by split <;> rfl) h)
      · have := countP_set (q := if s.isReading = true then Pauser.saw c else Pauser.waiting c false) hi
        have h1 : ∀ b : Bool, (if b = true then 1 else 0) ≤ 1 := by decide
        have h2 := h1 (if s.isReading = true then Pauser.saw c else Pauser.waiting c false).holds
        have h3 : (Pauser.interrupting c).holds = true := rfl
        rw [h3, if_pos rfl] at this
        simp only; omega
    · rename_i c hi
      have hlk : Lifecycle.locked s = true := locked_iff.mpr ⟨_, List.mem_of_getElem? hi, rfl⟩
      simp only [Outcome.ok.injEq] at hs; subst hs
      refine ⟨fun _ => c1 hlk, fun c' h' => ?_, fun h' => ?_, ?_⟩
      · have := h.counts
        simp only; omega
      · rcases c3 h' with h | h
        · exact .inl h
        · exact .inr (chan_set hi rfl h)
      · have := countP_set (q := Pauser.requested c) hi
        simp only [Pauser.holds] at this ⊢
        omega
    · rename_i c hi
      have hcnt := countP_set (q := Pauser.waiting c !true) hi
      simp only [Pauser.holds, if_true] at hcnt
      have hz : (s.pausers.set i (Pauser.waiting c !true)).countP Pauser.holds = 0 := by
        simp only [Bool.false_eq_true, if_false] at hcnt; omega
      simp only [Outcome.ok.injEq] at hs; subst hs
      refine ⟨fun h' => ?_, fun c' h' => ?_, fun h' => ?_, ?_⟩
      · have := locked_countP.mp h'
        simp only at this; omega
      · have : 0 < (s.pausers.set i (Pauser.waiting c !true)).countP Pauser.holds :=
          List.countP_pos_iff.mpr ⟨_, h', rfl⟩
        omega
      · rcases c3 h' with h | h
        · exact .inl h
        · exact .inr (chan_set hi rfl h)
      · simp only; omega
    · rename_i c e hi
      split at hs <;> try (simp at hs; done)
      rename_i hcc
      simp only [Outcome.ok.injEq] at hs; subst hs
      refine ⟨fun h' => c1 ?_, fun c' h' => c2 c' (List.mem_of_mem_eraseIdx h'), fun h' => ?_,
        Nat.le_trans ((List.eraseIdx_sublist _ _).countP_le) c4⟩
      · obtain ⟨x, hx, hh⟩ := locked_iff.mp h'
        exact locked_iff.mpr ⟨x, List.mem_of_mem_eraseIdx hx, hh⟩
      · by_cases he : c = s.nextChan - 1
        · exact .inl (he ▸ hcc)
        · rcases c3 h' with h | h
          · exact .inl h
          · exact .inr (chan_erase hi he h)
  | pause =>
    simp only [step, setState, badStates, List.mem_cons, List.not_mem_nil, or_false] at hs
    split at hs <;> try (simp at hs; done)
    rename_i hnl
    have hz : s.pausers.countP Pauser.holds = 0 := by
      have := mt locked_countP.mpr hnl; omega
    split at hs
    · rename_i hst
      split at hs <;> try (simp at hs; done)
      simp only [Outcome.ok.injEq] at hs; subst hs
      refine ⟨fun _ => ⟨rfl, ?_, ha⟩, fun c' h' => ?_, fun _ => .inr ?_, ?_⟩
      · have := h.expired
        simp only
        cases he : s.expired
        · rfl
        · rcases (this he).2 with h1 | h1
          · rw [hst] at h1; cases h1
          · exact absurd h1 ha.1
      · have h' := (List.mem_append.mp h').resolve_right (by simp)
        exact c2 c' h'
      · exact ⟨_, List.mem_append_right _ (List.mem_singleton.mpr rfl), by simp [Pauser.chan]⟩
      · simp [List.countP_append, hz, Pauser.holds]
    · simp only [Outcome.ok.injEq] at hs; subst hs
      have p := st_cases s
      have h1 := h.live
      refine ⟨fun h' => absurd ?_ hnl, ?_, ?_, ?_⟩
      · unfold locked at h' ⊢; split at h' <;> exact h'
      · split <;> exact c2
      · split
        · exact c3
        · intro _; exact c3 (by grind)
      · split <;> exact c4
  | unpause =>
    simp only [step, setState, badStates, List.mem_cons, List.not_mem_nil, or_false] at hs
    (repeat' split at hs) <;> (try (simp at hs; done)) <;>
    simp only [Outcome.ok.injEq] at hs <;> subst hs <;> constructor <;>
    simp only [Lifecycle.locked] at * <;> grind
  | _ =>
    have p1 := hp.early
    have p2 := hp.mid
    have p3 := hp.before
    have p4 := ht.readerOff
    have h1 := h.live
    have h2 := h.closer
    simp only [step, closerStep, startStep, setState, List.mem_cons, List.not_mem_nil, or_false] at hs
    (repeat' split at hs) <;> (try (simp at hs; done)) <;>
    simp only [Outcome.ok.injEq] at hs <;> subst hs <;> clear hp ht h <;>
    constructor <;> simp only [Lifecycle.locked] at * <;> grind

theorem polite_inv {cfg : Cfg} {s : State} (hd : cfg.deadlines = true) (h : ReachablePolite cfg s) :
    Calls s ∧ Quiet s := by
  induction h with
  | init =>
    refine ⟨⟨?_, ?_, ?_, ?_⟩, ?_⟩ <;> (try constructor) <;> simp [State.init, locked]
  | step a hr ha hs ih =>
    have := inv_reachable (polite_reachable hr)
    exact ⟨calls_step hd this.1 this.2.1 ih.1 ih.2 ha hs,
      quiet_step hd this.1 this.2.1 this.2.2 ih.1 ih.2 ha hs⟩

end Verif.Lifecycle
