import Verif.Model.SendTimer
/-! # Invariants of the timer of the delayed sender -/
namespace Verif.SendTimer
open Verif.Headers

/-- The timer makes the loop send not later than `T`. -/
def TimerDue (s : State) (T : Nat) : Prop := (s.tick = true ∧ s.now ≤ T) ∨ ∃ d, s.armed = some d ∧ d ≤ T

/-- What is in the buffer is taken out of it not later than `T`. -/
def Due (cfg : Cfg) (s : State) (T : Nat) : Prop :=
  match s.loop with
  | .idle => TimerDue s T
  | .got => s.now ≤ T
  | .acquired _ => s.now ≤ T
  | .writing left _ _ => TimerDue s T ∧ s.now + left + cfg.delay ≤ T
  | .wrote _ _ => TimerDue s T ∧ s.now + cfg.delay ≤ T

/-- Times at which all of `msgs`, in a row of acceptance, must be out of the buffer. -/
structure Times (cfg : Cfg) (msgs : List Msg) (P : Nat → Prop) : Prop where
  all : ∀ m ∈ msgs, P (m.time + cfg.slow + msgs.length * cfg.delay)
  last : ∀ m, msgs.getLast? = some m → P (m.time + cfg.slow + cfg.delay)

structure Inv (cfg : Cfg) (s : State) : Prop where
  armed : ∀ d, s.armed = some d → s.now ≤ d
  slow : ∀ l m i, s.loop = .writing l m i → l ≤ cfg.slow
  past : ∀ m ∈ s.buf, m.time ≤ s.now
  due : Times cfg s.buf (Due cfg s)
  writing : ∀ l m i, s.loop = .writing l m i → Times cfg m (fun T => s.now + l ≤ T + cfg.slow)
  sent : ∀ p ∈ s.sent, Times cfg p.1 (fun T => p.2 ≤ T + cfg.slow)

theorem TimerDue.le {s : State} {T : Nat} (h : TimerDue s T) (ha : ∀ d, s.armed = some d → s.now ≤ d) : s.now ≤ T := by
  rcases h with ⟨_, h⟩ | ⟨d, h1, h2⟩
  · exact h
  · exact Nat.le_trans (ha d h1) h2

theorem Due.le {cfg : Cfg} {s : State} {T : Nat} (h : Due cfg s T) (ha : ∀ d, s.armed = some d → s.now ≤ d) :
    s.now ≤ T := by
  unfold Due at h
  split at h
  · exact h.le ha
  · exact h
  · exact h
  · exact h.1.le ha
  · exact h.1.le ha

theorem Times.mono {cfg : Cfg} {msgs : List Msg} {P Q : Nat → Prop} (h : Times cfg msgs P) (hpq : ∀ T, P T → Q T) :
    Times cfg msgs Q :=
  ⟨fun m hm => hpq _ (h.all m hm), fun m hm => hpq _ (h.last m hm)⟩

theorem Times.nil {cfg : Cfg} {P : Nat → Prop} : Times cfg [] P :=
  ⟨fun _ h => (by cases h), fun _ h => (by cases h)⟩

theorem inv_init (cfg : Cfg) : Inv cfg State.init := by
  refine ⟨?_, ?_, ?_, Times.nil, ?_, ?_⟩ <;> intros <;> simp_all [State.init]

theorem due_append {cfg : Cfg} {s : State} {len T : Nat} (hl : s.now + cfg.slow + cfg.delay ≤ T ∨ ∃ T', Due cfg s T' ∧ T = T' + cfg.delay)
    (ha : ∀ d, s.armed = some d → s.now ≤ d) (hs : ∀ l m i, s.loop = .writing l m i → l ≤ cfg.slow) :
    Due cfg (append cfg s len) T := by
  have h1 : s.now + cfg.delay ≤ T := by
    rcases hl with h | ⟨T', h, rfl⟩
    · omega
    · have := h.le ha; omega
  have ht : TimerDue (append cfg s len) T := .inr ⟨s.now + cfg.delay, rfl, h1⟩
  unfold Due
  have hloop : (append cfg s len).loop = s.loop := rfl
  rw [hloop]
  split
  · exact ht
  · show s.now ≤ T; omega
  · show s.now ≤ T; omega
  · next l m i he =>
    refine ⟨ht, ?_⟩
    show s.now + l + cfg.delay ≤ T
    rcases hl with h | ⟨T', h, rfl⟩
    · have := hs l m i he; omega
    · unfold Due at h; rw [he] at h; have := h.2; omega
  · exact ⟨ht, h1⟩

theorem inv_append {cfg : Cfg} {s : State} {len : Nat} (h : Inv cfg s) : Inv cfg (append cfg s len) := by
  refine ⟨?_, h.slow, ?_, ⟨?_, ?_⟩, h.writing, h.sent⟩
  · intro d hd
    have : s.now + cfg.delay = d := Option.some.inj hd
    show s.now ≤ d; omega
  · intro m hm
    have hm : m ∈ s.buf ++ [⟨messageHeadersSize + len, s.now⟩] := hm
    rw [List.mem_append, List.mem_singleton] at hm
    rcases hm with hm | rfl
    · exact h.past m hm
    · exact Nat.le_refl _
  · intro m hm
    have hlen : (append cfg s len).buf.length = s.buf.length + 1 := by
      show (s.buf ++ [_]).length = _; simp
    have hm : m ∈ s.buf ++ [⟨messageHeadersSize + len, s.now⟩] := hm
    rw [hlen, Nat.add_mul, Nat.one_mul, ← Nat.add_assoc]
    rw [List.mem_append, List.mem_singleton] at hm
    rcases hm with hm | rfl
    · exact due_append (.inr ⟨m.time + cfg.slow + s.buf.length * cfg.delay, h.due.all m hm, rfl⟩) h.armed h.slow
    · refine due_append (.inl ?_) h.armed h.slow
      show s.now + cfg.slow + cfg.delay ≤ s.now + cfg.slow + s.buf.length * cfg.delay + cfg.delay
      omega
  · intro m hm
    have hm : (s.buf ++ [(⟨messageHeadersSize + len, s.now⟩ : Msg)]).getLast? = some m := hm
    rw [List.getLast?_append] at hm
    have : m = (⟨messageHeadersSize + len, s.now⟩ : Msg) := by simpa using hm.symm
    subst this
    exact due_append (.inl (Nat.le_refl _)) h.armed h.slow

/-- The loop leaves the `select` in order to send. -/
theorem inv_got {cfg : Cfg} {s : State} (h : Inv cfg s) (b : Bool) : Inv cfg { s with loop := .got, tick := b } :=
  ⟨h.armed, fun _ _ _ he => (by cases he), h.past, h.due.mono fun T hd => (by exact hd.le h.armed),
    fun _ _ _ he => (by cases he), h.sent⟩

theorem inv_step {cfg : Cfg} {s s' : State} {a : Act} (h : Inv cfg s) (hs : step cfg s a = some s') : Inv cfg s' := by
  cases a with
  | write len =>
    simp only [step] at hs
    split at hs
    · cases hs
    · split at hs
      · cases hs; exact h
      · cases hs; exact inv_append h
  | store =>
    simp only [step] at hs
    split at hs
    · cases hs; exact ⟨h.armed, h.slow, h.past, h.due, h.writing, h.sent⟩
    · cases hs
  | fire =>
    simp only [step] at hs
    split at hs
    · next d hd =>
      split at hs
      · next hle =>
        cases hs
        have ht : ∀ T, TimerDue s T → TimerDue { s with armed := none, tick := true } T := fun T hT => .inl ⟨rfl, hT.le h.armed⟩
        refine ⟨fun _ he => (by cases he), h.slow, h.past, h.due.mono fun T hT => ?_, h.writing, h.sent⟩
        unfold Due at hT ⊢
        dsimp only
        split at hT <;> simp_all
      · cases hs
    · cases hs
  | poke id =>
    simp only [step] at hs
    split at hs
    · split at hs
      · cases hs; exact h
      · cases hs; exact inv_got h s.tick
    · cases hs
  | receive =>
    simp only [step] at hs
    split at hs
    · cases hs; exact inv_got h false
    · cases hs
  | acquire =>
    simp only [step] at hs
    split at hs
    · cases hs
      exact ⟨h.armed, fun _ _ _ he => (by cases he), h.past, h.due.mono fun T hT => (by exact hT.le h.armed),
        fun _ _ _ he => (by cases he), h.sent⟩
    · cases hs
  | swap left =>
    simp only [step] at hs
    split at hs
    · next new hl =>
      split at hs
      · next hc =>
        cases hs
        refine ⟨h.armed, ?_, fun _ hm => (by cases hm), Times.nil, ?_, h.sent⟩
        · intro l m i he
          simp only [swapped] at he
          split at he
          · cases he
          · cases he; exact hc.2
        · intro l m i he
          simp only [swapped] at he
          split at he
          · cases he
          · cases he
            refine h.due.mono fun T hT => ?_
            have := hT.le h.armed
            have := hc.2
            show s.now + left ≤ T + cfg.slow
            omega
      · cases hs
    · cases hs
  | written =>
    simp only [step] at hs
    split at hs
    · next msgs id hl =>
      cases hs
      refine ⟨h.armed, fun _ _ _ he => (by cases he), h.past, h.due.mono fun T hT => ?_, fun _ _ _ he => (by cases he), ?_⟩
      · unfold Due at hT; rw [hl] at hT; exact ⟨hT.1, by have := hT.2; show s.now + cfg.delay ≤ T; omega⟩
      · intro p hp
        rw [List.mem_append, List.mem_singleton] at hp
        rcases hp with hp | rfl
        · exact h.sent p hp
        · exact (h.writing _ _ _ hl).mono fun T hT => by exact hT
    · cases hs
  | finish =>
    simp only [step] at hs
    split at hs
    · next id empty hl =>
      have hdue : ∀ T, Due cfg s T → TimerDue s T ∧ s.now + cfg.delay ≤ T := fun T hT => by
        unfold Due at hT; rw [hl] at hT; exact hT
      split at hs
      · cases hs
        unfold finishConnect
        split
        · exact ⟨h.armed, fun _ _ _ he => (by cases he), h.past, h.due.mono fun T hT => (hdue T hT).1,
            fun _ _ _ he => (by cases he), h.sent⟩
        · exact inv_got h s.tick
      · cases hs
        unfold finishLoop
        split
        · refine ⟨?_, fun _ _ _ he => (by cases he), h.past, h.due.mono fun T hT => .inr ⟨_, rfl, (hdue T hT).2⟩,
            fun _ _ _ he => (by cases he), h.sent⟩
          intro d hd
          have : s.now + cfg.delay = d := Option.some.inj hd
          show s.now ≤ d; omega
        · exact ⟨h.armed, fun _ _ _ he => (by cases he), h.past, h.due.mono fun T hT => (hdue T hT).1,
            fun _ _ _ he => (by cases he), h.sent⟩
    · cases hs
  | other => cases hs; exact ⟨h.armed, h.slow, h.past, h.due, h.writing, h.sent⟩
  | time =>
    simp only [step] at hs
    split at hs
    · next hc =>
      have harm : ∀ d, s.armed = some d → s.now + 1 ≤ d := by
        intro d hd
        have := hc.2
        simp only [timerWaits, hd, decide_eq_true_eq] at this
        exact this
      split at hs
      · next hl =>
        split at hs
        · cases hs
        · next htick =>
          cases hs
          refine ⟨harm, fun _ _ _ he => ?_, fun m hm => Nat.le_succ_of_le (h.past m hm), h.due.mono fun T hT => ?_, fun _ _ _ he => ?_, h.sent⟩
          · have he : s.loop = _ := he
            rw [hl] at he; cases he
          · unfold Due at hT ⊢; dsimp only; rw [hl] at hT ⊢
            rcases hT with ⟨ht, _⟩ | hT
            · exact absurd ht htick
            · exact .inr hT
          · have he : s.loop = _ := he
            rw [hl] at he; cases he
      · next left msgs id hl =>
        cases hs
        refine ⟨harm, fun _ _ _ he => ?_, fun m hm => Nat.le_succ_of_le (h.past m hm), h.due.mono fun T hT => ?_, fun _ _ _ he => ?_, h.sent⟩
        · cases he; have := h.slow _ _ _ hl; omega
        · unfold Due at hT; rw [hl] at hT
          refine ⟨?_, by have := hT.2; show s.now + 1 + left + cfg.delay ≤ T; omega⟩
          rcases hT.1 with ⟨ht, _⟩ | hT'
          · exact .inl ⟨ht, by have := hT.2; show s.now + 1 ≤ T; omega⟩
          · exact .inr hT'
        · cases he
          exact (h.writing _ _ _ hl).mono fun T hT => (by show s.now + 1 + left ≤ T + cfg.slow; omega)
      · cases hs
    · cases hs

theorem inv_reachable {cfg : Cfg} {s : State} (h : Reachable cfg s) : Inv cfg s := by
  induction h with
  | init => exact inv_init cfg
  | step a _ hs ih => exact inv_step ih hs

/-- The messages fit into a packet. -/
structure Fits (cfg : Cfg) (msgs : List Msg) : Prop where
  size : msgs ≠ [] → containerHeadersSize + total msgs ≤ cfg.limit
  each : ∀ m ∈ msgs, messageHeadersSize ≤ m.size

theorem Fits.nil {cfg : Cfg} : Fits cfg [] := ⟨fun h => absurd rfl h, fun _ h => (by cases h)⟩

theorem total_ge {msgs : List Msg} (h : ∀ m ∈ msgs, messageHeadersSize ≤ m.size) :
    msgs.length * messageHeadersSize ≤ total msgs := by
  induction msgs with
  | nil => simp [total]
  | cons m r ih =>
    have h1 := ih fun x hx => h x (List.mem_cons_of_mem _ hx)
    have h2 := h m List.mem_cons_self
    simp only [total, List.map_cons, List.sum_cons, List.length_cons, Nat.add_mul, Nat.one_mul] at h1 ⊢
    omega

/-- Not more messages than the packet has room for headers. -/
theorem Fits.length {cfg : Cfg} {msgs : List Msg} (h : Fits cfg msgs) :
    msgs.length ≤ (cfg.limit - containerHeadersSize) / messageHeadersSize := by
  by_cases hn : msgs = []
  · simp [hn]
  · have h1 := total_ge h.each
    have h2 := h.size hn
    rw [Nat.le_div_iff_mul_le (by decide)]
    omega

structure FInv (cfg : Cfg) (s : State) : Prop where
  buf : Fits cfg s.buf
  writing : ∀ l m i, s.loop = .writing l m i → Fits cfg m
  sent : ∀ p ∈ s.sent, Fits cfg p.1

theorem finv_step {cfg : Cfg} {s s' : State} {a : Act} (h : FInv cfg s) (hs : step cfg s a = some s') : FInv cfg s' := by
  obtain ⟨hb, hw, hsn⟩ := h
  cases a with
  | write len =>
    simp only [step] at hs
    split at hs
    · cases hs
    · split at hs
      · cases hs; exact ⟨hb, hw, hsn⟩
      · next hfit =>
        cases hs
        refine ⟨⟨fun _ => ?_, fun m hm => ?_⟩, hw, hsn⟩
        · show containerHeadersSize + total (s.buf ++ [(⟨messageHeadersSize + len, s.now⟩ : Msg)]) ≤ cfg.limit
          have : total (s.buf ++ [(⟨messageHeadersSize + len, s.now⟩ : Msg)]) = total s.buf + (messageHeadersSize + len) := by
            simp [total]
          omega
        · have hm : m ∈ s.buf ++ [(⟨messageHeadersSize + len, s.now⟩ : Msg)] := hm
          rw [List.mem_append, List.mem_singleton] at hm
          rcases hm with hm | rfl
          · exact hb.each m hm
          · exact Nat.le_add_right _ _
  | store =>
    simp only [step] at hs
    split at hs
    · cases hs; exact ⟨hb, hw, hsn⟩
    · cases hs
  | fire =>
    simp only [step] at hs
    split at hs
    · split at hs
      · cases hs; exact ⟨hb, hw, hsn⟩
      · cases hs
    · cases hs
  | poke id =>
    simp only [step] at hs
    split at hs
    · split at hs
      · cases hs; exact ⟨hb, hw, hsn⟩
      · cases hs; exact ⟨hb, fun _ _ _ he => (by cases he), hsn⟩
    · cases hs
  | receive =>
    simp only [step] at hs
    split at hs
    · cases hs; exact ⟨hb, fun _ _ _ he => (by cases he), hsn⟩
    · cases hs
  | acquire =>
    simp only [step] at hs
    split at hs
    · cases hs; exact ⟨hb, fun _ _ _ he => (by cases he), hsn⟩
    · cases hs
  | swap left =>
    simp only [step] at hs
    split at hs
    · split at hs
      · cases hs
        refine ⟨Fits.nil, fun l m i he => ?_, hsn⟩
        simp only [swapped] at he
        split at he
        · cases he
        · cases he; exact hb
      · cases hs
    · cases hs
  | written =>
    simp only [step] at hs
    split at hs
    · next hl =>
      cases hs
      refine ⟨hb, fun _ _ _ he => (by cases he), fun p hp => ?_⟩
      rw [List.mem_append, List.mem_singleton] at hp
      rcases hp with hp | rfl
      · exact hsn p hp
      · exact hw _ _ _ hl
    · cases hs
  | finish =>
    simp only [step] at hs
    split at hs
    · split at hs
      · cases hs
        unfold finishConnect
        split <;> exact ⟨hb, fun _ _ _ he => (by cases he), hsn⟩
      · cases hs
        unfold finishLoop
        split <;> exact ⟨hb, fun _ _ _ he => (by cases he), hsn⟩
    · cases hs
  | other => cases hs; exact ⟨hb, hw, hsn⟩
  | time =>
    simp only [step] at hs
    split at hs
    · split at hs
      · split at hs
        · cases hs
        · cases hs; exact ⟨hb, hw, hsn⟩
      · next hl => cases hs; exact ⟨hb, fun _ _ _ he => (by cases he; exact hw _ _ _ hl), hsn⟩
      · cases hs
    · cases hs

theorem finv_reachable {cfg : Cfg} {s : State} (h : Reachable cfg s) : FInv cfg s := by
  induction h with
  | init => exact ⟨Fits.nil, fun _ _ _ he => (by cases he), fun _ he => (by cases he)⟩
  | step a _ hs ih => exact finv_step ih hs

/-- Rank of what the loop has still to do before it waits. -/
def rank : Loop → Nat
  | .idle => 0
  | .wrote _ true => 1
  | .acquired _ => 2
  | .got => 3
  | .wrote _ false => 4
  | .writing _ _ _ => 5

/-- Bound for the steps before the clock may advance. -/
def busy (s : State) : Nat :=
  s.storing.toNat + 30 * (!timerWaits s).toNat + 12 * s.tick.toNat + 10 * (!s.buf.isEmpty).toNat + rank s.loop

/-- Either the clock can advance, or some step of the session can be made, and then there is less to do. -/
theorem settle_step {cfg : Cfg} {s : State} (hd : 0 < cfg.delay) :
    (∃ s', step cfg s .time = some s' ∧ s'.now = s.now + 1) ∨
      ∃ a s', (∀ len, a ≠ .write len) ∧ step cfg s a = some s' ∧ s'.now = s.now ∧ busy s' < busy s := by
  by_cases hst : s.storing = true
  · refine .inr ⟨.store, { s with storing := false, lastAppended := s.cur }, by simp, by simp only [step, hst, if_true], rfl, ?_⟩
    have : timerWaits { s with storing := false, lastAppended := s.cur } = timerWaits s := rfl
    simp only [busy, this, hst, Bool.toNat_true, Bool.toNat_false]
    omega
  have hst : s.storing = false := by simpa using hst
  by_cases htw : timerWaits s = true
  · cases hl : s.loop with
    | idle =>
      by_cases ht : s.tick = true
      · refine .inr ⟨.receive, { s with loop := .got, tick := false }, by simp, by simp only [step, hl, ht, and_self, if_true], rfl, ?_⟩
        have htw' : timerWaits { s with loop := .got, tick := false } = true := htw
        simp only [busy, hl, ht, rank, htw, htw', Bool.toNat_true, Bool.toNat_false]
        omega
      · exact .inl ⟨_, by simp only [step, hst, htw, hl, ht]; rfl, rfl⟩
    | got =>
      refine .inr ⟨.acquire, { s with ids := s.ids + 1, loop := .acquired (s.ids + 1) }, by simp, by simp only [step, hl, if_true], rfl, ?_⟩
      have htw' : timerWaits { s with ids := s.ids + 1, loop := .acquired (s.ids + 1) } = true := htw
      simp only [busy, hl, rank, htw, htw']
      omega
    | acquired id =>
      refine .inr ⟨.swap 0, swapped s id 0, by simp, by simp [step, hl, hst], rfl, ?_⟩
      have htw' : timerWaits (swapped s id 0) = true := htw
      simp only [busy, hl, rank, htw, htw']
      simp only [swapped]
      cases hb : s.buf <;> simp [rank]
    | writing left msgs id =>
      cases left with
      | zero =>
        refine .inr ⟨.written, { s with sent := s.sent ++ [(msgs, s.now)], loop := .wrote id false }, by simp, by simp only [step, hl], rfl, ?_⟩
        have htw' : timerWaits { s with sent := s.sent ++ [(msgs, s.now)], loop := .wrote id false } = true := htw
        simp only [busy, hl, rank, htw, htw']
        omega
      | succ left => exact .inl ⟨_, by simp only [step, hst, htw, hl]; rfl, rfl⟩
    | wrote id empty =>
      refine .inr ⟨.finish, if s.connecting then finishConnect s empty else finishLoop cfg s id, by simp,
        by simp only [step, hl], ?_, ?_⟩
      · unfold finishConnect finishLoop reset
        repeat' split
        all_goals rfl
      · by_cases hc : s.connecting = true
        · rw [if_pos hc]
          cases empty with
          | true =>
            have htw' : timerWaits { s with connecting := false, loop := .idle } = true := htw
            rw [finishConnect, if_pos rfl, busy, htw', busy, htw, hl]
            simp only [rank]
            omega
          | false =>
            have htw' : timerWaits { s with loop := .got } = true := htw
            rw [finishConnect, if_neg Bool.false_ne_true, busy, htw', busy, htw, hl]
            simp only [rank]
            omega
        · rw [if_neg hc]
          have hr : 0 < rank (.wrote id empty) := by cases empty <;> simp [rank]
          unfold finishLoop
          by_cases hla : s.lastAppended > id
          · rw [if_pos hla]
            have htw' : timerWaits { reset cfg s with lastSent := id, loop := .idle } = true := by
              simp [timerWaits, reset, hd]
            rw [busy, htw', busy, htw, hl]
            simp only [reset, Bool.toNat_false]
            have : rank .idle = 0 := rfl
            omega
          · rw [if_neg hla]
            have htw' : timerWaits { s with lastSent := id, loop := .idle } = true := htw
            rw [busy, htw', busy, htw, hl]
            have : rank .idle = 0 := rfl
            simp only [this]
            omega
  · have htw : timerWaits s = false := by simpa using htw
    cases ha : s.armed with
    | none => simp [timerWaits, ha] at htw
    | some d =>
      have hle : d ≤ s.now := by simpa [timerWaits, ha] using htw
      refine .inr ⟨.fire, { s with armed := none, tick := true }, by simp, by simp only [step, ha, hle, if_true], rfl, ?_⟩
      have htw' : timerWaits { s with armed := none, tick := true } = true := rfl
      simp only [busy, htw, htw', Bool.toNat_true, Bool.toNat_false, Bool.not_true, Bool.not_false]
      omega

/-- The clock advances up to the deadline of the timer while the loop waits. -/
theorem reach_time {cfg : Cfg} {s : State} {d : Nat} (h : Reachable cfg s) (hl : s.loop = .idle) (ht : s.tick = false)
    (hst : s.storing = false) (ha : s.armed = some d) (j : Nat) (hj : s.now + j ≤ d) :
    Reachable cfg { s with now := s.now + j } := by
  induction j with
  | zero => exact h
  | succ j ih =>
    refine .step .time (ih (by omega)) ?_
    have : timerWaits { s with now := s.now + j } = true := by
      simp only [timerWaits, ha, decide_eq_true_eq]; omega
    simp only [step, this, hl]
    rw [if_pos ⟨hst, by rw [← hl]; exact this⟩, if_neg (by simp [ht])]
    rfl

end Verif.SendTimer
