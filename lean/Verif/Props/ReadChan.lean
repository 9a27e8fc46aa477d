import Verif.Model.ReadChan
/-!
# C132: `Read` returns when the session has ended; C133: registering a messenger loses no message

`Read` "implements io.Reader" (session.go:2187).  "NewMessenger […] overrides other handlers/messengers for this MessageType (if they
set)" (session.go:1307-1308).
-/
namespace Verif.ReadChan

/-- The message in the hands of the reader goroutine. -/
def Loop.msgs : Loop → List Nat
  | .checked m | .sending _ m => [m]
  | _ => []

/-- All messages in channels. -/
def queued (s : State) : List Nat := s.chans.flatMap Chan.queue

structure Inv (s : State) : Prop where
  cur : s.cur < s.chans.length
  calls : ∀ c, .waiting c ∈ s.calls → c < s.chans.length
  loop : ∀ c m, s.loop = .sending c m → c < s.chans.length
  opened : s.loop ≠ .ended → ∀ ch ∈ s.chans, ch.closed = false

theorem mem_set_cases {α} {l : List α} {i : Nat} {c d : α} (h : c ∈ l.set i d) : c ∈ l ∨ c = d :=
  List.mem_or_eq_of_mem_set h

theorem inv_step {cap : Nat} {s s' : State} {a : Act} (h : Inv s) (hs : step cap s a = .ok s') : Inv s' := by
  obtain ⟨h1, h2, h3, h4⟩ := h
  cases a with
  | arrive m =>
    simp only [step] at hs
    split at hs
    · rename_i hl
      split at hs <;> cases hs
      · exact ⟨h1, h2, h3, h4⟩
      · exact ⟨h1, h2, (by intro c m hc; cases hc), fun _ => h4 (by rw [hl]; simp)⟩
    · cases hs
  | lookup =>
    simp only [step] at hs
    split at hs <;> cases hs
    rename_i m hl
    exact ⟨h1, h2, (by intro c m hc; cases hc; exact h1), fun _ => h4 (by rw [hl]; simp)⟩
  | push =>
    simp only [step] at hs
    split at hs
    · rename_i c m hl
      split at hs
      · cases hs
      · rename_i ch hch
        split at hs
        · cases hs
        · split at hs <;> cases hs
          refine ⟨by simpa using h1, by simpa using h2, (by intro c m hc; cases hc), fun _ x hx => ?_⟩
          have h5 := h4 (by rw [hl]; simp)
          rcases mem_set_cases hx with hx | rfl
          · exact h5 x hx
          · exact h5 ch (List.mem_of_getElem? hch)
    · cases hs
  | read =>
    simp only [step] at hs
    cases hs
    refine ⟨h1, fun c hc => ?_, h3, h4⟩
    rcases List.mem_append.1 hc with hc | hc
    · exact h2 c hc
    · simp only [List.mem_singleton, Call.waiting.injEq] at hc; rw [hc]; exact h1
  | take i =>
    simp only [step] at hs
    split at hs
    · rename_i c hc
      split at hs
      · cases hs
      · rename_i ch hch
        split at hs
        · cases hs
          refine ⟨by simpa using h1, fun d hd => ?_, by simpa using h3, fun hl x hx => ?_⟩
          · rcases mem_set_cases hd with hd | hd
            · simpa using h2 d hd
            · cases hd
          · rcases mem_set_cases hx with hx | rfl
            · exact h4 hl x hx
            · exact h4 hl ch (List.mem_of_getElem? hch)
        · split at hs <;> cases hs
          refine ⟨h1, fun d hd => ?_, h3, h4⟩
          rcases mem_set_cases hd with hd | hd
          · exact h2 d hd
          · cases hd
    · cases hs
  | begin =>
    simp only [step] at hs
    split at hs <;> cases hs <;> exact ⟨h1, h2, h3, h4⟩
  | register =>
    simp only [step] at hs
    split at hs <;> cases hs
    refine ⟨by simp, fun c hc => ?_, fun c m hl => ?_, fun hl x hx => ?_⟩
    · have := h2 c hc; simp only [List.length_append]; omega
    · have := h3 c m hl; simp only [List.length_append]; omega
    · rcases List.mem_append.1 hx with hx | hx
      · exact h4 hl x hx
      · simp only [List.mem_singleton] at hx; rw [hx]
  | cancel =>
    simp only [step] at hs
    cases hs
    exact ⟨h1, h2, h3, h4⟩
  | clean =>
    simp only [step] at hs
    split at hs
    · split at hs <;> cases hs
      exact ⟨by simpa using h1, by simpa using h2, (by intro c m hc; cases hc), fun hl => absurd rfl hl⟩
    · cases hs

theorem inv {cap : Nat} {s : State} (hr : Reachable cap s) : Inv s := by
  induction hr with
  | init =>
    refine ⟨by decide, ?_, ?_, ?_⟩
    · intro c hc; cases hc
    · intro c m hc; cases hc
    · intro _ x hx; simp only [State.init, List.mem_singleton] at hx; rw [hx]
  | step a _ hs ih => exact inv_step ih hs

theorem runActs_reachable {cap : Nat} : ∀ (as : List Act) {s s' : State}, Reachable cap s → runActs cap s as = .ok s' → Reachable cap s' := by
  intro as
  induction as with
  | nil => intro s s' h hs; cases hs; exact h
  | cons a as ih =>
    intro s s' h hs
    unfold runActs at hs
    split at hs
    · rename_i s1 h1
      exact ih (.step a h h1) hs
    · rename_i h1
      exact absurd hs (h1 s')

/-- The reader goroutine never sends on a closed channel. -/
theorem push_safe {cap : Nat} {s : State} (hr : Reachable cap s) (a : Act) : step cap s a ≠ .err () := by
  intro h
  have hi := inv hr
  cases a <;> simp only [step] at h
  case push =>
    split at h
    · rename_i c m hl
      split at h
      · cases h
      · rename_i ch hch
        split at h
        · rename_i hc
          have := hi.opened (by rw [hl]; simp) ch (List.mem_of_getElem? hch)
          rw [this] at hc; cases hc
        · split at h <;> cases h
    · cases h
  all_goals (repeat' split at h)
  all_goals cases h

/-- Can the call return now? -/
def CanReturn (cap : Nat) (s : State) (i : Nat) : Prop :=
  ∃ s', step cap s (.take i) = .ok s' ∧ (s'.calls[i]? = some .failed ∨ ∃ m, s'.calls[i]? = some (.got m))

theorem canReturn {cap : Nat} {s : State} {i c : Nat} {ch : Chan} (hc : s.calls[i]? = some (.waiting c)) (hch : s.chans[c]? = some ch)
    (h : ch.queue ≠ [] ∨ ch.closed = true) : CanReturn cap s i := by
  have hi : i < s.calls.length := by
    rcases Nat.lt_or_ge i s.calls.length with h1 | h1
    · exact h1
    · rw [List.getElem?_eq_none h1] at hc; cases hc
  cases hq : ch.queue with
  | nil =>
    have h2 : ch.closed = true := by
      rcases h with h | h
      · exact absurd hq h
      · exact h
    refine ⟨{ s with calls := s.calls.set i .failed }, ?_, .inl (by simp [hi])⟩
    simp only [step, hc, hch, hq, h2, if_true]
  | cons m q =>
    refine ⟨{ s with calls := s.calls.set i (.got m), taken := s.taken ++ [m], chans := s.chans.set c { ch with queue := q } }, ?_,
      .inr ⟨m, by simp [hi]⟩⟩
    simp only [step, hc, hch, hq]

/-! ### C132 -/

/-- After the end: one closed channel which is current, and all calls wait for it. -/
def Over (c : Nat) (s : State) : Prop :=
  s.loop = .ended ∧ s.cur = c ∧ (∃ ch, s.chans[c]? = some ch ∧ ch.closed = true) ∧ ∀ d, .waiting d ∈ s.calls → d = c

theorem over_step {cap c : Nat} {s s' : State} {a : Act} (ha : a ≠ .register) (h : Over c s) (hs : step cap s a = .ok s') : Over c s' := by
  obtain ⟨h1, h2, ⟨ch, h3, h4⟩, h5⟩ := h
  cases a <;> simp only [step] at hs
  case arrive m => rw [h1] at hs; simp at hs
  case lookup => rw [h1] at hs; cases hs
  case push => rw [h1] at hs; cases hs
  case read =>
    cases hs
    refine ⟨h1, h2, ⟨ch, h3, h4⟩, fun d hd => ?_⟩
    rcases List.mem_append.1 hd with hd | hd
    · exact h5 d hd
    · simp only [List.mem_singleton, Call.waiting.injEq] at hd; rw [hd, h2]
  case take i =>
    split at hs
    · rename_i d hd
      have : d = c := h5 d (List.mem_of_getElem? hd)
      subst this
      rw [h3] at hs
      simp only at hs
      split at hs
      · rename_i m q hq
        cases hs
        refine ⟨h1, h2, ⟨⟨q, ch.closed⟩, by simp [(List.getElem?_eq_some_iff.1 h3).1], h4⟩, fun e he => ?_⟩
        rcases mem_set_cases he with he | he
        · exact h5 e he
        · cases he
      · rw [if_pos h4] at hs
        cases hs
        refine ⟨h1, h2, ⟨ch, h3, h4⟩, fun e he => ?_⟩
        rcases mem_set_cases he with he | he
        · exact h5 e he
        · cases he
    · cases hs
  case begin => split at hs <;> cases hs <;> exact ⟨h1, h2, ⟨ch, h3, h4⟩, h5⟩
  case register => exact absurd rfl ha
  case cancel => cases hs; exact ⟨h1, h2, ⟨ch, h3, h4⟩, h5⟩
  case clean => rw [h1] at hs; simp at hs

/-- C132, what holds: if no channel has been replaced under a waiting call, and no registration is completed after the end,
every call of `Read`, also a later one, can return as soon as the session has ended. -/
theorem C132_partial {cap : Nat} {s s1 s2 : State} {as : List Act} (hw : ∀ c, .waiting c ∈ s.calls → c = s.cur)
    (hs : step cap s .clean = .ok s1) (hn : .register ∉ as) (hrun : runActs cap s1 as = .ok s2) {i c : Nat}
    (hc : s2.calls[i]? = some (.waiting c)) : CanReturn cap s2 i := by
  have h1 : Over s.cur s1 := by
    simp only [step] at hs
    split at hs
    · split at hs <;> cases hs
      rename_i ch hch
      exact ⟨rfl, rfl, ⟨_, by simp [(List.getElem?_eq_some_iff.1 hch).1]; rfl, rfl⟩, hw⟩
    · cases hs
  have h2 : Over s.cur s2 := by
    clear hs hc hw
    induction as generalizing s1 with
    | nil => cases hrun; exact h1
    | cons a as ih =>
      unfold runActs at hrun
      split at hrun
      · rename_i s3 h3
        exact ih (fun h => hn (List.mem_cons_of_mem _ h)) hrun (over_step (fun h => hn (h ▸ List.mem_cons_self)) h1 h3)
      · rename_i h3; exact absurd hrun (h3 s2)
  obtain ⟨-, -, ⟨ch, h3, h4⟩, h5⟩ := h2
  have : c = s.cur := h5 c (List.mem_of_getElem? hc)
  subst this
  exact canReturn hc h3 (.inr h4)

/-- The channel is empty, open, forgotten by the session, and somebody waits for it. -/
def Forgotten (i c : Nat) (s : State) : Prop :=
  s.calls[i]? = some (.waiting c) ∧ s.chans[c]? = some ⟨[], false⟩ ∧ s.cur ≠ c ∧ ∀ m, s.loop ≠ .sending c m

theorem forgotten_step {cap i c : Nat} {s s' : State} {a : Act} (h : Forgotten i c s) (hs : step cap s a = .ok s') : Forgotten i c s' := by
  obtain ⟨h1, h2, h3, h4⟩ := h
  have hlt : c < s.chans.length := (List.getElem?_eq_some_iff.1 h2).1
  have hil : i < s.calls.length := (List.getElem?_eq_some_iff.1 h1).1
  cases a <;> simp only [step] at hs
  case arrive m =>
    split at hs
    · split at hs <;> cases hs
      · exact ⟨h1, h2, h3, h4⟩
      · exact ⟨h1, h2, h3, fun _ h => by cases h⟩
    · cases hs
  case lookup =>
    split at hs <;> cases hs
    refine ⟨h1, h2, h3, fun _ h => ?_⟩
    cases h; exact h3 rfl
  case push =>
    split at hs
    · rename_i d m hl
      split at hs
      · cases hs
      · split at hs
        · cases hs
        · split at hs <;> cases hs
          refine ⟨h1, ?_, h3, fun _ h => by cases h⟩
          have : d ≠ c := fun h => h4 m (h ▸ hl)
          rw [← h2]
          exact List.getElem?_set_ne this
    · cases hs
  case read =>
    cases hs
    exact ⟨by rw [List.getElem?_append_left hil]; exact h1, h2, h3, h4⟩
  case take j =>
    split at hs
    · rename_i d hd
      split at hs
      · cases hs
      · rename_i ch hch
        have hne : j = i → False := by
          intro e
          subst e
          rw [h1] at hd; cases hd
          rw [h2] at hch; cases hch
          simp at hs
        split at hs
        · rename_i m q hq
          cases hs
          have hdc : d ≠ c := by
            intro e; subst e
            rw [h2] at hch; cases hch; cases hq
          refine ⟨?_, ?_, h3, h4⟩
          · rw [← h1]; exact List.getElem?_set_ne hne
          · rw [← h2]; exact List.getElem?_set_ne hdc
        · split at hs <;> cases hs
          exact ⟨by rw [← h1]; exact List.getElem?_set_ne hne, h2, h3, h4⟩
    · cases hs
  case begin => split at hs <;> cases hs <;> exact ⟨h1, h2, h3, h4⟩
  case register =>
    split at hs <;> cases hs
    refine ⟨h1, ?_, fun h => ?_, h4⟩
    · rw [List.getElem?_append_left hlt]; exact h2
    · simp only at h; omega
  case cancel => cases hs; exact ⟨h1, h2, h3, h4⟩
  case clean =>
    split at hs
    · split at hs <;> cases hs
      exact ⟨h1, by rw [← h2]; exact List.getElem?_set_ne h3, h3, fun _ h => by cases h⟩
    · cases hs

theorem forgotten_run {cap i c : Nat} {as : List Act} {s s' : State} (h : Forgotten i c s) (hrun : runActs cap s as = .ok s') :
    Forgotten i c s' := by
  induction as generalizing s with
  | nil => cases hrun; exact h
  | cons a as ih =>
    unfold runActs at hrun
    split at hrun
    · rename_i s1 h1
      exact ih (forgotten_step h h1) hrun
    · rename_i h1; exact absurd hrun (h1 s')

theorem forgotten_stuck {cap i c : Nat} {s : State} (h : Forgotten i c s) : step cap s (.take i) = .block := by
  simp [step, h.1, h.2.1]

/-- C132 is violated: a call of `Read` that waits for a message while a messenger is registered for `MessageTypeReadWrite` never
returns, whatever happens, also when the session ends. -/
theorem C132_violated {cap : Nat} {s s1 : State} (hr : Reachable cap s) {i : Nat} (hw : s.calls[i]? = some (.waiting s.cur))
    (hq : s.chans[s.cur]? = some ⟨[], false⟩) (hl : ∀ m, s.loop ≠ .sending s.cur m) (hs : step cap s .register = .ok s1) {as : List Act}
    {s2 : State} (hrun : runActs cap s1 as = .ok s2) : s2.calls[i]? = some (.waiting s.cur) ∧ step cap s2 (.take i) = .block := by
  have hlt := (inv hr).cur
  have h1 : Forgotten i s.cur s1 := by
    simp only [step] at hs
    split at hs <;> cases hs
    exact ⟨hw, by rw [List.getElem?_append_left hlt]; exact hq, fun h => by simp only at h; omega, hl⟩
  have h2 := forgotten_run h1 hrun
  exact ⟨h2.1, forgotten_stuck h2⟩

/-- Such a call, a registration, and the end of the session. -/
theorem C132_violated_example : ∃ s s1 s2, Reachable 1024 s ∧ s.calls = [.waiting s.cur] ∧ s.chans[s.cur]? = some ⟨[], false⟩ ∧
    step 1024 s .register = .ok s1 ∧ runActs 1024 s1 [.cancel, .clean] = .ok s2 ∧ s2.loop = .ended ∧ s2.calls = [.waiting 0] ∧
    step 1024 s2 (.take 0) = .block :=
  ⟨_, _, _, runActs_reachable [.read, .begin] .init rfl, rfl, rfl, rfl, rfl, rfl, rfl, rfl⟩

/-- The reader goroutine has ended, the channels from `k` on are empty and open, and the calls from `n` on wait for them. -/
def Dead (k n : Nat) (s : State) : Prop :=
  s.loop = .ended ∧ k ≤ s.cur ∧ k ≤ s.chans.length ∧ (∀ d ch, k ≤ d → s.chans[d]? = some ch → ch = ⟨[], false⟩) ∧
    n ≤ s.calls.length ∧ ∀ i x, n ≤ i → s.calls[i]? = some x → ∃ c, k ≤ c ∧ x = .waiting c

theorem dead_stuck {cap k n i : Nat} {s : State} {x : Call} (h : Dead k n s) (hi : n ≤ i) (hx : s.calls[i]? = some x) :
    (∃ c, x = .waiting c) ∧ step cap s (.take i) = .block := by
  obtain ⟨-, -, -, h4, -, h6⟩ := h
  obtain ⟨c, hc, rfl⟩ := h6 i x hi hx
  refine ⟨⟨c, rfl⟩, ?_⟩
  simp only [step, hx]
  cases hch : s.chans[c]? with
  | none => rfl
  | some ch => rw [h4 c ch hc hch]; rfl

theorem dead_step {cap k n : Nat} {s s' : State} {a : Act} (h : Dead k n s) (hs : step cap s a = .ok s') : Dead k n s' := by
  have hd := h
  obtain ⟨h1, h2, h3, h4, h5, h6⟩ := h
  cases a <;> simp only [step] at hs
  case arrive m => rw [h1] at hs; simp at hs
  case lookup => rw [h1] at hs; cases hs
  case push => rw [h1] at hs; cases hs
  case read =>
    cases hs
    refine ⟨h1, h2, h3, h4, by simp; omega, fun i x hi hx => ?_⟩
    simp only [List.getElem?_append] at hx
    split at hx
    · exact h6 i x hi hx
    · rw [List.getElem?_singleton] at hx
      split at hx <;> cases hx
      exact ⟨_, h2, rfl⟩
  case take j =>
    split at hs
    · rename_i c hc
      split at hs
      · cases hs
      · rename_i ch hch
        have hj : j < n := by
          rcases Nat.lt_or_ge j n with h | h
          · exact h
          · have := (dead_stuck (cap := cap) hd h hc).2
            simp only [step, hc, hch] at this
            rw [this] at hs; cases hs
        split at hs
        · rename_i m q hq
          cases hs
          refine ⟨h1, h2, by simpa using h3, fun d x hd hx => ?_, by simpa using h5, fun i x hi hx => ?_⟩
          · by_cases hcd : c = d
            · subst hcd
              rw [h4 c ch hd hch] at hq; cases hq
            · simp only [List.getElem?_set_ne hcd] at hx; exact h4 d x hd hx
          · simp only [List.getElem?_set_ne (show j ≠ i by omega)] at hx; exact h6 i x hi hx
        · split at hs <;> cases hs
          refine ⟨h1, h2, h3, h4, by simpa using h5, fun i x hi hx => ?_⟩
          simp only [List.getElem?_set_ne (show j ≠ i by omega)] at hx; exact h6 i x hi hx
    · cases hs
  case begin => split at hs <;> cases hs <;> exact ⟨h1, h2, h3, h4, h5, h6⟩
  case register =>
    split at hs <;> cases hs
    refine ⟨h1, h3, by simp; omega, fun d x hd hx => ?_, h5, h6⟩
    simp only [List.getElem?_append] at hx
    split at hx
    · exact h4 d x hd hx
    · rw [List.getElem?_singleton] at hx
      split at hx <;> cases hx
      rfl
  case cancel => cases hs; exact ⟨h1, h2, h3, h4, h5, h6⟩
  case clean => rw [h1] at hs; simp at hs

/-- C132 is also violated if the registration is completed after the end of the reader goroutine: then no later call of `Read` ever
returns. -/
theorem C132_violated_late {cap : Nat} {s s1 : State} (he : s.loop = .ended) (hs : step cap s .register = .ok s1) {as : List Act}
    {s2 : State} (hrun : runActs cap s1 as = .ok s2) {i : Nat} {x : Call} (hi : s.calls.length ≤ i) (hx : s2.calls[i]? = some x) :
    (∃ c, x = .waiting c) ∧ step cap s2 (.take i) = .block := by
  have h1 : Dead s.chans.length s.calls.length s1 := by
    simp only [step] at hs
    split at hs <;> cases hs
    refine ⟨he, Nat.le_refl _, by simp, fun d x hd hx => ?_, Nat.le_refl _, fun i x hi hx => ?_⟩
    · simp only [List.getElem?_append_right hd] at hx
      rw [List.getElem?_singleton] at hx
      split at hx <;> cases hx
      rfl
    · rw [List.getElem?_eq_none hi] at hx; cases hx
  have h2 : Dead s.chans.length s.calls.length s2 := by
    clear hx hs
    induction as generalizing s1 with
    | nil => cases hrun; exact h1
    | cons a as ih =>
      unfold runActs at hrun
      split at hrun
      · rename_i s3 h3
        exact ih hrun (dead_step h1 h3)
      · rename_i h3; exact absurd hrun (h3 s2)
  exact dead_stuck h2 hi hx

example : ∃ s s1 s2, Reachable 1024 s ∧ s.loop = .ended ∧ step 1024 s .register = .ok s1 ∧ runActs 1024 s1 [.read] = .ok s2 ∧
    s.calls.length ≤ 0 ∧ s2.calls[0]? = some (.waiting 1) :=
  ⟨_, _, _, runActs_reachable [.begin, .clean] .init rfl, rfl, rfl, rfl, by decide, rfl⟩

/-- A call that waits, the end, one more call. -/
example : ∃ s s1 s2, Reachable 1024 s ∧ (∀ c, .waiting c ∈ s.calls → c = s.cur) ∧ step 1024 s .clean = .ok s1 ∧
    runActs 1024 s1 [.read, .take 1] = .ok s2 ∧ s2.calls = [.waiting 0, .failed] :=
  ⟨_, _, _, runActs_reachable [.read] .init rfl, (by intro c hc; simp [State.init] at hc; exact hc), rfl, rfl, rfl⟩

/-- After the end a messenger is registered only by a call that began before. -/
example : runActs 1024 State.init [.clean, .begin, .register] = .block ∧
    (runActs 1024 State.init [.begin, .clean, .register]) ≠ .block := by decide +kernel

/-! ### C133 -/

/-- Without a registration all messages are returned by `Read` in the order of arrival. -/
theorem C133_order_partial {cap : Nat} {s : State} (hr : Reachable cap s) (h : s.chans.length = 1) :
    s.handled = [] ∧ s.taken ++ queued s ++ s.loop.msgs = s.arrived := by
  have key : s.chans.length = 1 → s.messenger = false ∧ s.handled = [] ∧ s.taken ++ queued s ++ s.loop.msgs = s.arrived := by
    clear h
    induction hr with
    | init => intro _; exact ⟨rfl, rfl, rfl⟩
    | @step s s' a hr hs ih =>
      intro hl
      have hinv := inv hr
      cases a <;> simp only [step] at hs
      case arrive m =>
        split at hs
        · rename_i hi
          split at hs <;> cases hs
          · rename_i hm
            rw [(ih hl).1] at hm; cases hm
          · obtain ⟨h1, h2, h3⟩ := ih hl
            refine ⟨h1, h2, ?_⟩
            rw [hi] at h3
            simp only [Loop.msgs, List.append_nil] at h3
            show s.taken ++ queued s ++ [m] = s.arrived ++ [m]
            rw [h3]
        · cases hs
      case lookup =>
        split at hs <;> cases hs
        rename_i m hm
        obtain ⟨h1, h2, h3⟩ := ih hl
        rw [hm] at h3
        exact ⟨h1, h2, h3⟩
      case push =>
        split at hs
        · rename_i c m hm
          split at hs
          · cases hs
          · rename_i ch hch
            split at hs
            · cases hs
            · split at hs <;> cases hs
              have hl2 : s.chans.length = 1 := by simpa using hl
              obtain ⟨h1, h2, h3⟩ := ih hl2
              obtain ⟨x, hx⟩ := List.length_eq_one_iff.1 hl2
              have hc := hinv.loop c m hm
              have hc0 : c = 0 := by omega
              subst hc0
              rw [hx] at hch
              simp only [List.getElem?_cons_zero, Option.some.injEq] at hch
              subst hch
              refine ⟨h1, h2, ?_⟩
              rw [hm] at h3
              simp only [queued, hx, Loop.msgs, List.flatMap_cons, List.flatMap_nil, List.append_nil, List.set_cons_zero] at h3 ⊢
              rw [← h3]; simp
        · cases hs
      case read => cases hs; exact ih hl
      case take j =>
        split at hs
        · rename_i c hc
          split at hs
          · cases hs
          · rename_i ch hch
            split at hs
            · rename_i m q hq
              cases hs
              have hl2 : s.chans.length = 1 := by simpa using hl
              obtain ⟨h1, h2, h3⟩ := ih hl2
              obtain ⟨x, hx⟩ := List.length_eq_one_iff.1 hl2
              have hcl := hinv.calls c (List.mem_of_getElem? hc)
              have hc0 : c = 0 := by omega
              subst hc0
              rw [hx] at hch
              simp only [List.getElem?_cons_zero, Option.some.injEq] at hch
              subst hch
              refine ⟨h1, h2, ?_⟩
              simp only [queued, hx, List.flatMap_cons, List.flatMap_nil, List.append_nil, List.set_cons_zero, hq] at h3 ⊢
              rw [← h3]; simp
            · split at hs <;> cases hs; exact ih hl
        · cases hs
      case begin => split at hs <;> cases hs <;> exact ih hl
      case register =>
        split at hs <;> cases hs
        have := hinv.cur
        simp at hl
        rw [hl] at this; simp at this
      case cancel => cases hs; exact ih hl
      case clean =>
        split at hs
        · rename_i hi
          split at hs <;> cases hs
          rename_i ch hch
          have hl2 : s.chans.length = 1 := by simpa using hl
          obtain ⟨h1, h2, h3⟩ := ih hl2
          obtain ⟨x, hx⟩ := List.length_eq_one_iff.1 hl2
          have := hinv.cur
          have hc0 : s.cur = 0 := by omega
          rw [hc0, hx] at hch
          simp only [List.getElem?_cons_zero, Option.some.injEq] at hch
          subst hch
          refine ⟨h1, h2, ?_⟩
          rw [hi] at h3
          simpa [queued, hx, hc0, Loop.msgs] using h3
        · cases hs
  exact (key h).2

theorem count_set (m : Nat) {c : Nat} {ch x : Chan} : ∀ {l : List Chan}, l[c]? = some ch →
    (l.flatMap Chan.queue).count m + x.queue.count m = ((l.set c x).flatMap Chan.queue).count m + ch.queue.count m := by
  intro l
  induction l generalizing c with
  | nil => intro h; cases h
  | cons y l ih =>
    intro h
    cases c with
    | zero =>
      simp only [List.getElem?_cons_zero, Option.some.injEq] at h
      subst h
      simp only [List.set_cons_zero, List.flatMap_cons, List.count_append]
      omega
    | succ c =>
      simp only [List.getElem?_cons_succ] at h
      have := ih h
      simp only [List.set_cons_succ, List.flatMap_cons, List.count_append]
      omega

/-- In all runs each message that has arrived is in one place: the handler got it, a `Read` returned it, it is in a channel, or the
reader goroutine has it. -/
theorem C133_once_partial {cap : Nat} {s : State} (hr : Reachable cap s) (m : Nat) :
    s.arrived.count m = s.handled.count m + s.taken.count m + (queued s).count m + s.loop.msgs.count m ∧
      s.taken.count m = s.calls.count (.got m) := by
  induction hr with
  | init => exact ⟨rfl, rfl⟩
  | @step s s' a hr hs ih =>
    obtain ⟨h1, h2⟩ := ih
    cases a <;> simp only [step] at hs
    case arrive x =>
      split at hs
      · rename_i hi
        rw [hi] at h1
        split at hs <;> cases hs
        · refine ⟨?_, h2⟩
          simp only [Loop.msgs, List.count_append, List.count_nil, hi, queued] at h1 ⊢
          omega
        · refine ⟨?_, h2⟩
          simp only [Loop.msgs, List.count_append, List.count_nil, queued] at h1 ⊢
          omega
      · cases hs
    case lookup =>
      split at hs <;> cases hs
      rename_i x hx
      rw [hx] at h1
      exact ⟨h1, h2⟩
    case push =>
      split at hs
      · rename_i c x hx
        split at hs
        · cases hs
        · rename_i ch hch
          split at hs
          · cases hs
          · split at hs <;> cases hs
            refine ⟨?_, h2⟩
            have := count_set m (x := ⟨ch.queue ++ [x], ch.closed⟩) hch
            rw [hx] at h1
            simp only [Loop.msgs, List.count_append, List.count_nil, queued] at h1 this ⊢
            omega
      · cases hs
    case read => cases hs; refine ⟨h1, ?_⟩; simpa [List.count_append, List.count_cons] using h2
    case take j =>
      split at hs
      · rename_i c hc
        have hjl : j < s.calls.length := (List.getElem?_eq_some_iff.1 hc).1
        have hcj : s.calls[j] = .waiting c := (List.getElem?_eq_some_iff.1 hc).2
        split at hs
        · cases hs
        · rename_i ch hch
          split at hs
          · rename_i x q hq
            cases hs
            have := count_set m (x := ⟨q, ch.closed⟩) hch
            simp only [hq] at this
            constructor
            · simp only [List.count_append, List.count_cons, List.count_nil, queued] at h1 this ⊢
              omega
            · rw [List.count_set hjl, hcj]
              simp only [List.count_append, List.count_cons, List.count_nil]
              by_cases hxm : x = m <;> simp [hxm, h2]
          · split at hs <;> cases hs
            refine ⟨h1, ?_⟩
            rw [List.count_set hjl, hcj]
            simpa using h2
      · cases hs
    case begin => split at hs <;> cases hs <;> exact ⟨h1, h2⟩
    case register =>
      split at hs <;> cases hs
      exact ⟨by simpa [queued] using h1, h2⟩
    case cancel => cases hs; exact ⟨h1, h2⟩
    case clean =>
      split at hs
      · rename_i hi
        split at hs <;> cases hs
        rename_i ch hch
        have := count_set m (x := ⟨ch.queue, true⟩) hch
        refine ⟨?_, h2⟩
        rw [hi] at h1
        simp only [Loop.msgs, queued] at h1 this ⊢
        omega
      · cases hs

/-- The messages of a channel that is not the current one any more and that nobody waits for. -/
def Left (c : Nat) (q : List Nat) (s : State) : Prop :=
  s.cur ≠ c ∧ (∀ i : Nat, s.calls[i]? ≠ some (.waiting c)) ∧ ∃ ch rest, s.chans[c]? = some ch ∧ ch.queue = q ++ rest

theorem left_step {cap c : Nat} {q : List Nat} {s s' : State} {a : Act} (h : Left c q s) (hs : step cap s a = .ok s') : Left c q s' := by
  obtain ⟨h1, h2, ch, rest, h3, h4⟩ := h
  have hlt : c < s.chans.length := (List.getElem?_eq_some_iff.1 h3).1
  cases a <;> simp only [step] at hs
  case arrive m =>
    split at hs
    · split at hs <;> cases hs <;> exact ⟨h1, h2, ch, rest, h3, h4⟩
    · cases hs
  case lookup => split at hs <;> cases hs; exact ⟨h1, h2, ch, rest, h3, h4⟩
  case push =>
    split at hs
    · rename_i d m hl
      split at hs
      · cases hs
      · rename_i x hx
        split at hs
        · cases hs
        · split at hs <;> cases hs
          by_cases hd : d = c
          · subst hd
            rw [h3] at hx; cases hx
            exact ⟨h1, h2, ⟨ch.queue ++ [m], ch.closed⟩, rest ++ [m], by simp [hlt], by simp [h4]⟩
          · exact ⟨h1, h2, ch, rest, by simp only [List.getElem?_set_ne hd]; exact h3, h4⟩
    · cases hs
  case read =>
    cases hs
    refine ⟨h1, fun i hi => ?_, ch, rest, h3, h4⟩
    simp only [List.getElem?_append] at hi
    split at hi
    · exact h2 i hi
    · rw [List.getElem?_singleton] at hi
      split at hi
      · cases hi; exact h1 rfl
      · cases hi
  case take j =>
    split at hs
    · rename_i d hd
      have hdc : d ≠ c := fun e => h2 j (e ▸ hd)
      have hset : ∀ r : Call, (∀ e, r ≠ .waiting e) → ∀ i : Nat, (s.calls.set j r)[i]? ≠ some (.waiting c) := by
        intro r hr i hi
        rcases mem_set_cases (List.mem_of_getElem? hi) with h | h
        · obtain ⟨k, hk⟩ := List.mem_iff_getElem?.1 h
          exact h2 k hk
        · exact hr c h.symm
      split at hs
      · cases hs
      · split at hs
        · cases hs
          exact ⟨h1, hset _ (by intro e he; cases he), ch, rest, by simp only [List.getElem?_set_ne hdc]; exact h3, h4⟩
        · split at hs <;> cases hs
          exact ⟨h1, hset _ (by intro e he; cases he), ch, rest, h3, h4⟩
    · cases hs
  case begin => split at hs <;> cases hs <;> exact ⟨h1, h2, ch, rest, h3, h4⟩
  case register =>
    split at hs <;> cases hs
    exact ⟨fun h => by simp only at h; omega, h2, ch, rest, by rw [List.getElem?_append_left hlt]; exact h3, h4⟩
  case cancel => cases hs; exact ⟨h1, h2, ch, rest, h3, h4⟩
  case clean =>
    split at hs
    · split at hs <;> cases hs
      exact ⟨h1, h2, ch, rest, by simp only [List.getElem?_set_ne h1]; exact h3, h4⟩
    · cases hs

/-- C133 is violated: messages that have arrived and that no `Read` is waiting for stay in the old channel when a messenger is
registered for `MessageTypeReadWrite`. Nothing that happens later takes them out: no `Read` returns them, and no handler gets them. -/
theorem C133_violated {cap : Nat} {s s1 s2 : State} {as : List Act} (hr : Reachable cap s) {q : List Nat}
    (hw : ∀ i : Nat, s.calls[i]? ≠ some (Call.waiting s.cur)) (hq : (s.chans[s.cur]?).map Chan.queue = some q)
    (hs : step cap s .register = .ok s1) (hrun : runActs cap s1 as = .ok s2) :
    ∃ ch rest, s2.chans[s.cur]? = some ch ∧ ch.queue = q ++ rest ∧ s2.cur ≠ s.cur := by
  have h1 : Left s.cur q s1 := by
    have hlt := (inv hr).cur
    cases hch : s.chans[s.cur]? with
    | none => rw [hch] at hq; cases hq
    | some ch =>
      rw [hch] at hq
      simp only [Option.map_some, Option.some.injEq] at hq
      simp only [step] at hs
      split at hs <;> cases hs
      exact ⟨fun h => by simp only at h; omega, hw, ch, [], by rw [List.getElem?_append_left hlt]; exact hch, by simp [hq]⟩
  have h2 : Left s.cur q s2 := by
    clear hs hr hq
    induction as generalizing s1 with
    | nil => cases hrun; exact h1
    | cons a as ih =>
      unfold runActs at hrun
      split at hrun
      · rename_i s3 h3
        exact ih hrun (left_step h1 h3)
      · rename_i h3; exact absurd hrun (h3 s2)
  obtain ⟨h3, -, ch, rest, h4, h5⟩ := h2
  exact ⟨ch, rest, h4, h5, h3⟩

/-- Two messages arrive, a handler is registered, a third one arrives: the handler gets the third one only, and `Read` waits. -/
theorem C133_violated_example : ∃ s s1 s2, Reachable 1024 s ∧ s.calls = [] ∧ (s.chans[s.cur]?).map Chan.queue = some [5, 6] ∧
    step 1024 s .register = .ok s1 ∧ runActs 1024 s1 [.arrive 7, .read] = .ok s2 ∧ s2.handled = [7] ∧ s2.taken = [] ∧
    s2.calls = [.waiting 1] ∧ step 1024 s2 (.take 0) = .block :=
  ⟨_, _, _, runActs_reachable [.arrive 5, .lookup, .push, .arrive 6, .lookup, .push, .begin] .init rfl, rfl, rfl, rfl, rfl, rfl, rfl,
    rfl, rfl⟩

#print axioms C132_partial
#print axioms C132_violated
#print axioms C132_violated_example
#print axioms C132_violated_late
#print axioms C133_order_partial
#print axioms C133_once_partial
#print axioms C133_violated
#print axioms C133_violated_example

end Verif.ReadChan
