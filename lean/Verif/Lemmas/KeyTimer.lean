import Verif.Spec.KeyTimer
/-!
# Lemmas about the clock of key updates
-/
namespace Verif.KeyTimer

/-- The longest that a key made at `m` may last. -/
def lim (c : Cfg) (m : Nat) : Nat :=
  m + (if m = 0 then c.interval + max c.interval c.timeout else max c.interval c.timeout)

/-- Invariant of open exchangers. -/
structure Inv (c : Cfg) (s : St) : Prop where
  stamps : s.created ≤ s.next
  noKey : s.hasKey = false → s.next = 0 ∧ s.created = 0
  note : ∀ v, s.notify = some v → v ≤ s.created
  ansKey : .skip ∈ s.answers → s.hasKey = true
  late : 0 < s.now → s.hasKey = true ∧ ∀ a ∈ s.answers, a = .start ∨ a = .send
  skip : s.skipUntil ≤ c.interval
  skipKey : 0 < s.skipUntil → s.hasKey = true
  mainKey : s.main = .send ∨ s.main = .waiting ∨ s.main = .idle → s.hasKey = true
  tick : ∀ t, s.tickAt = some t → s.now < t ∧ t ≤ s.now + c.interval ∧ c.interval ≤ t
  pend : s.pending = true ∨ s.main = .start ∧ s.tickAt ≠ none → c.interval ≤ s.now ∧ s.tickAt ≠ none
  pendMain : s.main = .start ∨ s.main = .gen ∨ s.main = .send → s.pending = false
  made : s.madeAt ≤ s.now
  first : s.tickAt = none → s.madeAt = 0 ∧ s.main ≠ .idle ∧ (s.main ≠ .waiting → s.now = 0) ∧ (s.main = .waiting → s.giveUpAt = c.timeout)
  wait : s.main = .waiting → s.now ≤ s.giveUpAt ∧ s.giveUpAt ≤ s.now + c.timeout
  await : s.main = .send ∨ s.main = .waiting → 0 < s.now → ∀ v, s.notify = some v → s.awaited ≤ v → s.created = s.next
  busy : s.main = .idle ∨ s.main = .start ∨ s.main = .gen → s.created < s.next →
    s.madeAt = 0 ∧ (s.main ≠ .idle ∨ s.pending = true → s.now ≤ c.interval) ∧
      (s.main = .idle → s.pending = false → ∀ t, s.tickAt = some t → t ≤ c.interval)
  life : s.now ≤ lim c s.madeAt
  lifeIdle : s.main = .idle → s.pending = false → ∀ t, s.tickAt = some t → t ≤ lim c s.madeAt
  lifeSend : s.main = .send → s.now + c.timeout ≤ lim c s.madeAt ∧ ∀ t, s.tickAt = some t → t ≤ lim c s.madeAt
  lifeWait : s.main = .waiting → s.giveUpAt ≤ lim c s.madeAt ∧ ∀ t, s.pending = false → s.tickAt = some t → t ≤ lim c s.madeAt

theorem init_inv (c : Cfg) : Inv c .init := by
  constructor <;> simp [St.init, lim]

theorem lim_le {c : Cfg} {m : Nat} : m + c.interval ≤ lim c m ∧ m + c.timeout ≤ lim c m := by
  unfold lim; split <;> omega

theorem lim_zero {c : Cfg} : 2 * c.interval ≤ lim c 0 ∧ c.interval + c.timeout ≤ lim c 0 := by
  simp only [lim, if_true]; omega

theorem pass_inv {c : Cfg} {s : St} (hi : 0 < c.interval) (h : Inv c s) (hc : s.closed = false) (hq0 : Quiet s) : Inv c (s.pass c) := by
  have hq : s.answers = [] ∧
    (s.main = .waiting ∧ s.notify = none ∧ s.now < s.giveUpAt ∨ s.main = .idle ∧ s.pending = false) := by
    rcases hq0 with hq | hq
    · simp [hc] at hq
    · exact hq
  clear hq0
  obtain ⟨ha, hq⟩ := hq
  have hk : s.hasKey = true := h.mainKey (by rcases hq with hq | hq <;> simp [hq.1])
  obtain ⟨h1, h2, h3, h4, h5, h6, h7, h8, h9, h10, h11, h12, h13, h14, h15, h16, h17, h18, h19, h20⟩ := h
  unfold St.pass
  split
  · rename_i t ht
    have := h9 t ht
    split
    · have ht1 : t = s.now + 1 := by omega
      constructor <;> grind
    · constructor <;> grind
  · rename_i ht
    constructor <;> grind

theorem take_inv {c : Cfg} {s : St} (hi : 0 < c.interval) (h : Inv c s) (hm : s.main = .waiting) : Inv c (s.take c) := by
  have hl := @lim_le c s.madeAt
  have hl0 := @lim_zero c
  obtain ⟨h1, h2, h3, h4, h5, h6, h7, h8, h9, h10, h11, h12, h13, h14, h15, h16, h17, h18, h19, h20⟩ := h
  unfold St.take
  split
  · rename_i v hv
    split
    · unfold St.toIdle
      cases ht : s.tickAt with
      | none => constructor <;> grind
      | some t => constructor <;> grind
    · constructor <;> grind
  · exact ⟨h1, h2, h3, h4, h5, h6, h7, h8, h9, h10, h11, h12, h13, h14, h15, h16, h17, h18, h19, h20⟩

theorem loop_inv {c : Cfg} {s s' : St} {k : Nat} (hi : 0 < c.interval) (h : Inv c s) (hs : s.loop c k = some s') : Inv c s' := by
  have hl := @lim_le c s.madeAt
  have hl0 := @lim_zero c
  have hln := @lim_le c s.now
  obtain ⟨h1, h2, h3, h4, h5, h6, h7, h8, h9, h10, h11, h12, h13, h14, h15, h16, h17, h18, h19, h20⟩ := h
  unfold St.loop at hs
  split at hs
  · rename_i hm
    cases hs
    split
    · unfold St.toIdle
      cases ht : s.tickAt with
      | none => constructor <;> grind
      | some t => constructor <;> grind
    · constructor <;> grind
  · rename_i hm
    cases hs
    unfold St.updateLocalKey St.newKey
    split
    · constructor <;> grind
    · constructor <;> grind
  · rename_i hm
    cases hs
    constructor <;> grind
  · simp at hs
  · rename_i hm
    split at hs
    · cases hs
      constructor <;> grind
    · simp at hs

theorem handle_inv {c : Cfg} {s : St} {m : Bool} (h : Inv c s) : Inv c (s.handle c m) := by
  obtain ⟨h1, h2, h3, h4, h5, h6, h7, h8, h9, h10, h11, h12, h13, h14, h15, h16, h17, h18, h19, h20⟩ := h
  have hv : s.notify.getD s.next ≤ s.next := by
    cases hn : s.notify with
    | none => simp
    | some v => have := h3 v hn; simp; omega
  unfold St.handle
  cases m <;> simp only [Bool.false_or, Bool.true_or, Bool.not_false, Bool.not_true, Bool.false_and, Bool.true_and, if_true]
  · split <;> split <;> constructor <;> grind
  · constructor <;> grind

theorem answer_inv {c : Cfg} {s s' : St} {i k : Nat} (h : Inv c s) (hs : s.answer c i k = some s') : Inv c s' := by
  have hmem : ∀ a, s.answers[i]? = some a → a ∈ s.answers := fun a ha => List.mem_of_getElem? ha
  obtain ⟨h1, h2, h3, h4, h5, h6, h7, h8, h9, h10, h11, h12, h13, h14, h15, h16, h17, h18, h19, h20⟩ := h
  have hset : ∀ a b, a ∈ s.answers.set i b → a ∈ s.answers ∨ a = b := fun a b h => List.mem_or_eq_of_mem_set h
  have he : ∀ a, a ∈ s.answers.eraseIdx i → a ∈ s.answers := fun a h => List.mem_of_mem_eraseIdx h
  have hz : ∀ a, s.answers[i]? = some a → a ≠ .start → a ≠ .send → s.now = 0 := by
    intro a ha h1 h2
    rcases Nat.eq_zero_or_pos s.now with h | h
    · exact h
    · rcases (h5 h).2 a (hmem a ha) with h | h <;> contradiction
  unfold St.answer at hs
  split at hs
  · simp at hs
  · rename_i ha
    cases hs
    constructor <;> grind
  · rename_i ha
    have := hz _ ha (by simp) (by simp)
    cases hs
    constructor <;> grind
  · rename_i ha
    have := hz _ ha (by simp) (by simp)
    have : s.madeAt = s.now := by omega
    cases hs
    unfold St.newKey
    constructor <;> grind
  · rename_i ha
    have := hz _ ha (by simp) (by simp)
    cases hs
    constructor <;> grind
  · rename_i ha
    cases hs
    constructor <;> grind

/-- An open exchanger satisfies the invariant. -/
def Good (c : Cfg) (s : St) : Prop := s.closed = false → Inv c s

theorem Inv.paused {c : Cfg} {s : St} {b : Bool} (h : Inv c s) : Inv c { s with paused := b } := by
  obtain ⟨h1, h2, h3, h4, h5, h6, h7, h8, h9, h10, h11, h12, h13, h14, h15, h16, h17, h18, h19, h20⟩ := h
  exact ⟨h1, h2, h3, h4, h5, h6, h7, h8, h9, h10, h11, h12, h13, h14, h15, h16, h17, h18, h19, h20⟩

theorem step_good {c : Cfg} {s s' : St} {a : Act} (hi : 0 < c.interval) (h : Good c s) (hq : a = .pass → Quiet s)
    (hs : step c s a = some s') : Good c s' := by
  intro hc'
  unfold step at hs
  split at hs
  · rename_i hc
    split at hs
    · cases hs
      simp_all
    · simp at hs
  rename_i hc
  have hc : s.closed = false := by simpa using hc
  have h := h hc
  cases a <;> simp only [stepOpen] at hs
  · cases hs
    exact pass_inv hi h hc (hq rfl)
  · exact loop_inv hi h hs
  · split at hs
    · rename_i hm
      cases hs
      exact take_inv hi h hm
    · simp at hs
  · split at hs
    · rename_i hm
      cases hs
      exact take_inv hi h hm.1
    · simp at hs
  · split at hs
    · rename_i hm
      cases hs
      split at hc' <;> split
      · exact take_inv hi h hm.1
      · contradiction
      · contradiction
      · simp [St.giveUp] at hc'
    · simp at hs
  · split at hs
    · simp at hs
    · cases hs
      exact handle_inv h
  · exact answer_inv h hs
  · split at hs
    · cases hs
      simp [St.giveUp] at hc'
    · simp at hs
  · split at hs
    · cases hs
      exact h.paused
    · simp at hs
  · split at hs
    · cases hs
      exact h.paused
    · simp at hs
  · cases hs
    simp at hc'

theorem path_good {c : Cfg} {p : Act → Bool} {s s' : St} (hi : 0 < c.interval) (h : Good c s) (hp : Path c p s s') : Good c s' := by
  induction hp with
  | refl => exact h
  | step a _ hq _ hs ih => exact step_good hi ih hq hs

theorem init_good (c : Cfg) : Good c .init := fun _ => init_inv c

theorem reach_inv {c : Cfg} {p : Act → Bool} {s : St} (hi : 0 < c.interval) (hp : Path c p .init s) (hc : s.closed = false) : Inv c s :=
  path_good hi (init_good c) hp hc

/-! ## Silence -/

/-- Nothing that completes an exchange has arrived since `p`. -/
structure Since (c : Cfg) (p : Nat) (s : St) : Prop where
  le : p ≤ s.now
  soon : s.main = .start ∨ s.main = .gen ∨ s.main = .send → s.now ≤ p + c.interval
  wait : s.main = .waiting → s.giveUpAt ≤ p + c.interval + c.timeout
  note : s.main = .send ∨ s.main = .waiting → ∀ v, s.notify = some v → s.awaited ≤ v → s.now = p
  tick : s.main = .idle → s.pending = false → ∀ t, s.tickAt = some t → t ≤ p + c.interval
  pend : s.main = .idle → s.pending = true → s.now ≤ p + c.interval

theorem Inv.since {c : Cfg} {s : St} (h : Inv c s) : Since c s.now s := by
  have hw := h.wait
  have ht := h.tick
  constructor <;> grind

theorem take_since {c : Cfg} {s : St} {p : Nat} (h : Inv c s) (hm : s.main = .waiting) (hn : Since c p s) : Since c p (s.take c) := by
  have hw := h.wait
  have ht := h.tick
  obtain ⟨n1, n2, n3, n4, n5, n6⟩ := hn
  unfold St.take
  split
  · split
    · unfold St.toIdle
      cases htk : s.tickAt with
      | none => constructor <;> grind
      | some t => constructor <;> grind
    · constructor <;> grind
  · exact ⟨n1, n2, n3, n4, n5, n6⟩

theorem stepOpen_since {c : Cfg} {s s' : St} {a : Act} {p : Nat} (h : Inv c s) (hc : s.closed = false)
    (hq : a = .pass → Quiet s) (hp : silent c a = true) (hn : Since c p s) (hs : stepOpen c s a = some s') : Since c p s' := by
  have h1 := h.stamps
  have h3 := h.note
  have hw := h.wait
  have ht := h.tick
  have hsk := h.skip
  have hpe := h.pend
  have hf := h.first
  cases a <;> simp only [stepOpen] at hs
  · have hq := hq rfl
    have hq : s.answers = [] ∧
      (s.main = .waiting ∧ s.notify = none ∧ s.now < s.giveUpAt ∨ s.main = .idle ∧ s.pending = false) := by
      rcases hq with hq | hq
      · simp [hc] at hq
      · exact hq
    obtain ⟨n1, n2, n3, n4, n5, n6⟩ := hn
    cases hs
    unfold St.pass
    split
    · split <;> constructor <;> grind
    · constructor <;> grind
  · obtain ⟨n1, n2, n3, n4, n5, n6⟩ := hn
    unfold St.loop at hs
    split at hs
    · cases hs
      split
      · unfold St.toIdle
        cases ht : s.tickAt with
        | none => constructor <;> grind
        | some t => constructor <;> grind
      · constructor <;> grind
    · cases hs
      unfold St.updateLocalKey St.newKey
      split
      · constructor <;> grind
      · constructor <;> grind
    · cases hs
      constructor <;> grind
    · simp at hs
    · split at hs
      · cases hs
        constructor <;> grind
      · simp at hs
  · split at hs
    · rename_i hm
      cases hs
      exact take_since h hm hn
    · simp at hs
  · split at hs
    · rename_i hm
      cases hs
      exact take_since h hm.1 hn
    · simp at hs
  · split at hs
    · rename_i hm
      have := take_since h hm.1 hn
      cases hs
      split
      · exact this
      · obtain ⟨n1, n2, n3, n4, n5, n6⟩ := this
        exact ⟨n1, n2, n3, n4, n5, n6⟩
    · simp at hs
  · rename_i m
    split at hs
    · simp at hs
    · cases hs
      cases m <;> simp [silent] at hp
      unfold St.handle
      simp only [hp]
      obtain ⟨n1, n2, n3, n4, n5, n6⟩ := hn
      exact ⟨n1, n2, n3, n4, n5, n6⟩
  · obtain ⟨n1, n2, n3, n4, n5, n6⟩ := hn
    unfold St.answer at hs
    split at hs <;> simp at hs <;> cases hs <;> exact ⟨n1, n2, n3, n4, n5, n6⟩
  · obtain ⟨n1, n2, n3, n4, n5, n6⟩ := hn
    split at hs <;> simp at hs <;> cases hs <;> exact ⟨n1, n2, n3, n4, n5, n6⟩
  · obtain ⟨n1, n2, n3, n4, n5, n6⟩ := hn
    split at hs <;> simp at hs <;> cases hs <;> exact ⟨n1, n2, n3, n4, n5, n6⟩
  · obtain ⟨n1, n2, n3, n4, n5, n6⟩ := hn
    split at hs <;> simp at hs <;> cases hs <;> exact ⟨n1, n2, n3, n4, n5, n6⟩
  · obtain ⟨n1, n2, n3, n4, n5, n6⟩ := hn
    cases hs <;> exact ⟨n1, n2, n3, n4, n5, n6⟩

/-- A step to an open exchanger is a step of an open exchanger. -/
theorem step_open {c : Cfg} {s s' : St} {a : Act} (hs : step c s a = some s') (hc : s'.closed = false) :
    s.closed = false ∧ stepOpen c s a = some s' := by
  unfold step at hs
  split at hs
  · rename_i hc0
    split at hs
    · cases hs
      simp_all
    · simp at hs
  · rename_i hc0
    exact ⟨by simpa using hc0, hs⟩

theorem path_since {c : Cfg} {p : Act → Bool} {s s' : St} (hi : 0 < c.interval) (hg : Good c s) (hsil : ∀ a, p a = true → silent c a = true)
    (hp : Path c p s s') : s'.closed = false → Since c s.now s' := by
  induction hp with
  | refl => exact fun hc => (hg hc).since
  | step a hp1 hq ha hs ih =>
    intro hc
    obtain ⟨hc1, hs⟩ := step_open hs hc
    exact stepOpen_since (path_good hi hg hp1 hc1) hc1 hq (hsil a ha) (ih hc1) hs

theorem Since.now_le {c : Cfg} {s : St} {p : Nat} (h : Inv c s) (hn : Since c p s) : s.now ≤ p + c.interval + c.timeout := by
  obtain ⟨n1, n2, n3, n4, n5, n6⟩ := hn
  have hw := h.wait
  have ht := h.tick
  have hf := h.first
  cases hm : s.main
  · have := n2 (by simp [hm]); omega
  · have := n2 (by simp [hm]); omega
  · have := n2 (by simp [hm]); omega
  · have := n3 hm; have := hw hm; omega
  · cases hp : s.pending with
    | true => have := n6 hm hp; omega
    | false =>
      cases htk : s.tickAt with
      | none => exact absurd hm (hf htk).2.1
      | some t => have := n5 hm hp t htk; have := ht t htk; omega

theorem path_reported {c : Cfg} {p : Act → Bool} {s s' : St} (hno : ∀ a, p a = true → noClose a = true) (h : s.closed = true → s.reported = true)
    (hp : Path c p s s') : s'.closed = true → s'.reported = true := by
  induction hp with
  | refl => exact h
  | @step s1 s2 a hp1 hq ha hs ih =>
    intro hc
    have hn := hno a ha
    unfold step at hs
    split at hs
    · rename_i hc0
      split at hs
      · cases hs
        exact ih hc0
      · simp at hs
    rename_i hc0
    cases a <;> simp only [stepOpen] at hs
    · cases hs
      unfold St.pass at hc ⊢
      split at hc
      · split at hc <;> simp_all
      · simp_all
    · unfold St.loop at hs
      split at hs
      · cases hs
        split at hc <;> simp_all [St.toIdle]
      · cases hs
        unfold St.updateLocalKey St.newKey at hc
        split at hc <;> simp_all
      · cases hs; simp_all
      · simp at hs
      · split at hs
        · cases hs; simp_all
        · simp at hs
    · split at hs
      · cases hs
        unfold St.take St.toIdle at hc
        split at hc <;> (try split at hc) <;> simp_all
      · simp at hs
    · split at hs
      · cases hs
        unfold St.take St.toIdle at hc
        split at hc <;> (try split at hc) <;> simp_all
      · simp at hs
    · split at hs
      · cases hs
        split
        · rename_i hm
          rw [if_pos hm] at hc
          unfold St.take St.toIdle at hc
          split at hc <;> (try split at hc) <;> simp_all
        · rfl
      · simp at hs
    · split at hs
      · simp at hs
      · cases hs
        unfold St.handle at hc
        simp only at hc
        split at hc <;> split at hc <;> simp_all
    · unfold St.answer at hs
      split at hs <;> simp at hs <;> cases hs <;> simp_all [St.newKey]
    · simp [noClose] at hn
    · split at hs <;> simp at hs <;> cases hs <;> simp_all
    · split at hs <;> simp at hs <;> cases hs <;> simp_all
    · simp [noClose] at hn

/-! ## Before the next update -/

/-- The loop waits for the tick at `t`, or has begun the update since. -/
structure Before (c : Cfg) (t : Nat) (s : St) : Prop where
  idle : s.now < t → s.main = .idle ∧ s.pending = false ∧ s.tickAt = some t
  wait : s.main = .waiting → t + c.timeout ≤ s.giveUpAt

theorem take_before {c : Cfg} {s : St} {t : Nat} (hm : s.main = .waiting) (hb : Before c t s) : Before c t (s.take c) := by
  obtain ⟨b1, b2⟩ := hb
  unfold St.take St.toIdle
  split
  · split <;> constructor <;> grind
  · exact ⟨b1, b2⟩

theorem path_before {c : Cfg} {p : Act → Bool} {s s' : St} {t : Nat} (hno : ∀ a, p a = true → noClose a = true)
    (hb : Before c t s ∧ s.closed = false) (hp : Path c p s s') :
    Before c t s' ∧ s'.closed = false ∨ s'.closed = true ∧ t + c.timeout ≤ s'.now := by
  induction hp with
  | refl => exact Or.inl hb
  | @step s1 s2 a hp1 hq ha hs ih =>
    have hn := hno a ha
    unfold step at hs
    split at hs
    · rename_i hc0
      split at hs
      · cases hs
        rcases ih with ih | ih
        · simp [ih.2] at hc0
        · exact Or.inr ⟨hc0, by simp only; omega⟩
      · simp at hs
    rename_i hc0
    rcases ih with ⟨hb1, hc1⟩ | ih
    case inr => exact absurd ih.1 hc0
    have hbb := hb1
    obtain ⟨b1, b2⟩ := hb1
    cases a <;> simp only [stepOpen] at hs
    · left
      cases hs
      unfold St.pass
      split
      · split <;> exact ⟨by constructor <;> grind, hc1⟩
      · exact ⟨by constructor <;> grind, hc1⟩
    · left
      unfold St.loop St.toIdle St.updateLocalKey St.newKey at hs
      split at hs
      · cases hs
        split <;> exact ⟨by constructor <;> grind, hc1⟩
      · cases hs
        refine ⟨by split <;> constructor <;> grind, by split <;> exact hc1⟩
      · cases hs
        exact ⟨by constructor <;> grind, hc1⟩
      · simp at hs
      · split at hs
        · cases hs; exact ⟨by constructor <;> grind, hc1⟩
        · simp at hs
    · left
      split at hs
      · rename_i hm
        cases hs
        exact ⟨take_before hm hbb, by unfold St.take St.toIdle; split <;> (try split) <;> exact hc1⟩
      · simp at hs
    · left
      split at hs
      · rename_i hm
        cases hs
        exact ⟨take_before hm.1 hbb, by unfold St.take St.toIdle; split <;> (try split) <;> exact hc1⟩
      · simp at hs
    · split at hs
      · rename_i hm
        cases hs
        split
        · left
          exact ⟨take_before hm.1 hbb, by unfold St.take St.toIdle; split <;> (try split) <;> exact hc1⟩
        · right
          refine ⟨rfl, ?_⟩
          have := b2 hm.1
          have : (s1.take c).now = s1.now := by unfold St.take St.toIdle; split <;> (try split) <;> rfl
          simp only [St.giveUp, this]
          omega
      · simp at hs
    · left
      split at hs
      · simp at hs
      · cases hs
        unfold St.handle
        simp only
        split <;> split <;> exact ⟨⟨b1, b2⟩, hc1⟩
    · left
      unfold St.answer at hs
      split at hs <;> simp at hs <;> cases hs <;> exact ⟨⟨b1, b2⟩, hc1⟩
    · simp [noClose] at hn
    · left
      split at hs <;> simp at hs <;> cases hs <;> exact ⟨⟨b1, b2⟩, hc1⟩
    · left
      split at hs <;> simp at hs <;> cases hs <;> exact ⟨⟨b1, b2⟩, hc1⟩
    · simp [noClose] at hn

/-- While a session stays paused, nothing arrives. -/
theorem path_paused {c : Cfg} {p : Act → Bool} {s s' : St} (hno : ∀ a, p a = true → noResume a = true) (hpa : s.paused = true)
    (hp : Path c p s s') : s'.paused = true ∧ Path c (fun a => p a && silent c a) s s' := by
  induction hp with
  | refl => exact ⟨hpa, .refl _⟩
  | @step s1 s2 a hp1 hq ha hs ih =>
    obtain ⟨i1, i2⟩ := ih
    have hn := hno a ha
    have key : s2.paused = true ∧ silent c a = true := by
      unfold step at hs
      split at hs
      · split at hs
        · rename_i hap
          subst hap
          cases hs
          exact ⟨i1, rfl⟩
        · simp at hs
      cases a <;> simp only [stepOpen] at hs
      · cases hs
        unfold St.pass
        refine ⟨?_, rfl⟩
        split
        · split <;> exact i1
        · exact i1
      · refine ⟨?_, rfl⟩
        unfold St.loop St.toIdle St.updateLocalKey St.newKey at hs
        split at hs
        · cases hs
          split <;> exact i1
        · cases hs
          split <;> exact i1
        · cases hs
          exact i1
        · simp at hs
        · split at hs
          · cases hs; exact i1
          · simp at hs
      · refine ⟨?_, rfl⟩
        split at hs
        · cases hs
          unfold St.take St.toIdle; split <;> (try split) <;> exact i1
        · simp at hs
      · refine ⟨?_, rfl⟩
        split at hs
        · cases hs
          unfold St.take St.toIdle; split <;> (try split) <;> exact i1
        · simp at hs
      · refine ⟨?_, rfl⟩
        split at hs
        · cases hs
          have : (s1.take c).paused = true := by unfold St.take St.toIdle; split <;> (try split) <;> exact i1
          split
          · exact this
          · exact this
        · simp at hs
      · simp [i1] at hs
      · refine ⟨?_, rfl⟩
        unfold St.answer at hs
        split at hs <;> simp at hs <;> cases hs <;> exact i1
      · refine ⟨?_, rfl⟩
        split at hs <;> simp at hs <;> cases hs <;> exact i1
      · simp [i1] at hs
      · simp [noResume] at hn
      · cases hs
        exact ⟨i1, rfl⟩
    exact ⟨key.1, .step a i2 hq (by simp [ha, key.2]) hs⟩

theorem path_cons {c : Cfg} {p : Act → Bool} {s s1 s2 : St} {a : Act} (hq : a = .pass → Quiet s) (ha : p a = true)
    (hs : step c s a = some s1) (h : Path c p s1 s2) : Path c p s s2 := by
  induction h with
  | refl => exact .step a (.refl _) hq ha hs
  | step b _ hq' hb hs' ih => exact .step b ih hq' hb hs'

theorem prompt_path {c : Cfg} {p : Act → Bool} {l : List Act} {s s' : St} (h : prompt c p s l = some s') : Path c p s s' := by
  induction l generalizing s with
  | nil => cases h; exact .refl _
  | cons a l ih =>
    unfold prompt at h
    split at h
    · rename_i hc
      cases hs : step c s a with
      | none => simp [hs] at h
      | some s1 => simp only [hs, Option.bind_some] at h; exact path_cons hc.1 hc.2 hs (ih h)
    · simp at h

end Verif.KeyTimer
