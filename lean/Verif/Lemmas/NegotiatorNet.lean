import Verif.Lemmas.NegotiatorRange
/-!
# Two connected sides of the negotiation
-/
namespace Verif.Negotiator

variable {cfg ca cb : Cfg} {t ta tb : Int}

/-- What a step can do to the history and the results. -/
structure Effect (s s' : State) (a : Act) : Prop where
  keep : ∀ m ∈ s.out, m ∈ s'.out
  pongs : ∀ sz it, Msg.pong sz it ∈ s'.out → .pong sz it ∈ s.out ∨ ∃ w, a = .deliver (.ping sz it) w
  controls : ∀ c e, Msg.control c e ∈ s'.out → .control c e ∈ s.out ∨ c = s.localRTT
  mono : s.localRTT ≤ s'.localRTT
  loc : s'.localRTT = s.localRTT ∨ ∃ it w, a = .deliver (.pong s'.localRTT it) w
  rem : s'.remoteRTT = s.remoteRTT ∨ ∃ e w, a = .deliver (.control s'.remoteRTT e) w
  est : s'.est = s.est ∨ s'.est = some (if s.remoteRTT < s.localRTT then s.remoteRTT else s.localRTT)

theorem effect_same {s s' : State} {a : Act} (h1 : s'.out = s.out) (h2 : s'.localRTT = s.localRTT)
    (h3 : s'.remoteRTT = s.remoteRTT) (h4 : s'.est = s.est) : Effect s s' a := by
  constructor <;> simp_all

theorem mem_sent_pong {w : Write} {p c sz it : Nat} (l : List Msg) (h : .pong sz it ∈ l ++ sent w (.pong p c)) :
    .pong sz it ∈ l ∨ (sz = p ∧ it = c) := by
  simp only [sent] at h
  split at h
  · simp only [List.mem_append, List.mem_singleton, Msg.pong.injEq] at h
    exact h
  · simp only [List.append_nil] at h; exact Or.inl h

theorem effect_step {s s' : State} {a : Act} (hs : step cfg s a = .ok s') : Effect s s' a := by
  cases a with
  | start en =>
    simp only [step, start] at hs
    (repeat' split at hs) <;> (try (simp at hs; done)) <;> simp only [Outcome.ok.injEq] at hs <;> subst hs <;>
      exact effect_same rfl rfl rfl rfl
  | pinger e =>
    simp only [step, pingerStep] at hs
    (repeat' split at hs) <;> (try (simp at hs; done)) <;> simp only [Outcome.ok.injEq] at hs <;> subst hs <;>
      first
      | exact effect_same rfl rfl rfl rfl
      | (constructor <;> grind [sent])
  | fin e =>
    simp only [step, finStep] at hs
    (repeat' split at hs) <;> (try (simp at hs; done)) <;> simp only [Outcome.ok.injEq] at hs <;> subst hs <;>
      first
      | exact effect_same rfl rfl rfl rfl
      | (constructor <;> grind)
  | deliver m w =>
    simp only [step, deliver] at hs
    (repeat' split at hs) <;> (try (simp at hs; done)) <;> simp only [Outcome.ok.injEq] at hs <;> subst hs <;>
      first
      | exact effect_same rfl rfl rfl rfl
      | (constructor <;>
          first
          | grind [sent]
          | (intro sz it hm
             rcases mem_sent_pong _ hm with hm | ⟨rfl, rfl⟩
             · exact Or.inl hm
             · exact Or.inr ⟨_, rfl⟩))
  | reader w =>
    simp only [step, readerStep] at hs
    (repeat' split at hs) <;> (try (simp at hs; done)) <;> simp only [Outcome.ok.injEq] at hs <;> subst hs <;>
      first
      | exact effect_same rfl rfl rfl rfl
      | (constructor <;> grind [sent])
  | closeCall =>
    simp only [step] at hs
    (repeat' split at hs) <;> simp only [Outcome.ok.injEq] at hs <;> subst hs <;>
      exact effect_same rfl rfl rfl rfl
  | closer =>
    simp only [step, closerStep] at hs
    split at hs <;> try (simp only [reduceCtorEq] at hs; done)
    · split at hs <;> try (simp only [reduceCtorEq] at hs; done)
      split at hs <;> try (simp only [reduceCtorEq] at hs; done)
      · simp only [Outcome.ok.injEq] at hs; subst hs; exact effect_same rfl rfl rfl rfl
      · split at hs <;> try (simp only [reduceCtorEq] at hs; done)
        simp only [Outcome.ok.injEq] at hs; subst hs; exact effect_same rfl rfl rfl rfl
    · simp only [Outcome.ok.injEq] at hs; subst hs; exact effect_same rfl rfl rfl rfl
  | cancel =>
    simp only [step, Outcome.ok.injEq] at hs
    subst hs
    exact effect_same rfl rfl rfl rfl

/-- What side `s` knows about the other side `o`. -/
structure Cross (s o : State) : Prop where
  pongs : ∀ sz it, Msg.pong sz it ∈ o.out → .ping sz it ∈ s.out
  claims : ∀ c e, Msg.control c e ∈ o.out → c ≤ o.localRTT
  trip : s.localRTT = 0 ∨ ∃ it, Msg.ping s.localRTT it ∈ s.out ∧ .pong s.localRTT it ∈ o.out
  remote : s.remoteRTT ≤ o.localRTT
  est : ∀ e, s.est = some e → e ≤ s.localRTT ∧ e ≤ o.localRTT

theorem cross_init : Cross (State.init ta) (State.init tb) := by
  constructor <;> simp [State.init]

/-- A step of the side itself. -/
theorem cross_own {s s' o : State} {a : Act} (h : Cross s o) (he : Effect s s' a) (ha : allowed o.out a) : Cross s' o := by
  obtain ⟨h1, h2, h3, h4, h5⟩ := h
  obtain ⟨e1, e2, e3, e4, e5, e6, e7⟩ := he
  constructor
  · intro sz it hm; exact e1 _ (h1 sz it hm)
  · exact h2
  · rcases e5 with e5 | ⟨it, w, e5⟩
    · rw [e5]
      rcases h3 with h3 | ⟨it, h3, h3'⟩
      · exact Or.inl h3
      · exact Or.inr ⟨it, e1 _ h3, h3'⟩
    · rw [e5] at ha
      exact Or.inr ⟨it, e1 _ (h1 _ _ ha), ha⟩
  · rcases e6 with e6 | ⟨e, w, e6⟩
    · rw [e6]; exact h4
    · rw [e6] at ha
      exact h2 _ _ ha
  · intro e hest
    rcases e7 with e7 | e7
    · rw [e7] at hest
      obtain ⟨x, y⟩ := h5 e hest
      exact ⟨by omega, y⟩
    · rw [e7] at hest
      simp only [Option.some.injEq] at hest
      split at hest <;> omega

/-- A step of the other side. -/
theorem cross_other {s o o' : State} {a : Act} (h : Cross s o) (he : Effect o o' a) (ha : allowed s.out a) : Cross s o' := by
  obtain ⟨h1, h2, h3, h4, h5⟩ := h
  obtain ⟨e1, e2, e3, e4, e5, e6, e7⟩ := he
  constructor
  · intro sz it hm
    rcases e2 sz it hm with hm | ⟨w, hw⟩
    · exact h1 sz it hm
    · rw [hw] at ha
      exact ha
  · intro c e hm
    rcases e3 c e hm with hm | rfl
    · exact Nat.le_trans (h2 c e hm) e4
    · exact e4
  · rcases h3 with h3 | ⟨it, h3, h3'⟩
    · exact Or.inl h3
    · exact Or.inr ⟨it, h3, e1 _ h3'⟩
  · omega
  · intro e hest
    obtain ⟨x, y⟩ := h5 e hest
    exact ⟨x, by omega⟩

theorem netStep_cases {n n' : Net} {who : Bool} {act : Act} (h : netStep ca cb n who act = .ok n') :
    (who = true ∧ allowed n.b.out act ∧ step ca n.a act = .ok n'.a ∧ n'.b = n.b) ∨
    (who = false ∧ allowed n.a.out act ∧ step cb n.b act = .ok n'.b ∧ n'.a = n.a) := by
  simp only [netStep] at h
  split at h
  · rename_i hw
    split at h <;> try (simp only [reduceCtorEq] at h; done)
    rename_i hal
    split at h <;> try (simp only [reduceCtorEq] at h; done)
    rename_i s hs
    simp only [Outcome.ok.injEq] at h
    subst h
    exact Or.inl ⟨hw, hal, hs, rfl⟩
  · rename_i hw
    split at h <;> try (simp only [reduceCtorEq] at h; done)
    rename_i hal
    split at h <;> try (simp only [reduceCtorEq] at h; done)
    rename_i s hs
    simp only [Outcome.ok.injEq] at h
    subst h
    exact Or.inr ⟨by simpa using hw, hal, hs, rfl⟩

/-- Each side of a connected pair is a side. -/
theorem net_sides {n : Net} (h : NetReachable ca cb ta tb n) : Reachable ca ta n.a ∧ Reachable cb tb n.b := by
  induction h with
  | init => exact ⟨.init, .init⟩
  | step who act _ hs ih =>
    rcases netStep_cases hs with ⟨_, _, hs, he⟩ | ⟨_, _, hs, he⟩
    · exact ⟨.step act ih.1 hs, by rw [he]; exact ih.2⟩
    · exact ⟨by rw [he]; exact ih.1, .step act ih.2 hs⟩

theorem net_cross {n : Net} (h : NetReachable ca cb ta tb n) : Cross n.a n.b ∧ Cross n.b n.a := by
  induction h with
  | init => exact ⟨cross_init, cross_init⟩
  | step who act _ hs ih =>
    rcases netStep_cases hs with ⟨_, hal, hs, he⟩ | ⟨_, hal, hs, he⟩
    · rw [he]
      exact ⟨cross_own ih.1 (effect_step hs) hal, cross_other ih.2 (effect_step hs) hal⟩
    · rw [he]
      exact ⟨cross_other ih.1 (effect_step hs) hal, cross_own ih.2 (effect_step hs) hal⟩

theorem answers_of_cross {s o : State} {a : Act} (h : Cross s o) (ha : allowed o.out a) : Answers s a := by
  intro sz it w he
  subst he
  exact h.pongs sz it ha

theorem net_range {n : Net} (hca : ca.Sane) (hcb : cb.Sane) (h : NetReachable ca cb ta tb n) :
    Range ca n.a ∧ Range cb n.b := by
  induction h with
  | init => exact ⟨range_init, range_init⟩
  | step who act hr hs ih =>
    have hc := net_cross hr
    have hi := net_sides hr
    rcases netStep_cases hs with ⟨_, hal, hs, he⟩ | ⟨_, hal, hs, he⟩
    · exact ⟨range_step hca (inv_reachable hi.1) ih.1 (answers_of_cross hc.1 hal) hs, by rw [he]; exact ih.2⟩
    · exact ⟨by rw [he]; exact ih.1, range_step hcb (inv_reachable hi.2) ih.2 (answers_of_cross hc.2 hal) hs⟩

theorem runNet_reachable : ∀ (as : List (Bool × Act)) {n n' : Net}, NetReachable ca cb ta tb n →
    runNet ca cb n as = .ok n' → NetReachable ca cb ta tb n' := by
  intro as
  induction as with
  | nil => intro n n' h hs; simp only [runNet, Outcome.ok.injEq] at hs; subst hs; exact h
  | cons x as ih =>
    intro n n' h hs
    obtain ⟨who, act⟩ := x
    simp only [runNet] at hs
    split at hs <;> try (simp only [reduceCtorEq] at hs; done)
    rename_i n1 h1
    exact ih (.step who act h h1) hs

theorem runNet_preserves {P : Net → Prop} (hstep : ∀ n n' who a, P n → netStep ca cb n who a = .ok n' → P n') :
    ∀ (as : List (Bool × Act)) {n n' : Net}, P n → runNet ca cb n as = .ok n' → P n' := by
  intro as
  induction as with
  | nil => intro n n' h hs; simp only [runNet, Outcome.ok.injEq] at hs; subst hs; exact h
  | cons x as ih =>
    intro n n' h hs
    obtain ⟨who, act⟩ := x
    simp only [runNet] at hs
    split at hs <;> try (simp only [reduceCtorEq] at hs; done)
    rename_i n1 h1
    exact ih (hstep _ _ _ _ h h1) hs

/-- The sizes that a side claims, was told and uses are 0 or at least the smallest probe. -/
structure Floor (s : State) : Prop where
  claims : ∀ c e, Msg.control c e ∈ s.out → c = 0 ∨ 147 ≤ c
  remote : s.remoteRTT = 0 ∨ 147 ≤ s.remoteRTT
  est : ∀ e, s.est = some e → e = 0 ∨ 147 ≤ e

theorem range_floor {s : State} (h : Range cfg s) : s.localRTT = 0 ∨ 147 ≤ s.localRTT := by
  rcases h.localRTT with h0 | ⟨it, h0⟩
  · exact Or.inl h0
  · exact Or.inr (h.sizes _ _ h0).1

theorem floor_own {s s' o : State} {a : Act} (h : Floor s) (ho : Floor o) (hl : s.localRTT = 0 ∨ 147 ≤ s.localRTT)
    (he : Effect s s' a) (ha : allowed o.out a) : Floor s' := by
  obtain ⟨h1, h2, h3⟩ := h
  obtain ⟨e1, e2, e3, e4, e5, e6, e7⟩ := he
  constructor
  · intro c e hm
    rcases e3 c e hm with hm | rfl
    · exact h1 c e hm
    · exact hl
  · rcases e6 with e6 | ⟨e, w, e6⟩
    · rw [e6]; exact h2
    · rw [e6] at ha
      exact ho.claims _ _ ha
  · intro e hest
    rcases e7 with e7 | e7
    · rw [e7] at hest
      exact h3 e hest
    · rw [e7] at hest
      simp only [Option.some.injEq] at hest
      split at hest <;> subst hest <;> assumption

theorem net_floor {n : Net} (hca : ca.Sane) (hcb : cb.Sane) (h : NetReachable ca cb ta tb n) :
    Floor n.a ∧ Floor n.b := by
  induction h with
  | init => exact ⟨by constructor <;> simp [State.init], by constructor <;> simp [State.init]⟩
  | step who act hr hs ih =>
    obtain ⟨r1, r2⟩ := net_range hca hcb hr
    rcases netStep_cases hs with ⟨_, hal, hs, he⟩ | ⟨_, hal, hs, he⟩
    · exact ⟨floor_own ih.1 ih.2 (range_floor r1) (effect_step hs) hal, by rw [he]; exact ih.2⟩
    · exact ⟨by rw [he]; exact ih.1, floor_own ih.2 ih.1 (range_floor r2) (effect_step hs) hal⟩

end Verif.Negotiator
