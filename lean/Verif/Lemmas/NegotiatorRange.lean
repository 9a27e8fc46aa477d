import Verif.Lemmas.Negotiator
/-!
# The range of the probes, when the pongs are answers to pings
-/
namespace Verif.Negotiator

variable {cfg : Cfg} {t : Int}

/-- The limits the model is about: at least the smallest size to negotiate, and no overflow in `2 * nextMax`. -/
structure Cfg.Sane (cfg : Cfg) : Prop where
  low : 147 ≤ cfg.limit
  high : cfg.limit < 2 ^ 30
  iter : 0 < cfg.maxIter
  iter32 : cfg.maxIter < 2 ^ 32

theorem width_eq {r : Round} (h : r.min ≤ r.max) (hm : r.max < 2 ^ 30) : r.width = r.max - r.min := by
  simp only [Round.width, sub32]; omega

theorem probe_range {r : Round} {i : Nat} (h : r.min ≤ r.max) (hm : r.max < 2 ^ 30) (hi : i ≤ 3) :
    r.min ≤ r.probe i ∧ r.probe i ≤ r.max := by
  simp only [Round.probe, add32, width_eq h hm]
  have : i = 0 ∨ i = 1 ∨ i = 2 ∨ i = 3 := by omega
  have hd : (i * (r.max - r.min) + 2) / 3 ≤ r.max - r.min := by
    rcases this with rfl | rfl | rfl | rfl <;> omega
  rw [Nat.mod_eq_of_lt (by omega)]
  omega

theorem probes_range {r : Round} (h : r.min ≤ r.max) (hm : r.max < 2 ^ 30) :
    ∀ p ∈ r.probes, r.min ≤ p ∧ p ≤ r.max := by
  intro p hp
  simp only [Round.probes, List.mem_cons, List.not_mem_nil, or_false] at hp
  have h3 := probe_range h hm (i := 3) (by omega)
  have h2 := probe_range h hm (i := 2) (by omega)
  have h1 := probe_range h hm (i := 1) (by omega)
  have h0 := probe_range h hm (i := 0) (by omega)
  rcases hp with rfl | rfl | rfl | rfl | rfl | rfl | rfl | rfl | rfl | rfl | rfl | rfl <;> assumption

/-- What is known about the results of a round. -/
structure FoundOK (cfg : Cfg) (r : Round) (f : Found) : Prop where
  le : f.nextMin ≤ cfg.limit
  first : f.first = true → r.min ≤ f.nextMin
  lo : f.nextMin ≤ f.nextMax
  hi : f.nextMax ≤ f.nextMin + cfg.limit

theorem found_none (r : Round) : FoundOK cfg r .none := by
  constructor <;> simp [Found.none]

theorem found_add {r : Round} {f : Found} {size iter : Nat} {moved : Bool} (hc : cfg.Sane) (hf : FoundOK cfg r f)
    (h1 : 147 ≤ r.min) (h2 : r.min ≤ r.max) (h3 : r.max ≤ cfg.limit) (hs : 147 ≤ size ∧ size ≤ cfg.limit)
    (hi : iter = r.cur → r.min ≤ size) : FoundOK cfg r (f.add r size iter moved) := by
  obtain ⟨a, b, c, d⟩ := hf
  obtain ⟨l, h, _, _⟩ := hc
  have hw := width_eq h2 (by omega)
  constructor
  · simp only [Found.add]; split <;> omega
  · simp only [Found.add]
    intro hfst
    simp only [Bool.or_eq_true, Bool.and_eq_true, decide_eq_true_eq] at hfst
    split
    · rcases hfst with hfst | hfst
      · have := b hfst; omega
      · exact hi hfst.1
    · rcases hfst with hfst | hfst
      · exact b hfst
      · have := hi hfst.1; omega
  · simp only [Found.add, add32, hw]; split <;> omega
  · simp only [Found.add, add32, hw]; split <;> omega

theorem finish_next {r r' : Round} {f : Found} (hc : cfg.Sane) (hf : FoundOK cfg r f) (hfirst : f.first = true)
    (h1 : 147 ≤ r.min) (hcur : r.cur < cfg.maxIter) (h : r.finish cfg.limit cfg.maxIter f = .next r') :
    147 ≤ r'.min ∧ r'.min ≤ r'.max ∧ r'.max ≤ cfg.limit ∧ r'.cur < cfg.maxIter ∧ r'.cur = r.cur + 1 := by
  obtain ⟨a, b, c, d⟩ := hf
  obtain ⟨l, hh, _, _⟩ := hc
  have := b hfirst
  simp only [Round.finish] at h
  split at h <;> try (simp only [reduceCtorEq] at h; done)
  split at h <;> try (simp only [reduceCtorEq] at h; done)
  split at h <;> try (simp only [reduceCtorEq] at h; done)
  simp only [RoundEnd.next.injEq] at h
  subst h
  rename_i hn1 hn2 hn3
  simp only [add32] at hn3 ⊢
  refine ⟨by omega, ?_, ?_, by omega, by omega⟩
  · simp only [newMax, add32]
    split <;> split <;> omega
  · simp only [newMax]
    split <;> split <;> omega

/-- The round the ping sender is in. -/
def Pinger.round : Pinger → Option Round
  | .top r => some r
  | .send r _ => some r
  | .collect r _ => some r
  | _ => none

/-- Probes are in range. -/
structure Range (cfg : Cfg) (s : State) : Prop where
  sizes : ∀ sz it, .ping sz it ∈ s.out → 147 ≤ sz ∧ sz ≤ cfg.limit
  round : ∀ r, s.pinger.round = some r → 147 ≤ r.min ∧ r.min ≤ r.max ∧ r.max ≤ cfg.limit ∧ r.cur < cfg.maxIter ∧
    ∀ sz it, .ping sz it ∈ s.out → it ≤ r.cur ∧ (it = r.cur → r.min ≤ sz ∧ sz ≤ r.max)
  top : ∀ r, s.pinger = .top r → ∀ sz it, .ping sz it ∈ s.out → it < r.cur
  todo : ∀ r l, s.pinger = .send r l → ∀ p ∈ l, r.min ≤ p ∧ p ≤ r.max
  found : ∀ r f, s.pinger = .collect r f → FoundOK cfg r f
  items : ∀ l, s.recv = .opened l → ∀ sz it, (sz, it) ∈ l → .ping sz it ∈ s.out
  reader : ∀ sz it, s.reader = .recv sz it → .ping sz it ∈ s.out
  localRTT : s.localRTT = 0 ∨ ∃ it, .ping s.localRTT it ∈ s.out
  off : s.pinger = .off → ∀ sz it, .ping sz it ∉ s.out

/-- A pong is delivered only as an answer to a ping. -/
def Answers (s : State) (a : Act) : Prop := ∀ sz it w, a = .deliver (.pong sz it) w → Msg.ping sz it ∈ s.out

theorem range_init : Range cfg (State.init t) := by
  constructor <;> simp [State.init, Pinger.round]

theorem mem_sent_ping {w : Write} {m : Msg} {sz it : Nat} (hm : ∀ sz it, m ≠ .ping sz it) (l : List Msg) :
    .ping sz it ∈ l ++ sent w m ↔ .ping sz it ∈ l := by
  simp only [sent]
  split
  · simp only [List.mem_append, List.mem_singleton]
    constructor
    · rintro (h | h)
      · exact h
      · exact absurd h.symm (hm _ _)
    · exact Or.inl
  · simp

theorem mem_sent_self {w : Write} {p c sz it : Nat} (l : List Msg) (h : .ping sz it ∈ l ++ sent w (.ping p c)) :
    .ping sz it ∈ l ∨ (sz = p ∧ it = c) := by
  simp only [sent] at h
  split at h
  · simp only [List.mem_append, List.mem_singleton, Msg.ping.injEq] at h
    exact h
  · simp only [List.append_nil] at h; exact Or.inl h

theorem mem_sent_left {w : Write} {m x : Msg} {l : List Msg} (h : x ∈ l) : x ∈ l ++ sent w m :=
  List.mem_append_left _ h

/-- A step that sends no ping and does not touch the ping sender. -/
theorem range_keep {s s' : State} (h : Range cfg s) (hp : s'.pinger = s.pinger)
    (ho : ∀ sz it, Msg.ping sz it ∈ s'.out ↔ .ping sz it ∈ s.out)
    (hr : ∀ l, s'.recv = .opened l → ∀ sz it, (sz, it) ∈ l → Msg.ping sz it ∈ s.out)
    (hd : ∀ sz it, s'.reader = .recv sz it → Msg.ping sz it ∈ s.out)
    (hl : s'.localRTT = s.localRTT ∨ ∃ it, Msg.ping s'.localRTT it ∈ s.out) : Range cfg s' := by
  obtain ⟨h1, h2, h3, h4, h5, h6, h7, h8, h9⟩ := h
  constructor
  · intro sz it hm; exact h1 sz it ((ho _ _).mp hm)
  · intro r hr'
    rw [hp] at hr'
    obtain ⟨a, b, c, d, e⟩ := h2 r hr'
    exact ⟨a, b, c, d, fun sz it hm => e sz it ((ho _ _).mp hm)⟩
  · intro r hr' sz it hm; rw [hp] at hr'; exact h3 r hr' sz it ((ho _ _).mp hm)
  · intro r l hr'; rw [hp] at hr'; exact h4 r l hr'
  · intro r f hr'; rw [hp] at hr'; exact h5 r f hr'
  · intro l hl sz it hm; exact (ho _ _).mpr (hr l hl sz it hm)
  · intro sz it hm; exact (ho _ _).mpr (hd sz it hm)
  · rcases hl with hl | ⟨it, hl⟩
    · rw [hl]
      rcases h8 with h8 | ⟨it, h8⟩
      · exact Or.inl h8
      · exact Or.inr ⟨it, (ho _ _).mpr h8⟩
    · exact Or.inr ⟨it, (ho _ _).mpr hl⟩
  · intro hoff sz it hm; rw [hp] at hoff; exact h9 hoff sz it ((ho _ _).mp hm)

/-- A step that only lets the ping sender leave its round, and sends no ping. -/
theorem range_leave {s s' : State} (h : Range cfg s) (hp : s'.pinger.round = none) (hoff : s'.pinger ≠ .off)
    (ho : ∀ sz it, Msg.ping sz it ∈ s'.out ↔ .ping sz it ∈ s.out) (hr : s'.recv = s.recv)
    (hd : ∀ sz it, s'.reader = .recv sz it → s.reader = .recv sz it) (hl : s'.localRTT = s.localRTT) : Range cfg s' := by
  obtain ⟨h1, h2, h3, h4, h5, h6, h7, h8, h9⟩ := h
  constructor
  · intro sz it hm; exact h1 sz it ((ho _ _).mp hm)
  · intro r hr'; rw [hp] at hr'; exact absurd hr' (by simp)
  · intro r hr'; rw [hr'] at hp; exact absurd hp (by simp [Pinger.round])
  · intro r l hr'; rw [hr'] at hp; exact absurd hp (by simp [Pinger.round])
  · intro r f hr'; rw [hr'] at hp; exact absurd hp (by simp [Pinger.round])
  · intro l hl sz it hm; rw [hr] at hl; exact (ho _ _).mpr (h6 l hl sz it hm)
  · intro sz it hm; exact (ho _ _).mpr (h7 sz it (hd sz it hm))
  · rw [hl]
    rcases h8 with h8 | ⟨it, h8⟩
    · exact Or.inl h8
    · exact Or.inr ⟨it, (ho _ _).mpr h8⟩
  · intro h; exact absurd h hoff

theorem range_pinger {s s' : State} {e : PEvent} (hc : cfg.Sane) (hi : Inv s) (h : Range cfg s)
    (hs : step cfg s (.pinger e) = .ok s') : Range cfg s' := by
  simp only [step, pingerStep] at hs
  split at hs
  · -- the loop condition
    rename_i r hp
    simp only [Outcome.ok.injEq] at hs
    subst hs
    simp only [atTop]
    split
    · exact range_leave h rfl (by simp) (by simp) rfl (by simp) rfl
    · split
      · exact range_leave h rfl (by simp) (by simp) rfl (by simp) rfl
      · obtain ⟨h1, h2, h3, h4, h5, h6, h7, h8, h9⟩ := h
        obtain ⟨a, b, c, d, f⟩ := h2 r (by rw [hp]; rfl)
        constructor
        · exact h1
        · intro r' hr'
          simp only [Pinger.round, Option.some.injEq] at hr'
          subst hr'
          exact ⟨a, b, c, d, f⟩
        · intro r' hr'; simp at hr'
        · intro r' l hr' p hpm
          simp only [Pinger.send.injEq] at hr'
          obtain ⟨rfl, rfl⟩ := hr'
          exact probes_range b (by have := hc.high; omega) p hpm
        · intro r' f hr'; simp at hr'
        · exact h6
        · exact h7
        · exact h8
        · intro ho; simp at ho
  · -- a probe
    rename_i r p ps w hp
    split at hs
    · simp only [Outcome.ok.injEq] at hs
      subst hs
      exact range_leave h rfl (by simp) (by simp) rfl (by simp) rfl
    · split at hs <;> try (simp only [reduceCtorEq] at hs; done)
      simp only [Outcome.ok.injEq] at hs
      subst hs
      obtain ⟨h1, h2, h3, h4, h5, h6, h7, h8, h9⟩ := h
      obtain ⟨a, b, c, d, f⟩ := h2 r (by rw [hp]; rfl)
      have hpr := h4 r _ hp p (by simp)
      constructor
      · intro sz it hm
        rcases mem_sent_self _ hm with hm | ⟨rfl, rfl⟩
        · exact h1 sz it hm
        · omega
      · intro r' hr'
        simp only [Pinger.round, Option.some.injEq] at hr'
        subst hr'
        refine ⟨a, b, c, d, ?_⟩
        intro sz it hm
        rcases mem_sent_self _ hm with hm | ⟨rfl, rfl⟩
        · exact f sz it hm
        · exact ⟨Nat.le_refl _, fun _ => hpr⟩
      · intro r' hr'; simp at hr'
      · intro r' l hr' q hq
        simp only [Pinger.send.injEq] at hr'
        obtain ⟨rfl, rfl⟩ := hr'
        exact h4 r _ hp q (List.mem_cons_of_mem _ hq)
      · intro r' f hr'; simp at hr'
      · intro l hl sz it hm; exact mem_sent_left (h6 l hl sz it hm)
      · intro sz it hm; exact mem_sent_left (h7 sz it hm)
      · rcases h8 with h8 | ⟨it, h8⟩
        · exact Or.inl h8
        · exact Or.inr ⟨it, mem_sent_left h8⟩
      · intro ho; simp at ho
  · -- all probes are sent
    rename_i r hp
    simp only [Outcome.ok.injEq] at hs
    subst hs
    obtain ⟨h1, h2, h3, h4, h5, h6, h7, h8, h9⟩ := h
    obtain ⟨a, b, c, d, f⟩ := h2 r (by rw [hp]; rfl)
    constructor
    · exact h1
    · intro r' hr'
      simp only [Pinger.round, Option.some.injEq] at hr'
      subst hr'
      exact ⟨a, b, c, d, f⟩
    · intro r' hr'; simp at hr'
    · intro r' l hr'; simp at hr'
    · intro r' f hr'
      simp only [Pinger.collect.injEq] at hr'
      obtain ⟨rfl, rfl⟩ := hr'
      exact found_none _
    · exact h6
    · exact h7
    · exact h8
    · intro ho; simp at ho
  · -- a pong
    rename_i r f moved hp
    split at hs <;> try (simp only [reduceCtorEq] at hs; done)
    rename_i size iter c' ht
    simp only [Outcome.ok.injEq] at hs
    subst hs
    obtain ⟨h1, h2, h3, h4, h5, h6, h7, h8, h9⟩ := h
    obtain ⟨a, b, c, d, e⟩ := h2 r (by rw [hp]; rfl)
    have hf := h5 r f hp
    have hadd : FoundOK cfg r (f.add r size iter moved) ∧
        ∀ l, c' = .opened l → ∀ sz it, (sz, it) ∈ l → Msg.ping sz it ∈ s.out := by
      rcases take_facts ht with ⟨hcl, -, -⟩ | ⟨is, ho, hc'⟩
      · have := (hi.tasks (Or.inl (hi.closedBy.mp hcl))).1
        rw [hp] at this
        simp at this
      · subst hc'
        have hm : Msg.ping size iter ∈ s.out := h6 _ ho size iter (by simp)
        refine ⟨found_add hc hf a b c (h1 _ _ hm) (fun hi => ((e _ _ hm).2 hi).1), ?_⟩
        intro l hl sz it hmem
        simp only [Chan.opened.injEq] at hl
        subst hl
        exact h6 _ ho sz it (List.mem_cons_of_mem _ hmem)
    constructor
    · exact h1
    · intro r' hr'
      simp only [Pinger.round, Option.some.injEq] at hr'
      subst hr'
      exact ⟨a, b, c, d, e⟩
    · intro r' hr'; simp at hr'
    · intro r' l hr'; simp at hr'
    · intro r' f' hr'
      simp only [Pinger.collect.injEq] at hr'
      obtain ⟨rfl, rfl⟩ := hr'
      exact hadd.1
    · exact hadd.2
    · exact h7
    · exact h8
    · intro ho; simp at ho
  · -- the end of the round
    rename_i r f hp
    split at hs <;> try (simp only [reduceCtorEq] at hs; done)
    rename_i hfirst
    simp only [Outcome.ok.injEq] at hs
    subst hs
    simp only [afterRound]
    split
    · exact range_leave h rfl (by simp) (by simp) rfl (by simp) rfl
    · exact range_leave h rfl (by simp) (by simp) rfl (by simp) rfl
    · rename_i r' hfin
      obtain ⟨h1, h2, h3, h4, h5, h6, h7, h8, h9⟩ := h
      obtain ⟨a, b, c, d, e⟩ := h2 r (by rw [hp]; rfl)
      obtain ⟨a', b', c', d', e'⟩ := finish_next hc (h5 r f hp) hfirst a d hfin
      constructor
      · exact h1
      · intro r'' hr'
        simp only [Pinger.round, Option.some.injEq] at hr'
        subst hr'
        refine ⟨a', b', c', d', ?_⟩
        intro sz it hm
        have := (e sz it hm).1
        exact ⟨by omega, fun h => by omega⟩
      · intro r'' hr' sz it hm
        simp only [Pinger.top.injEq] at hr'
        subst hr'
        have := (e sz it hm).1
        omega
      · intro r' l hr'; simp at hr'
      · intro r' f' hr'; simp at hr'
      · exact h6
      · exact h7
      · exact h8
      · intro ho; simp at ho
  · split at hs <;> try (simp only [reduceCtorEq] at hs; done)
    simp only [Outcome.ok.injEq] at hs
    subst hs
    exact range_leave h rfl (by simp) (by simp) rfl (by simp) rfl
  · split at hs <;> try (simp only [reduceCtorEq] at hs; done)
    simp only [Outcome.ok.injEq] at hs
    subst hs
    exact range_leave h rfl (by simp) (by simp) rfl (by simp) rfl
  · simp only [Outcome.ok.injEq] at hs
    subst hs
    exact range_leave h rfl (by simp) (fun sz it => mem_sent_ping (by simp) _) rfl (by simp) rfl
  · simp only [Outcome.ok.injEq] at hs
    subst hs
    exact range_leave h rfl (by simp) (by simp) rfl (by simp) rfl
  · simp only [reduceCtorEq] at hs

theorem range_step {s s' : State} {a : Act} (hc : cfg.Sane) (hi : Inv s) (h : Range cfg s) (ha : Answers s a)
    (hs : step cfg s a = .ok s') : Range cfg s' := by
  cases a with
  | start en =>
    simp only [step, start] at hs
    split at hs <;> try (simp only [reduceCtorEq] at hs; done)
    rename_i hst
    obtain ⟨hoff, -⟩ := hi.fresh (by simpa using hst)
    split at hs <;> try (simp only [reduceCtorEq] at hs; done)
    split at hs
    · simp only [Outcome.ok.injEq] at hs
      subst hs
      obtain ⟨h1, h2, h3, h4, h5, h6, h7, h8, h9⟩ := h
      have hno := h9 hoff
      constructor
      · exact h1
      · intro r hr
        simp only [Pinger.round, Option.some.injEq] at hr
        subst hr
        exact ⟨Nat.le_refl _, hc.low, Nat.le_refl _, hc.iter, fun sz it hm => absurd hm (hno sz it)⟩
      · intro r hr sz it hm; exact absurd hm (hno sz it)
      · intro r l hr; simp at hr
      · intro r l hr; simp at hr
      · exact h6
      · exact h7
      · exact h8
      · intro ho; simp at ho
    · simp only [Outcome.ok.injEq] at hs
      subst hs
      exact range_keep h rfl (by simp) h.items h.reader (Or.inl rfl)
  | pinger e => exact range_pinger hc hi h hs
  | fin e =>
    simp only [step, finStep] at hs
    split at hs
    · split at hs <;> try (simp only [reduceCtorEq] at hs; done)
      simp only [Outcome.ok.injEq] at hs
      subst hs
      exact range_leave h rfl (by simp) (by simp) rfl (by simp) rfl
    · split at hs <;> try (simp only [reduceCtorEq] at hs; done)
      simp only [Outcome.ok.injEq] at hs
      subst hs
      exact range_keep h rfl (by simp) h.items (by simp) (Or.inl rfl)
    · split at hs <;> try (simp only [reduceCtorEq] at hs; done)
      simp only [Outcome.ok.injEq] at hs
      subst hs
      exact range_keep h rfl (by simp) h.items h.reader (Or.inl rfl)
    · simp only [Outcome.ok.injEq] at hs
      subst hs
      exact range_keep h rfl (by simp) h.items h.reader (Or.inl rfl)
    · simp only [reduceCtorEq] at hs
  | deliver m w =>
    simp only [step, deliver] at hs
    split at hs <;> try (simp only [reduceCtorEq] at hs; done)
    split at hs
    · simp only [Outcome.ok.injEq] at hs
      subst hs
      exact h
    · simp only [Outcome.ok.injEq] at hs
      subst hs
      exact range_keep h rfl (fun sz it => mem_sent_ping (by simp) _) h.items h.reader (Or.inl rfl)
    · rename_i size iter
      have hm := ha size iter w rfl
      split at hs <;> try (simp only [reduceCtorEq] at hs; done)
      · simp only [Outcome.ok.injEq] at hs
        subst hs
        refine range_keep h rfl (by simp) h.items ?_ ?_
        · intro sz it hr
          simp only [Reader.recv.injEq] at hr
          obtain ⟨rfl, rfl⟩ := hr
          exact hm
        · simp only
          split
          · exact Or.inr ⟨_, hm⟩
          · exact Or.inl rfl
      · simp only [Outcome.ok.injEq] at hs
        subst hs
        refine range_keep h rfl (by simp) h.items (by simp) ?_
        simp only
        split
        · exact Or.inr ⟨_, hm⟩
        · exact Or.inl rfl
    · split at hs
      · simp only [Outcome.ok.injEq] at hs
        subst hs
        exact range_keep h rfl (by simp) h.items (by simp) (Or.inl rfl)
      · simp only [Outcome.ok.injEq] at hs
        subst hs
        exact range_keep h rfl (by simp) h.items h.reader (Or.inl rfl)
  | reader w =>
    simp only [step, readerStep] at hs
    split at hs
    · rename_i size iter hr
      split at hs <;> try (simp only [reduceCtorEq] at hs; done)
      rename_i items hitems
      split at hs <;> try (simp only [reduceCtorEq] at hs; done)
      simp only [Outcome.ok.injEq] at hs
      subst hs
      refine range_keep h rfl (by simp) ?_ (by simp) (Or.inl rfl)
      intro l hl sz it hm
      simp only [Chan.opened.injEq] at hl
      subst hl
      rcases List.mem_append.mp hm with hm | hm
      · exact h.items _ hitems sz it hm
      · simp only [List.mem_singleton, Prod.mk.injEq] at hm
        obtain ⟨rfl, rfl⟩ := hm
        exact h.reader _ _ hr
    · simp only [Outcome.ok.injEq] at hs
      subst hs
      exact range_keep h rfl (fun sz it => mem_sent_ping (by simp) _) h.items (by simp) (Or.inl rfl)
    · simp only [reduceCtorEq] at hs
  | closeCall =>
    simp only [step] at hs
    split at hs <;> (simp only [Outcome.ok.injEq] at hs; subst hs)
    · exact range_keep h rfl (by simp) h.items h.reader (Or.inl rfl)
    · exact h
  | closer =>
    simp only [step, closerStep] at hs
    split at hs <;> try (simp only [reduceCtorEq] at hs; done)
    · split at hs <;> try (simp only [reduceCtorEq] at hs; done)
      split at hs <;> try (simp only [reduceCtorEq] at hs; done)
      · simp only [Outcome.ok.injEq] at hs
        subst hs
        exact range_keep h rfl (by simp) h.items h.reader (Or.inl rfl)
      · split at hs <;> try (simp only [reduceCtorEq] at hs; done)
        simp only [Outcome.ok.injEq] at hs
        subst hs
        exact range_keep h rfl (by simp) (by simp) h.reader (Or.inl rfl)
    · simp only [Outcome.ok.injEq] at hs
      subst hs
      exact range_keep h rfl (by simp) (by simp) h.reader (Or.inl rfl)
  | cancel =>
    simp only [step, Outcome.ok.injEq] at hs
    subst hs
    exact range_keep h rfl (by simp) h.items h.reader (Or.inl rfl)

end Verif.Negotiator
