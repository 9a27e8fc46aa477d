import Verif.Lemmas.SendNow
import Verif.Lemmas.DelayedWire
/-!
# One writer at a time
-/
namespace Verif.DelayedSend

/-- What happens to a `SendInfo` in one step: in use it stays in use or is given back with the count 0, and while in use it
stays finished. -/
structure Keep (i j : Info) : Prop where
  zero : (i.busy = true ∨ i.refs = 0) → (j.busy = true ∨ j.refs = 0)
  closed : i.busy = true → i.closed = true → j.closed = true

theorem Keep.refl (i : Info) : Keep i i := ⟨id, fun _ => id⟩

/-- The same without the unused ones. -/
structure Keep1 (i j : Info) : Prop where
  busy : i.busy = true → (j.busy = true ∨ j.refs = 0)
  closed : i.busy = true → i.closed = true → j.closed = true

theorem Keep.weak {i j : Info} (h : Keep i j) : Keep1 i j := ⟨fun hb => h.zero (.inl hb), h.closed⟩

theorem keep1_inc (s : State) (x : Nat) : ∀ y, Keep1 (s.infos y) ((incRef s x).infos y) := by
  intro y
  by_cases e : y = x
  · subst e; exact ⟨fun h => .inl (by simp [incRef, h]), fun _ h => by simp [incRef, h]⟩
  · simp only [incRef]; rw [setInfo_other e]; exact (Keep.refl _).weak

theorem Keep.of {i j : Info} (hb : j.busy = i.busy) (hr : j.refs = i.refs) (hc : i.closed = true → j.closed = true) : Keep i j :=
  ⟨by rw [hb, hr]; exact id, fun _ => hc⟩

theorem keep_set {f : Nat → Info} {x : Nat} {v : Info} (h : Keep (f x) v) : ∀ y, Keep (f y) (setInfo f x v y) := by
  intro y
  by_cases e : y = x
  · subst e; simpa using h
  · rw [setInfo_other e]; exact .refl _

theorem keep_acquired {s s1 : State} {n : Nat} (h : Acquired s s1 n) : ∀ y, Keep (s.infos y) (s1.infos y) := by
  intro y
  by_cases e : y = n
  · subst e
    refine ⟨fun _ => .inl (by rw [h.info]), fun hb => ?_⟩
    rw [h.free] at hb; cases hb
  · rw [h.other y e]; exact .refl _

theorem keep_acquireError {s s' : State} {r n} {H F : List Nat} (h : RefOK s.infos s.next s.pool H F)
    (ha : acquireError s r = .ok (s', n)) : ∀ y, Keep (s.infos y) (s'.infos y) := by
  obtain ⟨s1, -, hA, rfl, -⟩ := acquireError_ok h ha
  intro y
  have h1 := keep_acquired hA y
  have h2 := keep_set (f := s1.infos) (x := n) (v := { s1.infos n with err := true, closed := true }) (.of rfl rfl fun _ => rfl) y
  exact ⟨fun h => h2.zero (h1.zero h), fun hb hc => by
    have h3 := h1.closed hb hc
    by_cases e : y = n
    · subst e; simp
    · dsimp only; rw [setInfo_other e]; exact h3⟩

theorem keep_release {s s' : State} {x : Nat} (hs : release s x = .ok s') : ∀ y, Keep (s.infos y) (s'.infos y) := by
  unfold release at hs
  simp only at hs
  split at hs
  · cases hs
  · split at hs
    · cases hs
      refine keep_set ⟨fun h => ?_, fun _ h => h⟩
      rcases h with h | h
      · exact .inl h
      · omega
    · split at hs
      · cases hs
      · split at hs
        · cases hs
        · cases hs
          exact keep_set ⟨fun _ => .inr rfl, fun _ h => h⟩

theorem keep_inc {s : State} {x : Nat} (h : (s.infos x).busy = true) : ∀ y, Keep (s.infos y) ((incRef s x).infos y) :=
  keep_set ⟨fun _ => .inl h, fun _ h => h⟩

theorem keep_flush {s s' : State} {f : Flush} {a : FAct} {r : FRes} (hs : flushStep s f a = .ok (s', r)) :
    ∀ y, Keep (s.infos y) (s'.infos y) := by
  have hres : ∀ x ok y, Keep (s.infos y) ((setResult s x ok).infos y) := fun x ok y => keep_set (f := s.infos) (x := x) (v := { s.infos x with err := !ok }) (.of rfl rfl id) y
  cases f <;> cases a <;> simp only [flushStep] at hs <;> try (cases hs; done)
  · cases hs; exact keep_set (.of rfl rfl id)
  · split at hs <;> cases hs; exact hres _ _
  · split at hs
    · cases hs
    · split at hs <;> cases hs
      · exact hres _ _
      · exact fun _ => .refl _
  · split at hs
    · cases hs
    · split at hs <;> cases hs
      exact keep_set (.of rfl rfl fun _ => rfl)
  · cases hs; exact hres _ _
  · split at hs <;> cases hs; exact keep_set (.of rfl rfl fun _ => rfl)
  · split at hs <;> cases hs
    rename_i h1
    exact keep_release h1

/-! ### The invariant -/

/-- The `SendInfo` the loop received. -/
def Main.given : Main → List Nat
  | .got x => [x]
  | .flush d _ => d.toList
  | .leaving x => [x]
  | _ => []

/-- What a writer is about to count. -/
def Writer.asks : Writer → List Nat
  | .full x _ => [x]
  | .again x _ => [x]
  | _ => []

/-- What the loop received is not what it puts in place of the current one. -/
def StageOK (s : State) : Main → Prop
  | .flush d (.acquired n) => n ∉ d.toList
  | .flush d _ => s.cur ∉ d.toList
  | .leaving x => (s.infos x).closed = true
  | _ => True

/-- With one writer at a time nobody refers to a `SendInfo` that was given back. -/
structure Calm (s : State) : Prop where
  one : s.writers.length ≤ 1
  poking : ∀ w ∈ s.writers, ∀ x ∈ w.held, (s.infos x).busy = true
  given : ∀ x ∈ s.main.given, (s.infos x).busy = true
  asks : ∀ w ∈ s.writers, ∀ x ∈ w.asks, (s.infos x).busy = true ∨ (s.infos x).refs = 0
  place : ∀ w ∈ s.writers, ∀ x ∈ w.knows, x = s.cur ∨ s.buf = []
  stage : s.closer = .none → StageOK s s.main

theorem calm_init : Calm State.init := by
  refine ⟨by decide, ?_, ?_, ?_, ?_, fun _ => trivial⟩ <;> simp [State.init, Main.given]

theorem given_held (m : Main) : ∀ x ∈ m.given, x ∈ m.held := by
  intro x hx
  cases m <;> simp_all [Main.given, Main.held]

theorem held_pos {s : State} (h : RInv s) {x : Nat} (hx : x ∈ held s) : 0 < (s.infos x).refs := by
  have h1 := h.ref.le x
  have h2 : 0 < (held s).count x := List.count_pos_iff.2 hx
  omega

theorem writer_held {s : State} {w : Writer} (hw : w ∈ s.writers) {x : Nat} (hx : x ∈ w.held) : x ∈ held s := by
  refine List.mem_cons_of_mem _ (List.mem_append_left _ (List.mem_append_right _ ?_))
  exact List.mem_flatMap.2 ⟨w, hw, hx⟩

theorem given_mem {s : State} {x : Nat} (hx : x ∈ s.main.given) : x ∈ held s := by
  refine List.mem_cons_of_mem _ (List.mem_append_left _ (List.mem_append_left _ (List.mem_append_left _ ?_)))
  exact given_held _ x hx

/-- Obligations for the only writer. -/
structure WriterOK (s : State) (w : Writer) : Prop where
  poking : ∀ x ∈ w.held, (s.infos x).busy = true
  asks : ∀ x ∈ w.asks, (s.infos x).busy = true ∨ (s.infos x).refs = 0
  place : ∀ x ∈ w.knows, x = s.cur ∨ s.buf = []

theorem calm_next {s s' : State} (h : Calm s) (hr' : RInv s') (hk : ∀ x, Keep1 (s.infos x) (s'.infos x))
    (hw : (s'.writers = s.writers ∧ (∀ x, Keep (s.infos x) (s'.infos x)) ∧ ((s'.cur = s.cur ∧ s'.buf = s.buf) ∨ s'.buf = [])) ∨ s'.writers = [] ∨
      ∃ w, s'.writers = [w] ∧ WriterOK s' w)
    (hg : s'.main.given = s.main.given ∨ ∀ x ∈ s'.main.given, (s'.infos x).busy = true)
    (hst : (s'.main = s.main ∧ s'.cur = s.cur ∧ (s'.closer = .none → s.closer = .none)) ∨ (s'.closer = .none → StageOK s' s'.main)) :
    Calm s' := by
  have busy : ∀ x, x ∈ held s' → (s.infos x).busy = true → (s'.infos x).busy = true := by
    intro x hx hb
    rcases (hk x).busy hb with h1 | h1
    · exact h1
    · have := held_pos hr' hx; omega
  have hgiven : ∀ x ∈ s'.main.given, (s'.infos x).busy = true := by
    rcases hg with hg | hg
    · intro x hx
      exact busy x (given_mem hx) (h.given x (hg ▸ hx))
    · exact hg
  have hstage : s'.closer = .none → StageOK s' s'.main := by
    rcases hst with ⟨h1, h2, h3⟩ | hst
    · intro hn
      have h4 := h.stage (h3 hn)
      rw [h1]
      cases hm : s.main with
      | leaving x =>
        rw [hm] at h4
        exact (hk x).closed (h.given x (by rw [hm]; simp [Main.given])) h4
      | flush d f =>
        rw [hm] at h4
        cases f <;> simp only [StageOK, h2] at h4 ⊢ <;> exact h4
      | _ => trivial
    · exact hst
  rcases hw with ⟨hw, hz, hcb⟩ | hw | ⟨w, hw, h1⟩
  · refine ⟨by rw [hw]; exact h.one, fun w hm x hx => ?_, hgiven, fun w hm x hx => ?_, fun w hm x hx => ?_, hstage⟩
    · exact busy x (writer_held hm hx) (h.poking w (hw ▸ hm) x hx)
    · exact (hz x).zero (h.asks w (hw ▸ hm) x hx)
    · rcases hcb with ⟨h1, h2⟩ | h1
      · rw [h1, h2]; exact h.place w (hw ▸ hm) x hx
      · exact .inr h1
  · refine ⟨by rw [hw]; simp, ?_, hgiven, ?_, ?_, hstage⟩ <;> (rw [hw]; intro w hm; cases hm)
  · refine ⟨by rw [hw]; simp, ?_, hgiven, ?_, ?_, hstage⟩ <;> (rw [hw]; intro w' hm; rw [List.mem_singleton] at hm; subst hm)
    · exact h1.poking
    · exact h1.asks
    · exact h1.place

theorem one_writer {s : State} (h : Calm s) {i : Nat} {w : Writer} (hi : s.writers[i]? = some w) :
    s.writers = [w] ∧ s.writers.eraseIdx i = [] := by
  have h1 := h.one
  match hw : s.writers, h1 with
  | [], _ => rw [hw] at hi; simp at hi
  | [v], _ =>
    rw [hw] at hi
    match i with
    | 0 => simp at hi; subst hi; exact ⟨rfl, rfl⟩
    | i + 1 => simp at hi

theorem cur_busy {s : State} (hr : RInv s) : (s.infos s.cur).busy = true := hr.ref.firm _ (by simp [firm])

theorem calm_tryAppend {cfg : Cfg} {s s' : State} {m r} (h : Calm s) (hr : RInv s) (hr' : RInv s') (hw : s.writers = [])
    (hs : tryAppend cfg s m r = .ok s') : Calm s' := by
  unfold tryAppend at hs
  split at hs
  · cases hs
  · split at hs
    · split at hs
      · split at hs <;> cases hs
        rename_i s1 n h1
        have hk := keep_acquireError hr.ref h1
        obtain ⟨s0, -, hA, he, -⟩ := acquireError_ok hr.ref h1
        have e := hA.eq
        have em : s1.main = s.main := by rw [he, e]
        have ew : s1.writers = s.writers := by rw [he, e]
        have ec : s1.cur = s.cur := by rw [he, e]
        have ecl : s1.closer = s.closer := by rw [he, e]
        exact calm_next h hr' (fun x => (hk x).weak) (.inr (.inl (by show s1.writers = []; rw [ew, hw]))) (.inl (by show s1.main.given = _; rw [em]))
          (.inl ⟨em, ec, by show s1.closer = _ → _; rw [ecl]; exact id⟩)
      · cases hs
        refine calm_next h hr' (fun _ => (Keep.refl _).weak) (.inr (.inr ⟨_, by rw [hw]; rfl, ?_, ?_, ?_⟩)) (.inl rfl) (.inl ⟨rfl, rfl, id⟩)
        · simp [Writer.held]
        · simp [Writer.asks]; exact .inl (cur_busy hr)
        · simp [Writer.knows]
    · dsimp only at hs
      split at hs
      · cases hs
      · cases hs
        exact calm_next h hr' (fun x => (keep_inc (cur_busy hr) x).weak) (.inr (.inl hw)) (.inl rfl) (.inl ⟨rfl, rfl, id⟩)

theorem calm_giveUp {s0 s s' : State} {i m r} {H F : List Nat} (h : Calm s0) (hr : RefOK s.infos s.next s.pool H F) (hr' : RInv s')
    (he : s.writers.eraseIdx i = []) (hk : ∀ x, Keep1 (s0.infos x) (s'.infos x))
    (hg : s.main.given = s0.main.given ∨ ∀ x ∈ s.main.given, (s'.infos x).busy = true)
    (hst : (s.main = s0.main ∧ s.cur = s0.cur ∧ s.closer = s0.closer) ∨ ∃ x, s.main = .got x)
    (hs : giveUp s i m r = .ok s') : Calm s' := by
  unfold giveUp at hs
  split at hs <;> cases hs
  rename_i s1 n h1
  obtain ⟨s2, -, hA, hE, -⟩ := acquireError_ok hr h1
  have e := hA.eq
  have em : s1.main = s.main := by rw [hE, e]
  have ew : s1.writers = s.writers := by rw [hE, e]
  have ec : s1.cur = s.cur := by rw [hE, e]
  have ecl : s1.closer = s.closer := by rw [hE, e]
  refine calm_next h hr' hk (.inr (.inr ⟨.retry m, ?_, ?_, ?_, ?_⟩)) ?_ ?_
  · show s1.writers.eraseIdx i ++ _ = _; rw [ew, he]; rfl
  · simp [Writer.held]
  · simp [Writer.asks]
  · simp [Writer.knows]
  · show s1.main.given = _ ∨ _
    dsimp only
    rw [em]; exact hg
  · dsimp only
    rw [em, ec, ecl]
    rcases hst with ⟨a, b, c⟩ | ⟨x, hx⟩
    · exact .inl ⟨a, b, by rw [c]; exact id⟩
    · right; intro _; rw [hx]; trivial

theorem keep_giveUp {s s' : State} {i m r} {H F : List Nat} (hr : RefOK s.infos s.next s.pool H F) (hs : giveUp s i m r = .ok s') :
    ∀ x, Keep (s.infos x) (s'.infos x) := by
  unfold giveUp at hs
  split at hs <;> cases hs
  rename_i s1 n h1
  have hk := keep_acquireError hr h1
  exact hk

theorem calm_step {cfg : Cfg} {s s' : State} {a : Act} (hf : cfg.frag = false) (h : Calm s) (hR : Reachable cfg s)
    (hw : ∀ m r, a = .write m r → s.writers = []) (hs : step cfg s a = .ok s') : Calm s' := by
  have hr := (inv_reachable hR).1
  have hr' := rinv_step hr hs
  have hI := ids_reachable hR
  have hid : ∀ x, Keep1 (s.infos x) (s.infos x) := fun x => (Keep.refl _).weak
  have hid' : ∀ x, Keep (s.infos x) (s.infos x) := fun x => .refl _
  cases a with
  | write m r => exact calm_tryAppend h hr hr' (hw m r rfl) hs
  | retry i r =>
    simp only [step] at hs
    split at hs
    · rename_i m hi
      obtain ⟨h1, h2⟩ := one_writer h hi
      have hc : Calm { s with writers := s.writers.eraseIdx i } :=
        calm_next h (rinv_retryState hr i) hid (.inr (.inl h2)) (.inl rfl) (.inl ⟨rfl, rfl, id⟩)
      exact calm_tryAppend hc (rinv_retryState hr i) hr' h2 hs
    · cases hs
  | refused r =>
    simp only [step] at hs
    split at hs
    · split at hs <;> cases hs
      rename_i s1 n h1
      have hk := keep_acquireError hr.ref h1
      obtain ⟨s0, -, hA, he, -⟩ := acquireError_ok hr.ref h1
      have e := hA.eq
      have em : s1.main = s.main := by rw [he, e]
      have ew : s1.writers = s.writers := by rw [he, e]
      have ec : s1.cur = s.cur := by rw [he, e]
      have eb : s1.buf = s.buf := by rw [he, e]
      have ecl : s1.closer = s.closer := by rw [he, e]
      exact calm_next h hr' (fun x => (hk x).weak) (.inl ⟨ew, hk, .inl ⟨ec, eb⟩⟩) (.inl (by show s1.main.given = _; rw [em]))
          (.inl ⟨em, ec, by show s1.closer = _ → _; rw [ecl]; exact id⟩)
    · cases hs
  | inc i r =>
    simp only [step] at hs
    split at hs
    · rename_i x m hi
      obtain ⟨h1, h2⟩ := one_writer h hi
      have hx : x < s.next := writers_knows hr hi x (by simp [Writer.knows])
      have hpl := h.place _ (List.mem_of_getElem? hi)
      have hask := h.asks _ (List.mem_of_getElem? hi) x (by simp [Writer.asks])
      split at hs
      · have hk := keep_giveUp (hr.ref.leak hx) hs
        refine calm_giveUp (s0 := s) (s := incRef s x) h (hr.ref.leak hx) hr' h2 (fun y => ?_) (.inl rfl) (.inl ⟨rfl, rfl, rfl⟩) hs
        refine ⟨fun hb => (hk y).zero (.inl ?_), fun hb hc => (hk y).closed ?_ ?_⟩ <;>
          (by_cases e : y = x <;> simp only [incRef] <;> first | (subst e; simp_all) | (rw [setInfo_other e]; assumption))
      · rename_i hne
        cases hs
        have hb : (s.infos x).busy = true := by
          rcases hask with hb | h0
          · exact hb
          · rw [h0] at hne; simp at hne
        refine calm_next h hr' (keep1_inc s x) (.inr (.inr ⟨.poking x m true, by rw [h2]; rfl, ?_, ?_, ?_⟩)) (.inl rfl) (.inl ⟨rfl, rfl, id⟩)
        · simp [Writer.held, incRef, hb]
        · simp [Writer.asks]
        · exact hpl
    · rename_i x m hi
      obtain ⟨h1, h2⟩ := one_writer h hi
      have hpl := h.place _ (List.mem_of_getElem? hi)
      have hask := h.asks _ (List.mem_of_getElem? hi) x (by simp [Writer.asks])
      split at hs
      · cases hs
        refine calm_next h hr' (keep1_inc s x) (.inr (.inr ⟨.waiting x m, by rw [h2]; rfl, ?_, ?_, ?_⟩)) (.inl rfl) (.inl ⟨rfl, rfl, id⟩)
        · simp [Writer.held]
        · simp [Writer.asks]
        · exact hpl
      · rename_i hne
        cases hs
        have hb : (s.infos x).busy = true := by
          rcases hask with hb | h0
          · exact hb
          · rw [h0] at hne; simp at hne
        refine calm_next h hr' (keep1_inc s x) (.inr (.inr ⟨.poking x m false, by rw [h2]; rfl, ?_, ?_, ?_⟩)) (.inl rfl) (.inl ⟨rfl, rfl, id⟩)
        · simp [Writer.held, incRef, hb]
        · simp [Writer.asks]
        · exact hpl
    · cases hs
  | poke i handoff r =>
    simp only [step] at hs
    split at hs
    · rename_i x m first hi
      obtain ⟨h1, h2⟩ := one_writer h hi
      have hpl := h.place _ (List.mem_of_getElem? hi)
      have hb := h.poking _ (List.mem_of_getElem? hi) x (by simp [Writer.held])
      have hwait : ∀ {t : State}, t.infos = s.infos → t.cur = s.cur → t.buf = s.buf → WriterOK t (.waiting x m) := by
        intro t e1 e2 e3
        refine ⟨by simp [Writer.held], by simp [Writer.asks], ?_⟩
        rw [e2, e3]; exact hpl
      split at hs
      · split at hs
        · exact calm_giveUp h hr.ref hr' h2 (fun y => (keep_giveUp hr.ref hs y).weak) (.inl rfl) (.inl ⟨rfl, rfl, rfl⟩) hs
        · cases hs
          exact calm_next h hr' hid (.inr (.inr ⟨.waiting x m, by rw [h2]; rfl, hwait rfl rfl rfl⟩)) (.inl rfl) (.inl ⟨rfl, rfl, id⟩)
      · split at hs
        · split at hs
          · rename_i hidle
            split at hs
            · have hk := keep_giveUp (s := { s with main := .got x }) hr.ref hs
              refine calm_giveUp (s0 := s) (s := { s with main := .got x }) h hr.ref hr' h2 (fun y => (hk y).weak) (.inr ?_) (.inr ⟨x, rfl⟩) hs
              intro y hy
              have hm := (giveUp_fields hs).2.1
              have hyh : y ∈ held s' := given_mem (by rw [hm]; exact hy)
              simp [Main.given] at hy; subst hy
              rcases (hk y).weak.busy hb with h3 | h3
              · exact h3
              · have := held_pos hr' hyh; omega
            · cases hs
              refine calm_next h hr' hid (.inr (.inr ⟨.waiting x m, by rw [h2]; rfl, hwait rfl rfl rfl⟩)) (.inr ?_) (.inr fun _ => trivial)
              intro y hy
              simp [Main.given] at hy; subst hy; exact hb
          · cases hs
        · split at hs
          · exact calm_giveUp h hr.ref hr' h2 (fun y => (keep_giveUp hr.ref hs y).weak) (.inl rfl) (.inl ⟨rfl, rfl, rfl⟩) hs
          · cases hs
            exact calm_next h hr' hid (.inr (.inr ⟨.waiting x m, by rw [h2]; rfl, hwait rfl rfl rfl⟩)) (.inl rfl) (.inl ⟨rfl, rfl, id⟩)
    · cases hs
  | wake i =>
    simp only [step] at hs
    split at hs
    · rename_i x m hi
      obtain ⟨h1, h2⟩ := one_writer h hi
      split at hs <;> cases hs
      refine calm_next h hr' hid (.inr (.inr ⟨.retry m, by rw [h2]; rfl, ?_, ?_, ?_⟩)) (.inl rfl) (.inl ⟨rfl, rfl, id⟩) <;>
        simp [Writer.held, Writer.asks, Writer.knows]
    · cases hs
  | tick i =>
    simp only [step] at hs
    split at hs
    · rename_i x m hi
      obtain ⟨h1, h2⟩ := one_writer h hi
      split at hs <;> cases hs
      rename_i hbuf
      have hpl := h.place _ (List.mem_of_getElem? hi)
      refine calm_next h hr' hid (.inr (.inr ⟨.again x m, by rw [h2]; rfl, ?_, ?_, hpl⟩)) (.inl rfl) (.inl ⟨rfl, rfl, id⟩)
      · simp [Writer.held]
      · simp only [Writer.asks, List.mem_singleton]
        intro y hy
        subst hy
        rcases hpl y (by simp [Writer.knows]) with e | e
        · rw [e]; exact .inl (cur_busy hr)
        · exact absurd e hbuf
    · cases hs
  | sendNow i =>
    simp only [step] at hs
    split at hs
    · rename_i u hi
      have hb : (s.infos u.info).busy = true := by
        refine hr.ref.firm _ (List.mem_cons_of_mem _ (List.mem_append_right _ ?_))
        exact List.mem_map_of_mem (List.mem_of_getElem? hi)
      split at hs
      · cases hs
      split at hs
      · cases hs
      · cases hs
        exact calm_next h hr' (keep1_inc s _) (.inl ⟨rfl, keep_inc hb, .inl ⟨rfl, rfl⟩⟩) (.inl rfl) (.inl ⟨rfl, rfl, id⟩)
    · cases hs
  | sendNowChan i =>
    simp only [step] at hs
    split at hs
    · rename_i u hi
      have hb : (s.infos u.info).busy = true := by
        refine hr.ref.firm _ (List.mem_cons_of_mem _ (List.mem_append_right _ ?_))
        exact List.mem_map_of_mem (List.mem_of_getElem? hi)
      split at hs
      · split at hs
        · cases hs
        split at hs <;> cases hs
        refine calm_next h hr' hid (.inl ⟨rfl, hid', .inl ⟨rfl, rfl⟩⟩) (.inr ?_) (.inr fun _ => trivial)
        intro y hy
        simp [Main.given] at hy; subst hy; exact hb
      · cases hs
    · cases hs
  | userRelease i =>
    simp only [step] at hs
    split at hs
    · split at hs
      · cases hs
      split at hs
      · have hk := keep_release hs
        have h2 := (release_frame hs).2
        exact calm_next h hr' (fun x => (hk x).weak) (.inl ⟨by rw [h2], hk, .inl ⟨by rw [h2], by rw [h2]⟩⟩) (.inl (by rw [h2]))
          (.inl ⟨by rw [h2], by rw [h2], by rw [h2]; exact id⟩)
      · cases hs
    · cases hs
  | connect r =>
    simp only [step] at hs
    split at hs
    · obtain ⟨s1, n, -, hA, rfl, -⟩ := begin_ok hr.ref hs
      have hk := keep_acquired hA
      have e := hA.eq
      refine calm_next h hr' (fun x => (hk x).weak) (.inl ⟨by show s1.writers = _; rw [e], hk, .inl ⟨by show s1.cur = _; rw [e], by show s1.buf = _; rw [e]⟩⟩)
        (.inr (by simp [Main.given])) (.inr fun _ => trivial)
    · cases hs
  | timer r =>
    simp only [step] at hs
    split at hs
    · obtain ⟨s1, n, -, hA, rfl, -⟩ := begin_ok hr.ref hs
      have hk := keep_acquired hA
      have e := hA.eq
      refine calm_next h hr' (fun x => (hk x).weak) (.inl ⟨by show s1.writers = _; rw [e], hk, .inl ⟨by show s1.cur = _; rw [e], by show s1.buf = _; rw [e]⟩⟩)
        (.inr (by simp [Main.given])) (.inr fun _ => by simp [StageOK])
    · cases hs
  | handle r =>
    simp only [step] at hs
    split at hs
    · rename_i x hm
      have hb := h.given x (by rw [hm]; simp [Main.given])
      split at hs
      · rename_i hle
        cases hs
        refine calm_next h hr' hid (.inl ⟨rfl, hid', .inl ⟨rfl, rfl⟩⟩) (.inl (by rw [hm]; rfl)) (.inr fun hn => ?_)
        show (s.infos x).closed = true
        cases hcl : (s.infos x).closed with
        | true => rfl
        | false =>
          have h3 := ((inv_reachable hR).2 hf).2 x hcl
          replace hn : s.closer = .none := hn
          rw [hm, hn] at h3
          simp [Main.flush?, Closer.flush?] at h3
          have h4 := hI.last hn
          rw [← h3] at h4
          omega
      · obtain ⟨s1, n, -, hA, rfl, -⟩ := begin_ok hr.ref hs
        have hk := keep_acquired hA
        have e := hA.eq
        have hne : n ≠ x := by
          intro e; subst e
          have := hA.free
          rw [hb] at this; cases this
        refine calm_next h hr' (fun x => (hk x).weak) (.inl ⟨by show s1.writers = _; rw [e], hk, .inl ⟨by show s1.cur = _; rw [e], by show s1.buf = _; rw [e]⟩⟩)
          (.inl (by rw [hm]; rfl)) (.inr fun _ => by simp [StageOK]; exact fun e => hne e)
    · cases hs
  | mainFlush a r =>
    simp only [step] at hs
    have hcb : ∀ {s1 : State} {f : Flush} {r : FRes}, flushStep s f a = .ok (s1, r) → ((s1.cur = s.cur ∧ s1.buf = s.buf) ∨ s1.buf = []) := by
      intro s1 f r hfl
      cases f <;> cases a <;> simp only [flushStep] at hfl <;> (repeat' split at hfl) <;> cases hfl <;>
        first | exact .inr rfl | exact .inl ⟨rfl, rfl⟩ | skip
      rename_i h1
      have h2 := (release_frame h1).2
      exact .inl ⟨by rw [h2], by rw [h2]⟩
    split at hs
    · rename_i f hm
      split at hs <;> try (cases hs; done)
      · rename_i s1 f1 hfl
        cases hs
        have hk := keep_flush hfl
        have hc := hcb hfl
        have e := flushStep_frame hfl
        exact calm_next h hr' (fun x => (hk x).weak) (.inl ⟨by show s1.writers = _; rw [e], hk, hc⟩) (.inr (by simp [Main.given])) (.inr fun _ => trivial)
      · rename_i s1 id hfl
        cases hs
        have hk := keep_flush hfl
        have hc := hcb hfl
        have e := flushStep_frame hfl
        exact calm_next h hr' (fun x => (hk x).weak) (.inl ⟨by show s1.writers = _; rw [e], hk, hc⟩) (.inr (by simp [Main.given])) (.inr fun _ => trivial)
      · rename_i s1 id hfl
        have hk := keep_flush hfl
        have hc := hcb hfl
        have e := flushStep_frame hfl
        have hr0 := rinv_overMain hr hm hfl
        have h0 : Calm { s1 with main := .idle } :=
          calm_next h hr0 (fun x => (hk x).weak) (.inl ⟨by show s1.writers = _; rw [e], hk, hc⟩) (.inr (by simp [Main.given])) (.inr fun _ => trivial)
        obtain ⟨s2, n, -, hA, rfl, -⟩ := begin_ok hr0.ref hs
        have hk := keep_acquired hA
        have e := hA.eq
        refine calm_next h0 hr' (fun x => (hk x).weak) (.inl ⟨by show s2.writers = _; rw [e], hk, .inl ⟨by show s2.cur = _; rw [e], by show s2.buf = _; rw [e]⟩⟩)
          (.inr (by simp [Main.given])) (.inr fun _ => trivial)
    · rename_i d f hm
      split at hs <;> try (cases hs; done)
      · rename_i s1 f1 hfl
        cases hs
        have hk := keep_flush hfl
        have hc := hcb hfl
        have e := flushStep_frame hfl
        refine calm_next h hr' (fun x => (hk x).weak) (.inl ⟨by show s1.writers = _; rw [e], hk, hc⟩) (.inl (by rw [hm]; rfl)) (.inr fun hn => ?_)
        replace hn : s.closer = .none := by have ecl : s1.closer = s.closer := by rw [e]
                                            rw [← ecl]; exact hn
        have hst := h.stage hn
        rw [hm] at hst
        obtain ⟨-, -, -, -, -, h6⟩ := flushStep_same hfl
        rcases h6 with ⟨n, rfl, h6, msgs, h7⟩ | ⟨h6, hna, ⟨g, h7, h9, -⟩ | ⟨y, msgs, e, -, h7⟩⟩
        · cases h7
          show s1.cur ∉ d.toList
          rw [h6]; exact hst
        · cases h7
          have h10 : s.cur ∉ d.toList := by
            cases f with
            | acquired n => exact absurd rfl (hna n)
            | _ => exact hst
          rw [← h6] at h10
          cases f1 with
          | acquired n => exact absurd rfl (h9 n)
          | _ => exact h10
        · cases h7
      · rename_i s1 em id hfl
        cases hs
        have hk := keep_flush hfl
        have hc := hcb hfl
        have e := flushStep_frame hfl
        have hR' : Reachable cfg { s1 with last := id, main := Main.after d } :=
          Reachable.step (.mainFlush a r) hR (by simp only [step, hm, hfl])
        have hgiv : (Main.after d).given = d.toList := by cases d <;> rfl
        refine calm_next h hr' (fun x => (hk x).weak) (.inl ⟨by show s1.writers = _; rw [e], hk, hc⟩)
          (.inl (by show (Main.after d).given = _; rw [hm, hgiv]; rfl)) (.inr fun hn => ?_)
        cases d with
        | none => trivial
        | some x =>
          replace hn : s1.closer = .none := hn
          have ecl : s1.closer = s.closer := by rw [e]
          have hst := h.stage (by rw [← ecl]; exact hn)
          rw [hm] at hst
          obtain ⟨-, -, -, -, -, h6⟩ := flushStep_same hfl
          rcases h6 with ⟨n, rfl, h6, msgs, h7⟩ | ⟨h6, hna, ⟨g, h7, h9, -⟩ | ⟨y, msgs, e, rfl, h7⟩⟩
          · cases h7
          · cases h7
          · show (s1.infos x).closed = true
            cases hcl : (s1.infos x).closed with
            | true => rfl
            | false =>
              have h3 := ((inv_reachable hR').2 hf).2 x hcl
              simp [hn, Main.after, Main.flush?, Closer.flush?] at h3
              simp only [StageOK] at hst
              rw [h6] at h3
              exact absurd h3 (fun e => hst (by simp [e]))
    · cases hs
  | mainRelease =>
    simp only [step] at hs
    split at hs
    · rename_i x hm
      have hk := keep_release hs
      have h2 := (release_frame hs).2
      exact calm_next h hr' (fun x => (hk x).weak) (.inl ⟨by rw [h2], hk, .inl ⟨by rw [h2], by rw [h2]⟩⟩) (.inr (by rw [h2]; simp [Main.given]))
          (.inr fun _ => by rw [h2]; trivial)
    · cases hs
  | mainExit =>
    simp only [step] at hs
    split at hs <;> cases hs
    exact calm_next h hr' hid (.inl ⟨rfl, hid', .inl ⟨rfl, rfl⟩⟩) (.inr (by simp [Main.given])) (.inr fun _ => trivial)
  | close r =>
    simp only [step] at hs
    split at hs
    · cases hs
    · obtain ⟨s1, n, -, hA, rfl, -⟩ := begin_ok (s := { s with done := true }) hr.ref hs
      have hk := keep_acquired hA
      have e := hA.eq
      exact calm_next h hr' (fun x => (hk x).weak) (.inl ⟨by show s1.writers = _; rw [e], hk, .inl ⟨by show s1.cur = _; rw [e], by show s1.buf = _; rw [e]⟩⟩)
        (.inl (by show s1.main.given = _; rw [e])) (.inr fun hn => by cases hn)
  | closerFlush a r =>
    simp only [step] at hs
    have hcb : ∀ {s1 : State} {f : Flush} {r : FRes}, flushStep s f a = .ok (s1, r) → ((s1.cur = s.cur ∧ s1.buf = s.buf) ∨ s1.buf = []) := by
      intro s1 f r hfl
      cases f <;> cases a <;> simp only [flushStep] at hfl <;> (repeat' split at hfl) <;> cases hfl <;>
        first | exact .inr rfl | exact .inl ⟨rfl, rfl⟩ | skip
      rename_i h1
      have h2 := (release_frame h1).2
      exact .inl ⟨by rw [h2], by rw [h2]⟩
    split at hs
    · rename_i f hm
      split at hs <;> try (cases hs; done)
      · rename_i s1 f1 hfl
        cases hs
        have hk := keep_flush hfl
        have hc := hcb hfl
        have e := flushStep_frame hfl
        exact calm_next h hr' (fun x => (hk x).weak) (.inl ⟨by show s1.writers = _; rw [e], hk, hc⟩) (.inl (by show s1.main.given = _; rw [e]))
          (.inr fun hn => by cases hn)
      · rename_i s1 id hfl
        cases hs
        have hk := keep_flush hfl
        have hc := hcb hfl
        have e := flushStep_frame hfl
        exact calm_next h hr' (fun x => (hk x).weak) (.inl ⟨by show s1.writers = _; rw [e], hk, hc⟩) (.inl (by show s1.main.given = _; rw [e]))
          (.inr fun hn => by cases hn)
      · rename_i s1 id hfl
        have hk := keep_flush hfl
        have hc := hcb hfl
        have e := flushStep_frame hfl
        have hr0 := rinv_overCloser hr hm hfl
        have h0 : Calm { s1 with closer := .over } :=
          calm_next h hr0 (fun x => (hk x).weak) (.inl ⟨by show s1.writers = _; rw [e], hk, hc⟩) (.inl (by show s1.main.given = _; rw [e]))
            (.inr fun hn => by cases hn)
        obtain ⟨s2, n, -, hA, rfl, -⟩ := begin_ok hr0.ref hs
        have hk := keep_acquired hA
        have e := hA.eq
        exact calm_next h0 hr' (fun x => (hk x).weak) (.inl ⟨by show s2.writers = _; rw [e], hk, .inl ⟨by show s2.cur = _; rw [e], by show s2.buf = _; rw [e]⟩⟩)
          (.inl (by show s2.main.given = _; rw [e])) (.inr fun hn => by cases hn)
    · cases hs
  | cancel => cases hs; exact calm_next h hr' hid (.inl ⟨rfl, hid', .inl ⟨rfl, rfl⟩⟩) (.inl rfl) (.inl ⟨rfl, rfl, id⟩)
  | setDone => cases hs; exact calm_next h hr' hid (.inl ⟨rfl, hid', .inl ⟨rfl, rfl⟩⟩) (.inl rfl) (.inl ⟨rfl, rfl, id⟩)
  | fragment r => simp [step, hf] at hs
  | fragmentDone i er => simp [step, ((inv_reachable hR).2 hf).1.frags] at hs
  | gc x =>
    simp only [step] at hs
    split at hs <;> cases hs
    exact calm_next h hr' hid (.inl ⟨rfl, hid', .inl ⟨rfl, rfl⟩⟩) (.inl rfl) (.inl ⟨rfl, rfl, id⟩)

end Verif.DelayedSend
