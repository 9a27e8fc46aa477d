import Verif.Model.WriteBuffer
import Verif.Props.Send
/-!
# C117: Write does not keep the slice
-/
namespace Verif.WriteBuf

/-- The bytes are those of `p` at this place. -/
def At (p : Bytes) (pos : Nat) (b : Bytes) : Prop := b = (p.drop pos).take b.length

/-- Nobody reads the slice any more. -/
def Released (s : State) : Prop := ∀ x ∈ s.parts, x.progress ≠ .fresh

theorem mem_set {l : List Part} {i : Nat} {x y : Part} (h : y ∈ l.set i x) : y = x ∨ y ∈ l := by
  rcases List.mem_or_eq_of_mem_set h with h | h
  · exact .inr h
  · exact .inl h

theorem At_take (p : Bytes) (pos len : Nat) : At p pos ((p.drop pos).take len) := by
  unfold At
  rw [List.length_take]
  by_cases h : len ≤ (p.drop pos).length
  · rw [Nat.min_eq_left h]
  · rw [Nat.min_eq_right (by omega), List.take_of_length_le (by omega), List.take_of_length_le (Nat.le_refl _)]

structure Inv (p : Bytes) (s : State) : Prop where
  mem : s.call ≠ .returned → s.mem = p
  parts : ∀ x ∈ s.parts, ∀ b, x.progress = .copied b ∨ x.progress = .checked b → At p x.pos b
  out : ∀ x ∈ s.out, At p x.1 x.2
  closed : s.closed = true → ∀ x ∈ s.parts, x.progress = .over
  waiting : s.mode ≠ .fragmented → s.call ≠ .running → Released s
  returned : s.call = .returned → Released s

/-- A packet goes on, but not from or to the first stage. -/
theorem inv_set {p : Bytes} {s : State} (h : Inv p s) {i : Nat} {x : Part} {g : Progress} (hx : s.parts[i]? = some x)
    (hx1 : x.progress ≠ .over) (hg : g ≠ .fresh) (hb : ∀ b, g = .copied b ∨ g = .checked b → At p x.pos b) :
    Inv p (setPart s i x g) := by
  have hm : x ∈ s.parts := List.mem_of_getElem? hx
  have hrel : Released s → Released (setPart s i x g) := by
    intro hr y hy
    rcases mem_set hy with rfl | hy
    · exact hg
    · exact hr y hy
  refine ⟨h.mem, ?_, h.out, ?_, fun h1 h2 => hrel (h.waiting h1 h2), fun h1 => hrel (h.returned h1)⟩
  · intro y hy b hp
    rcases mem_set hy with rfl | hy
    · exact hb b hp
    · exact h.parts y hy b hp
  · intro hc
    exact absurd (h.closed hc x hm) hx1

theorem inv_step {p : Bytes} {s s' : State} {a : Act} (h : Inv p s) (hs : step s a = .ok s')
    (hok : s'.mode ≠ .fragmented ∨ s'.ctx = false) : Inv p s' := by
  cases a with
  | copy i =>
    simp only [step] at hs
    split at hs <;> try (cases hs; done)
    rename_i x hx
    split at hs <;> cases hs
    rename_i hc
    have hmem : s.mem = p := by
      apply h.mem
      intro hr
      exact h.returned hr x (List.mem_of_getElem? hx) hc.1
    refine inv_set h hx (by rw [hc.1]; simp) (by simp) ?_
    intro b hb
    rcases hb with hb | hb <;> cases hb
    rw [hmem]
    exact At_take _ _ _
  | check i =>
    simp only [step] at hs
    split at hs <;> try (cases hs; done)
    rename_i x hx
    split at hs <;> cases hs
    rename_i b hb
    refine inv_set h hx (by rw [hb]; simp) (by split <;> simp) ?_
    intro b' hb'
    split at hb'
    · rcases hb' with hb' | hb' <;> cases hb'
    · rcases hb' with hb' | hb' <;> cases hb'
      exact h.parts x (List.mem_of_getElem? hx) b (.inl hb)
  | fail i =>
    simp only [step] at hs
    split at hs <;> try (cases hs; done)
    rename_i x hx
    split at hs <;> cases hs
    rename_i b hb
    refine inv_set h hx (by rw [hb]; simp) (by simp) ?_
    intro b' hb'
    rcases hb' with hb' | hb' <;> cases hb'
  | write i =>
    simp only [step] at hs
    split at hs <;> try (cases hs; done)
    rename_i x hx
    split at hs <;> cases hs
    rename_i b hb
    have h2 := inv_set h hx (g := .over) (by rw [hb]; simp) (by simp) (by
      intro b' hb'
      rcases hb' with hb' | hb' <;> cases hb')
    refine ⟨h2.mem, h2.parts, ?_, h2.closed, h2.waiting, h2.returned⟩
    intro y hy
    rcases List.mem_append.1 hy with hy | hy
    · exact h.out y hy
    · rw [List.mem_singleton] at hy
      rw [hy]
      exact h.parts x (List.mem_of_getElem? hx) b (.inr hb)
  | finish =>
    simp only [step] at hs
    split at hs <;> cases hs
    rename_i hc
    refine ⟨h.mem, h.parts, h.out, fun _ x hx => ?_, h.waiting, h.returned⟩
    have := List.all_eq_true.1 hc.1 x hx
    simpa using this
  | wait =>
    simp only [step] at hs
    split at hs <;> cases hs
    rename_i hc
    refine ⟨fun _ => h.mem (by rw [hc.1]; simp), h.parts, h.out, h.closed, ?_, by simp⟩
    intro hm _ x hx
    have hw := hc.2
    unfold mayWait at hw
    split at hw
    · rw [h.closed hw x hx]; simp
    · simpa using List.all_eq_true.1 hw x hx
    · rename_i hm'; exact absurd hm' hm
  | ret =>
    simp only [step] at hs
    split at hs <;> cases hs
    rename_i hc
    have hrel : Released s := by
      by_cases hm : s.mode = .fragmented
      · have hctx : s.ctx = false := by
          rcases hok with h1 | h1
          · exact absurd hm h1
          · exact h1
        rcases hc.2 with h1 | h1
        · intro x hx; rw [h.closed h1 x hx]; simp
        · rw [hctx] at h1; cases h1
      · exact h.waiting hm (by rw [hc.1]; simp)
    exact ⟨by simp, h.parts, h.out, h.closed, fun _ _ => hrel, fun _ => hrel⟩
  | cancel => cases hs; exact ⟨h.mem, h.parts, h.out, h.closed, h.waiting, h.returned⟩
  | close => cases hs; exact ⟨h.mem, h.parts, h.out, h.closed, h.waiting, h.returned⟩
  | overwrite b =>
    simp only [step] at hs
    split at hs <;> cases hs
    rename_i hc
    exact ⟨fun hn => absurd hc.1 hn, h.parts, h.out, h.closed, h.waiting, h.returned⟩

/-- The mode does not change, and the context does not come back. -/
theorem step_back {s s' : State} {a : Act} (hs : step s a = .ok s') : s'.mode = s.mode ∧ (s'.ctx = false → s.ctx = false) := by
  cases a <;> simp only [step] at hs <;> (repeat' split at hs) <;> cases hs <;> exact ⟨rfl, by first | exact id | (intro h; cases h)⟩

theorem start_fresh {cfg : Send.Cfg} {p : Bytes} {x : Mode × List Part} (h : start cfg p = some x) :
    ∀ y ∈ x.2, y.progress = .fresh := by
  unfold start at h
  split at h
  · split at h
    · cases hf : Send.fragments cfg 0 p with
      | none => rw [hf] at h; cases h
      | some fs =>
        rw [hf] at h; cases h
        intro y hy
        obtain ⟨f, -, rfl⟩ := List.mem_map.1 hy
        rfl
    · cases h
  · cases h
    intro y hy
    rw [List.mem_singleton] at hy
    rw [hy]

theorem inv_reachable {cfg : Send.Cfg} {p : Bytes} {x : Mode × List Part} (hx : start cfg p = some x) {s : State}
    (hr : Reachable (State.init p x) s) (hok : s.mode ≠ .fragmented ∨ s.ctx = false) : Inv p s := by
  induction hr with
  | init =>
    refine ⟨fun _ => rfl, ?_, by simp [State.init], by simp [State.init], by simp [State.init], by simp [State.init]⟩
    intro y hy b hb
    rw [start_fresh hx y hy] at hb
    rcases hb with hb | hb <;> cases hb
  | step a hr hs ih =>
    obtain ⟨h1, h2⟩ := step_back hs
    refine inv_step (ih ?_) hs hok
    rw [← h1]
    exact hok.imp_right h2

/-- C117, the part that holds: if the message is not fragmented, or as long as the context has not ended, then whatever
the session gives to its backend for this call is a part of the slice as it was when `Write` was called, and after the
return nobody reads the slice.  Missing: fragmented messages in sessions whose context ends (`C117_violated`). -/
theorem C117_partial {cfg : Send.Cfg} {p : Bytes} {x : Mode × List Part} (hx : start cfg p = some x) {s : State}
    (hr : Reachable (State.init p x) s) (hok : s.mode ≠ .fragmented ∨ s.ctx = false) :
    (∀ y ∈ s.out, At p y.1 y.2) ∧ (s.call = .returned → Released s) :=
  ⟨(inv_reachable hx hr hok).out, (inv_reachable hx hr hok).returned⟩

/-- C117: messages up to the established payload size are never fragmented. -/
theorem C117_small {cfg : Send.Cfg} {p : Bytes} (hp : p.length ≤ cfg.established.toNat) {x : Mode × List Part}
    (hx : start cfg p = some x) {s : State} (hr : Reachable (State.init p x) s) :
    (∀ y ∈ s.out, At p y.1 y.2) ∧ (s.call = .returned → Released s) := by
  have hm : x.1 ≠ .fragmented := by
    unfold start at hx
    rw [if_neg (by have := Nat.mod_le p.length (2 ^ 32); unfold Send.len32; omega)] at hx
    cases hx
    cases cfg.delay <;> simp
  refine C117_partial hx hr (.inl ?_)
  have : s.mode = x.1 := by
    induction hr with
    | init => rfl
    | step a _ hs ih => rw [(step_back hs).1, ih]
  rw [this]
  exact hm

/-! ### Examples -/

theorem runActs_reachable {s0 : State} : ∀ (as : List Act) {s s' : State}, Reachable s0 s → runActs s as = .ok s' →
    Reachable s0 s' := by
  intro as
  induction as with
  | nil => intro s s' h hs; simp only [runActs, Outcome.ok.injEq] at hs; subst hs; exact h
  | cons a as ih =>
    intro s s' h hs
    simp only [runActs] at hs
    split at hs <;> try (simp only [reduceCtorEq] at hs; done)
    rename_i s1 h1
    exact ih (.step a h h1) hs

def okState (s0 : State) : Outcome Unit State → State
  | .ok s => s
  | _ => s0

/-- A message of 60 bytes in fragments of 26. -/
def secret60 : Bytes := List.replicate 60 7
def cfg50 : Send.Cfg := ⟨50, true, false⟩
def begin60 : State := State.init secret60 ((start cfg50 secret60).getD (.now, []))
def run60 (as : List Act) : State := okState begin60 (runActs begin60 as)
def sendPart (i : Nat) : List Act := [.copy i, .check i, .write i]

theorem run60_reachable {as : List Act} (h : runActs begin60 as = .ok (run60 as)) : Reachable begin60 (run60 as) :=
  runActs_reachable as .init h

/-- Everything is sent, then the caller uses the slice again. -/
def orderly : List Act := .wait :: sendPart 1 ++ sendPart 0 ++ sendPart 2 ++ [.finish, .ret, .overwrite (List.replicate 60 9)]

example : start cfg50 secret60 = some (.fragmented, [⟨0, 26, .fresh⟩, ⟨26, 26, .fresh⟩, ⟨52, 8, .fresh⟩]) ∧
    Reachable begin60 (run60 orderly) ∧ (run60 orderly).ctx = false ∧ (run60 orderly).call = .returned ∧
    (run60 orderly).out.length = 3 ∧ (run60 orderly).mem ≠ secret60 :=
  ⟨by decide +kernel, run60_reachable (by decide +kernel), by decide +kernel, by decide +kernel, by decide +kernel, by decide +kernel⟩

example : (start ⟨50, false, true⟩ [1, 2, 3] = some (.later, [⟨0, 3, .fresh⟩])) ∧ [1, 2, 3].length ≤ (50 : W32).toNat := by
  decide +kernel

/-- The context ends while the goroutines of the fragments have not begun. -/
def early : List Act := [.wait, .cancel, .ret, .overwrite (List.replicate 60 9)] ++ sendPart 0

/-- Negation of C117: the context of the session ends (the session itself has not noticed yet), `Write` returns, the
caller puts other data into its slice, and the session sends these data. -/
theorem C117_violated : ∃ s, start cfg50 secret60 = some (.fragmented, begin60.parts) ∧ Reachable begin60 s ∧
    s.call = .returned ∧ ¬ Released s ∧ s.out = [(0, List.replicate 26 9)] ∧ ¬ At secret60 0 (List.replicate 26 9) := by
  refine ⟨run60 early, by decide +kernel, run60_reachable (by decide +kernel), by decide +kernel, ?_, by decide +kernel, ?_⟩
  · intro h
    have : (⟨26, 26, .fresh⟩ : Part) ∈ (run60 early).parts := by decide +kernel
    exact h _ this rfl
  · unfold At; decide +kernel

#print axioms C117_partial
#print axioms C117_small
#print axioms C117_violated

end Verif.WriteBuf
