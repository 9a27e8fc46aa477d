import Verif.Model.Handlers
/-!
# C134: the functions given to `SetHandlerFuncs` are called

"`handle` handles incoming traffic/messages. `onError` handles errors." (session.go:1349-1350)
-/
namespace Verif.Handlers

/-- The last registration of the type, with its number. -/
def Last {ε : Type} (regs : List (W32 × Funcs ε)) (t : W32) (i : Nat) (f : Funcs ε) : Prop :=
  regs[i]? = some (t, f) ∧ ∀ j x, i < j → regs[j]? = some x → x.1 ≠ t

/-- What a message of type `t` has to cause after these registrations, `onError` apart: the function registered last gets it, and if
it returns an error `Error` of the session is called with this error. -/
def Due {ε : Type} (regs : List (W32 × Funcs ε)) (t : W32) (b : Bytes) (out : List (Call ε)) : Prop :=
  ((∀ x ∈ regs, x.1 ≠ t) ∧ out = []) ∨
  ∃ i f, Last regs t i f ∧
    ((f.handle = none ∧ out = []) ∨
     ∃ h, f.handle = some h ∧
      ((h b = none ∧ out = [.handle i b]) ∨
       ∃ e, h b = some e ∧ out = [.handle i b, .sessionError (.unableToHandle (.fromFunc (.user e)))]))

/-- The calls belong to the messages, in order. -/
inductive Follows {ε : Type} : List (W32 × Funcs ε) → List (Ev ε) → List (Call ε) → Prop
  | nil {regs} : Follows regs [] []
  | set {regs t f es out} : Follows (regs ++ [(t, f)]) es out → Follows regs (.set t f :: es) out
  | message {regs t b es out1 out2} : Due regs t b out1 → Follows regs es out2 → Follows regs (.message t b :: es) (out1 ++ out2)

def Inv {ε : Type} (s : State ε) : Prop :=
  ∀ t, match s.messenger t with
    | none => ∀ x ∈ s.regs, x.1 ≠ t
    | some i => ∃ f, Last s.regs t i f

theorem inv_init {ε : Type} : Inv (State.init : State ε) := by
  intro t x hx; cases hx

theorem inv_step {ε : Type} {s : State ε} (h : Inv s) (e : Ev ε) : Inv (step s e).1 := by
  cases e with
  | set t f =>
    intro u
    have hu := h u
    simp only [step]
    by_cases hut : u = t
    · subst hut
      simp only [if_true]
      refine ⟨f, by simp, fun j x hj hx => ?_⟩
      have := (List.getElem?_eq_some_iff.1 hx).1
      simp at this; omega
    · simp only [if_neg hut]
      split at hu
      · intro x hx
        rcases List.mem_append.1 hx with hx | hx
        · exact hu x hx
        · simp only [List.mem_singleton] at hx; rw [hx]; exact fun h => hut h.symm
      · rename_i i hm
        obtain ⟨g, h1, h2⟩ := hu
        have hi := (List.getElem?_eq_some_iff.1 h1).1
        refine ⟨g, by rw [List.getElem?_append_left hi]; exact h1, fun j x hj hx => ?_⟩
        rw [List.getElem?_append] at hx
        split at hx
        · exact h2 j x hj hx
        · rw [List.getElem?_singleton] at hx
          split at hx <;> cases hx
          exact fun h => hut h.symm
  | message t b =>
    simp only [step]
    split
    · exact h
    · split <;> exact h

theorem due_step {ε : Type} {s : State ε} (h : Inv s) (t : W32) (b : Bytes) : Due s.regs t b (step s (.message t b)).2 := by
  have ht := h t
  simp only [step]
  split at ht
  · rename_i hm
    rw [hm]
    exact .inl ⟨ht, rfl⟩
  · rename_i i hm
    rw [hm]
    obtain ⟨f, hl⟩ := ht
    refine .inr ⟨i, f, hl, ?_⟩
    simp only [hl.1, Funcs.Handle]
    cases hf : f.handle with
    | none => exact .inl ⟨rfl, rfl⟩
    | some g =>
      refine .inr ⟨g, rfl, ?_⟩
      cases hg : g b with
      | none => exact .inl ⟨rfl, by simp [hg]⟩
      | some e => exact .inr ⟨e, rfl, by simp [hg]⟩

/-- C134, what holds, for all registrations and messages in any order: each message causes exactly one call of the function that was
registered last for its type, in order, and an error it returns is reported to the event handler of the session. -/
theorem C134_partial {ε : Type} (es : List (Ev ε)) : Follows [] es (run State.init es) := by
  have key : ∀ (es : List (Ev ε)) (s : State ε), Inv s → Follows s.regs es (run s es) := by
    intro es
    induction es with
    | nil => intro s _; exact .nil
    | cons e es ih =>
      intro s h
      have h1 := inv_step h e
      cases e with
      | set t f => exact .set (ih _ h1)
      | message t b =>
        have hs : (step s (.message t b)).1 = s := by
          simp only [step]
          split
          · rfl
          · split <;> rfl
        have h2 := ih _ h1
        simp only [run]
        rw [hs] at h2 ⊢
        exact .message (due_step h t b) h2
  exact key es _ inv_init

theorem follows_regs {ε : Type} {regs : List (W32 × Funcs ε)} {es : List (Ev ε)} {out : List (Call ε)} (h : Follows regs es out) :
    ∀ c ∈ out, ∀ i e, c ≠ .onError i e := by
  induction h with
  | nil => intro c hc; cases hc
  | set _ ih => exact ih
  | message hd _ ih =>
    intro c hc i e hce
    rcases List.mem_append.1 hc with hc | hc
    · subst hce
      rcases hd with ⟨_, rfl⟩ | ⟨i, f, _, ⟨_, rfl⟩ | ⟨h, _, ⟨_, rfl⟩ | ⟨e, _, rfl⟩⟩⟩ <;> simp at hc
    · exact ih c hc i e hce

/-- C134 is violated: the function `onError` is never called, whatever messages come and whatever `handle` returns. -/
theorem C134_violated {ε : Type} (es : List (Ev ε)) (i : Nat) (e : Err ε) : .onError i e ∉ run State.init es :=
  fun h => follows_regs (C134_partial es) _ h i e rfl

/-- A function that fails, with an `onError`. -/
theorem C134_violated_example : run State.init [.set 5 ⟨some fun _ => some "no", some ()⟩, .message 5 [1]] =
    [Call.handle 0 [1], .sessionError (.unableToHandle (.fromFunc (.user "no")))] := rfl

/-- Two registrations of one type and one of another. -/
example : run State.init [.set 5 ⟨some fun _ => some 1, none⟩, .set 6 ⟨some fun _ => none, none⟩, .set 5 ⟨some fun _ => none, none⟩,
    .message 5 [7], .message 6 [8], .message 7 [9]] = [Call.handle 2 [7], .handle 1 [8]] := rfl

/-- `HandleError` would call the function of its own registration, and only that, if it were called. -/
example : Funcs.HandleError (⟨none, some ()⟩ : Funcs Nat) 2 (.user 1) = [.onError 2 (.user 1)] ∧
    Funcs.HandleError (⟨some fun _ => none, none⟩ : Funcs Nat) 2 (.user 1) = [] := ⟨rfl, rfl⟩

#print axioms C134_partial
#print axioms C134_violated
#print axioms C134_violated_example

end Verif.Handlers
