import Verif.Spec.MutualError
/-!
# C165: the error of `MutualConfirmationOfIdentity`
-/
namespace Verif.MutualError

/-- What holds in all executions. -/
structure Inv (o : Opts) (s : State) : Prop where
  begun : s.call = .begin → s.running = false ∧ s.fails = 0
  early : s.call = .begin ∨ s.call = .writing ∨ s.call = .reading → s.own = none ∧ s.keys = none
  late : s.call = .deferred ∨ s.call = .done → (s.own = none ↔ s.keys = some true)
  own : ∀ e, s.own = some e → s.ret = some e ∨ s.ret = some .cannotDecrypt
  none : s.own = none → s.ret = none ∨ s.ret = some .cannotDecrypt
  told : s.ret = some .cannotDecrypt → true ∈ s.reports ∧ o.handled = false
  ne : s.own ≠ some .cannotDecrypt
  live : s.call = .done → s.running = false
  few : s.running = true → s.fails < 2
  thr : (∀ n, threshold o = some n → 3 ≤ n) → true ∉ s.reports

theorem inv_init (o : Opts) : Inv o State.init := by
  constructor <;> simp [State.init]

theorem inv_step {o : Opts} {s s' : State} {a : Act} (h : Inv o s) (hs : step o s a = some s') : Inv o s' := by
  obtain ⟨h1, h2, h3, h4, h5, h6, h7, hl, h8, h9⟩ := h
  cases a with
  | start x y => cases x <;> cases y <;> simp only [step, State.fail] at hs <;> constructor <;> grind
  | bad =>
    simp only [step] at hs
    split at hs
    · rename_i hr
      simp only [Option.some.injEq] at hs
      subst hs
      have hf := h8 hr
      unfold State.undecryptable
      cases ht : threshold o with
      | none =>
        simp only [detachOn]
        constructor <;> grind
      | some n =>
        have h9' : 3 ≤ n → true ∉ s.reports := fun hn => h9 (by rw [ht]; intro m hm; grind)
        simp only [detachOn, State.report]
        cases hh : o.handled <;> constructor <;> grind
    · simp at hs
  | good l => simp only [step] at hs; constructor <;> grind
  | error =>
    simp only [step, State.report] at hs
    cases hh : o.handled <;> constructor <;> grind
  | readerEnd => simp only [step] at hs; constructor <;> grind
  | write x => cases x <;> simp only [step, State.fail] at hs <;> constructor <;> grind
  | read x => cases x <;> simp only [step, State.readNil, State.fail] at hs <;> constructor <;> grind
  | finish => simp only [step] at hs; constructor <;> grind

theorem inv_run {o : Opts} : ∀ (as : List Act) {s s' : State}, Inv o s → run o s as = some s' → Inv o s' := by
  intro as
  induction as with
  | nil => intro s s' h hs; simp only [run, Option.some.injEq] at hs; exact hs ▸ h
  | cons a as ih =>
    intro s s' h hs
    simp only [run, Option.bind_eq_some_iff] at hs
    obtain ⟨s1, h1, h2⟩ := hs
    exact ih (inv_step h h1) h2

/-- C165, the part that holds for all options: no error means four keys. -/
theorem C165_no_error {o : Opts} {as : List Act} {s : State} (h : run o State.init as = some s) (hd : s.call = .done)
    (he : s.ret = none) : s.keys = some true := by
  have hi := inv_run as (inv_init o) h
  refine (hi.late (.inr hd)).1 ?_
  cases ho : s.own with
  | none => rfl
  | some e => rcases hi.own e ho with h1 | h1 <;> rw [he] at h1 <;> simp at h1

/-- C165, the part that holds for the default options: if `ErrorOnSequentialDecryptFailsCount` is left to the default, is
zero or more than two, then four keys mean that there is no error.  Missing: the values one and two. -/
theorem C165_keys_partial {o : Opts} {as : List Act} {s : State} (ht : o.errorOn ≠ some 1 ∧ o.errorOn ≠ some 2)
    (h : run o State.init as = some s) : KeysOrError s := by
  intro hd
  have hi := inv_run as (inv_init o) h
  refine ⟨C165_no_error h hd, fun hk => ?_⟩
  have ho := (hi.late (.inr hd)).2 hk
  rcases hi.none ho with h1 | h1
  · exact h1
  · refine absurd (hi.told h1).1 (hi.thr ?_)
    intro n hn
    unfold threshold at hn
    split at hn
    · simp at hn
    · rename_i hz
      simp only [Option.some.injEq] at hn
      cases he : o.errorOn with
      | none => rw [he] at hn; simp at hn; omega
      | some m =>
        rw [he] at hn hz
        simp only [Option.getD_some] at hn hz
        have h2 : m ≠ 1 := fun e => ht.1 (by rw [he, e])
        have h3 : m ≠ 2 := fun e => ht.2 (by rw [he, e])
        omega

/-- C165: with these options nobody is ever told that the packets of the other side cannot be decrypted, neither the
handler of the caller nor by the error returned: the reader loop ends after two failures. -/
theorem C165_default_silent {o : Opts} {as : List Act} {s : State} (ht : o.errorOn ≠ some 1 ∧ o.errorOn ≠ some 2)
    (h : run o State.init as = some s) : true ∉ s.reports ∧ s.ret ≠ some .cannotDecrypt := by
  have hi := inv_run as (inv_init o) h
  have hr : true ∉ s.reports := by
    refine hi.thr fun n hn => ?_
    unfold threshold at hn
    split at hn
    · simp at hn
    · rename_i hz
      simp only [Option.some.injEq] at hn
      cases he : o.errorOn with
      | none => rw [he] at hn; simp at hn; omega
      | some m =>
        rw [he] at hn hz
        simp only [Option.getD_some] at hn hz
        have h2 : m ≠ 1 := fun e => ht.1 (by rw [he, e])
        have h3 : m ≠ 2 := fun e => ht.2 (by rw [he, e])
        omega
  exact ⟨hr, fun he => hr (hi.told he).1⟩

/-- Does the result hide an error that the call had met before? -/
def Hides (s : State) : Prop := s.own ≠ none ∧ s.ret = some .cannotDecrypt

theorem hides_step {o : Opts} {s s' : State} {a : Act} (h : Inv o s) (hn : ¬ Hides s) (hs : step o s a = some s')
    (hh : Hides s') : a = .bad ∧ s.call = .deferred ∧ s.own ≠ none := by
  obtain ⟨h1, h2, h3, h4, h5, h6, h7, hl, h8, h9⟩ := h
  unfold Hides at hn hh
  cases a with
  | start x y => cases x <;> cases y <;> simp only [step, State.fail] at hs <;> grind
  | bad =>
    simp only [step] at hs
    split at hs
    · rename_i hr
      simp only [Option.some.injEq] at hs
      subst hs
      have ho : (s.undecryptable o).own = s.own := by
        unfold State.undecryptable State.report; grind
      rw [ho] at hh
      refine ⟨rfl, ?_, hh.1⟩
      cases hc : s.call <;> grind
    · simp at hs
  | good l => simp only [step] at hs; grind
  | error => simp only [step, State.report] at hs; grind
  | readerEnd => simp only [step] at hs; grind
  | write x => cases x <;> simp only [step, State.fail] at hs <;> grind
  | read x => cases x <;> simp only [step, State.readNil, State.fail] at hs <;> grind
  | finish => simp only [step] at hs; grind

theorem hides_run {o : Opts} : ∀ (as : List Act) {s s' : State}, Inv o s → ¬ Hides s → run o s as = some s' → Hides s' →
    ∃ as1 as2 s1, as = as1 ++ .bad :: as2 ∧ run o s as1 = some s1 ∧ s1.call = .deferred ∧ s1.own ≠ none := by
  intro as
  induction as with
  | nil => intro s s' _ hn hs hh; simp only [run, Option.some.injEq] at hs; exact absurd (hs ▸ hh) hn
  | cons a as ih =>
    intro s s' h hn hs hh
    simp only [run, Option.bind_eq_some_iff] at hs
    obtain ⟨s1, h1, h2⟩ := hs
    by_cases hh1 : Hides s1
    · obtain ⟨rfl, h3, h4⟩ := hides_step h hn h1 hh1
      exact ⟨[], as, s, rfl, rfl, h3, h4⟩
    · obtain ⟨as1, as2, s2, rfl, h4, h5⟩ := ih (inv_step h h1) hh1 h2 hh
      exact ⟨a :: as1, as2, s2, rfl, by simp [run, h1, h4], h5⟩

/-- C165: `ErrCannotDecrypt` is returned only beside keys, or for a packet that came after the call had already failed for
another reason. -/
theorem C165_only {o : Opts} {as : List Act} {s : State} (h : run o State.init as = some s) (hd : s.call = .done)
    (he : s.ret = some .cannotDecrypt) : s.keys = some true ∨
      ∃ as1 as2 s1, as = as1 ++ .bad :: as2 ∧ run o State.init as1 = some s1 ∧ s1.call = .deferred ∧ s1.own ≠ none := by
  have hi := inv_run as (inv_init o) h
  cases ho : s.own with
  | none => exact .inl ((hi.late (.inr hd)).1 ho)
  | some e => exact .inr (hides_run as (inv_init o) (by simp [Hides, State.init]) h ⟨by simp [ho], he⟩)

/-- Options with `ErrorOnSequentialDecryptFailsCount` one. -/
def atOnce : Opts := ⟨some 1, false⟩

/-- The other side has another PSK: its packets cannot be decrypted, the handler is told, the session is closed, `Write`
fails. -/
def wrongPSK : List Act := [.start true true, .bad, .write false, .readerEnd, .finish]

/-- The message of the other side has arrived; then it uses the backend for its own purposes, which the session still
reads. -/
def lateBytes : List Act := [.start true true, .write true, .good [0], .bad, .read true, .readerEnd, .finish]

/-- C165 is violated: the call replaces the `ErrCannotDecrypt` of its handler. -/
theorem C165_violated_why : ∃ o as s, run o State.init as = some s ∧ ¬ SaysWhy s :=
  ⟨atOnce, wrongPSK, ⟨.done, false, 1, [], true, none, some .write, some .write, [true]⟩, by decide +kernel, by
    unfold SaysWhy; decide +kernel⟩

/-- C165 is violated: keys and an error. -/
theorem C165_violated_keys : ∃ o as s, run o State.init as = some s ∧ ¬ KeysOrError s :=
  ⟨atOnce, lateBytes, ⟨.done, false, 1, [], true, some true, some .cannotDecrypt, none, [true]⟩, by decide +kernel, by
    unfold KeysOrError; decide +kernel⟩

/-- With the default options the wrong PSK is reported as an error of `Write` or `Read`. -/
example : (run ⟨none, false⟩ State.init [.start true true, .bad, .bad, .write false, .finish]).map (fun s => (s.ret, s.reports)) =
    some (some .write, []) := by decide +kernel

/-- A call that works, whatever the options are. -/
example : [⟨none, false⟩, ⟨some 0, true⟩, ⟨some 1, false⟩, ⟨some 5, false⟩].all (fun o =>
    (run o State.init [.start true true, .write true, .good [0], .read true, .readerEnd, .finish]).map
      (fun s => (s.call, s.keys, s.ret)) == some (.done, some true, none)) = true := by decide +kernel

/-- Messages are read in the order in which they came. -/
example : (run atOnce State.init [.start true true, .write true, .good [0], .good [3], .read true, .readerEnd, .finish]).map
      (fun s => (s.call, s.keys, s.ret)) = some (.done, some true, none) ∧
    (run atOnce State.init [.start true true, .write true, .good [3], .good [0], .read true, .readerEnd, .finish]).map
      (fun s => (s.call, s.keys, s.ret)) = some (.done, none, some .read) := by decide +kernel

/-- The other ways to fail. -/
example : [([.start false true], none, some Err.onStart), ([.start true false], none, some .start),
    ([.start true true, .write true, .good [3], .read true, .readerEnd, .finish], none, some .read),
    ([.start true true, .write true, .readerEnd, .read true, .finish], none, some .read),
    ([.start true true, .write true, .good [0], .read false, .readerEnd, .finish], some false, some .canceled)].all (fun x =>
    (run atOnce State.init x.1).map (fun s => (s.call, s.keys, s.ret)) == some (.done, x.2.1, x.2.2)) = true := by decide +kernel

/-- The threshold, and what resets the count. -/
example : ([none, some 0, some 1, some 2, some 7].map fun n => threshold ⟨n, false⟩) =
      [some 3, none, some 1, some 2, some 7] ∧
    (run ⟨some 2, false⟩ State.init [.start true true, .bad, .good [], .bad]).map (fun s => (s.reports, s.running)) =
      some ([], true) ∧
    (run ⟨some 2, false⟩ State.init [.start true true, .bad, .bad]).map (fun s => (s.reports, s.running, s.closed)) =
      some ([true], false, true) ∧
    (run ⟨some 2, true⟩ State.init [.start true true, .bad, .bad]).map (fun s => (s.reports, s.closed, s.ret)) =
      some ([true], false, none) ∧
    (run atOnce State.init [.start true true, .error]).map (fun s => (s.reports, s.closed, s.ret)) =
      some ([false], true, none) := by decide +kernel

/-- Each failure from the threshold on is reported, not only the one that reaches it. -/
example : (run atOnce State.init [.start true true, .bad, .bad]).map (fun s => (s.reports, s.running)) =
      some ([true, true], false) ∧
    (run atOnce State.init [.start true true, .bad, .good [], .bad]).map (fun s => (s.reports, s.running)) =
      some ([true, true], true) := by decide +kernel

/-- An `ErrCannotDecrypt` that comes while the call waits for the closure takes the place of its error. -/
example : (run atOnce State.init [.start true true, .write false, .bad, .readerEnd, .finish]).map (fun s => (s.ret, s.own)) =
    some (some .cannotDecrypt, some .write) := by decide +kernel

/-- What is not possible. -/
example : [[.bad], [.finish], [.write true], [.start true true, .read true], [.start true true, .start true true],
    [.start true true, .write true, .read true], [.start true true, .write false, .finish],
    [.start true true, .readerEnd, .bad], [.start true true, .readerEnd, .good [0]], [.start true true, .readerEnd, .error]].all
    (fun as => run atOnce State.init as == none) = true := by decide +kernel

#print axioms C165_no_error
#print axioms C165_keys_partial
#print axioms C165_default_silent
#print axioms C165_only
#print axioms C165_violated_why
#print axioms C165_violated_keys

end Verif.MutualError
