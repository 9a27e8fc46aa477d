import Verif.Lemmas.Sync
import Verif.Spec.Wait
/-!
# Who sets a flag
-/
namespace Verif.Sync
open Calls

/-- The program does not set the flag, in whatever session. -/
def neverSets (f : Flag) : Prog → Bool
  | .seq p q | .alt p q => neverSets f p && neverSets f q
  | .loop p | .on _ p | .lock _ p | .rlock _ p => neverSets f p
  | .set g => g != f
  | _ => true

theorem never_run {W : World} {f : Flag} (hW : ∀ s c, neverSets f (W.code s c) = true) {s : Nat} {p : Prog} {t : List Ev}
    (h : Run W s p t) : neverSets f p = true → ∀ s', Ev.set s' f ∉ t := by
  induction h with
  | skip | stop | acc | wait | send | recv => intro _ s'; simp
  | seq _ _ ih1 ih2 =>
    intro hp s'
    simp only [neverSets, Bool.and_eq_true] at hp
    simp [ih1 hp.1 s', ih2 hp.2 s']
  | again _ _ ih1 ih2 =>
    intro hp s'
    simp [ih1 hp s', ih2 hp s']
  | left _ ih =>
    intro hp
    simp only [neverSets, Bool.and_eq_true] at hp
    exact ih hp.1
  | right _ ih =>
    intro hp
    simp only [neverSets, Bool.and_eq_true] at hp
    exact ih hp.2
  | lock _ ih | rlock _ ih =>
    intro hp s'
    simp [ih hp s']
  | set =>
    intro hp s'
    simp only [neverSets, bne_iff_ne] at hp
    simp [Ne.symm hp]
  | user _ ih => intro _; exact ih (hW _ _)
  | on _ ih => intro hp; exact ih hp

theorem neverSets_user {f : Flag} (hm : ∀ m : Method, neverSets f m.prog = true) {p : Prog} (h : UserCode (fun _ => true) p) :
    neverSets f p = true := by
  induction h with
  | skip => rfl
  | seq _ _ ih1 ih2 | alt _ _ ih1 ih2 => simp only [neverSets, ih1, ih2, Bool.and_self]
  | loop _ ih | on _ ih => simp only [neverSets, ih]
  | method => exact hm _

/-! ## Flags and steps -/

theorem exec_flags {cap : Nat → Nat} {st st1 : State} {held held' : List (Nat × LockName × Bool)} {e : Ev}
    (h : exec cap st held e = some (st1, held')) :
    st1.flags = st.flags ∨ ∃ s f, e = .set s f ∧ st1.flags = (s, f) :: st.flags := by
  cases e with
  | acq s l w => cases w <;> (simp only [exec] at h; split at h <;> cases h; exact .inl rfl)
  | rel | acc => simp only [exec] at h; cases h; exact .inl rfl
  | set s f => simp only [exec] at h; cases h; exact .inr ⟨s, f, rfl, rfl⟩
  | wait | put | take => simp only [exec] at h; split at h <;> cases h; exact .inl rfl

theorem flags_mono {cap : Nat → Nat} {st st' : State} (h : Reachable cap st st') : ∀ x ∈ st.flags, x ∈ st'.flags := by
  induction h with
  | init => exact fun _ h => h
  | step _ hs ih =>
    intro x hx
    obtain ⟨e, todo, held, st1, held', -, h2, -, -, h5, -⟩ := step_threads hs
    rw [h5]
    rcases exec_flags h2 with h | ⟨s, f, -, h⟩
    · rw [h]; exact ih x hx
    · rw [h]; exact List.mem_cons_of_mem _ (ih x hx)

/-- What another goroutine has to do does not change by a step. -/
theorem next_other {st st' : State} {i j : Nat} {x : Thread} (h4 : st'.threads = st.threads.set i x) (hij : i ≠ j) :
    st'.threads[j]? = st.threads[j]? := by rw [h4, List.getElem?_set_ne hij]

theorem reachable_trans {cap : Nat → Nat} {a b c : State} (h1 : Reachable cap a b) (h2 : Reachable cap b c) : Reachable cap a c := by
  induction h2 with
  | init => exact h1
  | step _ hs ih => exact ih.step hs

/-- A step of goroutine `i` keeps what all other goroutines have to do. -/
theorem threads_cases {cap : Nat → Nat} {st st' : State} {i : Nat} (h : step cap st i = some st') :
    ∃ e todo held held', st.threads[i]? = some ⟨e :: todo, held⟩ ∧ st'.threads[i]? = some ⟨todo, held'⟩ ∧
      (∀ j, j ≠ i → st'.threads[j]? = st.threads[j]?) ∧
      (st'.flags = st.flags ∨ ∃ s f, e = .set s f ∧ st'.flags = (s, f) :: st.flags) ∧
      (∀ s fs, e = .wait s fs → ∃ f ∈ fs, (s, f) ∈ st.flags) := by
  obtain ⟨e, todo, held, st1, held', h1, h2, h3, h4, h5, -⟩ := step_threads h
  have hi : i < st.threads.length := (List.getElem?_eq_some_iff.1 h1).1
  refine ⟨e, todo, held, held', h1, by rw [h4]; simp [hi], fun j hj => next_other h4 (Ne.symm hj), by rw [h5]; exact exec_flags h2, ?_⟩
  rintro s fs rfl
  simp only [exec] at h2
  split at h2
  · next hf =>
    simp only [List.any_eq_true, List.contains_eq_mem, decide_eq_true_eq] at hf
    exact hf
  · cases h2

/-- A goroutine that waits for flags which nobody else sets waits for ever. -/
theorem waits_forever {cap : Nat → Nat} {st st' : State} (h : Reachable cap st st') {r s : Nat} {fs : List Flag}
    (hn : st.next r = some (.wait s fs)) (hu : ∀ f ∈ fs, (s, f) ∉ st.flags)
    (ho : ∀ j, j ≠ r → ∀ t, st.threads[j]? = some t → ∀ f ∈ fs, Ev.set s f ∉ t.todo) :
    st'.next r = some (.wait s fs) ∧ ∀ f ∈ fs, (s, f) ∉ st'.flags := by
  suffices st'.next r = some (.wait s fs) ∧ (∀ f ∈ fs, (s, f) ∉ st'.flags) ∧
      ∀ j, j ≠ r → ∀ t, st'.threads[j]? = some t → ∀ f ∈ fs, Ev.set s f ∉ t.todo from ⟨this.1, this.2.1⟩
  induction h with
  | init => exact ⟨hn, hu, ho⟩
  | @step st1 i st2 _ hs ih =>
    obtain ⟨ih1, ih2, ih3⟩ := ih
    obtain ⟨e, todo, held, held', h1, h2, h3, h4, h5⟩ := threads_cases hs
    have hir : i ≠ r := by
      rintro rfl
      simp only [State.next, h1, Option.bind_some, List.head?_cons, Option.some.injEq] at ih1
      obtain ⟨f, hf, hf'⟩ := h5 s fs ih1
      exact ih2 f hf hf'
    refine ⟨?_, ?_, ?_⟩
    · unfold State.next at ih1 ⊢
      rw [h3 r (Ne.symm hir)]
      exact ih1
    · intro f hf hc
      rcases h4 with h4 | ⟨s', f', rfl, h4⟩
      · rw [h4] at hc; exact ih2 f hf hc
      · rw [h4] at hc
        rcases List.mem_cons.1 hc with hc | hc
        · cases hc
          exact ih3 i hir _ h1 f hf (by simp)
        · exact ih2 f hf hc
    · intro j hj t ht f hf
      by_cases hji : j = i
      · subst hji
        rw [h2] at ht
        cases ht
        have := ih3 j hj _ h1 f hf
        simp only [List.mem_cons, not_or] at this
        exact this.2
      · rw [h3 j hji] at ht
        exact ih3 j hj t ht f hf

/-! ## The goroutines of the session -/

/-- What a goroutine has still to do is the end of its run. -/
theorem todo_suffix {cap : Nat → Nat} {runs : List (List Ev)} {st : State} (h : Reachable cap (start runs) st) :
    ∀ (j : Nat) (t : Thread), st.threads[j]? = some t → ∃ run, runs[j]? = some run ∧ ∃ done, run = done ++ t.todo := by
  induction h with
  | init =>
    intro j t ht
    simp only [start, List.getElem?_map, Option.map_eq_some_iff] at ht
    obtain ⟨run, hr, rfl⟩ := ht
    exact ⟨run, hr, [], rfl⟩
  | @step st1 i st2 _ hs ih =>
    obtain ⟨e, todo, held, held', h1, h2, h3, -, -⟩ := threads_cases hs
    intro j t ht
    by_cases hji : j = i
    · subst hji
      rw [h2] at ht
      cases ht
      obtain ⟨run, hr, done, hd⟩ := ih j _ h1
      exact ⟨run, hr, done ++ [e], by rw [hd]; simp⟩
    · rw [h3 j hji] at ht
      exact ih j t ht

/-- The program has no call of another session. -/
def noOn : Prog → Bool
  | .seq p q | .alt p q => noOn p && noOn q
  | .loop p | .lock _ p | .rlock _ p => noOn p
  | .on _ _ => false
  | _ => true

/-- A program that calls no other session sets the flag only in its own, if the callbacks do not set it. -/
theorem own_run {W : World} {f : Flag} (hW : ∀ s c, neverSets f (W.code s c) = true) {s : Nat} {p : Prog} {t : List Ev}
    (h : Run W s p t) : noOn p = true → ∀ s', Ev.set s' f ∈ t → s' = s := by
  induction h with
  | skip | stop | acc | wait | send | recv => intro _ s' h; simp at h
  | seq _ _ ih1 ih2 =>
    intro hp s' h
    simp only [noOn, Bool.and_eq_true] at hp
    rcases List.mem_append.1 h with h | h
    · exact ih1 hp.1 s' h
    · exact ih2 hp.2 s' h
  | again _ _ ih1 ih2 =>
    intro hp s' h
    rcases List.mem_append.1 h with h | h
    · exact ih1 hp s' h
    · exact ih2 hp s' h
  | left _ ih =>
    intro hp
    simp only [noOn, Bool.and_eq_true] at hp
    exact ih hp.1
  | right _ ih =>
    intro hp
    simp only [noOn, Bool.and_eq_true] at hp
    exact ih hp.2
  | lock _ ih | rlock _ ih =>
    intro hp s' h
    simp only [List.mem_cons, List.mem_append, reduceCtorEq, List.not_mem_nil, or_false, false_or] at h
    exact ih hp s' h
  | set =>
    intro _ s' h
    simp only [List.mem_singleton, Ev.set.injEq] at h
    exact h.1
  | user hr _ => intro _ s' h; exact absurd h (never_run hW hr (hW _ _) s')
  | on _ _ => intro hp; cases hp

theorem count_two {α : Type} [BEq α] [LawfulBEq α] {a : α} : ∀ {l : List α} {i j : Nat}, l[i]? = some a → l[j]? = some a → i ≠ j → 1 < l.count a
  | [], i, _, h, _, _ => by simp at h
  | x :: l, 0, 0, _, _, h => absurd rfl h
  | x :: l, 0, j + 1, hi, hj, _ => by
    simp only [List.getElem?_cons_zero, Option.some.injEq] at hi
    simp only [List.getElem?_cons_succ] at hj
    subst hi
    have := List.count_pos_iff.2 (List.mem_of_getElem? hj)
    simp only [List.count_cons_self]
    omega
  | x :: l, i + 1, 0, hi, hj, _ => by
    simp only [List.getElem?_cons_zero, Option.some.injEq] at hj
    simp only [List.getElem?_cons_succ] at hi
    subst hj
    have := List.count_pos_iff.2 (List.mem_of_getElem? hi)
    simp only [List.count_cons_self]
    omega
  | x :: l, i + 1, j + 1, hi, hj, h => by
    simp only [List.getElem?_cons_succ] at hi hj
    have := count_two hi hj (by omega)
    rw [List.count_cons]
    omega

/-- The other goroutines do not set a flag of session `s` that only readers set, if `r` is the reader of `s`. -/
theorem others_never {W : World} {f : Flag} (hW : ∀ s c, UserCode (fun _ => true) (W.code s c))
    (hm : ∀ m : Method, neverSets f m.prog = true)
    (hf : ∀ r : Role, (∀ p, r ≠ .user p) → r ≠ .reader → neverSets f r.prog = true)
    {roles : List (Nat × Role)} {runs : List (List Ev)} (ht : Threads W roles runs) {r s : Nat} (hr : roles[r]? = some (s, .reader))
    {j : Nat} (hj : j ≠ r) {run : List Ev} (hrun : runs[j]? = some run) : Ev.set s f ∉ run := by
  have hW' : ∀ s c, neverSets f (W.code s c) = true := fun s c => neverSets_user hm (hW s c)
  obtain ⟨hj', rfl⟩ := List.getElem?_eq_some_iff.1 hrun
  have hj1 : j < roles.length := by rw [ht.length]; exact hj'
  have h := ht.run j hj1 hj'
  have hmem : roles[j] ∈ roles := List.getElem_mem hj1
  have hget : roles[j]? = some roles[j] := List.getElem?_eq_getElem hj1
  generalize hx : roles[j] = x at h hmem hget
  obtain ⟨s', ro⟩ := x
  by_cases h1 : ro = .reader
  · subst h1
    intro hc
    have hs := own_run hW' h (show noOn Calls.reader = true by decide +kernel) s hc
    subst hs
    obtain ⟨hr1, hr2⟩ := List.getElem?_eq_some_iff.1 hr
    have hcount := ht.once _ hmem rfl
    have hlt := count_two hget hr hj
    omega
  · by_cases h2 : ∃ p, ro = .user p
    · obtain ⟨p, rfl⟩ := h2
      exact never_run hW' h (neverSets_user hm (ht.user s' p hmem)) s
    · exact never_run hW' h (hf ro (fun p hp => h2 ⟨p, hp⟩) h1) s

/-! ## A flag that is set at the end -/

/-- The last step of a goroutine sets a flag that nobody sets before: as long as it is not through, the flag is not set. -/
theorem set_last {cap : Nat → Nat} {runs : List (List Ev)} {st : State} (h : Reachable cap (start runs) st) {r s : Nat} {f : Flag}
    {run : List Ev} (hr : runs[r]? = some (run ++ [.set s f])) (h1 : Ev.set s f ∉ run)
    (ho : ∀ j, j ≠ r → ∀ t, runs[j]? = some t → Ev.set s f ∉ t) (hn : st.next r ≠ none) : (s, f) ∉ st.flags := by
  suffices st.threads[r]?.map (·.todo) = some [] ∨ ((s, f) ∉ st.flags ∧ ∃ t held, st.threads[r]? = some ⟨t ++ [.set s f], held⟩ ∧
      Ev.set s f ∉ t) by
    rcases this with h | h
    · exfalso
      apply hn
      cases ht : st.threads[r]? with
      | none => simp [State.next, ht]
      | some x => rw [ht] at h; simp at h; simp [State.next, ht, h]
    · exact h.1
  clear hn
  induction h with
  | init => exact .inr ⟨by simp [start], run, [], by simp [start, hr], h1⟩
  | @step st1 i st2 hst hs ih =>
    obtain ⟨e, todo, held, held', h1', h2, h3, h4, -⟩ := threads_cases hs
    by_cases hir : i = r
    · subst hir
      rcases ih with ih | ⟨ih1, t, held2, ih2, ih3⟩
      · rw [h1'] at ih; cases ih
      · rw [h1'] at ih2
        cases t with
        | nil => cases ih2; exact .inl (by rw [h2]; rfl)
        | cons e' t =>
          simp only [List.cons_append, Option.some.injEq, Thread.mk.injEq, List.cons.injEq] at ih2
          obtain ⟨⟨rfl, rfl⟩, rfl⟩ := ih2
          simp only [List.mem_cons, not_or] at ih3
          refine .inr ⟨?_, t, held', h2, ih3.2⟩
          rcases h4 with h4 | ⟨s', f', rfl, h4⟩
          · rw [h4]; exact ih1
          · rw [h4]
            intro hc
            rcases List.mem_cons.1 hc with hc | hc
            · cases hc; exact ih3.1 rfl
            · exact ih1 hc
    · have hr' := h3 r (Ne.symm hir)
      rcases ih with ih | ⟨ih1, t, held2, ih2, ih3⟩
      · exact .inl (by rw [hr']; exact ih)
      · refine .inr ⟨?_, t, held2, by rw [hr']; exact ih2, ih3⟩
        rcases h4 with h4 | ⟨s', f', rfl, h4⟩
        · rw [h4]; exact ih1
        · rw [h4]
          intro hc
          rcases List.mem_cons.1 hc with hc | hc
          · cases hc
            obtain ⟨run', hr1, done, hd⟩ := todo_suffix hst i _ h1'
            exact ho i hir run' hr1 (by rw [hd]; simp)
          · exact ih1 hc

/-! ## A flag that is set only after another one -/

/-- Every step that sets `f` of session `s` comes after one that waits for `g` alone. -/
def Behind (s : Nat) (g f : Flag) : List Ev → Prop
  | [] => True
  | e :: t => e = .wait s [g] ∨ (e ≠ .set s f ∧ Behind s g f t)

theorem behind_of_never {s : Nat} {g f : Flag} : ∀ {t : List Ev}, Ev.set s f ∉ t → Behind s g f t
  | [], _ => trivial
  | e :: t, h => by
    simp only [List.mem_cons, not_or] at h
    exact .inr ⟨Ne.symm h.1, behind_of_never h.2⟩

theorem behind_append {s : Nat} {g f : Flag} : ∀ {t t' : List Ev}, Behind s g f t → Behind s g f t' → Behind s g f (t ++ t')
  | [], _, _, h => h
  | _ :: _, _, .inl h, _ => .inl h
  | _ :: _, _, .inr h, h' => .inr ⟨h.1, behind_append h.2 h'⟩

theorem behind_wait {s : Nat} {g f : Flag} {t t' : List Ev} (h : Behind s g f t) (hw : Ev.wait s [g] ∈ t) :
    Behind s g f (t ++ t') := by
  induction t with
  | nil => cases hw
  | cons e t ih =>
    rcases h with h | h
    · exact .inl h
    · rcases List.mem_cons.1 hw with hw | hw
      · exact .inl hw.symm
      · exact .inr ⟨h.1, ih h.2 hw⟩

/-- As `waits_forever`, for a goroutine that waits for `ctx` or `f`, where the others set `f` only after `g`, and do not set `g`. -/
theorem waits_until_closed {cap : Nat → Nat} {st st' : State} (h : Reachable cap st st') {r s : Nat} {g f : Flag} {fs : List Flag}
    (hfs : ∀ x ∈ fs, x = .ctx ∨ x = f)
    (hn : st.next r = some (.wait s fs)) (hg : (s, g) ∉ st.flags) (hf : (s, f) ∉ st.flags)
    (ho : ∀ j, j ≠ r → ∀ t, st.threads[j]? = some t → Ev.set s g ∉ t.todo ∧ Behind s g f t.todo) :
    (s, Flag.ctx) ∈ st'.flags ∨ (st'.next r = some (.wait s fs) ∧ ∀ x ∈ fs, (s, x) ∉ st'.flags) := by
  suffices (s, Flag.ctx) ∈ st'.flags ∨ (st'.next r = some (.wait s fs) ∧ (s, g) ∉ st'.flags ∧ (s, f) ∉ st'.flags ∧
      ∀ j, j ≠ r → ∀ t, st'.threads[j]? = some t → Ev.set s g ∉ t.todo ∧ Behind s g f t.todo) by
    by_cases hc : (s, Flag.ctx) ∈ st'.flags
    · exact .inl hc
    · rcases this with h | ⟨h1, -, h3, -⟩
      · exact .inl h
      · refine .inr ⟨h1, fun x hx => ?_⟩
        rcases hfs x hx with rfl | rfl
        · exact hc
        · exact h3
  induction h with
  | init => exact .inr ⟨hn, hg, hf, ho⟩
  | @step st1 i st2 hst hs ih =>
    obtain ⟨e, todo, held, held', h1, h2, h3, h4, h5⟩ := threads_cases hs
    by_cases hc : (s, Flag.ctx) ∈ st1.flags
    · left
      rcases h4 with h4 | ⟨_, _, _, h4⟩ <;> rw [h4]
      · exact hc
      · exact List.mem_cons_of_mem _ hc
    · rcases ih with ih | ⟨ih1, ih2, ih3, ih4⟩
      · exact absurd ih hc
      · right
        have hir : i ≠ r := by
          rintro rfl
          simp only [State.next, h1, Option.bind_some, List.head?_cons, Option.some.injEq] at ih1
          obtain ⟨x, hx, hx'⟩ := h5 s fs ih1
          rcases hfs x hx with rfl | rfl
          · exact hc hx'
          · exact ih3 hx'
        obtain ⟨hi1, hi2⟩ := ih4 i hir _ h1
        dsimp only at hi1 hi2
        have hne : e ≠ .wait s [g] := by
          rintro rfl
          obtain ⟨x, hx, hx'⟩ := h5 s [g] rfl
          rw [List.mem_singleton] at hx
          subst hx
          exact ih2 hx'
        rcases hi2 with hi2 | ⟨hi2, hi3⟩
        · exact absurd hi2 hne
        simp only [List.mem_cons, not_or] at hi1
        have hflag : ∀ x, e ≠ .set s x → (s, x) ∉ st1.flags → (s, x) ∉ st2.flags := by
          intro x hx hx1
          rcases h4 with h4 | ⟨s', f', rfl, h4⟩ <;> rw [h4]
          · exact hx1
          · intro hm
            rcases List.mem_cons.1 hm with hm | hm
            · cases hm; exact hx rfl
            · exact hx1 hm
        refine ⟨?_, hflag g (Ne.symm hi1.1) ih2, hflag f hi2 ih3, ?_⟩
        · unfold State.next at ih1 ⊢
          rw [h3 r (Ne.symm hir)]
          exact ih1
        · intro j hj t ht
          by_cases hji : j = i
          · subst hji
            rw [h2] at ht
            cases ht
            exact ⟨hi1.2, hi3⟩
          · rw [h3 j hji] at ht
            exact ih4 j hj t ht

/-- As long as `g` is not set, nobody has come past waiting for it. -/
theorem behind_reachable {cap : Nat → Nat} {runs : List (List Ev)} {st : State} (h : Reachable cap (start runs) st) {s : Nat} {g f : Flag}
    (hg : (s, g) ∉ st.flags) {j : Nat} {run : List Ev} (hr : runs[j]? = some run) (hb : Behind s g f run) {t : Thread}
    (ht : st.threads[j]? = some t) : Behind s g f t.todo := by
  induction h generalizing t with
  | init =>
    simp only [start, List.getElem?_map, hr, Option.map_some, Option.some.injEq] at ht
    subst ht
    exact hb
  | @step st1 i st2 hst hs ih =>
    obtain ⟨e, todo, held, held', h1, h2, h3, h4, h5⟩ := threads_cases hs
    have hg1 : (s, g) ∉ st1.flags := fun hc => hg (by
      rcases h4 with h4 | ⟨_, _, _, h4⟩ <;> rw [h4]
      · exact hc
      · exact List.mem_cons_of_mem _ hc)
    by_cases hji : j = i
    · subst hji
      rw [h2] at ht
      cases ht
      rcases ih hg1 h1 with h | h
      · obtain ⟨x, hx, hx'⟩ := h5 s [g] h
        rw [List.mem_singleton] at hx
        subst hx
        exact absurd hx' hg1
      · exact h.2
    · rw [h3 j hji] at ht
      exact ih hg1 ht

/-! ## What programs wait for -/

/-- Whatever the program waits for is `ok`.  It does not call `OnConnect`. -/
def allWaits (ok : List Flag → Bool) : Prog → Bool
  | .seq p q | .alt p q => allWaits ok p && allWaits ok q
  | .loop p | .on _ p | .lock _ p | .rlock _ p => allWaits ok p
  | .wait fs => ok fs
  | .user .onConnect => false
  | _ => true

theorem waits_run {W : World} {ok : List Flag → Bool} (hW : ∀ s c, c ≠ .onConnect → allWaits ok (W.code s c) = true) {s : Nat} {p : Prog}
    {t : List Ev} (h : Run W s p t) : allWaits ok p = true → ∀ s' fs, Ev.wait s' fs ∈ t → ok fs = true := by
  induction h with
  | skip | stop | acc | set | send | recv => intro _ s' fs h; simp at h
  | seq _ _ ih1 ih2 =>
    intro hp s' fs h
    simp only [allWaits, Bool.and_eq_true] at hp
    rcases List.mem_append.1 h with h | h
    · exact ih1 hp.1 s' fs h
    · exact ih2 hp.2 s' fs h
  | again _ _ ih1 ih2 =>
    intro hp s' fs h
    rcases List.mem_append.1 h with h | h
    · exact ih1 hp s' fs h
    · exact ih2 hp s' fs h
  | left _ ih =>
    intro hp
    simp only [allWaits, Bool.and_eq_true] at hp
    exact ih hp.1
  | right _ ih =>
    intro hp
    simp only [allWaits, Bool.and_eq_true] at hp
    exact ih hp.2
  | lock _ ih | rlock _ ih =>
    intro hp s' fs h
    simp only [List.mem_cons, List.mem_append, reduceCtorEq, List.not_mem_nil, or_false, false_or] at h
    exact ih hp s' fs h
  | wait =>
    intro hp s' fs h
    simp only [List.mem_singleton, Ev.wait.injEq] at h
    rw [h.2]
    exact hp
  | @user s c t _ ih =>
    intro hp
    refine ih (hW s c ?_)
    rintro rfl
    cases hp
  | on _ ih => intro hp; exact ih hp

theorem allWaits_user {ok : List Flag → Bool} {allowed : Method → Bool} (hm : ∀ m, allowed m = true → allWaits ok m.prog = true) {p : Prog}
    (h : UserCode allowed p) : allWaits ok p = true := by
  induction h with
  | skip => rfl
  | seq _ _ ih1 ih2 | alt _ _ ih1 ih2 => simp only [allWaits, ih1, ih2, Bool.and_self]
  | loop _ ih | on _ ih => simp only [allWaits, ih]
  | method h => exact hm _ h

/-! ## Pipes -/

/-- The program does not read from the backend. -/
def neverTakes : Prog → Bool
  | .seq p q | .alt p q => neverTakes p && neverTakes q
  | .loop p | .on _ p | .lock _ p | .rlock _ p => neverTakes p
  | .recv => false
  | _ => true

theorem neverTakes_user {p : Prog} (h : UserCode (fun _ => true) p) : neverTakes p = true := by
  induction h with
  | skip => rfl
  | seq _ _ ih1 ih2 | alt _ _ ih1 ih2 => simp only [neverTakes, ih1, ih2, Bool.and_self]
  | loop _ ih | on _ ih => simp only [neverTakes, ih]
  | @method m _ => cases m <;> decide +kernel

theorem takes_run {W : World} (hW : ∀ s c, neverTakes (W.code s c) = true) {s : Nat} {p : Prog} {t : List Ev}
    (h : Run W s p t) : (neverTakes p = true → ∀ q, Ev.take q ∉ t) ∧ (noOn p = true → ∀ q, Ev.take q ∈ t → q = W.peer s) := by
  induction h with
  | skip | stop | acc | wait | send | set => simp
  | recv => exact ⟨(fun h => by cases h), fun _ q h => by simpa using h⟩
  | seq _ _ ih1 ih2 =>
    refine ⟨fun hp q => ?_, fun hp q h => ?_⟩
    · simp only [neverTakes, Bool.and_eq_true] at hp
      simp [ih1.1 hp.1 q, ih2.1 hp.2 q]
    · simp only [noOn, Bool.and_eq_true] at hp
      rcases List.mem_append.1 h with h | h
      · exact ih1.2 hp.1 q h
      · exact ih2.2 hp.2 q h
  | again _ _ ih1 ih2 =>
    refine ⟨fun hp q => ?_, fun hp q h => ?_⟩
    · simp [ih1.1 hp q, ih2.1 hp q]
    · rcases List.mem_append.1 h with h | h
      · exact ih1.2 hp q h
      · exact ih2.2 hp q h
  | left _ ih =>
    refine ⟨fun hp => ?_, fun hp => ?_⟩
    · simp only [neverTakes, Bool.and_eq_true] at hp
      exact ih.1 hp.1
    · simp only [noOn, Bool.and_eq_true] at hp
      exact ih.2 hp.1
  | right _ ih =>
    refine ⟨fun hp => ?_, fun hp => ?_⟩
    · simp only [neverTakes, Bool.and_eq_true] at hp
      exact ih.1 hp.2
    · simp only [noOn, Bool.and_eq_true] at hp
      exact ih.2 hp.2
  | lock _ ih | rlock _ ih =>
    refine ⟨fun hp q => ?_, fun hp q h => ?_⟩
    · simp [ih.1 hp q]
    · simp only [List.mem_cons, List.mem_append, reduceCtorEq, List.not_mem_nil, or_false, false_or] at h
      exact ih.2 hp q h
  | user _ ih => exact ⟨fun _ => ih.1 (hW _ _), fun _ q h => absurd h (ih.1 (hW _ _) q)⟩
  | on _ ih => exact ⟨fun hp => ih.1 hp, (fun hp => by cases hp)⟩

/-- Only the reader at the other end takes packets out of a pipe. -/
theorem others_take {W : World} (hW : ∀ s c, UserCode (fun _ => true) (W.code s c)) {roles : List (Nat × Role)} {runs : List (List Ev)}
    (ht : Threads W roles runs) {a b r : Nat} (hp : ∀ s, W.peer s = a → s = b) (hr : roles[r]? = some (b, .reader)) {j : Nat} (hj : j ≠ r)
    {run : List Ev} (hrun : runs[j]? = some run) : Ev.take a ∉ run := by
  have hW' : ∀ s c, neverTakes (W.code s c) = true := fun s c => neverTakes_user (hW s c)
  obtain ⟨hj', rfl⟩ := List.getElem?_eq_some_iff.1 hrun
  have hj1 : j < roles.length := by rw [ht.length]; exact hj'
  have h := ht.run j hj1 hj'
  have hmem : roles[j] ∈ roles := List.getElem_mem hj1
  have hget : roles[j]? = some roles[j] := List.getElem?_eq_getElem hj1
  generalize roles[j] = x at h hmem hget
  obtain ⟨s', ro⟩ := x
  cases ro with
  | reader =>
    intro hc
    have := hp s' ((takes_run hW' h).2 (show noOn Calls.reader = true by decide +kernel) a hc).symm
    subst this
    have := ht.once _ hmem rfl
    have := count_two hget hr hj
    omega
  | user p => exact (takes_run hW' h).1 (neverTakes_user (ht.user s' p hmem)) a
  | _ => exact (takes_run hW' h).1 (by dsimp only; decide +kernel) a

/-- What a step does to the pipes. -/
theorem step_packets {cap : Nat → Nat} {st st' : State} {i : Nat} (h : step cap st i = some st') {e : Ev} (hn : st.next i = some e) :
    (∃ p, e = .put p ∧ st.packets.count p < cap p ∧ st'.packets = p :: st.packets) ∨
    (∃ p, e = .take p ∧ p ∈ st.packets ∧ st'.packets = st.packets.erase p) ∨
    ((∀ p, e ≠ .put p) ∧ (∀ p, e ≠ .take p) ∧ st'.packets = st.packets) := by
  obtain ⟨e', todo, held, st1, held', h1, h2, -, -, -, h6⟩ := step_threads h
  simp only [State.next, h1, Option.bind_some, List.head?_cons, Option.some.injEq] at hn
  subst hn
  rw [h6]
  cases e' with
  | put p =>
    simp only [exec] at h2
    split at h2 <;> cases h2
    exact .inl ⟨p, rfl, by assumption, rfl⟩
  | take p =>
    simp only [exec] at h2
    split at h2 <;> cases h2
    next hc => exact .inr (.inl ⟨p, rfl, by simpa using hc, rfl⟩)
  | acq s l w => cases w <;> (simp only [exec] at h2; split at h2 <;> cases h2; simp)
  | rel | acc | set => simp only [exec] at h2; cases h2; simp
  | wait => simp only [exec] at h2; split at h2 <;> cases h2; simp

theorem next_of {st : State} {i : Nat} {e : Ev} {todo : List Ev} {held : List (Nat × LockName × Bool)}
    (h : st.threads[i]? = some ⟨e :: todo, held⟩) : st.next i = some e := by simp [State.next, h]

/-- Two goroutines want to write into full pipes, and nobody else takes anything out of them. -/
theorem both_full {cap : Nat → Nat} {st st' : State} (h : Reachable cap st st') {r1 r2 a b : Nat}
    (h1 : st.next r1 = some (.put a)) (h2 : st.next r2 = some (.put b)) (ha : cap a ≤ st.packets.count a) (hb : cap b ≤ st.packets.count b)
    (ho : ∀ j, j ≠ r1 → j ≠ r2 → ∀ t, st.threads[j]? = some t → Ev.take a ∉ t.todo ∧ Ev.take b ∉ t.todo) :
    (st'.next r1 = some (.put a) ∧ cap a ≤ st'.packets.count a) ∧ (st'.next r2 = some (.put b) ∧ cap b ≤ st'.packets.count b) := by
  suffices ((st'.next r1 = some (.put a) ∧ cap a ≤ st'.packets.count a) ∧ (st'.next r2 = some (.put b) ∧ cap b ≤ st'.packets.count b)) ∧
      ∀ j, j ≠ r1 → j ≠ r2 → ∀ t, st'.threads[j]? = some t → Ev.take a ∉ t.todo ∧ Ev.take b ∉ t.todo from this.1
  induction h with
  | init => exact ⟨⟨⟨h1, ha⟩, h2, hb⟩, ho⟩
  | @step st1 i st2 _ hs ih =>
    obtain ⟨⟨⟨ih1, ih2⟩, ih3, ih4⟩, ih5⟩ := ih
    obtain ⟨e, todo, held, held', g1, g2, g3, -, -⟩ := threads_cases hs
    have hn := next_of g1
    have hp := step_packets hs hn
    have hi1 : i ≠ r1 := by
      rintro rfl
      rw [ih1] at hn
      cases hn
      rcases hp with ⟨p, he, hlt, -⟩ | ⟨p, he, -⟩ | ⟨hne, -⟩
      · cases he; omega
      · cases he
      · exact hne a rfl
    have hi2 : i ≠ r2 := by
      rintro rfl
      rw [ih3] at hn
      cases hn
      rcases hp with ⟨p, he, hlt, -⟩ | ⟨p, he, -⟩ | ⟨hne, -⟩
      · cases he; omega
      · cases he
      · exact hne b rfl
    have hnot := ih5 i hi1 hi2 _ g1
    simp only [List.mem_cons, not_or] at hnot
    have hcount : ∀ p, Ev.take p ≠ e → st1.packets.count p ≤ st2.packets.count p := by
      intro p hne
      rcases hp with ⟨q, -, -, hq⟩ | ⟨q, rfl, -, hq⟩ | ⟨-, -, hq⟩
      · rw [hq, List.count_cons]; omega
      · rw [hq, List.count_erase_of_ne (by rintro rfl; exact hne rfl)]
        exact Nat.le_refl _
      · rw [hq]; exact Nat.le_refl _
    have hnext : ∀ r, i ≠ r → st2.next r = st1.next r := by
      intro r hr
      unfold State.next
      rw [g3 r (Ne.symm hr)]
    refine ⟨⟨⟨by rw [hnext r1 hi1]; exact ih1, Nat.le_trans ih2 (hcount a hnot.1.1)⟩,
      by rw [hnext r2 hi2]; exact ih3, Nat.le_trans ih4 (hcount b hnot.2.1)⟩, ?_⟩
    intro j hj1 hj2 t ht
    by_cases hji : j = i
    · subst hji
      rw [g2] at ht
      cases ht
      exact ⟨hnot.1.2, hnot.2.2⟩
    · rw [g3 j hji] at ht
      exact ih5 j hj1 hj2 t ht

/-- How many packets the goroutines still put into a pipe. -/
def State.puts (st : State) (p : Nat) : Nat := (st.threads.map fun t => t.todo.count (.put p)).sum

theorem sum_set {α : Type} (g : α → Nat) : ∀ {l : List α} {i : Nat} {x : α}, l[i]? = some x → ∀ y,
    ((l.set i y).map g).sum + g x = (l.map g).sum + g y
  | [], _, _, h, _ => by simp at h
  | z :: l, 0, x, h, y => by
    simp only [List.getElem?_cons_zero, Option.some.injEq] at h
    subst h
    simp only [List.set_cons_zero, List.map_cons, List.sum_cons]
    omega
  | z :: l, i + 1, x, h, y => by
    simp only [List.getElem?_cons_succ] at h
    have := sum_set g h y
    simp only [List.set_cons_succ, List.map_cons, List.sum_cons]
    omega

theorem puts_step {cap : Nat → Nat} {st st' : State} {i : Nat} (h : step cap st i = some st') (p : Nat) :
    st'.packets.count p + st'.puts p ≤ st.packets.count p + st.puts p := by
  obtain ⟨e, todo, held, st1, held', h1, h2, -, h4, -⟩ := step_threads h
  have hs := sum_set (fun t : Thread => t.todo.count (.put p)) h1 ⟨todo, held'⟩
  have hp := step_packets h (next_of h1)
  unfold State.puts
  rw [h4]
  simp only [List.count_cons] at hs
  rcases hp with ⟨q, rfl, -, hq⟩ | ⟨q, rfl, -, hq⟩ | ⟨hne, -, hq⟩
  · rw [hq, List.count_cons]
    by_cases hqp : q = p
    · subst hqp
      simp at hs ⊢
      omega
    · simp [hqp] at hs ⊢
      omega
  · rw [hq]
    have : (st.packets.erase q).count p ≤ st.packets.count p := List.Sublist.count_le p List.erase_sublist
    split at hs <;> omega
  · rw [hq]
    split at hs <;> omega

/-- Packets that fit are put into the pipe. -/
theorem fill {cap : Nat → Nat} {p i : Nat} {held : List (Nat × LockName × Bool)} {rest : List Ev} : ∀ (n : Nat) {st : State},
    st.threads[i]? = some ⟨List.replicate n (.put p) ++ rest, held⟩ → st.packets.count p + n ≤ cap p →
    ∃ st', Reachable cap st st' ∧ st'.threads = st.threads.set i ⟨rest, held⟩ ∧ st'.packets = List.replicate n p ++ st.packets
  | 0, st, h, _ => ⟨st, .init, by
      simp only [List.replicate_zero, List.nil_append] at h
      obtain ⟨hi, he⟩ := List.getElem?_eq_some_iff.1 h
      rw [← he]
      simp, rfl⟩
  | n + 1, st, h, hc => by
    have hi := (List.getElem?_eq_some_iff.1 h).1
    have hs : step cap st i = some ⟨st.threads.set i ⟨List.replicate n (.put p) ++ rest, held⟩, st.flags, p :: st.packets⟩ := by
      rw [List.replicate_succ, List.cons_append] at h
      unfold step
      rw [h]
      simp only [exec]
      rw [if_pos (by omega)]
    obtain ⟨st', h1, h2, h3⟩ := fill (cap := cap) (p := p) (i := i) (held := held) (rest := rest) n (st := ⟨st.threads.set i ⟨List.replicate n (.put p) ++ rest, held⟩, st.flags, p :: st.packets⟩)
      (by simp [hi]) (by simp only [List.count_cons_self]; omega)
    refine ⟨st', reachable_trans (Reachable.init.step hs) h1, by rw [h2]; simp, ?_⟩
    rw [h3]
    simp only
    rw [List.replicate_succ', List.append_assoc]
    rfl

end Verif.Sync
