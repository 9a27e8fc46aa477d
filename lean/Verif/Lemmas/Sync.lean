import Verif.Spec.Sync
/-!
# Runs that take locks in order, and under which locks they access fields
-/
namespace Verif.Sync
open Calls

/-- The order in which locks are taken. -/
def LockName.rank : LockName → Nat
  | .keyUpdate => 1
  | .kx => 2
  | .pause => 3
  | .sess => 4
  | .delayedBuf => 5
  | .timer => 6
  | .neg => 7
  | .key => 8
  | .state => 9
  | .deadline => 10

/-! ## Order -/

/-- The rest of a run takes locks only above those it holds, releases what it holds, and in the end holds nothing. -/
def Good : List (Nat × LockName × Bool) → List Ev → Prop
  | held, [] => held = []
  | held, .acq s l w :: t => (∀ h ∈ held, h.2.1.rank < l.rank) ∧ Good ((s, l, w) :: held) t
  | held, .rel s l w :: t => (s, l, w) ∈ held ∧ Good (held.erase (s, l, w)) t
  | held, _ :: t => Good held t

/-- A program that may be called with locks up to rank `n` held.  Handlers and `OnConnect` only with none, `Error` and `Close` of
a handler only up to `sess.locker`. -/
def ordered (n : Nat) : Prog → Bool
  | .seq p q | .alt p q => ordered n p && ordered n q
  | .loop p | .on _ p => ordered n p
  | .lock l p | .rlock l p => decide (n < l.rank) && ordered l.rank p
  | .user .handle | .user .onConnect => n == 0
  | .user .error | .user .handlerClose => decide (n ≤ 4)
  | _ => true

theorem ordered_mono {n m : Nat} (h : n ≤ m) : ∀ p, ordered m p = true → ordered n p = true
  | .skip, _ | .acc .., _ | .wait _, _ | .set _, _ | .send, _ | .recv, _ => rfl
  | .seq p q, h' | .alt p q, h' => by
    simp only [ordered, Bool.and_eq_true] at h' ⊢
    exact ⟨ordered_mono h p h'.1, ordered_mono h q h'.2⟩
  | .loop p, h' | .on _ p, h' => by
    simp only [ordered] at h' ⊢
    exact ordered_mono h p h'
  | .lock l p, h' | .rlock l p, h' => by
    simp only [ordered, Bool.and_eq_true, decide_eq_true_eq] at h' ⊢
    exact ⟨by omega, h'.2⟩
  | .user c, h' => by
    cases c <;> simp only [ordered, beq_iff_eq, decide_eq_true_eq] at h' ⊢ <;> omega

/-- The callbacks are ordered. -/
structure Ordered (W : World) : Prop where
  handle : ∀ s, ordered 0 (W.code s .handle) = true
  onConnect : ∀ s, ordered 0 (W.code s .onConnect) = true
  error : ∀ s, ordered 4 (W.code s .error) = true
  handlerClose : ∀ s, ordered 4 (W.code s .handlerClose) = true

theorem good_run {W : World} (hW : Ordered W) {s : Nat} {p : Prog} {t : List Ev} (h : Run W s p t) :
    ∀ n held rest, ordered n p = true → (∀ x ∈ held, x.2.1.rank ≤ n) → Good held rest → Good held (t ++ rest) := by
  induction h with
  | skip | stop => intro _ _ _ _ _ h; exact h
  | seq _ _ ih1 ih2 | again _ _ ih1 ih2 =>
    intro n held rest ho hh hg
    first
      | (simp only [ordered, Bool.and_eq_true] at ho
         rw [List.append_assoc]
         exact ih1 n held _ ho.1 hh (ih2 n held _ ho.2 hh hg))
      | (rw [List.append_assoc]
         exact ih1 n held _ ho hh (ih2 n held _ ho hh hg))
  | left _ ih =>
    intro n held rest ho hh hg
    simp only [ordered, Bool.and_eq_true] at ho
    exact ih n held _ ho.1 hh hg
  | right _ ih =>
    intro n held rest ho hh hg
    simp only [ordered, Bool.and_eq_true] at ho
    exact ih n held _ ho.2 hh hg
  | lock _ ih | rlock _ ih =>
    intro n held rest ho hh hg
    simp only [ordered, Bool.and_eq_true, decide_eq_true_eq] at ho
    rw [List.cons_append, List.append_assoc]
    refine ⟨fun x hx => Nat.lt_of_le_of_lt (hh x hx) ho.1, ?_⟩
    refine ih _ _ _ ho.2 ?_ ⟨by simp, by simpa using hg⟩
    intro x hx
    rcases List.mem_cons.1 hx with rfl | hx
    · exact Nat.le_refl _
    · exact Nat.le_of_lt (Nat.lt_of_le_of_lt (hh x hx) ho.1)
  | acc | wait | set | send | recv => intro _ _ _ _ _ h; exact h
  | @user s c t _ ih =>
    intro n held rest ho hh hg
    refine ih n held rest ?_ hh hg
    cases c <;> simp only [ordered, beq_iff_eq, decide_eq_true_eq] at ho
    · subst ho; exact hW.handle s
    · exact ordered_mono ho _ (hW.handlerClose s)
    · exact ordered_mono ho _ (hW.error s)
    · subst ho; exact hW.onConnect s
  | on _ ih =>
    intro n held rest ho hh hg
    exact ih n held rest ho hh hg

/-! ## Guards -/

/-- The lock that guards a field, if there is one. -/
def guard : Field → Option LockName
  | .remoteIdentity => some .sess
  | .delayedBuf => some .delayedBuf
  | .timer => some .timer
  | .pauseStart => some .pause
  | .interrupts => some .deadline
  | .keyPairs => some .key
  | .nextCreatedAt => some .key
  | .changeChan => some .state
  | .cancelFn => some .neg
  | _ => none

/-- Every access to a guarded field is made with its lock held; writing needs it for writing.  Locks are balanced. -/
def Guarded : List (Nat × LockName × Bool) → List Ev → Prop
  | _, [] => True
  | held, .acq s l w :: t => Guarded ((s, l, w) :: held) t
  | held, .rel s l w :: t => Guarded (held.erase (s, l, w)) t
  | held, .acc s x w :: t => (∀ l, guard x = some l → (s, l, true) ∈ held ∨ (w = false ∧ (s, l, false) ∈ held)) ∧ Guarded held t
  | held, _ :: t => Guarded held t

def guarded (held : List (LockName × Bool)) : Prog → Bool
  | .seq p q | .alt p q => guarded held p && guarded held q
  | .loop p => guarded held p
  | .on _ p => guarded [] p
  | .lock l p => guarded ((l, true) :: held) p
  | .rlock l p => guarded ((l, false) :: held) p
  | .acc x w => match guard x with
    | some l => held.contains (l, true) || (!w && held.contains (l, false))
    | none => true
  | _ => true

theorem guarded_mono {held held' : List (LockName × Bool)} (h : ∀ x ∈ held, x ∈ held') :
    ∀ p, guarded held p = true → guarded held' p = true
  | .skip, _ | .wait _, _ | .set _, _ | .send, _ | .recv, _ | .user _, _ => rfl
  | .seq p q, h' | .alt p q, h' => by
    simp only [guarded, Bool.and_eq_true] at h' ⊢
    exact ⟨guarded_mono h p h'.1, guarded_mono h q h'.2⟩
  | .loop p, h' => by
    simp only [guarded] at h' ⊢
    exact guarded_mono h p h'
  | .on _ p, h' => h'
  | .lock l p, h' | .rlock l p, h' => by
    simp only [guarded] at h' ⊢
    refine guarded_mono ?_ p h'
    intro x hx
    rcases List.mem_cons.1 hx with rfl | hx
    · simp
    · simp [h x hx]
  | .acc x w, h' => by
    simp only [guarded] at h' ⊢
    split at h'
    · simp only [List.contains_eq_mem, Bool.or_eq_true, decide_eq_true_eq, Bool.and_eq_true] at h' ⊢
      rcases h' with h' | h'
      · exact .inl (h _ h')
      · exact .inr ⟨h'.1, h _ h'.2⟩
    · rfl

theorem guarded_run {W : World} (hW : ∀ s c, guarded [] (W.code s c) = true) {s : Nat} {p : Prog} {t : List Ev} (h : Run W s p t) :
    ∀ static held rest, guarded static p = true → (∀ x ∈ static, (s, x) ∈ held) → Guarded held rest → Guarded held (t ++ rest) := by
  induction h with
  | skip | stop => intro _ _ _ _ _ h; exact h
  | seq _ _ ih1 ih2 | again _ _ ih1 ih2 =>
    intro n held rest ho hh hg
    first
      | (simp only [guarded, Bool.and_eq_true] at ho
         rw [List.append_assoc]
         exact ih1 n held _ ho.1 hh (ih2 n held _ ho.2 hh hg))
      | (rw [List.append_assoc]
         exact ih1 n held _ ho hh (ih2 n held _ ho hh hg))
  | left _ ih =>
    intro n held rest ho hh hg
    simp only [guarded, Bool.and_eq_true] at ho
    exact ih n held _ ho.1 hh hg
  | right _ ih =>
    intro n held rest ho hh hg
    simp only [guarded, Bool.and_eq_true] at ho
    exact ih n held _ ho.2 hh hg
  | lock _ ih | rlock _ ih =>
    intro n held rest ho hh hg
    simp only [guarded] at ho
    rw [List.cons_append, List.append_assoc]
    show Guarded (_ :: held) _
    refine ih _ _ _ ho ?_ ?_
    · intro x hx
      rcases List.mem_cons.1 hx with rfl | hx
      · simp
      · simp [hh x hx]
    · show Guarded (List.erase (_ :: held) _) rest
      simpa using hg
  | wait | set | send | recv => intro _ _ _ _ _ h; exact h
  | @acc s x w =>
    intro n held rest ho hh hg
    refine ⟨?_, hg⟩
    intro l hl
    simp only [guarded, hl, List.contains_eq_mem, Bool.or_eq_true, decide_eq_true_eq, Bool.and_eq_true, Bool.not_eq_true'] at ho
    rcases ho with ho | ho
    · exact .inl (hh _ ho)
    · exact .inr ⟨ho.1, hh _ ho.2⟩
  | @user s c t _ ih =>
    intro n held rest ho hh hg
    exact ih [] held rest (hW s c) (by simp) hg
  | on _ ih =>
    intro n held rest ho hh hg
    exact ih [] held rest ho (by simp) hg

/-! ## Steps -/

theorem step_threads {cap : Nat → Nat} {st st' : State} {i : Nat} (h : step cap st i = some st') :
    ∃ e todo held st1 held', st.threads[i]? = some ⟨e :: todo, held⟩ ∧ exec cap st held e = some (st1, held') ∧
      st1.threads = st.threads ∧ st'.threads = st.threads.set i ⟨todo, held'⟩ ∧ st'.flags = st1.flags ∧ st'.packets = st1.packets := by
  unfold step at h
  split at h
  · next e todo held hi =>
    split at h
    · next st1 held' he =>
      cases h
      have : st1.threads = st.threads := by
        unfold exec at he
        split at he <;> (try split at he) <;> cases he <;> rfl
      exact ⟨e, todo, held, st1, held', hi, he, this, by simp [this], rfl, rfl⟩
    · cases h
  · cases h

/-- A property of each goroutine that its own steps keep, holds in all reachable states. -/
theorem forall_threads {cap : Nat → Nat} {init st : State} (P : List (Nat × LockName × Bool) → List Ev → Prop)
    (hinit : ∀ t ∈ init.threads, P t.held t.todo)
    (hstep : ∀ st held e todo st1 held', exec cap st held e = some (st1, held') → P held (e :: todo) → P held' todo)
    (h : Reachable cap init st) : ∀ t ∈ st.threads, P t.held t.todo := by
  induction h with
  | init => exact hinit
  | step _ hs ih =>
    obtain ⟨e, todo, held, st1, held', h1, h2, -, h4, -⟩ := step_threads hs
    intro t ht
    rw [h4] at ht
    rcases List.mem_or_eq_of_mem_set ht with ht | rfl
    · exact ih t ht
    · exact hstep _ _ _ _ _ _ h2 (ih _ (List.mem_of_getElem? h1))

def heldAfter (held : List (Nat × LockName × Bool)) : Ev → List (Nat × LockName × Bool)
  | .acq s l w => (s, l, w) :: held
  | .rel s l w => held.erase (s, l, w)
  | _ => held

theorem exec_held {cap : Nat → Nat} {st st1 : State} {held held' : List (Nat × LockName × Bool)} {e : Ev}
    (h : exec cap st held e = some (st1, held')) : held' = heldAfter held e := by
  cases e with
  | acq s l w => cases w <;> (simp only [exec] at h; split at h <;> cases h; rfl)
  | rel | acc | set => simp only [exec] at h; cases h; rfl
  | wait | put | take => simp only [exec] at h; split at h <;> cases h; rfl

theorem good_step {cap : Nat → Nat} {st st1 : State} {held held' : List (Nat × LockName × Bool)} {e : Ev} {todo : List Ev}
    (h : exec cap st held e = some (st1, held')) (hg : Good held (e :: todo)) : Good held' todo := by
  have := exec_held h
  subst this
  cases e <;> first | exact hg.2 | exact hg

theorem guarded_step {cap : Nat → Nat} {st st1 : State} {held held' : List (Nat × LockName × Bool)} {e : Ev} {todo : List Ev}
    (h : exec cap st held e = some (st1, held')) (hg : Guarded held (e :: todo)) : Guarded held' todo := by
  have := exec_held h
  subst this
  cases e <;> first | exact hg.2 | exact hg

/-- A lock that is held for writing is held by nobody else. -/
def Exclusive (st : State) : Prop :=
  ∀ i j s l w, i ≠ j → (s, l, true) ∈ st.holds i → (s, l, w) ∉ st.holds j

theorem mem_holds {st : State} {i : Nat} {x : Nat × LockName × Bool} :
    x ∈ st.holds i ↔ ∃ t, st.threads[i]? = some t ∧ x ∈ t.held := by
  unfold State.holds
  cases st.threads[i]? <;> simp

theorem not_locked {st : State} {s : Nat} {l : LockName} (h : ¬ st.locked s l = true) (i : Nat) (w : Bool) : (s, l, w) ∉ st.holds i := by
  intro hm
  obtain ⟨t, ht, hx⟩ := mem_holds.1 hm
  apply h
  simp only [State.locked, List.any_eq_true]
  exact ⟨t, List.mem_of_getElem? ht, _, hx, by simp⟩

theorem not_lockedForWriting {st : State} {s : Nat} {l : LockName} (h : ¬ st.lockedForWriting s l = true) (i : Nat) :
    (s, l, true) ∉ st.holds i := by
  intro hm
  obtain ⟨t, ht, hx⟩ := mem_holds.1 hm
  apply h
  simp only [State.lockedForWriting, List.any_eq_true]
  exact ⟨t, List.mem_of_getElem? ht, _, hx, by simp⟩

theorem holds_step {st st' : State} {i : Nat} {todo : List Ev} {held held' : List (Nat × LockName × Bool)} {e : Ev}
    (h1 : st.threads[i]? = some ⟨e :: todo, held⟩) (h4 : st'.threads = st.threads.set i ⟨todo, held'⟩) (j : Nat) :
    st'.holds j = if j = i then held' else st.holds j := by
  have hi : i < st.threads.length := (List.getElem?_eq_some_iff.1 h1).1
  unfold State.holds
  rw [h4, List.getElem?_set]
  by_cases hj : j = i
  · subst hj; simp [hi]
  · simp [Ne.symm hj, hj]

theorem exclusive {cap : Nat → Nat} {init st : State} (h0 : ∀ t ∈ init.threads, t.held = []) (h : Reachable cap init st) :
    Exclusive st := by
  induction h with
  | init =>
    intro i j s l w _ hi
    obtain ⟨t, ht, hx⟩ := mem_holds.1 hi
    rw [h0 t (List.mem_of_getElem? ht)] at hx
    cases hx
  | @step st k st' _ hs ih =>
    obtain ⟨e, todo, held, st1, held', h1, h2, -, h4, -⟩ := step_threads hs
    have hk : st.holds k = held := by simp [State.holds, h1]
    have hh := holds_step h1 h4
    have he := exec_held h2
    intro i j s l w hij hi hj
    rw [hh] at hi hj
    have key : ∀ x, x ∈ held' → x ∈ held ∨ ∃ s l w, x = (s, l, w) ∧ e = .acq s l w := by
      intro x hx
      subst he
      cases e with
      | acq s l w =>
        rcases List.mem_cons.1 hx with rfl | hx
        · exact .inr ⟨s, l, w, rfl, rfl⟩
        · exact .inl hx
      | rel s l w => exact .inl (List.mem_of_mem_erase hx)
      | _ => exact .inl hx
    by_cases hik : i = k
    · rw [if_pos hik] at hi
      rw [if_neg (by omega)] at hj
      rcases key _ hi with hi | ⟨s', l', w', hx, rfl⟩
      · exact ih k j s l w (by omega) (by rw [hk]; exact hi) hj
      · cases hx
        simp only [exec] at h2
        split at h2
        · cases h2
        · next hl => exact not_locked hl j w hj
    · rw [if_neg hik] at hi
      by_cases hjk : j = k
      · rw [if_pos hjk] at hj
        rcases key _ hj with hj | ⟨s', l', w', hx, rfl⟩
        · exact ih i k s l w hik hi (by rw [hk]; exact hj)
        · cases hx
          cases w with
          | true =>
            simp only [exec] at h2
            split at h2
            · cases h2
            · next hl => exact not_locked hl i true hi
          | false =>
            simp only [exec] at h2
            split at h2
            · cases h2
            · next hl =>
              simp only [Bool.or_eq_true, not_or] at hl
              exact not_lockedForWriting hl.1 i hi
      · rw [if_neg hjk] at hj
        exact ih i j s l w hij hi hj

theorem start_held {runs : List (List Ev)} : ∀ t ∈ (start runs).threads, t.held = [] := by
  intro t ht
  obtain ⟨_, _, rfl⟩ := List.mem_map.1 ht
  rfl

/-! ## Circles -/

theorem next_thread {st : State} {i : Nat} {e : Ev} (h : st.next i = some e) :
    ∃ todo held, st.threads[i]? = some ⟨e :: todo, held⟩ ∧ st.holds i = held := by
  unfold State.next at h
  cases ht : st.threads[i]? with
  | none => rw [ht] at h; cases h
  | some t =>
    obtain ⟨todo, held⟩ := t
    rw [ht] at h
    simp only [Option.bind_some] at h
    cases todo with
    | nil => cases h
    | cons e' todo =>
      cases h
      exact ⟨todo, held, rfl, by simp [State.holds, ht]⟩

/-- What goroutine `i` waits for: twice the rank of the lock, and one more if it will write. -/
def level (st : State) (i : Nat) : Nat :=
  match st.next i with
  | some (.acq _ l w) => 2 * l.rank + (if w then 1 else 0)
  | _ => 100

theorem rank_le (l : LockName) : l.rank ≤ 10 := by cases l <;> decide

theorem waits_level {st : State} (hg : ∀ t ∈ st.threads, Good t.held t.todo) {i j : Nat} (h : WaitsFor st i j) :
    level st i < level st j := by
  obtain ⟨s, l, w, h1, h2⟩ := h
  have hr := rank_le l
  have hi : level st i = 2 * l.rank + (if w then 1 else 0) := by simp only [level, h1]
  have hi' : level st i ≤ 2 * l.rank + 1 := by rw [hi]; split <;> omega
  rcases h2 with ⟨w', h2, -⟩ | ⟨rfl, h2⟩
  · obtain ⟨t, ht, hx⟩ := mem_holds.1 h2
    have ht' : st.next j = t.todo.head? := by simp [State.next, ht]
    have := hg t (List.mem_of_getElem? ht)
    refine Nat.lt_of_le_of_lt hi' ?_
    clear hi hi'
    unfold level
    cases hn : st.next j with
    | none => dsimp only; omega
    | some e =>
      rw [ht'] at hn
      cases e with
      | acq s2 l2 w2 =>
        dsimp only
        cases htd : t.todo with
        | nil => rw [htd] at hn; cases hn
        | cons e todo =>
          rw [htd] at hn this
          cases hn
          have := this.1 _ hx
          dsimp only at this
          split <;> omega
      | _ => dsimp only; omega
  · rw [hi]
    simp only [level, h2]
    simp

theorem no_circle {st : State} (hg : ∀ t ∈ st.threads, Good t.held t.todo) : ¬ Circle st := by
  rintro ⟨i, hi⟩
  have : ∀ j, Relation.TransGen (WaitsFor st) i j → level st i < level st j := by
    intro j hj
    induction hj with
    | single h => exact waits_level hg h
    | tail _ h ih => exact Nat.lt_trans ih (waits_level hg h)
  exact Nat.lt_irrefl _ (this i hi)

end Verif.Sync
