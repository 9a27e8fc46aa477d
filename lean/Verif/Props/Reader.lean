import Verif.Model.Reader
/-!
# Errors of the backend: C102, C103, C104
-/
namespace Verif.Reader

/-- `Read` fails, and nothing else happens. -/
def failure : ReadResult := ⟨[], some .other, false, false⟩

/-- `Read` fails, with or without data. -/
def Fails (r : ReadResult) : Prop := r.err = some .other ∧ r.closes = false

theorem loop_over (env : Env) : ∀ (rs : List ReadResult) (s : State), s.over = true →
    (loop env s rs).reports = s.reports ∧ (loop env s rs).packets = s.packets ∧ (loop env s rs).over = true
  | [], s, h => ⟨rfl, rfl, h⟩
  | r :: rs, s, h => by
    have h1 : (iteration env s r).reports = s.reports ∧ (iteration env s r).packets = s.packets ∧ (iteration env s r).over = true := by
      simp only [State.over, Bool.or_eq_true] at h ⊢
      unfold iteration
      by_cases he : s.ended = true
      · simp [he]
      · have hd : s.done = true := h.resolve_left he
        simp [he, hd]
    obtain ⟨h2, h3, h4⟩ := loop_over env rs _ h1.2.2
    exact ⟨h2.trans h1.1, h3.trans h1.2.1, h4⟩

theorem failing_step (env : Env) (s : State) (r : ReadResult) (hr : Fails r) (ho : s.over = false) :
    (iteration env s r).reports = s.reports + 1 ∧ (iteration env s r).packets = s.packets ∧
    (iteration env s r).over = !env.handled s.reports := by
  simp only [State.over, Bool.or_eq_false_iff] at ho
  simp only [iteration, ho.1, ho.2, body, hr.1, hr.2, readError, report, State.over]
  cases h : env.handled s.reports <;> simp [ho.1, ho.2]

/-- C102: exactly what happens when the backend fails for good: each failure is reported until the handler returns false, which ends the
session. -/
theorem C102_exact (env : Env) (s : State) (ho : s.over = false) (rs : List ReadResult) (hr : ∀ r ∈ rs, Fails r) (k : Nat) (hk : k < rs.length)
    (hh : ∀ i < k, env.handled (s.reports + i) = true) (hf : env.handled (s.reports + k) = false) :
    (loop env s rs).over = true ∧ (loop env s rs).reports = s.reports + k + 1 := by
  induction k generalizing s rs with
  | zero =>
    cases rs with
    | nil => cases hk
    | cons r rs =>
      have h := failing_step env s r (hr r (by simp)) ho
      rw [Nat.add_zero] at hf
      have h2 := loop_over env rs (iteration env s r) (by rw [h.2.2, hf]; rfl)
      exact ⟨h2.2.2, by rw [loop, h2.1, h.1]⟩
  | succ k ih =>
    cases rs with
    | nil => cases hk
    | cons r rs =>
      have h := failing_step env s r (hr r (by simp)) ho
      have h0 := hh 0 (by omega)
      rw [Nat.add_zero] at h0
      have := ih (iteration env s r) (by rw [h.2.2, h0]; rfl) rs (fun r' h' => hr r' (by simp [h'])) (by simpa using hk)
        (fun i hi => by rw [h.1, Nat.add_assoc, Nat.add_comm 1]; exact hh (i + 1) (by omega))
        (by rw [h.1, Nat.add_assoc, Nat.add_comm 1]; exact hf)
      refine ⟨this.1, ?_⟩
      rw [loop, this.2, h.1]; omega

/-- C102 (restriction that holds): with a handler that does not claim to have handled the error (as the default one), the first failure
of the backend ends the session, and it is reported once.
Missing for the full C102: handlers that return true, see `C102_violated`. -/
theorem C102_partial (env : Env) (s : State) (ho : s.over = false) (rs : List ReadResult) (hr : ∀ r ∈ rs, Fails r) (hn : rs ≠ [])
    (hf : env.handled s.reports = false) : (loop env s rs).over = true ∧ (loop env s rs).reports = s.reports + 1 :=
  C102_exact env s ho rs hr 0 (List.length_pos_iff.mpr hn) (fun i hi => by omega) hf

/-- C102 fails with a handler that returns true: a backend that has failed for good (a closed connection) is read again and again, without
a pause and without end; every time the error is reported. -/
theorem C102_violated (env : Env) (h : ∀ k, env.handled k = true) (s : State) (ho : s.over = false) (n : Nat) :
    (loop env s (List.replicate n failure)).over = false ∧ (loop env s (List.replicate n failure)).reports = s.reports + n := by
  induction n generalizing s with
  | zero => exact ⟨ho, rfl⟩
  | succ n ih =>
    have h1 := failing_step env s failure ⟨rfl, rfl⟩ ho
    have h2 := ih (iteration env s failure) (by rw [h1.2.2, h]; rfl)
    rw [List.replicate_succ, loop]
    refine ⟨h2.1, ?_⟩
    rw [h2.2, h1.1]; omega

example : (loop ⟨fun _ => false, true, fun _ => true⟩ .init [⟨[1], none, false, false⟩, failure, failure, failure]).reports = 1 ∧
    (loop ⟨fun _ => true, true, fun _ => true⟩ .init [⟨[1], none, false, false⟩, failure, failure, failure]).reports = 3 := by decide

/-- After the session is closed, the loop ends before the next `Read`. -/
example : (loop ⟨fun _ => false, true, fun _ => true⟩ .init [⟨[1], none, true, false⟩, ⟨[2], none, false, false⟩]).ended = true ∧
    (loop ⟨fun _ => false, true, fun _ => true⟩ .init [⟨[1], none, true, false⟩, ⟨[2], none, false, false⟩]).packets =
      (loop ⟨fun _ => false, true, fun _ => true⟩ .init [⟨[1], none, true, false⟩]).packets := by decide

/-- `Read` fails with any error, and nothing else happens. -/
def FailsAlone (r : ReadResult) : Prop := r.err ≠ none ∧ r.closes = false ∧ r.interrupts = false

theorem alone_iteration (env : Env) (s : State) (r : ReadResult) (hr : FailsAlone r) (ho : s.over = false) (hi : s.interrupted = false) :
    (iteration env s r).reports = s.reports + 1 ∧ (iteration env s r).interrupted = false ∧
    (iteration env s r).over = !env.handled s.reports := by
  simp only [State.over, Bool.or_eq_false_iff] at ho
  obtain ⟨h1, h2, h3⟩ := hr
  cases he : r.err with
  | none => exact absurd he h1
  | some e =>
    simp only [iteration, ho.1, ho.2, body, he, h2, h3, readError, report, State.over, hi]
    cases e <;> cases h : env.handled s.reports <;> simp [ho.1, ho.2, hi]

/-- C102 for all errors, also time-outs (the user may have set a deadline for the backend): while nobody interrupts the reader, each failure
is reported until the handler returns false, which ends the session. -/
theorem C102_any_error (env : Env) (s : State) (ho : s.over = false) (hi : s.interrupted = false) (rs : List ReadResult)
    (hr : ∀ r ∈ rs, FailsAlone r) (k : Nat) (hk : k < rs.length) (hh : ∀ i < k, env.handled (s.reports + i) = true)
    (hf : env.handled (s.reports + k) = false) :
    (loop env s rs).over = true ∧ (loop env s rs).reports = s.reports + k + 1 := by
  induction k generalizing s rs with
  | zero =>
    cases rs with
    | nil => cases hk
    | cons r rs =>
      have h := alone_iteration env s r (hr r (by simp)) ho hi
      rw [Nat.add_zero] at hf
      have h2 := loop_over env rs (iteration env s r) (by rw [h.2.2, hf]; rfl)
      exact ⟨h2.2.2, by rw [loop, h2.1, h.1]⟩
  | succ k ih =>
    cases rs with
    | nil => cases hk
    | cons r rs =>
      have h := alone_iteration env s r (hr r (by simp)) ho hi
      have h0 := hh 0 (by omega)
      rw [Nat.add_zero] at h0
      have h2 := ih (iteration env s r) (by rw [h.2.2, h0]; rfl) h.2.1 rs (fun r' h' => hr r' (by simp [h'])) (by simpa using hk)
        (fun i hi => by rw [h.1, show s.reports + 1 + i = s.reports + (i + 1) by omega]; exact hh (i + 1) (by omega))
        (by rw [h.1, show s.reports + 1 + k = s.reports + (k + 1) by omega]; exact hf)
      exact ⟨h2.1, by rw [loop, h2.2, h.1]; omega⟩

example : FailsAlone ⟨[], some .timeout, false, false⟩ ∧ (loop ⟨fun k => k == 0, true, fun _ => true⟩ .init
    [⟨[], some .timeout, false, false⟩, failure, ⟨[], some .timeout, false, false⟩]).reports = 2 := ⟨by simp [FailsAlone], by decide⟩

/-- An error of a Read during which the session gets closed (the closer interrupts it) is not reported, and the loop is over. -/
theorem C102_closed (env : Env) (s : State) (ho : s.over = false) (r : ReadResult) (he : r.err ≠ none) (hc : r.closes = true) :
    (iteration env s r).reports = s.reports ∧ (iteration env s r).over = true := by
  simp only [State.over, Bool.or_eq_false_iff] at ho
  cases h : r.err with
  | none => exact absurd h he
  | some e => simp [iteration, ho.1, ho.2, body, h, hc, readError, State.over]

example : (loop ⟨fun _ => true, true, fun _ => true⟩ .init [⟨[], some .timeout, true, true⟩, failure]).reports = 0 := by decide

/-- The loop ends with that error itself, before it looks at the session again; and it begins with nothing interrupted. -/
example : (loop ⟨fun _ => true, true, fun _ => true⟩ .init [⟨[], some .timeout, true, true⟩]).ended = true ∧
    State.init.interrupted = false ∧
    (loop ⟨fun _ => true, true, fun _ => true⟩ .init [⟨[], some .timeout, false, false⟩]).reports = 1 := by decide

/-! ## C103 -/

/-- The data of the results of `Read`, without the empty ones. -/
def received (rs : List ReadResult) : List Bytes := (rs.map (·.data)).filter (· ≠ [])

/-- C103 (restriction that holds): everything that `Read` returns without an error is processed, in this order, while the session is not
closed and the packets do not end it.
Missing for the full C103: data that is returned together with an error, see `C103_violated`. -/
theorem C103_partial (env : Env) (hg : ∀ b, env.goesOn b = true) (s : State) (ho : s.over = false) (rs : List ReadResult)
    (hr : ∀ r ∈ rs, r.err = none ∧ r.closes = false) : (loop env s rs).packets = s.packets ++ received rs := by
  induction rs generalizing s with
  | nil => simp [loop, received]
  | cons r rs ih =>
    have h1 := hr r (by simp)
    simp only [State.over, Bool.or_eq_false_iff] at ho
    rw [loop, ih _ _ (fun r' h' => hr r' (by simp [h']))]
    · simp only [iteration, ho.1, ho.2, body, h1.1, h1.2, hg, received, List.map_cons]
      by_cases he : r.data = [] <;> simp [he]
    · simp only [iteration, ho.1, ho.2, body, h1.1, h1.2, hg, State.over]
      by_cases he : r.data = [] <;> simp [he, ho.1, ho.2]

/-- The results up to and with the first packet that ends the loop. -/
def untilEnd (goesOn : Bytes → Bool) : List Bytes → List Bytes
  | [] => []
  | b :: bs => if goesOn b then b :: untilEnd goesOn bs else [b]

/-- C103, also when packets end the loop (DetachOnSequentialDecryptFailsCount, DetachOnMessagesCount): everything up to the packet that does
is processed, nothing after it, and the loop is over exactly if there was such a packet. -/
theorem C103_until_end (env : Env) (s : State) (ho : s.over = false) (rs : List ReadResult)
    (hr : ∀ r ∈ rs, r.err = none ∧ r.closes = false) :
    (loop env s rs).packets = s.packets ++ untilEnd env.goesOn (received rs) ∧
    (loop env s rs).over = (received rs).any (fun b => !env.goesOn b) := by
  induction rs generalizing s with
  | nil => simp [loop, received, untilEnd, ho]
  | cons r rs ih =>
    have h1 := hr r (by simp)
    have ho' := ho
    simp only [State.over, Bool.or_eq_false_iff] at ho
    rw [loop]
    by_cases he : r.data = []
    · have e : iteration env s r = { s with done := s.done || r.closes, interrupted := s.interrupted || r.interrupts } := by
        simp [iteration, ho.1, ho.2, body, h1.1, he]
      have h2 := ih (iteration env s r) (by rw [e]; simp [State.over, ho.1, ho.2, h1.2]) (fun r' h' => hr r' (by simp [h']))
      rw [h2.1, h2.2, e]
      simp [received, he]
    · cases hg : env.goesOn r.data with
      | true =>
        have h2 := ih (iteration env s r) (by simp [iteration, ho.1, ho.2, body, h1.1, h1.2, he, hg, State.over])
          (fun r' h' => hr r' (by simp [h']))
        rw [h2.1, h2.2]
        simp [iteration, ho.1, ho.2, body, h1.1, received, he, hg, untilEnd]
      | false =>
        have h2 := loop_over env rs (iteration env s r) (by simp [iteration, ho.1, ho.2, body, h1.1, h1.2, he, hg, State.over])
        rw [h2.2.1, h2.2.2]
        simp [iteration, ho.1, ho.2, body, h1.1, received, he, hg, untilEnd]

example : (loop ⟨fun _ => false, true, fun b => b != [7]⟩ .init [⟨[1], none, false, false⟩, ⟨[7], none, false, false⟩,
    ⟨[2], none, false, false⟩]).packets = [[1], [7]] := by decide

/-- C103 fails for all data that comes with an error, as readers may return it ("callers should always process the n > 0 bytes returned
before considering the error", package io): it is dropped. -/
theorem C103_violated (env : Env) (s : State) (r : ReadResult) (e : ReadErr) (he : r.err = some e) : (iteration env s r).packets = s.packets := by
  unfold iteration
  split
  · rfl
  split
  · rfl
  simp only [body, he, readError, report]
  (repeat' split) <;> rfl

/-- For example the last packet before the end of the connection. -/
example : (loop ⟨fun _ => false, true, fun _ => true⟩ .init [⟨[1], none, false, false⟩, ⟨[2], some .other, false, false⟩]).packets = [[1]] := by
  decide

/-! ## C104 -/

/-- `SetPause` interrupts the read, which ends with an error because of the deadline. -/
def Interrupt (r : ReadResult) : Prop := r.err ≠ none ∧ r.interrupts = true ∧ r.closes = false

/-- C104 (restriction that holds): the error that an interrupt causes is not reported and does not end the session, if the backend has
deadlines and its error has the text "i/o timeout" in it, as those of package net.
Missing for the full C104: backends with other texts, see `C104_violated`. -/
theorem C104_partial (env : Env) (hd : env.deadlines = true) (s : State) (ho : s.over = false) (r : ReadResult) (hr : Interrupt r)
    (ht : r.err = some .timeout) :
    (iteration env s r).reports = s.reports ∧ (iteration env s r).over = false ∧ (iteration env s r).interrupted = false := by
  simp only [State.over, Bool.or_eq_false_iff] at ho
  obtain ⟨-, h2, h3⟩ := hr
  simp [iteration, ho.1, ho.2, body, ht, h2, h3, readError, hd, State.over]

/-- C104 fails on every backend whose time-out has another text: the pause is reported as an error, and with the default handler it
closes the session. -/
theorem C104_violated (env : Env) (s : State) (ho : s.over = false) (r : ReadResult) (hr : Interrupt r) (ht : r.err = some .other) :
    (iteration env s r).reports = s.reports + 1 ∧ (env.handled s.reports = false → (iteration env s r).over = true) := by
  have h := failing_step env s r ⟨ht, hr.2.2⟩ ho
  exact ⟨h.1, fun hf => by rw [h.2.2, hf]; rfl⟩

/-- A backend without deadlines: the failure to set one is reported when the reader is interrupted, and the interrupt is over. -/
theorem C104_no_deadlines (env : Env) (hd : env.deadlines = false) (s : State) (ho : s.over = false) (r : ReadResult) (hr : Interrupt r)
    (ht : r.err = some .timeout) :
    (iteration env s r).reports = s.reports + 1 ∧ (iteration env s r).over = !env.handled s.reports ∧
    (iteration env s r).interrupted = false := by
  simp only [State.over, Bool.or_eq_false_iff] at ho
  obtain ⟨-, h2, h3⟩ := hr
  simp only [iteration, ho.1, ho.2, body, ht, h2, h3, readError, hd, report, State.over]
  cases h : env.handled s.reports <;> simp [ho.1, ho.2]

example : Interrupt ⟨[], some .timeout, false, true⟩ ∧ Interrupt ⟨[], some .other, false, true⟩ ∧
    (loop ⟨fun _ => false, true, fun _ => true⟩ .init [⟨[], some .timeout, false, true⟩, ⟨[2], none, false, false⟩]).packets = [[2]] ∧
    (loop ⟨fun _ => false, true, fun _ => true⟩ .init [⟨[], some .other, false, true⟩, ⟨[2], none, false, false⟩]).packets = [] := by
  refine ⟨?_, ?_, by decide, by decide⟩ <;> simp [Interrupt]

#print axioms C102_exact
#print axioms C102_partial
#print axioms C102_any_error
#print axioms C102_closed
#print axioms C103_until_end
#print axioms C104_no_deadlines
#print axioms C102_violated
#print axioms C103_partial
#print axioms C103_violated
#print axioms C104_partial
#print axioms C104_violated

end Verif.Reader
