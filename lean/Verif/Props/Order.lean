import Verif.Lemmas.Order
/-!
# Property theorems C149: messages of one goroutine are sent in the order of its calls

The full claim: nothing of a later message is written to the backend before all of the earlier one.
-/
namespace Verif.Order

/-- C149, the part which holds: if a call which does not wait is followed only by calls through the buffer until
one has waited, everything is written in the order of the calls.  In particular for programs of waiting calls
only, and for programs in which nothing is fragmented and `WriteMessageSingle` is not used. -/
theorem C149_partial {calls : List Call} (hc : Calm calls) {s : State} (h : Reachable calls s) : InOrder s.wire := by
  have hi : Inv calls s := by
    induction h with
    | init => exact inv_init calls
    | step a _ hs ih => exact inv_step hc ih hs
  exact (List.pairwise_append.mp hi.order).1

theorem C149_sync {calls : List Call} (h : ∀ c ∈ calls, c.open = false) : Calm calls := by
  intro i a b ha _
  have := h a (List.mem_of_getElem? ha)
  cases a with
  | buffered w => cases w <;> simp_all [Call.open, Fits]
  | direct => simp [Fits]
  | fragmented k w => cases w <;> simp_all [Call.open, Fits]

theorem C149_buffered {calls : List Call} (h : ∀ c ∈ calls, ∃ w, c = .buffered w) : Calm calls := by
  intro i a b ha hb
  obtain ⟨w, rfl⟩ := h a (List.mem_of_getElem? ha)
  obtain ⟨v, rfl⟩ := h b (List.mem_of_getElem? hb)
  cases w <;> simp [Fits]

/-- C149 is violated for all other programs (messages that are cut have two pieces at least): a later message can
be sent before an earlier one. -/
theorem C149_violated (calls : List Call) (hp : ∀ k w, Call.fragmented k w ∈ calls → 2 ≤ k) (hc : ¬ Calm calls) :
    ∃ s, Reachable calls s ∧ ¬ InOrder s.wire := by
  simp only [Calm, Classical.not_forall] at hc
  obtain ⟨i, a, b, ha, hb, hfit⟩ := hc
  have hlen : i + 1 < calls.length := by
    rcases Nat.lt_or_ge (i + 1) calls.length with h | h
    · exact h
    · rw [List.getElem?_eq_none h] at hb; cases hb
  obtain ⟨s, hr, ⟨q1, q2, q3, q4⟩, hn⟩ := reach calls i (by omega)
  have ha' : calls[s.next]? = some a := by rw [hn]; exact ha
  cases a with
  | buffered w =>
    cases w with
    | true => exact absurd trivial hfit
    | false =>
      -- the first one stays in the buffer
      let s1 : State := { s with next := s.next + 1, buf := [s.next], waiting := none }
      have h1 : step calls s .call = some s1 := by simp [step, q1, ha', q2, s1]
      have hb' : calls[s1.next]? = some b := by simp only [s1, hn]; exact hb
      cases b with
      | buffered w' => exact absurd trivial hfit
      | direct =>
        let s2 : State := { s1 with next := s1.next + 1, wire := s1.wire ++ [s1.next] }
        have h2 : step calls s1 .call = some s2 := by
          simp only [step, hb']; rw [if_neg (by simp [s1])]
        let s3 : State := { s2 with flight := some [s.next], buf := [] }
        have h3 : step calls s2 .take = some s3 := by simp [step, s2, s1, s3, q3]
        have h4 : step calls s3 .write = some { s3 with flight := none, wire := s3.wire ++ [s.next] } := by
          simp [step, s3]
        refine ⟨_, (((hr.step _ h1).step _ h2).step _ h3).step _ h4, ?_⟩
        exact not_inOrder s.wire [] [] (s.next + 1) s.next (by omega)
      | fragmented k w' =>
        have hk := hp k w' (List.mem_of_getElem? hb)
        obtain ⟨k, rfl⟩ : ∃ m, k = m + 2 := ⟨k - 2, by omega⟩
        let s2 : State := { s1 with next := s1.next + 1, frags := List.replicate (k + 2) s1.next,
                                    waiting := if w' then some s1.next else none }
        have h2 : step calls s1 .call = some s2 := by
          simp only [step, hb']; rw [if_neg (by simp [s1])]; simp [s2, s1, q4]
        let s3 : State := { s2 with frags := List.replicate (k + 1) s1.next, wire := s2.wire ++ [s1.next] }
        have h3 : step calls s2 (.piece 0) = some s3 := by
          simp [step, s2, s3, List.replicate_succ]
        let s4 : State := { s3 with flight := some [s.next], buf := [] }
        have h4 : step calls s3 .take = some s4 := by simp [step, s3, s2, s1, s4, q3]
        have h5 : step calls s4 .write = some { s4 with flight := none, wire := s4.wire ++ [s.next] } := by
          simp [step, s4]
        refine ⟨_, ((((hr.step _ h1).step _ h2).step _ h3).step _ h4).step _ h5, ?_⟩
        exact not_inOrder s.wire [] [] (s.next + 1) s.next (by omega)
  | direct => exact absurd trivial hfit
  | fragmented k w =>
    cases w with
    | true => exact absurd trivial hfit
    | false =>
      have hk := hp k false (List.mem_of_getElem? ha)
      obtain ⟨k, rfl⟩ : ∃ m, k = m + 2 := ⟨k - 2, by omega⟩
      -- none of its pieces is written
      let s1 : State := { s with next := s.next + 1, frags := List.replicate (k + 2) s.next, waiting := none }
      have h1 : step calls s .call = some s1 := by simp [step, q1, ha', q4, s1]
      have hb' : calls[s1.next]? = some b := by simp only [s1, hn]; exact hb
      -- something of the second one is written first
      have : ∃ s2 l, Reachable calls s2 ∧ s2.frags[0]? = some s.next ∧ s2.wire = s.wire ++ (s.next + 1) :: l := by
        cases b with
        | buffered w' =>
          let s2 : State := { s1 with next := s1.next + 1, buf := [s1.next], waiting := if w' then some s1.next else none }
          have h2 : step calls s1 .call = some s2 := by
            simp only [step, hb']; rw [if_neg (by simp [s1])]; simp [s2, s1, q2]
          let s3 : State := { s2 with flight := some [s1.next], buf := [] }
          have h3 : step calls s2 .take = some s3 := by simp [step, s2, s1, s3, q3]
          have h4 : step calls s3 .write = some { s3 with flight := none, wire := s3.wire ++ [s1.next] } := by
            simp [step, s3]
          exact ⟨_, [], (((hr.step _ h1).step _ h2).step _ h3).step _ h4, by simp [s3, s2, s1, List.replicate_succ], rfl⟩
        | direct =>
          have h2 : step calls s1 .call = some { s1 with next := s1.next + 1, wire := s1.wire ++ [s1.next] } := by
            simp only [step, hb']; rw [if_neg (by simp [s1])]
          exact ⟨_, [], (hr.step _ h1).step _ h2, by simp [s1, List.replicate_succ], rfl⟩
        | fragmented k' w' =>
          have hk' := hp k' w' (List.mem_of_getElem? hb)
          obtain ⟨k', rfl⟩ : ∃ m, k' = m + 2 := ⟨k' - 2, by omega⟩
          let s2 : State := { s1 with next := s1.next + 1, frags := s1.frags ++ List.replicate (k' + 2) s1.next,
                                      waiting := if w' then some s1.next else none }
          have h2 : step calls s1 .call = some s2 := by
            simp only [step, hb']; rw [if_neg (by simp [s1])]
          have hg : s2.frags[k + 2]? = some s1.next := by
            simp only [s2, s1]
            rw [List.getElem?_append_right (by simp)]
            simp
          have h3 : step calls s2 (.piece (k + 2)) =
              some { s2 with frags := s2.frags.eraseIdx (k + 2), wire := s2.wire ++ [s1.next] } := by
            simp only [step, hg]
          refine ⟨_, [], ((hr.step _ h1).step _ h2).step _ h3, ?_, rfl⟩
          simp only
          rw [List.getElem?_eraseIdx_of_lt (by omega)]
          simp [s2, s1, List.replicate_succ]
      obtain ⟨s2, l, hr2, hg, hw⟩ := this
      have h3 : step calls s2 (.piece 0) = some { s2 with frags := s2.frags.eraseIdx 0, wire := s2.wire ++ [s.next] } := by
        simp only [step, hg]
      refine ⟨_, hr2.step _ h3, ?_⟩
      simp only [hw]
      exact not_inOrder s.wire l [] (s.next + 1) s.next (by omega)

/-! ## Examples -/

/-- `WriteMessageAsync` of 3 bytes, with a SendDelay; the same without; 40 bytes with a payload size of 30. -/
example :
    Call.of false (Send.writeMessageAsync ⟨1000, true, true⟩ 1 5 [1, 2, 3]) = some (.buffered false) ∧
    Call.of true (Send.writeMessageAsync ⟨1000, true, true⟩ 1 5 [1, 2, 3]) = some (.buffered true) ∧
    Call.of false (Send.writeMessageAsync ⟨1000, true, false⟩ 1 5 [1, 2, 3]) = some .direct ∧
    Call.of false (Send.writeMessageAsync ⟨30, true, true⟩ 1 5 (List.replicate 40 1)) = some (.fragmented 7 false) := by
  decide +kernel

/-- `WriteMessageAsync`, then `WriteMessageSingle`: the second message is sent first. -/
example : ∃ s, run [.buffered false, .direct] .init [.call, .call, .take, .write] = some s ∧ s.wire = [1, 0] :=
  ⟨_, rfl, by decide⟩

/-- `WriteMessageAsync` of a small and then of a big message: the small one gets between the pieces of the other. -/
example : ∃ s, run [.buffered false, .fragmented 3 false] .init
    [.call, .call, .piece 0, .take, .write, .piece 0, .piece 0] = some s ∧ s.wire = [1, 0, 1, 1] :=
  ⟨_, rfl, by decide⟩

/-- Two big messages, each written by `WriteMessageAsync`. -/
example : ∃ s, run [.fragmented 2 false, .fragmented 2 false] .init
    [.call, .call, .piece 3, .piece 0, .piece 1, .piece 0] = some s ∧ s.wire = [1, 0, 1, 0] :=
  ⟨_, rfl, by decide⟩

/-- A program as in `C149_partial`, and a run of it. -/
example : Calm [.buffered false, .buffered true, .direct, .fragmented 2 true, .buffered false] ∧
    ∃ s, run [.buffered false, .buffered true, .direct, .fragmented 2 true, .buffered false] .init
      [.call, .call, .take, .write, .ret, .call, .call, .piece 1, .piece 0, .ret, .call] = some s ∧
      s.wire = [0, 1, 2, 3, 3] ∧ s.buf = [4] := by
  refine ⟨?_, _, rfl, by decide, by decide⟩
  intro i a b ha hb
  match i with
  | 0 => cases ha; cases hb; decide
  | 1 => cases ha; cases hb; decide
  | 2 => cases ha; cases hb; decide
  | 3 => cases ha; cases hb; decide
  | i + 4 => simp at hb

/-- `WriteMessage` does not return before its message is sent. -/
example : run [.buffered true, .direct] .init [.call, .take, .ret] = none ∧
    run [.buffered true, .direct] .init [.call, .call] = none ∧
    run [.fragmented 2 true] .init [.call, .piece 0, .ret] = none := by decide

#print axioms C149_partial
#print axioms C149_sync
#print axioms C149_buffered
#print axioms C149_violated

end Verif.Order
