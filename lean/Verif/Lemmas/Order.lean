import Verif.Spec.Order
/-!
# Lemmas for C149
-/
namespace Verif.Order

/-- What has been begun but not written, through the buffer. -/
def pend (s : State) : List Nat := s.flight.getD [] ++ s.buf

structure Inv (calls : List Call) (s : State) : Prop where
  /-- in order, with what is to come through the buffer -/
  order : InOrder (s.wire ++ pend s)
  below : ∀ i ∈ s.wire ++ pend s, i < s.next
  /-- pieces are those of the last call, and then nothing is in the buffer -/
  frags : ∀ i ∈ s.frags, i + 1 = s.next
  alone : s.frags ≠ [] → pend s = []
  /-- the last message in the buffer is that of the last call -/
  last : pend s ≠ [] → s.next - 1 ∈ pend s ∧ ∃ w, calls[s.next - 1]? = some (.buffered w)
  lastFrag : s.frags ≠ [] → ∃ k w, calls[s.next - 1]? = some (.fragmented k w)
  /-- the call which waits is the last one -/
  waits : ∀ i, s.waiting = some i → i + 1 = s.next
  /-- a call which was to wait has not returned before -/
  free : s.waiting = none → s.next ≠ 0 → (pend s ≠ [] ∨ s.frags ≠ []) →
    ∀ c, calls[s.next - 1]? = some c → c.open = true

theorem inOrder_snoc {l : List Nat} {n : Nat} (h : InOrder l) (hb : ∀ i ∈ l, i ≤ n) : InOrder (l ++ [n]) := by
  simp only [InOrder, List.pairwise_append]
  exact ⟨h, by simp, fun a ha b hb' => by simp only [List.mem_singleton] at hb'; subst hb'; exact hb a ha⟩

theorem inv_init (calls : List Call) : Inv calls .init := by
  constructor <;> simp [State.init, pend, InOrder]

theorem inv_step {calls : List Call} (hc : Calm calls) {s s' : State} {a : Act} (h : Inv calls s)
    (hs : step calls s a = some s') : Inv calls s' := by
  cases a with
  | call =>
    simp only [step] at hs
    split at hs
    · cases hs
    · rename_i hw
      have hw : s.waiting = none := by simpa using hw
      -- what can be pending now, given the next call
      have hfit : ∀ c, calls[s.next]? = some c →
          (s.frags = []) ∧ (pend s ≠ [] → ∃ w, c = .buffered w) := by
        intro c hcn
        by_cases h0 : s.next = 0
        · have hp : pend s = [] := by
            apply List.eq_nil_iff_forall_not_mem.mpr
            intro x hx
            have := h.below x (List.mem_append_right _ hx)
            omega
          have hf : s.frags = [] := by
            apply List.eq_nil_iff_forall_not_mem.mpr
            intro x hx
            have := h.frags x hx
            omega
          exact ⟨hf, fun hp' => absurd hp hp'⟩
        · have hprev : ∀ p, calls[s.next - 1]? = some p → Fits p c := by
            intro p hp
            exact hc (s.next - 1) p c hp (by rw [show s.next - 1 + 1 = s.next by omega]; exact hcn)
          constructor
          · by_cases hf : s.frags = []
            · exact hf
            · obtain ⟨k, w, hk⟩ := h.lastFrag hf
              have ho := h.free hw h0 (.inr hf) _ hk
              simp only [Call.open] at ho
              have hwf : w = false := by simpa using ho
              subst hwf
              have := hprev _ hk
              simp [Fits] at this
          · intro hp
            obtain ⟨-, w, hk⟩ := h.last hp
            have ho := h.free hw h0 (.inl hp) _ hk
            simp only [Call.open] at ho
            have hwf : w = false := by simpa using ho
            subst hwf
            have := hprev _ hk
            cases c with
            | buffered w' => exact ⟨w', rfl⟩
            | direct => simp [Fits] at this
            | fragmented k w' => simp [Fits] at this
      split at hs
      · cases hs
      · rename_i w hcn
        obtain ⟨hf, -⟩ := hfit _ hcn
        cases hs
        have hpend : pend (State.mk (s.next + 1) (if w then some s.next else none) (s.buf ++ [s.next]) s.flight
            s.frags s.wire) = pend s ++ [s.next] := by
          simp [pend, List.append_assoc]
        refine ⟨?_, ?_, ?_, ?_, ?_, ?_, ?_, ?_⟩
        · rw [hpend, ← List.append_assoc]
          exact inOrder_snoc h.order (fun i hi => Nat.le_of_lt (h.below i hi))
        · rw [hpend]
          intro i hi
          rw [← List.append_assoc, List.mem_append] at hi
          rcases hi with hi | hi
          · have := h.below i hi; simp only; omega
          · simp only [List.mem_singleton] at hi; simp only; omega
        · intro i hi; simp only [hf, List.not_mem_nil] at hi
        · intro hn; exact absurd hf hn
        · intro _
          rw [hpend]
          exact ⟨by simp, w, hcn⟩
        · intro hn; exact absurd hf hn
        · intro i hi
          simp only at hi ⊢
          split at hi
          · cases hi; rfl
          · cases hi
        · intro hw' _ _ c hc'
          simp only [Nat.add_sub_cancel] at hc' hw'
          rw [hcn] at hc'; cases hc'
          simp only [Call.open]
          cases w
          · rfl
          · simp at hw'
      · rename_i hcn
        obtain ⟨hf, hp⟩ := hfit _ hcn
        have hp : pend s = [] := by
          by_cases hp' : pend s = []
          · exact hp'
          · obtain ⟨w, e⟩ := hp hp'; cases e
        cases hs
        have hpend : pend { s with next := s.next + 1, wire := s.wire ++ [s.next] } = [] := hp
        have ho := h.order
        have hb := h.below
        rw [hp, List.append_nil] at ho hb
        refine ⟨?_, ?_, ?_, ?_, ?_, ?_, ?_, ?_⟩
        · rw [hpend, List.append_nil]
          exact inOrder_snoc ho (fun i hi => Nat.le_of_lt (hb i hi))
        · rw [hpend, List.append_nil]
          intro i hi
          rw [List.mem_append] at hi
          rcases hi with hi | hi
          · have := hb i hi; simp only; omega
          · simp only [List.mem_singleton] at hi; simp only; omega
        · intro i hi; simp only [hf, List.not_mem_nil] at hi
        · intro hn; exact absurd hf hn
        · intro hn; exact absurd hpend hn
        · intro hn; exact absurd hf hn
        · intro i hi; simp only [hw] at hi; cases hi
        · intro _ _ hn
          rcases hn with hn | hn
          · exact absurd hpend hn
          · exact absurd hf hn
      · rename_i k w hcn
        obtain ⟨hf, hp⟩ := hfit _ hcn
        have hp : pend s = [] := by
          by_cases hp' : pend s = []
          · exact hp'
          · obtain ⟨w, e⟩ := hp hp'; cases e
        cases hs
        have hpend : pend (State.mk (s.next + 1) (if w then some s.next else none) s.buf s.flight
            (s.frags ++ List.replicate k s.next) s.wire) = [] := hp
        refine ⟨?_, ?_, ?_, ?_, ?_, ?_, ?_, ?_⟩
        · have := h.order; rw [hp] at this; rw [hpend]; exact this
        · rw [hpend]
          intro i hi
          have := h.below i (by rw [hp]; exact hi)
          simp only; omega
        · intro i hi
          simp only [hf, List.nil_append] at hi
          have := List.eq_of_mem_replicate hi
          simp only; omega
        · intro _; exact hpend
        · intro hn; exact absurd hpend hn
        · intro _; exact ⟨k, w, hcn⟩
        · intro i hi
          simp only at hi ⊢
          split at hi
          · cases hi; rfl
          · cases hi
        · intro hw' _ _ c hc'
          simp only [Nat.add_sub_cancel] at hc' hw'
          rw [hcn] at hc'; cases hc'
          simp only [Call.open]
          cases w
          · rfl
          · simp at hw'
  | ret =>
    simp only [step] at hs
    split at hs
    · cases hs
    · rename_i i hi
      split at hs
      · cases hs
      · rename_i hn
        simp only [not_or] at hn
        cases hs
        have hi' := h.waits i hi
        have hp : pend s = [] := by
          by_cases hp' : pend s = []
          · exact hp'
          · have := (h.last hp').1
            rw [← hi', Nat.add_sub_cancel] at this
            simp only [pend, List.mem_append] at this
            rcases this with this | this
            · exact absurd this hn.2.1
            · exact absurd this hn.1
        have hf : s.frags = [] := by
          apply List.eq_nil_iff_forall_not_mem.mpr
          intro x hx
          have := h.frags x hx
          have e : x = i := by omega
          subst e
          exact hn.2.2 hx
        exact ⟨h.order, h.below, h.frags, h.alone, h.last, h.lastFrag, (fun i hi => by cases hi),
          fun _ _ hn => by
            rcases hn with hn | hn
            · exact absurd hp hn
            · exact absurd hf hn⟩
  | take =>
    simp only [step] at hs
    split at hs
    · rename_i hh
      cases hs
      have hpend : pend { s with flight := some s.buf, buf := [] } = pend s := by
        simp [pend, hh.1]
      exact ⟨by rw [hpend]; exact h.order, by rw [hpend]; exact h.below, h.frags,
        by rw [hpend]; exact h.alone, by rw [hpend]; exact h.last, h.lastFrag, h.waits,
        by rw [hpend]; exact h.free⟩
    · cases hs
  | write =>
    simp only [step] at hs
    split at hs
    · cases hs
    · rename_i l hl
      cases hs
      have hps : pend s = l ++ s.buf := by simp [pend, hl]
      have hpend : pend { s with flight := none, wire := s.wire ++ l } = s.buf := by simp [pend]
      have happ : (s.wire ++ l) ++ s.buf = s.wire ++ pend s := by rw [hps, List.append_assoc]
      have hsub : s.buf ≠ [] → pend s ≠ [] := by
        intro hb hp; rw [hps] at hp
        exact hb (List.append_eq_nil_iff.mp hp).2
      refine ⟨?_, ?_, h.frags, ?_, ?_, h.lastFrag, h.waits, ?_⟩
      · rw [hpend]; simp only; rw [happ]; exact h.order
      · rw [hpend]; simp only; rw [happ]; exact h.below
      · intro hn; rw [hpend]; have := h.alone hn
        rw [hps] at this; exact (List.append_eq_nil_iff.mp this).2
      · rw [hpend]
        intro hn
        obtain ⟨h1, h2⟩ := h.last (hsub hn)
        refine ⟨?_, h2⟩
        simp only
        -- the last call is not in `l`: `buf` comes behind it and has no smaller number
        rw [hps, List.mem_append] at h1
        rcases h1 with h1 | h1
        · have ho := h.order
          rw [hps, InOrder, List.pairwise_append] at ho
          have ho2 := (List.pairwise_append.mp ho.2.1).2.2
          obtain ⟨y, hy⟩ := List.exists_mem_of_ne_nil _ hn
          have hle := ho2 _ h1 y hy
          have hlt := h.below y (by rw [hps]; simp [hy])
          have e : y = s.next - 1 := by omega
          rw [← e]; exact hy
        · exact h1
      · rw [hpend]
        intro hw h0 hn
        refine h.free hw h0 ?_
        rcases hn with hn | hn
        · exact .inl (hsub hn)
        · exact .inr hn
  | piece j =>
    simp only [step] at hs
    split at hs
    · cases hs
    · rename_i i hi
      cases hs
      have hmem : i ∈ s.frags := List.mem_of_getElem? hi
      have hne : s.frags ≠ [] := by intro e; rw [e] at hmem; cases hmem
      have hp := h.alone hne
      have hlt := h.frags i hmem
      have hpend : pend { s with frags := s.frags.eraseIdx j, wire := s.wire ++ [i] } = [] := hp
      have ho := h.order
      have hb := h.below
      rw [hp, List.append_nil] at ho hb
      have hsub : s.frags.eraseIdx j ≠ [] → s.frags ≠ [] := fun _ => hne
      refine ⟨?_, ?_, ?_, ?_, ?_, ?_, h.waits, ?_⟩
      · rw [hpend, List.append_nil]
        exact inOrder_snoc ho (fun x hx => by have := hb x hx; omega)
      · rw [hpend, List.append_nil]
        intro x hx
        simp only [List.mem_append, List.mem_singleton] at hx
        rcases hx with hx | hx
        · exact hb x hx
        · simp only; omega
      · intro x hx; exact h.frags x (List.mem_of_mem_eraseIdx hx)
      · intro _; exact hpend
      · intro hn; exact absurd hpend hn
      · intro hn; exact h.lastFrag (hsub hn)
      · intro hw h0 _
        exact h.free hw h0 (.inr hne)

/-- Nothing waits to be sent. -/
def State.quiet (s : State) : Prop := s.waiting = none ∧ s.buf = [] ∧ s.flight = none ∧ s.frags = []

theorem pieces {calls : List Call} (n : Nat) : ∀ (s : State), s.frags.length = n → Reachable calls s →
    ∃ s', Reachable calls s' ∧ s'.frags = [] ∧ s'.next = s.next ∧ s'.waiting = s.waiting ∧ s'.buf = s.buf ∧
      s'.flight = s.flight ∧ ∃ l, s'.wire = s.wire ++ l := by
  induction n with
  | zero => intro s hl hr; exact ⟨s, hr, List.eq_nil_of_length_eq_zero hl, rfl, rfl, rfl, rfl, [], by simp⟩
  | succ n ih =>
    intro s hl hr
    cases hf : s.frags with
    | nil => rw [hf] at hl; simp at hl
    | cons i fs =>
      have hst : step calls s (.piece 0) = some { s with frags := fs, wire := s.wire ++ [i] } := by
        simp [step, hf]
      obtain ⟨s', h1, h2, h3, h4, h5, h6, l, h7⟩ := ih _ (by simp [hf] at hl; simpa using hl) (hr.step _ hst)
      exact ⟨s', h1, h2, h3, h4, h5, h6, i :: l, by rw [h7]; simp⟩

/-- From every state everything that waits can be sent and the call can return. -/
theorem settle {calls : List Call} {s : State} (hr : Reachable calls s) :
    ∃ s', Reachable calls s' ∧ s'.quiet ∧ s'.next = s.next ∧ ∃ l, s'.wire = s.wire ++ l := by
  obtain ⟨s1, r1, f1, n1, w1, b1, fl1, l1, e1⟩ := pieces _ s rfl hr
  have : ∃ s2, Reachable calls s2 ∧ s2.frags = [] ∧ s2.next = s.next ∧ s2.flight = none ∧ ∃ l, s2.wire = s.wire ++ l := by
    cases hfl : s1.flight with
    | none => exact ⟨s1, r1, f1, n1, hfl, l1, e1⟩
    | some l =>
      have hst : step calls s1 .write = some { s1 with flight := none, wire := s1.wire ++ l } := by simp [step, hfl]
      exact ⟨_, r1.step _ hst, f1, n1, rfl, l1 ++ l, by simp only; rw [e1, List.append_assoc]⟩
  obtain ⟨s2, r2, f2, n2, fl2, l2, e2⟩ := this
  have : ∃ s3, Reachable calls s3 ∧ s3.frags = [] ∧ s3.next = s.next ∧ s3.flight = none ∧ s3.buf = [] ∧
      ∃ l, s3.wire = s.wire ++ l := by
    by_cases hb : s2.buf = []
    · exact ⟨s2, r2, f2, n2, fl2, hb, l2, e2⟩
    · have hst : step calls s2 .take = some { s2 with flight := some s2.buf, buf := [] } := by
        simp [step, hb, fl2]
      have hst2 : step calls { s2 with flight := some s2.buf, buf := [] } .write =
          some { s2 with buf := [], flight := none, wire := s2.wire ++ s2.buf } := by simp [step]
      exact ⟨_, (r2.step _ hst).step _ hst2, f2, n2, rfl, rfl, l2 ++ s2.buf, by simp only; rw [e2, List.append_assoc]⟩
  obtain ⟨s3, r3, f3, n3, fl3, b3, l3, e3⟩ := this
  cases hw : s3.waiting with
  | none => exact ⟨s3, r3, ⟨hw, b3, fl3, f3⟩, n3, l3, e3⟩
  | some i =>
    have hst : step calls s3 .ret = some { s3 with waiting := none } := by simp [step, hw, b3, fl3, f3]
    exact ⟨_, r3.step _ hst, ⟨rfl, b3, fl3, f3⟩, n3, l3, e3⟩

/-- The goroutine can get to every one of its calls with nothing waiting. -/
theorem reach (calls : List Call) (i : Nat) (hi : i ≤ calls.length) :
    ∃ s, Reachable calls s ∧ s.quiet ∧ s.next = i := by
  induction i with
  | zero => exact ⟨.init, .init, ⟨rfl, rfl, rfl, rfl⟩, rfl⟩
  | succ i ih =>
    obtain ⟨s, hr, hq, hn⟩ := ih (by omega)
    have hget : calls[s.next]? = some calls[i] := by rw [hn]; exact List.getElem?_eq_getElem (by omega)
    have : ∃ s', step calls s .call = some s' ∧ s'.next = s.next + 1 := by
      simp only [step, hq.1]
      rw [hget]
      cases calls[i] <;> exact ⟨_, rfl, rfl⟩
    obtain ⟨s', hst, hn'⟩ := this
    obtain ⟨s'', h1, h2, h3, -⟩ := settle (hr.step _ hst)
    exact ⟨s'', h1, h2, by rw [h3, hn', hn]⟩

theorem not_inOrder (w l m : List Nat) (a b : Nat) (h : b < a) : ¬ InOrder ((w ++ a :: l) ++ (b :: m)) := by
  intro ho
  have := (List.pairwise_append.mp ho).2.2 a (by simp) b (by simp)
  omega

end Verif.Order
