import Verif.Lemmas.ReadQueue
/-!
# Property theorems C50, C51, C65: reading messages

`s.arrived` are the messages of type ReadWrite which the session received, in order; `s.rets` the results of
the `Read` calls in the order they returned.  `seq` in a result is the number of `<-ch` receives before
its own.
-/
namespace Verif.ReadQueue

/-! ## C50 -/

/-- C50: for any number of concurrent `Read` calls and any behaviour of the item pool: a successful `Read`
returns exactly one message, whole and unmodified, the `Read` that receives as the k-th gets the k-th
message, no message is given to two calls, and nothing panics. -/
theorem C50_read_exact (s : State) (h : Reachable s) :
    (∀ k d, .ok k d ∈ s.rets → s.arrived[k]? = some d) ∧
    (s.rets.filterMap Ret.seq? ++ s.calls.map (·.seq)).Perm (List.range s.taken) ∧
    ∀ a, step s a ≠ .panic := by
  have hi := inv_reachable s h
  refine ⟨fun k d hm => hi.rets _ hm, hi.seqs, fun a ha => ?_⟩
  rcases inv_step s a hi with ⟨s', h1, -⟩ | h1 <;> rw [h1] at ha <;> cases ha

/-- One application goroutine: a `Read` begins only when no other is running. -/
inductive Sequential : State → Prop
  | init : Sequential State.init
  | step {s s'} (a : Act) : Sequential s → step s a = .ok s' → (∀ n, a = .take n → s.calls = []) →
      Sequential s'

theorem Sequential.reachable {s : State} (h : Sequential s) : Reachable s := by
  induction h with
  | init => exact .init
  | step a _ hs _ ih => exact .step a ih hs

theorem seq_order (s : State) (h : Sequential s) :
    s.calls.length ≤ 1 ∧ s.rets.filterMap Ret.seq? ++ s.calls.map (·.seq) = List.range s.taken := by
  induction h with
  | init => simp [State.init]
  | step a hq hs hc ih =>
    rename_i s s'
    obtain ⟨h1, h2⟩ := ih
    cases a with
    | arrive m reuse =>
      simp only [Verif.ReadQueue.step] at hs
      split at hs
      · unfold acquire at hs; split at hs <;> cases hs; exact ⟨h1, h2⟩
      · split at hs
        · unfold acquire at hs; split at hs <;> cases hs; exact ⟨h1, h2⟩
        · cases hs
      · cases hs
    | send =>
      simp only [Verif.ReadQueue.step] at hs
      split at hs
      · split at hs <;> cases hs; exact ⟨h1, h2⟩
      · cases hs
    | stop =>
      simp only [Verif.ReadQueue.step] at hs
      split at hs <;> cases hs; exact ⟨h1, h2⟩
    | take n =>
      have hn := hc n rfl
      simp only [Verif.ReadQueue.step] at hs
      split at hs
      · cases hs
        rw [hn] at h2 ⊢
        refine ⟨by simp, ?_⟩
        simp only [List.map_nil, List.append_nil] at h2
        simp only [List.nil_append, List.map_cons, List.map_nil, List.range_succ, h2]
      · split at hs <;> cases hs
        refine ⟨h1, ?_⟩
        simp only [List.filterMap_append]
        exact (congrArg (· ++ s.calls.map (·.seq)) (List.append_nil _)).trans h2
    | copy i =>
      simp only [Verif.ReadQueue.step] at hs
      cases hg : s.calls[i]? with
      | none => rw [hg] at hs; cases hs
      | some c =>
        rw [hg] at hs
        obtain ⟨hm, -, hi, hci⟩ := mem_of_get hg
        have hi0 : i = 0 := by omega
        subst hi0
        obtain ⟨y, hy⟩ : ∃ y, s.calls = [y] := by
          match hl : s.calls, h1, hi with
          | [y], _, _ => exact ⟨y, rfl⟩
        have hyc : y = c := by simpa [hy] using hg
        subst hyc
        dsimp only at hs
        split at hs
        · cases hs
        · split at hs
          · cases hs
            rw [hy] at h2 ⊢
            refine ⟨by simp, ?_⟩
            simp only [List.filterMap_append, List.eraseIdx_zero, List.tail_cons, List.map_nil, List.append_nil]
            exact h2
          · cases hs
            rw [hy] at h2 ⊢
            exact ⟨by simp, h2⟩
    | release i =>
      simp only [Verif.ReadQueue.step] at hs
      cases hg : s.calls[i]? with
      | none => rw [hg] at hs; cases hs
      | some c =>
        rw [hg] at hs
        obtain ⟨hm, -, hi, hci⟩ := mem_of_get hg
        have hi0 : i = 0 := by omega
        subst hi0
        obtain ⟨y, hy⟩ : ∃ y, s.calls = [y] := by
          match hl : s.calls, h1, hi with
          | [y], _, _ => exact ⟨y, rfl⟩
        have hyc : y = c := by simpa [hy] using hg
        subst hyc
        dsimp only at hs
        split at hs
        · split at hs <;> cases hs
          rw [hy] at h2 ⊢
          refine ⟨by simp, ?_⟩
          simp only [List.filterMap_append, List.eraseIdx_zero, List.tail_cons, List.map_nil, List.append_nil]
          exact h2
        · cases hs
    | gc i =>
      simp only [Verif.ReadQueue.step] at hs
      split at hs <;> cases hs; exact ⟨h1, h2⟩

/-- C50 for one reading goroutine: if its `Read` calls succeeded with the results `ds`, then `ds` are the
first messages that arrived, in order. -/
theorem C50_in_order (s : State) (h : Sequential s) (ds : List Bytes) (ks : List Nat)
    (hl : ks.length = ds.length)
    (hr : s.rets = (ks.zip ds).map fun x => .ok x.1 x.2) : ds = s.arrived.take ds.length := by
  obtain ⟨-, h2⟩ := seq_order s h
  have hi := inv_reachable s h.reachable
  have hk : s.rets.filterMap Ret.seq? = ks := by
    rw [hr, List.filterMap_map]
    have : (Ret.seq? ∘ fun x : Nat × Bytes => Ret.ok x.1 x.2) = fun x => some x.1 := rfl
    rw [this]
    have h3 : ∀ l : List (Nat × Bytes), l.filterMap (fun x => some x.1) = l.map (·.1) := by
      intro l; induction l with
      | nil => rfl
      | cons a l ih => simp
    rw [h3, List.map_fst_zip (by omega)]
  rw [hk] at h2
  have hlen : ks.length ≤ s.taken := by
    have := congrArg List.length h2
    simp at this; omega
  have hget : ∀ j (hj : j < ks.length), ks[j] = j := by
    intro j hj
    have h4 : (ks ++ s.calls.map (·.seq))[j]? = (List.range s.taken)[j]? := by rw [h2]
    rw [List.getElem?_append_left hj, List.getElem?_eq_getElem hj,
      List.getElem?_range (by omega)] at h4
    simpa using h4
  have hlen2 : ds.length ≤ s.arrived.length := by have := hi.len; omega
  apply List.ext_getElem
  · simp; omega
  · intro j hj1 hj2
    have hjk : j < ks.length := by omega
    have hm : Ret.ok ks[j] ds[j] ∈ s.rets := by
      rw [hr, List.mem_map]
      exact ⟨(ks[j], ds[j]), by
        rw [← List.getElem_zip (h := by simp; omega)]; exact List.getElem_mem _, rfl⟩
    have := hi.rets _ hm
    simp only [Ret.Right, hget j hjk] at this
    rw [List.getElem_take]
    rw [List.getElem?_eq_getElem (by omega)] at this
    simpa using this.symm

theorem closed_inv (s : State) (h : Reachable s) (hc : Ret.closed ∈ s.rets) :
    s.reader = .stopped ∧ s.queue = [] := by
  induction h with
  | init => simp [State.init] at hc
  | step a hq hs ih =>
    rename_i s s'
    cases a with
    | arrive m reuse =>
      simp only [Verif.ReadQueue.step] at hs
      split at hs
      · next hr =>
        unfold acquire at hs; split at hs <;> cases hs
        have := (ih hc).1; rw [hr] at this; cases this
      · next i hr =>
        split at hs
        · unfold acquire at hs; split at hs <;> cases hs
          have := (ih hc).1; rw [hr] at this; cases this
        · cases hs
      · cases hs
    | send =>
      simp only [Verif.ReadQueue.step] at hs
      split at hs
      · next hr =>
        split at hs <;> cases hs
        have := (ih hc).1; rw [hr] at this; cases this
      · cases hs
    | stop =>
      simp only [Verif.ReadQueue.step] at hs
      split at hs <;> cases hs; exact ⟨rfl, (ih hc).2⟩
    | take n =>
      simp only [Verif.ReadQueue.step] at hs
      split at hs
      · next hq' =>
        cases hs
        have := (ih hc).2; rw [hq'] at this; cases this
      · next hq' =>
        split at hs <;> cases hs
        next hr => exact ⟨hr, hq'⟩
    | copy i =>
      simp only [Verif.ReadQueue.step] at hs
      split at hs
      · split at hs
        · cases hs
        · split at hs <;> cases hs
          · exact ih (by simpa using hc)
          · exact ih hc
      · cases hs
    | release i =>
      simp only [Verif.ReadQueue.step] at hs
      split at hs
      · split at hs
        · split at hs <;> cases hs
          exact ih (by simpa using hc)
        · cases hs
      · cases hs
    | gc i =>
      simp only [Verif.ReadQueue.step] at hs
      split at hs <;> cases hs; exact ih hc

/-- C50: `Read` reports the end of the session only after every message that arrived has been taken. -/
theorem C50_closed_last (s : State) (h : Reachable s) (hc : Ret.closed ∈ s.rets) :
    s.taken = s.arrived.length := by
  obtain ⟨h1, h2⟩ := closed_inv s h hc
  have hi := inv_reachable s h
  have := hi.content
  simp only [waiting, h1, h2, Reader.items, List.append_nil, List.map_nil] at this
  have h3 := List.drop_eq_nil_iff.mp this
  have := hi.len
  omega

/-- Two messages, the reused item and an overlapping `Read`. -/
def demo : List Act :=
  [.arrive [1, 2] none, .send, .take 8, .copy 0, .release 0, .arrive [3] (some 0), .send, .take 1, .copy 0,
   .release 0, .stop, .take 5]

/-- Results of a run (for examples). -/
def results : Outcome Unit State → Option (List Ret)
  | .ok s => some s.rets
  | _ => none

example : results (runActs State.init demo) = some [.ok 0 [1, 2], .ok 1 [3], .closed] := by decide +kernel

theorem reachable_run (s : State) (h : Reachable s) (as : List Act) (s' : State)
    (hr : runActs s as = .ok s') : Reachable s' := by
  induction as generalizing s with
  | nil => cases hr; exact h
  | cons a as ih =>
    simp only [runActs] at hr
    split at hr
    · next s1 h1 => exact ih s1 (.step a h h1) hr
    all_goals cases hr

/-! ## C51 -/

/-- C51 (restriction that holds): as long as no `Read` was called with a buffer smaller than its message,
every message that arrived is returned by a `Read`, held by a running `Read`, or still waiting.
Missing: `Read` calls with too small buffers, see `C51_violated`. -/
theorem C51_no_loss_partial (s : State) (h : Reachable s) (hb : ∀ k b n, .tooBig k b n ∉ s.rets)
    (k : Nat) (m : Bytes) (hm : s.arrived[k]? = some m) :
    .ok k m ∈ s.rets ∨ (∃ c ∈ s.calls, c.seq = k ∧ (s.items c.item).data = m) ∨
      (∃ i, (waiting s)[k - s.taken]? = some i ∧ (s.items i).data = m ∧ s.taken ≤ k) := by
  have hi := inv_reachable s h
  by_cases hk : k < s.taken
  · have hmem : k ∈ s.rets.filterMap Ret.seq? ++ s.calls.map (·.seq) := by
      rw [hi.seqs.mem_iff]; simpa using hk
    rw [List.mem_append, List.mem_filterMap, List.mem_map] at hmem
    rcases hmem with ⟨r, hr, hs⟩ | ⟨c, hc, hs⟩
    · cases r with
      | ok k' d =>
        simp only [Ret.seq?, Option.some.injEq] at hs
        subst hs
        have := hi.rets _ hr
        simp only [Ret.Right] at this
        rw [hm] at this; cases this
        exact .inl hr
      | tooBig k' b n => exact absurd hr (hb _ _ _)
      | closed => cases hs
    · refine .inr (.inl ⟨c, hc, hs, ?_⟩)
      have := (hi.calls c hc).1
      rw [hs, hm] at this
      simpa using this.symm
  · have hc := hi.content
    have h1 : (s.arrived.drop s.taken)[k - s.taken]? = some m := by
      rw [List.getElem?_drop, show s.taken + (k - s.taken) = k by omega]; exact hm
    rw [hc, List.getElem?_map] at h1
    cases hw : (waiting s)[k - s.taken]? with
    | none => rw [hw] at h1; cases h1
    | some i => rw [hw] at h1; simp at h1; exact .inr (.inr ⟨i, rfl, h1, by omega⟩)

/-- C51 as stated is false: a `Read` with a buffer smaller than its message reports an error, and no later
`Read` ever returns that message, whatever happens. -/
theorem C51_violated (m : Bytes) (buf : Nat) (h : buf < m.length) :
    ∃ s, runActs State.init [.arrive m none, .send, .take buf, .copy 0] = .ok s ∧
      s.arrived = [m] ∧ s.rets = [.tooBig 0 buf m.length] ∧
      ∀ as s', runActs s as = .ok s' → ∀ k d, .ok k d ∈ s'.rets → k ≠ 0 := by
  refine ⟨_, by simp [runActs, step, State.init, acquire, queueLength, setItem, h]; rfl, rfl, rfl, ?_⟩
  intro as s' hr k d hk hk0
  have hreach : Reachable s' := by
    refine reachable_run State.init .init ([.arrive m none, .send, .take buf, .copy 0] ++ as) s' ?_
    rw [← hr]
    simp [runActs, step, State.init, acquire, queueLength, setItem, h]
  have hmono : ∀ (as : List Act) (s s' : State), runActs s as = .ok s' → ∀ r ∈ s.rets, r ∈ s'.rets := by
    intro as
    induction as with
    | nil => intro s s' hr r hm; cases hr; exact hm
    | cons a as ih =>
      intro s s' hr r hm
      simp only [runActs] at hr
      split at hr
      · next s1 h1 =>
        refine ih s1 s' hr r ?_
        cases a <;> simp only [step, acquire] at h1 <;> (repeat' split at h1) <;> cases h1 <;>
          simp only [List.mem_append] <;> first | exact hm | exact .inl hm
      all_goals cases hr
  have htb := hmono as _ s' hr (.tooBig 0 buf m.length) List.mem_cons_self
  have hnd : (s'.rets.filterMap Ret.seq?).Nodup := by
    have := (inv_reachable s' hreach).seqs.nodup_iff.mpr List.nodup_range
    exact (List.nodup_append.mp this).1
  subst hk0
  -- two different results with the same number
  have : ∀ l : List Ret, (l.filterMap Ret.seq?).Nodup → Ret.ok 0 d ∈ l → Ret.tooBig 0 buf m.length ∈ l → False := by
    intro l
    induction l with
    | nil => intro _ h; cases h
    | cons a l ih =>
      intro hn h1 h2
      rw [List.filterMap_cons] at hn
      rw [List.mem_cons] at h1 h2
      rcases h1 with h1 | h1
      · rcases h2 with h2 | h2
        · rw [← h1] at h2; cases h2
        · rw [← h1] at hn
          simp only [Ret.seq?, List.nodup_cons, List.mem_filterMap] at hn
          exact hn.1 ⟨_, h2, rfl⟩
      · rcases h2 with h2 | h2
        · rw [← h2] at hn
          simp only [Ret.seq?, List.nodup_cons, List.mem_filterMap] at hn
          exact hn.1 ⟨_, h1, rfl⟩
        · refine ih ?_ h1 h2
          split at hn
          · exact hn
          · exact (List.nodup_cons.mp hn).2
  exact this _ hnd hk htb

example : (2 : Nat) < ([1, 2, 3] : Bytes).length := by decide

/-! ## C65 -/

/-- The reader goroutine waits for space in the queue. -/
def Stuck (s : State) : Prop := (∃ i, s.reader = .sending i) ∧ s.queue.length = queueLength

/-- C65 (restriction that holds): while at most 1024 messages are unread, the reader goroutine is never
blocked by the queue. Missing: more unread messages, see `C65_violated`. -/
theorem C65_not_blocked_partial (s : State) (h : Reachable s) (hu : s.arrived.length - s.taken ≤ queueLength) :
    ¬ Stuck s := by
  rintro ⟨⟨i, hr⟩, hq⟩
  have := congrArg List.length (inv_reachable s h).content
  simp [waiting, hr, Reader.items, hq] at this
  omega

/-- Messages are put into the queue one after another. -/
def fill : Nat → List Act
  | 0 => []
  | n + 1 => .arrive [7] none :: .send :: fill n

theorem fill_spec (n : Nat) (s : State) (h : Reachable s) (hr : s.reader = .idle)
    (hq : s.queue.length + n ≤ queueLength) :
    ∃ s', runActs s (fill n) = .ok s' ∧ Reachable s' ∧ s'.reader = .idle ∧
      s'.queue.length = s.queue.length + n ∧ s'.rets = s.rets := by
  induction n generalizing s with
  | zero => exact ⟨s, rfl, h, hr, rfl, rfl⟩
  | succ n ih =>
    have hi := inv_reachable s h
    have hb := hi.fresh s.next (Nat.le_refl _)
    have h1 : step s (.arrive [7] none) = .ok ({ s with next := s.next + 1, items := setItem s.items s.next ⟨[7], true⟩, reader := .sending s.next, arrived := s.arrived ++ [[7]] }) := by
      simp [step, hr, acquire, hb]
    have h2 := Reachable.step _ h h1
    have hlt : s.queue.length < queueLength := by omega
    have h3 : step { s with next := s.next + 1, items := setItem s.items s.next ⟨[7], true⟩, reader := .sending s.next, arrived := s.arrived ++ [[7]] } .send = .ok ({ s with next := s.next + 1, items := setItem s.items s.next ⟨[7], true⟩, queue := s.queue ++ [s.next], reader := .idle, arrived := s.arrived ++ [[7]] }) := by
      simp [step, hlt]
    obtain ⟨s', e1, e2, e3, e4, e5⟩ := ih _ (Reachable.step _ h2 h3) rfl (by simp; omega)
    refine ⟨s', ?_, e2, e3, by rw [e4]; simp; omega, e5⟩
    rw [fill, runActs, h1]
    simp only [runActs]
    rw [h3]
    exact e1

/-- C65 as stated is false: 1025 unread messages block the reader goroutine, and until the application
calls `Read` it handles nothing else and never gets to `readerLoopCleanup`, so the session cannot become
closed. -/
theorem C65_violated :
    ∃ s, runActs State.init (fill 1024 ++ [.arrive [7] none]) = .ok s ∧ s.rets = [] ∧
      ∀ as s', (∀ a ∈ as, ∀ n, a ≠ .take n) → runActs s as = .ok s' →
        Stuck s' ∧ s'.arrived = s.arrived ∧ s'.reader ≠ .stopped := by
  obtain ⟨s1, h1, h2, h3, h4, h5⟩ := fill_spec 1024 State.init .init rfl (by decide)
  have hb := (inv_reachable s1 h2).fresh s1.next (Nat.le_refl _)
  have happ : ∀ (as bs : List Act) (s s' : State), runActs s as = .ok s' → runActs s (as ++ bs) = runActs s' bs := by
    intro as bs
    induction as with
    | nil => intro s s' h; cases h; rfl
    | cons a as ih =>
      intro s s' h
      simp only [runActs, List.cons_append] at h ⊢
      split at h
      · exact ih _ _ h
      all_goals cases h
  have hstep : runActs s1 [.arrive [7] none] = .ok ({ s1 with next := s1.next + 1, items := setItem s1.items s1.next ⟨[7], true⟩, reader := .sending s1.next, arrived := s1.arrived ++ [[7]] }) := by
    simp [runActs, step, h3, acquire, hb]
  refine ⟨_, (happ _ _ _ _ h1).trans hstep, h5, ?_⟩
  intro as
  have key : ∀ (as : List Act) (s s' : State), Stuck s → (∀ a ∈ as, ∀ n, a ≠ .take n) → runActs s as = .ok s' →
      Stuck s' ∧ s'.arrived = s.arrived := by
    intro as
    induction as with
    | nil => intro s s' hs _ hr; cases hr; exact ⟨hs, rfl⟩
    | cons a as ih =>
      intro s s' hs hn hr
      obtain ⟨⟨i, hri⟩, hq⟩ := hs
      simp only [runActs] at hr
      split at hr
      · next s2 hs2 =>
        have : Stuck s2 ∧ s2.arrived = s.arrived := by
          cases a with
          | take n => exact absurd rfl (hn _ List.mem_cons_self n)
          | arrive m reuse => simp [step, hri] at hs2
          | send =>
            simp only [step, hri, hq, Nat.lt_irrefl, if_false] at hs2; cases hs2
          | stop => simp [step, hri] at hs2
          | copy j =>
            simp only [step] at hs2
            repeat' split at hs2
            all_goals first | cases hs2 | skip
            all_goals exact ⟨⟨⟨i, hri⟩, hq⟩, rfl⟩
          | release j =>
            simp only [step] at hs2
            repeat' split at hs2
            all_goals first | cases hs2 | skip
            all_goals exact ⟨⟨⟨i, hri⟩, hq⟩, rfl⟩
          | gc j =>
            simp only [step] at hs2
            repeat' split at hs2
            all_goals first | cases hs2 | skip
            all_goals exact ⟨⟨⟨i, hri⟩, hq⟩, rfl⟩
        obtain ⟨h5, h6⟩ := ih s2 s' this.1 (fun a ha => hn a (List.mem_cons_of_mem _ ha)) hr
        exact ⟨h5, h6.trans this.2⟩
      all_goals cases hr
  intro s' hn hr
  obtain ⟨k1, k2⟩ := key as _ s' ⟨⟨s1.next, rfl⟩, by simp only [h4]; rfl⟩ hn hr
  refine ⟨k1, k2, ?_⟩
  obtain ⟨⟨i, hi⟩, -⟩ := k1
  rw [hi]; intro h; cases h

#print axioms C50_read_exact
#print axioms C50_in_order
#print axioms C50_closed_last
#print axioms C51_no_loss_partial
#print axioms C51_violated
#print axioms C65_not_blocked_partial
#print axioms C65_violated

end Verif.ReadQueue
