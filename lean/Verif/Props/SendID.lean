import Verif.Props.DelayedSend
/-!
# C145: `SendID` is unique

"SendID returns the unique ID of the sending request" (send_info.go:84-85).
-/
namespace Verif.DelayedSend

/-- Different `SendInfo`s have different numbers, and none has a number that is still to come. -/
def Distinct (s : State) : Prop :=
  (∀ x, (s.infos x).sendID ≤ s.ids) ∧
  ∀ x y, x < s.next → y < s.next → x ≠ y → (s.infos x).sendID ≠ (s.infos y).sendID

/-- What a step does to the numbers: a number that changes is a new one. -/
structure Numbered (s s' : State) : Prop where
  ids : s.ids ≤ s'.ids
  new : ∀ x, (s'.infos x).sendID = (s.infos x).sendID ∨ s.ids < (s'.infos x).sendID
  distinct : Distinct s → Distinct s'

theorem Numbered.trans {a b c : State} (h : Numbered a b) (h' : Numbered b c) : Numbered a c where
  ids := Nat.le_trans h.ids h'.ids
  new x := by
    have := h.ids
    rcases h.new x with e | e <;> rcases h'.new x with e' | e'
    · exact .inl (e'.trans e)
    · exact .inr (by omega)
    · exact .inr (by omega)
    · exact .inr (by omega)
  distinct hd := h'.distinct (h.distinct hd)

theorem Numbered.frame {s s' : State} (hi : ∀ x, (s'.infos x).sendID = (s.infos x).sendID) (hn : s'.next = s.next)
    (hd : s'.ids = s.ids) : Numbered s s' where
  ids := by rw [hd]; exact Nat.le_refl _
  new x := .inl (hi x)
  distinct h := ⟨fun x => by rw [hi, hd]; exact h.1 x, fun x y hx hy hxy => by
    rw [hn] at hx hy; rw [hi, hi]; exact h.2 x y hx hy hxy⟩

theorem Numbered.after {s t s' : State} (h : Numbered t s') (hi : ∀ x, (t.infos x).sendID = (s.infos x).sendID) (hn : t.next = s.next)
    (hd : t.ids = s.ids) : Numbered s s' := (Numbered.frame hi hn hd).trans h

theorem set_sid (infos : Nat → Info) (i : Nat) (v : Info) (hv : v.sendID = (infos i).sendID) (x : Nat) :
    (setInfo infos i v x).sendID = (infos x).sendID := by
  unfold setInfo; split
  · subst_vars; exact hv
  · rfl

theorem acquire_numbered {s s' : State} {r n} (hs : acquire s r = .ok (s', n)) : Numbered s s' := by
  unfold acquire at hs
  cases r with
  | none =>
    simp only [Outcome.ok.injEq, Prod.mk.injEq] at hs; obtain ⟨rfl, rfl⟩ := hs
    refine ⟨Nat.le_succ _, fun x => ?_, fun h => ⟨fun x => ?_, fun x y hx hy hxy => ?_⟩⟩ <;> simp only [setInfo] at *
    · split
      · exact .inr (Nat.lt_succ_self _)
      · exact .inl rfl
    · have := h.1 x
      split <;> (try simp only) <;> omega
    · have h1 := h.1 x
      have h2 := h.1 y
      split <;> split <;> (try simp only)
      · omega
      · omega
      · omega
      · exact h.2 x y (by omega) (by omega) hxy
  | some k =>
    simp only at hs
    repeat' split at hs
    all_goals try (simp at hs; done)
    simp only [Outcome.ok.injEq, Prod.mk.injEq] at hs; obtain ⟨rfl, rfl⟩ := hs
    refine ⟨Nat.le_succ _, fun x => ?_, fun h => ⟨fun x => ?_, fun x y hx hy hxy => ?_⟩⟩ <;> simp only [setInfo] at *
    · split
      · exact .inr (Nat.lt_succ_self _)
      · exact .inl rfl
    · have := h.1 x
      split <;> (try simp only) <;> omega
    · have h1 := h.1 x
      have h2 := h.1 y
      split <;> split <;> (try simp only)
      · omega
      · omega
      · omega
      · exact h.2 x y hx hy hxy

theorem acquireError_numbered {s s' : State} {r n} (hs : acquireError s r = .ok (s', n)) : Numbered s s' := by
  unfold acquireError at hs
  split at hs
  · rename_i s1 n1 h1
    simp only [Outcome.ok.injEq, Prod.mk.injEq] at hs; obtain ⟨rfl, rfl⟩ := hs
    exact (acquire_numbered h1).trans (.frame (set_sid _ _ _ rfl) rfl rfl)
  · rename_i h; exact absurd hs (by intro e; exact h _ _ e)

theorem release_numbered {s s' : State} {x} (hs : release s x = .ok s') : Numbered s s' := by
  unfold release at hs
  simp only at hs
  repeat' split at hs
  all_goals try (simp at hs; done)
  all_goals (simp only [Outcome.ok.injEq] at hs; subst hs; exact .frame (set_sid _ _ _ rfl) rfl rfl)

theorem giveUp_numbered {s s' : State} {i : Nat} {m : Bytes} {r} (hs : giveUp s i m r = .ok s') : Numbered s s' := by
  unfold giveUp at hs
  split at hs <;> try (simp at hs; done)
  rename_i h1
  simp only [Outcome.ok.injEq] at hs; subst hs
  exact (acquireError_numbered h1).trans (.frame (fun _ => rfl) rfl rfl)

theorem tryAppend_numbered {cfg : Cfg} {s s' : State} {m : Bytes} {r} (hs : tryAppend cfg s m r = .ok s') : Numbered s s' := by
  unfold tryAppend at hs
  simp only at hs
  repeat' split at hs
  all_goals try (simp at hs; done)
  · rename_i h1
    simp only [Outcome.ok.injEq] at hs; subst hs
    exact (acquireError_numbered h1).trans (.frame (fun _ => rfl) rfl rfl)
  · simp only [Outcome.ok.injEq] at hs; subst hs; exact .frame (fun _ => rfl) rfl rfl
  · simp only [Outcome.ok.injEq] at hs; subst hs; exact .frame (set_sid _ _ _ rfl) rfl rfl

theorem begin_numbered {s s' : State} {r} {k : State → Nat → State}
    (hs : begin s r k = .ok s') (hk : ∀ t n, (k t n).infos = t.infos ∧ (k t n).next = t.next ∧ (k t n).ids = t.ids) :
    Numbered s s' := by
  unfold begin at hs
  split at hs <;> try (simp at hs; done)
  rename_i s1 n1 h1
  simp only [Outcome.ok.injEq] at hs; subst hs
  exact (acquire_numbered h1).trans (.frame (fun _ => by rw [(hk s1 n1).1]) (hk s1 n1).2.1 (hk s1 n1).2.2)

theorem flushStep_numbered {s s' : State} {f : Flush} {a : FAct} {r : FRes} (hs : flushStep s f a = .ok (s', r)) : Numbered s s' := by
  unfold flushStep at hs
  split at hs
  case h_7 =>
    split at hs <;> try (simp at hs; done)
    rename_i h1
    simp only [Outcome.ok.injEq, Prod.mk.injEq] at hs; obtain ⟨rfl, rfl⟩ := hs
    exact release_numbered h1
  all_goals
    try simp only at hs
    repeat' split at hs
    all_goals try (simp at hs; done)
    all_goals
      simp only [Outcome.ok.injEq, Prod.mk.injEq] at hs; obtain ⟨rfl, rfl⟩ := hs
      first | exact .frame (fun _ => rfl) rfl rfl | exact .frame (set_sid _ _ _ rfl) rfl rfl

theorem step_numbered {cfg : Cfg} {s s' : State} {a : Act} (hs : step cfg s a = .ok s') : Numbered s s' := by
  cases a with
  | write m r => exact tryAppend_numbered hs
  | retry i r =>
    simp only [step] at hs
    split at hs
    · exact Numbered.after (tryAppend_numbered hs) (fun _ => rfl) rfl rfl
    · simp at hs
  | refused r =>
    simp only [step] at hs
    repeat' split at hs
    all_goals try (simp at hs; done)
    rename_i h1
    simp only [Outcome.ok.injEq] at hs; subst hs
    exact (acquireError_numbered h1).trans (.frame (fun _ => rfl) rfl rfl)
  | inc i r =>
    simp only [step] at hs
    repeat' split at hs
    all_goals try (simp at hs; done)
    · exact Numbered.after (giveUp_numbered hs) (set_sid _ _ _ rfl) rfl rfl
    all_goals simp only [Outcome.ok.injEq] at hs; subst hs; exact .frame (set_sid _ _ _ rfl) rfl rfl
  | poke i handoff r =>
    simp only [step] at hs
    repeat' split at hs
    all_goals try (simp at hs; done)
    all_goals first
      | (simp only [Outcome.ok.injEq] at hs; subst hs; exact .frame (fun _ => rfl) rfl rfl)
      | exact giveUp_numbered hs
      | exact Numbered.after (giveUp_numbered hs) (fun _ => rfl) rfl rfl
  | sendNow i =>
    simp only [step] at hs
    repeat' split at hs
    all_goals try (simp at hs; done)
    simp only [Outcome.ok.injEq] at hs; subst hs; exact .frame (set_sid _ _ _ rfl) rfl rfl
  | userRelease i =>
    simp only [step] at hs
    repeat' split at hs
    all_goals try (simp at hs; done)
    exact Numbered.after (release_numbered hs) (fun _ => rfl) rfl rfl
  | connect r =>
    simp only [step] at hs
    split at hs
    · exact begin_numbered hs (fun _ _ => ⟨rfl, rfl, rfl⟩)
    · simp at hs
  | timer r =>
    simp only [step] at hs
    split at hs
    · exact begin_numbered hs (fun _ _ => ⟨rfl, rfl, rfl⟩)
    · simp at hs
  | handle r =>
    simp only [step] at hs
    repeat' split at hs
    all_goals try (simp at hs; done)
    · simp only [Outcome.ok.injEq] at hs; subst hs; exact .frame (fun _ => rfl) rfl rfl
    · exact begin_numbered hs (fun _ _ => ⟨rfl, rfl, rfl⟩)
  | mainFlush b r =>
    simp only [step] at hs
    repeat' split at hs
    all_goals try (simp at hs; done)
    all_goals rename_i h1
    all_goals first
      | (simp only [Outcome.ok.injEq] at hs; subst hs; exact (flushStep_numbered h1).trans (.frame (fun _ => rfl) rfl rfl))
      | exact (flushStep_numbered h1).trans (Numbered.after (begin_numbered hs (fun _ _ => ⟨rfl, rfl, rfl⟩)) (fun _ => rfl) rfl rfl)
  | mainRelease =>
    simp only [step] at hs
    split at hs
    · exact Numbered.after (release_numbered hs) (fun _ => rfl) rfl rfl
    · simp at hs
  | close r =>
    simp only [step] at hs
    split at hs
    · simp at hs
    · exact Numbered.after (begin_numbered hs (fun _ _ => ⟨rfl, rfl, rfl⟩)) (fun _ => rfl) rfl rfl
  | closerFlush b r =>
    simp only [step] at hs
    repeat' split at hs
    all_goals try (simp at hs; done)
    all_goals rename_i h1
    all_goals first
      | (simp only [Outcome.ok.injEq] at hs; subst hs; exact (flushStep_numbered h1).trans (.frame (fun _ => rfl) rfl rfl))
      | exact (flushStep_numbered h1).trans (Numbered.after (begin_numbered hs (fun _ _ => ⟨rfl, rfl, rfl⟩)) (fun _ => rfl) rfl rfl)
  | fragment r =>
    simp only [step] at hs
    repeat' split at hs
    all_goals try (simp at hs; done)
    rename_i h1
    simp only [Outcome.ok.injEq] at hs; subst hs
    exact (acquire_numbered h1).trans (.frame (fun _ => rfl) rfl rfl)
  | fragmentDone i e =>
    simp only [step] at hs
    repeat' split at hs
    all_goals try (simp at hs; done)
    simp only [Outcome.ok.injEq] at hs; subst hs; exact .frame (set_sid _ _ _ rfl) rfl rfl
  | _ =>
    simp only [step] at hs
    repeat' split at hs
    all_goals try (simp at hs; done)
    all_goals (simp only [Outcome.ok.injEq] at hs; subst hs; exact .frame (fun _ => rfl) rfl rfl)

theorem distinct {cfg : Cfg} {s : State} (hr : Reachable cfg s) : Distinct s := by
  induction hr with
  | init =>
    refine ⟨fun x => ?_, fun x y hx hy hxy => ?_⟩
    · simp only [State.init, setInfo]; split <;> simp
    · simp only [State.init] at hx hy; omega
  | step a _ hs ih => exact (step_numbered hs).distinct ih

/-- C145: `SendInfo`s which are different objects have different numbers, whoever holds them. -/
theorem C145_partial {cfg : Cfg} {s : State} (hr : Reachable cfg s) {u v : User} (hu : u ∈ s.users) (hv : v ∈ s.users)
    (h : u.info ≠ v.info) : (s.infos u.info).sendID ≠ (s.infos v.info).sendID := by
  have hi := (inv_reachable hr).1.ref
  have hf : ∀ w ∈ s.users, w.info < s.next := fun w hw =>
    hi.held_lt (hi.firmHeld _ (by simp only [firm, List.mem_cons, List.mem_append, List.mem_map]; exact .inr (.inr ⟨w, hw, rfl⟩)))
  exact (distinct hr).2 _ _ (hf u hu) (hf v hv) h

/-- C145 for requests: two messages which go into different packets have different numbers. -/
theorem C145_packets_partial {cfg : Cfg} {s : State} (hf : cfg.frag = false) (hr : Reachable cfg s) {u v : User} (hu : u ∈ s.users)
    (hv : v ∈ s.users) {i j b c : Nat} {m n : Bytes} (hi : u.idx = some i) (hj : v.idx = some j) (hm : s.accepted[i]? = some (b, m))
    (hn : s.accepted[j]? = some (c, n)) (hbc : b ≠ c) : (s.infos u.info).sendID ≠ (s.infos v.info).sendID := by
  have h := ((inv_reachable hr).2 hf).1.core
  refine C145_partial hr hu hv fun e => hbc ?_
  obtain ⟨_, h1, -⟩ := h.users u hu i hi
  obtain ⟨_, h2, -⟩ := h.users v hv j hj
  rw [hm] at h1; rw [hn, ← e] at h2
  simp only [Option.some.injEq, Prod.mk.injEq] at h1 h2
  rw [h1.1, h2.1]

/-- C145: a number is never given again: a `SendInfo` that is used for another request gets one greater than all before. -/
theorem C145_later {cfg : Cfg} {s s' : State} (hl : Later cfg s s') (x : Nat) :
    (s'.infos x).sendID = (s.infos x).sendID ∨ s.ids < (s'.infos x).sendID := by
  have main : Numbered s s' := by
    induction hl with
    | refl => exact .frame (fun _ => rfl) rfl rfl
    | step a _ hs ih => exact ih.trans (step_numbered hs)
  exact main.new x

/-- … where `ids` is not exceeded by any number given so far. -/
theorem C145_bound {cfg : Cfg} {s : State} (hr : Reachable cfg s) (x : Nat) : (s.infos x).sendID ≤ s.ids := (distinct hr).1 x

/-- Two writes, one packet. -/
def twoWrites : List Act := connected ++ [.write exMsg none, .write [4] none]

/-- C145 is violated for requests: two calls of `WriteMessageAsync` for two messages get the same `SendInfo`, so the same number. -/
theorem C145_violated : ∃ (s : State) (u v : User), Reachable exCfg s ∧ u ∈ s.users ∧ v ∈ s.users ∧ u.idx = some 0 ∧ v.idx = some 1 ∧
    s.accepted.map (·.2) = [exMsg, [4]] ∧ (s.infos u.info).sendID = (s.infos v.info).sendID := by
  refine ⟨okState exCfg twoWrites, ⟨1, some 0, false⟩, ⟨1, some 1, false⟩, runActs_reachable (okState_eq (by decide +kernel)), ?_⟩
  decide +kernel

/-! ### Examples -/

/-- Two packets: the hypotheses of `C145_partial` and `C145_packets_partial` can be met. -/
example : let s := okState exCfg (connected ++ [.write exMsg none, .timer none, .mainFlush .swap none, .write [4] none])
    s.users = [⟨1, some 0, false⟩, ⟨2, some 1, false⟩] ∧ s.accepted = [(1, exMsg), (2, [4])] ∧
    (s.infos 1).sendID = 2 ∧ (s.infos 2).sendID = 3 := by decide +kernel

#print axioms C145_partial
#print axioms C145_packets_partial
#print axioms C145_later
#print axioms C145_bound
#print axioms C145_violated

end Verif.DelayedSend
