import Verif.Lemmas.DelayedWire
/-!
# Delayed sending: C18 (batches), C44, C45, C46, C61, C72

`State.accepted` is the list of the messages that `WriteMessageAsync` accepted, in order, each with the number of
the packet it was put into; `State.wire` is the list of packets the backend accepted, in order of writing.
-/
namespace Verif.DelayedSend

/-- Later states of the same session. -/
inductive Later (cfg : Cfg) : State → State → Prop
  | refl (s) : Later cfg s s
  | step {s s' s''} (a : Act) : Later cfg s s' → step cfg s' a = .ok s'' → Later cfg s s''

theorem runActs_later {cfg : Cfg} : ∀ (as : List Act) {s s' : State}, runActs cfg s as = .ok s' → Later cfg s s' := by
  have trans : ∀ {a b c}, Later cfg a b → Later cfg b c → Later cfg a c := by
    intro a b c h1 h2
    induction h2 with
    | refl => exact h1
    | step x _ h ih => exact .step x ih h
  intro as
  induction as with
  | nil => intro s s' h; simp only [runActs, Outcome.ok.injEq] at h; subst h; exact .refl _
  | cons a as ih =>
    intro s s' h
    simp only [runActs] at h
    split at h <;> try (simp at h; done)
    rename_i s1 h1
    exact trans (.step a (.refl s) h1) (ih h)

theorem later_reachable {cfg : Cfg} {s s' : State} (h : Later cfg s s') (hr : Reachable cfg s) : Reachable cfg s' := by
  induction h with
  | refl => exact hr
  | step a _ hs ih => exact .step a ih hs

theorem runActs_reachable {cfg : Cfg} {as : List Act} {s : State} (h : runActs cfg State.init as = .ok s) :
    Reachable cfg s := later_reachable (runActs_later as h) .init

/-! ### Example runs -/

/-- `onConnect` of a session nobody has written to. -/
def connected : List Act := [.connect none, .mainFlush .swap none, .mainFlush .close none, .mainFlush .release none]

def exCfg : Cfg := ⟨200, false⟩

def exFragCfg : Cfg := ⟨200, true⟩

def exMsg : Bytes := [1, 2, 3]

/-- Two writes, one flush by the timer, one release. -/
def exRun : List Act :=
  connected ++ [.write exMsg none, .write [4] none, .timer (some 0), .mainFlush .swap none, .mainFlush .check none,
    .mainFlush (.write true) none, .mainFlush .close none, .mainFlush .release none, .userRelease 0]

/-! ### C18 -/

/-- C18 for delayed sending: a packet of several messages is never longer than the established packet size (44
bytes of headers and the messages). -/
theorem C18_batch {cfg : Cfg} {s : State} (hf : cfg.frag = false) (hr : Reachable cfg s) :
    ∀ p ∈ s.wire, p.2 ≠ [] ∧ 44 + (p.2.map List.length).sum ≤ cfg.limit := by
  intro p hp
  have h := ((inv_reachable hr).2 hf).1.core
  have h1 := h.wireStatus p hp
  have h2 := h.size p.1
  rw [← h1.2.1] at h2
  rcases h2 with h3 | h3
  · exact absurd h3 h1.2.2
  · exact ⟨h1.2.2, h3⟩

/-! ### C45 -/

/-- C45, order and exactly once: the messages in the packets on the wire, one packet after the other, are exactly the
accepted messages whose packet was written, in the order in which they were accepted, each once. -/
theorem C45_in_order_partial {cfg : Cfg} {s : State} (hf : cfg.frag = false) (hr : Reachable cfg s) :
    (s.wire.map (·.2)).flatten = (s.accepted.filter (fun p => decide (p.1 ∈ s.wire.map (·.1)))).map (·.2) ∧
    s.wire.Pairwise (fun p q => p.1 < q.1) ∧ s.accepted.Pairwise (fun p q => p.1 ≤ q.1) := by
  have h := ((inv_reachable hr).2 hf).1
  refine ⟨?_, h.wireSorted, h.core.accSorted⟩
  rw [← msgs_flatten s.accepted h.core.accSorted (s.wire.map (·.1)) (by
    rw [List.pairwise_map]; exact h.wireSorted)]
  congr 1
  rw [List.map_map]
  apply List.map_congr_left
  intro p hp
  exact (h.core.wireStatus p hp).2.1

/-- C45, result: a finished `SendInfo` of message number `k` reports success exactly if the packet with that message
was written. -/
theorem C45_result_partial {cfg : Cfg} {s : State} (hf : cfg.frag = false) (hr : Reachable cfg s) {u : User}
    (hu : u ∈ s.users) {k : Nat} (hk : u.idx = some k) (hc : (s.infos u.info).closed = true) :
    ∃ b m, s.accepted[k]? = some (b, m) ∧
      ((s.infos u.info).err = false ↔ ∃ p ∈ s.wire, p.1 = b) ∧ (∀ p ∈ s.wire, p.1 = b → m ∈ p.2) := by
  have h := ((inv_reachable hr).2 hf).1.core
  obtain ⟨m, h1, h2⟩ := h.users u hu k hk
  have h3 := h2 hc
  refine ⟨_, m, h1, ⟨fun he => ?_, fun ⟨p, hp, hpb⟩ => ?_⟩, fun p hp hpb => ?_⟩
  · rw [he] at h3
    obtain ⟨p, hp, e⟩ := List.mem_map.1 (h.statusWire _ h3)
    exact ⟨p, hp, e⟩
  · have := (h.wireStatus p hp).1
    rw [hpb, h3] at this
    simpa using this
  · rw [(h.wireStatus p hp).2.1, hpb]
    simp only [msgsOf, List.mem_map, List.mem_filter]
    exact ⟨_, ⟨List.mem_of_getElem? h1, by simp⟩, rfl⟩

/-! ### C61 -/

/-- C61: a flush that reaches the check after the session became Closing or Closed sends nothing and reports an
error. -/
theorem C61_check {s s' : State} {x : Nat} {msgs : List Bytes} {r : FRes} (hd : s.done = true)
    (hs : flushStep s (.swapped x msgs) .check = .ok (s', r)) :
    r = .running (.wrote x msgs false) ∧ s'.wire = s.wire ∧ (s'.infos x).err = true := by
  simp only [flushStep, hd, if_true] at hs
  split at hs
  · exact absurd hs (by simp)
  · simp only [Outcome.ok.injEq, Prod.mk.injEq] at hs
    obtain ⟨rfl, rfl⟩ := hs
    exact ⟨rfl, rfl, by simp [setResult]⟩

/-- C61: once the session is Closing or Closed and no flush is between the check and the backend write, no packet is
written any more, whatever happens. -/
theorem C61_nothing_after_close {cfg : Cfg} {s s' : State} (hd : s.done = true) (hn : NotChecked s)
    (h : Later cfg s s') : s'.wire = s.wire ∧ s'.done = true ∧ NotChecked s' := by
  induction h with
  | refl => exact ⟨rfl, hd, hn⟩
  | step a _ hs ih =>
    have h1 := step_quiet hs
    have h2 := h1.2.1 ih.2.1 ih.2.2
    exact ⟨h2.2.trans ih.1, h1.1 ih.2.1, h2.1⟩

/-! ### C44 -/

/-- C44 while the wait ends with `Done()`: a caller that saw no error has its message in a written packet, and one that
saw an error does not. -/
theorem C44_delivered_partial {cfg : Cfg} {s : State} (hf : cfg.frag = false) (hr : Reachable cfg s) {r : Ret}
    (hm : r ∈ s.rets) (hv : r.viaDone = true) {k : Nat} (hk : r.idx = some k) :
    ∃ b m, s.accepted[k]? = some (b, m) ∧ (r.err = false ↔ ∃ p ∈ s.wire, p.1 = b) ∧ (∀ p ∈ s.wire, p.1 = b → m ∈ p.2) := by
  have h := ((inv_reachable hr).2 hf).1.core
  obtain ⟨b, m, h1, h3⟩ := h.rets r hm hv k hk
  refine ⟨b, m, h1, ⟨fun he => ?_, fun ⟨p, hp, hpb⟩ => ?_⟩, fun p hp hpb => ?_⟩
  · rw [he] at h3
    obtain ⟨p, hp, e⟩ := List.mem_map.1 (h.statusWire _ h3)
    exact ⟨p, hp, e⟩
  · have := (h.wireStatus p hp).1
    rw [hpb, h3] at this
    simpa using this
  · rw [(h.wireStatus p hp).2.1, hpb]
    simp only [msgsOf, List.mem_map, List.mem_filter]
    exact ⟨_, ⟨List.mem_of_getElem? h1, by simp⟩, rfl⟩

/-- `Close` of an idle session, then a write. -/
def writeAfterClose : List Act :=
  connected ++ [.close none, .closerFlush .swap none, .closerFlush .close none, .closerFlush .release none, .mainExit,
    .write exMsg none, .userRelease 0]

def okState (cfg : Cfg) (as : List Act) : State :=
  match runActs cfg State.init as with
  | .ok s => s
  | _ => State.init

def isOk {ε α : Type} : Outcome ε α → Bool
  | .ok _ => true
  | _ => false

theorem okState_eq {cfg : Cfg} {as : List Act} (h : isOk (runActs cfg State.init as) = true) :
    runActs cfg State.init as = .ok (okState cfg as) := by
  unfold okState
  cases hh : runActs cfg State.init as <;> simp_all [isOk]

theorem wac_ok : runActs exCfg State.init writeAfterClose = .ok (okState exCfg writeAfterClose) :=
  okState_eq (by decide +kernel)

/-- C44 and C45 are violated: after `Close` has finished, `Write` may return no error although the message is in no
packet, and it never will be in one. -/
theorem C44_violated : ∃ s, Reachable exCfg s ∧ s.accepted.map (·.2) = [exMsg] ∧
    (∃ r ∈ s.rets, r.idx = some 0 ∧ r.err = false) ∧ ∀ s', Later exCfg s s' → s'.wire = [] := by
  refine ⟨_, runActs_reachable wac_ok, by decide +kernel, ⟨⟨some 0, false, false⟩, by decide +kernel, rfl, rfl⟩, ?_⟩
  intro s' h
  have hd : (okState exCfg writeAfterClose).done = true := by decide +kernel
  have hf : (okState exCfg writeAfterClose).main.flush? ++ (okState exCfg writeAfterClose).closer.flush? = [] := by
    decide +kernel
  have := (C61_nothing_after_close hd (by intro f hm; rw [hf] at hm; simp at hm) h).1
  rw [this]; decide +kernel

/-- The same for a message which was written in time: `Close` drops the messages that are waiting, and a writer
that waits for its result may be told that everything is fine. -/
def cancelRun : List Act := connected ++ [.write exMsg none, .cancel, .userRelease 0]

theorem C44_violated_cancel : ∃ s, Reachable exCfg s ∧ s.accepted.map (·.2) = [exMsg] ∧ s.wire = [] ∧
    (∃ r ∈ s.rets, r.idx = some 0 ∧ r.err = false) := by
  refine ⟨okState exCfg cancelRun, runActs_reachable (okState_eq (by decide +kernel)), by decide +kernel, by decide +kernel,
    ⟨⟨some 0, false, false⟩, by decide +kernel, rfl, rfl⟩⟩

/-- C45 is violated: an accepted message may end up in no packet at all, with no result. -/
def lostRun : List Act :=
  connected ++ [.close none, .closerFlush .swap none, .closerFlush .close none, .closerFlush .release none, .mainExit,
    .write exMsg none]

theorem C45_violated : ∃ s, Reachable exCfg s ∧ s.accepted.map (·.2) = [exMsg] ∧ ∀ s', Later exCfg s s' → s'.wire = [] := by
  refine ⟨okState exCfg lostRun, runActs_reachable (okState_eq (by decide +kernel)), by decide +kernel, ?_⟩
  intro s' h
  have hd : (okState exCfg lostRun).done = true := by decide +kernel
  have hf : (okState exCfg lostRun).main.flush? ++ (okState exCfg lostRun).closer.flush? = [] := by decide +kernel
  have := (C61_nothing_after_close hd (by intro f hm; rw [hf] at hm; simp at hm) h).1
  rw [this]; decide +kernel

/-- Messages waiting at `Close` are never sent: every flush that `Close` itself does fails. -/
theorem close_drops {cfg : Cfg} {s s' : State} (hf : cfg.frag = false) (hr : Reachable cfg s) {a : FAct} {r : Option Nat}
    (hs : step cfg s (.closerFlush a r) = .ok s') : s'.wire = s.wire := by
  have h := ((inv_reachable hr).2 hf).1
  simp only [step] at hs
  split at hs
  · rename_i f hm
    have hq : ∀ {s1 rr}, flushStep s f a = .ok (s1, rr) → s1.wire = s.wire := by
      intro s1 rr h1
      rcases flushStep_wire h1 with h2 | ⟨x, msgs, h2, _⟩
      · exact h2
      · exact absurd h2 (h.closerChecked f (by rw [hm]; simp [Closer.flush?]) x msgs)
    split at hs <;> try (simp at hs; done)
    · rename_i hf'
      simp only [Outcome.ok.injEq] at hs; subst hs; have h3 := hq hf'; exact h3
    · rename_i hf'
      simp only [Outcome.ok.injEq] at hs; subst hs; have h3 := hq hf'; exact h3
    · rename_i hf'
      obtain ⟨s2, n, rfl, h1⟩ := begin_fields hs
      have h3 := hq hf'
      exact h1.2.2.2.trans h3
  · exact absurd hs (by simp)

/-! ### C46 and C72 -/

/-- C46, counts: with or without fragmentation the reference count of a `SendInfo` never becomes negative, a pooled one is
never in use, and none of the consistency checks in `Acquire`, `Put` and the increments fails. -/
theorem C46_counts {cfg : Cfg} {s : State} (hr : Reachable cfg s) :
    (∀ x, 0 ≤ (s.infos x).refs) ∧ (∀ x ∈ s.pool, (s.infos x).busy = false ∧ ∀ u ∈ s.users, u.info ≠ x) ∧
    ∀ a, step cfg s a ≠ .err .negative ∧ step cfg s a ≠ .err .acquireBusy ∧ step cfg s a ≠ .err .putNotBusy ∧
      step cfg s a ≠ .err .notReferenced := by
  have h := (inv_reachable hr).1
  refine ⟨fun x => by have := h.ref.le x; omega, fun x hx => ⟨h.ref.poolFree x hx, fun u hu e => ?_⟩, fun a => ?_⟩
  · have := h.ref.firm x (by
      simp only [firm, List.mem_cons, List.mem_append, List.mem_map]; exact .inr (.inr ⟨u, hu, e⟩))
    rw [h.ref.poolFree x hx] at this; simp at this
  · refine ⟨fun hs => ?_, fun hs => ?_, fun hs => ?_, fun hs => ?_⟩ <;>
      rcases step_err h hs with ⟨h1, _⟩ | ⟨h1, _⟩ | ⟨h1, _⟩ <;> simp at h1

/-- C46, result final (no fragmentation): a `SendInfo` in the pool has its channel closed, i.e. its result was
final, and nobody that received it still holds it, nor will it be given to a writer or closed by a flush. -/
theorem C46_recycled_partial {cfg : Cfg} {s : State} (hf : cfg.frag = false) (hr : Reachable cfg s) :
    ∀ x ∈ s.pool, (s.infos x).closed = true ∧ x ≠ s.cur ∧ (∀ u ∈ s.users, u.info ≠ x) ∧
      ∀ f ∈ s.main.flush? ++ s.closer.flush?, x ∉ f.held := by
  intro x hx
  have h := (inv_reachable hr).1
  have hnf : x ∉ firm s := fun hm => by have := h.ref.firm x hm; rw [h.ref.poolFree x hx] at this; simp at this
  have hrel : ∀ f ∈ s.main.flush? ++ s.closer.flush?, x ∉ f.held := fun f hfm hxf =>
    hnf (relevant_firm s x (by
      simp only [relevant, List.mem_cons, List.mem_append, List.mem_flatMap]
      exact .inr (.inl ⟨f, List.mem_append.1 hfm, hxf⟩)))
  refine ⟨?_, fun e => hnf (by simp [firm, e]), (C46_counts hr).2.1 x hx |>.2, hrel⟩
  cases hc : (s.infos x).closed with
  | true => rfl
  | false =>
    have := ((inv_reachable hr).2 hf).2 x hc
    simp only [List.mem_cons, List.mem_flatMap] at this
    rcases this with h1 | ⟨f, hfm, hx'⟩
    · exact absurd (by simp [firm, h1]) hnf
    · exact absurd (roles_held f x hx') (hrel f hfm)

/-- The `SendInfo` of a fragmented message is released by its only owner while the goroutine that sends the fragments
still uses it. -/
def fragRun : List Act := [.fragment none, .cancel, .userRelease 0]

/-- C46 is violated with fragmentation: the `SendInfo` goes back to the pool before its result is final. -/
theorem C46_violated : ∃ s, Reachable exFragCfg s ∧ ∃ x ∈ s.pool, (s.infos x).closed = false ∧ x ∈ s.frags :=
  ⟨okState exFragCfg fragRun, runActs_reachable (okState_eq (by decide +kernel)), 1, by decide +kernel,
    by decide +kernel, by decide +kernel⟩

/-- C72 without fragmentation: there are only two ways to crash: the sender loop releases the `SendInfo` it got through
the channel before that one is finished, and `SendNow` after the loop ended. -/
theorem C72_only_two_partial {cfg : Cfg} {s : State} (hf : cfg.frag = false) (hr : Reachable cfg s) {a : Act} {e : Crash}
    (hs : step cfg s a = .err e) :
    (e = .unfinishedRelease ∧ a = .mainRelease) ∨ (e = .closedChannel ∧ (∃ i, a = .sendNowChan i) ∧ s.main = .exited) := by
  have hi := inv_reachable hr
  have hd := (hi.2 hf).1
  rcases step_err hi.1 hs with ⟨h1, h2 | ⟨f, hfm, x, msgs, h2, h3⟩⟩ | ⟨h1, i, h2⟩ | ⟨h1, ⟨i, b, h2⟩ | ⟨f, hfm, x, h2, h3⟩⟩
  · exact .inl ⟨h1, h2⟩
  · have := hd.core.flushOK f hfm
    rw [h2] at this
    simp only [FlushOK] at this
    rw [h3] at this; simp at this
  · refine .inr ⟨h1, ⟨i, h2⟩, ?_⟩
    subst h1 h2
    simp only [step] at hs
    repeat' split at hs
    all_goals try (simp at hs; done)
    assumption
  · subst h2
    simp only [step, hd.frags] at hs
    simp at hs
  · have := hd.core.flushOK f hfm
    cases f <;> simp only [Flush.roles, List.mem_singleton, List.not_mem_nil] at h2 <;>
      (subst h2; simp only [FlushOK] at this; simp [h3] at this)

def crashOf (cfg : Cfg) (as : List Act) (a : Act) : Option Crash :=
  match runActs cfg State.init as with
  | .ok s => match step cfg s a with
    | .err e => some e
    | _ => none
  | _ => none

theorem crashOf_eq {cfg : Cfg} {as : List Act} {a : Act} {e : Crash} (h : crashOf cfg as a = some e) :
    ∃ s, Reachable cfg s ∧ step cfg s a = .err e := by
  unfold crashOf at h
  split at h
  · rename_i s hr
    split at h
    · rename_i e' he
      cases h
      exact ⟨s, runActs_reachable hr, he⟩
    · exact absurd h (by simp)
  · exact absurd h (by simp)

/-- `SendNow` while `Close` swaps the buffer. -/
def closeRun : List Act :=
  connected ++ [.write exMsg none, .sendNow 0, .sendNowChan 0, .close none, .handle none, .closerFlush .swap none,
    .mainFlush .swap none, .mainFlush .close none, .mainFlush .release none]

/-- C72 is violated: `SendNow` and `Close` together make the sender loop panic ("Release of a non-finished SendInfo"). -/
theorem C72_violated : ∃ s, Reachable exCfg s ∧ step exCfg s .mainRelease = .err .unfinishedRelease :=
  crashOf_eq (as := closeRun) (by decide +kernel)

/-- C72 is violated: `SendNow` of a message written before the context was cancelled panics ("send on closed
channel"). -/
theorem C72_violated_channel : ∃ s, Reachable exCfg s ∧ step exCfg s (.sendNowChan 0) = .err .closedChannel :=
  crashOf_eq (as := connected ++ [.write exMsg none, .cancel, .mainExit, .sendNow 0]) (by decide +kernel)

/-- C72 is violated with fragmentation: the recycled `SendInfo` of a fragmented message is closed twice. -/
theorem C72_violated_fragment : ∃ s, Reachable exFragCfg s ∧ step exFragCfg s (.fragmentDone 0 true) = .err .doubleClose :=
  crashOf_eq (as := fragRun ++ [.refused (some 1)]) (by decide +kernel)

/-! ### The hypotheses can be met -/

/-- Two messages, one packet, the first caller got "no error". -/
example : (okState exCfg exRun).wire = [(1, [exMsg, [4]])] ∧ (okState exCfg exRun).rets = [⟨some 0, false, true⟩] ∧
    (okState exCfg exRun).accepted = [(1, exMsg), (1, [4])] ∧
    (okState exCfg exRun).users = [⟨1, some 1, false⟩] ∧ ((okState exCfg exRun).infos 1).closed = true := by
  decide +kernel

example : Reachable exCfg (okState exCfg exRun) := runActs_reachable (okState_eq (by decide +kernel))

/-- A flush that comes to the check in a closed session. -/
example : ∃ s s' x msgs r, s.done = true ∧ flushStep s (.swapped x msgs) .check = .ok (s', r) :=
  ⟨{ State.init with done := true }, _, 0, [exMsg], _, rfl, rfl⟩

/-- A state in which `C61_nothing_after_close` applies although messages are waiting. -/
def waitingAtClose : List Act := connected ++ [.write exMsg none, .close none]

example : (okState exCfg waitingAtClose).done = true ∧ NotChecked (okState exCfg waitingAtClose) ∧
    (okState exCfg waitingAtClose).buf = [exMsg] := by
  refine ⟨by decide +kernel, ?_, by decide +kernel⟩
  intro f hf x msgs e
  subst e
  have : (okState exCfg waitingAtClose).main.flush? ++ (okState exCfg waitingAtClose).closer.flush? = [.acquired 2] := by
    decide +kernel
  rw [this] at hf; simp at hf

/-- The first `SendInfo`. -/
example : State.init.infos State.init.cur = ⟨1, true, false, false, 1, 0⟩ := rfl

/-- A non-empty pool. -/
example : (okState exCfg connected).pool = [0] := by decide +kernel

#print axioms C18_batch
#print axioms C45_in_order_partial
#print axioms C45_result_partial
#print axioms C61_check
#print axioms C61_nothing_after_close
#print axioms C44_delivered_partial
#print axioms C44_violated
#print axioms C44_violated_cancel
#print axioms C45_violated
#print axioms C46_counts
#print axioms C46_recycled_partial
#print axioms C46_violated
#print axioms C72_only_two_partial
#print axioms C72_violated
#print axioms C72_violated_channel
#print axioms C72_violated_fragment

end Verif.DelayedSend

#print axioms Verif.DelayedSend.C18_batch
#print axioms Verif.DelayedSend.C44_delivered_partial
#print axioms Verif.DelayedSend.C44_violated
#print axioms Verif.DelayedSend.C44_violated_cancel
#print axioms Verif.DelayedSend.C45_in_order_partial
#print axioms Verif.DelayedSend.C45_result_partial
#print axioms Verif.DelayedSend.C45_violated
#print axioms Verif.DelayedSend.close_drops
#print axioms Verif.DelayedSend.C46_counts
#print axioms Verif.DelayedSend.C46_recycled_partial
#print axioms Verif.DelayedSend.C46_violated
#print axioms Verif.DelayedSend.C61_check
#print axioms Verif.DelayedSend.C61_nothing_after_close
#print axioms Verif.DelayedSend.C72_only_two_partial
#print axioms Verif.DelayedSend.C72_violated
#print axioms Verif.DelayedSend.C72_violated_channel
#print axioms Verif.DelayedSend.C72_violated_fragment
