import Verif.Props.Merge
/-!
# A write is not overtaken for ever: C174

A call of `WriteMessageAsync` whose message does not fit into the packet being filled asks for a flush, waits and tries again
(session.go:1605-1690).  The calls do not queue up: who enters the critical section first after the flush gets the room.
-/
namespace Verif.DelayedSend

/-- C174, what holds: a call that tries again with a message that fits into a packet is not refused, and has its message accepted
at once unless other calls have put messages into the packet since the previous one was taken, so many that there is no room.
Missing: that it wins against the others some day (`C174_violated`). -/
theorem C174_partial {cfg : Cfg} {s : State} {i : Nat} {m : Bytes} (hf : cfg.frag = false) (hr : Reachable cfg s)
    (hc : s.main ≠ .before) (hw : s.writers[i]? = some (.retry m)) (hm : 44 + m.length ≤ cfg.limit) (r : Option Nat) :
    ∃ s', step cfg s (.retry i r) = .ok s' ∧
      ((s'.accepted = s.accepted ++ [(s.swaps, m)] ∧ s'.buf = s.buf ++ [m] ∧ s'.writers = s.writers.eraseIdx i) ∨
        (s'.accepted = s.accepted ∧ s'.writers = s.writers.eraseIdx i ++ [.full s.cur m] ∧
          (∃ p ∈ s.accepted, p.1 = s.swaps) ∧
          cfg.limit < 44 + bufSize ((s.accepted.filter (fun p => p.1 = s.swaps)).map (·.2)) + m.length)) := by
  have hb : s.buf = (s.accepted.filter (fun p => p.1 = s.swaps)).map (·.2) := ((inv_reachable hr).2 hf).1.core.bufEq
  have hn := ((C46_counts hr).2.2 (.retry i r)).2.2.2
  simp only [step, hw, tryAppend, hc, if_false] at hn ⊢
  by_cases hfull : 44 + bufSize s.buf + m.length > cfg.limit
  · have hne : s.buf ≠ [] := by
      intro e; rw [e] at hfull; simp [bufSize] at hfull; omega
    rw [if_pos hfull, if_neg hne]
    refine ⟨_, rfl, .inr ⟨rfl, rfl, ?_, by rw [← hb]; exact hfull⟩⟩
    rw [hb] at hne
    obtain ⟨_, hp⟩ := List.exists_mem_of_ne_nil _ hne
    obtain ⟨p, hp, _⟩ := List.mem_map.1 hp
    exact ⟨p, (List.mem_filter.1 hp).1, by simpa using (List.mem_filter.1 hp).2⟩
  · rw [if_neg hfull] at hn ⊢
    split
    · rename_i h; exact absurd (if_pos h) hn
    · exact ⟨_, rfl, .inl ⟨rfl, rfl, rfl⟩⟩

/-- C174 when nobody else writes: the timer expires, the packet leaves, and the call that waits has its message accepted. -/
theorem C174_alone {cfg : Cfg} {s s' : State} {i : Nat} {m : Bytes} (hf : cfg.frag = false) (hr : Reachable cfg s)
    (hi : s.main = .idle) (hd : s.done = false) (hne : s.buf ≠ []) (hfl : runActs cfg s timerFlush = .ok s')
    (hc : s'.main ≠ .before) (hw : s'.writers[i]? = some (.retry m)) (hm : 44 + m.length ≤ cfg.limit) (r : Option Nat) :
    ∃ s'', step cfg s' (.retry i r) = .ok s'' ∧ s''.accepted = s'.accepted ++ [(s'.swaps, m)] ∧ s''.buf = [m] := by
  have h0 := ((inv_reachable hr).2 hf).1.core
  have hb : 44 + bufSize (s.buf ++ []) ≤ cfg.limit := by
    rcases h0.size s.swaps with h | h
    · rw [← h0.bufEq] at h; exact absurd h hne
    · rw [← h0.bufEq] at h; simpa using h
  have h1 := (C173_timer (ms := []) hb hi (by simpa using hne) hd (by simpa using hfl)).2
  obtain ⟨s'', h2, h3 | h3⟩ := C174_partial hf (later_reachable (runActs_later _ hfl) hr) hc hw hm r
  · exact ⟨s'', h2, h3.1, by rw [h3.2.1, h1]; rfl⟩
  · have h4 := ((inv_reachable (later_reachable (runActs_later _ hfl) hr)).2 hf).1.core.bufEq
    rw [h1] at h4
    obtain ⟨p, hp, hpb⟩ := h3.2.2.1
    have h5 : p.2 ∈ msgsOf s'.accepted s'.swaps :=
      List.mem_map.2 ⟨p, List.mem_filter.2 ⟨hp, by simpa using hpb⟩, rfl⟩
    rw [← h4] at h5; simp at h5

/-! ### Negation -/

/-- A call waits with `big` to try again, and `small` is in the buffer. -/
structure Overtaken (small big : Bytes) (s : State) : Prop where
  main : s.main = .idle
  buf : s.buf = [small]
  writers : s.writers = [.retry big]
  done : s.done = false
  ctx : s.ctx = false
  curLt : s.cur < s.next
  refs : 1 ≤ (s.infos s.cur).refs
  busy : (s.infos s.cur).busy = true
  opened : (s.infos s.cur).closed = false
  idGt : s.last < (s.infos s.cur).sendID
  idLe : (s.infos s.cur).sendID ≤ s.ids
  fresh : ∀ j, s.next ≤ j → (s.infos j).refs = 0

/-- The call tries again, asks for a flush, and waits for it; another call is faster. -/
def overtake (small : Bytes) : List Act :=
  [.retry 0 none, .inc 0 none, .poke 0 true none, .handle none, .mainFlush .swap none, .write small none,
    .mainFlush .check none, .mainFlush (.write true) none, .mainFlush .close none, .mainFlush .release none, .mainRelease, .wake 0]

theorem setInfo_twice (f : Nat → Info) (i : Nat) (v w : Info) : setInfo (setInfo f i v) i w = setInfo f i w := by
  funext j; simp only [setInfo]; split <;> rfl

theorem runActs_then {cfg : Cfg} {s s' : State} {as bs : List Act} (h : runActs cfg s as = .ok s') :
    runActs cfg s (as ++ bs) = runActs cfg s' bs := by
  induction as generalizing s with
  | nil => simp only [runActs, Outcome.ok.injEq] at h; subst h; rfl
  | cons a as ih =>
    simp only [runActs, List.cons_append] at h ⊢
    split at h <;> (try (simp at h; done))
    exact ih h

theorem overtake_again {cfg : Cfg} {small big : Bytes} {s : State} (hs : 44 + small.length ≤ cfg.limit)
    (hb : cfg.limit < 44 + small.length + big.length) (h : Overtaken small big s) :
    ∃ s', runActs cfg s (overtake small) = .ok s' ∧ Overtaken small big s' ∧ s'.wire.map (·.2) = s.wire.map (·.2) ++ [[small]] := by
  obtain ⟨h1, h2, h3, h4, h5, h6, h7, h8, h9, h10, h11, h12⟩ := h
  have hne : s.next ≠ s.cur := by omega
  have hne' : s.cur ≠ s.next := by omega
  have hf := h12 s.next (Nat.le_refl _)
  have e1 : ¬ (s.infos s.cur).refs + 1 = 1 := by omega
  have e2 : ¬ (s.infos s.cur).sendID ≤ s.last := by omega
  have hb' : 44 + bufSize [small] + big.length > cfg.limit := by simp [bufSize]; omega
  have hs' : ¬ 44 + bufSize [] + small.length > cfg.limit := by simp [bufSize]; omega
  have st1 : runActs cfg s [.retry 0 none, .inc 0 none, .poke 0 true none] = .ok { s with
      infos := setInfo s.infos s.cur { s.infos s.cur with refs := (s.infos s.cur).refs + 1 }, main := .got s.cur,
      writers := [.waiting s.cur big] } := by
    simp [runActs, step, h3, tryAppend, h1, h2, hb', e1, incRef, h4]
  let x := s.infos s.cur
  let n := s.infos s.next
  have st2 : runActs cfg { s with
      infos := setInfo s.infos s.cur { s.infos s.cur with refs := (s.infos s.cur).refs + 1 }, main := .got s.cur,
      writers := [.waiting s.cur big] } [.handle none, .mainFlush .swap none, .write small none] = .ok { s with
        infos := setInfo (setInfo s.infos s.cur { x with refs := x.refs + 1 }) s.next ⟨2, true, false, n.err, s.ids + 1, s.swaps + 1⟩
        next := s.next + 1, ids := s.ids + 1, cur := s.next, swaps := s.swaps + 1
        main := .flush (some s.cur) (.swapped s.cur [small]), writers := [.waiting s.cur big], buf := [small]
        users := s.users ++ [⟨s.next, some s.accepted.length, false⟩], accepted := s.accepted ++ [(s.swaps + 1, small)] } := by
    simp [runActs, step, begin, acquire, flushStep, tryAppend, e2, h2, hs', hf, setInfo_other hne, setInfo_twice, x, n]
  have st3 : runActs cfg { s with
        infos := setInfo (setInfo s.infos s.cur { x with refs := x.refs + 1 }) s.next ⟨2, true, false, n.err, s.ids + 1, s.swaps + 1⟩
        next := s.next + 1, ids := s.ids + 1, cur := s.next, swaps := s.swaps + 1
        main := .flush (some s.cur) (.swapped s.cur [small]), writers := [.waiting s.cur big], buf := [small]
        users := s.users ++ [⟨s.next, some s.accepted.length, false⟩], accepted := s.accepted ++ [(s.swaps + 1, small)] }
      [.mainFlush .check none, .mainFlush (.write true) none, .mainFlush .close none, .mainFlush .release none] = .ok { s with
        infos := setInfo (setInfo (setInfo s.infos s.cur { x with refs := x.refs + 1 }) s.next
          ⟨2, true, false, n.err, s.ids + 1, s.swaps + 1⟩) s.cur { x with err := false, closed := true }
        next := s.next + 1, ids := s.ids + 1, cur := s.next, swaps := s.swaps + 1, last := x.sendID
        main := .leaving s.cur, writers := [.waiting s.cur big], buf := [small], wire := s.wire ++ [(x.batch, [small])]
        status := fun b => if b = x.batch then some true else s.status b
        users := s.users ++ [⟨s.next, some s.accepted.length, false⟩], accepted := s.accepted ++ [(s.swaps + 1, small)] } := by
    have e3 : (0 : Int) < x.refs := by simp only [x]; omega
    simp [runActs, step, flushStep, setResult, release, h4, h9, e3, setInfo_other hne', setInfo_twice, x, Main.after]
  have st4 : ∃ s', runActs cfg { s with
        infos := setInfo (setInfo (setInfo s.infos s.cur { x with refs := x.refs + 1 }) s.next
          ⟨2, true, false, n.err, s.ids + 1, s.swaps + 1⟩) s.cur { x with err := false, closed := true }
        next := s.next + 1, ids := s.ids + 1, cur := s.next, swaps := s.swaps + 1, last := x.sendID
        main := .leaving s.cur, writers := [.waiting s.cur big], buf := [small], wire := s.wire ++ [(x.batch, [small])]
        status := fun b => if b = x.batch then some true else s.status b
        users := s.users ++ [⟨s.next, some s.accepted.length, false⟩], accepted := s.accepted ++ [(s.swaps + 1, small)] }
      [.mainRelease, .wake 0] = .ok s' ∧ Overtaken small big s' ∧ s'.wire.map (·.2) = s.wire.map (·.2) ++ [[small]] := by
    by_cases e4 : 1 < x.refs
    · simp [runActs, step, release, e4, setInfo_twice]
      refine ⟨rfl, rfl, rfl, h4, h5, Nat.lt_succ_self _, ?_, ?_, ?_, ?_, ?_, ?_⟩ <;>
        simp [setInfo_other hne, x] <;> try omega
      intro j hj
      rw [setInfo_other (by omega), setInfo_other (by omega), setInfo_other (by omega)]
      exact h12 j (by omega)
    · have e5 : ¬ x.refs - 1 < 0 := by simp only [x]; omega
      have e6 : x.busy = true := h8
      simp [runActs, step, release, e4, e5, e6, setInfo_twice]
      refine ⟨rfl, rfl, rfl, h4, h5, Nat.lt_succ_self _, ?_, ?_, ?_, ?_, ?_, ?_⟩ <;>
        simp [setInfo_other hne, x] <;> try omega
      intro j hj
      rw [setInfo_other (by omega), setInfo_other (by omega), setInfo_other (by omega)]
      exact h12 j (by omega)
  obtain ⟨s', h13, h14⟩ := st4
  refine ⟨s', ?_, h14⟩
  have : overtake small = [.retry 0 none, .inc 0 none, .poke 0 true none] ++ ([.handle none, .mainFlush .swap none,
    .write small none] ++ ([.mainFlush .check none, .mainFlush (.write true) none, .mainFlush .close none,
    .mainFlush .release none] ++ [.mainRelease, .wake 0])) := rfl
  rw [this, runActs_then st1, runActs_then st2, runActs_then st3, h13]

/-- Nobody has written; `small` is written, and then `big`, which does not fit. -/
def tooFull (small big : Bytes) : List Act := connected ++ [.write small none, .write big none]

/-- The call asks for a flush and waits for it; another call is faster. -/
def overtakeFirst (small : Bytes) : List Act :=
  [.inc 0 none, .poke 0 true none, .handle none, .mainFlush .swap none, .write small none, .mainFlush .check none,
    .mainFlush (.write true) none, .mainFlush .close none, .mainFlush .release none, .mainRelease, .wake 0]

theorem overtake_first {cfg : Cfg} {small big : Bytes} (hs : 44 + small.length ≤ cfg.limit)
    (hb : cfg.limit < 44 + small.length + big.length) :
    ∃ s0, runActs cfg State.init (tooFull small big) = .ok s0 ∧ s0.wire = [] ∧ s0.writers = [.full s0.cur big] ∧
      ∃ s', runActs cfg s0 (overtakeFirst small) = .ok s' ∧ Overtaken small big s' ∧ s'.wire.map (·.2) = [[small]] := by
  have hb' : 44 + bufSize [small] + big.length > cfg.limit := by simp [bufSize]; omega
  have hs' : ¬ 44 + bufSize [] + small.length > cfg.limit := by simp [bufSize]; omega
  generalize hr : runActs cfg State.init (tooFull small big) = r
  simp [tooFull, connected, runActs, step, begin, acquire, State.init, flushStep, release, setInfo_twice, setInfo, tryAppend,
    hs', hb', incRef, setResult, Main.after] at hr
  subst hr
  refine ⟨_, rfl, rfl, rfl, ?_⟩
  generalize hr : runActs cfg _ (overtakeFirst small) = r
  simp [overtakeFirst, runActs, step, begin, acquire, flushStep, release, setInfo_twice, setInfo, tryAppend,
    hs', hb', incRef, setResult, Main.after] at hr
  subst hr
  refine ⟨_, rfl, ⟨rfl, rfl, rfl, rfl, rfl, ?_, ?_, ?_, ?_, ?_, ?_, ?_⟩, ?_⟩ <;> simp [setInfo]
  intro j hj
  repeat rw [if_neg (by omega)]

theorem later_trans {cfg : Cfg} {a b c : State} (h1 : Later cfg a b) (h2 : Later cfg b c) : Later cfg a c := by
  induction h2 with
  | refl => exact h1
  | step x _ h ih => exact .step x ih h

theorem overtake_many {cfg : Cfg} {small big : Bytes} (hs : 44 + small.length ≤ cfg.limit)
    (hb : cfg.limit < 44 + small.length + big.length) (k : Nat) {s : State} (h : Overtaken small big s) :
    ∃ s', Later cfg s s' ∧ Overtaken small big s' ∧ s'.wire.map (·.2) = s.wire.map (·.2) ++ List.replicate k [small] := by
  induction k with
  | zero => exact ⟨s, .refl _, h, by simp⟩
  | succ k ih =>
    obtain ⟨s1, h1, h2, h3⟩ := ih
    obtain ⟨s2, h4, h5, h6⟩ := overtake_again hs hb h2
    refine ⟨s2, later_trans h1 (runActs_later _ h4), h5, ?_⟩
    rw [h6, h3, List.append_assoc, ← List.replicate_succ']

/-- Negation of C174: whatever the sizes, if two messages do not fit into one packet, there is for every number an execution in
which a call waits while that many packets with messages of later calls are sent. -/
theorem C174_violated {cfg : Cfg} {small big : Bytes} (hs : 44 + small.length ≤ cfg.limit)
    (hb : cfg.limit < 44 + small.length + big.length) (k : Nat) :
    ∃ s0 s, Reachable cfg s0 ∧ s0.wire = [] ∧ s0.writers = [.full s0.cur big] ∧ Later cfg s0 s ∧ s.writers = [.retry big] ∧
      s.wire.map (·.2) = List.replicate (k + 1) [small] := by
  obtain ⟨s0, h1, h2, h3, s1, h4, h5, h6⟩ := overtake_first hs hb
  obtain ⟨s, h7, h8, h9⟩ := overtake_many hs hb k h5
  refine ⟨s0, s, runActs_reachable h1, h2, h3, later_trans (runActs_later _ h4) h7, h8.writers, ?_⟩
  rw [h9, h6, List.replicate_succ]; rfl

/-! ### Examples -/

/-- The hypotheses of `C174_violated`. -/
example : 44 + [1, 2, 3].length ≤ mergeCfg.limit ∧ mergeCfg.limit < 44 + [1, 2, 3].length + [4, 5, 6, 7].length := by decide

/-- Both cases of `C174_partial`: the call has lost against `small`; the packet is sent, and now there is room. -/
example : let as := tooFull [1, 2, 3] [4, 5, 6, 7] ++ overtakeFirst [1, 2, 3]
    isOk (runActs mergeCfg State.init (as ++ timerFlush)) = true ∧
    (okState mergeCfg as).main ≠ .before ∧ (okState mergeCfg as).writers = [.retry [4, 5, 6, 7]] ∧
    (okState mergeCfg (as ++ [.retry 0 none])).writers = [.full 2 [4, 5, 6, 7]] := by decide +kernel

example : let as := tooFull [1, 2, 3] [4, 5, 6, 7] ++ overtakeFirst [1, 2, 3]
    (okState mergeCfg (as ++ timerFlush ++ [.retry 0 none])).writers = [] ∧
    (okState mergeCfg (as ++ timerFlush ++ [.retry 0 none])).accepted = [(1, [1, 2, 3]), (2, [1, 2, 3]), (3, [4, 5, 6, 7])] := by
  decide +kernel

/-- The hypotheses of `C174_alone`. -/
example : let s := okState mergeCfg (tooFull [1, 2, 3] [4, 5, 6, 7] ++ overtakeFirst [1, 2, 3])
    let s' := okState mergeCfg (tooFull [1, 2, 3] [4, 5, 6, 7] ++ overtakeFirst [1, 2, 3] ++ timerFlush)
    s.main = .idle ∧ s.done = false ∧ s.buf ≠ [] ∧ s'.main ≠ .before ∧ s'.writers[0]? = some (.retry [4, 5, 6, 7]) := by
  decide +kernel

/-- A call stops waiting as soon as the buffer is empty (the ticker in `waitForSend`), before the packet is sent, and its
message is in the next packet; while there is something in the buffer it waits. -/
example : let as := tooFull [1, 2, 3] [4, 5, 6, 7] ++ [.inc 0 none, .poke 0 true none, .handle none]
    isOk (runActs mergeCfg State.init (as ++ [.wake 0])) = false ∧
    isOk (runActs mergeCfg State.init (as ++ [.mainFlush .swap none, .wake 0, .retry 0 none])) = true ∧
    (okState mergeCfg (as ++ [.mainFlush .swap none, .wake 0, .retry 0 none])).accepted = [(1, [1, 2, 3]), (2, [4, 5, 6, 7])] ∧
    (okState mergeCfg (as ++ [.mainFlush .swap none, .wake 0, .retry 0 none])).wire = [] := by decide +kernel

#print axioms C174_partial
#print axioms C174_alone
#print axioms C174_violated

end Verif.DelayedSend
