import Verif.Lemmas.Pool
/-!
# C154: concurrent calls do not share buffers
-/
namespace Verif.Pool
open Instr

variable {comp : Name → Bytes → List Bytes → Bytes}

/-- Bytes made by putting everything together. -/
def demo : Name → Bytes → List Bytes → Bytes := fun _ d vs => d ++ vs.flatten

/-- No goroutine ever finds an object of a pool in a wrong state: no object is given out while it is busy, none is released twice,
and nothing is used that was released. -/
theorem C154_no_crash {s : State} (h : Reachable comp s) (a : Act) : step comp s a ≠ .panic :=
  (step_inv (inv h) a).1

/-- What a call sends, or gives to the user, is made of its own data only, whatever the other goroutines do meanwhile. -/
theorem C154_bytes {s : State} (h : Reachable comp s) (t : Task) (ht : t ∈ s.tasks) :
    t.sent = [] ∨ ∃ b, result comp t.inp t.fn = some b ∧ t.sent = [b] := by
  have hm := (inv h).theirs t ht
  obtain ⟨ns, h1, h2⟩ := hm.sent
  have h3 : ns.Sublist (outs t.fn.code) := (List.sublist_append_left ns _).trans h2
  have one : ∀ n, outs t.fn.code = [n] → ns = [] ∨ ns = [n] := by
    intro n e
    rw [e] at h3
    cases h3 with
    | cons _ h => exact .inl (List.sublist_nil.1 h)
    | cons_cons _ h => exact .inr (by rw [List.sublist_nil.1 h])
  have none : outs t.fn.code = [] → ns = [] := fun e => by rw [e] at h3; exact List.sublist_nil.1 h3
  cases hfn : t.fn with
  | single k =>
    cases k with
    | true =>
      rcases one .enc (by rw [hfn]; decide) with e | e
      · exact .inl (by rw [h1, e]; rfl)
      · exact .inr ⟨_, rfl, by rw [h1, e, hfn]; rfl⟩
    | false =>
      rcases one .plain (by rw [hfn]; decide) with e | e
      · exact .inl (by rw [h1, e]; rfl)
      · exact .inr ⟨_, rfl, by rw [h1, e, hfn]; rfl⟩
  | fragment =>
    rcases one .enc (by rw [hfn]; decide) with e | e
    · exact .inl (by rw [h1, e]; rfl)
    · exact .inr ⟨_, rfl, by rw [h1, e, hfn]; rfl⟩
  | flush =>
    rcases one .enc (by rw [hfn]; decide) with e | e
    · exact .inl (by rw [h1, e]; rfl)
    · exact .inr ⟨_, rfl, by rw [h1, e, hfn]; rfl⟩
  | read =>
    rcases one .item (by rw [hfn]; decide) with e | e
    · exact .inl (by rw [h1, e]; rfl)
    · exact .inr ⟨_, rfl, by rw [h1, e, hfn]; rfl⟩
  | _ => exact .inl (by rw [h1, none (by rw [hfn]; decide)]; rfl)

/-- A packet of delayed messages has what was in a delayed buffer when it was taken, and a reader gets what it took from the channel. -/
theorem C154_received {s : State} (h : Reachable comp s) (t : Task) (ht : t ∈ s.tasks) (b : Bytes) (hb : t.sent = [b]) :
    (t.fn = .flush → ∃ v ∈ s.taken, b = packet comp t.inp true v) ∧ (t.fn = .read → b ∈ s.received) := by
  have hm := (inv h).theirs t ht
  have hg := got h t ht
  have hq := hm.quiet (by rw [hb]; simp)
  have hno : ∀ x ∈ t.code, (match x with | swap _ _ | take _ => false | _ => true) = true := List.all_eq_true.1 hq
  rcases C154_bytes h t ht with e | ⟨b', hr, hs⟩
  · rw [e] at hb; cases hb
  · rw [hs] at hb
    cases hb
    refine ⟨fun e => ?_, fun e => ?_⟩
    · rw [e] at hr
      rcases hg.1 e with g | g
      · exact absurd (hno _ g) (by simp)
      · exact ⟨_, g, (Option.some.inj hr).symm⟩
    · rw [e] at hr
      rcases hg.2 e with g | g
      · exact absurd (hno _ g) (by simp)
      · have : t.inp .item = b := Option.some.inj hr
        rw [← this]; exact g

/-- What is appended to the delayed buffer is the message of the caller. -/
theorem C154_appended {s s' : State} (h : Reachable comp s) (a : Act) (hs : step comp s a = .ok s') :
    s'.appended = s.appended ∨
      ∃ i c t, a = .go i c ∧ s.tasks[i]? = some t ∧ t.fn = .async ∧ s'.appended = s.appended ++ [message comp t.inp []] :=
  step_appended (inv h) hs

/-- What is sent into the channel is the message of the packet that the sender has. -/
theorem C154_given {s s' : State} (h : Reachable comp s) (a : Act) (hs : step comp s a = .ok s') :
    s'.given = s.given ∨
      ∃ i c t, a = .go i c ∧ s.tasks[i]? = some t ∧ t.fn = .deliver ∧ s'.given = s.given ++ [comp .item (t.inp .item) []] :=
  step_given (inv h) hs

/-- Every delayed message is in exactly one of the buffers taken, or in the current one, in order. -/
theorem C154_delayed {s : State} (h : Reachable comp s) : s.taken.flatten ++ (s.heap s.cur).val = s.appended.flatten :=
  (inv h).delayed

/-- Readers get exactly the items sent into the channel, in order and unchanged. -/
theorem C154_read {s : State} (h : Reachable comp s) : s.received ++ s.queue.map (fun a => (s.heap a).val) = s.given :=
  (inv h).chan

/-- No two goroutines have the same object, and none has one that is in a pool, in the channel, or the delayed buffer. -/
theorem C154_exclusive {s : State} (h : Reachable comp s) (i j : Nat) (t u : Task) (ht : s.tasks[i]? = some t) (hu : s.tasks[j]? = some u)
    (n m : Name) (a : Nat) (hn : (n, a) ∈ t.env) (hm : (m, a) ∈ u.env) :
    i = j ∧ n = m ∧ a ∉ s.free ∧ a ≠ s.cur ∧ a ∉ s.queue := by
  have hf := Inv1.focus (inv h) ht
  have h0 := hf.tot a
  have h1 : 0 < (addrs t.env).count a := List.count_pos_iff.2 (List.mem_map.2 ⟨_, hn, rfl⟩)
  have hij : i = j := by
    by_cases e : i = j
    · exact e
    · exfalso
      have : u ∈ s.tasks.eraseIdx i := by
        refine List.mem_of_getElem? (i := if j < i then j else j - 1) ?_
        rw [List.getElem?_eraseIdx]
        by_cases hlt : j < i
        · simp only [hlt, if_true]; exact hu
        · have h' : ¬ j - 1 < i := by omega
          simp only [hlt, if_false, h']
          rw [show j - 1 + 1 = j by omega]; exact hu
      have := mem_others this (List.mem_map.2 ⟨_, hm, rfl⟩)
      have hm' : ((m, a) : Name × Nat).2 = a := rfl
      rw [hm'] at this
      omega
  subst hij
  rw [ht] at hu
  cases hu
  refine ⟨rfl, (addr_inj hf hm hn).symm, ?_, ?_, ?_⟩
  · intro e
    have := List.count_pos_iff.2 e
    omega
  · intro e
    rw [if_pos e.symm] at h0
    omega
  · intro e
    have := List.count_pos_iff.2 e
    omega

/-- When all calls have ended, every object is back, if all of them were of the kinds that give back what they take: what is busy
is the delayed buffer, or waits in the channel.  It is missing that the other kinds leak; see `C154_violated`. -/
theorem C154_returned_partial {s : State} (h : Reachable comp s) (htidy : ∀ t ∈ s.tasks, t.fn.tidy = true)
    (hend : ∀ t ∈ s.tasks, t.code = []) (a : Nat) (ha : a < s.count) (hb : (s.heap a).busy = true) : a = s.cur ∨ a ∈ s.queue := by
  have hf := full h htidy
  rcases hf.owner a ha hb with e | e | ⟨j, t, hj, e⟩
  · exact .inl e
  · exact .inr e
  · exfalso
    have hm := List.mem_of_getElem? hj
    have hc := (hf.tidy t hm).chk
    rw [hend t hm] at hc
    simp only [tidyChk, Bool.and_eq_true, List.isEmpty_iff] at hc
    have : t.env = [] := by
      have h' : t.env.map (·.1) = [] := hc.1
      simpa using h'
    rw [this] at e
    cases e

/-- Not everything is given back: a fragment header, the container header of a dropped packet, and the read item of a message that
nobody waits for or whose reader has a too small buffer are lost to the pools. -/
theorem C154_violated (fn : Fn) (hfn : fn.tidy = false) :
    ∃ s, Reachable demo s ∧ (∀ t ∈ s.tasks, t.code = [] ∧ (t.fn = fn ∨ t.fn.tidy = true)) ∧
      ∃ a, a < s.count ∧ (s.heap a).busy = true ∧ a ≠ s.cur ∧ a ∉ s.queue := by
  have go : ∀ as : List Act, (match run demo State.init as with
      | .ok s => decide ((∀ t ∈ s.tasks, t.code = [] ∧ (t.fn = fn ∨ t.fn.tidy = true)) ∧
          ∃ a ∈ List.range s.count, (s.heap a).busy = true ∧ a ≠ s.cur ∧ a ∉ s.queue)
      | _ => false) = true →
      ∃ s, Reachable demo s ∧ (∀ t ∈ s.tasks, t.code = [] ∧ (t.fn = fn ∨ t.fn.tidy = true)) ∧
      ∃ a, a < s.count ∧ (s.heap a).busy = true ∧ a ≠ s.cur ∧ a ∉ s.queue := by
    intro as h
    cases hr : run demo State.init as with
    | ok s =>
      rw [hr] at h
      obtain ⟨h1, a, h2, h3⟩ := of_decide_eq_true h
      exact ⟨s, run_reachable .init hr, h1, a, List.mem_range.1 h2, h3⟩
    | err e => rw [hr] at h; cases h
    | panic => rw [hr] at h; cases h
    | block => rw [hr] at h; cases h
  cases fn with
  | fragment => exact go (.start .fragment (fun _ => [7]) :: List.replicate 30 (.go 0 none)) (by decide +kernel)
  | dropped => exact go (.start .dropped (fun _ => [7]) :: List.replicate 7 (.go 0 none)) (by decide +kernel)
  | unheard => exact go (.start .unheard (fun _ => [7]) :: List.replicate 2 (.go 0 none)) (by decide +kernel)
  | readSmall =>
    exact go ([.start .deliver (fun _ => [7]), .start .readSmall (fun _ => []), .go 0 none, .go 0 none, .go 0 none, .go 1 none])
      (by decide +kernel)
  | single k => cases k <;> exact absurd hfn (by decide)
  | _ => exact absurd hfn (by decide)

/-- Two messages are sent at once, step by step in turn; both use the same new session. -/
def inTurn : List Act :=
  [.start (.single false) (fun _ => [1]), .start (.single false) (fun _ => [2])] ++
    (List.replicate 19 [.go 0 none, .go 1 none]).flatten

example : (match run demo State.init inTurn with
    | .ok s => (s.tasks.map (·.sent), s.tasks.map (·.code), s.count, s.free.length)
    | _ => default) = ([[[1, 1, 1, 1, 1, 1]], [[2, 2, 2, 2, 2, 2]]], [[], []], 9, 8) := by decide +kernel

/-- The objects of the first call are used again by the second one, with the other contents. -/
example : (match run demo State.init ([.start (.single false) (fun _ => [1])] ++ List.replicate 19 (.go 0 none) ++
      [.start (.single false) (fun _ => [2]), .go 1 none, .go 1 (some 1), .go 1 none, .go 1 none, .go 1 (some 2), .go 1 none, .go 1 none,
        .go 1 (some 3), .go 1 none, .go 1 (some 4), .go 1 none, .go 1 none]) with
    | .ok s => (s.tasks.map (·.sent), s.count, s.free)
    | _ => default) = ([[[1, 1, 1, 1, 1, 1]], [[2, 2, 2, 2, 2, 2]]], 5, []) := by decide +kernel

def mixed : List Act :=
  [.start .async (fun _ => [3]), .start .flush (fun _ => [4]), .start .flush (fun _ => [5])] ++
    List.replicate 6 (.go 0 none) ++ List.replicate 19 (.go 1 none) ++ List.replicate 5 (.go 2 none) ++ [.leave 2] ++
    List.replicate 3 (.go 2 none) ++ [.start .deliver (fun _ => [6]), .start .read (fun _ => [9])] ++ List.replicate 3 (.go 3 none) ++
    List.replicate 3 (.go 4 none)

/-- The delayed messages, an encrypted packet of them, an early return, and a reader. -/
example : (match run demo State.init mixed with
    | .ok s => (s.appended, s.taken, s.tasks.map (·.sent), s.given, s.received)
    | _ => default) =
    ([[3, 3]], [[3, 3], []], [[], [[4, 4, 4, 3, 3, 3, 3, 4, 4, 3, 3, 4, 3, 3]], [], [], [[6]]], [[6]], [[6]]) := by decide +kernel

/-- At the end only the delayed buffer is busy. -/
example : (match run demo State.init mixed with
    | .ok s => (s.tasks.map (·.code.length), (List.range s.count).filter (fun a => (s.heap a).busy), s.cur)
    | _ => default) = ([0, 0, 0, 0, 0], [7], 7) ∧
    (match run demo State.init mixed with | .ok s => s.tasks.all (·.fn.tidy) | _ => false) = true := by decide +kernel

/-- A buffer released twice, or taken while busy, is found out. -/
example : release ⟨fun _ => ⟨.buf, false, 0, []⟩, 1, [0], 5, [], [], [], [], [], []⟩ 0 = .panic ∧
    release ⟨fun _ => ⟨.buf, false, 1, []⟩, 1, [0], 5, [], [], [], [], [], []⟩ 0 = .panic ∧
    release ⟨fun _ => ⟨.item, false, 0, []⟩, 1, [0], 5, [], [], [], [], [], []⟩ 0 = .panic ∧
    (match acquire ⟨fun _ => ⟨.buf, true, 1, []⟩, 1, [0], 5, [], [], [], [], [], []⟩ .buf (some 0) with | .panic => true | _ => false) = true ∧
    (match acquire ⟨fun _ => ⟨.buf, false, 0, []⟩, 1, [0], 5, [], [], [], [], [], []⟩ .item (some 0) with | .block => true | _ => false) = true := by
  refine ⟨rfl, rfl, rfl, rfl, rfl⟩

/-- A buffer with two references stays with the other holder. -/
example : (match release ⟨fun _ => ⟨.buf, true, 2, []⟩, 1, [], 5, [], [], [], [], [], []⟩ 0 with
    | .ok s => ((s.heap 0).busy, (s.heap 0).refs, s.free) | _ => default) = (true, 1, []) := by decide +kernel

#print axioms C154_no_crash
#print axioms C154_bytes
#print axioms C154_received
#print axioms C154_appended
#print axioms C154_given
#print axioms C154_delayed
#print axioms C154_read
#print axioms C154_exclusive
#print axioms C154_returned_partial
#print axioms C154_violated

end Verif.Pool
