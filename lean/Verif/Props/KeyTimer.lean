import Verif.Lemmas.KeyTimer
/-!
# C155, C156, C157: time and key updates

The theorems are about executions on a computer that is fast enough (`Path`): time passes only when no goroutine of the exchanger
has anything to do.  What arrives, and when, is left open.
-/
namespace Verif.KeyTimer

/-! ## C155: a pause can last as long as the user wants -/

/-- The full statement is `∀` pauses: a session that is paused and that nobody closes is still open.

This part: if the pause begins while the loop waits for the tick at `t` (no key update is under way), the session is open at least until
`t + Timeout`, so a pause that is not longer than `Timeout` does no harm.  (Also for pauses that end meanwhile, and whatever arrives.) -/
theorem C155_short_partial {c : Cfg} (hi : 0 < c.interval) {s s' : St} {t : Nat} (hr : Path c anything .init s) (hc : s.closed = false)
    (hidle : s.main = .idle) (hp : s.pending = false) (ht : s.tickAt = some t) (h : Path c noClose s s') :
    s.now < t ∧ (s'.now < t + c.timeout → s'.closed = false) := by
  have hinv := reach_inv hi hr hc
  have h1 := hinv.tick t ht
  refine ⟨h1.1, fun hlt => ?_⟩
  rcases path_before (t := t) (fun _ h => h) ⟨⟨fun _ => ⟨hidle, hp, ht⟩, fun hm => by simp [hidle] at hm⟩, hc⟩ h with h | h
  · exact h.2
  · omega

/-- No pause that is longer than `KeyUpdateInterval + Timeout` leaves the session open: the loop goes on, begins an update, cannot see an
answer because nobody reads, and gives up; if nothing else closed the session, it reports this. -/
theorem C155_long {c : Cfg} (hi : 0 < c.interval) {s s' : St} (hr : Path c anything .init s) (hpa : s.paused = true)
    (h : Path c noResume s s') (hlong : s.now + c.interval + c.timeout < s'.now) : s'.closed = true := by
  cases hc : s'.closed with
  | true => rfl
  | false =>
    have hg := path_good hi (init_good c) hr
    have h1 := (path_paused (fun _ h => h) hpa h).2
    have h2 := path_since hi hg (fun a ha => by simp at ha; exact ha.2) h1 hc
    have := Since.now_le (path_good hi hg h hc) h2
    omega

/-- A session is established and paused; nobody closes it, and it closes itself. -/
theorem C155_violated : ∃ s s', Path ⟨2, 1, 1⟩ anything .init s ∧ s.closed = false ∧ s.paused = true ∧
    Path ⟨2, 1, 1⟩ (fun a => noResume a && noClose a) s s' ∧ s'.closed = true ∧ s'.reported = true :=
  ⟨⟨0, 5, 5, true, 0, .idle, 5, 1, some 2, false, 0, none, [], 1, true, false, false⟩,
   ⟨3, 5, 7, true, 2, .waiting, 7, 3, some 4, false, 0, none, [], 1, true, true, true⟩,
   prompt_path (l := connected ++ [.pause]) (by decide +kernel), rfl, rfl,
   prompt_path (l := [.pass, .pass, .loop 7, .loop 7, .loop 7, .loop 7, .pass, .timeout]) (by decide +kernel), rfl, rfl⟩

/-- The hypotheses of `C155_short_partial` and `C155_long` can be met. -/
example : prompt ⟨2, 1, 1⟩ anything .init (connected ++ [.pause]) =
    some ⟨0, 5, 5, true, 0, .idle, 5, 1, some 2, false, 0, none, [], 1, true, false, false⟩ := by decide +kernel
/-- A pause that ends in time: the answer is read, and the session goes on. -/
example : prompt ⟨2, 1, 1⟩ noClose ⟨0, 5, 5, true, 0, .idle, 5, 1, some 2, false, 0, none, [], 1, true, false, false⟩
    [.pass, .pass, .loop 7, .loop 7, .loop 7, .loop 7, .resume, .recv true, .done, .pass, .pass] =
    some ⟨4, 7, 7, true, 2, .idle, 7, 3, some 6, true, 0, none, [], 2, false, false, false⟩ := by decide +kernel
/-- After more than 2 + 1 units. -/
example : prompt ⟨2, 1, 1⟩ noResume ⟨0, 5, 5, true, 0, .idle, 5, 1, some 2, false, 0, none, [], 1, true, false, false⟩
    [.pass, .pass, .loop 7, .loop 7, .loop 7, .loop 7, .pass, .timeout, .pass] =
    some ⟨4, 5, 7, true, 2, .waiting, 7, 3, some 4, false, 0, none, [], 1, true, true, true⟩ := by decide +kernel
/-- A session that is not established cannot be paused; a paused one is not read and cannot be paused again; another cannot be resumed. -/
example : step ⟨2, 1, 1⟩ .init .pause = none ∧ step ⟨2, 1, 1⟩ .init .resume = none ∧
    prompt ⟨2, 1, 1⟩ anything .init (connected ++ [.pause, .recv true]) = none ∧
    prompt ⟨2, 1, 1⟩ anything .init (connected ++ [.pause, .pause]) = none := by decide +kernel

/-! ## C156: a peer that is gone is noticed -/

/-- If for longer than `KeyUpdateInterval + Timeout` nothing has arrived that completes a key exchange, the session is closed. -/
theorem C156_noticed {c : Cfg} (hi : 0 < c.interval) {s s' : St} (hr : Path c anything .init s) (h : Path c (silent c) s s')
    (hlong : s.now + c.interval + c.timeout < s'.now) : s'.closed = true := by
  cases hc : s'.closed with
  | true => rfl
  | false =>
    have hg := path_good hi (init_good c) hr
    have h2 := path_since hi hg (fun _ h => h) h hc
    have := Since.now_le (path_good hi hg h hc) h2
    omega

/-- If nobody else has closed it and nothing has failed, it has reported the time-out. -/
theorem C156_reported {c : Cfg} (hi : 0 < c.interval) {s s' : St} (hr : Path c anything .init s) (hc : s.closed = false)
    (h : Path c (fun a => silent c a && noClose a) s s') (hlong : s.now + c.interval + c.timeout < s'.now) :
    s'.closed = true ∧ s'.reported = true := by
  have hcl : s'.closed = true := by
    cases hc' : s'.closed with
    | true => rfl
    | false =>
      have hg := path_good hi (init_good c) hr
      have h2 := path_since hi hg (fun a ha => by simp at ha; exact ha.1) h hc'
      have := Since.now_le (path_good hi hg h hc') h2
      omega
  exact ⟨hcl, path_reported (fun a ha => by simp at ha; exact ha.2) (fun h => by simp [hc] at h) h hcl⟩

/-- In the default mode the requests of a paused peer do not help: it does not answer. -/
example : prompt ⟨2, 1, 1⟩ (fun a => silent ⟨2, 1, 1⟩ a && noClose a)
    ⟨0, 5, 5, true, 0, .idle, 5, 1, some 2, false, 0, none, [], 1, false, false, false⟩
    [.pass, .pass, .recv false, .answer 0 0, .answer 0 0, .loop 7, .loop 7, .loop 7, .loop 7, .recv false, .answer 0 0, .answer 0 0,
     .retry, .pass, .timeout, .pass] =
    some ⟨4, 5, 7, true, 2, .waiting, 7, 3, some 4, false, 0, none, [], 1, false, true, true⟩ := by decide +kernel
/-- With answers the session stays open for ever; and in the mode "answer" requests are enough. -/
example : (prompt ⟨2, 1, 1⟩ noClose ⟨0, 5, 5, true, 0, .idle, 5, 1, some 2, false, 0, none, [], 1, false, false, false⟩
    [.pass, .pass, .loop 7, .loop 7, .loop 7, .loop 7, .recv true, .retry, .pass, .pass]).map (·.closed) = some false ∧
    (prompt ⟨2, 1, 2⟩ noClose ⟨0, 5, 5, true, 0, .idle, 5, 1, some 2, false, 0, none, [], 1, false, false, false⟩
    [.pass, .pass, .loop 7, .loop 7, .loop 7, .loop 7, .pass, .recv false, .timeout, .answer 0 0, .answer 0 0, .pass]).map (·.closed) =
      some false := by
  decide +kernel
/-- The bound is sharp: the session may be open until then. -/
example : (prompt ⟨2, 1, 1⟩ (fun a => silent ⟨2, 1, 1⟩ a && noClose a)
    ⟨0, 5, 5, true, 0, .idle, 5, 1, some 2, false, 0, none, [], 1, false, false, false⟩
    [.pass, .pass, .loop 7, .loop 7, .loop 7, .loop 7, .pass]).map (fun s => (s.now, s.closed)) = some (3, false) := by decide +kernel

/-! ## C157: a key is not used for longer than KeyUpdateInterval -/

/-- The full statement has `s.now ≤ s.madeAt + c.interval`.

This part: an open session replaces a key after `KeyUpdateInterval` or `Timeout`, whichever is longer; a key that was made at the
start may last `KeyUpdateInterval` longer, as the ticker is made only after the first exchange, and as the first tick does not
replace a key that is not confirmed yet. -/
theorem C157_partial {c : Cfg} (hi : 0 < c.interval) {s : St} (hr : Path c anything .init s) (hc : s.closed = false) :
    (0 < s.now → s.hasKey = true) ∧ s.now ≤ s.madeAt + c.interval + max c.interval c.timeout ∧
      (0 < s.madeAt → s.now ≤ s.madeAt + max c.interval c.timeout) := by
  have hinv := reach_inv hi hr hc
  have h := hinv.life
  refine ⟨fun h => (hinv.late h).1, ?_, fun h0 => ?_⟩
  · unfold lim at h; split at h <;> omega
  · unfold lim at h; split at h <;> omega

/-- With the default options (`Timeout` is not longer than `KeyUpdateInterval`) the statement holds for all keys but the first. -/
theorem C157_later_partial {c : Cfg} (hi : 0 < c.interval) (hd : c.timeout ≤ c.interval) {s : St} (hr : Path c anything .init s)
    (hc : s.closed = false) (hm : 0 < s.madeAt) : s.now ≤ s.madeAt + c.interval := by
  have := (C157_partial hi hr hc).2.2 hm
  omega

/-- The first key lasts longer, even if `Timeout` is not longer than `KeyUpdateInterval`: the other side takes its time to answer. -/
theorem C157_violated : ∃ s, Path ⟨2, 2, 1⟩ anything .init s ∧ s.closed = false ∧ s.hasKey = true ∧ s.madeAt + 2 < s.now :=
  ⟨⟨3, 5, 5, true, 0, .idle, 5, 2, some 5, true, 0, none, [], 1, false, false, false⟩,
   prompt_path (l := [.loop 5, .loop 5, .loop 5, .pass, .recv true, .done, .pass, .pass]) (by decide +kernel), rfl, rfl, by decide⟩

/-- The bound for the first key is sharp: an answering goroutine has made it and set `skipKeyUpdateUntil`, the loop has skipped the first
update and does not replace the key at the first tick, as nothing has confirmed it. -/
example : (prompt ⟨2, 2, 1⟩ anything .init
    [.recv false, .answer 0 5, .answer 0 5, .answer 0 5, .answer 0 5, .answer 0 5, .loop 5, .pass, .pass, .loop 5, .loop 5, .loop 5, .loop 5,
     .pass, .recv true, .done, .pass]).map (fun s => (s.now, s.madeAt, s.main, s.pending, s.closed)) =
    some (4, 0, .idle, true, false) := by decide +kernel
/-- The hypotheses can be met with a later key, which is replaced at the next tick. -/
example : (prompt ⟨2, 2, 1⟩ anything .init
    (connected ++ [.pass, .pass, .loop 7, .loop 7, .loop 7, .loop 7, .recv true, .done, .pass, .pass])).map
      (fun s => (s.now, s.madeAt, s.next, s.closed)) = some (4, 2, 7, false) ∧
    (prompt ⟨2, 2, 1⟩ anything .init
    (connected ++ [.pass, .pass, .loop 7, .loop 7, .loop 7, .loop 7, .recv true, .done, .pass, .pass, .loop 9, .loop 9, .loop 9])).map
      (fun s => (s.now, s.madeAt, s.next, s.main)) = some (4, 4, 9, .send) := by decide +kernel
/-- With a longer `Timeout` a tick waits in its channel until the update is over. -/
example : (prompt ⟨1, 3, 1⟩ anything .init
    (connected ++ [.pass, .loop 7, .loop 7, .loop 7, .loop 7, .pass, .pass, .pass, .recv true, .timeout])).map
      (fun s => (s.now, s.madeAt, s.main, s.pending, s.tickAt)) = some (4, 1, .idle, true, some 5) := by decide +kernel

end Verif.KeyTimer

#print axioms Verif.KeyTimer.C155_short_partial
#print axioms Verif.KeyTimer.C155_long
#print axioms Verif.KeyTimer.C155_violated
#print axioms Verif.KeyTimer.C156_noticed
#print axioms Verif.KeyTimer.C156_reported
#print axioms Verif.KeyTimer.C157_partial
#print axioms Verif.KeyTimer.C157_later_partial
#print axioms Verif.KeyTimer.C157_violated
