import Verif.Lemmas.SendTimer
import Verif.Spec.Delay
/-!
# C126: a message is delayed by SendDelay at most

Every message that is appended to the buffer restarts the timer, so that a steady stream of small messages delays the
first of them until the buffer is full.
-/
namespace Verif.SendTimer
open Verif.Headers Verif.Spec.Delay

/-- C126, bound by the number of messages: a message that shares its packet with `n - 1` others waits for `n` times
`SendDelay`.  In particular a message that is alone in its packet waits for `SendDelay`. -/
theorem C126_count_partial {cfg : Cfg} {s : State} (h : Reachable cfg s) :
    Waits (fun n => n * cfg.delay + 2 * cfg.slow) s := by
  have hi := inv_reachable h
  refine ⟨fun m hm => ?_, fun p hp m hm => ?_⟩
  · have := (hi.due.all m hm).le hi.armed
    omega
  · have := (hi.sent p hp).all m hm
    omega

/-- C126, when nobody writes: once the last message of the buffer (and so every one) has been there for `SendDelay` and the
time of one packet, the buffer is taken; and a packet is written within `SendDelay` and the time of two packets after its
last message. -/
theorem C126_quiet_partial {cfg : Cfg} {s : State} (h : Reachable cfg s) :
    (∀ m, s.buf.getLast? = some m → s.now ≤ m.time + cfg.delay + cfg.slow) ∧
      ∀ p ∈ s.sent, ∀ m, p.1.getLast? = some m → p.2 ≤ m.time + cfg.delay + 2 * cfg.slow := by
  have hi := inv_reachable h
  refine ⟨fun m hm => ?_, fun p hp m hm => ?_⟩
  · have := (hi.due.last m hm).le hi.armed
    omega
  · have := (hi.sent p hp).last m hm
    omega

/-- C126, bound by the size of a packet: a message waits for `SendDelay` times the number of message headers that fit into
a packet. -/
theorem C126_size_partial {cfg : Cfg} {s : State} (h : Reachable cfg s) :
    Waits (fun _ => (cfg.limit - containerHeadersSize) / messageHeadersSize * cfg.delay + 2 * cfg.slow) s := by
  have hc := C126_count_partial h
  have hf := finv_reachable h
  refine ⟨fun m hm => ?_, fun p hp m hm => ?_⟩
  · have h1 := hc.buffered m hm
    have h2 := Nat.mul_le_mul_right cfg.delay hf.buf.length
    omega
  · have h1 := hc.sent p hp m hm
    have h2 := Nat.mul_le_mul_right cfg.delay (hf.sent p hp).length
    omega

/-- The bounds are not empty: in every state the session can go on by itself until the clock has advanced.  Together with
`C126_quiet_partial`: every message in the buffer is sent, no expiry of the timer is lost. -/
theorem C126_clock {cfg : Cfg} (hd : 0 < cfg.delay) (s : State) : ∃ s', Alone cfg s s' ∧ s'.now = s.now + 1 := by
  suffices H : ∀ n s, busy s < n → ∃ s', Alone cfg s s' ∧ s'.now = s.now + 1 from H _ s (Nat.lt_succ_self _)
  intro n
  induction n with
  | zero => intro s h; exact absurd h (Nat.not_lt_zero _)
  | succ n ih =>
    intro s hn
    rcases settle_step (cfg := cfg) (s := s) hd with ⟨s', hs, ht⟩ | ⟨a, s', ha, hs, ht, hb⟩
    · exact ⟨s', .step .time (by simp) hs (.refl _), ht⟩
    · obtain ⟨s'', h1, h2⟩ := ih s' (by omega)
      exact ⟨s'', .step a ha hs h1, by omega⟩

/-- `k` empty messages, each one tick before the timer would expire. -/
def starved (cfg : Cfg) (k : Nat) : State :=
  { now := k * (cfg.delay - 1), armed := if k = 0 then none else some ((k - 1) * (cfg.delay - 1) + cfg.delay), tick := false,
    buf := (List.range k).map fun i => ⟨messageHeadersSize, i * (cfg.delay - 1)⟩, cur := 2,
    lastAppended := if k = 0 then 0 else 2, storing := false, ids := 2, lastSent := 0, connecting := false, loop := .idle,
    sent := [] }

theorem total_starved (d k : Nat) : total ((List.range k).map fun i => ⟨messageHeadersSize, i * d⟩) = k * messageHeadersSize := by
  induction k with
  | zero => rfl
  | succ k ih =>
    have : total ((List.range (k + 1)).map fun i => (⟨messageHeadersSize, i * d⟩ : Msg)) =
        total ((List.range k).map fun i => (⟨messageHeadersSize, i * d⟩ : Msg)) + messageHeadersSize := by
      simp [total, List.range_succ]
    rw [this, ih, Nat.add_mul, Nat.one_mul]

theorem starved_reachable (cfg : Cfg) (hd : 2 ≤ cfg.delay) (k : Nat)
    (hk : k = 0 ∨ containerHeadersSize + k * messageHeadersSize ≤ cfg.limit) : Reachable cfg (starved cfg k) := by
  induction k with
  | zero =>
    have h1 : Reachable cfg { State.init with ids := 2, loop := .acquired 2 } := .step .acquire .init rfl
    have h2 : Reachable cfg (swapped { State.init with ids := 2, loop := .acquired 2 } 2 0) :=
      .step (.swap 0) h1 (by simp [step, State.init])
    have h3 : Reachable cfg (starved cfg 0) := .step .finish h2 (by simp [step, State.init, swapped, finishConnect, starved])
    exact h3
  | succ k ih =>
    rw [Nat.add_mul, Nat.one_mul] at hk
    have h0 := ih (by omega)
    have h1 : Reachable cfg (append cfg (starved cfg k) 0) := by
      refine .step (.write 0) h0 ?_
      have ht : total (starved cfg k).buf = k * messageHeadersSize := total_starved _ _
      have hs : (starved cfg k).storing = false := rfl
      simp only [step, hs, ht]
      rw [if_neg (by simp), if_neg (by omega)]
    have h2 : Reachable cfg { append cfg (starved cfg k) 0 with storing := false, lastAppended := 2 } :=
      .step .store h1 rfl
    have h3 := reach_time (d := k * (cfg.delay - 1) + cfg.delay) h2 rfl rfl rfl rfl (cfg.delay - 1)
      (show k * (cfg.delay - 1) + (cfg.delay - 1) ≤ _ by omega)
    have he : starved cfg (k + 1) = { append cfg (starved cfg k) 0 with
        storing := false, lastAppended := 2, now := k * (cfg.delay - 1) + (cfg.delay - 1) } := by
      simp [starved, append, reset, List.range_succ, Nat.add_mul]
    rw [he]; exact h3

/-- C126 is violated: whatever `SendDelay` is (at least two ticks), with `k` messages, as many as fit into a packet, the
first message can be in the buffer for `k` times `SendDelay` less `k` ticks, with nothing sent and an idle loop. -/
theorem C126_violated (cfg : Cfg) (hd : 2 ≤ cfg.delay) (k : Nat) (hk : 0 < k)
    (hfit : containerHeadersSize + k * messageHeadersSize ≤ cfg.limit) :
    ∃ s, Reachable cfg s ∧ s.loop = .idle ∧ s.sent = [] ∧ s.now = k * (cfg.delay - 1) ∧ ∃ m ∈ s.buf, m.time = 0 := by
  refine ⟨starved cfg k, starved_reachable cfg hd k (.inr hfit), rfl, rfl, rfl, ⟨messageHeadersSize, 0⟩, ?_, rfl⟩
  refine List.mem_map.mpr ⟨0, List.mem_range.mpr hk, ?_⟩
  simp

/-- With the defaults (50 µs, in ns; a packet of 65280 bytes) and a backend that takes no time, a message can wait for more
than a third of a second, more than 7000 times `SendDelay`. -/
def defaults : Cfg := ⟨50000, 65280, 0⟩

theorem C126_violated_defaults : ∃ s, Reachable defaults s ∧ ¬Prompt defaults s ∧ 7000 * defaults.delay < s.now ∧
    ∃ m ∈ s.buf, m.time = 0 := by
  obtain ⟨s, hr, _, _, hn, m, hm, ht⟩ := C126_violated defaults (by decide) 7200 (by decide) (by decide)
  have hn : s.now = 7200 * 49999 := hn
  refine ⟨s, hr, fun h => ?_, ?_, m, hm, ht⟩
  · have := h.buffered m hm
    have hd : defaults.delay + 2 * defaults.slow = 50000 := rfl
    rw [ht, hd, hn] at this
    omega
  · rw [hn]; decide

/-- A run: a message, the timer expires after three ticks, the packet is written two ticks later. -/
def quietRun : List Act :=
  [.acquire, .swap 0, .finish, .write 5, .store, .time, .time, .time, .fire, .receive, .acquire, .swap 2, .time, .time, .written,
    .finish]

example : ((run ⟨3, 100, 2⟩ State.init quietRun).map fun s => (s.sent, s.loop, s.now, s.armed)) =
    some ([([⟨14, 0⟩], 5)], .idle, 5, none) := by decide +kernel

/-- A run: the second message comes while the first one is being written.  The loop restarts the timer after the packet
although it has nearly expired, so that this message waits for the delay and both packets: the bound of one message is reached. -/
def busyRun : List Act :=
  [.acquire, .swap 0, .finish, .write 5, .store, .time, .time, .time, .fire, .receive, .acquire, .swap 2, .write 6, .store, .time,
    .time, .written, .finish, .time, .time, .time, .fire, .receive, .acquire, .swap 2, .time, .time, .written, .finish]

example : ((run ⟨3, 100, 2⟩ State.init busyRun).map fun s => (s.sent, s.loop, s.armed)) =
    some ([([⟨14, 0⟩], 5), ([⟨15, 3⟩], 10)], .idle, none) := by decide +kernel

/-- The timer expires during a long write: its channel is emptied when the loop restarts it. -/
example : ((run ⟨3, 100, 5⟩ State.init
    [.acquire, .swap 0, .finish, .write 5, .store, .time, .time, .time, .fire, .receive, .acquire, .swap 5, .write 6, .store, .time,
      .time, .time, .fire, .time, .time, .written, .finish]).map fun s => (s.tick, s.armed, s.now)) =
    some (false, some 11, 8) := by decide +kernel

/-- The clock does not pass the deadline of the timer, and a message does not leave before it. -/
example : run ⟨3, 100, 2⟩ State.init [.acquire, .swap 0, .finish, .write 5, .store, .time, .time, .time, .time] = none ∧
    run ⟨3, 100, 2⟩ State.init [.acquire, .swap 0, .finish, .write 5, .store, .time, .time, .fire] = none ∧
    run ⟨3, 100, 2⟩ State.init [.acquire, .swap 0, .finish, .write 5, .store, .time, .receive] = none := by decide +kernel

#print axioms C126_count_partial
#print axioms C126_quiet_partial
#print axioms C126_size_partial
#print axioms C126_clock
#print axioms C126_violated
#print axioms C126_violated_defaults

end Verif.SendTimer
