import Verif.Lemmas.Replay
/-!
# C01–C04: replay protection

`receive size ids` is a session created with `PacketIDStorageSize = size` that successfully decrypts
packets with the IDs `ids`; it gives the verdict for each packet and the drop counter.
-/
namespace Verif.PacketID
open Verif.Spec

/-- C01 (restriction that holds): for every window size, if no packet ID jumps more than 64 above
the highest one received before, no ID is accepted twice.
Missing for the full C01: histories with larger jumps, see `C01_replay_violated`. -/
theorem C01_replay_partial (size : Int) (h0 : 0 ≤ size) (h : size < 2 ^ 63) (ids : List W64)
    (hj : SmallJumps ids) :
    ∃ rs n, receive size ids = some (rs, n) ∧ rs.length = ids.length ∧ NoReplay ids rs :=
  ⟨_, _, receive_eq size h0 h ids, filter_run_length _ _ _, nodup_of_smallJumps _ _ hj⟩

example : SmallJumps [5, 3, 69, 69, 4] := by
  intro pre id post h hne
  rcases pre with _ | ⟨a, _ | ⟨b, _ | ⟨c, _ | ⟨d, _ | ⟨e, pre⟩⟩⟩⟩⟩ <;> simp at h hne
  · obtain ⟨rfl, rfl, -⟩ := h; decide
  · obtain ⟨rfl, rfl, rfl, -⟩ := h; decide
  · obtain ⟨rfl, rfl, rfl, rfl, -⟩ := h; decide
  · obtain ⟨rfl, rfl, rfl, rfl, rfl, -⟩ := h; decide

/-- C01 as stated is false: for the default size and every size above 64 there is a history of only
three packets in which the same packet ID is accepted twice. -/
theorem C01_replay_violated (size : Int) (hs : size = 0 ∨ 65 ≤ size) (h : size < 2 ^ 63) :
    ∃ ids rs n, receive size ids = some (rs, n) ∧ ¬ NoReplay ids rs := by
  refine ⟨[1, 66, 1], _, _, receive_eq size (by omega) h _, ?_⟩
  have hw : 65 < windowOf size := by
    unfold windowOf; split
    · decide
    · split <;> omega
  have hr : Filter.run (windowOf size) { latest := 0, seen := [] }
      (([1, 66, 1] : List W64).map (·.toNat)) = [true, true, true] := by
    simp [Filter.run, Filter.step, Nat.not_le.mpr hw]
  rw [hr]; simp [NoReplay, accepted]

example : receive 0 [1, 66, 1] = some ([true, true, true], 0) := by decide +kernel

/-- C01, exactly which packets pass: for every window size, after every history, a packet with a
non-zero ID is accepted if and only if its ID is above every ID received before, or within the
window and not received since the last jump of more than 64.  So a packet is accepted a second time
exactly when such a jump lies between its last arrival and now and it is still in the window. -/
theorem C01_exact (size : Int) (h0 : 0 ≤ size) (h : size < 2 ^ 63) (pre : List W64) (id : W64)
    (hz : id ≠ 0) :
    ∃ rs v n, receive size (pre ++ [id]) = some (rs ++ [v], n) ∧ rs.length = pre.length ∧
      (v = true ↔ highest pre < id.toNat ∨
        (highest pre < id.toNat + windowOf size ∧ ¬ SeenSinceJump id pre)) := by
  obtain ⟨rs, n, he, hl⟩ := receive_snoc size h0 h pre id _ rfl
  refine ⟨rs, _, n, he, hl, ?_⟩
  have hid0 : id.toNat ≠ 0 := fun h => hz (BitVec.eq_of_toNat_eq h)
  have hs := seen_iff (windowOf size) pre id hz
  have hl := latest_seen (windowOf size) pre
  rw [Filter.step, latest_init]
  by_cases h1 : id.toNat > highest pre
  · simp [h1]
  · by_cases h2 : id.toNat = highest pre
    · have := (hs (by omega)).mp (by rw [h2]; exact hl (by omega))
      simp [h2, this]
    · by_cases h3 : highest pre - id.toNat ≥ windowOf size
      · simp [h1, h2, h3]; omega
      · have h4 : highest pre < id.toNat + windowOf size := by omega
        rw [← hs (.inr h4)]
        by_cases h5 : id.toNat ∈ (after (windowOf size) { latest := 0, seen := [] } pre).seen
        · simp [h1, h2, h3, h5]
        · simp [h1, h2, h3, h4, h5]

/-- The second arrival of 1 is refused, the one after the jump is accepted, and is then remembered
again. -/
example : receive 0 [1, 1, 66, 1, 1] = some ([true, false, true, true, false], 2) := by
  decide +kernel
example : SeenSinceJump 1 [1, 65] := ⟨[], [65], rfl, by
  intro b x c h
  rcases b with _ | ⟨y, _ | ⟨z, b⟩⟩ <;> simp at h
  obtain ⟨rfl, -⟩ := h; decide⟩
example : ¬ SeenSinceJump 1 [1, 66] := by
  rintro ⟨a, b, h, hn⟩
  rcases a with _ | ⟨y, _ | ⟨z, a⟩⟩ <;> simp at h
  subst h
  exact absurd (hn [] 66 [] rfl) (by decide)

/-- C02: with `PacketIDStorageSize` between 1 and 64 no packet ID is ever accepted twice. -/
theorem C02_small_window_no_replay (size : Int) (h1 : 1 ≤ size) (h : size ≤ 64) (ids : List W64) :
    ∃ rs n, receive size ids = some (rs, n) ∧ rs.length = ids.length ∧ NoReplay ids rs := by
  refine ⟨_, _, receive_eq size (by omega) (by omega) ids, filter_run_length _ _ _, ?_⟩
  refine (nodup_run _ ids _ [] (by intro a ha; simp at ha) (.inl ?_)).1
  unfold windowOf; split
  · omega
  · split <;> omega

/-- C02: with the special value 1 a packet is accepted exactly when its ID is higher than every ID
received before. -/
theorem C02_grow_only (pre : List W64) (id : W64) :
    ∃ rs n, receive 1 (pre ++ [id]) =
      some (rs ++ [decide (highest pre < id.toNat)], n) ∧ rs.length = pre.length := by
  refine receive_snoc 1 (by decide) (by decide) pre id _ ?_
  rw [Filter.step, latest_init]
  by_cases hh : id.toNat > highest pre
  · simp [hh]
  · simp [hh, windowOf]

example : receive 1 [3, 5, 4, 5, 6] = some ([true, true, false, false, true], 2) := by
  decide +kernel

/-- C03: a non-zero packet ID not received before, within the window below the highest received
ID (or above it), is accepted; for every window size and every history, including histories with
jumps. -/
theorem C03_fresh_accepted (size : Int) (h0 : 0 ≤ size) (h : size < 2 ^ 63) (pre : List W64)
    (id : W64) (hz : id ≠ 0) (hnew : id ∉ pre)
    (hwin : highest pre < id.toNat ∨ highest pre < id.toNat + windowOf size) :
    ∃ rs n, receive size (pre ++ [id]) = some (rs ++ [true], n) ∧ rs.length = pre.length := by
  refine receive_snoc size h0 h pre id _ ?_
  have hid0 : id.toNat ≠ 0 := fun h => hz (BitVec.eq_of_toNat_eq h)
  have hne : id.toNat ≠ highest pre := by
    intro he
    have : ∀ l : List W64, highest l ≠ 0 → ∃ x ∈ l, x.toNat = highest l := by
      intro l
      induction l with
      | nil => simp [highest]
      | cons a l ih =>
        intro hh
        rw [highest] at hh ⊢
        by_cases hc : highest l ≤ a.toNat
        · exact ⟨a, by simp, by omega⟩
        · obtain ⟨x, hx, hxe⟩ := ih (by omega)
          exact ⟨x, by simp [hx], by omega⟩
    obtain ⟨x, hx, hxe⟩ := this pre (by omega)
    exact hnew (by rwa [BitVec.eq_of_toNat_eq (he.trans hxe.symm)])
  have hns : id.toNat ∉ (after (windowOf size) { latest := 0, seen := [] } pre).seen := by
    intro hm
    rcases after_seen _ _ _ _ hm with hm | ⟨x, hx, hxe⟩
    · simp at hm
    · exact hnew (by rwa [← BitVec.eq_of_toNat_eq hxe])
  rw [Filter.step, latest_init]
  by_cases hh : id.toNat > highest pre
  · simp [hh]
  · have : ¬ (highest pre - id.toNat ≥ windowOf size) := by omega
    simp [hh, hne, this, hns]

example : receive 0 [7, 9, 8] = some ([true, true, true], 0) := by decide +kernel

/-- C03: the packet ID 0 is never used by a sender (see C16) and is refused as the first packet. -/
theorem C03_zero_first_refused (size : Int) (h0 : 0 ≤ size) (h : size < 2 ^ 63) :
    receive size [0] = some ([false], 1) := by
  rw [receive_eq size h0 h]
  simp [Filter.run, Filter.step]

/-- C04: a packet lagging by the window size or more is dropped. -/
theorem C04_too_old_dropped (size : Int) (h0 : 0 ≤ size) (h : size < 2 ^ 63) (pre : List W64)
    (id : W64) (hold : id.toNat < highest pre) (hwin : id.toNat + windowOf size ≤ highest pre) :
    ∃ rs n, receive size (pre ++ [id]) = some (rs ++ [false], n) ∧ rs.length = pre.length := by
  refine receive_snoc size h0 h pre id _ ?_
  rw [Filter.step, latest_init]
  have h1 : ¬ (id.toNat > highest pre) := by omega
  have h2 : ¬ (id.toNat = highest pre) := by omega
  have h3 : highest pre - id.toNat ≥ windowOf size := by omega
  simp [h1, h2, h3]

example : receive 0 [300, 44] = some ([true, false], 1) := by decide +kernel
example : receive 0 [300, 45] = some ([true, true], 0) := by decide +kernel

/-- C04: the drop counter is the number of dropped packets, and the check never panics. -/
theorem C04_counter (size : Int) (h : size < 2 ^ 63) (ids : List W64) :
    ∃ rs, receive size ids = some (rs, rs.count false) ∧ rs.length = ids.length := by
  by_cases h0 : 0 ≤ size
  · exact ⟨_, receive_eq size h0 h ids, filter_run_length _ _ _⟩
  · refine ⟨ids.map fun _ => true, ?_, by simp⟩
    have : storOfOption size = none := by
      unfold storOfOption
      have h1 : ¬ size = 0 := by omega
      have h2 : ¬ size > 0 := by omega
      simp [h1, h2]
    rw [receive, this, check_run_none]
    congr 2
    rw [List.count_eq_zero.mpr]; simp

/-- C04: with a negative `PacketIDStorageSize` every packet is accepted. -/
theorem C04_disabled (size : Int) (h : size < 0) (ids : List W64) :
    receive size ids = some (ids.map fun _ => true, 0) := by
  have : storOfOption size = none := by
    unfold storOfOption
    have h1 : ¬ size = 0 := by omega
    have h2 : ¬ size > 0 := by omega
    simp [h1, h2]
  rw [receive, this, check_run_none]

/-- C01–C04 together: the exact behaviour of the check for every history, as a refinement of the
ideal filter of the specification. -/
theorem C04_refines_filter (size : Int) (h0 : 0 ≤ size) (h : size < 2 ^ 63) (ids : List W64) :
    (receive size ids).map (·.1) =
      some (Filter.run (windowOf size) { latest := 0, seen := [] } (ids.map (·.toNat))) := by
  rw [receive_eq size h0 h]; rfl

#print axioms C01_replay_partial
#print axioms C01_replay_violated
#print axioms C01_exact
#print axioms C02_small_window_no_replay
#print axioms C02_grow_only
#print axioms C03_fresh_accepted
#print axioms C03_zero_first_refused
#print axioms C04_too_old_dropped
#print axioms C04_counter
#print axioms C04_disabled
#print axioms C04_refines_filter

end Verif.PacketID
