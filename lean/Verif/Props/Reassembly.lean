import Verif.Lemmas.Chunks
/-!
# C21–C23 (and the chain-level part of C25, C26): reassembly of one message

`feed (init slot total) fs` are the outcomes of merging the fragments `fs` into a reassembly slot
prepared for a message of `total` bytes; `slot` is whatever earlier messages left there.
-/
namespace Verif.PendingChain
open Verif.Spec

/-- The slot invariant holds initially and is kept, so `SlotOK` below is no restriction. -/
theorem slotOK_always :
    SlotOK empty ∧ (∀ c, SlotOK c → SlotOK (reset c)) ∧ (∀ c n, SlotOK c → SlotOK (init c n)) := by
  refine ⟨⟨rfl⟩, fun c h => ⟨?_⟩, fun c n h => (init_wf c h n).1.slot⟩
  simpa [reset] using h.isSetLen

/-- C21: pieces of a message in any order, with any duplication and overlap, which contain every
byte: the reassembly completes, exactly once. -/
theorem C21_completes (slot : Chain) (hslot : SlotOK slot) (m : Bytes) (hm0 : m ≠ [])
    (hm : m.length < 2 ^ 64) (fs : List Frag) (hp : ∀ f ∈ fs, IsPiece m f)
    (hall : hasAll fs m.length = true) :
    (feed (init slot m.length) fs).countP isDelivery = 1 := by
  rw [feed_exact m _ hm fs hp _ [] (init_st slot hslot m)]
  have h0 : countsAll [] m.length = false := by
    unfold countsAll
    rw [Bool.eq_false_iff]
    intro h
    rw [List.all_eq_true] at h
    have := h 0 (by simpa using List.length_pos_iff.mpr hm0)
    simp [countsByte] at this
  rw [results_delivery _ _ _ _ h0, if_pos]
  unfold countsAll hasAll at *
  rw [List.all_eq_true] at *
  intro k hk
  exact hasByte_counts _ _ (hall k hk)

example : hasAll [(2, [3, 4]), (0, [1, 2, 3]), (2, [3, 4])] [(1 : Byte), 2, 3, 4].length = true ∧
    (feed (init empty 4) [(2, [3, 4]), (0, [1, 2, 3])]).length = 2 := by decide

/-- C22 (restriction that holds): a message cut into pieces of at least 64 bytes, the pieces (number
`js`, any order, loss and duplication) merged into a slot whose earlier messages were not longer:
the message is delivered by the fragment that completes it, exactly once and unaltered, and nothing
is delivered while a fragment is missing.
Missing for the full C22: pieces below 64 bytes, see `C22_violated`; longer earlier messages, see
C23. -/
theorem C22_delivered_when_all_partial (slot : Chain) (hslot : SlotOK slot) (m : Bytes)
    (hm : m.length < 2 ^ 64) (n : Nat) (hn : 64 ≤ n) (js : List Nat)
    (hj : ∀ j ∈ js, j * n < m.length) (hfresh : slot.data.length ≤ m.length) :
    feed (init slot m.length) (js.map (chunk m n)) = deliverWhenAll m.length n m [] js := by
  rw [feed_exact m _ hm _ _ _ [] (init_st slot hslot m)]
  · have := results_chunks m (if slot.data.length ≥ m.length then slot.data
      else List.replicate m.length 0) n hn js hj [] (by simp)
    rw [List.map_nil] at this
    rw [this]
    congr 1
    rw [List.drop_eq_nil_of_le, List.append_nil]
    split
    · omega
    · simp
  · intro f hf
    obtain ⟨j, hjm, rfl⟩ := List.mem_map.mp hf
    exact chunk_piece m n j (Nat.le_of_lt (hj j hjm))

example : (∀ j ∈ [1, 2, 1, 0], j * 64 < (List.replicate 150 (7 : Byte)).length) ∧
    deliverWhenAll 150 64 (List.replicate 150 7) [] [1, 2, 1, 0] =
      [.ok none, .ok none, .ok none, .ok (some (List.replicate 150 7))] := by decide +kernel

/-- C22 as stated is false: for every piece size below 64, a message of two pieces is "delivered"
when only its second piece arrived; the first half is not the sender's data. -/
theorem C22_violated (n : Nat) (hn : 0 < n) (hn64 : n < 64) (m : Bytes) (hm : m.length = 2 * n) :
    feed (init empty m.length) [chunk m n 1] =
      [.ok (some (List.replicate n 0 ++ m.drop n))] := by
  have hp : IsPiece m (chunk m n 1) := chunk_piece m n 1 (by omega)
  rw [feed_exact m _ (by omega) _ (by intro f hf; simp at hf; subst hf; exact hp) _ []
    (init_st empty ⟨rfl⟩ m)]
  have h0 : countsAll [] m.length = false := by
    unfold countsAll
    rw [Bool.eq_false_iff]
    intro h
    rw [List.all_eq_true] at h
    have := h 0 (by simp; omega)
    simp [countsByte] at this
  have h1 : countsAll ([] ++ [chunk m n 1]) m.length = true := by
    unfold countsAll
    rw [List.all_eq_true]
    intro k hk
    rw [countsByte_iff]
    refine ⟨chunk m n 1, by simp, ?_, ?_⟩
    · show blockStart (1 * n) ≤ k
      unfold blockStart; omega
    · rw [chunk_end]
      have : k < m.length := by simpa using hk
      omega
  simp only [results, h0, h1]
  simp only [if_true, Bool.false_eq_true, if_false, List.cons.injEq, Outcome.ok.injEq,
    Option.some.injEq, and_true, List.nil_append]
  have hne : ¬ (empty.data.length ≥ m.length) := by
    show ¬ (0 ≥ m.length); omega
  rw [if_neg hne]
  apply ext_getD
  · rw [mixed_length]; simp; omega
  · intro k
    rw [mixed_getD]
    have hhas : hasByte [chunk m n 1] k = decide (n ≤ k ∧ k < 2 * n) := by
      rw [Bool.eq_iff_iff, hasByte_iff, decide_eq_true_eq]
      simp only [List.mem_singleton, exists_eq_left, chunk_end]
      show (1 * n ≤ k ∧ _) ↔ _
      omega
    rw [hhas]
    simp only [List.getD_eq_getElem?_getD]
    by_cases h1 : k < n
    · rw [List.getElem?_append_left (by simpa using h1)]
      have : ¬ (n ≤ k ∧ k < 2 * n) := by omega
      simp [this, List.getElem?_replicate, h1]
      intro _; split <;> rfl
    · rw [List.getElem?_append_right (by simpa using h1), List.getElem?_drop,
        show n + (k - (List.replicate n (0 : Byte)).length) = k by simp; omega]
      by_cases h2 : k < 2 * n
      · simp [h1, h2, hm]
      · rw [if_neg (by simp; omega), List.getElem?_eq_none (by omega)]; rfl

example : feed (init empty 2) [chunk [7, 9] 1 1] = [.ok (some [0, 9])] := by decide

/-- C22, exact law behind both: for arbitrary pieces of `m` (any sizes) the outcomes are those
of the specification `results`, in which a fragment counts from the 64-byte block it starts in. -/
theorem C22_exact (slot : Chain) (hslot : SlotOK slot) (m : Bytes) (hm : m.length < 2 ^ 64)
    (fs : List Frag) (hp : ∀ f ∈ fs, IsPiece m f) :
    feed (init slot m.length) fs =
      results m (if slot.data.length ≥ m.length then slot.data else List.replicate m.length 0) [] fs :=
  feed_exact m _ hm fs hp _ [] (init_st slot hslot m)

/-- C23 (restriction that holds): what is delivered is the message followed by whatever an earlier,
longer message left in the slot, so the length is right exactly if the slot's earlier messages were
not longer.  Missing for the full C23: slots with longer earlier messages, see `C23_violated`. -/
theorem C23_delivered_bytes_partial (slot : Chain) (hslot : SlotOK slot) (m : Bytes)
    (hm : m.length < 2 ^ 64) (n : Nat) (hn : 64 ≤ n) (js : List Nat)
    (hj : ∀ j ∈ js, j * n < m.length) :
    feed (init slot m.length) (js.map (chunk m n)) =
      deliverWhenAll m.length n (m ++ slot.data.drop m.length) [] js := by
  rw [feed_exact m _ hm _ _ _ [] (init_st slot hslot m)]
  · have := results_chunks m (if slot.data.length ≥ m.length then slot.data
      else List.replicate m.length 0) n hn js hj [] (by simp)
    rw [List.map_nil] at this
    rw [this]
    congr 2
    split
    · rfl
    · rw [List.drop_eq_nil_of_le (by simp), List.drop_eq_nil_of_le (by omega)]
  · intro f hf
    obtain ⟨j, hjm, rfl⟩ := List.mem_map.mp hf
    exact chunk_piece m n j (Nat.le_of_lt (hj j hjm))

/-- C23 as stated is false: a slot that held a longer message delivers a one-fragment message `m`
with the tail of the old message appended, whatever the two messages are. -/
theorem C23_violated (slot : Chain) (hslot : SlotOK slot) (m : Bytes) (hm0 : m ≠ [])
    (hm : m.length < 2 ^ 64) (hlonger : m.length < slot.data.length) :
    ∃ d, feed (init slot m.length) [(0, m)] = [.ok (some d)] ∧ d = m ++ slot.data.drop m.length ∧
      d.length ≠ m.length := by
  have hpos : 0 < m.length := List.length_pos_iff.mpr hm0
  refine ⟨m ++ slot.data.drop m.length, ?_, rfl, by rw [List.length_append, List.length_drop]; omega⟩
  have h := C23_delivered_bytes_partial slot hslot m hm (max 64 m.length) (by omega) [0]
    (by simpa using hpos)
  have hc : chunk m (max 64 m.length) 0 = (0, m) := by
    simp only [chunk, Nat.zero_mul, List.drop_zero]
    rw [List.take_of_length_le (Nat.le_max_right _ _)]
  simp only [List.map_cons, List.map_nil, hc] at h
  rw [h]
  have hceil : (m.length + max 64 m.length - 1) / max 64 m.length = 1 := by
    apply Nat.div_eq_of_lt_le <;> omega
  simp [deliverWhenAll, hceil, List.range_succ]

/-- C25 (chain level, violated): a fragment whose start position is close to 2^64 panics, on every
chain that waits for data (`3 ≤ startPos` and one byte wraps). -/
theorem C25_merge_panics (slot : Chain) (hslot : SlotOK slot) (total : Nat) (h0 : 0 < total)
    (ht : total < 2 ^ 63) (hd : slot.data.length < 2 ^ 63) :
    merge (init slot total) (2 ^ 64 - 1) [0] = .panic := by
  obtain ⟨h1, h2, h3, h4, h5⟩ := init_wf slot hslot total
  unfold merge
  rw [h5, h2, if_neg (by omega)]
  simp only [List.length_singleton]
  rw [if_neg (by omega), if_pos]
  rw [h4]
  split
  · omega
  · simp; omega

/-- C25 (chain level, restriction that holds): `Merge` never panics when start + length does not wrap. -/
theorem C25_merge_partial (slot : Chain) (hslot : SlotOK slot) (total : Nat) (ht : total < 2 ^ 64)
    (s : Nat) (b : Bytes) (hs : s + b.length < 2 ^ 64) :
    merge (init slot total) s b ≠ .panic := by
  obtain ⟨h1, h2, h3, h4, h5⟩ := init_wf slot hslot total
  by_cases hinc : (init slot total).received ≥ (init slot total).expected
  · unfold merge; rw [if_pos hinc]; simp
  · by_cases hr : s + b.length ≤ (init slot total).expected
    · obtain ⟨c', _, _, _, _, hmg⟩ := merge_spec _ h1 (by rw [h2]; exact ht) hinc s b hr
      rw [hmg]; simp
    · unfold merge
      rw [if_neg hinc]
      simp only
      rw [Nat.mod_eq_of_lt (by omega), if_pos (by omega)]
      simp

#print axioms C21_completes
#print axioms C22_delivered_when_all_partial
#print axioms C22_violated
#print axioms C22_exact
#print axioms C23_delivered_bytes_partial
#print axioms C23_violated
#print axioms C25_merge_panics
#print axioms C25_merge_partial

end Verif.PendingChain
