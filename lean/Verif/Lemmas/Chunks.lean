import Verif.Lemmas.PendingChain
/-! Helper lemmas: fragments cut by an honest sender. -/
namespace Verif.PendingChain
open Verif.Spec

theorem chunk_piece (m : Bytes) (n j : Nat) (hj : j * n ≤ m.length) : IsPiece m (chunk m n j) := by
  unfold IsPiece chunk
  simp only [List.length_take, List.length_drop]
  refine ⟨by omega, ?_⟩
  rw [List.take_eq_take_iff]
  simp

theorem chunk_end (m : Bytes) (n j : Nat) :
    (chunk m n j).1 + (chunk m n j).2.length = j * n + min n (m.length - j * n) := by
  simp [chunk]

theorem countsByte_iff (fs : List Frag) (k : Nat) :
    countsByte fs k = true ↔ ∃ f ∈ fs, blockStart f.1 ≤ k ∧ k < f.1 + f.2.length := by
  simp [countsByte]

theorem hasByte_iff (fs : List Frag) (k : Nat) :
    hasByte fs k = true ↔ ∃ f ∈ fs, f.1 ≤ k ∧ k < f.1 + f.2.length := by
  simp [hasByte]

theorem blockStart_le (k : Nat) : blockStart k ≤ k := by unfold blockStart; omega

theorem hasByte_counts (fs : List Frag) (k : Nat) (h : hasByte fs k = true) :
    countsByte fs k = true := by
  rw [hasByte_iff] at h; rw [countsByte_iff]
  obtain ⟨f, hf, h1, h2⟩ := h
  exact ⟨f, hf, Nat.le_trans (blockStart_le _) h1, h2⟩

theorem lt_ceil (n len j : Nat) (hn : 0 < n) : j < (len + n - 1) / n ↔ j * n < len := by
  rw [Nat.lt_iff_add_one_le, Nat.le_div_iff_mul_le hn, Nat.add_mul]
  omega

theorem hasByte_chunks (m : Bytes) (n : Nat) (hn : 0 < n) (seen : List Nat) (k : Nat)
    (hk : k < m.length) :
    hasByte (seen.map (chunk m n)) k = true ↔ k / n ∈ seen := by
  rw [hasByte_iff]
  have hd := Nat.div_add_mod k n
  have hm := Nat.mod_lt k hn
  rw [Nat.mul_comm] at hd
  constructor
  · rintro ⟨f, hf, h1, h2⟩
    obtain ⟨j, hj, rfl⟩ := List.mem_map.mp hf
    rw [chunk_end] at h2
    have h1' : j * n ≤ k := h1
    have : k / n = j := by
      apply Nat.div_eq_of_lt_le h1'
      rw [Nat.add_mul]; omega
    rwa [this]
  · intro hj
    refine ⟨_, List.mem_map.mpr ⟨_, hj, rfl⟩, ?_, ?_⟩
    · show k / n * n ≤ k; omega
    · rw [chunk_end]; omega

theorem hasAll_chunks (m : Bytes) (n : Nat) (hn : 0 < n) (seen : List Nat) :
    (∀ k, k < m.length → hasByte (seen.map (chunk m n)) k = true) ↔
      (List.range ((m.length + n - 1) / n)).all (· ∈ seen) = true := by
  rw [List.all_eq_true]
  constructor
  · intro h j hj
    have hj' : j * n < m.length := (lt_ceil n _ j hn).mp (by simpa using hj)
    have := (hasByte_chunks m n hn seen _ hj').mp (h _ hj')
    rw [Nat.mul_div_cancel _ hn] at this
    simpa using this
  · intro h k hk
    rw [hasByte_chunks m n hn seen k hk]
    have : k / n < (m.length + n - 1) / n := by
      rw [lt_ceil n _ _ hn]
      exact Nat.lt_of_le_of_lt (Nat.div_mul_le_self k n) hk
    simpa using h (k / n) (by simpa using this)

/-- Pieces of at least 64 bytes: everything counts as received exactly when every piece was. -/
theorem countsAll_chunks (m : Bytes) (n : Nat) (hn : 64 ≤ n) (seen : List Nat) :
    countsAll (seen.map (chunk m n)) m.length =
      (List.range ((m.length + n - 1) / n)).all (· ∈ seen) := by
  rw [Bool.eq_iff_iff, ← hasAll_chunks m n (by omega) seen]
  unfold countsAll
  rw [List.all_eq_true]
  constructor
  · intro h k hk
    rw [hasByte_chunks m n (by omega) seen k hk]
    have hlow : k / n * n < m.length := Nat.lt_of_le_of_lt (Nat.div_mul_le_self k n) hk
    have := h (k / n * n) (by simpa using hlow)
    rw [countsByte_iff] at this
    obtain ⟨f, hf, h1, h2⟩ := this
    obtain ⟨i, hi, rfl⟩ := List.mem_map.mp hf
    rw [chunk_end] at h2
    have h1' : blockStart (i * n) ≤ k / n * n := h1
    rcases Nat.lt_trichotomy i (k / n) with hlt | heq | hgt
    · have : (i + 1) * n ≤ k / n * n := Nat.mul_le_mul_right n hlt
      rw [Nat.add_mul] at this; omega
    · rwa [← heq]
    · have : (k / n + 1) * n ≤ i * n := Nat.mul_le_mul_right n hgt
      rw [Nat.add_mul] at this
      unfold blockStart at h1'
      omega
  · intro h k hk
    exact hasByte_counts _ _ (h k (by simpa using hk))

theorem mixed_all (m old : Bytes) (fs : List Frag)
    (hp : ∀ f ∈ fs, IsPiece m f) (h : ∀ k, k < m.length → hasByte fs k = true) :
    mixed m old fs = m ++ old.drop m.length := by
  apply ext_getD
  · rw [mixed_length]; simp; omega
  · intro k
    rw [mixed_getD]
    by_cases hk : k < m.length
    · rw [if_pos (by omega), h k hk]
      simp [List.getD_eq_getElem?_getD, List.getElem?_append_left hk]
    · have hnb : hasByte fs k = false := by
        cases hc : hasByte fs k
        · rfl
        · rw [hasByte_iff] at hc
          obtain ⟨f, hf, h1, h2⟩ := hc
          have := (hp f hf).1; omega
      rw [hnb]
      simp only [List.getD_eq_getElem?_getD]
      rw [List.getElem?_append_right (by omega), List.getElem?_drop]
      rw [show m.length + (k - m.length) = k by omega]
      split
      · simp
      · rw [List.getElem?_eq_none (by omega)]; rfl

theorem results_chunks (m old : Bytes) (n : Nat) (hn : 64 ≤ n) (js : List Nat)
    (hj : ∀ j ∈ js, j * n < m.length) (seen : List Nat) (hs : ∀ j ∈ seen, j * n < m.length) :
    results m old (seen.map (chunk m n)) (js.map (chunk m n)) =
      deliverWhenAll m.length n (m ++ old.drop m.length) seen js := by
  induction js generalizing seen with
  | nil => rfl
  | cons j js ih =>
    have hj' : ∀ i ∈ js, i * n < m.length := fun i hi => hj i (by simp [hi])
    have hs' : ∀ i ∈ seen ++ [j], i * n < m.length := by
      intro i hi
      simp only [List.mem_append, List.mem_singleton] at hi
      rcases hi with hi | rfl
      · exact hs i hi
      · exact hj _ (by simp)
    have hmap : seen.map (chunk m n) ++ [chunk m n j] = (seen ++ [j]).map (chunk m n) := by simp
    simp only [List.map_cons, results, deliverWhenAll, hmap, countsAll_chunks m n hn]
    split
    · rw [ih hj' seen hs]
    · rw [ih hj' (seen ++ [j]) hs']
      congr 1
      split
      · next hall =>
        have hb := (hasAll_chunks m n (by omega) (seen ++ [j])).mpr hall
        rw [mixed_all m old _ _ hb]
        intro f hf
        obtain ⟨i, hi, rfl⟩ := List.mem_map.mp hf
        exact chunk_piece m n i (Nat.le_of_lt (hs' i hi))
      · rfl

theorem countsAll_mono (fs gs : List Frag) (len : Nat) (h : countsAll fs len = true) :
    countsAll (fs ++ gs) len = true := by
  unfold countsAll at *
  rw [List.all_eq_true] at *
  intro k hk
  have := h k hk
  rw [countsByte_iff] at *
  obtain ⟨f, hf, h1⟩ := this
  exact ⟨f, by simp [hf], h1⟩

/-- Is something delivered? -/
def isDelivery : Outcome MergeErr (Option Bytes) → Bool
  | .ok (some _) => true
  | _ => false

theorem results_delivery (m old : Bytes) (fs seen : List Frag)
    (hs : countsAll seen m.length = false) :
    (results m old seen fs).countP isDelivery = if countsAll (seen ++ fs) m.length then 1 else 0 := by
  induction fs generalizing seen with
  | nil => simp [results, hs]
  | cons f fs ih =>
    rw [show seen ++ f :: fs = (seen ++ [f]) ++ fs by simp]
    simp only [results, hs]
    cases hc : countsAll (seen ++ [f]) m.length with
    | false => simp [isDelivery, ih _ hc]
    | true =>
      rw [countsAll_mono _ fs _ hc]
      have hdup : ∀ gs sn, countsAll sn m.length = true →
          (results m old sn gs).countP isDelivery = 0 := by
        intro gs
        induction gs with
        | nil => intro sn _; rfl
        | cons g gs ih2 =>
          intro sn hsn
          simp [results, hsn, isDelivery, ih2 sn hsn]
      simp [List.countP_cons, isDelivery, hdup fs _ hc]

end Verif.PendingChain
