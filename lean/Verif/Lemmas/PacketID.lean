import Verif.Model.PacketID
import Verif.Spec.Replay
/-! Helper lemmas: the bit table refines a set of IDs. -/
namespace Verif.PacketID
open Verif.Spec

/-- Bit `o` of a table. -/
def bitAt (t : List W64) (o : Nat) : Bool := (t.getD (o / 64) 0).getLsbD (o % 64)

theorem shiftLoop_length (b : W64) (r : W64) (t : List W64) :
    (shiftLoop b r t).length = t.length := by
  induction t generalizing r with
  | nil => rfl
  | cons v vs ih => simp [shiftLoop, ih]

theorem bitAt_cons (v : W64) (vs : List W64) (o : Nat) :
    bitAt (v :: vs) o = if o < 64 then v.getLsbD o else bitAt vs (o - 64) := by
  unfold bitAt
  split
  · next h => rw [show o / 64 = 0 by omega, show o % 64 = o by omega]; rfl
  · next h =>
    rw [show o / 64 = (o - 64) / 64 + 1 by omega, show o % 64 = (o - 64) % 64 by omega]; rfl

theorem bitAt_nil (o : Nat) : bitAt [] o = false := by simp [bitAt]

/-- Shift by 1..64 with carry. -/
theorem bitAt_shiftLoop (b : W64) (hb1 : 1 ≤ b.toNat) (hb : b.toNat ≤ 64) (r : W64)
    (hr : ∀ i, b.toNat ≤ i → r.getLsbD i = false) (t : List W64) (o : Nat)
    (ho : o < 64 * t.length) :
    bitAt (shiftLoop b r t) o = if o < b.toNat then r.getLsbD o else bitAt t (o - b.toNat) := by
  induction t generalizing r o with
  | nil => simp at ho
  | cons v vs ih =>
    have h64 : (64 - b : W64).toNat = 64 - b.toNat := by
      rw [BitVec.toNat_sub]
      have : (64 : W64).toNat = 64 := rfl
      rw [this]; omega
    simp only [shiftLoop, bitAt_cons]
    by_cases h : o < 64
    · simp only [h, if_true]
      rw [BitVec.getLsbD_or, goShl, BitVec.getLsbD_shiftLeft]
      by_cases hob : o < b.toNat
      · simp [hob]
      · have : o - b.toNat < 64 := by omega
        rw [hr o (by omega)]; simp [hob, h]; intro _; omega
    · simp only [h, if_false]
      have ho' : o - 64 < 64 * vs.length := by simp at ho; omega
      rw [ih (goShr v (64 - b)) _ (o - 64) ho']
      · have hnb : ¬ o < b.toNat := by omega
        simp only [hnb, if_false]
        by_cases h2 : o - 64 < b.toNat
        · simp only [h2, if_true]
          have : o - b.toNat < 64 := by omega
          simp only [this, if_true, goShr, BitVec.getLsbD_ushiftRight, h64]
          congr 1; omega
        · have : ¬ o - b.toNat < 64 := by omega
          simp only [h2, this, if_false]
          congr 1; omega
      · intro i hi
        simp only [goShr, BitVec.getLsbD_ushiftRight, h64]
        apply BitVec.getLsbD_of_ge; omega

/-- A shift by more than 64 clears the table (whatever its size). -/
theorem bitAt_shiftLoop_big (b : W64) (hb : 64 < b.toNat) (t : List W64) (o : Nat) :
    bitAt (shiftLoop b 0 t) o = false := by
  have h64 : 64 ≤ (64 - b : W64).toNat := by
    rw [BitVec.toNat_sub]
    have : (64 : W64).toNat = 64 := rfl
    rw [this]; have := b.isLt; omega
  induction t generalizing o with
  | nil => exact bitAt_nil o
  | cons v vs ih =>
    have hz : goShr v (64 - b) = 0 := by
      apply BitVec.eq_of_getLsbD_eq
      intro i hi
      rw [goShr, BitVec.getLsbD_ushiftRight, BitVec.getLsbD_of_ge _ _ (by omega)]
      simp
    simp only [shiftLoop, bitAt_cons, hz, ih]
    split
    · next h =>
      rw [BitVec.getLsbD_or, goShl, BitVec.getLsbD_shiftLeft]
      have : o < b.toNat := by omega
      simp [this]
    · rfl

theorem mask_toNat (o : W64) : (o &&& 0x3f).toNat = o.toNat % 64 := by
  rw [BitVec.toNat_and]
  exact Nat.and_two_pow_sub_one_eq_mod o.toNat 6

theorem shr6_toNat (o : W64) : (o >>> 6).toNat = o.toNat / 64 := by
  rw [BitVec.toNat_ushiftRight, Nat.shiftRight_eq_div_pow]

theorem getLsbD_oneShl (n : W64) (hn : n.toNat < 64) (i : Nat) (hi : i < 64) :
    (goShl 1 n).getLsbD i = decide (i = n.toNat) := by
  rw [goShl, BitVec.getLsbD_shiftLeft]
  by_cases h : i = n.toNat
  · subst h; simp [hn]
  · by_cases h2 : i < n.toNat
    · simp [h2, h]
    · simp [h]
      omega

theorem bitAt_setAtOffset (s : Stor) (off : W64) (h : off.toNat < 64 * s.table.length) (o : Nat) :
    bitAt (setAtOffset s off).table o = (bitAt s.table o || decide (o = off.toNat)) := by
  unfold setAtOffset bitAt
  simp only [shr6_toNat, List.getD_eq_getElem?_getD, List.getElem?_modify]
  by_cases he : off.toNat / 64 = o / 64
  · have hlt : o / 64 < s.table.length := by omega
    simp only [he, if_true, List.getElem?_eq_getElem hlt, Option.map_eq_map, Option.map_some,
      Option.getD_some, BitVec.getLsbD_or]
    rw [getLsbD_oneShl _ (by rw [mask_toNat]; omega) _ (by omega), mask_toNat]
    congr 1
    apply decide_eq_decide.mpr
    omega
  · have : o ≠ off.toNat := by intro h2; apply he; rw [h2]
    simp [he, this]

theorem getAtOffset_eq (s : Stor) (off : W64) (h : off.toNat < 64 * s.table.length) :
    getAtOffset s off = some (bitAt s.table off.toNat) := by
  have hlt : off.toNat / 64 < s.table.length := by omega
  unfold getAtOffset bitAt
  simp only [shr6_toNat, List.getElem?_eq_getElem hlt, List.getD_eq_getElem?_getD, Option.getD_some]
  congr 1
  generalize s.table[off.toNat / 64] = w
  by_cases hb : w.getLsbD (off.toNat % 64) = true
  · rw [hb]
    simp only [bne_iff_ne, ne_eq]
    intro h0
    have := congrArg (fun x => x.getLsbD (off.toNat % 64)) h0
    simp only [BitVec.getLsbD_and] at this
    rw [getLsbD_oneShl _ (by rw [mask_toNat]; omega) _ (by omega), mask_toNat, hb] at this
    simp at this
  · simp only [Bool.not_eq_true] at hb
    rw [hb]
    simp only [bne_eq_false_iff_eq]
    apply BitVec.eq_of_getLsbD_eq
    intro i hi
    simp only [BitVec.getLsbD_and]
    rw [getLsbD_oneShl _ (by rw [mask_toNat]; omega) _ hi, mask_toNat]
    by_cases h2 : i = off.toNat % 64
    · subst h2; simp [hb]
    · simp [h2]

/-- The bit table `s` represents the ideal filter `f`. -/
structure Repr (window : Nat) (s : Stor) (f : Filter) : Prop where
  len : 64 * s.table.length = window
  lat : f.latest = s.latest.toNat
  le : ∀ i ∈ f.seen, i ≤ f.latest
  bits : ∀ i, i ≤ f.latest → f.latest - i < window →
    (bitAt s.table (f.latest - i) = true ↔ i ∈ f.seen)

theorem setAtOffset_length (s : Stor) (o : W64) :
    (setAtOffset s o).table.length = s.table.length := by simp [setAtOffset]

/-- One `Push` follows the ideal filter step. -/
theorem push_refines (window : Nat) (hw : window < 2 ^ 64) (s : Stor) (f : Filter)
    (h : Repr window s f) (id : W64) :
    ∃ s', push s id = some (s', (f.step window id.toNat).2) ∧
      Repr window s' (f.step window id.toNat).1 := by
  obtain ⟨hlen, hlat, hle, hbits⟩ := h
  unfold push Filter.step
  have hgt : (id > s.latest) ↔ id.toNat > f.latest := by
    rw [hlat]; exact BitVec.lt_def
  by_cases h1 : id.toNat > f.latest
  · have h1' : id > s.latest := hgt.mpr h1
    simp only [h1, h1', if_true]
    refine ⟨_, rfl, ?_⟩
    have hd : (id - s.latest).toNat = id.toNat - f.latest := by
      rw [BitVec.toNat_sub_of_le (by rw [BitVec.le_def]; omega)]; omega
    by_cases ht : s.table = []
    · have hw0 : window = 0 := by rw [← hlen, ht]; rfl
      subst hw0
      constructor
      · simp [ht]
      · rfl
      · intro i hi
        simp only [List.mem_cons] at hi
        rcases hi with rfl | hi
        · exact Nat.le_refl _
        · split at hi
          · simp at hi
          · have := hle i hi; simp only; omega
      · intro i _ hi; simp at hi
    · have hpos : 0 < s.table.length := List.length_pos_iff.mpr ht
      simp only [ne_eq, ht, not_false_eq_true, if_true]
      constructor
      · simp [setAtOffset_length, shiftValue, shiftLoop_length, hlen]
      · rfl
      · intro i hi
        simp only [List.mem_cons] at hi
        rcases hi with rfl | hi
        · exact Nat.le_refl _
        · split at hi
          · simp at hi
          · have := hle i hi; simp only; omega
      · intro i hi hiw
        simp only at hi hiw ⊢
        rw [bitAt_setAtOffset _ _ (by
          simp only [shiftValue, shiftLoop_length]; exact Nat.mul_pos (by decide) hpos)]
        simp only [shiftValue, List.mem_cons, Bool.or_eq_true, decide_eq_true_eq]
        have h0 : (0 : W64).toNat = 0 := rfl
        rw [h0]
        have hi0 : id.toNat - i = 0 ↔ i = id.toNat := by omega
        rw [hi0, or_comm]
        apply or_congr_right
        by_cases hbig : id.toNat - f.latest > 64
        · rw [bitAt_shiftLoop_big _ (by omega)]
          simp [hbig]
        · rw [bitAt_shiftLoop _ (by omega) (by omega) _ (by simp) _ _ (by omega)]
          simp only [hbig, if_false, hd]
          by_cases hnew : id.toNat - i < id.toNat - f.latest
          · simp only [hnew, if_true]
            constructor
            · simp
            · intro hm; have := hle i hm; omega
          · simp only [hnew, if_false]
            rw [show id.toNat - i - (id.toNat - f.latest) = f.latest - i by omega]
            exact hbits i (by omega) (by omega)
  · have h1' : ¬ id > s.latest := fun h => h1 (hgt.mp h)
    simp only [h1, h1', if_false]
    by_cases h2 : id.toNat = f.latest
    · have h2' : id = s.latest := BitVec.eq_of_toNat_eq (by omega)
      rw [if_pos h2', if_pos h2]
      exact ⟨s, rfl, hlen, hlat, hle, hbits⟩
    · have h2' : ¬ id = s.latest := fun h => h2 (by rw [h, hlat])
      rw [if_neg h2', if_neg h2]
      have hd : (s.latest - id).toNat = f.latest - id.toNat := by
        rw [BitVec.toNat_sub_of_le (by rw [BitVec.le_def]; omega)]; omega
      have hwv : (BitVec.ofNat 64 s.table.length <<< 6 : W64).toNat = window := by
        rw [BitVec.toNat_shiftLeft, BitVec.toNat_ofNat, Nat.shiftLeft_eq]
        omega
      have hge : (s.latest - id ≥ (BitVec.ofNat 64 s.table.length) <<< 6) ↔
          f.latest - id.toNat ≥ window := by
        rw [ge_iff_le, BitVec.le_def, hwv, hd]
      by_cases h3 : f.latest - id.toNat ≥ window
      · rw [if_pos (hge.mpr h3), if_pos h3]
        exact ⟨s, rfl, hlen, hlat, hle, hbits⟩
      · rw [if_neg (fun h => h3 (hge.mp h)), if_neg h3]
        have hoff : (s.latest - id).toNat < 64 * s.table.length := by omega
        rw [getAtOffset_eq _ _ hoff, hd]
        have hb := hbits id.toNat (by omega) (by omega)
        by_cases hm : id.toNat ∈ f.seen
        · rw [hb.mpr hm, if_pos hm]
          exact ⟨s, rfl, hlen, hlat, hle, hbits⟩
        · have hbf : bitAt s.table (f.latest - id.toNat) = false := by
            cases hc : bitAt s.table (f.latest - id.toNat)
            · rfl
            · exact absurd (hb.mp hc) hm
          rw [hbf, if_neg hm]
          refine ⟨_, rfl, ?_, hlat, ?_, ?_⟩
          · rw [setAtOffset_length]; exact hlen
          · intro i hi
            simp only [List.mem_cons] at hi ⊢
            rcases hi with rfl | hi
            · omega
            · exact hle i hi
          · intro i hi hiw
            simp only at hi hiw ⊢
            rw [bitAt_setAtOffset _ _ hoff, Bool.or_eq_true, decide_eq_true_eq, hd,
              hbits i hi hiw, List.mem_cons, or_comm]
            apply or_congr_left
            omega

theorem repr_new (depth : Nat) :
    Repr (64 * ((depth + 63) / 64)) (newStor depth) { latest := 0, seen := [] } := by
  unfold newStor
  split
  · constructor
    · simp
    · rfl
    · simp
    · intro i _ _
      simp only [List.not_mem_nil, iff_false, Bool.not_eq_true]
      unfold bitAt
      rw [List.getD_eq_getElem?_getD, List.getElem?_replicate]
      split <;> simp
  · next h =>
    have : depth = 0 := by omega
    subst this
    constructor
    · simp
    · rfl
    · simp
    · intro i _ hi; simp at hi

theorem run_refines (window : Nat) (hw : window < 2 ^ 64) (ids : List W64) (s : Stor) (f : Filter)
    (h : Repr window s f) : run s ids = some (f.run window (ids.map (·.toNat))) := by
  induction ids generalizing s f with
  | nil => rfl
  | cons id ids ih =>
    obtain ⟨s', hp, hr⟩ := push_refines window hw s f h id
    simp [run, hp, ih s' _ hr, Filter.run]

end Verif.PacketID
