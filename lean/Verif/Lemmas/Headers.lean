import Verif.Model.Headers
/-! Helper lemmas about little-endian coding and slicing. -/
namespace Verif

theorem putLE_length (n v : Nat) : (putLE n v).length = n := by
  induction n generalizing v with
  | zero => rfl
  | succ n ih => simp [putLE, ih]

theorem getLE_putLE (n v : Nat) : getLE (putLE n v) = v % 256 ^ n := by
  induction n generalizing v with
  | zero => simp [putLE, getLE, Nat.mod_one]
  | succ n ih =>
    simp only [putLE, getLE, ih, BitVec.toNat_ofNat]
    rw [show 256 ^ (n + 1) = 256 * 256 ^ n from Nat.pow_succ', Nat.mod_mul (a := 256)]

theorem putLE_getLE (bs : Bytes) : putLE bs.length (getLE bs) = bs := by
  induction bs with
  | nil => rfl
  | cons b bs ih =>
    simp only [List.length_cons, putLE, getLE]
    have h : (b.toNat + 256 * getLE bs) / 256 = getLE bs := by
      have := b.isLt; omega
    rw [h, ih]
    congr 1
    apply BitVec.eq_of_toNat_eq
    have := b.isLt
    simp only [BitVec.toNat_ofNat]; omega

theorem getLE_lt (bs : Bytes) : getLE bs < 256 ^ bs.length := by
  induction bs with
  | nil => simp [getLE]
  | cons b bs ih =>
    have := b.isLt
    simp only [getLE, List.length_cons, Nat.pow_succ]
    omega

theorem ofNat_getLE_putLE32 (v : W32) : BitVec.ofNat 32 (getLE (putLE 4 v.toNat)) = v := by
  apply BitVec.eq_of_toNat_eq
  rw [getLE_putLE]
  have := v.isLt
  simp only [BitVec.toNat_ofNat]; omega

theorem ofNat_getLE_putLE64 (v : W64) : BitVec.ofNat 64 (getLE (putLE 8 v.toNat)) = v := by
  apply BitVec.eq_of_toNat_eq
  rw [getLE_putLE]
  have := v.isLt
  simp only [BitVec.toNat_ofNat]; omega

theorem putLE_ofNat32 (b : Bytes) (h : b.length = 4) :
    putLE 4 (BitVec.ofNat 32 (getLE b)).toNat = b := by
  have h1 := getLE_lt b
  rw [h] at h1
  have : (BitVec.ofNat 32 (getLE b)).toNat = getLE b := by
    simp only [BitVec.toNat_ofNat]; omega
  rw [this]
  have := putLE_getLE b
  rwa [h] at this

theorem putLE_ofNat64 (b : Bytes) (h : b.length = 8) :
    putLE 8 (BitVec.ofNat 64 (getLE b)).toNat = b := by
  have h1 := getLE_lt b
  rw [h] at h1
  have : (BitVec.ofNat 64 (getLE b)).toNat = getLE b := by
    simp only [BitVec.toNat_ofNat]; omega
  rw [this]
  have := putLE_getLE b
  rwa [h] at this

/-- `take` of an append at the exact boundary. -/
theorem take_app {α} {a b : List α} {n : Nat} (h : a.length = n) : (a ++ b).take n = a := by
  subst h; simp

theorem drop_app {α} {a b : List α} {n : Nat} (h : a.length = n) : (a ++ b).drop n = b := by
  subst h; simp

theorem headD_drop_take {b : Bytes} {n : Nat} (h : n < b.length) :
    [(b.drop n).headD 0] = (b.drop n).take 1 := by
  generalize hc : b.drop n = c
  cases c with
  | nil => have := congrArg List.length hc; simp at this; omega
  | cons x xs => rfl

end Verif
