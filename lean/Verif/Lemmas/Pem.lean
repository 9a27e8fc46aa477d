import Verif.Model.Pem
/-!
# The laws of PEM files
-/
namespace Verif.Identity

theorem undigit_digit : ∀ d, d < 64 → undigit (digit d) = some d := by decide +kernel

theorem digit_ne : ∀ d, d < 64 → digit d ≠ 61 ∧ digit d ≠ 10 ∧ digit d ≠ 45 := by decide +kernel

theorem ofNat_toNat (x : Byte) {n : Nat} (h : n % 256 = x.toNat) : BitVec.ofNat 8 n = x := by
  apply BitVec.eq_of_toNat_eq
  rw [BitVec.toNat_ofNat]
  exact h

theorem unbase64_base64 (b : Bytes) : unbase64 (base64 b) = some b := by
  induction b using base64.induct with
  | case1 x y z r ih =>
    have hx := x.isLt
    have hy := y.isLt
    have hz := z.isLt
    rw [base64]
    generalize hn : x.toNat * 65536 + y.toNat * 256 + z.toNat = n
    have e1 := undigit_digit (n / 262144) (by omega)
    have e2 := undigit_digit (n / 4096 % 64) (by omega)
    have e3 := undigit_digit (n / 64 % 64) (by omega)
    have e4 := undigit_digit (n % 64) (by omega)
    have d4 := (digit_ne (n % 64) (by omega)).1
    rw [unbase64]
    · rw [if_neg d4, e1, e2, e3, e4, ih]
      simp only [Option.some.injEq]
      rw [ofNat_toNat x, ofNat_toNat y, ofNat_toNat z]
      all_goals omega
    · intro _ h _
      exact absurd h d4
  | case2 x y =>
    have hx := x.isLt
    have hy := y.isLt
    rw [base64]
    generalize hn : x.toNat * 65536 + y.toNat * 256 = n
    have e1 := undigit_digit (n / 262144) (by omega)
    have e2 := undigit_digit (n / 4096 % 64) (by omega)
    have e3 := undigit_digit (n / 64 % 64) (by omega)
    have d3 := (digit_ne (n / 64 % 64) (by omega)).1
    rw [unbase64]
    · rw [if_pos rfl, e1, e2, e3]
      simp only [if_true]
      rw [ofNat_toNat x, ofNat_toNat y]
      all_goals omega
    · intro h3 h4
      exact absurd h3 d3
  | case3 x =>
    have hx := x.isLt
    rw [base64]
    generalize hn : x.toNat * 65536 = n
    have e1 := undigit_digit (n / 262144) (by omega)
    have e2 := undigit_digit (n / 4096 % 64) (by omega)
    show unbase64 [_, _, 61#8, 61#8] = _
    simp only [unbase64, e1, e2]
    rw [ofNat_toNat x]
    omega
  | case4 => rfl

theorem base64_chars (b : Bytes) : ∀ c ∈ base64 b, c ≠ 10 ∧ c ≠ 45 := by
  induction b using base64.induct with
  | case1 x y z r ih =>
    have hx := x.isLt
    have hy := y.isLt
    have hz := z.isLt
    rw [base64]
    intro c hc
    simp only [List.mem_cons] at hc
    rcases hc with h | h | h | h | h
    · rw [h]; exact (digit_ne _ (by omega)).2
    · rw [h]; exact (digit_ne _ (by omega)).2
    · rw [h]; exact (digit_ne _ (by omega)).2
    · rw [h]; exact (digit_ne _ (by omega)).2
    · exact ih c h
  | case2 x y =>
    have hx := x.isLt
    have hy := y.isLt
    rw [base64]
    intro c hc
    simp only [List.mem_cons, List.not_mem_nil, or_false] at hc
    rcases hc with h | h | h | h
    · rw [h]; exact (digit_ne _ (by omega)).2
    · rw [h]; exact (digit_ne _ (by omega)).2
    · rw [h]; exact (digit_ne _ (by omega)).2
    · rw [h]; decide
  | case3 x =>
    have hx := x.isLt
    rw [base64]
    intro c hc
    simp only [List.mem_cons, List.not_mem_nil, or_false] at hc
    rcases hc with h | h | h | h
    · rw [h]; exact (digit_ne _ (by omega)).2
    · rw [h]; exact (digit_ne _ (by omega)).2
    · rw [h]; decide
    · rw [h]; decide
  | case4 => simp [base64]

theorem base64_length (b : Bytes) : (base64 b).length = (b.length + 2) / 3 * 4 := by
  induction b using base64.induct with
  | case1 x y z r ih => rw [base64]; simp only [List.length_cons, ih]; omega
  | case2 x y => rw [base64]; simp
  | case3 x => rw [base64]; simp
  | case4 => simp [base64]

theorem linesFrom_filter (u : Nat) (l : Bytes) (h : ∀ c ∈ l, c ≠ 10) : (linesFrom u l).filter (· ≠ 10) = l := by
  induction l generalizing u with
  | nil => rw [linesFrom]; split <;> simp
  | cons c r ih =>
    have hc := h c (by simp)
    rw [linesFrom]
    split
    · simp only [List.filter_cons, ne_eq, hc, not_false_eq_true, decide_true, if_true, not_true, decide_false,
        Bool.false_eq_true, if_false]
      have := ih 0 (fun x hx => h x (by simp [hx]))
      rw [show (linesFrom 0 r).filter (fun x => decide (¬ x = 10)) = r from this]
    · simp only [List.filter_cons, ne_eq, hc, not_false_eq_true, decide_true, if_true]
      have := ih (u + 1) (fun x hx => h x (by simp [hx]))
      rw [show (linesFrom (u + 1) r).filter (fun x => decide (¬ x = 10)) = r from this]

theorem linesFrom_chars (u : Nat) (l : Bytes) (h : ∀ c ∈ l, c ≠ 45) : ∀ c ∈ linesFrom u l, c ≠ 45 := by
  induction l generalizing u with
  | nil => rw [linesFrom]; split <;> simp
  | cons c r ih =>
    rw [linesFrom]
    have hc := h c (by simp)
    have hr : ∀ c ∈ r, c ≠ 45 := fun x hx => h x (by simp [hx])
    split
    · intro x hx
      simp only [List.mem_cons] at hx
      rcases hx with rfl | rfl | hx
      · exact hc
      · decide
      · exact ih 0 hr x hx
    · intro x hx
      simp only [List.mem_cons] at hx
      rcases hx with rfl | hx
      · exact hc
      · exact ih _ hr x hx

theorem linesFrom_length (u : Nat) (l l' : Bytes) (h : l.length = l'.length) :
    (linesFrom u l).length = (linesFrom u l').length := by
  induction l generalizing u l' with
  | nil => cases l' with
    | nil => rfl
    | cons => simp at h
  | cons c r ih =>
    cases l' with
    | nil => simp at h
    | cons c' r' =>
      simp only [List.length_cons, Nat.add_right_cancel_iff] at h
      rw [linesFrom, linesFrom]
      split <;> simp [ih _ _ h]

theorem takeWhile_stop {l r : Bytes} {x : Byte} (h : ∀ c ∈ l, c ≠ x) :
    (l ++ x :: r).takeWhile (· ≠ x) = l ∧ (l ++ x :: r).dropWhile (· ≠ x) = x :: r := by
  induction l with
  | nil => simp
  | cons c l ih =>
    have hc := h c (by simp)
    obtain ⟨h1, h2⟩ := ih (fun y hy => h y (by simp [hy]))
    simp only [List.cons_append, List.takeWhile_cons, List.dropWhile_cons, ne_eq, hc, not_false_eq_true, decide_true, if_true]
    exact ⟨congrArg (c :: ·) h1, h2⟩

theorem dropWhile_none {l : Bytes} {x : Byte} (h : ∀ c ∈ l, c ≠ x) : l.dropWhile (· ≠ x) = [] := by
  induction l with
  | nil => rfl
  | cons c l ih =>
    have hc := h c (by simp)
    simp only [List.dropWhile_cons, ne_eq, hc, not_false_eq_true, decide_true, if_true]
    exact ih (fun y hy => h y (by simp [hy]))

theorem endLine_cons (t : Bool) : ∃ r, endLine t = 45 :: r := by cases t <;> exact ⟨_, rfl⟩

/-- A block whose end line may be cut off. -/
theorem readBlock_cut (t : Bool) (b e : Bytes) (he : ∃ k, e = (endLine t ++ [10]).take k) :
    readBlock t (beginLine t ++ linesFrom 0 (base64 b) ++ e) = none ∨
    readBlock t (beginLine t ++ linesFrom 0 (base64 b) ++ e) = some b := by
  obtain ⟨k, rfl⟩ := he
  have hc : ∀ c ∈ linesFrom 0 (base64 b), c ≠ 45 := linesFrom_chars _ _ (fun c hc => (base64_chars b c hc).2)
  have hf : (linesFrom 0 (base64 b)).filter (· ≠ 10) = base64 b :=
    linesFrom_filter _ _ (fun c hc => (base64_chars b c hc).1)
  simp only [readBlock]
  rw [if_pos (by simp [List.append_assoc])]
  have hd : (beginLine t ++ linesFrom 0 (base64 b) ++ (endLine t ++ [10]).take k).drop (beginLine t).length =
      linesFrom 0 (base64 b) ++ (endLine t ++ [10]).take k := by
    rw [List.append_assoc, List.drop_left]
  rw [hd]
  split
  · rename_i h
    obtain ⟨r, hr⟩ := endLine_cons t
    cases k with
    | zero =>
      exfalso
      simp only [List.take_zero, List.append_nil, dropWhile_none hc, hr] at h
      simp [List.isPrefixOf] at h
    | succ k =>
      rw [hr, List.cons_append, List.take_succ_cons, (takeWhile_stop hc).1, hf, unbase64_base64]
      exact Or.inr rfl
  · exact Or.inl rfl

theorem linesFrom_short (u : Nat) (l : Bytes) (h : u + l.length < 64) (hn : 0 < u + l.length) : linesFrom u l = l ++ [10] := by
  induction l generalizing u with
  | nil =>
    simp only [List.length_nil] at hn
    rw [linesFrom, if_neg (by omega), List.nil_append]
  | cons c r ih =>
    simp only [List.length_cons] at h
    rw [linesFrom, if_neg (by omega), ih (u + 1) (by omega) (by omega), List.cons_append]

theorem linesFrom_long (u : Nat) (l : Bytes) (hu : u < 64) (h : 64 ≤ u + l.length) :
    linesFrom u l = l.take (64 - u) ++ 10 :: linesFrom 0 (l.drop (64 - u)) := by
  induction l generalizing u with
  | nil => simp only [List.length_nil] at h; omega
  | cons c r ih =>
    rw [linesFrom]
    by_cases h64 : u + 1 = 64
    · rw [if_pos h64, show 64 - u = 1 by omega]; rfl
    · simp only [List.length_cons] at h
      rw [if_neg h64, ih (u + 1) (by omega) (by omega), show 64 - u = (64 - (u + 1)) + 1 by omega]
      rfl

theorem readBlock_full (t : Bool) (b : Bytes) : readBlock t (pemText t b) = some b := by
  have hc : ∀ c ∈ linesFrom 0 (base64 b), c ≠ 45 := linesFrom_chars _ _ (fun c hc => (base64_chars b c hc).2)
  have hf : (linesFrom 0 (base64 b)).filter (· ≠ 10) = base64 b :=
    linesFrom_filter _ _ (fun c hc => (base64_chars b c hc).1)
  have hp : (beginLine t).isPrefixOf (pemText t b) = true := by
    simp [pemText, List.append_assoc]
  simp only [readBlock]
  rw [if_pos hp]
  have hd : (pemText t b).drop (beginLine t).length = linesFrom 0 (base64 b) ++ (endLine t ++ [10]) := by
    rw [pemText, List.append_assoc, List.append_assoc, List.drop_left]
  obtain ⟨r, hr⟩ := endLine_cons t
  rw [hd]
  have h2 : linesFrom 0 (base64 b) ++ (endLine t ++ [10]) = linesFrom 0 (base64 b) ++ 45 :: (r ++ [10]) := by rw [hr]; rfl
  rw [h2, (takeWhile_stop hc).1, (takeWhile_stop hc).2, hf, unbase64_base64]
  rw [show (45 :: (r ++ [10]) : Bytes) = endLine t ++ [10] by rw [hr]; rfl]
  rw [if_pos]
  exact ⟨by simp, by rw [List.drop_left]; rfl⟩

/-- The lines for the two types differ where both have a character. -/
theorem beginLine_other (t : Bool) : ∃ p x y r r', beginLine t = p ++ x :: r ∧ beginLine (!t) = p ++ y :: r' ∧ x ≠ y := by
  cases t
  · exact ⟨(beginLine true).take 20, _, _, _, _, rfl, rfl, by decide⟩
  · exact ⟨(beginLine true).take 20, _, _, _, _, rfl, rfl, by decide⟩

theorem not_prefix_other (t : Bool) (rest : Bytes) (k : Nat) : (beginLine (!t)).isPrefixOf ((beginLine t ++ rest).take k) = false := by
  obtain ⟨p, x, y, r, r', h1, h2, hxy⟩ := beginLine_other t
  apply Bool.eq_false_iff.mpr
  intro h
  rw [List.isPrefixOf_iff_prefix] at h
  have h3 : beginLine (!t) <+: beginLine t ++ rest := h.trans (List.take_prefix _ _)
  rw [h1, h2, List.append_assoc, List.prefix_append_right_inj] at h3
  simp only [List.cons_append, List.cons_prefix_cons] at h3
  exact hxy h3.1.symm

theorem readBlock_other (t : Bool) (rest : Bytes) (k : Nat) : readBlock (!t) ((beginLine t ++ rest).take k) = none := by
  simp only [readBlock]
  rw [if_neg]
  rw [not_prefix_other]
  simp

theorem pemRead_take (t : Bool) (b : Bytes) (k : Nat) : pemRead ((pemText t b).take k) = readBlock t ((pemText t b).take k) := by
  have := readBlock_other t (linesFrom 0 (base64 b) ++ (endLine t ++ [10])) k
  rw [← List.append_assoc, ← List.append_assoc] at this
  rw [show beginLine t ++ linesFrom 0 (base64 b) ++ endLine t ++ [10] = pemText t b from rfl] at this
  simp only [pemRead]
  cases t
  · simp only [Bool.not_false] at this
    rw [this]
  · simp only [Bool.not_true] at this
    rw [this]
    split <;> simp_all

theorem readBlock_take (t : Bool) (b : Bytes) (k : Nat) :
    readBlock t ((pemText t b).take k) = none ∨ readBlock t ((pemText t b).take k) = some b := by
  by_cases h1 : k < (beginLine t).length
  · left
    simp only [readBlock]
    rw [if_neg]
    intro h
    rw [List.isPrefixOf_iff_prefix] at h
    have := h.length_le
    rw [List.length_take] at this
    omega
  · by_cases h2 : k < (beginLine t ++ linesFrom 0 (base64 b)).length
    · left
      have hc : ∀ c ∈ linesFrom 0 (base64 b), c ≠ 45 := linesFrom_chars _ _ (fun c hc => (base64_chars b c hc).2)
      have hk : (pemText t b).take k = beginLine t ++ (linesFrom 0 (base64 b)).take (k - (beginLine t).length) := by
        rw [pemText, List.append_assoc, List.take_append_of_le_length (by omega), List.take_append,
          List.take_of_length_le (by omega)]
      rw [hk]
      simp only [readBlock, List.drop_left]
      rw [dropWhile_none (fun c h => hc c (List.mem_of_mem_take h))]
      obtain ⟨r, hr⟩ := endLine_cons t
      rw [hr]
      simp [List.isPrefixOf]
    · have hk : (pemText t b).take k = beginLine t ++ linesFrom 0 (base64 b) ++
          (endLine t ++ [10]).take (k - (beginLine t ++ linesFrom 0 (base64 b)).length) := by
        rw [pemText, List.append_assoc, List.take_append, List.take_of_length_le (by omega)]
      rw [hk]
      exact readBlock_cut t b _ ⟨_, rfl⟩

/-- The real file format. -/
def realPem : Pem where
  encode := pemText
  decode := pemRead
  decode_encode t b := by
    have := pemRead_take t b (pemText t b).length
    rw [List.take_length] at this
    rw [this, readBlock_full]
  decode_nil := by decide
  decode_take t b k := by
    rw [pemRead_take]
    exact readBlock_take t b k
  length_encode t b b' h := by
    simp only [pemText, List.length_append]
    rw [linesFrom_length 0 (base64 b) (base64 b') (by rw [base64_length, base64_length, h])]

end Verif.Identity
