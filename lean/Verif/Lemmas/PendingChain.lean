import Verif.Model.PendingChain
import Verif.Spec.Reassembly
import Verif.Spec.ReassemblyRun
/-! Helper lemmas: bit table of a pending chain = set of byte positions. -/
namespace Verif.PendingChain
open Verif.Spec

/-- Byte position `k` is marked. -/
def mk (l : List W64) (k : Nat) : Bool := (l.getD (k / 64) 0).getLsbD (63 - k % 64)

/-- Number of marked bits. -/
def total (l : List W64) : Nat := (l.map onesCount).sum

theorem countP_add {α} (l : List α) (p q r : α → Bool)
    (h : ∀ i ∈ l, (p i).toNat = (q i).toNat + (r i).toNat) :
    l.countP p = l.countP q + l.countP r := by
  induction l with
  | nil => rfl
  | cons a l ih =>
    have h1 := h a (by simp)
    have h2 := ih fun i hi => h i (by simp [hi])
    simp only [List.countP_cons, h2]
    cases hp : p a <;> cases hq : q a <;> cases hr : r a <;> simp [hp, hq, hr] at h1 ⊢ <;> omega

theorem isSetSet_count (o a : W64) :
    onesCount (isSetSet o a).1 = onesCount o + (isSetSet o a).2 := by
  unfold isSetSet onesCount
  apply countP_add
  intro i _
  simp only [BitVec.getLsbD_or, BitVec.getLsbD_xor]
  cases o.getLsbD i <;> cases a.getLsbD i <;> rfl

theorem isSetSet_bit (o a : W64) (i : Nat) :
    (isSetSet o a).1.getLsbD i = (o.getLsbD i || a.getLsbD i) := by
  simp [isSetSet]

theorem total_set (l : List W64) (i : Nat) (v : W64) (h : l[i]? = some v) (v' : W64) (n : Nat)
    (hn : onesCount v' = onesCount v + n) : total (l.set i v') = total l + n := by
  induction l generalizing i with
  | nil => simp at h
  | cons a l ih =>
    cases i with
    | zero => simp at h; subst h; simp [total, hn]; omega
    | succ i =>
      simp at h
      have := ih i h
      simp only [total, List.set_cons_succ, List.map_cons, List.sum_cons] at this ⊢
      omega

theorem mk_set (l : List W64) (i : Nat) (v : W64) (h : l[i]? = some v) (v' : W64) (k : Nat) :
    mk (l.set i v') k = if k / 64 = i then v'.getLsbD (63 - k % 64) else mk l k := by
  have hlt : i < l.length := by
    rcases Nat.lt_or_ge i l.length with h' | h'
    · exact h'
    · rw [List.getElem?_eq_none h'] at h; simp at h
  unfold mk
  simp only [List.getD_eq_getElem?_getD, List.getElem?_set]
  by_cases he : i = k / 64
  · subst he; simp [hlt]
  · have he' : ¬ k / 64 = i := fun h => he h.symm
    simp [he, he']

theorem mk_of_get (l : List W64) (i : Nat) (v : W64) (h : l[i]? = some v) (k : Nat)
    (hk : k / 64 = i) : mk l k = v.getLsbD (63 - k % 64) := by
  unfold mk; rw [List.getD_eq_getElem?_getD, hk, h]; rfl

theorem ones_bit (i : Nat) (h : i < 64) : (0xffffffffffffffff : W64).getLsbD i = true := by
  have : ∀ j : Fin 64, (0xffffffffffffffff : W64).getLsbD j.val = true := by decide +kernel
  exact this ⟨i, h⟩

theorem markWords_spec (n : Nat) (l : List W64) (i : Nat) (h : i + n ≤ l.length) :
    ∃ l' m, markWords l i n = some (l', m) ∧ l'.length = l.length ∧ total l' = total l + m ∧
      ∀ k, mk l' k = (mk l k || (decide (64 * i ≤ k) && decide (k < 64 * (i + n)))) := by
  induction n generalizing l i with
  | zero =>
    refine ⟨l, 0, rfl, rfl, rfl, fun k => ?_⟩
    have : ¬ (64 * i ≤ k ∧ k < 64 * (i + 0)) := by omega
    simp at this ⊢; omega
  | succ n ih =>
    have hlt : i < l.length := by omega
    have hget : l[i]? = some l[i] := List.getElem?_eq_getElem hlt
    obtain ⟨l', m, hm, hlen, htot, hmk⟩ :=
      ih (l.set i (isSetSet l[i] 0xffffffffffffffff).1) (i + 1) (by simp; omega)
    refine ⟨l', (isSetSet l[i] 0xffffffffffffffff).2 + m, ?_, by simpa using hlen, ?_, ?_⟩
    · simp only [markWords, hget, hm, Option.map_some]
    · rw [htot, total_set l i _ hget _ _ (isSetSet_count _ _)]; omega
    · intro k
      rw [hmk, mk_set l i _ hget]
      by_cases hk : k / 64 = i
      · rw [if_pos hk, isSetSet_bit, ones_bit _ (by omega), mk_of_get l i _ hget k hk]
        have h1 : 64 * i ≤ k := by omega
        have h2 : k < 64 * (i + (n + 1)) := by omega
        simp [h1, h2]
      · rw [if_neg hk]
        congr 1
        rw [← Bool.decide_and, ← Bool.decide_and]
        apply decide_eq_decide.mpr
        omega

theorem leading_bit (v j : Nat) (hv : v < 64) (hj : j < 64) :
    (setLeadingOnes64 v).getLsbD (63 - j) = decide (j < v) := by
  have : ∀ v j : Fin 64, (setLeadingOnes64 v.val).getLsbD (63 - j.val) = decide (j.val < v.val) := by
    decide +kernel
  exact this ⟨v, hv⟩ ⟨j, hj⟩

theorem markTail_spec (l : List W64) (e : Nat) (h : e ≤ 64 * l.length) :
    ∃ l' m, markTail l (e / 64) e = some (l', m) ∧ l'.length = l.length ∧ total l' = total l + m ∧
      ∀ k, mk l' k = (mk l k || (decide (64 * (e / 64) ≤ k) && decide (k < e))) := by
  unfold markTail
  by_cases he : e - e % 64 < e
  · have hlt : e / 64 < l.length := by omega
    have hget : l[e / 64]? = some l[e / 64] := List.getElem?_eq_getElem hlt
    simp only [he, if_true, hget]
    refine ⟨_, _, rfl, by simp, total_set l _ _ hget _ _ (isSetSet_count _ _), ?_⟩
    intro k
    rw [mk_set l _ _ hget]
    by_cases hk : k / 64 = e / 64
    · rw [if_pos hk, isSetSet_bit, mk_of_get l _ _ hget k hk,
        leading_bit _ _ (by omega) (by omega), ← Bool.decide_and]
      congr 1
      apply decide_eq_decide.mpr
      omega
    · rw [if_neg hk, ← Bool.decide_and]
      have : ¬ (64 * (e / 64) ≤ k ∧ k < e) := by omega
      simp [this]
  · simp only [he, if_false]
    refine ⟨_, _, rfl, rfl, rfl, fun k => ?_⟩
    have : ¬ (64 * (e / 64) ≤ k ∧ k < e) := by omega
    rw [← Bool.decide_and]; simp [this]

theorem onesCount_rev (v : W64) :
    onesCount v = (List.range 64).countP fun j => v.getLsbD (63 - j) := by
  unfold onesCount
  have h : (List.range 64).map (63 - ·) = (List.range 64).reverse := by decide
  have h2 : (List.range 64).countP (fun j => v.getLsbD (63 - j)) =
      ((List.range 64).map (63 - ·)).countP (fun i => v.getLsbD i) := by
    rw [List.countP_map]; rfl
  rw [h2, h, List.countP_reverse]

theorem total_eq (l : List W64) : total l = (List.range (64 * l.length)).countP (mk l) := by
  induction l with
  | nil => rfl
  | cons v l ih =>
    have hl : 64 * (v :: l).length = 64 + 64 * l.length := by simp; omega
    rw [hl, List.range_add, List.countP_append, List.countP_map]
    have h1 : (List.range 64).countP (mk (v :: l)) = onesCount v := by
      rw [onesCount_rev]
      apply List.countP_congr
      intro k hk
      have : k < 64 := by simpa using hk
      unfold mk
      rw [show k / 64 = 0 by omega, show k % 64 = k by omega]; simp
    have h2 : (mk (v :: l) ∘ fun x => 64 + x) = mk l := by
      funext k
      show mk (v :: l) (64 + k) = mk l k
      unfold mk
      rw [show (64 + k) / 64 = k / 64 + 1 by omega, show (64 + k) % 64 = k % 64 by omega]; simp
    rw [h1, h2, ← ih]; simp [total]

/-- Invariant of a chain in use. -/
structure WF (c : Chain) : Prop where
  slot : SlotOK c
  fits : c.expected ≤ c.data.length
  rcv : c.received = total c.isSet
  only : ∀ k, mk c.isSet k = true → k < c.expected

theorem countP_eq_length_filter_le (n m : Nat) (p : Nat → Bool) (h : ∀ k, p k = true → k < m)
    (hmn : m ≤ n) : (List.range n).countP p = (List.range m).countP p := by
  obtain ⟨d, rfl⟩ := Nat.exists_eq_add_of_le hmn
  rw [List.range_add, List.countP_append, List.countP_map]
  have : (List.range d).countP (p ∘ (m + ·)) = 0 := by
    rw [List.countP_eq_zero]
    intro k _ hp
    have : m + k < m := h _ hp
    omega
  omega

/-- `Received ≥ Expected` exactly when every byte position is marked. -/
theorem complete_iff (c : Chain) (h : WF c) :
    c.received ≥ c.expected ↔ (List.range c.expected).all (mk c.isSet) = true := by
  rw [h.rcv, total_eq, countP_eq_length_filter_le _ c.expected _ h.only
    (by have := h.slot.isSetLen; have := h.fits; omega)]
  rw [List.all_eq_true]
  have := @List.countP_le_length _ (mk c.isSet) (List.range c.expected)
  have h2 := @List.countP_eq_length _ (List.range c.expected) (mk c.isSet)
  rw [List.length_range] at this h2
  constructor
  · intro hge; exact h2.mp (by omega)
  · intro hall; have := h2.mpr hall; omega

theorem copyAt_length (d : Bytes) (p : Nat) (b : Bytes) (h : p + b.length ≤ d.length) :
    (copyAt d p b).length = d.length := by
  unfold copyAt
  have : b.take (d.length - p) = b := List.take_of_length_le (by omega)
  simp only [this, List.length_append, List.length_take, List.length_drop]; omega

theorem copyAt_get (d : Bytes) (p : Nat) (b : Bytes) (h : p + b.length ≤ d.length) (k : Nat) :
    (copyAt d p b).getD k 0 =
      if p ≤ k ∧ k < p + b.length then b.getD (k - p) 0 else d.getD k 0 := by
  unfold copyAt
  have hb : b.take (d.length - p) = b := List.take_of_length_le (by omega)
  simp only [hb, List.getD_eq_getElem?_getD, List.append_assoc]
  by_cases h1 : k < p
  · rw [List.getElem?_append_left (by simp; omega), List.getElem?_take, if_pos h1, if_neg (by omega)]
  · have hl : (d.take p).length = p := by simp; omega
    rw [List.getElem?_append_right (by omega), hl]
    by_cases h2 : k < p + b.length
    · rw [if_pos (by omega), List.getElem?_append_left (by omega)]
    · rw [if_neg (by omega), List.getElem?_append_right (by omega), List.getElem?_drop]
      congr 2; omega

/-- Exact effect of `Merge` on a well-formed incomplete chain and an in-range fragment. -/
theorem merge_spec (c : Chain) (h : WF c) (hexp : c.expected < 2 ^ 64)
    (hinc : ¬ c.received ≥ c.expected) (s : Nat) (b : Bytes) (hs : s + b.length ≤ c.expected) :
    ∃ c', WF c' ∧ c'.expected = c.expected ∧ c'.data = copyAt c.data s b ∧
      (∀ k, mk c'.isSet k =
        (mk c.isSet k || (decide (blockStart s ≤ k) && decide (k < s + b.length)))) ∧
      merge c s b = .ok (c', if c'.received ≥ c'.expected then some c'.data else none) := by
  have hlen := h.slot.isSetLen
  have hfit := h.fits
  obtain ⟨l1, n1, hm1, hl1, ht1, hk1⟩ :=
    markWords_spec ((s + b.length) / 64 - s / 64) c.isSet (s / 64) (by omega)
  obtain ⟨l2, n2, hm2, hl2, ht2, hk2⟩ := markTail_spec l1 (s + b.length) (by omega)
  have hmk : ∀ k, mk l2 k =
      (mk c.isSet k || (decide (blockStart s ≤ k) && decide (k < s + b.length))) := by
    intro k
    rw [hk2, hk1, Bool.or_assoc]
    congr 1
    rw [← Bool.decide_and, ← Bool.decide_and, ← Bool.decide_and, ← Bool.decide_or]
    apply decide_eq_decide.mpr
    unfold blockStart
    omega
  refine ⟨{ c with data := copyAt c.data s b, isSet := l2, received := c.received + (n1 + n2) },
    ⟨⟨?_⟩, ?_, ?_, ?_⟩, rfl, rfl, hmk, ?_⟩
  · simp only [copyAt_length c.data s b (by omega)]; omega
  · simp only [copyAt_length c.data s b (by omega)]; omega
  · simp only [h.rcv]; omega
  · intro k hk
    simp only at hk ⊢
    rw [hmk, Bool.or_eq_true, Bool.and_eq_true, decide_eq_true_eq, decide_eq_true_eq] at hk
    rcases hk with hk | hk
    · exact h.only k hk
    · omega
  · unfold merge
    have e1 : (b.length + s) % 2 ^ 64 = s + b.length := by omega
    have e2 : (s + b.length) % 2 ^ 64 = s + b.length := by omega
    have e3 : max (s / 64) ((s + b.length) / 64) = (s + b.length) / 64 := by omega
    rw [if_neg hinc]
    simp only [e1, e2, e3]
    rw [if_neg (by omega), if_neg (by omega)]
    simp only [hm1, hm2]
    split <;> rfl

theorem ext_getD (a b : Bytes) (hl : a.length = b.length) (h : ∀ k, a.getD k 0 = b.getD k 0) :
    a = b := by
  apply List.ext_getElem hl
  intro i h1 h2
  have := h i
  simpa [List.getD_eq_getElem?_getD, h1, h2] using this

theorem mixed_getD (m old : Bytes) (fs : List Frag) (k : Nat) :
    (mixed m old fs).getD k 0 = if k < max m.length old.length then
      (if hasByte fs k then m.getD k 0 else old.getD k 0) else 0 := by
  unfold mixed
  rw [List.getD_eq_getElem?_getD, List.getElem?_map]
  by_cases h : k < max m.length old.length
  · rw [List.getElem?_range h, if_pos h]; rfl
  · rw [List.getElem?_eq_none (by simpa using h), if_neg h]; rfl

theorem mixed_length (m old : Bytes) (fs : List Frag) :
    (mixed m old fs).length = max m.length old.length := by simp [mixed]

theorem mixed_nil (m old : Bytes) (h : m.length ≤ old.length) : mixed m old [] = old := by
  apply ext_getD
  · rw [mixed_length]; omega
  · intro k
    rw [mixed_getD]
    split
    · simp [hasByte]
    · rw [List.getD_eq_getElem?_getD, List.getElem?_eq_none (by omega)]; rfl

theorem copyAt_mixed (m old : Bytes) (fs : List Frag) (f : Frag) (hf : IsPiece m f) :
    copyAt (mixed m old fs) f.1 f.2 = mixed m old (fs ++ [f]) := by
  obtain ⟨h1, h2⟩ := hf
  have hb : f.1 + f.2.length ≤ (mixed m old fs).length := by rw [mixed_length]; omega
  apply ext_getD
  · rw [copyAt_length _ _ _ hb, mixed_length, mixed_length]
  · intro k
    rw [copyAt_get _ _ _ hb, mixed_getD, mixed_getD]
    have hbyte : hasByte (fs ++ [f]) k =
        (hasByte fs k || decide (f.1 ≤ k ∧ k < f.1 + f.2.length)) := by
      simp [hasByte, Bool.decide_and]
    rw [hbyte]
    by_cases hk : f.1 ≤ k ∧ k < f.1 + f.2.length
    · rw [if_pos hk, if_pos (by omega), if_pos (by simp [hk])]
      rw [h2]
      simp only [List.getD_eq_getElem?_getD, List.getElem?_take, List.getElem?_drop]
      rw [if_pos (by omega)]
      congr 2; omega
    · rw [if_neg hk]
      simp only [hk, decide_false, Bool.or_false]

theorem init_wf (c : Chain) (h : SlotOK c) (n : Nat) : WF (init c n) ∧ (init c n).expected = n ∧
    (∀ k, mk (init c n).isSet k = false) ∧
    (init c n).data = (if c.data.length ≥ n then c.data else List.replicate n 0) ∧
    (init c n).received = 0 := by
  have hz : ∀ (m k : Nat), mk (List.replicate m 0) k = false := by
    intro m k
    unfold mk
    rw [List.getD_eq_getElem?_getD, List.getElem?_replicate]
    split <;> simp
  have hmap : c.isSet.map (fun _ => (0 : W64)) = List.replicate c.isSet.length 0 := by
    rw [List.map_const']
  have htz : ∀ m, total (List.replicate m 0) = 0 := by
    intro m
    rw [total_eq, List.countP_eq_zero]
    intro k _; rw [hz]; simp
  have hl := h.isSetLen
  unfold init reset
  simp only [hmap]
  split
  · next hge =>
    refine ⟨⟨⟨?_⟩, hge, ?_, ?_⟩, rfl, hz _, rfl, rfl⟩
    · simpa using hl
    · exact (htz _).symm
    · intro k hk; rw [show mk _ k = false from hz _ k] at hk; cases hk
  · refine ⟨⟨⟨?_⟩, ?_, ?_, ?_⟩, rfl, hz _, rfl, rfl⟩
    · simp
    · simp
    · exact (htz _).symm
    · intro k hk; rw [show mk _ k = false from hz _ k] at hk; cases hk

/-- The chain `c` has received exactly the pieces `seen` of `m` and is not complete. -/
structure St (m old : Bytes) (c : Chain) (seen : List Frag) : Prop where
  wf : WF c
  exp : c.expected = m.length
  data : c.data = mixed m old seen
  bits : ∀ k, mk c.isSet k = countsByte seen k

theorem st_complete {m old : Bytes} {c : Chain} {seen : List Frag} (h : St m old c seen) :
    c.received ≥ c.expected ↔ countsAll seen m.length = true := by
  rw [complete_iff c h.wf, h.exp]
  unfold countsAll
  rw [show mk c.isSet = countsByte seen from funext h.bits]

theorem feed_exact (m old : Bytes) (hm : m.length < 2 ^ 64) (fs : List Frag)
    (hf : ∀ f ∈ fs, IsPiece m f) (c : Chain) (seen : List Frag) (h : St m old c seen) :
    feed c fs = results m old seen fs := by
  induction fs generalizing c seen with
  | nil => rfl
  | cons f fs ih =>
    have hf0 := hf f (by simp)
    have hf1 : ∀ g ∈ fs, IsPiece m g := fun g hg => hf g (by simp [hg])
    by_cases hc : countsAll seen m.length = true
    · have hr := (st_complete h).mpr hc
      simp only [feed, results, hc, if_true]
      have : merge c f.1 f.2 = .err .duplicate := by unfold merge; rw [if_pos hr]
      rw [this]
      simp only [ih hf1 c seen h]
    · have hr : ¬ c.received ≥ c.expected := fun hh => hc ((st_complete h).mp hh)
      obtain ⟨c', hwf, he, hd, hk, hmg⟩ :=
        merge_spec c h.wf (by rw [h.exp]; exact hm) hr f.1 f.2 (by rw [h.exp]; exact hf0.1)
      have h' : St m old c' (seen ++ [f]) := by
        refine ⟨hwf, by rw [he, h.exp], by rw [hd, h.data, copyAt_mixed m old seen f hf0], ?_⟩
        intro k
        rw [hk, h.bits]
        simp [countsByte]
      simp only [feed, hmg, results, hc, if_false, ih hf1 c' _ h']
      by_cases hc' : countsAll (seen ++ [f]) m.length = true
      · rw [if_pos ((st_complete h').mpr hc'), if_pos hc', h'.data]; rfl
      · rw [if_neg (fun hh => hc' ((st_complete h').mp hh)), if_neg hc']; rfl

/-- Bytes in a slot before the first fragment of a message of length `n`. -/
theorem init_st (c : Chain) (h : SlotOK c) (m : Bytes) :
    St m (if c.data.length ≥ m.length then c.data else List.replicate m.length 0)
      (init c m.length) [] := by
  obtain ⟨h1, h2, h3, h4, h5⟩ := init_wf c h m.length
  refine ⟨h1, h2, ?_, ?_⟩
  · rw [h4, mixed_nil]
    split
    · assumption
    · simp
  · intro k; rw [h3]; rfl

end Verif.PendingChain
