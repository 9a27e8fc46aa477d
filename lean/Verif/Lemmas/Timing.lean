import Verif.Lemmas.Packet
import Verif.Model.Timing
/-! # Lemmas about the time a packet takes -/
namespace Verif.Timing
open Verif.Headers Verif.Packet

/-! ## The key stream -/

theorem xorStream_append (ks : Nat → Byte) (i : Nat) (a b : Bytes) :
    xorStream ks i (a ++ b) = xorStream ks i a ++ xorStream ks (i + a.length) b := by
  induction a generalizing i with
  | nil => simp [xorStream]
  | cons x xs ih =>
    simp only [List.cons_append, xorStream, ih, List.length_cons]
    rw [show i + 1 + xs.length = i + (xs.length + 1) by omega]

theorem xorStream_take (ks : Nat → Byte) (i k : Nat) (b : Bytes) :
    (xorStream ks i b).take k = xorStream ks i (b.take k) := by
  induction k generalizing i b with
  | zero => simp [xorStream]
  | succ k ih => cases b with
    | nil => simp [xorStream]
    | cons x xs => simp [xorStream, ih]

theorem xorStream_drop (ks : Nat → Byte) (i k : Nat) (b : Bytes) :
    (xorStream ks i b).drop k = xorStream ks (i + k) (b.drop k) := by
  induction k generalizing i b with
  | zero => simp
  | succ k ih => cases b with
    | nil => simp [xorStream]
    | cons x xs =>
      simp only [xorStream, List.drop_succ_cons, ih]
      rw [show i + 1 + k = i + (k + 1) by omega]

theorem xorStream_zero (i : Nat) (b : Bytes) : xorStream (fun _ => 0) i b = b := by
  induction b generalizing i with
  | nil => rfl
  | cons x xs ih =>
    simp only [xorStream, ih]
    rw [show x ^^^ (0 : Byte) = x from BitVec.xor_zero]

theorem xorStream_eq_iff (ks : Nat → Byte) (i : Nat) (a b : Bytes) :
    a = xorStream ks i b ↔ xorStream ks i a = b := by
  constructor
  · rintro rfl; exact xorStream_invol _ _ _
  · rintro rfl; exact (xorStream_invol _ _ _).symm

/-! ## `bytes.Compare` -/

theorem compareSteps_xor (ks : Nat → Byte) (w n i : Nat) (a b : Bytes) :
    compareSteps w n a (xorStream ks i b) = compareSteps w n (xorStream ks i a) b := by
  induction n generalizing i a b with
  | zero => rfl
  | succ n ih =>
    simp only [compareSteps, xorStream_take, xorStream_drop, ih]
    have : (a.take w = xorStream ks i (b.take w)) = (xorStream ks i (a.take w) = b.take w) :=
      propext (xorStream_eq_iff _ _ _ _)
    simp only [this]

theorem compareSteps_pos (w n : Nat) (a b : Bytes) : 1 ≤ compareSteps w (n + 1) a b := by
  simp only [compareSteps]; split <;> omega

theorem compareSteps_le (w n : Nat) (a b : Bytes) : compareSteps w n a b ≤ n := by
  induction n generalizing a b with
  | zero => simp [compareSteps]
  | succ n ih => simp only [compareSteps]; split
                 · have := ih (a.drop w) (b.drop w); omega
                 · omega

theorem compareSteps_app (w k n : Nat) (p a b : Bytes) (hp : p.length = w * k) :
    compareSteps w (k + n) (p ++ a) (p ++ b) = k + compareSteps w n a b := by
  induction k generalizing p with
  | zero =>
    have : p = [] := List.eq_nil_of_length_eq_zero (by simpa using hp)
    subst this; simp
  | succ k ih =>
    have hw : w ≤ p.length := by rw [hp, Nat.mul_succ]; omega
    rw [show k + 1 + n = (k + n) + 1 by omega]
    simp only [compareSteps]
    rw [List.take_append_of_le_length hw, List.take_append_of_le_length hw, if_pos rfl,
      List.drop_append_of_le_length hw, List.drop_append_of_le_length hw,
      ih _ (by rw [List.length_drop, hp, Nat.mul_succ]; omega)]
    omega

/-! ## Words -/

theorem words_length (w : Nat) : (words w).length = 256 ^ w := by
  induction w with
  | zero => rfl
  | succ w ih =>
    simp only [words, List.length_flatMap, List.length_map, List.length_range, List.map_const',
      List.sum_replicate_nat, ih, Nat.pow_succ]

theorem mem_words (w : Nat) (b : Bytes) (h : b.length = w) : b ∈ words w := by
  induction w generalizing b with
  | zero =>
    have := List.eq_nil_of_length_eq_zero h
    subst this; simp [words]
  | succ w ih =>
    cases b with
    | nil => simp at h
    | cons x xs =>
      simp only [words, List.mem_flatMap, List.mem_map, List.mem_range]
      exact ⟨xs, ih xs (by simpa using h), x.toNat, x.isLt, by simp⟩

theorem words_len (w : Nat) (b : Bytes) (h : b ∈ words w) : b.length = w := by
  induction w generalizing b with
  | zero => simp [words] at h; subst h; rfl
  | succ w ih =>
    simp only [words, List.mem_flatMap, List.mem_map] at h
    obtain ⟨x, hx, c, -, rfl⟩ := h
    simp [ih x hx]

theorem pick_mem (f : Bytes → Nat) (l : List Bytes) (h : l ≠ []) : pick f l ∈ l := by
  induction l with
  | nil => exact absurd rfl h
  | cons x l ih =>
    cases l with
    | nil => simp [pick]
    | cons y l =>
      simp only [pick]
      split
      · simp
      · exact List.mem_cons_of_mem _ (ih (by simp))

theorem pick_le (f : Bytes → Nat) (l : List Bytes) : ∀ x ∈ l, f x ≤ f (pick f l) := by
  induction l with
  | nil => simp
  | cons x l ih =>
    intro z hz
    cases l with
    | nil => simp only [List.mem_singleton] at hz; subst hz; simp [pick]
    | cons y l =>
      simp only [pick]
      rcases List.mem_cons.mp hz with rfl | hz
      · split <;> omega
      · have := ih z hz
        split <;> omega

theorem pick_eq (f : Bytes → Nat) (l : List Bytes) (t : Bytes) (ht : t ∈ l)
    (hm : ∀ c ∈ l, c ≠ t → f c < f t) : pick f l = t := by
  have h1 := pick_mem f l (by intro h; simp [h] at ht)
  have h2 := pick_le f l t ht
  by_cases h : pick f l = t
  · exact h
  · have := hm _ h1 h; omega

/-! ## The search -/

/-- What the search needs to know: `ask` puts the tags in the order of the words that are right, and
the right one behind all others. -/
def score (w n : Nat) (secret t : Bytes) : Nat :=
  compareSteps w n secret t + if t = secret then 1 else 0

theorem search_count (ask : Bytes → Nat) (w n : Nat) (found : Bytes) :
    (search ask w n found).1.length = n * 256 ^ w := by
  induction n generalizing found with
  | zero => simp [search]
  | succ n ih => simp only [search, List.length_append, List.length_map, words_length, ih]
                 rw [Nat.add_mul, Nat.one_mul, Nat.add_comm]

theorem score_app (w k n : Nat) (p a b : Bytes) (hp : p.length = w * k) :
    score w (k + n) (p ++ a) (p ++ b) = k + score w n a b := by
  simp only [score, compareSteps_app w k n p a b hp, List.append_cancel_left_eq]
  omega

theorem score_wrong (w n : Nat) (a b c z : Bytes) (ha : a.length = w) (hb : b.length = w)
    (h : a ≠ b) : score w (n + 1) (a ++ c) (b ++ z) = 1 := by
  have h' : ¬ (b ++ z = a ++ c) := fun e => h (List.append_inj e (by omega)).1.symm
  simp only [score, compareSteps, h', if_false]
  rw [List.take_append_of_le_length (by omega), List.take_append_of_le_length (by omega),
    List.take_of_length_le (by omega), List.take_of_length_le (by omega), if_neg h]

theorem score_right (w n : Nat) (a c z : Bytes) (ha : a.length = w) (hc : c.length = w * n)
    (hz : z.length = w * n) : 2 ≤ score w (n + 1) (a ++ c) (a ++ z) := by
  have := score_app w 1 n a c z (by omega)
  rw [Nat.add_comm] at this
  rw [this]
  cases n with
  | zero =>
    have h1 : c = [] := List.eq_nil_of_length_eq_zero (by simpa using hc)
    have h2 : z = [] := List.eq_nil_of_length_eq_zero (by simpa using hz)
    subst h1; subst h2; simp [score, compareSteps]
  | succ n =>
    have := compareSteps_pos w n c z
    simp only [score]; omega

/-- The search finds the secret. -/
theorem search_finds (ask : Bytes → Nat) (w N : Nat) (secret : Bytes) (hs : secret.length = w * N)
    (hask : ∀ t t', t.length = w * N → t'.length = w * N →
      score w N secret t < score w N secret t' → ask t < ask t')
    (n k : Nat) (hn : k + n = N) (found rest : Bytes) (hf : found.length = w * k)
    (hsec : secret = found ++ rest) :
    (search ask w n found).2 = secret ∧ (0 < n → secret ∈ (search ask w n found).1) := by
  induction n generalizing k found rest with
  | zero =>
    have hr : rest = [] := by
      apply List.eq_nil_of_length_eq_zero
      have := congrArg List.length hsec
      rw [hs, List.length_append, hf, ← hn] at this
      simp at this; exact List.length_eq_zero_iff.mpr this
    subst hr
    exact ⟨by simp [search, hsec], by omega⟩
  | succ n ih =>
    have hrl : rest.length = w + w * n := by
      have := congrArg List.length hsec
      rw [hs, List.length_append, hf, ← hn, Nat.mul_add, Nat.mul_succ] at this
      omega
    have ht : (rest.take w).length = w := by rw [List.length_take]; omega
    have hd : (rest.drop w).length = w * n := by rw [List.length_drop]; omega
    have hsplit : rest = rest.take w ++ rest.drop w := (List.take_append_drop w rest).symm
    have hlen : ∀ c ∈ words w, (found ++ c ++ List.replicate (w * n) 0).length = w * N := by
      intro c hc
      simp only [List.length_append, hf, words_len w c hc, List.length_replicate, ← hn, Nat.mul_add,
        Nat.mul_one]
      omega
    have hbest : pick (fun c => ask (found ++ c ++ List.replicate (w * n) 0)) (words w)
        = rest.take w := by
      apply pick_eq _ _ _ (mem_words w _ ht)
      intro c hc hne
      apply hask _ _ (hlen c hc) (hlen _ (mem_words w _ ht))
      rw [hsec, hsplit, ← hn, List.append_assoc, List.append_assoc, score_app w k _ _ _ _ hf,
        score_app w k _ _ _ _ hf]
      rw [score_wrong w n _ c _ _ ht (words_len w c hc) (Ne.symm hne)]
      have := score_right w n (rest.take w) (rest.drop w) (List.replicate (w * n) 0) ht hd (by simp)
      have e : (rest.take w ++ rest.drop w).take w = rest.take w := by
        rw [← hsplit]
      simp only [e]
      omega
    have := ih (k + 1) (by omega) (found ++ rest.take w) (rest.drop w)
      (by rw [List.length_append, hf, ht, Nat.mul_add]; omega)
      (by rw [List.append_assoc, ← hsplit]; exact hsec)
    simp only [search, hbest]
    refine ⟨this.1, fun _ => ?_⟩
    cases n with
    | zero =>
      apply List.mem_append_left
      rw [List.mem_map]
      refine ⟨rest.take w, mem_words w _ ht, ?_⟩
      have : rest.take w = rest := List.take_of_length_le (by omega)
      rw [hsec, this]; simp
    | succ n => exact List.mem_append_right _ (this.2 (by omega))

end Verif.Timing

namespace Verif.Timing
open Verif.Headers Verif.Packet

/-! ## Packets which differ in the checksum of the messages and in the messages -/

/-- A packet behind its ID. -/
def fam (hc len mc body : Bytes) : Bytes := hc ++ (mc ++ (len ++ body))

/-- The key stream used by `tryDecrypt`, or `none` if the cipher panics. -/
def streamOf (C : Crypto) (key : Option Bytes) (iv : Bytes) : Option (Nat → Byte) :=
  match key with
  | none => some fun _ => 0
  | some k =>
    if k.length = 32 ∧ (iv.length = 8 ∨ iv.length = 12 ∨ iv.length = 24) then some (C.keyStream k iv)
    else none

theorem plainOf_stream (C : Crypto) (key : Option Bytes) (iv enc : Bytes) :
    plainOf C key iv enc = (streamOf C key iv).map fun ks => xorStream ks 0 enc := by
  cases key with
  | none => simp only [plainOf, streamOf, Option.map_some, xorStream_zero]
  | some k => simp only [plainOf, streamOf, crypt]; split <;> simp

/-- The header as `tryDecrypt` reads it. -/
def famHdr (ks : Nat → Byte) (pid hc len mc : Bytes) : ContainerHdr :=
  ⟨pid, xorStream ks 0 hc, xorStream ks 16 mc, BitVec.ofNat 32 (getLE (xorStream ks 32 len))⟩

theorem read_fam (ks : Nat → Byte) (pid hc len mc body : Bytes) (h1 : hc.length = 16)
    (h2 : len.length = 4) (h3 : mc.length = 16) :
    readAfterIV pid (xorStream ks 0 (fam hc len mc body)) = .ok (famHdr ks pid hc len mc, 36) ∧
    (xorStream ks 0 (fam hc len mc body)).drop 36 = xorStream ks 36 body := by
  rw [show famHdr ks pid hc len mc = ⟨pid, xorStream ks 0 hc, xorStream ks 16 mc,
    BitVec.ofNat 32 (getLE (xorStream ks 32 len))⟩ from rfl]
  have l1 := xorStream_length ks 0 hc
  have l2 := xorStream_length ks 16 mc
  have l3 := xorStream_length ks 32 len
  have e : xorStream ks 0 (fam hc len mc body) =
      xorStream ks 0 hc ++ (xorStream ks 16 mc ++ (xorStream ks 32 len ++ xorStream ks 36 body)) := by
    simp only [fam, xorStream_append, h1, h2, h3]
  generalize xorStream ks 0 hc = a at *
  generalize xorStream ks 16 mc = b at *
  generalize xorStream ks 32 len = c at *
  generalize xorStream ks 36 body = d at *
  rw [e]
  have ha : (a ++ (b ++ (c ++ d))).take 16 = a := by
    rw [List.take_append_of_le_length (by omega), List.take_of_length_le (by omega)]
  have d16 : (a ++ (b ++ (c ++ d))).drop 16 = b ++ (c ++ d) := List.drop_left' (by omega)
  have hb : (b ++ (c ++ d)).take 16 = b := by
    rw [List.take_append_of_le_length (by omega), List.take_of_length_le (by omega)]
  have d32 : (a ++ (b ++ (c ++ d))).drop 32 = c ++ d := by
    rw [show (32 : Nat) = 16 + 16 from rfl, ← List.drop_drop, d16]; exact List.drop_left' (by omega)
  have hc' : (c ++ d).take 4 = c := by
    rw [List.take_append_of_le_length (by omega), List.take_of_length_le (by omega)]
  constructor
  · rw [readAfterIV_eq _ _ (by simp only [List.length_append]; omega), ha, d16, hb, d32, hc']
  · rw [show (36 : Nat) = 32 + 4 from rfl, ← List.drop_drop, d32]; exact List.drop_left' (by omega)

/-- `tryDecrypt` on such a packet. -/
theorem try_fam (C : Crypto) (w n : Nat) (key : Option Bytes) (iv pid hc len mc body : Bytes)
    (ks : Nat → Byte) (hks : streamOf C key iv = some ks) (h1 : hc.length = 16)
    (h2 : len.length = 4) (h3 : mc.length = 16) :
    let h := famHdr ks pid hc len mc
    let hsum := headersChecksum C key pid h.length
    let msum := messagesChecksum C key pid (xorStream ks 36 body)
    (tryDecrypt C pid (fam hc len mc body) key iv =
      if hsum ≠ xorStream ks 0 hc then .ok none
      else if msum ≠ xorStream ks 16 mc then .err .invalidChecksum
      else .ok (some (h, xorStream ks 36 body))) ∧
    (tryTrace C w n pid (fam hc len mc body) key iv =
      if hsum ≠ xorStream ks 0 hc then
        [.cipher (40 - 4 + body.length), .mac 4, .compare (compareSteps w n hsum (xorStream ks 0 hc))]
      else [.cipher (40 - 4 + body.length), .mac 4,
        .compare (compareSteps w n hsum (xorStream ks 0 hc)), .mac body.length,
        .compare (compareSteps w n (xorStream ks 16 msum) mc)]) := by
  obtain ⟨r1, r2⟩ := read_fam ks pid hc len mc body h1 h2 h3
  have hl : (fam hc len mc body).length = 40 - 4 + body.length := by
    simp only [fam, List.length_append]; omega
  constructor
  · simp only [tryDecrypt, plainOf_stream, hks, Option.map_some, r1, r2]
    rfl
  · simp only [tryTrace, plainOf_stream, hks, Option.map_some, r1, r2, hl]
    simp only [famHdr, compareSteps_xor ks w n 16, xorStream_length]
    rfl

theorem try_panic (C : Crypto) (key : Option Bytes) (iv pid enc : Bytes)
    (h : streamOf C key iv = none) : tryDecrypt C pid enc key iv = .panic := by
  simp only [tryDecrypt, plainOf_stream, h, Option.map_none]

/-- What the forger relies on: there is a key stream and a tag such that the receiver accepts exactly
this tag, and otherwise its work grows with the number of right words. -/
def Leaks (w n : Nat) (ks : Nat → Byte) (body tag : Bytes) (pre : List Op) (hdr : Bytes → ContainerHdr)
    (dec : Bytes → Outcome DecryptErr (Option (ContainerHdr × Bytes))) (tr : Bytes → List Op) : Prop :=
  ∀ mc : Bytes, mc.length = 16 →
    dec mc = (if mc = tag then .ok (some (hdr mc, xorStream ks 36 body)) else .err .invalidChecksum) ∧
    tr mc = pre ++ [.compare (compareSteps w n tag mc)]

/-- If one packet of the family is accepted with a key, all the others leak. -/
theorem try_leaks (C : Crypto) (w n : Nat) (key : Option Bytes) (iv pid hc len mc0 body0 body : Bytes)
    (h1 : hc.length = 16) (h2 : len.length = 4) (h3 : mc0.length = 16) (r0 : ContainerHdr × Bytes)
    (h0 : tryDecrypt C pid (fam hc len mc0 body0) key iv = .ok (some r0)) :
    ∃ ks tag pre, tag.length = 16 ∧ r0 = (famHdr ks pid hc len mc0, xorStream ks 36 body0) ∧
      Leaks w n ks body tag pre (famHdr ks pid hc len)
        (fun mc => tryDecrypt C pid (fam hc len mc body) key iv)
        (fun mc => tryTrace C w n pid (fam hc len mc body) key iv) := by
  cases hks : streamOf C key iv with
  | none => rw [try_panic C key iv pid _ hks] at h0; cases h0
  | some ks =>
    have a := (try_fam C w n key iv pid hc len mc0 body0 ks hks h1 h2 h3).1
    rw [h0] at a
    have hh : headersChecksum C key pid (famHdr ks pid hc len mc0).length = xorStream ks 0 hc := by
      by_cases h : headersChecksum C key pid (famHdr ks pid hc len mc0).length = xorStream ks 0 hc
      · exact h
      · rw [if_pos h] at a; cases a
    rw [if_neg (not_not_intro hh)] at a
    have hr : r0 = (famHdr ks pid hc len mc0, xorStream ks 36 body0) := by
      split at a
      · cases a
      · simpa using a
    refine ⟨ks, xorStream ks 16 (messagesChecksum C key pid (xorStream ks 36 body)),
      [.cipher (40 - 4 + body.length), .mac 4, .compare (compareSteps w n
        (headersChecksum C key pid (famHdr ks pid hc len mc0).length) (xorStream ks 0 hc)),
        .mac body.length], ?_, hr, ?_⟩
    · rw [xorStream_length]; exact C.poly_length _ _
    · intro mc hmc
      have b := try_fam C w n key iv pid hc len mc body ks hks h1 h2 hmc
      dsimp only at b
      have hh' : headersChecksum C key pid (famHdr ks pid hc len mc).length = xorStream ks 0 hc := hh
      rw [if_neg (not_not_intro hh'), if_neg (not_not_intro hh')] at b
      refine ⟨?_, b.2.trans rfl⟩
      dsimp only
      rw [b.1]
      have e : (messagesChecksum C key pid (xorStream ks 36 body) = xorStream ks 16 mc) ↔
          mc = xorStream ks 16 (messagesChecksum C key pid (xorStream ks 36 body)) :=
        (xorStream_eq_iff _ _ _ _).trans ⟨Eq.symm, Eq.symm⟩
      by_cases h : messagesChecksum C key pid (xorStream ks 36 body) = xorStream ks 16 mc
      · rw [if_neg (not_not_intro h), if_pos (e.mp h)]
      · rw [if_pos h, if_neg (fun h' => h (e.mpr h'))]

/-- A key for which one packet of the family has a wrong header fails for all of them, and takes the
same time for all of the same length. -/
theorem try_none (C : Crypto) (w n : Nat) (key : Option Bytes) (iv pid hc len mc0 body0 body : Bytes)
    (h1 : hc.length = 16) (h2 : len.length = 4) (h3 : mc0.length = 16)
    (h0 : tryDecrypt C pid (fam hc len mc0 body0) key iv = .ok none) :
    ∃ pre, ∀ mc : Bytes, mc.length = 16 → tryDecrypt C pid (fam hc len mc body) key iv = .ok none ∧
      tryTrace C w n pid (fam hc len mc body) key iv = pre := by
  cases hks : streamOf C key iv with
  | none => rw [try_panic C key iv pid _ hks] at h0; cases h0
  | some ks =>
    have a := (try_fam C w n key iv pid hc len mc0 body0 ks hks h1 h2 h3).1
    rw [h0] at a
    have hh : headersChecksum C key pid (famHdr ks pid hc len mc0).length ≠ xorStream ks 0 hc := by
      intro h
      rw [if_neg (not_not_intro h)] at a
      split at a <;> cases a
    refine ⟨[.cipher (40 - 4 + body.length), .mac 4, .compare (compareSteps w n
      (headersChecksum C key pid (famHdr ks pid hc len mc0).length) (xorStream ks 0 hc))],
      fun mc hmc => ?_⟩
    · have b := try_fam C w n key iv pid hc len mc body ks hks h1 h2 hmc
      dsimp only at b
      have hh' : headersChecksum C key pid (famHdr ks pid hc len mc).length ≠ xorStream ks 0 hc := hh
      rw [if_pos hh', if_pos hh'] at b
      exact b

/-- The same for the loop over the keys. -/
theorem keys_leak (C : Crypto) (w n : Nat) (iv pid hc len mc0 body0 body : Bytes)
    (h1 : hc.length = 16) (h2 : len.length = 4) (h3 : mc0.length = 16) (keys : List (Option Bytes)) :
    (∀ r0, tryKeys C pid (fam hc len mc0 body0) iv keys = .ok (some r0) →
      ∃ ks tag pre, tag.length = 16 ∧ r0 = (famHdr ks pid hc len mc0, xorStream ks 36 body0) ∧
        Leaks w n ks body tag pre (famHdr ks pid hc len)
          (fun mc => tryKeys C pid (fam hc len mc body) iv keys)
          (fun mc => tryKeysTrace C w n pid (fam hc len mc body) iv keys)) ∧
    (tryKeys C pid (fam hc len mc0 body0) iv keys = .ok none →
      ∃ pre, ∀ mc : Bytes, mc.length = 16 → tryKeys C pid (fam hc len mc body) iv keys = .ok none ∧
        tryKeysTrace C w n pid (fam hc len mc body) iv keys = pre) := by
  induction keys with
  | nil => exact ⟨fun r0 h => by simp [tryKeys] at h, fun _ => ⟨[], fun _ _ => ⟨rfl, rfl⟩⟩⟩
  | cons k keys ih =>
    cases k with
    | none => exact ih
    | some k =>
      simp only [tryKeys, tryKeysTrace]
      cases hd : tryDecrypt C pid (fam hc len mc0 body0) (some k) iv with
      | ok o =>
        cases o with
        | none =>
          obtain ⟨pre, hp⟩ := try_none C w n (some k) iv pid hc len mc0 body0 body h1 h2 h3 hd
          refine ⟨fun r0 h => ?_, fun h => ?_⟩
          · obtain ⟨ks, tag, pre', ht, hr, hl⟩ := ih.1 r0 h
            refine ⟨ks, tag, pre ++ pre', ht, hr, fun mc hmc => ?_⟩
            have a := hp mc hmc
            have b := hl mc hmc
            simp only [a.1, a.2]
            dsimp only at b
            exact ⟨b.1, by rw [b.2, List.append_assoc]⟩
          · obtain ⟨pre', hl⟩ := ih.2 h
            refine ⟨pre ++ pre', fun mc hmc => ?_⟩
            have a := hp mc hmc
            have b := hl mc hmc
            simp only [a.1, a.2]
            exact ⟨b.1, by rw [b.2]⟩
        | some r =>
          refine ⟨fun r0 h => ?_, fun h => by cases h⟩
          have : r = r0 := by simpa using h
          subst this
          obtain ⟨ks, tag, pre, ht, hr, hl⟩ :=
            try_leaks C w n (some k) iv pid hc len mc0 body0 body h1 h2 h3 r hd
          refine ⟨ks, tag, pre, ht, hr, fun mc hmc => ?_⟩
          have a := hl mc hmc
          dsimp only at a
          dsimp only
          rw [a.1, a.2]
          by_cases ht : mc = tag
          · simp only [if_pos ht]; exact ⟨trivial, trivial⟩
          · simp only [if_neg ht]; exact ⟨trivial, trivial⟩
      | err e => exact ⟨fun r0 h => (by cases h), fun h => (by cases h)⟩
      | panic => exact ⟨fun r0 h => (by cases h), fun h => (by cases h)⟩
      | block => exact ⟨fun r0 h => (by cases h), fun h => (by cases h)⟩

/-- The same for `decrypt`: `front` is the part of the packet before the checksum of the messages,
`len` the length field behind it. -/
theorem decrypt_leaks (C : Crypto) (w n : Nat) (aux : Option Bytes) (keys : List (Option Bytes))
    (remote : Option SessID) (front len mc0 body0 body : Bytes) (h1 : front.length = 24)
    (h2 : len.length = 4) (h3 : mc0.length = 16) (r0 : ContainerHdr × Bytes)
    (h0 : decrypt C aux keys remote (front ++ (mc0 ++ (len ++ body0))) = .ok r0) :
    ∃ ks tag pre, ∃ hdr : Bytes → ContainerHdr, tag.length = 16 ∧ r0.2 = xorStream ks 36 body0 ∧
      r0.1 = hdr mc0 ∧ (∀ mc, (hdr mc).packetID = r0.1.packetID) ∧
      ∀ mc : Bytes, mc.length = 16 →
        decrypt C aux keys remote (front ++ (mc ++ (len ++ body))) =
          (if mc = tag then .ok (hdr mc, xorStream ks 36 body) else .err .invalidChecksum) ∧
        decryptTrace C w n aux keys remote (front ++ (mc ++ (len ++ body))) =
          pre ++ .compare (compareSteps w n tag mc) :: (if mc = tag then [.deliver] else []) := by
  have hlen : ∀ mc b : Bytes, mc.length = 16 →
      ¬ (front ++ (mc ++ (len ++ b))).length < containerHeadersSize := by
    intro mc b h; simp only [List.length_append, containerHeadersSize]; omega
  have hpid : ∀ mc b : Bytes, (front ++ (mc ++ (len ++ b))).take 8 = front.take 8 := by
    intro mc b; exact List.take_append_of_le_length (by omega)
  have henc : ∀ mc b : Bytes, (front ++ (mc ++ (len ++ b))).drop 8 = fam (front.drop 8) len mc b := by
    intro mc b; exact List.drop_append_of_le_length (by omega)
  have hhc : (front.drop 8).length = 16 := by rw [List.length_drop]; omega
  simp only [decrypt, if_neg (hlen _ _ h3), hpid, henc] at h0
  cases hp : decryptPacketID C aux (front.take 8) with
  | none => rw [hp] at h0; cases h0
  | some pid =>
    rw [hp] at h0
    dsimp only at h0
    have key := keys_leak C w n (remoteIV remote pid) pid (front.drop 8) len mc0 body0 body hhc h2 h3 keys
    cases ht : tryKeys C pid (fam (front.drop 8) len mc0 body0) (remoteIV remote pid) keys with
    | err e => rw [ht] at h0; cases h0
    | panic => rw [ht] at h0; cases h0
    | block => rw [ht] at h0; cases h0
    | ok o =>
      cases o with
      | some r =>
        rw [ht] at h0
        have : r = r0 := by simpa using h0
        subst this
        obtain ⟨ks, tag, pre, htag, hr, hl⟩ := key.1 r ht
        refine ⟨ks, tag, .cipher 8 :: pre, famHdr ks pid (front.drop 8) len, htag, by rw [hr],
          by rw [hr], fun mc => by rw [hr]; rfl, fun mc hmc => ?_⟩
        have a := hl mc hmc
        dsimp only at a
        simp only [decryptTrace, decrypt, if_neg (hlen _ _ hmc), hpid, henc, hp, a.1, a.2]
        by_cases ht : mc = tag
        · simp [if_pos ht]
        · simp [if_neg ht]
      | none =>
        rw [ht] at h0
        dsimp only at h0
        obtain ⟨pre', hp'⟩ := key.2 ht
        cases hd : tryDecrypt C pid (fam (front.drop 8) len mc0 body0) aux pid with
        | err e => rw [hd] at h0; cases h0
        | panic => rw [hd] at h0; cases h0
        | block => rw [hd] at h0; cases h0
        | ok o =>
          cases o with
          | none => rw [hd] at h0; cases h0
          | some r =>
            rw [hd] at h0
            have : r = r0 := by simpa using h0
            subst this
            obtain ⟨ks, tag, pre, htag, hr, hl⟩ :=
              try_leaks C w n aux pid pid (front.drop 8) len mc0 body0 body hhc h2 h3 r hd
            refine ⟨ks, tag, .cipher 8 :: (pre' ++ pre), famHdr ks pid (front.drop 8) len, htag,
              by rw [hr], by rw [hr], fun mc => by rw [hr]; rfl, fun mc hmc => ?_⟩
            have a := hl mc hmc
            have b := hp' mc hmc
            dsimp only at a
            simp only [decryptTrace, decrypt, if_neg (hlen _ _ hmc), hpid, henc, hp, a.1, a.2, b.1, b.2]
            by_cases ht : mc = tag
            · simp [if_pos ht]
            · simp [if_neg ht]

end Verif.Timing
