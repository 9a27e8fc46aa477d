import Verif.Model.SessionID
import Verif.Lemmas.Headers
/-!
# C43: session IDs are unique and increasing; C74: they survive encoding
-/
namespace Verif.SessionID

theorem readClock_ne {prev t : W64} : ∀ {clock ts}, readClock prev clock = some (t, ts) →
    t ≠ prev ∧ t ∈ clock ∧ ∀ x ∈ ts, x ∈ clock := by
  intro clock
  induction clock with
  | nil => intro ts h; simp [readClock] at h
  | cons a as ih =>
    intro ts h
    simp only [readClock] at h
    split at h
    · rename_i hne
      simp only [Option.some.injEq, Prod.mk.injEq] at h
      obtain ⟨rfl, rfl⟩ := h
      exact ⟨hne, by simp, fun x hx => List.mem_cons_of_mem _ hx⟩
    · obtain ⟨h1, h2, h3⟩ := ih h
      exact ⟨h1, List.mem_cons_of_mem _ h2, fun x hx => List.mem_cons_of_mem _ (h3 x hx)⟩

theorem get_bounds {prev t : W64} {clock ts : List W64} {M : Nat} (h : get prev clock = some (t, ts))
    (hp : prev.toNat ≤ M) (hc : ∀ x ∈ clock, x.toNat ≤ M) (hM : M + 1 < 2 ^ 64) :
    prev < t ∧ t.toNat ≤ M + 1 ∧ ∀ x ∈ ts, x ∈ clock := by
  simp only [get] at h
  split at h <;> try (simp only [reduceCtorEq] at h; done)
  rename_i u us hu
  obtain ⟨h1, h2, h3⟩ := readClock_ne hu
  simp only [Option.some.injEq, Prod.mk.injEq] at h
  obtain ⟨rfl, rfl⟩ := h
  have hm := hc _ h2
  refine ⟨?_, ?_, h3⟩
  · split
    · rw [BitVec.lt_def, BitVec.toNat_add]
      simp only [BitVec.ofNat_eq_ofNat, BitVec.toNat_ofNat]
      omega
    · rename_i hlt
      exact BitVec.not_le.mp hlt
  · split
    · rw [BitVec.toNat_add]
      simp only [BitVec.ofNat_eq_ofNat, BitVec.toNat_ofNat]
      omega
    · omega

/-- C43. However the clock behaves, the `CreatedAt` values of `n` successive calls of `Get` are strictly
increasing and larger than every earlier one, as long as neither the clock nor the last value comes within `n`
of the largest 64-bit number. -/
theorem C43_increasing : ∀ (n : Nat) (prev : W64) (clock out : List W64) (M : Nat),
    getMany prev clock n = some out → prev.toNat ≤ M → (∀ x ∈ clock, x.toNat ≤ M) → M + n < 2 ^ 64 →
    out.length = n ∧ List.Pairwise (· < ·) (prev :: out) := by
  intro n
  induction n with
  | zero =>
    intro prev clock out M h _ _ _
    simp only [getMany, Option.some.injEq] at h
    subst h
    simp
  | succ n ih =>
    intro prev clock out M h hp hc hM
    simp only [getMany] at h
    split at h <;> try (simp only [reduceCtorEq] at h; done)
    rename_i t ts hg
    obtain ⟨h1, h2, h3⟩ := get_bounds hg hp hc (by omega)
    rw [Option.map_eq_some_iff] at h
    obtain ⟨o, ho, rfl⟩ := h
    obtain ⟨hl, hpw⟩ := ih t ts o (M + 1) ho h2 (fun x hx => Nat.le_succ_of_le (hc x (h3 x hx))) (by omega)
    refine ⟨by simp [hl], ?_⟩
    rw [List.pairwise_cons] at hpw
    rw [List.pairwise_cons, List.pairwise_cons]
    refine ⟨?_, hpw⟩
    intro x hx
    rcases List.mem_cons.mp hx with rfl | hx
    · exact h1
    · exact BitVec.lt_trans h1 (hpw.1 x hx)

/-- A clock that stands still, jumps ahead and goes back. -/
example : getMany 5 [7, 7, 3, 100, 100, 2] 4 = some [7, 8, 100, 101] := by decide

/-- C43. Two sessions of one process never have the same ID, whatever the random parts are. -/
theorem C43_unique (n : Nat) (prev : W64) (clock out : List W64) (M : Nat) (random : Nat → W64)
    (h : getMany prev clock n = some out) (hp : prev.toNat ≤ M) (hc : ∀ x ∈ clock, x.toNat ≤ M)
    (hM : M + n < 2 ^ 64) :
    List.Nodup (out.zipIdx.map fun p => (⟨p.1, random p.2⟩ : ID)) := by
  obtain ⟨_, hpw⟩ := C43_increasing n prev clock out M h hp hc hM
  rw [List.pairwise_cons] at hpw
  have : List.Nodup ((out.zipIdx.map fun p => (⟨p.1, random p.2⟩ : ID)).map ID.createdAt) := by
    rw [List.map_map]
    have he : (ID.createdAt ∘ fun p : W64 × Nat => (⟨p.1, random p.2⟩ : ID)) = Prod.fst := rfl
    rw [he, List.zipIdx_map_fst]
    exact hpw.2.imp fun hlt => fun he => by rw [he] at hlt; exact BitVec.lt_irrefl _ hlt
  exact List.Pairwise.of_map _ (fun a b hab he => hab (by rw [he])) this

/-- C43. A call returns exactly when the clock shows something else than the last `CreatedAt`. -/
theorem C43_returns (prev : W64) (clock : List W64) :
    (get prev clock).isSome ↔ ∃ t ∈ clock, t ≠ prev := by
  have : (get prev clock).isSome = (readClock prev clock).isSome := by
    simp only [get]; split <;> simp_all
  rw [this]
  clear this
  induction clock with
  | nil => simp [readClock]
  | cons a as ih =>
    simp only [readClock]
    by_cases h : a = prev
    · simp [h, ih]
    · simp [h]

/-- C43, and with a clock ahead of the last value the value is the time itself: the first reading that
differs. -/
theorem C43_is_time (prev t : W64) (ts : List W64) (k : Nat) (h : prev < t) :
    get prev (List.replicate k prev ++ t :: ts) = some (t, ts) := by
  have hne : t ≠ prev := fun he => by rw [he] at h; exact BitVec.lt_irrefl _ h
  have : readClock prev (List.replicate k prev ++ t :: ts) = some (t, ts) := by
    induction k with
    | zero => simp [readClock, hne]
    | succ k ih => rw [List.replicate_succ, List.cons_append, readClock]; simp [ih]
  simp only [get, this]
  rw [if_neg (BitVec.not_le.mpr h)]

/-- C43, the limit is needed: after the largest value comes 0. -/
theorem C43_limit : getMany (BitVec.allOnes 64) [5] 1 = some [0] := by decide

/-- C43, a clock that stands still at the last value keeps the call, and with it every other caller that waits
for the lock, in the loop. -/
theorem C43_frozen (prev : W64) (k : Nat) : get prev (List.replicate k prev) = none := by
  cases hg : get prev (List.replicate k prev) with
  | none => rfl
  | some x =>
    exfalso
    obtain ⟨t, ht, hne⟩ := (C43_returns prev (List.replicate k prev)).mp (by rw [hg]; rfl)
    exact hne (List.eq_of_mem_replicate ht)

/-- C74. A session ID is restored from its bytes, whatever follows them. -/
theorem C74_roundtrip (i : ID) (rest : Bytes) :
    (bytes i).length = 16 ∧ fillFromBytes (bytes i ++ rest) = .ok i := by
  have h1 : (putLE 8 i.createdAt.toNat).length = 8 := putLE_length _ _
  have h2 : (putLE 8 i.random.toNat).length = 8 := putLE_length _ _
  have hl : (bytes i).length = 16 := by simp [bytes, h1, h2]
  refine ⟨hl, ?_⟩
  simp only [fillFromBytes]
  rw [if_neg (by simp [hl])]
  have e1 : (bytes i ++ rest).take 8 = putLE 8 i.createdAt.toNat := by
    simp only [bytes, List.append_assoc]
    rw [List.take_append_of_le_length (by omega), List.take_of_length_le (by omega)]
  have e2 : ((bytes i ++ rest).drop 8).take 8 = putLE 8 i.random.toNat := by
    simp only [bytes, List.append_assoc]
    rw [List.drop_left' h1, List.take_append_of_le_length (by omega), List.take_of_length_le (by omega)]
  rw [e1, e2, getLE_putLE, getLE_putLE]
  have a := i.createdAt.isLt
  have b := i.random.isLt
  rw [Nat.mod_eq_of_lt (by omega), Nat.mod_eq_of_lt (by omega)]
  simp

example : fillFromBytes (bytes ⟨1, 2⟩ ++ [7]) = .ok ⟨1, 2⟩ := by decide

/-- C74. `FillFromBytes` crashes exactly on fewer than 16 bytes. -/
theorem C74_short (b : Bytes) : fillFromBytes b = .panic ↔ b.length < 16 := by
  simp only [fillFromBytes]; split <;> simp_all

#print axioms C43_increasing
#print axioms C43_unique
#print axioms C43_returns
#print axioms C43_is_time
#print axioms C43_limit
#print axioms C43_frozen
#print axioms C74_roundtrip
#print axioms C74_short

end Verif.SessionID
