import Verif.Spec.Numbering
/-! # Lemmas for Numbering -/
namespace Verif.Traffic
open Verif.Headers Verif.Receive Verif.Packet

theorem numbers_sends (c : Nat) (bs : List (List Msg)) (k : Bytes) :
    numbers c (bs.flatMap fun b => sendNow b (some k)) = (List.range bs.length).map (· + (c + 1)) := by
  induction bs generalizing c with
  | nil => rfl
  | cons b bs ih =>
    simp only [List.flatMap_cons, sendNow, List.cons_append, List.nil_append, numbers, if_true]
    have := ih (c + 1)
    simp only [sendNow] at this
    rw [this, List.length_cons, List.range_succ_eq_map]
    simp only [List.map_cons, List.map_map, List.cons.injEq, Function.comp_def]
    exact ⟨by omega, List.map_congr_left fun a _ => by omega⟩

theorem serial_sends (bs : List (List Msg)) (k : Bytes) : Serial (bs.flatMap fun b => sendNow b (some k)) := by
  induction bs with
  | nil => trivial
  | cons b bs ih => simpa [sendNow, Serial] using ih

theorem pending_ids {C : Crypto} {cfg : Cfg} {s s' : Side} {a : Act} (h : step C cfg s a = .ok s') (hc : s'.count < 2 ^ 64)
    (hp : ∀ x ∈ s.pending, x.id ≠ 0) (ho : ∀ x ∈ s.out, x.id ≠ 0) :
    (∀ x ∈ s'.pending, x.id ≠ 0) ∧ ∀ x ∈ s'.out, x.id ≠ 0 := by
  cases a with
  | «begin» batch key conf =>
    simp only [step] at h
    split at h <;> cases h
    refine ⟨fun x hx => ?_, ho⟩
    simp only [List.mem_append, List.mem_singleton] at hx
    rcases hx with hx | rfl
    · exact hp x hx
    · intro e
      have := congrArg BitVec.toNat e
      simp only [nextID, BitVec.toNat_ofNat] at this hc
      rw [Nat.mod_eq_of_lt hc] at this
      simp at this
  | finish i ok =>
    simp only [step] at h
    split at h
    · cases h
    · rename_i x hx
      split at h
      · split at h <;> cases h
        refine ⟨fun y hy => hp y (List.mem_of_mem_eraseIdx hy), fun y hy => ?_⟩
        simp only [List.mem_append, List.mem_singleton] at hy
        rcases hy with hy | rfl
        · exact ho y hy
        · exact hp x (List.mem_of_getElem? hx)
      · cases h
        exact ⟨fun y hy => hp y (List.mem_of_mem_eraseIdx hy), ho⟩
  | recv keys p =>
    simp only [step] at h
    split at h
    · split at h <;> cases h
      exact ⟨hp, ho⟩
    · cases h

theorem no_zero {C : Crypto} {cfg : Cfg} (as : List Act) : ∀ (s s' : Side), run C cfg s as = .ok s' → s'.count < 2 ^ 64 →
    (∀ x ∈ s.pending, x.id ≠ 0) → (∀ x ∈ s.out, x.id ≠ 0) → ∀ x ∈ s'.out, x.id ≠ 0 := by
  induction as with
  | nil => intro s s' h _ _ ho; cases h; exact ho
  | cons a as ih =>
    intro s s' h hc hp ho
    simp only [run] at h
    split at h <;> try (cases h; done)
    rename_i s1 h1
    have hc1 : s1.count < 2 ^ 64 := Nat.lt_of_le_of_lt (run_count_le _ _ h) hc
    obtain ⟨p1, o1⟩ := pending_ids h1 hc1 hp ho
    exact ih s1 s' h hc p1 o1

end Verif.Traffic
