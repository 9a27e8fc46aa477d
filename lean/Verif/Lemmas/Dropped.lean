import Verif.Spec.Dropped
import Verif.Lemmas.PacketID
/-!
# Lemmas for C182
-/
namespace Verif.Receive
open Verif.Headers

/-- The check does not depend on the counter. -/
theorem check_count {c d c' : PacketID.Check} {id : W64} {v : Bool} (hs : c.stor = d.stor) (h : c.step id = some (c', v)) :
    ∃ d', d.step id = some (d', v) ∧ c'.stor = d'.stor ∧ c'.unexpected = c.unexpected + (if v then 0 else 1) ∧
      d'.unexpected = d.unexpected + (if v then 0 else 1) := by
  unfold PacketID.Check.step at h ⊢
  rw [← hs]
  cases hc : c.stor with
  | none =>
    rw [hc] at h
    simp only [Option.some.injEq, Prod.mk.injEq] at h
    obtain ⟨rfl, rfl⟩ := h
    exact ⟨d, rfl, hs, by simp, by simp⟩
  | some s =>
    rw [hc] at h
    simp only at h ⊢
    split at h <;> simp only [Option.some.injEq, Prod.mk.injEq, reduceCtorEq] at h
    · obtain ⟨rfl, rfl⟩ := h
      exact ⟨_, rfl, rfl, by simp, by simp⟩
    · obtain ⟨rfl, rfl⟩ := h
      exact ⟨_, rfl, rfl, by simp, by simp⟩

theorem push_false {s s' : PacketID.Stor} {id : W64} (h : PacketID.push s id = some (s', false)) : s' = s := by
  unfold PacketID.push at h
  split at h
  · simp at h
  · split at h
    · simp at h; exact h.symm
    · split at h
      · simp at h; exact h.symm
      · simp only at h
        split at h <;> simp at h
        exact h.symm

/-- A refused ID leaves the storage as it is. -/
theorem check_false {c c' : PacketID.Check} {id : W64} (h : c.step id = some (c', false)) :
    c' = { c with unexpected := c.unexpected + 1 } := by
  unfold PacketID.Check.step at h
  split at h
  · simp at h
  · rename_i s hs
    split at h <;> simp only [Option.some.injEq, Prod.mk.injEq, reduceCtorEq, Bool.true_eq_false, and_false] at h
    rename_i s' hp
    obtain ⟨rfl, -⟩ := h
    rw [push_false hp, ← hs]

/-- One packet, for two readers that differ in the counter only. -/
theorem step_count {C : Packet.Crypto} {cfg : Cfg} {env : Env} {keys : Keys} {p : Bytes} {r q r' : Reader} {evs : List Event}
    {c : Bool} (hs : SameButCount r q) (h : readerStep C cfg env keys r p = .ok (r', evs, c)) :
    ∃ q', readerStep C cfg env keys q p = .ok (q', evs, c) ∧ SameButCount r' q' ∧ verdict C keys q p = verdict C keys r p ∧
      r'.ids.unexpected = r.ids.unexpected + (if verdict C keys r p = .duplicate then 1 else 0) ∧
      q'.ids.unexpected = q.ids.unexpected + (if verdict C keys r p = .duplicate then 1 else 0) ∧
      (verdict C keys r p = .duplicate → evs = [] ∧ c = true ∧ SameButCount r' r) := by
  obtain ⟨h1, h2, h3⟩ := hs
  unfold readerStep at h ⊢
  split at h
  · simp at h
  · simp at h
  · rename_i e hd
    have hv : ∀ x : Reader, verdict C keys x p = .bad := fun x => by simp [verdict, hd]
    rw [hv, hv]
    simp only [Outcome.ok.injEq, Prod.mk.injEq] at h
    obtain ⟨rfl, rfl, rfl⟩ := h
    exact ⟨{ q with fails := (decryptError cfg r.fails e).1 }, by simp only [h2], ⟨h1, rfl, h3⟩, rfl, by simp, by simp, by simp⟩
  · rename_i hdr msgs hd
    split at h
    · simp at h
    · rename_i ids hi
      obtain ⟨d', e1, e2, e3, e4⟩ := check_count h3 hi
      have hv : verdict C keys r p = .duplicate := by simp [verdict, hd, hi]
      have hv' : verdict C keys q p = .duplicate := by simp [verdict, hd, e1]
      simp only [Outcome.ok.injEq, Prod.mk.injEq] at h
      obtain ⟨rfl, rfl, rfl⟩ := h
      rw [e1, hv, hv']
      refine ⟨_, rfl, ⟨h1, h2, e2⟩, rfl, by simpa using e3, by simpa using e4, fun _ => ⟨rfl, rfl, rfl, rfl, ?_⟩⟩
      rw [check_false hi]
    · rename_i ids hi
      obtain ⟨d', e1, e2, e3, e4⟩ := check_count h3 hi
      have hv : verdict C keys r p = .good := by simp [verdict, hd, hi]
      have hv' : verdict C keys q p = .good := by simp [verdict, hd, e1]
      rw [e1, hv, hv', ← h1]
      simp only at h ⊢
      split at h <;> simp only [Outcome.ok.injEq, Prod.mk.injEq, reduceCtorEq] at h
      obtain ⟨rfl, rfl, rfl⟩ := h
      exact ⟨_, rfl, ⟨rfl, rfl, e2⟩, trivial, by simpa using e3, by simpa using e4, by simp⟩

/-- An ID that has been accepted is refused right after. -/
theorem push_twice {s s' : PacketID.Stor} {id : W64} {v : Bool} (h : PacketID.push s id = some (s', v)) :
    PacketID.push s' id = some (s', false) := by
  cases v with
  | false =>
    have := push_false h
    subst this
    exact h
  | true =>
    unfold PacketID.push at h
    split at h
    · simp only [Option.some.injEq, Prod.mk.injEq, and_true] at h
      subst h
      unfold PacketID.push
      simp
    · rename_i hgt
      split at h
      · simp at h
      · rename_i hne
        split at h
        · simp at h
        · rename_i hw
          simp only at h
          split at h <;> simp only [Option.some.injEq, Prod.mk.injEq, reduceCtorEq, and_true, and_false, Bool.false_eq_true] at h
          rename_i hg
          subst h
          have hoff : (s.latest - id).toNat < 64 * s.table.length := by
            unfold PacketID.getAtOffset at hg
            split at hg
            · simp at hg
            · rename_i w hw
              have := (List.getElem?_eq_some_iff.mp hw).1
              rw [BitVec.toNat_ushiftRight, Nat.shiftRight_eq_div_pow] at this
              omega
          have hb := PacketID.bitAt_setAtOffset s (s.latest - id) hoff (s.latest - id).toNat
          have hl := PacketID.setAtOffset_length s (s.latest - id)
          have hx : (PacketID.setAtOffset s (s.latest - id)).latest = s.latest := rfl
          have hy := PacketID.getAtOffset_eq (PacketID.setAtOffset s (s.latest - id)) (s.latest - id) (by rw [hl]; exact hoff)
          unfold PacketID.push
          rw [hx, if_neg hgt, if_neg hne, hl, if_neg hw]
          simp only [hy, hb]
          simp

theorem step_stor {c c' : PacketID.Check} {id : W64} {v : Bool} (h : c.step id = some (c', v)) (hs : c.stor.isSome) :
    c'.stor.isSome ∧ c'.step id = some ({ c' with unexpected := c'.unexpected + 1 }, false) := by
  unfold PacketID.Check.step at h
  split at h
  · rename_i hn; rw [hn] at hs; simp at hs
  · split at h <;> simp only [Option.some.injEq, Prod.mk.injEq, reduceCtorEq] at h
    all_goals
      rename_i s' hp
      obtain ⟨rfl, -⟩ := h
      refine ⟨rfl, ?_⟩
      simp only [PacketID.Check.step, push_twice hp]

theorem reader_stor {C : Packet.Crypto} {cfg : Cfg} {env : Env} {keys : Keys} {p : Bytes} {r r' : Reader} {evs : List Event}
    {c : Bool} (h : readerStep C cfg env keys r p = .ok (r', evs, c)) (hs : r.ids.stor.isSome) : r'.ids.stor.isSome := by
  unfold readerStep at h
  split at h
  · simp at h
  · simp at h
  · simp only [Outcome.ok.injEq, Prod.mk.injEq] at h
    obtain ⟨rfl, -, -⟩ := h
    exact hs
  · split at h
    · simp at h
    · rename_i hi
      simp only [Outcome.ok.injEq, Prod.mk.injEq] at h
      obtain ⟨rfl, -, -⟩ := h
      exact (step_stor hi hs).1
    · rename_i hi
      split at h <;> simp only [Outcome.ok.injEq, Prod.mk.injEq, reduceCtorEq] at h
      obtain ⟨rfl, -, -⟩ := h
      exact (step_stor hi hs).1

theorem play_stor {C : Packet.Crypto} {cfg : Cfg} : ∀ {as : List Arrival} {r r' : Reader} {log : List (Verdict × List Event)},
    play C cfg r as = .ok (r', log) → r.ids.stor.isSome → r'.ids.stor.isSome
  | [], r, r', log, h, hs => by
    simp only [play, Outcome.ok.injEq, Prod.mk.injEq] at h
    obtain ⟨rfl, -⟩ := h
    exact hs
  | a :: as, r, r', log, h, hs => by
    unfold play at h
    split at h <;> try (simp at h; done)
    · rename_i h1
      split at h <;> simp only [Outcome.ok.injEq, Prod.mk.injEq, reduceCtorEq] at h
      rename_i h2
      obtain ⟨rfl, -⟩ := h
      exact play_stor h2 (reader_stor h1 hs)
    · rename_i h1
      simp only [Outcome.ok.injEq, Prod.mk.injEq] at h
      obtain ⟨rfl, -⟩ := h
      exact reader_stor h1 hs

theorem init_stor {cfg : Cfg} {size : Int} (h0 : 0 ≤ size) : (Reader.init cfg size).ids.stor.isSome := by
  simp only [Reader.init, PacketID.storOfOption]
  by_cases e : size = 0
  · simp [e]
  · have : size > 0 := by omega
    simp [e, this]

end Verif.Receive
