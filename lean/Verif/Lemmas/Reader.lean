import Verif.Lemmas.Fragments
import Verif.Lemmas.Replay
import Verif.Props.Packet
/-!
# Lemmas about the reader loop
-/
namespace Verif.Receive
open Verif.Headers Verif.PendingChain

/-- The packet-ID filter works as the ideal filter of some window (or is disabled). -/
def IdsOK (c : PacketID.Check) : Prop :=
  ∀ s, c.stor = some s → ∃ w f, w < 2 ^ 64 ∧ PacketID.Repr w s f

theorem ids_step (c : PacketID.Check) (h : IdsOK c) (id : W64) :
    ∃ c' b, c.step id = some (c', b) ∧ IdsOK c' := by
  unfold PacketID.Check.step
  cases hs : c.stor with
  | none => exact ⟨_, _, rfl, fun s h => by rw [hs] at h; cases h⟩
  | some s =>
    obtain ⟨w, f, hw, hr⟩ := h s hs
    obtain ⟨s', hp, hr'⟩ := PacketID.push_refines w hw s f hr id
    dsimp only
    rw [hp]
    cases (f.step w id.toNat).2 with
    | true => exact ⟨_, _, rfl, fun t ht => ⟨w, _, hw, by cases ht; exact hr'⟩⟩
    | false => exact ⟨_, _, rfl, fun t ht => ⟨w, _, hw, by cases ht; exact hr'⟩⟩

theorem ids_init (size : Int) (hsize : size < 2 ^ 62) :
    IdsOK { stor := PacketID.storOfOption size, unexpected := 0 } := by
  intro s hs
  unfold PacketID.storOfOption at hs
  simp only at hs
  generalize hz : (if size = 0 then 256 else size) = z at hs
  have hz2 : z < 2 ^ 62 := by split at hz <;> omega
  by_cases hpos : z > 0
  · rw [if_pos hpos] at hs
    cases hs
    refine ⟨_, _, ?_, PacketID.repr_new _⟩
    split <;> omega
  · rw [if_neg hpos] at hs; cases hs

/-- One round of the reader loop: it never hangs, a crash needs a fragment whose start position wraps,
and the invariants are kept. -/
theorem readerStep_total (C : Packet.Crypto) (cfg : Cfg) (ok : CfgOK cfg) (env : Env) (keys : Keys)
    (kok : Packet.KeysOK keys.aux keys.cipher keys.remote) (r : Reader) (h : Inv cfg r.rcv)
    (hi : IdsOK r.ids) (p : Bytes) :
    (∃ r' evs c, readerStep C cfg env keys r p = .ok (r', evs, c) ∧ Inv cfg r'.rcv ∧ IdsOK r'.ids) ∨
    (readerStep C cfg env keys r p = .panic ∧
      ∃ hdr msgs i fh, Packet.decrypt C keys.aux keys.cipher keys.remote p = .ok (hdr, msgs) ∧
        FragHdr.read (msgs.drop i) = .ok fh ∧ 2 ^ 64 - 2 ^ 32 ≤ fh.startPos.toNat) := by
  obtain ⟨hd1, hd2⟩ := Packet.C25_decrypt_total C keys.aux keys.cipher keys.remote kok p
  unfold readerStep
  cases hd : Packet.decrypt C keys.aux keys.cipher keys.remote p with
  | panic => exact absurd hd hd1
  | block => exact absurd hd hd2
  | err e => exact .inl ⟨_, _, _, rfl, h, hi⟩
  | ok x =>
    obtain ⟨hdr, msgs⟩ := x
    dsimp only
    obtain ⟨ids, b, hs, hi'⟩ := ids_step r.ids hi (packetIDValue hdr.packetID)
    rw [hs]
    cases b with
    | false => exact .inl ⟨_, _, _, rfl, h, hi'⟩
    | true =>
      dsimp only
      rcases process_total cfg ok env r.rcv h hdr.length msgs with ⟨s', evs, hp, hv⟩ | ⟨hp, i, fh, h1, h2⟩
      · rw [hp]; exact .inl ⟨_, _, _, rfl, hv, hi'⟩
      · rw [hp]; exact .inr ⟨rfl, hdr, msgs, i, fh, rfl, h1, h2⟩

theorem reach_inv (C : Packet.Crypto) (cfg : Cfg) (ok : CfgOK cfg) (env : Env) (size : Int)
    (hsize : size < 2 ^ 62) (r : Reader) (vs : List Verdict) (h : Reach C cfg env size r vs) :
    Inv cfg r.rcv ∧ IdsOK r.ids := by
  induction h with
  | init => exact ⟨inv_init cfg, ids_init size hsize⟩
  | step keys p hr hs ih =>
    rename_i r vs r' evs
    obtain ⟨h1, h2⟩ := ih
    unfold readerStep at hs
    split at hs
    · cases hs
    · cases hs
    · simp only [Outcome.ok.injEq, Prod.mk.injEq] at hs
      obtain ⟨rfl, -, -⟩ := hs
      exact ⟨h1, h2⟩
    · next hdr msgs _ =>
      obtain ⟨ids, b, hids, hi'⟩ := ids_step r.ids h2 (packetIDValue hdr.packetID)
      rw [hids] at hs
      cases b with
      | false => cases hs; exact ⟨h1, hi'⟩
      | true =>
        dsimp only at hs
        rcases process_total cfg ok env r.rcv h1 hdr.length msgs with ⟨s', e', hp, hv⟩ | ⟨hp, -⟩
        · rw [hp] at hs; cases hs; exact ⟨hv, hi'⟩
        · rw [hp] at hs; cases hs

theorem reach_fails (C : Packet.Crypto) (cfg : Cfg) (env : Env) (size : Int)
    (r : Reader) (vs : List Verdict) (h : Reach C cfg env size r vs) :
    r.fails = streak vs ∧ (0 < cfg.detachOnFails → r.fails < cfg.detachOnFails) := by
  induction h with
  | init => exact ⟨rfl, id⟩
  | step keys p hr hs ih =>
    rename_i r vs r' evs
    obtain ⟨h1, h2⟩ := ih
    unfold readerStep at hs
    unfold verdict
    split at hs
    · cases hs
    · cases hs
    · next e he =>
      simp only [decryptError, Outcome.ok.injEq, Prod.mk.injEq] at hs
      obtain ⟨rfl, -, hc⟩ := hs
      rw [he]
      refine ⟨by simp [streak, h1], fun _ => ?_⟩
      simp at hc
      simp only; omega
    · next hdr msgs he =>
      rw [he]
      dsimp only
      cases hids : r.ids.step (packetIDValue hdr.packetID) with
      | none => rw [hids] at hs; cases hs
      | some x =>
        obtain ⟨ids, b⟩ := x
        rw [hids] at hs
        cases b with
        | false => cases hs; exact ⟨by simpa [streak] using h1, h2⟩
        | true =>
          dsimp only at hs
          split at hs
          · cases hs
          · cases hs
          · cases hs
          · cases hs; exact ⟨rfl, id⟩

end Verif.Receive
