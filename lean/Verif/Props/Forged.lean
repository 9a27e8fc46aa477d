import Verif.Props.EndToEnd
/-!
# C136: packets of an outsider do not keep out those of the peer

The check of packet IDs comes after the decryption, but it makes no difference which key a packet was sealed with: with
an exchanged one, with the one made of the PSK (which is the same in all sessions), or with none.
-/
namespace Verif.EndToEnd
open Verif.Headers Verif.Packet Verif.Receive

/-- The states the reader can get to, whatever packets arrive, and whatever the keys are at these moments. -/
inductive LaterR (C : Crypto) (cfg : Receive.Cfg) (env : Env) : Reader → Reader → Prop
  | refl (r : Reader) : LaterR C cfg env r r
  | step {r r1 r2 : Reader} {evs : List Event} {c : Bool} (keys : Keys) (p : Bytes) : LaterR C cfg env r r1 →
      readerStep C cfg env keys r1 p = .ok (r2, evs, c) → LaterR C cfg env r r2

/-- The storage remembers `w` IDs and has seen the ID `n`. -/
structure Beyond (w n : Nat) (r : Reader) : Prop where
  width : ∃ s, r.ids.stor = some s ∧ 64 * s.table.length = w
  seen : n ≤ latest r

theorem push_keeps {s s' : PacketID.Stor} {id : W64} {v : Bool} (h : PacketID.push s id = some (s', v)) :
    s'.table.length = s.table.length ∧ s.latest.toNat ≤ s'.latest.toNat := by
  unfold PacketID.push at h
  split at h
  · rename_i hlt
    simp only [Option.some.injEq, Prod.mk.injEq] at h
    obtain ⟨rfl, -⟩ := h
    refine ⟨?_, Nat.le_of_lt hlt⟩
    split
    · simp [PacketID.setAtOffset, PacketID.shiftValue, PacketID.shiftLoop_length]
    · rfl
  · split at h
    · simp only [Option.some.injEq, Prod.mk.injEq] at h
      obtain ⟨rfl, -⟩ := h
      exact ⟨rfl, Nat.le_refl _⟩
    · split at h
      · simp only [Option.some.injEq, Prod.mk.injEq] at h
        obtain ⟨rfl, -⟩ := h
        exact ⟨rfl, Nat.le_refl _⟩
      · simp only at h
        split at h <;> simp only [Option.some.injEq, Prod.mk.injEq, reduceCtorEq] at h
        · obtain ⟨rfl, -⟩ := h
          exact ⟨rfl, Nat.le_refl _⟩
        · obtain ⟨rfl, -⟩ := h
          exact ⟨by simp [PacketID.setAtOffset], Nat.le_refl _⟩

theorem check_keeps {w n : Nat} {r : Reader} {id : W64} {ids : PacketID.Check} {v : Bool} (hb : Beyond w n r)
    (h : r.ids.step id = some (ids, v)) (rcv : Rcv) (k : Nat) : Beyond w n { rcv := rcv, ids := ids, fails := k } := by
  obtain ⟨⟨s, hs, hw⟩, hn⟩ := hb
  unfold PacketID.Check.step at h
  rw [hs] at h
  simp only at h
  unfold latest at hn
  rw [hs] at hn
  split at h <;> simp only [Option.some.injEq, Prod.mk.injEq, reduceCtorEq] at h
  all_goals
    rename_i s' hp
    obtain ⟨rfl, -⟩ := h
    obtain ⟨h1, h2⟩ := push_keeps hp
    refine ⟨⟨s', rfl, by rw [h1]; exact hw⟩, ?_⟩
    simp only [latest] at hn ⊢
    omega

theorem beyond_step {C : Crypto} {cfg : Receive.Cfg} {env : Env} {keys : Keys} {p : Bytes} {w n : Nat} {r r' : Reader}
    {evs : List Event} {c : Bool} (hb : Beyond w n r) (h : readerStep C cfg env keys r p = .ok (r', evs, c)) :
    Beyond w n r' := by
  unfold readerStep at h
  split at h
  · simp at h
  · simp at h
  · simp only [Outcome.ok.injEq, Prod.mk.injEq] at h
    obtain ⟨rfl, -, -⟩ := h
    exact ⟨hb.width, hb.seen⟩
  · split at h
    · simp at h
    · rename_i hi
      simp only [Outcome.ok.injEq, Prod.mk.injEq] at h
      obtain ⟨rfl, -, -⟩ := h
      exact check_keeps hb hi _ _
    · rename_i hi
      split at h <;> simp only [Outcome.ok.injEq, Prod.mk.injEq, reduceCtorEq] at h
      obtain ⟨rfl, -, -⟩ := h
      exact check_keeps hb hi _ _

theorem beyond_later {C : Crypto} {cfg : Receive.Cfg} {env : Env} {w n : Nat} {r r' : Reader} (hb : Beyond w n r)
    (h : LaterR C cfg env r r') : Beyond w n r' := by
  induction h with
  | refl => exact hb
  | step keys p _ hs ih => exact beyond_step ih hs

/-- Too old: dropped without a trace. -/
theorem beyond_drop {C : Crypto} {cfg : Receive.Cfg} {env : Env} {keys : Keys} {p : Bytes} {w n : Nat} {r : Reader}
    {hdr : ContainerHdr} {msgs : Bytes} (hb : Beyond w n r) (hw : w < 2 ^ 64)
    (hd : decrypt C keys.aux keys.cipher keys.remote p = .ok (hdr, msgs))
    (hid : (packetIDValue hdr.packetID).toNat < n) (hold : (packetIDValue hdr.packetID).toNat + w ≤ n) :
    ∃ r', readerStep C cfg env keys r p = .ok (r', [], true) ∧ r'.rcv = r.rcv ∧ r'.fails = r.fails := by
  obtain ⟨⟨s, hs, hl⟩, hn⟩ := hb
  simp only [latest, hs] at hn
  have hp : PacketID.push s (packetIDValue hdr.packetID) = some (s, false) := by
    generalize packetIDValue hdr.packetID = id at *
    unfold PacketID.push
    have h1 : ¬ id > s.latest := by
      intro h
      have : s.latest.toNat < id.toNat := h
      omega
    have h2 : ¬ id = s.latest := by
      intro h
      rw [h] at hid; omega
    have h3 : s.latest - id ≥ (BitVec.ofNat 64 s.table.length) <<< 6 := by
      show ((BitVec.ofNat 64 s.table.length) <<< 6).toNat ≤ (s.latest - id).toNat
      have e1 : ((BitVec.ofNat 64 s.table.length) <<< 6).toNat = w := by
        rw [BitVec.toNat_shiftLeft, BitVec.toNat_ofNat, Nat.mod_eq_of_lt (a := s.table.length) (by omega), Nat.shiftLeft_eq,
          Nat.mod_eq_of_lt (by omega)]
        omega
      rw [e1, BitVec.toNat_sub_of_le (by show id.toNat ≤ s.latest.toNat; omega)]
      omega
    rw [if_neg h1, if_neg h2, if_pos h3]
  refine ⟨{ r with ids := { stor := some s, unexpected := r.ids.unexpected + 1 } }, ?_, rfl, rfl⟩
  simp [readerStep, hd, PacketID.Check.step, hs, hp]

/-- The width of the storage of a session. -/
theorem beyond_init {C : Crypto} {cfg : Receive.Cfg} {env : Env} {size : Int} (h0 : 0 ≤ size) {r : Reader}
    (h : LaterR C cfg env (Reader.init cfg size) r) : Beyond (Spec.windowOf size) 0 r := by
  refine beyond_later ?_ h
  refine ⟨?_, Nat.zero_le _⟩
  simp only [Reader.init, PacketID.storOfOption, Spec.windowOf]
  by_cases e : size = 0
  · subst e
    exact ⟨_, rfl, by decide⟩
  · by_cases e1 : size = 1
    · subst e1
      exact ⟨_, rfl, by decide⟩
    · have h2 : size.toNat ≠ 1 := by omega
      have h3 : size > 0 := by omega
      simp only [e, e1, if_false, h3, if_true, h2]
      refine ⟨_, rfl, ?_⟩
      have : size.toNat > 0 := by omega
      simp [PacketID.newStor, this]

/-- Negation of C136, in general: let `p` be a packet sealed without an exchanged key, by whatever session, with a new
packet ID `n` (without a PSK anybody can make it, also with the highest of all IDs; with a PSK it may be one that was
recorded in an earlier session).  It is accepted, and from then on, for ever, each packet whose ID is behind `n` by the
width of the storage or more - and those of the peer begin with 1 - is dropped, and nothing is reported. -/
theorem C136_violated (C : Crypto) (cfg : Receive.Cfg) (env : Env) (size : Int) (h0 : 0 ≤ size) (hsz : Spec.windowOf size < 2 ^ 64)
    (r : Reader) (hr : LaterR C cfg env (Reader.init cfg size) r) (keys : Keys) (ha : KeyOK keys.aux) (sid : SessID) (n : W64)
    (hn : latest r < n.toNat) (msgs p : Bytes) (hm : msgs.length < 2 ^ 32)
    (hp : sealPacket C keys.aux keys.aux sid false n msgs = some p) (hnf : NoForgery C keys n p) {rcv : Rcv} {evs : List Event}
    (hok : processIncomingMessages cfg env r.rcv (BitVec.ofNat 32 msgs.length) msgs = .ok (rcv, evs)) :
    ∃ r1, readerStep C cfg env keys r p = .ok (r1, evs, true) ∧
      ∀ r2, LaterR C cfg env r1 r2 → ∀ (keys' : Keys) (q : Bytes) (hdr : ContainerHdr) (content : Bytes),
        decrypt C keys'.aux keys'.cipher keys'.remote q = .ok (hdr, content) →
        (packetIDValue hdr.packetID).toNat < n.toNat → (packetIDValue hdr.packetID).toNat + Spec.windowOf size ≤ n.toNat →
        ∃ r3, readerStep C cfg env keys' r2 q = .ok (r3, [], true) ∧ r3.rcv = r2.rcv ∧ r3.fails = r2.fails := by
  obtain ⟨pkt, f1, -, f3⟩ := C12_roundtrip_aux C keys.aux ha sid n msgs hm keys.cipher keys.remote
  rw [hp] at f1
  simp only [Option.some.injEq] at f1
  subst f1
  obtain ⟨h, d1, d2, d3⟩ := f3 hnf
  have hb := beyond_init h0 hr
  obtain ⟨⟨s, hs, hw⟩, -⟩ := hb
  have hlt : s.latest.toNat < n.toNat := by simpa [latest, hs] using hn
  obtain ⟨s', p1, p2⟩ := push_newer s n hlt
  have hlen : h.length = BitVec.ofNat 32 msgs.length := by
    apply BitVec.eq_of_toNat_eq
    rw [d3, BitVec.toNat_ofNat, Nat.mod_eq_of_lt hm]
  refine ⟨{ rcv := rcv, ids := { r.ids with stor := some s' }, fails := 0 }, ?_, ?_⟩
  · simp [readerStep, d1, d2, PacketID.Check.step, hs, p1, hlen, hok]
  · intro r2 h2 keys' q hdr content hd hid hold
    have hb1 : Beyond (Spec.windowOf size) n.toNat { rcv := rcv, ids := { r.ids with stor := some s' }, fails := 0 } :=
      ⟨⟨s', rfl, by rw [(push_keeps p1).1]; exact hw⟩, by simp [latest, p2]⟩
    exact beyond_drop (beyond_later hb1 h2) hsz hd hid hold

/-- C136, the part that holds: with a PSK a packet has an effect on what is accepted or reassembled later only if it
carries right checksums under an exchanged key or the key made of the PSK.  Missing: the latter is the same in other
sessions, so packets of those qualify; and without a PSK every packet does. -/
theorem C136_partial (C : Crypto) (cfg : Receive.Cfg) (env : Env) (keys : Keys) (a : Bytes) (ha : keys.aux = some a)
    (hok : KeysOK keys.aux keys.cipher keys.remote) (r r' : Reader) (p : Bytes) (evs : List Event) (c : Bool)
    (h : readerStep C cfg env keys r p = .ok (r', evs, c)) (hne : r'.ids ≠ r.ids ∨ r'.rcv ≠ r.rcv) :
    ∃ k iv, (some k ∈ keys.cipher ∨ k = a) ∧ ∃ id, Genuine C (some k) id iv (p.drop 8) := by
  unfold readerStep at h
  split at h
  · simp at h
  · simp at h
  · simp only [Outcome.ok.injEq, Prod.mk.injEq] at h
    obtain ⟨rfl, -, -⟩ := h
    simp at hne
  · rename_i hdr msgs hd
    rw [ha] at hd hok
    obtain ⟨k, iv, h1, h2, -⟩ := C14_psk_partial C a keys.cipher keys.remote hok p hdr msgs hd
    exact ⟨k, iv, h1, _, h2⟩

/-! ### Examples -/

def exKeys : Keys := ⟨none, [some (List.replicate 32 5), none, none, none], some ⟨1, 2⟩⟩
def exRcv : Receive.Cfg := ⟨0, 8, 65536, some 3, 2⟩
def exEnv : Env := ⟨fun _ => false, fun _ => true, fun _ => false⟩
/-- An outsider's packet: nothing in it, and the highest packet ID. -/
def exForged : Bytes := plainPacket Packet.toy none (packetIDBytes (-1)) []
/-- The peer's packets, with a message of one byte each. -/
def exPeer (id : W64) : Bytes :=
  (sealPacket Packet.toy none (some (List.replicate 32 5)) ⟨1, 2⟩ true id [0xFC, 0xFF, 0xFF, 0xFF, 1, 0, 0, 0, 0, 65]).getD []

def exDeliver (ps : List Bytes) : Option (List Event) :=
  match deliver Packet.toy exRcv exEnv exKeys (Reader.init exRcv 0) ps with
  | .ok x => some x.2
  | _ => none

/-- Negation of C136: the peer's packets are delivered; after the packet of the outsider none is, and nothing is
reported. -/
theorem C136_violated_example :
    exDeliver [exPeer 1, exPeer 2, exPeer 3] =
      some [.queued 0xFFFFFFFC [65], .queued 0xFFFFFFFC [65], .queued 0xFFFFFFFC [65]] ∧
    exDeliver [exPeer 1, exForged, exPeer 2, exPeer 3] = some [.queued 0xFFFFFFFC [65]] ∧
    exDeliver [exPeer 1, exForged] = some [.queued 0xFFFFFFFC [65]] ∧
    (-1 : W64).toNat = 2 ^ 64 - 1 := by
  refine ⟨by decide +kernel, by decide +kernel, by decide +kernel, by decide⟩

/-- The hypotheses of `C136_violated` hold in the example. -/
example : LaterR Packet.toy exRcv exEnv (Reader.init exRcv 0) (Reader.init exRcv 0) ∧ latest (Reader.init exRcv 0) < (-1 : W64).toNat ∧
    sealPacket Packet.toy none none ⟨1, 2⟩ false (-1) [] = some exForged ∧ NoForgery Packet.toy exKeys (-1) exForged ∧
    processIncomingMessages exRcv exEnv (Reader.init exRcv 0).rcv (BitVec.ofNat 32 ([] : Bytes).length) [] =
      .ok ((Reader.init exRcv 0).rcv, []) := by
  refine ⟨.refl _, by decide +kernel, by decide +kernel, .inr ⟨⟨1, 2⟩, rfl, ?_⟩, rfl⟩
  intro k hk
  simp only [exKeys, List.mem_cons, List.not_mem_nil, or_false, or_self] at hk
  rcases hk with rfl | rfl
  · refine ⟨fun b hb => by cases hb; rfl, fun _ => ?_⟩
    simp only [HeaderOK]; decide +kernel
  · exact ⟨(fun b hb => nomatch hb), fun h => absurd rfl h⟩

/-- With a PSK: a packet of another session with this PSK changes what is accepted. -/
example : let keys : Keys := ⟨some (List.replicate 32 9), [], none⟩
    let r := Reader.init exRcv 0
    ∃ p, sealPacket Packet.toy keys.aux keys.aux ⟨77, 88⟩ false 1000 [] = some p ∧
      (match readerStep Packet.toy exRcv exEnv keys r p with
      | .ok (r', [], true) => decide (r'.ids ≠ r.ids ∧ latest r' = 1000)
      | _ => false) = true := by
  refine ⟨(sealPacket Packet.toy (some (List.replicate 32 9)) (some (List.replicate 32 9)) ⟨77, 88⟩ false 1000 []).getD [], ?_, ?_⟩
  · decide +kernel
  · decide +kernel

#print axioms C136_violated
#print axioms C136_partial
#print axioms C136_violated_example

end Verif.EndToEnd
