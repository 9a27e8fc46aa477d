import Verif.Model.ByteStream
import Verif.Props.EndToEnd
import Verif.Spec.Traffic
/-!
# Stream backends and short buffers: C90, C91
-/
namespace Verif.ByteStream
open Verif.Headers Verif.Packet Verif.Receive Verif.EndToEnd

/-- What was read is the stream from its begin, cut anywhere: nothing is lost, changed or reordered. -/
def CutOf (chunks : List Bytes) (sent : List Sent) : Prop := chunks.flatten = (sent.map (·.out)).flatten

/-- Every cut into parts that fit in the buffer is what some `Read` calls return, and nothing else. -/
theorem reads_iff (bufLen : Nat) (chunks : List Bytes) (b : Bytes) :
    (∃ sizes, reads bufLen sizes b = chunks ∧ (reads bufLen sizes b).flatten = b) ↔
      (chunks.flatten = b ∧ ∀ c ∈ chunks, c.length ≤ bufLen) := by
  constructor
  · rintro ⟨sizes, h1, h2⟩
    refine ⟨by rw [← h1]; exact h2, ?_⟩
    rw [← h1]
    clear h1 h2
    induction sizes generalizing b with
    | nil => simp [reads]
    | cons n ns ih =>
      intro c hc
      rw [reads, List.mem_cons] at hc
      rcases hc with rfl | hc
      · rw [List.length_take]; omega
      · exact ih _ c hc
  · rintro ⟨h1, h2⟩
    have : reads bufLen (chunks.map List.length) b = chunks := by
      induction chunks generalizing b with
      | nil => rfl
      | cons c cs ih =>
        have hc := h2 c (by simp)
        rw [List.map_cons, reads, ← h1, List.flatten_cons, Nat.min_eq_left hc, List.take_left, List.drop_left,
          ih _ rfl fun c hc => h2 c (by simp [hc])]
    exact ⟨chunks.map List.length, this, by rw [this]; exact h1⟩

/-- `Read` calls on a stream lose nothing: what they have returned is the begin of the stream. -/
theorem reads_prefix (bufLen : Nat) (sizes : List Nat) (b : Bytes) : (reads bufLen sizes b).flatten <+: b := by
  induction sizes generalizing b with
  | nil => simp [reads]
  | cons n ns ih =>
    obtain ⟨rest, h⟩ := ih (b.drop (min n bufLen))
    exact ⟨rest, by rw [reads, List.flatten_cons, List.append_assoc, h, List.take_append_drop]⟩

/-- A part of the stream as it is read: a whole packet, or bytes that are none. -/
inductive Chunk where
  | packet (x : Sent)
  | other (b : Bytes)

def Chunk.bytes : Chunk → Bytes
  | .packet x => x.out
  | .other b => b

/-- The packets that were read alone. -/
def whole : List Chunk → List Sent
  | [] => []
  | .packet x :: cs => x :: whole cs
  | .other _ :: cs => whole cs

theorem mem_whole {x : Sent} : ∀ {cs : List Chunk}, x ∈ whole cs ↔ .packet x ∈ cs
  | [] => by simp [whole]
  | .packet y :: cs => by simp [whole, mem_whole (cs := cs)]
  | .other b :: cs => by simp [whole, mem_whole (cs := cs)]

/-- No key of the receiver verifies the bytes as a packet. -/
def Rejected (C : Crypto) (keys : Keys) (b : Bytes) : Prop :=
  ∀ key iv, Candidate keys.aux keys.cipher keys.remote (wirePacketID C keys.aux b) key iv →
    ¬ Genuine C key (wirePacketID C keys.aux b) iv (b.drop 8)

theorem rejected_err {C : Crypto} {keys : Keys} (ok : KeysOK keys.aux keys.cipher keys.remote) {b : Bytes} (h : Rejected C keys b) :
    ∃ e, decrypt C keys.aux keys.cipher keys.remote b = .err e := by
  cases hd : decrypt C keys.aux keys.cipher keys.remote b with
  | ok x =>
    obtain ⟨hdr, msgs⟩ := x
    obtain ⟨-, h2, key, iv, hc, hg, -⟩ := C13_accept_implies_genuine C _ _ _ ok b hdr msgs hd
    rw [h2] at hc hg
    exact absurd hg (h key iv hc)
  | err e => exact ⟨e, rfl⟩
  | panic => exact absurd hd (C25_decrypt_total C _ _ _ ok b).1
  | block => exact absurd hd (C25_decrypt_total C _ _ _ ok b).2

/-- The packet is processed by the reader. -/
theorem packet_step (C : Crypto) (scfg : Send.Cfg) (now : Send.Now) (k : Bytes) (hk : now.cipherKey = some k)
    (hk32 : k.length = 32) (ha : KeyOK now.aux) (cfg : Receive.Cfg) (hd : cfg.detachOnMessages = 0) (env : Env)
    (rest : List (Option Bytes)) (x : Sent) (hx : x.By C scfg now) (hsize : (stream x.batch).length + 44 < 2 ^ 32)
    (hfits : ∀ m ∈ x.batch, m.Fits ∧ m.Whole) (r : Reader) (hnew : latest r < x.id.toNat) :
    x.out.length = (stream x.batch).length + 44 ∧
    ∃ r', readerStep C cfg env ⟨now.aux, some k :: rest, some now.sessionID⟩ r x.out = .ok (r', x.batch.map (dest env), true) ∧
      latest r' ≤ x.id.toNat ∧ r'.fails = 0 := by
  obtain ⟨internal, hx⟩ := hx
  obtain ⟨k', e1, e2⟩ := send_sealed C scfg { now with packetID := x.id } ⟨true, internal, stream x.batch⟩ rfl
    (by intro b hb; have hb : now.cipherKey = some b := hb; rw [hk] at hb; cases hb; exact hk32) ha hsize _ hx
  have : k' = k := by
    have h1 : now.cipherKey = some k' := e1
    rw [hk] at h1; cases h1; rfl
  subst this
  obtain ⟨pkt, f1, f2, f3⟩ := C12_roundtrip_confidential C now.aux ha k' hk32 now.sessionID x.id
    (stream x.batch) (by omega) [] rest
  have : pkt = x.out := by
    have := f1.symm.trans e2
    simpa using this
  subst this
  obtain ⟨h, d1, d2, d3⟩ := f3 (fun k' hk' => by cases hk')
  obtain ⟨ids, s1, s2⟩ := step_newer r x.id hnew
  have hh : h.length = BitVec.ofNat 32 (stream x.batch).length := by
    apply BitVec.eq_of_toNat_eq
    rw [d3, BitVec.toNat_ofNat, Nat.mod_eq_of_lt]
    omega
  have hagg := C11_aggregate cfg hd env r.rcv x.batch (fun m hm => (hfits m hm).1) (fun m hm => (hfits m hm).2) (by omega)
  refine ⟨f2, _, ?_, s2 r.rcv 0, rfl⟩
  unfold readerStep
  simp only [List.nil_append] at d1
  simp only [d1, d2, s1, hh, hagg]

/-- C90, exactly: the messages that arrive are those of the packets that a `Read` call returned alone and whole.  Every packet
that was cut, or came together with other bytes, is lost with all its messages, although the backend has lost nothing.
(The number of parts that are no packets stays below the limit of the session; `Rejected`: they are not forgeries.) -/
theorem C90_exact (C : Crypto) (scfg : Send.Cfg) (now : Send.Now) (k : Bytes) (hk : now.cipherKey = some k)
    (hk32 : k.length = 32) (ha : KeyOK now.aux) (cfg : Receive.Cfg) (hd : cfg.detachOnMessages = 0) (env : Env)
    (rest : List (Option Bytes)) (hrest : ∀ k' ∈ rest, KeyOK k')
    (chunks : List Chunk) (hsent : ∀ x ∈ whole chunks, x.By C scfg now)
    (hsize : ∀ x ∈ whole chunks, (stream x.batch).length + 44 < 2 ^ 32)
    (hfits : ∀ x ∈ whole chunks, ∀ m ∈ x.batch, m.Fits ∧ m.Whole)
    (hother : ∀ b, .other b ∈ chunks → Rejected C ⟨now.aux, some k :: rest, some now.sessionID⟩ b)
    (r : Reader) (hids : ((whole chunks).map (·.id.toNat)).Pairwise (· < ·)) (hnew : ∀ x ∈ whole chunks, latest r < x.id.toNat)
    (hfails : r.fails + chunks.length < cfg.detachOnFails) :
    ∃ evs, loop C cfg env ⟨now.aux, some k :: rest, some now.sessionID⟩ r (chunks.map Chunk.bytes) = .ok (evs, true) ∧
      evs.filter Traffic.isDelivery = ((whole chunks).flatMap (·.batch)).map (dest env) := by
  induction chunks generalizing r with
  | nil => exact ⟨[], rfl, rfl⟩
  | cons c cs ih =>
    rw [List.length_cons] at hfails
    cases c with
    | packet x =>
      simp only [whole, List.map_cons, List.pairwise_cons, List.mem_cons, forall_eq_or_imp] at hsent hsize hfits hids hnew
      obtain ⟨hlen, r', h1, h2, h3⟩ := packet_step C scfg now k hk hk32 ha cfg hd env rest x hsent.1 hsize.1 hfits.1 r hnew.1
      obtain ⟨evs, h4, h5⟩ := ih hsent.2 hsize.2 hfits.2 (fun b hb => hother b (by simp [hb])) r' hids.2
        (fun y hy => Nat.lt_of_le_of_lt h2 (hids.1 _ (List.mem_map.mpr ⟨y, hy, rfl⟩))) (by omega)
      refine ⟨x.batch.map (dest env) ++ evs, ?_, ?_⟩
      · rw [List.map_cons, loop, Chunk.bytes, if_neg (by omega), h1]
        dsimp only
        rw [h4]
      · rw [List.filter_append, h5]
        simp only [whole, List.flatMap_cons, List.map_append]
        congr 1
        rw [List.filter_eq_self]
        intro e he
        obtain ⟨m, -, rfl⟩ := List.mem_map.1 he
        unfold dest
        split <;> rfl
    | other b =>
      obtain ⟨e, he⟩ := rejected_err (keys := ⟨now.aux, some k :: rest, some now.sessionID⟩)
        ⟨ha, by
          intro k' hk'
          rcases List.mem_cons.1 hk' with rfl | hk'
          · intro b hb; cases hb; exact hk32
          · exact hrest k' hk', fun h => by cases h⟩ (hother b (by simp))
      have hskip : b.length = 0 ∨ b.length ≠ 0 := by omega
      rcases hskip with h0 | h0
      · obtain ⟨evs, h4, h5⟩ := ih hsent hsize hfits (fun b hb => hother b (by simp [hb])) r hids hnew (by omega)
        refine ⟨evs, ?_, h5⟩
        rw [List.map_cons, loop, Chunk.bytes, if_pos h0, h4]
      · obtain ⟨evs, h4, h5⟩ := ih hsent hsize hfits (fun b hb => hother b (by simp [hb]))
          { r with fails := r.fails + 1 } hids hnew (by dsimp only; omega)
        refine ⟨(decryptError cfg r.fails e).2.1 ++ evs, ?_, ?_⟩
        · rw [List.map_cons, loop, Chunk.bytes, if_neg h0, readerStep]
          dsimp only at he ⊢
          rw [he]
          have h6 : (decryptError cfg r.fails e).2.2 = true := by
            simp only [decryptError, decide_eq_true_eq]; omega
          have h7 : (decryptError cfg r.fails e).1 = r.fails + 1 := rfl
          simp only [h6, h7, h4]
        · rw [List.filter_append, h5]
          have : (decryptError cfg r.fails e).2.1.filter Traffic.isDelivery = [] := by
            unfold decryptError
            dsimp only
            split
            · split <;> rfl
            · rfl
          rw [this]
          rfl

/-- C90 (restriction that holds): everything arrives if each `Read` returns exactly one packet.  Missing: all other cuts. -/
theorem C90_packets_partial (C : Crypto) (scfg : Send.Cfg) (now : Send.Now) (k : Bytes) (hk : now.cipherKey = some k)
    (hk32 : k.length = 32) (ha : KeyOK now.aux) (cfg : Receive.Cfg) (hd : cfg.detachOnMessages = 0) (env : Env)
    (rest : List (Option Bytes)) (sent : List Sent) (hsent : ∀ x ∈ sent, x.By C scfg now)
    (hsize : ∀ x ∈ sent, (stream x.batch).length + 44 < 2 ^ 32) (hfits : ∀ x ∈ sent, ∀ m ∈ x.batch, m.Fits ∧ m.Whole)
    (r : Reader) (hids : (sent.map (·.id.toNat)).Pairwise (· < ·)) (hnew : ∀ x ∈ sent, latest r < x.id.toNat) :
    CutOf (sent.map (·.out)) sent ∧
    loop C cfg env ⟨now.aux, some k :: rest, some now.sessionID⟩ r (sent.map (·.out)) =
      .ok ((sent.flatMap (·.batch)).map (dest env), true) := by
  refine ⟨rfl, ?_⟩
  induction sent generalizing r with
  | nil => rfl
  | cons x xs ih =>
    simp only [List.map_cons, List.pairwise_cons, List.mem_cons, forall_eq_or_imp] at hsent hsize hfits hids hnew
    obtain ⟨hlen, r', h1, h2, -⟩ := packet_step C scfg now k hk hk32 ha cfg hd env rest x hsent.1 hsize.1 hfits.1 r hnew.1
    have h4 := ih hsent.2 hsize.2 hfits.2 r' hids.2
      (fun y hy => Nat.lt_of_le_of_lt h2 (hids.1 _ (List.mem_map.mpr ⟨y, hy, rfl⟩)))
    rw [List.map_cons, loop, if_neg (by omega), h1]
    dsimp only
    rw [h4]
    simp

/-- C90, violation: when one `Read` returns the packets of two or more `Write` calls at once, nothing of them arrives, whatever they
are; with the default `DetachOnSequentialDecryptFailsCount` the reader even ends, and the session with it.  The same for
any part of the stream that is not exactly a packet.  (`Rejected`: the bytes do not happen to be a forgery.) -/
theorem C90_violated (C : Crypto) (keys : Keys) (ok : KeysOK keys.aux keys.cipher keys.remote) (sent : List Sent)
    (hne : (sent.map (·.out)).flatten ≠ []) (hrej : Rejected C keys (sent.map (·.out)).flatten)
    (cfg : Receive.Cfg) (env : Env) (r : Reader) :
    CutOf [(sent.map (·.out)).flatten] sent ∧
    ∃ evs, loop C cfg env keys r [(sent.map (·.out)).flatten] = .ok (evs, decide (r.fails + 1 < cfg.detachOnFails)) ∧
      evs.filter Traffic.isDelivery = [] := by
  refine ⟨by simp [CutOf], ?_⟩
  obtain ⟨e, he⟩ := rejected_err ok hrej
  have hl : (sent.map (·.out)).flatten.length ≠ 0 := by
    intro h; exact hne (List.eq_nil_of_length_eq_zero h)
  generalize (sent.map (·.out)).flatten = b at *
  have hf : (decryptError cfg r.fails e).2.1.filter Traffic.isDelivery = [] := by
    unfold decryptError
    dsimp only
    split
    · split <;> rfl
    · rfl
  refine ⟨(decryptError cfg r.fails e).2.1, ?_, hf⟩
  rw [loop, if_neg hl, readerStep, he]
  have h6 : (decryptError cfg r.fails e).2.2 = decide (r.fails + 1 < cfg.detachOnFails) := by
    simp only [decryptError, ge_iff_le, Nat.not_le]
  dsimp only
  rw [h6]
  cases decide (r.fails + 1 < cfg.detachOnFails) with
  | true => simp [loop]
  | false => rfl

/-! A concrete stream: two packets with three messages (`exSent`), read by a session that knows the key. -/

def exKeys : Keys := ⟨none, [some (List.replicate 32 5)], some ⟨1, 2⟩⟩
def exCfg (n : Nat) : Receive.Cfg := ⟨0, 4, 65536, some 3, n⟩
def exReader : Reader := ⟨Rcv.init (exCfg 0), ⟨none, 0⟩, 0⟩
def exEnv : Env := ⟨fun _ => false, fun _ => true, fun _ => false⟩

/-- One `Read` that returns both packets loses all three messages, and ends the session with the default options; a packet cut in
two is lost; with one packet for each call everything arrives. -/
theorem C90_violated_witness :
    (exSent.map (·.out)).map List.length = [64, 54] ∧
    loop toy (exCfg 0) exEnv exKeys exReader (reads 1553 [118] (exSent.map (·.out)).flatten) = .ok ([], false) ∧
    loop toy (exCfg 9) exEnv exKeys exReader (reads 1553 [118] (exSent.map (·.out)).flatten) = .ok ([], true) ∧
    loop toy (exCfg 9) exEnv exKeys exReader (reads 1553 [63, 1, 54] (exSent.map (·.out)).flatten) = .ok ([.queued 7 [3]], true) ∧
    loop toy (exCfg 9) exEnv exKeys exReader (reads 1553 [64, 54] (exSent.map (·.out)).flatten) =
      .ok ([.queued 7 [1, 2], .queued 7 [], .queued 7 [3]], true) := by
  decide +kernel

theorem rejected_toy {b : Bytes}
    (h1 : ¬ MessagesOK toy (some (List.replicate 32 5)) (wirePacketID toy none b) (SessID.bytes ⟨1, 2⟩ ++ wirePacketID toy none b) (b.drop 8))
    (h2 : ¬ MessagesOK toy none (wirePacketID toy none b) (wirePacketID toy none b) (b.drop 8)) : Rejected toy exKeys b := by
  intro key iv hc hg
  rcases hc with ⟨h, -, s, hs, rfl⟩ | ⟨rfl, rfl⟩
  · simp only [exKeys, List.mem_singleton] at h
    cases hs
    subst h
    exact h1 hg.2
  · exact h2 hg.2

/-- The hypotheses of `C90_violated` and `C90_exact` for this stream. -/
example : (exSent.map (·.out)).flatten ≠ [] ∧ KeysOK exKeys.aux exKeys.cipher exKeys.remote ∧
    Rejected toy exKeys (exSent.map (·.out)).flatten ∧
    Rejected toy exKeys ((exSent.map (·.out)).flatten.take 63) ∧ Rejected toy exKeys (((exSent.map (·.out)).flatten.drop 63).take 1) := by
  refine ⟨by decide +kernel, ⟨(fun _ h => by cases h), ?_, (fun h => by cases h)⟩,
    rejected_toy ?_ ?_, rejected_toy ?_ ?_, rejected_toy ?_ ?_⟩
  · intro k hk b hb
    simp only [exKeys, List.mem_singleton] at hk
    subst hk; cases hb; rfl
  all_goals (unfold MessagesOK; decide +kernel)

/-! ## C91 -/

/-- C91 (restriction that holds): on a datagram backend a packet with application data is read whole if the established payload size
of the sender is not larger than the payload size limit of the receiver.  Missing: other sizes, see `C91_violated`. -/
theorem C91_partial (C : Crypto) (cfg : Send.Cfg) (now : Send.Now) (hk : KeyOK now.cipherKey) (ha : KeyOK now.aux) (job : Send.Job)
    (hc : job.confidential = true) (hi : job.internal = false) (out : Bytes) (h : Send.sendMessages C cfg now job = .ok out)
    (limit : Nat) (hle : cfg.established.toNat ≤ limit) : datagram (limit + 44 + 9) out = out := by
  have h1 := Send.C18_packet_size C cfg now hk ha job hc hi out h
  have h2 : Send.packetSize cfg ≤ cfg.established.toNat + 44 + 9 := Nat.mod_le _ _
  exact List.take_of_length_le (by omega)

/-- C91, violation: a message that `Write` has accepted is cut by the buffer of a receiver with a smaller payload size limit, and is
dropped; without negotiation the sender never learns about it.  (`Rejected`: the cut packet is no forgery.) -/
theorem C91_violated (C : Crypto) (keys : Keys) (ok : KeysOK keys.aux keys.cipher keys.remote) (out : Bytes) (limit : Nat)
    (hrej : Rejected C keys (datagram (limit + 44 + 9) out)) (hne : out ≠ []) (cfg : Receive.Cfg) (env : Env) (r : Reader) :
    ∃ evs, loop C cfg env keys r [datagram (limit + 44 + 9) out] = .ok (evs, decide (r.fails + 1 < cfg.detachOnFails)) ∧
      evs.filter Traffic.isDelivery = [] := by
  have := (C90_violated C keys ok [⟨0, [], datagram (limit + 44 + 9) out⟩] (by
    simp only [List.map_cons, List.map_nil, List.flatten_cons, List.flatten_nil, List.append_nil, datagram, ne_eq,
      List.take_eq_nil_iff, not_or]
    exact ⟨by omega, hne⟩) (by simpa using hrej) cfg env r).2
  simpa using this

/-- A message of 20 bytes to a receiver with the limit 19 (and the default options): it is accepted, nothing arrives and the session of
the receiver ends; with the limit 20 it arrives. -/
theorem C91_violated_witness : ∃ job out, Send.writeMessageAsync ⟨20, false, false⟩ 1 7 (List.replicate 20 9) = .now job ∧
    Send.sendMessages toy ⟨20, false, false⟩ { exNow with packetID := 5 } job = .ok out ∧ out.length = 73 ∧
    loop toy (exCfg 0) exEnv exKeys exReader [datagram (19 + 44 + 9) out] = .ok ([], false) ∧
    loop toy (exCfg 0) exEnv exKeys exReader [datagram (20 + 44 + 9) out] = .ok ([.queued 7 (List.replicate 20 9)], true) :=
  ⟨⟨true, false, Send.messageBytes 7 1 (List.replicate 20 9)⟩, _, by decide +kernel, rfl, by decide +kernel, by decide +kernel,
    by decide +kernel⟩

#print axioms C90_exact
#print axioms C90_packets_partial
#print axioms C90_violated
#print axioms C90_violated_witness
#print axioms C91_partial
#print axioms C91_violated
#print axioms C91_violated_witness

end Verif.ByteStream
