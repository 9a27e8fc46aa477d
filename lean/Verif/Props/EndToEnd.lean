import Verif.Props.Send
import Verif.Props.Packet
import Verif.Props.Receive
import Verif.Props.Reassembly
/-!
# Property theorem C63: end-to-end delivery
-/
namespace Verif.EndToEnd
open Verif.Headers Verif.Packet Verif.Receive

/-- The reader loop over packets from the transport, all effects in order; it must not stop. -/
def deliver (C : Crypto) (cfg : Receive.Cfg) (env : Env) (keys : Keys) :
    Reader → List Bytes → Outcome Unit (Reader × List Event)
  | r, [] => .ok (r, [])
  | r, p :: ps =>
    match readerStep C cfg env keys r p with
    | .ok (r', evs, true) =>
      match deliver C cfg env keys r' ps with
      | .ok (r'', evs') => .ok (r'', evs ++ evs')
      | x => x
    | .ok (_, _, false) => .err ()
    | .err e => .err e
    | .panic => .panic
    | .block => .block

/-- The highest packet ID the reader has seen (0 without a storage). -/
def latest (r : Reader) : Nat :=
  match r.ids.stor with
  | none => 0
  | some s => s.latest.toNat

theorem push_newer (s : PacketID.Stor) (id : W64) (h : s.latest.toNat < id.toNat) :
    ∃ s', PacketID.push s id = some (s', true) ∧ s'.latest = id := by
  unfold PacketID.push
  rw [if_pos (by exact h)]
  exact ⟨_, rfl, rfl⟩

theorem step_newer (r : Reader) (id : W64) (h : latest r < id.toNat) :
    ∃ ids, r.ids.step id = some (ids, true) ∧
      ∀ rcv n, latest { rcv := rcv, ids := ids, fails := n } ≤ id.toNat := by
  unfold PacketID.Check.step
  unfold latest at h
  cases hs : r.ids.stor with
  | none => exact ⟨_, rfl, fun rcv n => by simp [latest, hs]⟩
  | some s =>
    rw [hs] at h
    obtain ⟨s', h1, h2⟩ := push_newer s id h
    simp only [h1]
    exact ⟨_, rfl, fun rcv n => by simp [latest, h2]⟩

/-- `sendMessages` of a confidential job hands out exactly the sealed packet. -/
theorem send_sealed (C : Crypto) (cfg : Send.Cfg) (now : Send.Now) (job : Send.Job) (hc : job.confidential = true)
    (hk : KeyOK now.cipherKey) (ha : KeyOK now.aux) (hl : job.messages.length + 44 < 2 ^ 32) (out : Bytes)
    (h : Send.sendMessages C cfg now job = .ok out) :
    ∃ k, now.cipherKey = some k ∧
      sealPacket C now.aux (some k) now.sessionID true now.packetID job.messages = some out := by
  unfold Send.sendMessages at h
  rw [hc] at h
  simp only [if_true] at h
  cases hck : now.cipherKey with
  | none => rw [hck] at h; cases h
  | some k =>
    rw [hck] at h
    simp only [Option.map_some] at h
    split at h
    · cases h
    · split at h
      · cases h
      · obtain ⟨pkt, h1, h2, h3, h4⟩ := seal_spec C now.aux (some k) now.sessionID true now.packetID job.messages ha
          (by intro b hb; cases hb; exact hk k hck) (by intro h; cases h)
        rw [h1] at h
        have hmod : (containerHeadersSize + job.messages.length) % 2 ^ 32 = pkt.length := by
          rw [h2, Nat.mod_eq_of_lt]
          · unfold containerHeadersSize; omega
          · unfold containerHeadersSize; omega
        simp only at h
        rw [hmod, List.take_length] at h
        split at h
        · cases h
        · cases h; exact ⟨k, rfl, h1⟩

/-- What the sender did: a batch of messages sealed in one packet with a packet ID; all batches of a session
under one exchanged key. -/
structure Sent where
  id : W64
  batch : List Msg
  out : Bytes

/-- `x.out` is what `sendMessages` handed to the backend for the batch. -/
def Sent.By (C : Crypto) (cfg : Send.Cfg) (now : Send.Now) (x : Sent) : Prop :=
  ∃ internal, Send.sendMessages C cfg { now with packetID := x.id } ⟨true, internal, stream x.batch⟩ = .ok x.out

/-- C63: the sender hands messages, grouped into packets in any way, to a transport which delivers the packets
in order; their packet IDs increase, with any gaps.  The receiver, which has the sender's key (in any
position; `pre` are the keys it tries before: they must not validate the packet), delivers exactly the
messages written, in order, each to the destination of its type. -/
theorem C63_delivery (C : Crypto) (scfg : Send.Cfg) (now : Send.Now) (k : Bytes) (hk : now.cipherKey = some k)
    (hk32 : k.length = 32) (ha : KeyOK now.aux)
    (cfg : Receive.Cfg) (hd : cfg.detachOnMessages = 0) (env : Env) (pre rest : List (Option Bytes))
    (sent : List Sent) (hsent : ∀ x ∈ sent, x.By C scfg now)
    (hsize : ∀ x ∈ sent, (stream x.batch).length + 44 < 2 ^ 32)
    (hfits : ∀ x ∈ sent, ∀ m ∈ x.batch, m.Fits ∧ m.Whole)
    (hpre : ∀ x ∈ sent, ∀ k' ∈ pre, KeyOK k' ∧ (k' ≠ none →
          ¬ HeaderOK C k' (packetIDBytes x.id) (now.sessionID.bytes ++ packetIDBytes x.id) (x.out.drop 8)))
    (r : Reader) (hids : (sent.map (·.id.toNat)).Pairwise (· < ·)) (hnew : ∀ x ∈ sent, latest r < x.id.toNat) :
    ∃ r', deliver C cfg env ⟨now.aux, pre ++ some k :: rest, some now.sessionID⟩ r (sent.map (·.out)) =
      .ok (r', (sent.flatMap (·.batch)).map (dest env)) ∧ r'.rcv = r.rcv := by
  induction sent generalizing r with
  | nil => exact ⟨r, rfl, rfl⟩
  | cons x xs ih =>
    obtain ⟨internal, hx⟩ := hsent x (by simp)
    obtain ⟨k', e1, e2⟩ := send_sealed C scfg { now with packetID := x.id }
      ⟨true, internal, stream x.batch⟩ rfl
      (by intro b hb; have hb : now.cipherKey = some b := hb; rw [hk] at hb; cases hb; exact hk32) ha
      (hsize x (by simp)) _ hx
    have : k' = k := by
      have h1 : now.cipherKey = some k' := e1
      rw [hk] at h1; cases h1; rfl
    subst this
    obtain ⟨pkt, f1, f2, f3⟩ := C12_roundtrip_confidential C now.aux ha k' hk32 now.sessionID x.id
      (stream x.batch) (by have := hsize x (by simp); omega) pre rest
    have : pkt = x.out := by
      have := f1.symm.trans e2
      simpa using this
    subst this
    obtain ⟨h, d1, d2, d3⟩ := f3 (fun k' hk' => hpre x (by simp) k' hk')
    obtain ⟨ids, s1, s2⟩ := step_newer r x.id (hnew x (by simp))
    have hh : h.length = BitVec.ofNat 32 (stream x.batch).length := by
      apply BitVec.eq_of_toNat_eq
      rw [d3, BitVec.toNat_ofNat, Nat.mod_eq_of_lt]
      have := hsize x (by simp); omega
    have hagg := C11_aggregate cfg hd env r.rcv x.batch (fun m hm => (hfits x (by simp) m hm).1)
      (fun m hm => (hfits x (by simp) m hm).2) (by have := hsize x (by simp); omega)
    have hstep : readerStep C cfg env ⟨now.aux, pre ++ some k' :: rest, some now.sessionID⟩ r x.out =
        .ok ({ rcv := r.rcv, ids := ids, fails := 0 }, x.batch.map (dest env), true) := by
      unfold readerStep
      simp only [d1, d2, s1, hh, hagg]
    rw [List.map_cons, List.pairwise_cons] at hids
    obtain ⟨r', g1, g2⟩ := ih (fun y hy => hsent y (by simp [hy])) (fun y hy => hsize y (by simp [hy]))
      (fun y hy => hfits y (by simp [hy])) (fun y hy => hpre y (by simp [hy]))
      { rcv := r.rcv, ids := ids, fails := 0 } hids.2
      (fun y hy => Nat.lt_of_le_of_lt (s2 _ _) (hids.1 _ (List.mem_map.mpr ⟨y, hy, rfl⟩)))
    refine ⟨r', ?_, g2⟩
    rw [List.map_cons, deliver, hstep]
    simp only [g1, List.flatMap_cons, List.map_append]

/-- What a write of a payload that fits sends or appends to the delayed buffer is the wire form of the message
with the confidential flag, a whole message. -/
theorem plan_message (cfg : Send.Cfg) (chainID : W64) (t : W32) (ht : t ≠ typeKeyExchange) (m : Bytes)
    (hl : m.length < 2 ^ 32) (hfit : m.length ≤ cfg.established.toNat) :
    (Send.writeMessageAsync cfg chainID t m =
      if cfg.delay then .later (stream [⟨t, 1, m⟩]) else .now ⟨true, isInternal t, stream [⟨t, 1, m⟩]⟩) ∧
    Msg.Whole ⟨t, 1, m⟩ ∧ Msg.Fits ⟨t, 1, m⟩ := by
  have hfl : setIsConfidential 0 (t != typeKeyExchange) = 1 := by
    have : (t != typeKeyExchange) = true := by simpa using ht
    rw [this]; decide
  have hm : Send.len32 m = m.length := Nat.mod_eq_of_lt hl
  refine ⟨?_, show (1 : Byte).getLsbD 1 = false by decide, hl⟩
  have hb : Send.messageBytes t 1 m = stream [⟨t, 1, m⟩] := by
    simp [Send.messageBytes, stream, Msg.bytes, hm]
  unfold Send.writeMessageAsync
  rw [if_neg (by rw [hm]; omega)]
  simp only [hfl, Send.single, hb]
  cases cfg.delay <;> rfl

/-! A concrete session meeting the hypotheses. -/

def exNow : Send.Now := ⟨some (List.replicate 32 5), none, ⟨1, 2⟩, 0, true, false⟩
def exBatches : List (W64 × List Msg) := [(1, [⟨7, 1, [1, 2]⟩, ⟨7, 1, []⟩]), (4, [⟨7, 1, [3]⟩])]
def exSent : List Sent := exBatches.filterMap fun b =>
  match Send.sendMessages toy ⟨1024, false, true⟩ { exNow with packetID := b.1 } ⟨true, false, stream b.2⟩ with
  | .ok out => some ⟨b.1, b.2, out⟩
  | _ => none

example : exSent.length = 2 ∧ (exSent.map (·.id.toNat)).Pairwise (· < ·) ∧
    (∀ x ∈ exSent, x.By toy ⟨1024, false, true⟩ exNow) := by
  refine ⟨by decide +kernel, by decide +kernel, ?_⟩
  have : ∀ x ∈ exSent, Send.sendMessages toy ⟨1024, false, true⟩ { exNow with packetID := x.id }
      ⟨true, false, stream x.batch⟩ = .ok x.out := by
    decide +kernel
  exact fun x hx => ⟨false, this x hx⟩

/-! ## Fragmented messages -/

/-- A sent fragment: its packet ID, the number of the piece, and the packet. -/
structure SentPiece where
  id : W64
  piece : Nat
  out : Bytes

/-- The message with fragment header and piece number `j` of `m` cut into pieces of `n` bytes. -/
def pieceMsg (chainID : W64) (t : W32) (m : Bytes) (n j : Nat) : Msg :=
  ⟨t, 2, putLE 8 chainID.toNat ++ putLE 8 (j * n) ++ putLE 8 m.length ++ (m.drop (j * n)).take n⟩

theorem fragmentLoop_eq (chainID : W64) (m : Bytes) (n : Nat) (hn : 0 < n) (hl : m.length < 2 ^ 32)
    (fuel j : Nat) (hf : m.length - j * n ≤ fuel) :
    Send.fragmentLoop chainID m.length n fuel (j * n) (m.drop (j * n)) =
      some ((List.range' j ((m.length + n - 1) / n - j)).map fun i =>
        ⟨chainID, i * n, m.length, (m.drop (i * n)).take n⟩) := by
  induction fuel generalizing j with
  | zero =>
    have hd : m.drop (j * n) = [] := List.drop_eq_nil_of_le (by omega)
    have : ¬ j < (m.length + n - 1) / n := by rw [PendingChain.lt_ceil n _ j hn]; omega
    rw [hd, show (m.length + n - 1) / n - j = 0 by omega]
    simp [Send.fragmentLoop]
  | succ fuel ih =>
    by_cases hj : j * n < m.length
    · have hjc : j < (m.length + n - 1) / n := (PendingChain.lt_ceil n _ j hn).mpr hj
      have hlen : (m.drop (j * n)).length = m.length - j * n := List.length_drop
      have hmod : Send.len32 (m.drop (j * n)) = m.length - j * n := by
        rw [Send.len32, hlen, Nat.mod_eq_of_lt (by omega)]
      have hi := ih (j + 1) (by rw [Nat.add_mul]; omega)
      have hstep : Send.fragmentLoop chainID m.length n (fuel + 1) (j * n) (m.drop (j * n)) =
          (Send.fragmentLoop chainID m.length n fuel ((j + 1) * n) (m.drop ((j + 1) * n))).map
            (⟨chainID, j * n, m.length, (m.drop (j * n)).take n⟩ :: ·) := by
        generalize hp : m.drop (j * n) = p at *
        cases p with
        | nil => simp at hlen; omega
        | cons b bs =>
          rw [Send.fragmentLoop]
          · simp only [hmod]
            by_cases hgt : n > m.length - j * n
            · rw [if_pos hgt, ← hp]
              have e1 : (m.drop (j * n)).drop (m.length - j * n) = [] := by
                rw [List.drop_drop]; exact List.drop_eq_nil_of_le (by omega)
              have e2 : m.drop ((j + 1) * n) = [] := List.drop_eq_nil_of_le (by rw [Nat.add_mul]; omega)
              have e3 : (m.drop (j * n)).take (m.length - j * n) = (m.drop (j * n)).take n := by
                rw [List.take_of_length_le (by simp), List.take_of_length_le (by simp; omega)]
              have e4 : ∀ f p', Send.fragmentLoop chainID m.length n f p' [] = some [] := by
                intro f p'; unfold Send.fragmentLoop; rfl
              rw [e1, e2, e3, e4, e4]
            · rw [if_neg hgt, ← hp, List.drop_drop, Nat.add_mul, Nat.one_mul]
          · intro h; cases h
      rw [hstep, hi]
      have : (m.length + n - 1) / n - j = ((m.length + n - 1) / n - (j + 1)) + 1 := by omega
      rw [this, List.range'_succ]
      simp
    · have hd : m.drop (j * n) = [] := List.drop_eq_nil_of_le (by omega)
      have : ¬ j < (m.length + n - 1) / n := by rw [PendingChain.lt_ceil n _ j hn]; omega
      rw [hd, show (m.length + n - 1) / n - j = 0 by omega]
      simp [Send.fragmentLoop]

/-- The packets of a fragmented message, exactly. -/
theorem plan_pieces (cfg : Send.Cfg) (he : 25 ≤ cfg.established.toNat) (hf : cfg.fragmentation = true)
    (chainID : W64) (t : W32) (ht : t ≠ typeKeyExchange ∧ t ≠ typeNegotiation) (m : Bytes)
    (hl : m.length < 2 ^ 32) (hbig : cfg.established.toNat < m.length) :
    Send.writeMessageAsync cfg chainID t m =
      .fragmented ((List.range ((m.length + (cfg.established.toNat - 24) - 1) / (cfg.established.toNat - 24))).map
        fun j => ⟨false, false, Send.messageBytes t 2 (pieceMsg chainID t m (cfg.established.toNat - 24) j).payload⟩) := by
  have hmax : (cfg.established - BitVec.ofNat 32 fragmentHeadersSize).toNat = cfg.established.toNat - 24 := by
    rw [BitVec.toNat_sub]
    have := cfg.established.isLt
    simp only [fragmentHeadersSize, BitVec.toNat_ofNat]
    omega
  have h := fragmentLoop_eq chainID m (cfg.established.toNat - 24) (by omega) hl m.length 0 (by omega)
  simp only [Nat.zero_mul, List.drop_zero, Nat.sub_zero] at h
  have hint : isInternal t = false := by simp [isInternal, ht]
  have hm : Send.len32 m = m.length := Nat.mod_eq_of_lt hl
  unfold Send.writeMessageAsync
  rw [if_pos ⟨by rw [hm]; exact hbig, by simp [hint]⟩, if_neg (by simp [hf])]
  simp only [Send.fragments, hmax, h, List.map_map]
  congr 1
  rw [← List.range_eq_range']
  apply List.map_congr_left
  intro j _
  simp only [Function.comp_apply, Send.single, hint, Send.fragmentPayload, pieceMsg]
  rfl

/-- What an outcome of the reassembly makes the session do. -/
def outcomeEvents (env : Env) (t : W32) : Outcome PendingChain.MergeErr (Option Bytes) → List Event
  | .ok (some d) => [dest env ⟨t, 0, d⟩]
  | _ => []

/-- The reassembly state while it collects the message `id` in its slot. -/
def Collecting (cfg : Receive.Cfg) (id : Nat) (s : Rcv) (c : PendingChain.Chain) : Prop :=
  s.last = id ∧ s.pending[id % cfg.maxChainIDDiff]? = some c ∧ c.expected ≠ 0

theorem merge_expected (c c' : PendingChain.Chain) (p : Nat) (b : Bytes) (r : Option Bytes)
    (h : PendingChain.merge c p b = .ok (c', r)) : c'.expected = c.expected := by
  unfold PendingChain.merge at h
  split at h
  · cases h
  · simp only at h
    split at h
    · cases h
    · split at h
      · cases h
      · split at h
        · cases h
        · split at h
          · cases h
          · split at h <;> cases h <;> rfl

theorem fragStep_collecting (cfg : Receive.Cfg) (hdiff : 0 < cfg.maxChainIDDiff) (s : Rcv) (fh : FragHdr)
    (c : PendingChain.Chain) (h : Collecting cfg fh.chainID.toNat s c) (p : Bytes) :
    fragStep cfg s fh p = (mergeSlot c fh.startPos.toNat p).map fun r =>
      ({ s with pending := s.pending.set (fh.chainID.toNat % cfg.maxChainIDDiff) r.1 }, r.2) := by
  obtain ⟨h1, h2, h3⟩ := h
  unfold fragStep
  have : advance s fh.chainID.toNat = s := by unfold advance; rw [if_neg (by omega)]
  simp only [this]
  rw [if_neg (by omega), if_neg (by omega), h2]
  simp only [prepare, if_neg h3]

theorem fragRead_piece (chainID : W64) (t : W32) (m : Bytes) (n j : Nat) (hm : m.length < 2 ^ 64)
    (hj : j * n < 2 ^ 64) :
    FragHdr.read (pieceMsg chainID t m n j).payload =
      .ok ⟨chainID, BitVec.ofNat 64 (j * n), BitVec.ofNat 64 m.length⟩ ∧
    (pieceMsg chainID t m n j).payload.drop fragmentHeadersSize = (m.drop (j * n)).take n := by
  constructor
  · unfold FragHdr.read pieceMsg
    rw [if_neg (by simp [putLE_length, fragmentHeadersSize]; omega)]
    simp only [List.append_assoc, take_app (putLE_length 8 _), drop_app (putLE_length 8 _)]
    have a : ∀ v, v < 2 ^ 64 → getLE (putLE 8 v) = v := fun v hv => by
      rw [getLE_putLE, Nat.mod_eq_of_lt (by omega)]
    rw [ofNat_getLE_putLE64, a _ hj, a _ hm]
  · unfold pieceMsg
    exact drop_app (by simp [putLE_length, fragmentHeadersSize])

theorem isFragmented_two : isFragmented 2 = true := by decide

/-- One packet with one fragment. -/
theorem process_piece (cfg : Receive.Cfg) (hd : cfg.detachOnMessages = 0) (env : Env) (s : Rcv) (chainID : W64)
    (t : W32) (m : Bytes) (n j : Nat) (hm : m.length < 2 ^ 32) (hj : j * n < m.length) (hn : n + 24 < m.length) (hn2 : n + 77 < 2 ^ 32)
    (s' : Rcv) (r : Option Bytes)
    (hs : fragStep cfg s ⟨chainID, BitVec.ofNat 64 (j * n), BitVec.ofNat 64 m.length⟩ ((m.drop (j * n)).take n) =
      some (s', r)) (hr : r = none ∨ r = some m) :
    processIncomingMessages cfg env s (BitVec.ofNat 32 (pieceMsg chainID t m n j).bytes.length)
      (pieceMsg chainID t m n j).bytes = .ok (s', outcomeEvents env t (.ok r)) := by
  have hp : (pieceMsg chainID t m n j).payload.length ≤ 24 + n := by
    simp [pieceMsg, putLE_length]; omega
  have hfits : (pieceMsg chainID t m n j).Fits := by unfold Msg.Fits; omega
  obtain ⟨q1, q2⟩ := fragRead_piece chainID t m n j (by omega) (by omega)
  have e1 := read_bytes (pieceMsg chainID t m n j) hfits []
  obtain ⟨e2, e3⟩ := payload_bytes (pieceMsg chainID t m n j) []
  have hlen := bytes_length (pieceMsg chainID t m n j)
  have hlen32 := ofNat_len _ hfits
  rw [List.append_nil] at e1 e2 e3
  have htype : (pieceMsg chainID t m n j).type = t := rfl
  have hflags : (pieceMsg chainID t m n j).flags = 2 := rfl
  generalize pieceMsg chainID t m n j = pm at *
  unfold processIncomingMessages
  have e : (BitVec.ofNat 32 pm.bytes.length).toNat = pm.bytes.length := by
    rw [BitVec.toNat_ofNat, Nat.mod_eq_of_lt]; omega
  simp only [e, Nat.min_self, List.take_length]
  generalize hb : pm.bytes = b at *
  cases b with
  | nil => simp at hlen; omega
  | cons x xs =>
    rw [List.length_cons, loop]
    · rw [if_neg (by rw [hlen, messageHeadersSize]; omega), e1]
      dsimp only
      rw [hlen32, if_neg (by rw [hlen, messageHeadersSize]; omega), e2]
      simp only [counts_zero cfg hd, Bool.false_and, Bool.false_eq_true, if_false, processOne, hflags, isFragmented_two,
        if_true, q1, q2, hs]
      rcases hr with rfl | rfl
      · simp only [List.nil_append, hlen32, e3, loop_nil, outcomeEvents]
      · have hmm : (BitVec.ofNat 32 m.length).toNat = m.length := by
          rw [BitVec.toNat_ofNat, Nat.mod_eq_of_lt hm]
        simp only [hmm, List.take_length, htype]
        have : (x :: xs).drop (messageHeadersSize + m.length) = [] := by
          apply List.drop_eq_nil_of_le; rw [hlen, messageHeadersSize]; omega
        rw [this, loop_nil, List.nil_append]
        rw [show processIncomingMessage env t m = dest env ⟨t, 0, m⟩ from dest_eq env ⟨t, 0, m⟩]
        rfl
    · intro h; cases h

/-- The packet of a piece, as the sender seals it. -/
def SentPiece.By (C : Crypto) (cfg : Send.Cfg) (now : Send.Now) (chainID : W64) (t : W32) (m : Bytes)
    (x : SentPiece) : Prop :=
  Send.sendMessages C cfg { now with packetID := x.id }
    ⟨false, false, Send.messageBytes t 2 (pieceMsg chainID t m (cfg.established.toNat - 24) x.piece).payload⟩ = .ok x.out

/-- A receiver with these keys does not take the packet for one under an exchanged key. -/
def NoForgery (C : Crypto) (keys : Keys) (id : W64) (out : Bytes) : Prop :=
  (∀ k ∈ keys.cipher, k = none) ∨ ∃ s, keys.remote = some s ∧ ∀ k ∈ keys.cipher, KeyOK k ∧ (k ≠ none →
    ¬ HeaderOK C k (packetIDBytes id) (s.bytes ++ packetIDBytes id) (out.drop 8))

theorem send_sealed_aux (C : Crypto) (cfg : Send.Cfg) (now : Send.Now) (job : Send.Job) (hc : job.confidential = false)
    (ha : KeyOK now.aux) (hl : job.messages.length + 44 < 2 ^ 32) (out : Bytes)
    (h : Send.sendMessages C cfg now job = .ok out) :
    sealPacket C now.aux now.aux now.sessionID false now.packetID job.messages = some out := by
  unfold Send.sendMessages at h
  rw [hc] at h
  simp only [Bool.false_eq_true, if_false] at h
  split at h
  · cases h
  · split at h
    · cases h
    · obtain ⟨pkt, h1, h2, h3, h4⟩ := seal_spec C now.aux now.aux now.sessionID false now.packetID job.messages ha ha id
      rw [h1] at h
      have hmod : (containerHeadersSize + job.messages.length) % 2 ^ 32 = pkt.length := by
        rw [h2, Nat.mod_eq_of_lt]
        · unfold containerHeadersSize; omega
        · unfold containerHeadersSize; omega
      simp only at h
      split at h
      · cases h
      · rw [h1, ← Outcome.ok.inj h]
        cases now.aux with
        | none => rfl
        | some a => simp only; rw [hmod, List.take_length]

/-- One packet with a piece arrives. -/
theorem readerStep_piece (C : Crypto) (scfg : Send.Cfg) (now : Send.Now) (ha : KeyOK now.aux)
    (cfg : Receive.Cfg) (hd : cfg.detachOnMessages = 0) (env : Env) (keys : Keys) (hka : keys.aux = now.aux)
    (chainID : W64) (t : W32) (m : Bytes) (hm : m.length < 2 ^ 32) (he : 25 ≤ scfg.established.toNat)
    (he2 : scfg.established.toNat + 53 < 2 ^ 32) (hbig : scfg.established.toNat < m.length) (x : SentPiece) (hx : x.By C scfg now chainID t m)
    (hj : x.piece * (scfg.established.toNat - 24) < m.length)
    (hnf : NoForgery C keys x.id x.out) (r : Reader) (hnew : latest r < x.id.toNat)
    (s' : Rcv) (res : Option Bytes)
    (hs : fragStep cfg r.rcv ⟨chainID, BitVec.ofNat 64 (x.piece * (scfg.established.toNat - 24)),
        BitVec.ofNat 64 m.length⟩ ((m.drop (x.piece * (scfg.established.toNat - 24))).take (scfg.established.toNat - 24)) =
      some (s', res)) (hr : res = none ∨ res = some m) :
    ∃ r', readerStep C cfg env keys r x.out = .ok (r', outcomeEvents env t (.ok res), true) ∧
      r'.rcv = s' ∧ latest r' ≤ x.id.toNat := by
  have hb : Send.messageBytes t 2 (pieceMsg chainID t m (scfg.established.toNat - 24) x.piece).payload =
      (pieceMsg chainID t m (scfg.established.toNat - 24) x.piece).bytes := by
    have hp : (pieceMsg chainID t m (scfg.established.toNat - 24) x.piece).payload.length < 2 ^ 32 := by
      have := scfg.established.isLt
      simp [pieceMsg, putLE_length]; omega
    simp only [Send.messageBytes, Msg.bytes, Send.len32, Nat.mod_eq_of_lt hp, List.append_assoc]
    rfl
  have hbl : (pieceMsg chainID t m (scfg.established.toNat - 24) x.piece).bytes.length ≤ 9 + scfg.established.toNat := by
    rw [bytes_length]
    simp [pieceMsg, putLE_length]; omega
  unfold SentPiece.By at hx
  rw [hb] at hx
  have hlen44 : (pieceMsg chainID t m (scfg.established.toNat - 24) x.piece).bytes.length + 44 < 2 ^ 32 := by
    omega
  have e2 := send_sealed_aux C scfg { now with packetID := x.id } _ rfl ha hlen44 _ hx
  obtain ⟨pkt, f1, f2, f3⟩ := C12_roundtrip_aux C now.aux ha now.sessionID x.id
    (pieceMsg chainID t m (scfg.established.toNat - 24) x.piece).bytes (by omega) keys.cipher keys.remote
  have : pkt = x.out := by
    have := f1.symm.trans e2
    simpa using this
  subst this
  obtain ⟨h, d1, d2, d3⟩ := f3 hnf
  obtain ⟨ids, s1, s2⟩ := step_newer r x.id hnew
  have hh : h.length = BitVec.ofNat 32 (pieceMsg chainID t m (scfg.established.toNat - 24) x.piece).bytes.length := by
    apply BitVec.eq_of_toNat_eq
    rw [d3, BitVec.toNat_ofNat, Nat.mod_eq_of_lt (by omega)]
  have hproc := process_piece cfg hd env r.rcv chainID t m (scfg.established.toNat - 24) x.piece hm hj (by omega) (by omega) s' res hs hr
  refine ⟨{ rcv := s', ids := ids, fails := 0 }, ?_, rfl, s2 _ _⟩
  unfold readerStep
  rw [hka, d1]
  simp only [d2, s1, hh, hproc]

theorem deliver_pieces (C : Crypto) (scfg : Send.Cfg) (now : Send.Now) (ha : KeyOK now.aux)
    (cfg : Receive.Cfg) (hd : cfg.detachOnMessages = 0) (hdiff : 0 < cfg.maxChainIDDiff) (env : Env) (keys : Keys)
    (hka : keys.aux = now.aux)
    (chainID : W64) (t : W32) (m : Bytes) (hm : m.length < 2 ^ 32) (he : 25 ≤ scfg.established.toNat)
    (he2 : scfg.established.toNat + 53 < 2 ^ 32) (hbig : scfg.established.toNat < m.length)
    (xs : List SentPiece) (hx : ∀ x ∈ xs, x.By C scfg now chainID t m)
    (hj : ∀ x ∈ xs, x.piece * (scfg.established.toNat - 24) < m.length)
    (hnf : ∀ x ∈ xs, NoForgery C keys x.id x.out) (hids : (xs.map (·.id.toNat)).Pairwise (· < ·))
    (r : Reader) (hnew : ∀ x ∈ xs, latest r < x.id.toNat) (s1 : Rcv) (c : PendingChain.Chain)
    (hc : Collecting cfg chainID.toNat s1 c)
    (hfs : ∀ sp p, fragStep cfg r.rcv ⟨chainID, sp, BitVec.ofNat 64 m.length⟩ p =
      fragStep cfg s1 ⟨chainID, sp, BitVec.ofNat 64 m.length⟩ p)
    (hgood : ∀ o ∈ PendingChain.feed c (xs.map fun x => Spec.chunk m (scfg.established.toNat - 24) x.piece),
      o = .ok none ∨ o = .ok (some m) ∨ ∃ e, o = .err e) :
    ∃ r', deliver C cfg env keys r (xs.map (·.out)) =
      .ok (r', (PendingChain.feed c (xs.map fun x => Spec.chunk m (scfg.established.toNat - 24) x.piece)).flatMap
        (outcomeEvents env t)) := by
  induction xs generalizing r s1 c with
  | nil => exact ⟨r, rfl⟩
  | cons x xs ih =>
    have hstart : (BitVec.ofNat 64 (x.piece * (scfg.established.toNat - 24))).toNat =
        x.piece * (scfg.established.toNat - 24) := by
      have := hj x (by simp)
      rw [BitVec.toNat_ofNat, Nat.mod_eq_of_lt (by omega)]
    have hf := hfs (BitVec.ofNat 64 (x.piece * (scfg.established.toNat - 24)))
      ((m.drop (x.piece * (scfg.established.toNat - 24))).take (scfg.established.toNat - 24))
    rw [fragStep_collecting cfg hdiff s1 _ c hc] at hf
    simp only [hstart] at hf
    have hpw := hids
    rw [List.map_cons, List.pairwise_cons] at hpw
    -- the chain after this fragment, and its outcome
    have key : ∀ c' res o, mergeSlot c (x.piece * (scfg.established.toNat - 24))
          ((m.drop (x.piece * (scfg.established.toNat - 24))).take (scfg.established.toNat - 24)) = some (c', res) →
        (res = none ∨ res = some m) → c'.expected = c.expected → outcomeEvents env t (.ok res) = outcomeEvents env t o →
        PendingChain.feed c (Spec.chunk m (scfg.established.toNat - 24) x.piece ::
            xs.map fun x => Spec.chunk m (scfg.established.toNat - 24) x.piece) =
          o :: PendingChain.feed c' (xs.map fun x => Spec.chunk m (scfg.established.toNat - 24) x.piece) →
        ∃ r', deliver C cfg env keys r ((x :: xs).map (·.out)) =
          .ok (r', (PendingChain.feed c ((x :: xs).map fun x => Spec.chunk m (scfg.established.toNat - 24) x.piece)).flatMap
            (outcomeEvents env t)) := by
      intro c' res o h1 h2 h3 h4 h5
      rw [h1, Option.map_some] at hf
      obtain ⟨r1, g1, g2, g3⟩ := readerStep_piece C scfg now ha cfg hd env keys hka chainID t m hm he he2 hbig x
        (hx x (by simp)) (hj x (by simp)) (hnf x (by simp)) r (hnew x (by simp)) _ res hf h2
      have hlt : chainID.toNat % cfg.maxChainIDDiff < s1.pending.length := by
        have := hc.2.1
        rw [List.getElem?_eq_some_iff] at this
        exact this.1
      obtain ⟨r2, i1⟩ := ih (fun y hy => hx y (by simp [hy])) (fun y hy => hj y (by simp [hy]))
        (fun y hy => hnf y (by simp [hy])) hpw.2 r1
        (fun y hy => Nat.lt_of_le_of_lt g3 (hpw.1 _ (List.mem_map.mpr ⟨y, hy, rfl⟩)))
        { s1 with pending := s1.pending.set (chainID.toNat % cfg.maxChainIDDiff) c' } c'
        ⟨hc.1, List.getElem?_set_self hlt, by rw [h3]; exact hc.2.2⟩ (fun sp p => by rw [g2])
        (fun o' ho' => hgood o' (by rw [List.map_cons, h5]; exact List.mem_cons_of_mem _ ho'))
      refine ⟨r2, ?_⟩
      rw [List.map_cons, deliver, g1]
      simp only [i1, List.map_cons, h5, List.flatMap_cons, h4]
    cases hmg : PendingChain.merge c (x.piece * (scfg.established.toNat - 24))
        ((m.drop (x.piece * (scfg.established.toNat - 24))).take (scfg.established.toNat - 24)) with
    | ok cr =>
      obtain ⟨c', res⟩ := cr
      have h5 : PendingChain.feed c (Spec.chunk m (scfg.established.toNat - 24) x.piece ::
            xs.map fun x => Spec.chunk m (scfg.established.toNat - 24) x.piece) =
          .ok res :: PendingChain.feed c' (xs.map fun x => Spec.chunk m (scfg.established.toNat - 24) x.piece) := by
        simp only [PendingChain.feed, Spec.chunk, hmg]
      have hg := hgood (.ok res) (by rw [List.map_cons, h5]; exact List.mem_cons_self)
      refine key c' res (.ok res) (by unfold mergeSlot; rw [hmg]) ?_ (merge_expected _ _ _ _ _ hmg) rfl h5
      rcases hg with h | h | ⟨e, h⟩
      · left; simpa using h
      · right; simpa using h
      · cases h
    | err e =>
      have h5 : PendingChain.feed c (Spec.chunk m (scfg.established.toNat - 24) x.piece ::
            xs.map fun x => Spec.chunk m (scfg.established.toNat - 24) x.piece) =
          .err e :: PendingChain.feed c (xs.map fun x => Spec.chunk m (scfg.established.toNat - 24) x.piece) := by
        simp only [PendingChain.feed, Spec.chunk, hmg]
      exact key c none (.err e) (by unfold mergeSlot; rw [hmg]) (.inl rfl) rfl rfl h5
    | panic =>
      have h5 : PendingChain.feed c (Spec.chunk m (scfg.established.toNat - 24) x.piece ::
            xs.map fun x => Spec.chunk m (scfg.established.toNat - 24) x.piece) = [.panic] := by
        simp only [PendingChain.feed, Spec.chunk, hmg]
      rcases hgood .panic (by rw [List.map_cons, h5]; exact List.mem_cons_self) with h | h | ⟨e, h⟩ <;> cases h
    | block =>
      have h5 : PendingChain.feed c (Spec.chunk m (scfg.established.toNat - 24) x.piece ::
            xs.map fun x => Spec.chunk m (scfg.established.toNat - 24) x.piece) = [.block] := by
        simp only [PendingChain.feed, Spec.chunk, hmg]
      rcases hgood .block (by rw [List.map_cons, h5]; exact List.mem_cons_self) with h | h | ⟨e, h⟩ <;> cases h

theorem deliverWhenAll_good (len n : Nat) (m : Bytes) (js seen : List Nat) :
    ∀ o ∈ Spec.deliverWhenAll len n m seen js, o = .ok none ∨ o = .ok (some m) ∨ ∃ e, o = .err e := by
  induction js generalizing seen with
  | nil => simp [Spec.deliverWhenAll]
  | cons j js ih =>
    intro o ho
    simp only [Spec.deliverWhenAll] at ho
    split at ho
    · rcases List.mem_cons.mp ho with rfl | h
      · exact .inr (.inr ⟨_, rfl⟩)
      · exact ih _ o h
    · rcases List.mem_cons.mp ho with rfl | h
      · split
        · exact .inr (.inl rfl)
        · exact .inl rfl
      · exact ih _ o h

theorem deliverWhenAll_events (env : Env) (t : W32) (len n : Nat) (m : Bytes) (js seen : List Nat) :
    (Spec.deliverWhenAll len n m seen js).flatMap (outcomeEvents env t) =
      if (List.range ((len + n - 1) / n)).all (· ∈ seen) then []
      else if (List.range ((len + n - 1) / n)).all (· ∈ seen ++ js) then [dest env ⟨t, 0, m⟩] else [] := by
  induction js generalizing seen with
  | nil =>
    rw [List.append_nil]
    split
    · rfl
    · rfl
  | cons j js ih =>
    simp only [Spec.deliverWhenAll]
    by_cases h : (List.range ((len + n - 1) / n)).all (· ∈ seen) = true
    · rw [if_pos h, if_pos h, List.flatMap_cons, ih, if_pos h]; rfl
    · rw [if_neg h, if_neg h, List.flatMap_cons, ih]
      by_cases h2 : (List.range ((len + n - 1) / n)).all (· ∈ seen ++ [j]) = true
      · rw [if_pos h2, if_pos h2, if_pos]
        · rfl
        · rw [List.all_eq_true] at h2 ⊢
          intro x hx
          have := h2 x hx
          simp only [List.mem_append, List.mem_cons, List.not_mem_nil, or_false, decide_eq_true_eq] at this ⊢
          rcases this with h | h
          · exact .inl h
          · exact .inr (.inl h)
      · rw [if_neg h2, if_neg h2]
        rw [List.append_assoc]
        rfl

/-- C63 for a fragmented message (and pieces of at least 64 bytes): the packets of its fragments, sent and
received in any order of the pieces, with increasing packet IDs, make the receiver deliver exactly the message,
once, when all pieces have arrived, and nothing before.
`hpieces`: the packets carry pieces of the message (`plan_pieces` shows that these are what
`WriteMessageAsync` sends).  The slot of the chain ID must not have held a longer message before
(see C23). -/
theorem C63_fragmented_partial (C : Crypto) (scfg : Send.Cfg) (now : Send.Now) (ha : KeyOK now.aux)
    (cfg : Receive.Cfg) (hd : cfg.detachOnMessages = 0) (ok : CfgOK cfg) (env : Env) (keys : Keys)
    (hka : keys.aux = now.aux)
    (chainID : W64) (t : W32) (m : Bytes) (hm : m.length < 2 ^ 32) (hmax : m.length ≤ cfg.maxFragmented)
    (he : 88 ≤ scfg.established.toNat) (he2 : scfg.established.toNat + 53 < 2 ^ 32)
    (hbig : scfg.established.toNat < m.length)
    (xs : List SentPiece) (hx : ∀ x ∈ xs, x.By C scfg now chainID t m)
    (hpieces : ∀ x ∈ xs, x.piece * (scfg.established.toNat - 24) < m.length)
    (hnf : ∀ x ∈ xs, NoForgery C keys x.id x.out) (hids : (xs.map (·.id.toNat)).Pairwise (· < ·))
    (r : Reader) (hinv : Receive.Inv cfg r.rcv) (hnew : ∀ x ∈ xs, latest r < x.id.toNat)
    (hlast : r.rcv.last < chainID.toNat) (hfresh : ∀ c ∈ r.rcv.pending, c.data.length ≤ m.length) :
    ∃ r' evs, deliver C cfg env keys r (xs.map (·.out)) = .ok (r', evs) ∧
      ((∀ j, j * (scfg.established.toNat - 24) < m.length → ∃ x ∈ xs, x.piece = j) →
        evs = [dest env ⟨t, 0, m⟩]) ∧
      (¬ (∀ j, j * (scfg.established.toNat - 24) < m.length → ∃ x ∈ xs, x.piece = j) → evs = []) := by
  have hlt : chainID.toNat % cfg.maxChainIDDiff < r.rcv.pending.length := by
    rw [hinv.len]; exact Nat.mod_lt _ ok.diff
  have hmem : r.rcv.pending[chainID.toNat % cfg.maxChainIDDiff] ∈ r.rcv.pending := List.getElem_mem hlt
  have hslot := (slotInv_reset cfg _ (hinv.slots _ hmem)).slot
  have hd0 := hfresh _ hmem
  generalize hold : r.rcv.pending[chainID.toNat % cfg.maxChainIDDiff] = old at *
  have hfeed := PendingChain.C22_delivered_when_all_partial (PendingChain.reset old) hslot m (by omega)
    (scfg.established.toNat - 24) (by omega) (xs.map (·.piece))
    (by intro j hj; obtain ⟨x, h1, rfl⟩ := List.mem_map.mp hj; exact hpieces x h1) (by simpa [PendingChain.reset] using hd0)
  rw [List.map_map] at hfeed
  obtain ⟨h1, h2, -, -, -⟩ := PendingChain.init_wf (PendingChain.reset old) hslot m.length
  obtain ⟨r', hr'⟩ := deliver_pieces C scfg now ha cfg hd ok.diff env keys hka chainID t m hm (by omega) he2 hbig xs hx
    hpieces hnf hids r hnew
    { r.rcv with last := chainID.toNat
                 pending := (r.rcv.pending.map PendingChain.reset).set (chainID.toNat % cfg.maxChainIDDiff)
                    (PendingChain.init (PendingChain.reset old) m.length) }
    (PendingChain.init (PendingChain.reset old) m.length)
    ⟨rfl, by simp only; rw [List.getElem?_set_self (by simpa using hlt)], by rw [h2]; omega⟩
    (by
      intro sp p
      have hl2 : ∀ s : Rcv, s.last = chainID.toNat → advance s chainID.toNat = s := by
        intro s hs; unfold advance; rw [if_neg (by omega)]
      have hadv : advance r.rcv chainID.toNat =
          { r.rcv with last := chainID.toNat, pending := r.rcv.pending.map PendingChain.reset } := by
        unfold advance; rw [if_pos hlast]
      have htot : (BitVec.ofNat 64 m.length).toNat = m.length := by
        rw [BitVec.toNat_ofNat, Nat.mod_eq_of_lt (by omega)]
      unfold fragStep
      simp only [hadv, hl2, htot, Nat.sub_self]
      rw [if_neg (by omega), if_neg (by have := ok.diff; omega)]
      rw [List.getElem?_set_self (by simpa using hlt), List.getElem?_map, List.getElem?_eq_getElem hlt, hold]
      have hne : (PendingChain.init (PendingChain.reset old) m.length).expected ≠ 0 := by rw [h2]; omega
      have hzero : (PendingChain.reset old).expected = 0 := rfl
      simp only [Option.map_some, prepare, hzero, if_true]
      rw [if_neg (by omega), if_neg hne]
      simp only [List.set_set]
      rw [if_neg (by omega), if_neg (by have := ok.diff; omega)])
    (by
      have : (fun x : SentPiece => Spec.chunk m (scfg.established.toNat - 24) x.piece) =
        Spec.chunk m (scfg.established.toNat - 24) ∘ (·.piece) := rfl
      rw [this, hfeed]
      exact deliverWhenAll_good _ _ _ _ _)
  refine ⟨r', _, hr', ?_⟩
  have : (fun x : SentPiece => Spec.chunk m (scfg.established.toNat - 24) x.piece) =
        Spec.chunk m (scfg.established.toNat - 24) ∘ (·.piece) := rfl
  rw [this, hfeed, deliverWhenAll_events, List.nil_append]
  have hpos : 0 < (m.length + (scfg.established.toNat - 24) - 1) / (scfg.established.toNat - 24) :=
    (PendingChain.lt_ceil _ _ 0 (by omega)).mpr (by omega)
  rw [if_neg]
  · have hiff : ((List.range ((m.length + (scfg.established.toNat - 24) - 1) / (scfg.established.toNat - 24))).all
        (· ∈ xs.map (·.piece)) = true) ↔
        ∀ j, j * (scfg.established.toNat - 24) < m.length → ∃ x ∈ xs, x.piece = j := by
      rw [List.all_eq_true]
      constructor
      · intro h j hj
        simpa using h j (List.mem_range.mpr ((PendingChain.lt_ceil _ _ j (by omega)).mpr hj))
      · intro h j hj
        simpa using h j ((PendingChain.lt_ceil _ _ j (by omega)).mp (List.mem_range.mp hj))
    exact ⟨fun hall => if_pos (hiff.mpr hall), fun hall => if_neg (fun h => hall (hiff.mp h))⟩
  · intro h
    rw [List.all_eq_true] at h
    have := h 0 (List.mem_range.mpr hpos)
    simp at this

/-! A concrete message of 3 pieces, the pieces in the order 2, 0, 1. -/

def exMsg : Bytes := List.replicate 150 7
def exPieces : List SentPiece := [(3, 2), (4, 0), (9, 1)].filterMap fun x =>
  match Send.sendMessages toy ⟨88, true, true⟩ { exNow with packetID := x.1 }
      ⟨false, false, Send.messageBytes 7 2 (pieceMsg 5 7 exMsg 64 x.2).payload⟩ with
  | .ok out => some ⟨x.1, x.2, out⟩
  | _ => none

example : exPieces.length = 3 ∧ (exPieces.map (·.id.toNat)).Pairwise (· < ·) ∧
    (∀ x ∈ exPieces, x.By toy ⟨88, true, true⟩ exNow 5 7 exMsg) ∧ (∀ x ∈ exPieces, x.piece * 64 < exMsg.length) := by
  refine ⟨by decide +kernel, by decide +kernel, ?_, by decide +kernel⟩
  unfold SentPiece.By
  decide +kernel

example : let cfg : Receive.Cfg := ⟨0, 8, 1024, none, 10⟩
    CfgOK cfg ∧ Receive.Inv cfg (Rcv.init cfg) ∧ (∀ c ∈ (Rcv.init cfg).pending, c.data.length ≤ exMsg.length) :=
  ⟨⟨by decide, by decide⟩, inv_init _, by decide +kernel⟩

#print axioms C63_delivery
#print axioms plan_message
#print axioms plan_pieces
#print axioms C63_fragmented_partial

end Verif.EndToEnd
