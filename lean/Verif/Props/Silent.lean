import Verif.Props.Receive
import Verif.Props.Send
/-!
# C131: a message that is dropped is reported

`Error` "is called when there's an error occurred which is nowhere else to return to" (event_handler.go:9-11). A message of
an accepted packet that is not handed to anybody is such a case.
-/
namespace Verif.Receive
open Verif.Headers Verif.PendingChain

/-- The message was handed over. -/
def Event.delivers : Event → Bool
  | .handled _ _ | .queued _ _ => true
  | _ => false

/-- `Error` of the event handler was called. -/
def Event.reports : Event → Bool
  | .errTooShort _ | .errFragmentHeaders _ | .errDecrypt _ => true
  | _ => false

/-- C131, what holds: of a packet without fragments each complete message is handed over, if its type has a handler or a
queue, and an incomplete rest is reported. Missing for C131: fragments, and messages of other types. -/
theorem C131_partial (cfg : Cfg) (hd : cfg.detachOnMessages = 0) (env : Env) (s : Rcv) (length : W32) (b : Bytes)
    (ms : List Msg) (tail : Bytes) (he : b.take length.toNat = stream ms ++ tail) (hi : Incomplete tail)
    (hf : ∀ m ∈ ms, Msg.Fits m) (hw : ∀ m ∈ ms, m.Whole)
    (hk : ∀ m ∈ ms, env.hasMessenger m.type = true ∨ env.hasChan m.type = true) :
    ∃ evs, processIncomingMessages cfg env s length b = .ok (s, evs) ∧
      evs.countP Event.delivers = ms.length ∧ evs.countP Event.reports = (if tail = [] then 0 else 1) ∧
      ∀ m ∈ ms, .handled m.type m.payload ∈ evs ∨ .queued m.type m.payload ∈ evs := by
  obtain ⟨report, h1, h2⟩ := (C10_parser cfg hd env s length b).2 ms tail he hi hf hw
  refine ⟨_, h2, ?_, ?_, ?_⟩
  · have h3 : report.countP Event.delivers = 0 := by
      unfold tailReport at h1
      split at h1
      · rw [h1]; rfl
      · obtain ⟨n, -, rfl⟩ := h1; rfl
    rw [List.countP_append, h3, List.countP_map, Nat.add_zero, List.countP_eq_length]
    intro m hm
    simp only [Function.comp, dest]
    rcases hk m hm with h | h <;> rw [h]
    · rfl
    · cases env.hasMessenger m.type <;> rfl
  · have h3 : (ms.map (dest env)).countP Event.reports = 0 := by
      rw [List.countP_eq_zero]
      intro e he
      obtain ⟨m, -, rfl⟩ := List.mem_map.1 he
      unfold dest
      split <;> simp [Event.reports]
    rw [List.countP_append, h3, Nat.zero_add]
    unfold tailReport at h1
    split at h1
    · rename_i ht; rw [h1, if_pos ht]; rfl
    · rename_i ht
      obtain ⟨n, -, rfl⟩ := h1
      rw [if_neg ht]; rfl
  · intro m hm
    have hm2 : dest env m ∈ ms.map (dest env) ++ report := List.mem_append.2 (.inl (List.mem_map_of_mem hm))
    unfold dest at hm2
    rcases hk m hm with h | h <;> rw [h] at hm2
    · exact .inl hm2
    · cases h4 : env.hasMessenger m.type <;> rw [h4] at hm2
      · exact .inr hm2
      · exact .inl hm2

/-- C131 is violated by messages of a type that has no handler and no queue: they vanish, and nothing is reported. -/
theorem C131_violated_type (cfg : Cfg) (hd : cfg.detachOnMessages = 0) (env : Env) (s : Rcv) (ms : List Msg)
    (hf : ∀ m ∈ ms, m.Fits) (hw : ∀ m ∈ ms, m.Whole) (hl : (stream ms).length < 2 ^ 32)
    (hk : ∀ m ∈ ms, env.hasMessenger m.type = false ∧ env.hasChan m.type = false) :
    ∃ evs, processIncomingMessages cfg env s (BitVec.ofNat 32 (stream ms).length) (stream ms) = .ok (s, evs) ∧
      ∀ e ∈ evs, e.delivers = false ∧ e.reports = false := by
  refine ⟨_, C11_aggregate cfg hd env s ms hf hw hl, ?_⟩
  intro e he
  obtain ⟨m, hm, rfl⟩ := List.mem_map.1 he
  simp [dest, (hk m hm).1, (hk m hm).2, Event.delivers, Event.reports]

/-- No message is being put together. -/
def Idle (s : Rcv) : Prop := ∀ c ∈ s.pending, c.expected = 0

/-- A fragment of a message that is too big for the receiver leaves no trace. -/
theorem fragStep_big (cfg : Cfg) (hc : 0 < cfg.maxChainIDDiff) (s : Rcv) (hlen : s.pending.length = cfg.maxChainIDDiff)
    (fh : FragHdr) (hs : s.last < fh.chainID.toNat ∨ Idle s) (p : Bytes) (hbig : cfg.maxFragmented < fh.total.toNat) :
    ∃ s', fragStep cfg s fh p = some (s', none) ∧ s'.pending.length = cfg.maxChainIDDiff ∧ Idle s' := by
  have h1 : (advance s fh.chainID.toNat).pending.length = cfg.maxChainIDDiff ∧ Idle (advance s fh.chainID.toNat) := by
    unfold advance
    split
    · refine ⟨by simpa using hlen, ?_⟩
      intro c hc
      obtain ⟨d, -, rfl⟩ := List.mem_map.1 hc
      rfl
    · rename_i h
      rcases hs with h2 | h2
      · exact absurd h2 h
      · exact ⟨hlen, h2⟩
  refine ⟨advance s fh.chainID.toNat, ?_, h1⟩
  unfold fragStep
  simp only
  generalize advance s fh.chainID.toNat = t at h1
  split
  · rfl
  · rw [if_neg (by omega)]
    have hlt : fh.chainID.toNat % cfg.maxChainIDDiff < t.pending.length := by
      rw [h1.1]; exact Nat.mod_lt _ hc
    rw [List.getElem?_eq_getElem hlt]
    simp only
    have : prepare cfg t.pending[fh.chainID.toNat % cfg.maxChainIDDiff] fh.total.toNat = none := by
      unfold prepare
      rw [if_pos (h1.2 _ (List.getElem_mem hlt)), if_pos hbig]
    rw [this]

theorem packet_big (cfg : Cfg) (hd : cfg.detachOnMessages = 0) (hc : 0 < cfg.maxChainIDDiff) (env : Env) (s : Rcv)
    (hlen : s.pending.length = cfg.maxChainIDDiff) (t : W32) (id start total : Nat) (hid : id < 2 ^ 64) (htot : total < 2 ^ 64)
    (p : Bytes) (hp : p.length < 2 ^ 31) (hs : s.last < id ∨ Idle s) (hbig : cfg.maxFragmented < total) :
    let b := (Msg.mk t 2 (putLE 8 id ++ putLE 8 start ++ putLE 8 total ++ p)).bytes
    ∃ s', processIncomingMessages cfg env s (BitVec.ofNat 32 b.length) b = .ok (s', []) ∧
      s'.pending.length = cfg.maxChainIDDiff ∧ Idle s' := by
  intro b
  let m : Msg := Msg.mk t 2 (putLE 8 id ++ putLE 8 start ++ putLE 8 total ++ p)
  have hpl : m.payload.length = 24 + p.length := by simp [m, putLE_length]; omega
  have hfits : m.Fits := by unfold Msg.Fits; omega
  have hbl : b.length = 33 + p.length := by show m.bytes.length = _; rw [bytes_length, hpl]; omega
  have hfr : FragHdr.read m.payload = .ok ⟨BitVec.ofNat 64 id, BitVec.ofNat 64 start, BitVec.ofNat 64 total⟩ := by
    show FragHdr.read (putLE 8 id ++ putLE 8 start ++ putLE 8 total ++ p) = _
    rw [List.append_assoc, List.append_assoc]
    unfold FragHdr.read
    rw [if_neg (by simp [putLE_length, fragmentHeadersSize]; omega)]
    have e : ∀ n : Nat, BitVec.ofNat 64 (getLE (putLE 8 n)) = BitVec.ofNat 64 n := by
      intro n
      apply BitVec.eq_of_toNat_eq
      simp [getLE_putLE]
    simp only [take_app (putLE_length 8 _), drop_app (putLE_length 8 _), e]
  obtain ⟨s', h1, h2, h3⟩ := fragStep_big cfg hc s hlen ⟨BitVec.ofNat 64 id, BitVec.ofNat 64 start, BitVec.ofNat 64 total⟩
    (by simpa [Nat.mod_eq_of_lt hid] using hs) (m.payload.drop fragmentHeadersSize)
    (by simpa [Nat.mod_eq_of_lt htot] using hbig)
  refine ⟨s', ?_, h2, h3⟩
  have e1 := read_bytes m hfits []
  have e2 := payload_bytes m []
  have e3 := ofNat_len m hfits
  rw [List.append_nil] at e1 e2
  change MsgHdr.read (b.take messageHeadersSize) = _ at e1
  change (b.drop messageHeadersSize).take _ = _ ∧ b.drop _ = _ at e2
  unfold processIncomingMessages
  have hmin : min b.length (BitVec.ofNat 32 b.length).toNat = b.length := by
    rw [BitVec.toNat_ofNat, Nat.mod_eq_of_lt (by omega), Nat.min_self]
  simp only [hmin, List.take_length]
  cases hb : b with
  | nil => rw [hb] at hbl; simp at hbl; omega
  | cons x xs =>
    rw [← hb, hbl, show 33 + p.length = (32 + p.length) + 1 by omega, loop.eq_def, hb]
    dsimp only
    rw [← hb, if_neg (by rw [hbl, messageHeadersSize]; omega), e1]
    dsimp only
    rw [e3, e2.1, if_neg (by rw [hbl, hpl, messageHeadersSize]; omega)]
    have hcnt : counts cfg m.type = false := by simp [counts, hd]
    rw [hcnt]
    simp only [Bool.false_eq_true, if_false, Bool.false_and]
    have ho : processOne cfg env s ⟨m.type, BitVec.ofNat 32 m.payload.length, m.flags⟩ m.payload = .next s' [] m.payload.length := by
      unfold processOne
      rw [if_pos (show isFragmented 2 = true by decide), hfr]
      simp only [h1, e3]
    rw [ho]
    dsimp only
    rw [e2.2, loop.eq_def]
    simp

/-- C131 is violated by big messages: with fragmentation a message of any size is accepted by `Write`, but a receiver
whose `MaxFragmentedMessageSize` is smaller drops all its fragments, in whatever order and how often they arrive,
without any report. -/
theorem C131_violated_size (scfg : Send.Cfg) (he : 25 ≤ scfg.established.toNat) (hfr : scfg.fragmentation = true)
    (hest : scfg.established.toNat < 2 ^ 31) (chainID : W64) (t : W32) (ht : t ≠ typeKeyExchange ∧ t ≠ typeNegotiation)
    (payload : Bytes) (hl : payload.length < 2 ^ 32) (hbig : scfg.established.toNat < payload.length)
    (cfg : Cfg) (hd : cfg.detachOnMessages = 0) (hc : 0 < cfg.maxChainIDDiff) (hmax : cfg.maxFragmented < payload.length)
    (env : Env) (s : Rcv) (hlen : s.pending.length = cfg.maxChainIDDiff) (hs : s.last < chainID.toNat ∨ Idle s) :
    ∃ jobs, Send.writeMessageAsync scfg chainID t payload = .fragmented jobs ∧ jobs ≠ [] ∧
      ∀ arrived : List Send.Job, (∀ j ∈ arrived, j ∈ jobs) →
        ∃ s', processAll cfg env s (arrived.map fun j => (BitVec.ofNat 32 j.messages.length, j.messages)) = .ok (s', []) := by
  obtain ⟨fs, hcov, hplan⟩ := Send.C20_plan scfg he hfr chainID t ht payload hl hbig
  refine ⟨_, hplan, ?_, ?_⟩
  · intro h
    have : fs = [] := by simpa using h
    have hw := hcov.whole
    rw [this] at hw
    simp only [List.flatMap_nil] at hw
    rw [← hw] at hbig
    simp at hbig
  intro arrived
  induction arrived generalizing s with
  | nil => intro _; exact ⟨s, rfl⟩
  | cons j js ih =>
    intro hj
    obtain ⟨f, hfm, rfl⟩ := List.mem_map.1 (hj j (by simp))
    obtain ⟨-, hfit⟩ := hcov.fits f hfm
    have hb : Send.messageBytes t 2 (putLE 8 chainID.toNat ++ putLE 8 f.startPos ++ putLE 8 payload.length ++ f.payload) =
        (Msg.mk t 2 (putLE 8 chainID.toNat ++ putLE 8 f.startPos ++ putLE 8 payload.length ++ f.payload)).bytes := by
      have hlen2 : (putLE 8 chainID.toNat ++ putLE 8 f.startPos ++ putLE 8 payload.length ++ f.payload).length < 2 ^ 32 := by
        simp [putLE_length]; omega
      show putLE 4 t.toNat ++ putLE 4 (Send.len32 _) ++ [2] ++ _ = putLE 4 t.toNat ++ (putLE 4 _ ++ ([2] ++ _))
      rw [Send.len32, Nat.mod_eq_of_lt hlen2, List.append_assoc, List.append_assoc]
    obtain ⟨s1, h1, h2, h3⟩ := packet_big cfg hd hc env s hlen t chainID.toNat f.startPos payload.length chainID.isLt
      (by omega) f.payload (by omega) hs hmax
    obtain ⟨s2, h4⟩ := ih s1 h2 (.inr h3) fun k hk => hj k (by simp [hk])
    refine ⟨s2, ?_⟩
    rw [List.map_cons]
    unfold processAll
    simp only [hb]
    rw [h1]
    simp [h4]

/-! ### The hypotheses can be met -/

/-- The state of a new session. -/
example (cfg : Cfg) : Idle (Rcv.init cfg) ∧ (Rcv.init cfg).pending.length = cfg.maxChainIDDiff := by
  refine ⟨?_, by simp [Rcv.init]⟩
  intro c hc
  rw [(List.mem_replicate.1 hc).2]; rfl

/-- A message of 64 kB and one byte, and the default limit of the receiver (session.go:58-60). -/
example : cfg0.detachOnMessages = 0 ∧ 0 < cfg0.maxChainIDDiff ∧ cfg0.maxFragmented < 2 ^ 16 + 1 := by decide

/-- A type without handler and queue. -/
example : (Msg.mk 7 0 [1, 2]).Fits ∧ (Msg.mk 7 0 [1, 2]).Whole ∧ (stream [Msg.mk 7 0 [1, 2]]).length < 2 ^ 32 := by
  refine ⟨by unfold Msg.Fits; decide, by unfold Msg.Whole; decide, by decide⟩

/-- One message for a handler, one for a queue, and two bytes too many. -/
example : ∃ env : Env, (∀ m ∈ [Msg.mk 7 0 [1], Msg.mk 8 0 []], env.hasMessenger m.type = true ∨ env.hasChan m.type = true) :=
  ⟨⟨(· == 7), (· == 8), fun _ => false⟩, by decide⟩

#print axioms C131_partial
#print axioms C131_violated_type
#print axioms C131_violated_size

end Verif.Receive
