import Verif.Model.Errors
import Verif.Model.Identity
import Verif.Props.Send
import Verif.Lemmas.ReadQueue
/-!
# C123: the sizes in an error are the sizes that were wrong
-/
namespace Verif.Errors
open Verif.Headers

/-- What `ErrTooShort` says about an input of `n` bytes is true. -/
def True1 (n : Nat) (e : TooShort) : Prop := e.got = n ∧ e.got < e.expected

/-- What `ErrPayloadTooBig` says about a payload of `n` bytes is true. -/
def True2 (n : Nat) (e : TooBig) : Prop := e.real = n ∧ e.max < e.real

/-! ### Too short -/

/-- **C123 for headers**: every `ErrTooShort` of the functions that read and write headers is true, and an input of the
expected size is not refused. -/
theorem C123_headers (b : Bytes) :
    (∀ e, MsgHdr.read b = .err e → True1 b.length e ∧ ∀ b' : Bytes, e.expected ≤ b'.length → ∀ e', MsgHdr.read b' ≠ .err e') ∧
    (∀ h e, MsgHdr.write h b = .err e → True1 b.length e ∧
      ∀ b' : Bytes, e.expected ≤ b'.length → ∀ e', MsgHdr.write h b' ≠ .err e') ∧
    (∀ e, ContainerHdr.read b = .err e → True1 b.length e ∧
      ∀ b' : Bytes, e.expected ≤ b'.length → ∀ e', ContainerHdr.read b' ≠ .err e') ∧
    (∀ h e, ContainerHdr.write h b = .err e → True1 b.length e ∧
      ∀ b' : Bytes, e.expected ≤ b'.length → ∀ e', ContainerHdr.write h b' ≠ .err e') ∧
    (∀ e, FragHdr.read b = .err e → True1 b.length e ∧
      ∀ b' : Bytes, e.expected ≤ b'.length → ∀ e', FragHdr.read b' ≠ .err e') ∧
    (∀ h e, FragHdr.write h b = .err e → True1 b.length e ∧
      ∀ b' : Bytes, e.expected ≤ b'.length → ∀ e', FragHdr.write h b' ≠ .err e') := by
  have hiv : ∀ p (b : Bytes) e, readAfterIV p b ≠ .err e := by
    intro p b e h
    unfold readAfterIV at h
    dsimp only at h
    (repeat' split at h) <;> cases h
  refine ⟨?_, ?_, ?_, ?_, ?_, ?_⟩
  · intro e h
    unfold MsgHdr.read at h
    split at h <;> cases h
    refine ⟨⟨rfl, ‹_›⟩, fun b' hb e' h' => ?_⟩
    unfold MsgHdr.read at h'
    split at h' <;> cases h'
    simp only at hb; omega
  · intro hd e h
    unfold MsgHdr.write at h
    split at h <;> cases h
    refine ⟨⟨rfl, ‹_›⟩, fun b' hb e' h' => ?_⟩
    unfold MsgHdr.write at h'
    split at h' <;> cases h'
    simp only at hb; omega
  · intro e h
    unfold ContainerHdr.read at h
    split at h
    · cases h
      refine ⟨⟨rfl, ‹_›⟩, fun b' hb e' h' => ?_⟩
      unfold ContainerHdr.read at h'
      split at h'
      · simp only at hb; omega
      · split at h' <;> cases h'
        rename_i h2
        exact hiv _ _ _ h2
    · split at h <;> cases h
      rename_i h2
      exact absurd h2 (hiv _ _ _)
  · intro hd e h
    unfold ContainerHdr.write at h
    split at h <;> cases h
    refine ⟨⟨rfl, ‹_›⟩, fun b' hb e' h' => ?_⟩
    unfold ContainerHdr.write at h'
    split at h' <;> cases h'
    simp only at hb; omega
  · intro e h
    unfold FragHdr.read at h
    split at h <;> cases h
    refine ⟨⟨rfl, ‹_›⟩, fun b' hb e' h' => ?_⟩
    unfold FragHdr.read at h'
    split at h' <;> cases h'
    simp only at hb; omega
  · intro hd e h
    unfold FragHdr.write at h
    split at h <;> cases h
    refine ⟨⟨rfl, ‹_›⟩, fun b' hb e' h' => ?_⟩
    unfold FragHdr.write at h'
    split at h' <;> cases h'
    simp only at hb; omega

example : MsgHdr.read [1, 2, 3] = .err ⟨9, 3⟩ := by decide

/-- **C123 for packets**: an `ErrTooShort` of `decrypt` is true. -/
theorem C123_decrypt (C : Packet.Crypto) (aux : Option Bytes) (keys : List (Option Bytes)) (remote : Option SessID)
    (packet : Bytes) (e : TooShort) (h : Packet.decrypt C aux keys remote packet = .err (.tooShort e)) :
    True1 packet.length e := by
  have hiv : ∀ p (b : Bytes) e, readAfterIV p b ≠ .err e := by
    intro p b e h
    unfold readAfterIV at h
    dsimp only at h
    (repeat' split at h) <;> cases h
  have htry : ∀ p enc key iv e, Packet.tryDecrypt C p enc key iv ≠ .err (.tooShort e) := by
    intro p enc key iv e h
    unfold Packet.tryDecrypt at h
    split at h
    · cases h
    · split at h
      · dsimp only at h
        (repeat' split at h) <;> cases h
      · rename_i h2; exact hiv _ _ _ h2
      · cases h
      · cases h
  have hkeys : ∀ (ks : List (Option Bytes)) p enc iv e, Packet.tryKeys C p enc iv ks ≠ .err (.tooShort e) := by
    intro ks
    induction ks with
    | nil => intro p enc iv e h; cases h
    | cons k ks ih =>
      intro p enc iv e h
      cases k with
      | none => exact ih _ _ _ _ h
      | some k =>
        unfold Packet.tryKeys at h
        split at h
        · exact ih _ _ _ _ h
        · exact htry _ _ _ _ _ h
  unfold Packet.decrypt at h
  split at h
  · cases h; exact ⟨rfl, ‹_›⟩
  · split at h
    · cases h
    · dsimp only at h
      split at h
      · cases h
      · rename_i h2; cases h; exact absurd h2 (hkeys _ _ _ _ _)
      · cases h
      · cases h
      · split at h
        · cases h
        · cases h
        · rename_i h2; cases h; exact absurd h2 (htry _ _ _ _ _)
        · cases h
        · cases h

/-- **C123 for the messages of a packet**: every `ErrTooShort` that `processIncomingMessages` reports compares fewer bytes
than expected; they are a part of the messages received. -/
theorem C123_receive (cfg : Receive.Cfg) (env : Receive.Env) (s s' : Receive.Rcv) (length : W32) (msgs : Bytes)
    (evs : List Receive.Event) (h : Receive.processIncomingMessages cfg env s length msgs = .ok (s', evs)) (e : TooShort)
    (he : .errTooShort e ∈ evs ∨ .errFragmentHeaders e ∈ evs) : e.got < e.expected ∧ e.got ≤ msgs.length := by
  have hone : ∀ s hdr (msg : Bytes), msg.length ≤ msgs.length → ∀ e' ,
      (match Receive.processOne cfg env s hdr msg with
        | .next _ evs _ => .errTooShort e' ∈ evs ∨ .errFragmentHeaders e' ∈ evs
        | .stop _ evs => .errTooShort e' ∈ evs ∨ .errFragmentHeaders e' ∈ evs
        | .panic => False) → e'.got < e'.expected ∧ e'.got ≤ msgs.length := by
    intro s hdr msg hm e' h'
    have hpi : ∀ t p, Receive.processIncomingMessage env t p ≠ .errTooShort e' ∧
        Receive.processIncomingMessage env t p ≠ .errFragmentHeaders e' := by
      intro t p
      unfold Receive.processIncomingMessage
      (repeat' split) <;> simp
    unfold Receive.processOne at h'
    cases hfr : isFragmented hdr.flags with
    | false =>
      simp only [hfr, Bool.false_eq_true, if_false, List.mem_singleton] at h'
      have := hpi hdr.type msg
      rcases h' with h' | h'
      · exact absurd h'.symm this.1
      · exact absurd h'.symm this.2
    | true =>
      simp only [hfr, if_true] at h'
      cases hr : FragHdr.read msg with
      | err e1 =>
        simp only [hr, List.mem_singleton] at h'
        unfold FragHdr.read at hr
        split at hr <;> cases hr
        rcases h' with h' | h' <;> cases h'
        exact ⟨‹_›, hm⟩
      | panic => simp only [hr] at h'
      | block => simp only [hr] at h'
      | ok fh =>
        simp only [hr] at h'
        cases hf : Receive.fragStep cfg s fh (List.drop fragmentHeadersSize msg) with
        | none => simp only [hf] at h'
        | some r =>
          obtain ⟨s1, r⟩ := r
          cases r with
          | none => simp only [hf, List.not_mem_nil, or_self] at h'
          | some m =>
            simp only [hf, List.mem_singleton] at h'
            have := hpi hdr.type (m.take (BitVec.ofNat 32 m.length).toNat)
            rcases h' with h' | h'
            · exact absurd h'.symm this.1
            · exact absurd h'.symm this.2
  have key : ∀ (fuel : Nat) (s : Receive.Rcv) (rest : Bytes) (evs0 : List Receive.Event) (s' : Receive.Rcv) (evs : List Receive.Event),
      rest.length ≤ msgs.length →
      (∀ e, .errTooShort e ∈ evs0 ∨ .errFragmentHeaders e ∈ evs0 → e.got < e.expected ∧ e.got ≤ msgs.length) →
      Receive.loop cfg env fuel s rest evs0 = .ok (s', evs) →
      ∀ e, .errTooShort e ∈ evs ∨ .errFragmentHeaders e ∈ evs → e.got < e.expected ∧ e.got ≤ msgs.length := by
    intro fuel
    induction fuel with
    | zero =>
      intro s rest evs0 s' evs hl h0 h e he
      cases rest with
      | nil => cases h; exact h0 e he
      | cons a l => cases h
    | succ fuel ih =>
      intro s rest evs0 s' evs hl h0 h e he
      cases rest with
      | nil => cases h; exact h0 e he
      | cons a l =>
        simp only [Receive.loop] at h
        split at h
        · cases h
          simp only [List.mem_append, List.mem_singleton] at he
          rcases he with (he | he) | (he | he)
          · exact h0 e (.inl he)
          · cases he; exact ⟨‹_›, hl⟩
          · exact h0 e (.inr he)
          · cases he
        · split at h
          · split at h
            · cases h
              simp only [List.mem_append, List.mem_singleton] at he
              rcases he with (he | he) | (he | he)
              · exact h0 e (.inl he)
              · cases he; exact ⟨‹_›, hl⟩
              · exact h0 e (.inr he)
              · cases he
            · rename_i hdr _ _
              generalize hs1 : (if Receive.counts cfg hdr.type = true then { s with received := s.received + 1 } else s) = s1 at h
              have h1 := hone s1 hdr (((a :: l).drop messageHeadersSize).take hdr.length.toNat)
                (by simp only [List.length_take, List.length_drop]; omega)
              split at h
              · cases h
              · rename_i s2 e2 h2
                rw [h2] at h1
                cases h
                simp only [List.mem_append] at he
                rcases he with (he | he) | (he | he)
                · exact h0 e (.inl he)
                · exact h1 e (.inl he)
                · exact h0 e (.inr he)
                · exact h1 e (.inr he)
              · rename_i s2 e2 n h2
                rw [h2] at h1
                have h3 : ∀ e, .errTooShort e ∈ evs0 ++ e2 ∨ .errFragmentHeaders e ∈ evs0 ++ e2 → e.got < e.expected ∧ e.got ≤ msgs.length := by
                  intro e he
                  simp only [List.mem_append] at he
                  rcases he with (he | he) | (he | he)
                  · exact h0 e (.inl he)
                  · exact h1 e (.inl he)
                  · exact h0 e (.inr he)
                  · exact h1 e (.inr he)
                split at h
                · split at h <;> cases h
                  · exact h3 e he
                  · refine h3 e ?_
                    simpa using he
                · exact ih _ _ _ _ _ (by simp only [List.length_drop]; omega) h3 h e he
          · cases h
  exact key _ _ _ [] _ _ (by simp only [List.length_take]; omega) (fun e he => by simp at he) h e he

example : Receive.processIncomingMessages ⟨0, 4, 100, none, 0⟩ ⟨fun _ => false, fun _ => true, fun _ => false⟩ ⟨[], 0, 0⟩ 3 [1, 2, 3] =
    .ok (⟨[], 0, 0⟩, [.errTooShort ⟨9, 3⟩]) := by decide

/-- **C123 for the key exchange**: the error is the one of `parseAndCheck`, and true. -/
theorem C123_key_exchange (C : KX.Crypto) (cfg : KX.Cfg) (remote : Option Bytes) (b : Bytes) :
    (KX.parseAndCheck C cfg remote b = .err .tooShort ↔ kxTooShort b ≠ none) ∧ ∀ e, kxTooShort b = some e → True1 b.length e := by
  unfold KX.parseAndCheck kxTooShort
  refine ⟨?_, ?_⟩
  · (repeat' split) <;> simp
  · intro e h
    split at h <;> cases h
    exact ⟨rfl, ‹_›⟩

/-- **C123 for negotiation messages**: true for everything but pongs. -/
theorem C123_negotiation_partial (b : Bytes) (hb : b.head? ≠ some 2) (e : TooShort) (h : negotiatorTooShort b = some e) :
    True1 b.length e := by
  cases b with
  | nil => cases h; exact ⟨rfl, by decide⟩
  | cons t b =>
    have ht : t ≠ 2 := by simpa using hb
    simp only [negotiatorTooShort, ht, if_false] at h
    split at h
    · unfold ControlMsg.parse at h
      split at h <;> simp only [errOf] at h <;> cases h
      exact ⟨rfl, ‹_›⟩
    · cases h

example : negotiatorTooShort [0, 1] = some ⟨6, 2⟩ ∧ negotiatorTooShort [] = some ⟨1, 0⟩ ∧ negotiatorTooShort [1] = none := by decide

/-- **C123 is violated**: `parseMessage` reports the size of another message. A pong of 6 to 68 bytes is refused as too
short, with an error that says that 6 bytes are expected. -/
theorem C123_violated (b : Bytes) (h6 : 5 ≤ b.length) (h68 : b.length < 68) :
    negotiatorTooShort (2 :: b) = some ⟨6, b.length + 1⟩ ∧ ¬ b.length + 1 < 6 := by
  have h : (2 :: b).length < pingPongSize := by simp [pingPongSize]; omega
  have h2 : (2 : Byte) ≠ 0 := by decide
  refine ⟨?_, by omega⟩
  have hp : PingPong.parse (2 :: b) = .err ⟨6, b.length + 1⟩ := by unfold PingPong.parse; rw [if_pos h]; rfl
  simp only [negotiatorTooShort, h2, if_false, if_true, hp, errOf]

example : ∃ b : Bytes, 5 ≤ b.length ∧ b.length < 68 := ⟨[0, 0, 0, 0, 0], by decide⟩

/-! ### Wrong length of a key -/

/-- **C123 for keys**: an `ErrWrongKeyLength` names the length of the key, and a different one; a key of the expected length
is accepted. -/
theorem C123_keys (key : Bytes) (e r : Nat) :
    (Identity.newIdentityFromPrivateKey key = .err (.wrongLength e r) → r = key.length ∧ r ≠ e ∧
      ∀ key' : Bytes, key'.length = e → ∃ k, Identity.newIdentityFromPrivateKey key' = .ok k) ∧
    (Identity.newRemoteIdentityFromPublicKey key = .err (.wrongLength e r) → r = key.length ∧ r ≠ e ∧
      ∀ key' : Bytes, key'.length = e → ∃ k, Identity.newRemoteIdentityFromPublicKey key' = .ok k) ∧
    (∀ P size text, Identity.parseKey P size text = .err (.wrongLength e r) →
      ∃ k, P.decode text = some k ∧ r = k.length ∧ r ≠ e ∧ e = size) := by
  refine ⟨?_, ?_, ?_⟩
  · unfold Identity.newIdentityFromPrivateKey
    intro h
    split at h <;> cases h
    refine ⟨rfl, ‹_›, fun k hk => ?_⟩
    simp [hk]
  · unfold Identity.newRemoteIdentityFromPublicKey
    intro h
    split at h <;> cases h
    refine ⟨rfl, ‹_›, fun k hk => ?_⟩
    simp [hk]
  · intro P size text h
    unfold Identity.parseKey at h
    split at h
    · cases h
    · rename_i b hb
      split at h <;> cases h
      exact ⟨b, hb, rfl, ‹_›, rfl⟩

example : Identity.newRemoteIdentityFromPublicKey [1] = .err (.wrongLength 32 1) := by decide

/-! ### Too big -/

/-- **C123 for `Write`, `WriteMessage` and `WriteMessageAsync`**: the error names the size of the payload and a smaller limit,
and a payload of that limit is not refused. -/
theorem C123_write (cfg : Send.Cfg) (chainID : W64) (t : W32) (payload : Bytes) (max real : Nat)
    (h : Send.writeMessageAsync cfg chainID t payload = .tooBig max real) :
    True2 payload.length ⟨max, real⟩ ∧ ∀ payload' : Bytes, payload'.length ≤ max → ∀ m r,
      Send.writeMessageAsync cfg chainID t payload' ≠ .tooBig m r := by
  unfold Send.writeMessageAsync at h
  split at h
  · rename_i h1
    split at h
    · cases h
      have h2 := h1.1
      have h3 : Send.len32 payload ≤ payload.length := Nat.mod_le _ _
      refine ⟨⟨rfl, by show cfg.established.toNat < payload.length; omega⟩, fun p hp m r h' => ?_⟩
      have h4 : Send.len32 p ≤ p.length := Nat.mod_le _ _
      unfold Send.writeMessageAsync at h'
      rw [if_neg (by intro hh; have := hh.1; omega)] at h'
      dsimp only at h'
      split at h' <;> cases h'
    · split at h <;> cases h
  · dsimp only at h
    split at h <;> cases h

example : Send.writeMessageAsync ⟨3, false, true⟩ 1 7 [1, 2, 3, 4] = .tooBig 3 4 := by decide +kernel

/-- The sizes of `sendTooBig` belong to the error of `sendMessages`. -/
theorem sendTooBig_iff (C : Packet.Crypto) (cfg : Send.Cfg) (now : Send.Now) (job : Send.Job)
    (hk : now.cipherKey ≠ none) (he : now.established = true) :
    Send.sendMessages C cfg now job = .err .tooBig ↔ sendTooBig cfg job ≠ none := by
  obtain ⟨k, hk⟩ := Option.ne_none_iff_exists'.1 hk
  have hkey : ∃ key, (if job.confidential then now.cipherKey.map some else some now.aux) = some key := by
    cases job.confidential
    · exact ⟨_, rfl⟩
    · rw [hk]; exact ⟨_, rfl⟩
  obtain ⟨key, hkey⟩ := hkey
  unfold Send.sendMessages sendTooBig
  rw [hkey]
  dsimp only
  rw [if_neg (by simp [he])]
  split
  · simp
  · refine ⟨fun h => ?_, fun h => absurd rfl h⟩
    split at h
    · cases h
    · split at h <;> cases h

/-- **C123 for packets that are too big**: the error compares the size of the packet with the limit for packets. -/
theorem C123_packet_partial (cfg : Send.Cfg) (job : Send.Job) (e : TooBig) (h : sendTooBig cfg job = some e) :
    True2 (44 + job.messages.length) e := by
  unfold sendTooBig at h
  split at h <;> cases h
  rename_i h1
  refine ⟨rfl, ?_⟩
  have h2 := h1.2
  have h3 : Send.len32 job.messages ≤ job.messages.length := Nat.mod_le _ _
  have h4 : (containerHeadersSize + Send.len32 job.messages) % 2 ^ 32 ≤ containerHeadersSize + Send.len32 job.messages := Nat.mod_le _ _
  show Send.packetSize cfg < containerHeadersSize + job.messages.length
  omega

/-- **C123 for `WriteMessageSingle` is violated**: `ErrPayloadTooBig` does not name the size of the payload, nor the limit for
payloads. Whoever follows the advice and writes a payload of `MaxSize` bytes gets the same error again. -/
theorem C123_violated_single (C : Packet.Crypto) (cfg : Send.Cfg) (now : Send.Now) (t : W32)
    (ht : t ≠ typeKeyExchange ∧ t ≠ typeNegotiation) (hc : now.cipherKey ≠ none) (he : now.established = true)
    (payload : Bytes) (hsmall : cfg.established.toNat + 200 < 2 ^ 32)
    (e : TooBig) (h : sendTooBig cfg (Send.writeMessageSingle t payload) = some e) :
    e.real ≠ payload.length ∧ ∀ payload' : Bytes, payload'.length = e.max →
      Send.sendMessages C cfg now (Send.writeMessageSingle t payload') = .err .tooBig := by
  have hlen : ∀ p : Bytes, (Send.writeMessageSingle t p).messages.length = 9 + p.length := by
    intro p
    simp [Send.writeMessageSingle, Send.single, Send.messageBytes, putLE_length]; omega
  unfold sendTooBig at h
  split at h <;> cases h
  refine ⟨?_, fun p hp => ?_⟩
  · show containerHeadersSize + (Send.writeMessageSingle t payload).messages.length ≠ _
    rw [hlen]; unfold containerHeadersSize; omega
  · have hps : Send.packetSize cfg = cfg.established.toNat + 53 := by
      simp only [Send.packetSize, containerHeadersSize, messageHeadersSize]; omega
    replace hp : p.length = Send.packetSize cfg := hp
    exact Send.C19_single_refused C cfg now t ht p (by omega) (by omega) (Option.isSome_iff_ne_none.2 hc) he

/-- With an established size of 3 bytes: refused with `MaxSize` 56 and `RealSize` 57. -/
example : sendTooBig ⟨3, false, true⟩ (Send.writeMessageSingle 7 [1, 2, 3, 4]) = some ⟨56, 57⟩ := by decide +kernel

/-- The other place with sizes of packets (session.go:1613) is not reached by application messages of less than 4 GiB: what
passes the check of `WriteMessageAsync` fits in an empty buffer, as long as the limit does not wrap. -/
theorem C123_delayed_partial (cfg : Send.Cfg) (hsmall : cfg.established.toNat + 53 < 2 ^ 32) (payload : Bytes)
    (hl : payload.length ≤ cfg.established.toNat) : delayedTooBig cfg payload = none := by
  unfold delayedTooBig
  rw [if_neg]
  simp only [Send.packetSize, containerHeadersSize, messageHeadersSize]
  omega

/-- **C123 for messages put into the buffer** (session.go:1613, when the established size has become smaller in the meantime): the
error compares the size of a packet with this message alone with the limit for packets. -/
theorem C123_delayed_true (cfg : Send.Cfg) (payload : Bytes) (e : TooBig) (h : delayedTooBig cfg payload = some e) :
    True2 (53 + payload.length) e ∧ e.max = Send.packetSize cfg := by
  unfold delayedTooBig at h
  split at h <;> cases h
  rename_i h1
  exact ⟨⟨rfl, h1⟩, rfl⟩

example : delayedTooBig ⟨3, false, true⟩ [1, 2, 3, 4] = some ⟨56, 57⟩ := by decide +kernel

/-- **C123 for `Read`**: an `ErrPayloadTooBig` names the size of the buffer and the size of a message that has arrived, which is
larger. -/
theorem C123_read (s : ReadQueue.State) (h : ReadQueue.Reachable s) (k buf size : Nat) (hr : .tooBig k buf size ∈ s.rets) :
    ∃ m, s.arrived[k]? = some m ∧ True2 m.length ⟨buf, size⟩ := by
  obtain ⟨m, h1, h2, h3⟩ := (ReadQueue.inv_reachable s h).rets _ hr
  exact ⟨m, h1, h2.symm, h3⟩

#print axioms C123_headers
#print axioms C123_decrypt
#print axioms C123_receive
#print axioms C123_key_exchange
#print axioms C123_negotiation_partial
#print axioms C123_violated
#print axioms C123_keys
#print axioms C123_write
#print axioms C123_packet_partial
#print axioms C123_violated_single
#print axioms C123_delayed_partial
#print axioms C123_delayed_true
#print axioms C123_read

end Verif.Errors
