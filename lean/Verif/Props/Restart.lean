import Verif.Props.Forged
/-!
# C137: a peer that begins a new session is not ignored

On a backend of datagrams the peer may end its session, or crash, and begin a new one, while this side still has the old
one.  The packet IDs of the new session begin with 1 (session.go:531-535).
-/
namespace Verif.EndToEnd
open Verif.Headers Verif.Packet Verif.Receive

/-- Negation of C137, in general: when the old session of the peer has got beyond the packet ID `n`, of the packets of
the new session (those that it sends without an exchanged key, as it has none yet) the first `n - window` ones are dropped
in every run, whatever is in them, and nothing is reported. -/
theorem C137_violated (C : Crypto) (cfg : Receive.Cfg) (env : Env) (size : Int) (h0 : 0 ≤ size) (hsz : Spec.windowOf size < 2 ^ 64)
    (r r' : Reader) (hr : LaterR C cfg env (Reader.init cfg size) r) (hr' : LaterR C cfg env r r') (keys : Keys)
    (ha : KeyOK keys.aux) (sid : SessID) (id : W64) (msgs p : Bytes) (hm : msgs.length < 2 ^ 32)
    (hp : sealPacket C keys.aux keys.aux sid false id msgs = some p) (hnf : NoForgery C keys id p)
    (hid : id.toNat < latest r) (hold : id.toNat + Spec.windowOf size ≤ latest r) :
    ∃ r'', readerStep C cfg env keys r' p = .ok (r'', [], true) ∧ r''.rcv = r'.rcv ∧ r''.fails = r'.fails := by
  obtain ⟨pkt, f1, -, f3⟩ := C12_roundtrip_aux C keys.aux ha sid id msgs hm keys.cipher keys.remote
  rw [hp] at f1
  simp only [Option.some.injEq] at f1
  subst f1
  obtain ⟨h, d1, d2, -⟩ := f3 hnf
  have hb := beyond_init h0 hr
  have hb' : Beyond (Spec.windowOf size) (latest r) r := ⟨hb.width, Nat.le_refl _⟩
  exact beyond_drop (beyond_later hb' hr') hsz d1 (by rw [d2]; exact hid) (by rw [d2]; exact hold)

/-- C137, the part that holds: a packet of the new session whose ID is higher than those before is processed, so that a
message of the key exchange gets to its handler; and a packet that cannot be decrypted (all those under the exchanged key,
for which this side uses the session ID of the old session) is reported when it is the third one in a row, or as many as
the option says.  Missing: packets with lower IDs. -/
theorem C137_partial (C : Crypto) (cfg : Receive.Cfg) (env : Env) (keys : Keys) (r : Reader) :
    (∀ (sid : SessID) (id : W64) (msgs p : Bytes) (rcv : Rcv) (evs : List Event), KeyOK keys.aux → msgs.length < 2 ^ 32 →
      sealPacket C keys.aux keys.aux sid false id msgs = some p → NoForgery C keys id p → latest r < id.toNat →
      processIncomingMessages cfg env r.rcv (BitVec.ofNat 32 msgs.length) msgs = .ok (rcv, evs) →
      ∃ r', readerStep C cfg env keys r p = .ok (r', evs, true)) ∧
    (∀ (p : Bytes) (e : DecryptErr) (k : Nat), decrypt C keys.aux keys.cipher keys.remote p = .err e →
      cfg.errorOnFails = some k → k ≤ r.fails + 1 → ∃ r' c, readerStep C cfg env keys r p = .ok (r', [.errDecrypt e], c)) := by
  refine ⟨?_, ?_⟩
  · intro sid id msgs p rcv evs ha hm hp hnf hn hok
    obtain ⟨pkt, f1, -, f3⟩ := C12_roundtrip_aux C keys.aux ha sid id msgs hm keys.cipher keys.remote
    rw [hp] at f1
    simp only [Option.some.injEq] at f1
    subst f1
    obtain ⟨h, d1, d2, d3⟩ := f3 hnf
    have hlen : h.length = BitVec.ofNat 32 msgs.length := by
      apply BitVec.eq_of_toNat_eq
      rw [d3, BitVec.toNat_ofNat, Nat.mod_eq_of_lt hm]
    obtain ⟨ids, s1, -⟩ := step_newer r id hn
    exact ⟨{ rcv := rcv, ids := ids, fails := 0 }, by simp only [readerStep, d1, d2, s1, hlen, hok]⟩
  · intro p e k hd he hk
    refine ⟨{ r with fails := r.fails + 1 }, decide (¬ r.fails + 1 ≥ cfg.detachOnFails), ?_⟩
    simp only [readerStep, hd, decryptError, he]
    rw [if_pos hk]

/-- The content of a packet with one message. -/
def exHello : Bytes := [0, 0, 0, 0, 1, 0, 0, 0, 0, 65]
/-- Packets of a new session of the peer, which has no key yet. -/
def exNew (id : W64) : Bytes := plainPacket Packet.toy none (packetIDBytes id) exHello

/-- Negation of C137: this side has received the packet 1000 of the old session.  The new session of the peer sends its
first messages; nothing arrives, and nothing is reported.  With the packet 1001 of the new session it would. -/
theorem C137_violated_example :
    exDeliver [exPeer 1000] = some [.queued 0xFFFFFFFC [65]] ∧
    exDeliver ([exPeer 1000] ++ [1, 2, 3, 4, 500, 744].map exNew) = some [.queued 0xFFFFFFFC [65]] ∧
    exDeliver [exPeer 1000, exNew 1001] = some [.queued 0xFFFFFFFC [65], .queued 0 [65]] := by
  refine ⟨by decide +kernel, by decide +kernel, by decide +kernel⟩

def okReader (ps : List Bytes) : Reader :=
  match deliver Packet.toy exRcv exEnv exKeys (Reader.init exRcv 0) ps with
  | .ok x => x.1
  | _ => Reader.init exRcv 0

/-- The hypotheses of both theorems hold in the example. -/
example : let r := okReader [exPeer 1000]
    latest r = 1000 ∧ (1 : W64).toNat + Spec.windowOf 0 ≤ latest r ∧ sealPacket Packet.toy none none ⟨3, 4⟩ false 1 exHello = some (exNew 1) ∧
    exHello.length < 2 ^ 32 ∧ (∃ evs, readerStep Packet.toy exRcv exEnv exKeys (Reader.init exRcv 0) (exPeer 1000) = .ok (r, evs, true)) ∧
    (∃ e, decrypt Packet.toy none exKeys.cipher exKeys.remote [1, 2, 3] = .err e) := by
  refine ⟨by decide +kernel, by decide +kernel, by decide +kernel, by decide, ⟨[.queued 0xFFFFFFFC [65]], by decide +kernel⟩,
    ⟨_, rfl⟩⟩

#print axioms C137_violated
#print axioms C137_partial
#print axioms C137_violated_example

end Verif.EndToEnd
