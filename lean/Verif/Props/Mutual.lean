import Verif.Lemmas.Mutual
import Verif.Lemmas.MutualKeys
import Verif.Props.KeyRotation
import Verif.Props.EndToEnd
import Verif.Props.Codec
/-!
# C82-C84: MutualConfirmationOfIdentity
-/
namespace Verif.Mutual
open Verif.Headers Verif.Receive

variable {C : Crypto} {cfg : Cfg}

theorem runActs_reachable : ∀ (as : List Act) {s s' : State}, Reachable C cfg s → runActs C cfg s as = .ok s' →
    Reachable C cfg s' := by
  intro as
  induction as with
  | nil => intro s s' h hs; simp only [runActs, Outcome.ok.injEq] at hs; subst hs; exact h
  | cons a as ih =>
    intro s s' h hs
    simp only [runActs] at hs
    split at hs <;> try (simp only [reduceCtorEq] at hs; done)
    rename_i s1 h1
    exact ih (.step a h h1) hs

/-! ### Examples -/

def toyC : Crypto := ⟨KX.toy, Packet.toy⟩
def rc0 : Receive.Cfg := ⟨0, 8, 65536, some 3, 2⟩
/-- Alice and Bob, who know each other's identities. -/
def cfgA : Cfg := ⟨KX.alice, rc0, fun _ => false, 0, some (KX.toy.idPub [8]), false⟩
def cfgB : Cfg := ⟨KX.bob, rc0, fun _ => false, 0, some (KX.toy.idPub [7]), false⟩

/-- Parts of runs; the first argument is the side. -/
def kxs (x : Bool) (as : List (KX.Act × W64)) : List (Bool × Act) := as.map fun a => (x, .kx a.1 a.2)
def makeKey (x : Bool) (k : Bytes) (pid : W64) : List (Bool × Act) := kxs x ((KX.rotate k 5).map (·, pid))
def recvKx (x : Bool) (p : Bytes) : List (Bool × Act) :=
  [(x, .packet p), (x, .event), (x, .kx .reader 0), (x, .kx .reader 0), (x, .kx .reader 0), (x, .kx .reader 0)]
def answerKx (x : Bool) (i : Nat) (pid : W64) : List (Bool × Act) := kxs x [(.answer i none 0 true, pid), (.answer i none 0 true, pid)]
def recvRw (x : Bool) (p : Bytes) : List (Bool × Act) := [(x, .packet p), (x, .event)]
def write (x : Bool) (pid : W64) : List (Bool × Act) := [(x, .establish), (x, .takeKey false), (x, .send pid true)]
def kxPkt (cfg : Cfg) (k : Bytes) (answer : Bool) (pid : W64) : Bytes :=
  Packet.plainPacket toyC.pkt none (packetIDBytes pid)
    (message typeKeyExchange 0 (KX.kxMessage toyC.kx cfg.kx (toyC.kx.pub k) answer))
def rwPkt (cfg : Cfg) (key : Bytes) (pid : W64) : Bytes :=
  (Packet.sealPacket toyC.pkt none (some key) cfg.kx.sessionID true pid (message typeReadWrite 1 [])).getD []
def shared (a b : Bytes) : Bytes := toyC.kx.dh a (toyC.kx.pub b)

/-- Both calls succeed. -/
def honest : List (Bool × Act) :=
  makeKey false [4] 1 ++ makeKey true [5] 1 ++
  recvKx false (kxPkt cfgB [5] false 1) ++ recvKx true (kxPkt cfgA [4] false 1) ++
  answerKx false 0 2 ++ answerKx true 0 2 ++
  recvKx false (kxPkt cfgB [5] true 2) ++ recvKx true (kxPkt cfgA [4] true 2) ++
  write false 3 ++ write true 3 ++
  recvRw false (rwPkt cfgB (shared [5] [4]) 3) ++ recvRw true (rwPkt cfgA (shared [4] [5]) 3) ++
  [(false, .read), (true, .read)]

def netState (xs : List (Bool × Act)) : Net :=
  match netRun toyC cfgA cfgB (Net.init cfgA cfgB) xs with
  | .ok n => n
  | _ => Net.init cfgA cfgB

theorem netRun_reachable {C : Crypto} {cfgA cfgB : Cfg} : ∀ (xs : List (Bool × Act)) {n n' : Net}, Reachable C cfgA n.a →
    Reachable C cfgB n.b → netRun C cfgA cfgB n xs = .ok n' → Reachable C cfgA n'.a ∧ Reachable C cfgB n'.b := by
  intro xs
  induction xs with
  | nil => intro n n' h1 h2 h; simp only [netRun, Outcome.ok.injEq] at h; subst h; exact ⟨h1, h2⟩
  | cons x xs ih =>
    intro n n' h1 h2 h
    simp only [netRun] at h
    split at h <;> try (simp only [reduceCtorEq] at h; done)
    rename_i n1 hn
    obtain ⟨side, x⟩ := x
    cases side with
    | false =>
      simp only [netStep] at hn
      split at hn
      · split at hn <;> simp only [Outcome.ok.injEq, reduceCtorEq] at hn
        rename_i a ha
        subst hn
        exact ih (n := { n with a := a }) (.step x h1 ha) h2 h
      · simp at hn
    | true =>
      simp only [netStep] at hn
      split at hn
      · split at hn <;> simp only [Outcome.ok.injEq, reduceCtorEq] at hn
        rename_i a ha
        subst hn
        exact ih (n := { n with b := a }) h1 (.step x h2 ha) h
      · simp at hn

def netOk (xs : List (Bool × Act)) : Bool :=
  match netRun toyC cfgA cfgB (Net.init cfgA cfgB) xs with
  | .ok _ => true
  | _ => false

theorem netState_eq {xs : List (Bool × Act)} (h : netOk xs = true) :
    netRun toyC cfgA cfgB (Net.init cfgA cfgB) xs = .ok (netState xs) := by
  unfold netOk at h
  unfold netState
  split at h
  · rename_i n hn; rw [hn]
  · simp at h

theorem netState_reachable {xs : List (Bool × Act)} (h : netOk xs = true) :
    Reachable toyC cfgA (netState xs).a ∧ Reachable toyC cfgB (netState xs).b :=
  netRun_reachable xs .init .init (netState_eq h)

/-! ### C82 -/

/-- C82, the part that holds: if the call gives keys without an error, it has received an answer of the key exchange
signed by the given identity and an empty message, and the first of the four keys is the shared key of a local key with
the public key in a message signed by that identity.  Missing: that any of this was made for this call. -/
theorem C82_signed_partial {s : State} {id : Bytes} {ks : List (Option Bytes)} (hcfg : cfg.OK) (hid : cfg.remote = some id)
    (hr : Reachable C cfg s) (hc : s.confirmed ks) :
    (∃ b ∈ s.kxGot, 146 ≤ b.length ∧ C.kx.verify id (b.take 64) ((b.drop 64).take 82) = true ∧
      isAnswer (KxMsg.decode ((b.drop 64).take 82)).flags = true) ∧
    [] ∈ s.rwGot ∧
    (∃ k0 k1 k2 k3, ks = [some k0, k1, k2, k3] ∧ ∃ a ∈ s.kx.gens.map (·.1), ∃ b ∈ s.kxGot, 146 ≤ b.length ∧
      C.kx.verify id (b.take 64) ((b.drop 64).take 82) = true ∧
      KX.generateSharedKey C.kx cfg.kx.psk (some a) (some (KxMsg.decode ((b.drop 64).take 82)).kxPublicKey) = .ok k0) := by
  have hS := seenOK hr
  have hC := callOK hr
  have hpin : s.kx.remoteIdentity = some id := by
    have : ∀ {t : KX.State}, KX.Reachable C.kx cfg.kx (some id) t → t.remoteIdentity = some id := by
      intro t ht
      induction ht with
      | init => rfl
      | step a _ hs ih => exact (KX.step_grows hs).2.2 _ ih
    exact this (hid ▸ kx_reachable hr)
  obtain ⟨h1, h2, hl, k0, a, y, e1, e2, e3, e4⟩ := hC.ret ks hc.1
  refine ⟨?_, h2, ?_⟩
  · obtain ⟨msg, ⟨id', b, i1, i2, i3⟩, hsu⟩ := hS.successes (hC.est h1)
    rw [hpin] at i1; cases i1
    refine ⟨b, i2, i3.len, i3.sig, ?_⟩
    rw [KX.succeeds, hcfg.mode, i3.dec] at hsu
    simp only [bne_self_eq_false, Bool.or_false] at hsu
    exact hsu
  · match ks, hl with
    | [x0, k1, k2, k3], _ =>
      simp only [List.getElem?_cons_zero, Option.some.injEq] at e1
      subst e1
      obtain ⟨msg, ⟨id', b, i1, i2, i3⟩, hk⟩ := hS.accepted y e3
      rw [hpin] at i1; cases i1
      refine ⟨k0, k1, k2, k3, rfl, a, e2, b, i2, i3.len, i3.sig, ?_⟩
      have : (KxMsg.decode ((b.drop 64).take 82)).kxPublicKey = y := by rw [← hk, i3.dec]; rfl
      rw [this]; exact e4

/-- The hypotheses of `C82_signed_partial` hold for both sides of a run. -/
example : cfgA.OK ∧ cfgB.OK ∧ Reachable toyC cfgA (netState honest).a ∧ Reachable toyC cfgB (netState honest).b ∧
    (netState honest).a.confirmed [some (shared [4] [5]), none, none, none] ∧
    (netState honest).b.confirmed [some (shared [4] [5]), none, none, none] := by
  have h : netOk honest = true := by decide +kernel
  exact ⟨⟨rfl, rfl⟩, ⟨rfl, rfl⟩, (netState_reachable h).1, (netState_reachable h).2,
    ⟨by decide +kernel, by decide +kernel⟩, ⟨by decide +kernel, by decide +kernel⟩⟩

/-- What the attacker sends: one packet without any encryption, with a recorded message of the key exchange and an empty
message.  It does not depend on the call that is attacked. -/
def forged (P : Packet.Crypto) (b : Bytes) : Bytes :=
  Packet.plainPacket P none (packetIDBytes 1) (stream [⟨typeKeyExchange, 0, b⟩, ⟨typeReadWrite, 0, []⟩])

/-- The call under attack: it makes its key `k`, reads the forged packet, and goes on. -/
def attack (P : Packet.Crypto) (b k : Bytes) (now : Nat) : List Act :=
  (KX.rotate k now).map (.kx · 1) ++ [.packet (forged P b), .event, .kx .reader 0, .kx .reader 0, .kx .reader 0,
    .kx .reader 0, .event, .establish, .takeKey false, .send 2 true, .read]

theorem newStor_latest (n : Nat) : (PacketID.newStor n).latest = 0 := by
  unfold PacketID.newStor
  split <;> rfl

theorem forged_step (hd : cfg.rc.detachOnMessages = 0) (b : Bytes) (hb : b.length < 2 ^ 31) :
    ∃ rd, readerStep C.pkt cfg.rc (env cfg) ⟨none, [], none⟩ (Reader.init cfg.rc cfg.ids) (forged C.pkt b) =
      .ok (rd, [.handled typeKeyExchange b, .queued typeReadWrite []], true) := by
  have hsl : (stream [⟨typeKeyExchange, 0, b⟩, ⟨typeReadWrite, 0, []⟩]).length = b.length + 18 := by
    simp [stream, Msg.bytes, putLE_length]; omega
  obtain ⟨pkt, h1, h2, h3⟩ := Packet.C12_roundtrip_aux C.pkt none (by intro _ h; cases h) ⟨0, 0⟩ 1
    (stream [⟨typeKeyExchange, 0, b⟩, ⟨typeReadWrite, 0, []⟩]) (by omega) [] none
  obtain ⟨h, d1, d2, d3⟩ := h3 (.inl (by simp))
  have hp : pkt = forged C.pkt b := by
    simp only [Packet.sealPacket, Option.some.injEq] at h1
    exact h1.symm
  rw [hp] at d1
  have hnew : EndToEnd.latest (Reader.init cfg.rc cfg.ids) < (1 : W64).toNat := by
    have h1 : (1 : W64).toNat = 1 := rfl
    rw [h1]
    unfold EndToEnd.latest Reader.init
    cases hst : PacketID.storOfOption cfg.ids with
    | none => exact Nat.one_pos
    | some st =>
      unfold PacketID.storOfOption at hst
      dsimp only at hst
      generalize (if cfg.ids = 0 then (256 : Int) else cfg.ids) = z at hst
      by_cases hz : z > 0
      · rw [if_pos hz] at hst
        cases hst
        simp [newStor_latest]
      · rw [if_neg hz] at hst; cases hst
  obtain ⟨ids, s1, s2⟩ := EndToEnd.step_newer (Reader.init cfg.rc cfg.ids) 1 hnew
  have hh : h.length = BitVec.ofNat 32 (stream [⟨typeKeyExchange, 0, b⟩, ⟨typeReadWrite, 0, []⟩]).length := by
    apply BitVec.eq_of_toNat_eq
    rw [d3, BitVec.toNat_ofNat, Nat.mod_eq_of_lt]
    omega
  have hagg := C11_aggregate cfg.rc hd (env cfg) (Reader.init cfg.rc cfg.ids).rcv
    [⟨typeKeyExchange, 0, b⟩, ⟨typeReadWrite, 0, []⟩]
    (by intro m hm; simp only [List.mem_cons, List.not_mem_nil, or_false] at hm
        rcases hm with rfl | rfl <;> simp [Msg.Fits] <;> omega)
    (by intro m hm; simp only [List.mem_cons, List.not_mem_nil, or_false] at hm
        rcases hm with rfl | rfl <;> simp [Msg.Whole])
    (by omega)
  refine ⟨{ rcv := (Reader.init cfg.rc cfg.ids).rcv, ids := ids, fails := 0 }, ?_⟩
  unfold readerStep
  simp only [d1, d2, s1, hh, hagg]
  rfl

/-- Negation of C82, in general: without a PSK, one packet that contains any answer ever signed by the remote side makes
the call succeed, for every local key (as long as it gives a shared key at all): neither the signer nor anybody else who
knows a secret is on the other side. -/
theorem C82_violated {id b k : Bytes} {msg : KxMsg} (hid : cfg.remote = some id) (hpsk : cfg.kx.psk = none)
    (hd : cfg.rc.detachOnMessages = 0) (hv : KX.Valid C.kx cfg.kx id b msg) (ha : isAnswer msg.flags = true)
    (hb : b.length < 2 ^ 31) (hk : C.kx.dh k msg.kxPublicKey ≠ List.replicate 32 0) (now : Nat) :
    ∃ s, runActs C cfg (State.init cfg) (attack C.pkt b k now) = .ok s ∧
      s.confirmed [some (C.kx.dh k msg.kxPublicKey), none, none, none] ∧ s.got = [forged C.pkt b] := by
  have haux : aux C cfg = none := by simp [aux, hpsk]
  have hlen := C.kx.dh_length k msg.kxPublicKey
  obtain ⟨rd, hrd⟩ := forged_step (C := C) (cfg := cfg) hd b hb
  have hp := (KX.parse_valid hv).1
  obtain ⟨pkt, hseal, -⟩ := Packet.seal_spec C.pkt none (some (C.kx.dh k msg.kxPublicKey)) cfg.kx.sessionID true 2#64
    (message typeReadWrite 1#8 []) (by intro _ h; cases h) (by intro x h; cases h; exact hlen) (by intro h; cases h)
  have hs0 : KX.secrets C.kx none ⟨none, none, none, some k⟩ = some [none, none, none, none] := by
    simp [KX.secrets, KX.secret, KX.Keys.pair, KX.generateSharedKey]
  have hs1 : KX.secrets C.kx none ⟨none, some msg.kxPublicKey, none, some k⟩ =
      some [some (C.kx.dh k msg.kxPublicKey), none, none, none] := by
    have hk' : C.kx.dh k msg.kxPublicKey ≠ KX.zeroKey := hk
    simp [KX.secrets, KX.secret, KX.Keys.pair, KX.generateSharedKey, hk']
  have hne : C.kx.dh k msg.kxPublicKey ≠ [] := by intro h; simp [h] at hlen
  have htake : (C.kx.dh k msg.kxPublicKey).take 32 = C.kx.dh k msg.kxPublicKey := List.take_of_length_le (by omega)
  simp [attack, KX.rotate, runActs, step, KX.step, KX.mainStep, KX.genStep, KX.sendPublicKey, KX.publish, State.init, KX.State.init,
    KX.Keys.rotate, KX.Reader.locks, hs0, hpsk, kxPackets, haux, State.readerIdle, keysOf, KX.SessKeys.init, hrd, eventStep,
    hid, hp, KX.readerStep, KX.Main.locks, KX.enter, KX.Keys.receive, hs1, KX.setSecrets,
    KX.cipherKey, KX.changedCount, KX.keyChanged, hne, htake, KX.finish, KX.succeeds, ha, KX.getCipherKeysWait, hseal, readStep,
    finalKeys, State.confirmed]

/-- A concrete run: Bob's answer was recorded in another session of his. -/
theorem C82_violated_witness :
    ∃ s, runActs toyC cfgA (State.init cfgA)
        (attack toyC.pkt (KX.kxMessage KX.toy { KX.bob with sessionID := ⟨77, 7⟩ } (KX.toy.pub [9]) true) [4] 5) = .ok s ∧
      s.confirmed [some (shared [4] [9]), none, none, none] :=
  let ⟨s, h1, h2, _⟩ := C82_violated (C := toyC) (cfg := cfgA) (k := [4])
    (b := KX.kxMessage KX.toy { KX.bob with sessionID := ⟨77, 7⟩ } (KX.toy.pub [9]) true)
    (id := KX.toy.idPub [8]) (msg := ⟨⟨77, 7⟩, KX.toy.idPub [8], KX.toy.pub [9], 1, 1⟩) rfl rfl rfl
    ⟨by decide +kernel, by decide +kernel, by decide +kernel, by decide +kernel, by decide +kernel⟩
    (by decide +kernel) (by decide +kernel) (by decide +kernel) 5
  ⟨s, h1, h2⟩

/-- C82 with a PSK: a call that gives keys without an error has read a packet with an empty message, and one with an
answer of the key exchange, whose tags are valid under the key made from the PSK or under a key exchanged in the call.
Missing: that the packets were made for this call. -/
theorem C82_psk_partial {s : State} {psk id : Bytes} {ks : List (Option Bytes)} (hcfg : cfg.OK) (hid : cfg.remote = some id)
    (hp : cfg.kx.psk = some psk) (hr : Reachable C cfg s) (hc : s.confirmed ks) :
    (∃ t, Carried C cfg (KX.auxCipherKey C.kx psk) s (.queued t [])) ∧
    ∃ b, Carried C cfg (KX.auxCipherKey C.kx psk) s (.handled typeKeyExchange b) ∧
      isAnswer (KxMsg.decode ((b.drop 64).take 82)).flags = true ∧
      C.kx.verify id (b.take 64) ((b.drop 64).take 82) = true := by
  have ha : aux C cfg = some (KX.auxCipherKey C.kx psk) := by simp [aux, hp]
  obtain ⟨⟨b, h1, _, h2, h3⟩, h4, _⟩ := C82_signed_partial hcfg hid hr hc
  exact ⟨(carriedOK ha hr).rw [] h4, b, (carriedOK ha hr).kx b h1, h3, h2⟩

/-- C82 with a PSK, for whatever remote identity, also an unknown one: a call that gives keys without an error has pinned an
identity.  It has read a packet with an empty message and one with an answer signed by that identity, and the first key is made
with a public key signed by it; the tags of all three packets are valid under the key made from the PSK or under a key
exchanged in the call.  Missing: that the packets were made for this call, and by somebody else (`C115_violated`). -/
theorem C82_by_psk_partial {s : State} {psk : Bytes} {ks : List (Option Bytes)} (hcfg : cfg.OK)
    (hp : cfg.kx.psk = some psk) (hr : Reachable C cfg s) (hc : s.confirmed ks) :
    ∃ id, s.kx.remoteIdentity = some id ∧ (∀ r, cfg.remote = some r → id = r) ∧
    (∃ t, Carried C cfg (KX.auxCipherKey C.kx psk) s (.queued t [])) ∧
    (∃ b, Carried C cfg (KX.auxCipherKey C.kx psk) s (.handled typeKeyExchange b) ∧
      isAnswer (KxMsg.decode ((b.drop 64).take 82)).flags = true ∧
      C.kx.verify id (b.take 64) ((b.drop 64).take 82) = true) ∧
    ∃ k0 k1 k2 k3, ks = [some k0, k1, k2, k3] ∧ ∃ a ∈ s.kx.gens.map (·.1), ∃ b,
      Carried C cfg (KX.auxCipherKey C.kx psk) s (.handled typeKeyExchange b) ∧
      C.kx.verify id (b.take 64) ((b.drop 64).take 82) = true ∧
      KX.generateSharedKey C.kx (some psk) (some a) (some (KxMsg.decode ((b.drop 64).take 82)).kxPublicKey) = .ok k0 := by
  have ha : aux C cfg = some (KX.auxCipherKey C.kx psk) := by simp [aux, hp]
  have hK := carriedOK ha hr
  have hS := seenOK hr
  have hC := callOK hr
  obtain ⟨h1, h2, hl, k0, a, y, e1, e2, e3, e4⟩ := hC.ret ks hc.1
  obtain ⟨msg, ⟨id, b, i1, i2, i3⟩, hsu⟩ := hS.successes (hC.est h1)
  refine ⟨id, i1, ?_, hK.rw [] h2, ⟨b, hK.kx b i2, ?_, i3.sig⟩, ?_⟩
  · intro r hrem
    have : ∀ {t : KX.State}, KX.Reachable C.kx cfg.kx (some r) t → t.remoteIdentity = some r := by
      intro t ht
      induction ht with
      | init => rfl
      | step a _ hs ih => exact (KX.step_grows hs).2.2 _ ih
    have := this (hrem ▸ kx_reachable hr)
    rw [i1] at this; cases this; rfl
  · rw [KX.succeeds, hcfg.mode, i3.dec] at hsu
    simp only [bne_self_eq_false, Bool.or_false] at hsu
    exact hsu
  · match ks, hl with
    | [x0, k1, k2, k3], _ =>
      simp only [List.getElem?_cons_zero, Option.some.injEq] at e1
      subst e1
      obtain ⟨msg, ⟨id', b, j1, j2, j3⟩, hk⟩ := hS.accepted y e3
      rw [i1] at j1; cases j1
      refine ⟨k0, k1, k2, k3, rfl, a, e2, b, hK.kx b j2, j3.sig, ?_⟩
      have : (KxMsg.decode ((b.drop 64).take 82)).kxPublicKey = y := by rw [← hk, j3.dec]; rfl
      rw [this, ← hp]; exact e4

/-- With a PSK: Alice and Bob as before. -/
def withPSK (cfg : Cfg) : Cfg := { cfg with kx := { cfg.kx with psk := some [1, 2, 3] } }
def kxPktP (cfg : Cfg) (k : Bytes) (answer : Bool) (pid : W64) : Bytes :=
  (Packet.sealPacket toyC.pkt (aux toyC (withPSK cfg)) (aux toyC (withPSK cfg)) cfg.kx.sessionID false pid
    (message typeKeyExchange 0 (KX.kxMessage toyC.kx cfg.kx (toyC.kx.pub k) answer))).getD []
def sharedP (a b : Bytes) : Bytes := KX.xorBytes (shared a b) (KX.hash toyC.kx [1, 2, 3] [KX.salt, KX.cipherKeyLabel])
/-- Alice's call with a PSK; the other side is Bob with the key 5. -/
def runP : List Act :=
  ((makeKey false [4] 1 ++ recvKx false (kxPktP cfgB [5] true 1) ++ write false 2 ++
    recvRw false ((Packet.sealPacket toyC.pkt (aux toyC (withPSK cfgB)) (some (sharedP [5] [4])) cfgB.kx.sessionID true 2
      (message typeReadWrite 1 [])).getD [])).map (·.2)) ++ [.read]

/-- The hypotheses of `C82_psk_partial` can be met. -/
example : (withPSK cfgA).OK ∧ (withPSK cfgA).remote = some (KX.toy.idPub [8]) ∧ (withPSK cfgA).kx.psk = some [1, 2, 3] ∧
    ∃ s, Reachable toyC (withPSK cfgA) s ∧ s.confirmed [some (sharedP [4] [5]), none, none, none] := by
  have key : (match runActs toyC (withPSK cfgA) (State.init (withPSK cfgA)) runP with
      | .ok s => decide (s.call = .returned (.keys [some (sharedP [4] [5]), none, none, none])) && !s.failed
      | _ => false) = true := by decide +kernel
  refine ⟨⟨rfl, rfl⟩, rfl, rfl, ?_⟩
  split at key
  · rename_i s hs
    simp only [Bool.and_eq_true, decide_eq_true_eq, Bool.not_eq_true'] at key
    exact ⟨s, runActs_reachable _ .init hs, key⟩
  · simp at key

/-- The hypotheses of `C82_by_psk_partial` can be met with an unknown remote identity. -/
example : { withPSK cfgA with remote := none }.OK ∧ { withPSK cfgA with remote := none }.kx.psk = some [1, 2, 3] ∧
    ∃ s, Reachable toyC { withPSK cfgA with remote := none } s ∧ s.confirmed [some (sharedP [4] [5]), none, none, none] ∧
      s.kx.remoteIdentity = some (KX.toy.idPub [8]) := by
  have key : (match runActs toyC { withPSK cfgA with remote := none } (State.init { withPSK cfgA with remote := none }) runP with
      | .ok s => decide (s.call = .returned (.keys [some (sharedP [4] [5]), none, none, none])) && (!s.failed &&
          decide (s.kx.remoteIdentity = some (KX.toy.idPub [8])))
      | _ => false) = true := by decide +kernel
  refine ⟨⟨rfl, rfl⟩, rfl, ?_⟩
  split at key
  · rename_i s hs
    simp only [Bool.and_eq_true, decide_eq_true_eq, Bool.not_eq_true'] at key
    exact ⟨s, runActs_reachable _ .init hs, ⟨key.1, key.2.1⟩, key.2.2⟩
  · simp at key

/-! ### C83 -/

/-- The public key in a signed message. -/
theorem kxMessage_key (c : KX.Cfg) (k : Bytes) (x : Bool) :
    (KxMsg.decode ((KX.kxMessage C.kx c (C.kx.pub k) x).drop 64)).kxPublicKey = C.kx.pub k := by
  have h : (KX.kxMessage C.kx c (C.kx.pub k) x).drop 64 =
      KxMsg.encode ⟨c.sessionID, C.kx.idPub c.identity, C.kx.pub k, c.mode, setIsAnswer 0 x⟩ :=
    drop_app (C.kx.sign_length _ _)
  rw [h, (C08_key_exchange_message.1 _ ⟨C.kx.idPub_length _, C.kx.pub_length _⟩).2]

/-- The bytes signed by `id` in messages which `s` was given were sent by `o` in this very call: the signature cannot be
forged and nothing is replayed. -/
def Authentic (C : Crypto) (id : Bytes) (s o : State) : Prop :=
  ∀ b ∈ s.kxGot, 146 ≤ b.length → C.kx.verify id (b.take 64) ((b.drop 64).take 82) = true →
    ∃ m ∈ o.kx.sent, m.drop 64 = (b.drop 64).take 82

theorem single {α : Type} {l : List α} {x y : α} (hl : l.length ≤ 1) (hx : x ∈ l) (hy : y ∈ l) : x = y := by
  match l, hl with
  | [z], _ => rw [List.mem_singleton.1 hx, List.mem_singleton.1 hy]
  | [], _ => simp at hx

theorem first_key {cfgA cfgB : Cfg} {A B : State} {idB : Bytes} {ksA : List (Option Bytes)} (okA : cfgA.OK)
    (hA : Reachable C cfgA A) (hB : Reachable C cfgB B) (rA : cfgA.remote = some idB) (cA : A.confirmed ksA)
    (hAB : Authentic C idB A B) :
    ∃ a ∈ A.kx.gens.map (·.1), ∃ b ∈ B.kx.gens.map (·.1), ∃ k, ksA[0]? = some (some k) ∧
      KX.generateSharedKey C.kx cfgA.kx.psk (some a) (some (C.kx.pub b)) = .ok k := by
  obtain ⟨-, -, k0, k1, k2, k3, rfl, a, ha, m, hm, hl, hv, hk⟩ := C82_signed_partial okA rA hA cA
  obtain ⟨m', hm', e⟩ := hAB m hm hl hv
  obtain ⟨b, hb, x, rfl⟩ := KX.sent_origin (kx_reachable hB) m' hm'
  rw [← e, kxMessage_key] at hk
  exact ⟨a, ha, b, hb, k0, rfl, hk⟩

/-- C83, the part that holds: if both calls give keys without an error, neither of them made more than one local key, and
their messages are authentic and not replayed, then both have the same first key.  Missing: calls in which a second
local key is made. -/
theorem C83_agree_partial {cfgA cfgB : Cfg} {A B : State} {idA idB : Bytes} {ksA ksB : List (Option Bytes)} (okA : cfgA.OK)
    (okB : cfgB.OK) (hA : Reachable C cfgA A) (hB : Reachable C cfgB B) (hpsk : cfgA.kx.psk = cfgB.kx.psk)
    (rA : cfgA.remote = some idB) (rB : cfgB.remote = some idA) (cA : A.confirmed ksA) (cB : B.confirmed ksB)
    (gA : A.kx.gens.length ≤ 1) (gB : B.kx.gens.length ≤ 1) (hAB : Authentic C idB A B) (hBA : Authentic C idA B A) :
    ∃ k, ksA[0]? = some (some k) ∧ ksB[0]? = some (some k) := by
  obtain ⟨a, ha, b, hb, k, h1, h2⟩ := first_key okA hA hB rA cA hAB
  obtain ⟨b', hb', a', ha', k', h1', h2'⟩ := first_key okB hB hA rB cB hBA
  have ea : a' = a := single (by simpa using gA) ha' ha
  have eb : b' = b := single (by simpa using gB) hb' hb
  subst ea eb
  rw [KX.C35_shared, hpsk] at h2
  rw [h2] at h2'
  cases h2'
  exact ⟨k, h1, h1'⟩

/-- The hypotheses of `C83_agree_partial` hold after the honest run. -/
example : let n := netState honest
    cfgA.OK ∧ cfgB.OK ∧ Reachable toyC cfgA n.a ∧ Reachable toyC cfgB n.b ∧ cfgA.kx.psk = cfgB.kx.psk ∧
    n.a.confirmed [some (shared [4] [5]), none, none, none] ∧ n.b.confirmed [some (shared [4] [5]), none, none, none] ∧
    n.a.kx.gens.length ≤ 1 ∧ n.b.kx.gens.length ≤ 1 ∧
    Authentic toyC (KX.toy.idPub [8]) n.a n.b ∧ Authentic toyC (KX.toy.idPub [7]) n.b n.a := by
  have h : netOk honest = true := by decide +kernel
  exact ⟨⟨rfl, rfl⟩, ⟨rfl, rfl⟩, (netState_reachable h).1, (netState_reachable h).2, rfl,
    ⟨by decide +kernel, by decide +kernel⟩, ⟨by decide +kernel, by decide +kernel⟩, by decide +kernel, by decide +kernel,
    by unfold Authentic; decide +kernel, by unfold Authentic; decide +kernel⟩

/-- Alice's answering goroutine finds no local key and passes the check of `updateLocalKey`; before it makes a key, the
loop makes one, the whole exchange takes place with it, and both sides write. -/
def race : List (Bool × Act) :=
  makeKey true [5] 1 ++ recvKx false (kxPkt cfgB [5] false 1) ++
  kxs false [(.answer 0 none 0 true, 0), (.answer 0 none 0 true, 0)] ++
  makeKey false [4] 1 ++ recvKx true (kxPkt cfgA [4] false 1) ++ answerKx true 0 2 ++
  recvKx false (kxPkt cfgB [5] true 2) ++ kxs true [(.retry true, 3)] ++ recvKx false (kxPkt cfgB [5] false 3) ++
  answerKx false 1 2 ++ recvKx true (kxPkt cfgA [4] true 2) ++ write false 3 ++ write true 4 ++
  kxs false [(.answer 0 (some [6]) 9 true, 0), (.answer 0 none 0 true, 0), (.answer 0 none 0 true, 0)] ++
  recvRw false (rwPkt cfgB (shared [5] [4]) 4) ++ recvRw true (rwPkt cfgA (shared [4] [5]) 3) ++
  [(false, .read), (true, .read)]

def firstKey (s : State) : Option (Option Bytes) :=
  match s.call with
  | .returned (.keys ks) => ks[0]?
  | _ => none

/-- Negation of C83: over a network without attackers both calls succeed, without any error reported, and give different
first keys. -/
theorem C83_violated :
    ∃ n ksA ksB, netRun toyC cfgA cfgB (Net.init cfgA cfgB) race = .ok n ∧ n.a.confirmed ksA ∧ n.b.confirmed ksB ∧
      n.a.kx.reports = [] ∧ n.b.kx.reports = [] ∧
      ksA[0]? = some (some (shared [6] [5])) ∧ ksB[0]? = some (some (shared [5] [4])) ∧ shared [6] [5] ≠ shared [5] [4] := by
  have h : netOk race = true := by decide +kernel
  exact ⟨netState race, [some (shared [6] [5]), none, some (shared [4] [5]), none],
    [some (shared [5] [4]), none, none, none], netState_eq h,
    ⟨by decide +kernel, by decide +kernel⟩, ⟨by decide +kernel, by decide +kernel⟩, by decide +kernel, by decide +kernel,
    by decide +kernel, by decide +kernel, by decide +kernel⟩

/-! ### C84 -/

/-- The call is about to return: the empty message is in the queue and the keys are there. -/
structure AboutToReturn (s : State) : Prop where
  call : s.call = .reading
  queue : ∃ q, s.queue = [] :: q
  keys : s.kx.sess.cipherKeys.length = 4
  idle : s.readerIdle
  fails : s.rd.fails = 0
  failed : s.failed = false

/-- Negation of C84, in general: whenever the call is about to return, the next packet of the backend which is not of this
session is still read by it, without any effect, and the call succeeds. -/
theorem C84_violated {s : State} {p : Bytes} {e : Packet.DecryptErr} (hcfg : cfg.OK) (herr : cfg.rc.errorOnFails = some 3)
    (h : AboutToReturn s)
    (hd : Packet.decrypt C.pkt (aux C cfg) s.kx.sess.cipherKeys s.kx.remoteSessionID p = .err e) :
    ∃ s', runActs C cfg s [.packet p, .read] = .ok s' ∧ s'.confirmed s.kx.sess.cipherKeys ∧ s'.got = s.got ++ [p] ∧
      s'.rwGot = s.rwGot := by
  obtain ⟨q, hq⟩ := h.queue
  have hrd : Receive.readerStep C.pkt cfg.rc (env cfg) (keysOf C cfg s) s.rd p = .ok ({ s.rd with fails := 1 }, [], true) := by
    simp [Receive.readerStep, keysOf, hd, decryptError, herr, hcfg.fails, h.fails]
  refine ⟨{ s with rd := { s.rd with fails := 1 }, todo := [], running := true, got := s.got ++ [p], queue := q,
                   call := .returned (.keys s.kx.sess.cipherKeys) }, ?_, ⟨rfl, h.failed⟩, rfl, rfl⟩
  simp only [runActs, step, if_pos h.idle, hrd, h.call, if_true, readStep, hq, finalKeys, h.keys]

/-- Bob's call has returned, Alice's has his message but has not yet read it. -/
def bobFirst : List (Bool × Act) := honest.take (honest.length - 2) ++ [(true, .read)]

/-- A concrete run: after Bob's call has returned, he writes "hello" to the backend, and Alice's call swallows it. -/
theorem C84_violated_witness :
    Reachable toyC cfgA (netState bobFirst).a ∧ (netState bobFirst).b.confirmed [some (shared [4] [5]), none, none, none] ∧
    ∃ s', runActs toyC cfgA (netState bobFirst).a [.packet [104, 101, 108, 108, 111], .read] = .ok s' ∧
      s'.confirmed [some (shared [4] [5]), none, none, none] ∧ [104, 101, 108, 108, 111] ∈ s'.got := by
  have h : netOk bobFirst = true := by decide +kernel
  have hk : (netState bobFirst).a.kx.sess.cipherKeys = [some (shared [4] [5]), none, none, none] := by decide +kernel
  obtain ⟨s', h1, h2, h3, _⟩ := C84_violated (C := toyC) (cfg := cfgA) (s := (netState bobFirst).a)
    (p := [104, 101, 108, 108, 111]) (e := .tooShort ⟨44, 5⟩) ⟨rfl, rfl⟩ rfl
    ⟨by decide +kernel, ⟨[], by decide +kernel⟩, by decide +kernel, by decide +kernel, by decide +kernel, by decide +kernel⟩
    (by decide +kernel)
  exact ⟨(netState_reachable h).1, ⟨by decide +kernel, by decide +kernel⟩, s', h1, hk ▸ h2, by rw [h3]; simp⟩

/-- How many packets that are not of this session the reader may still read. -/
def budget (s : State) : Nat := s.got.length + if s.running then 2 - s.rd.fails else 0

theorem rd_same {s s' : State} {a : Act} (h : step C cfg s a = .ok s') (ha : ∀ p, a ≠ .packet p) :
    s'.got = s.got ∧ s'.rd = s.rd ∧ (s'.running = true → s.running = true) := by
  refine ⟨(got_grows h).resolve_left (fun ⟨p, e⟩ => ha p e), ?_⟩
  cases a with
  | packet p => exact absurd rfl (ha p)
  | event =>
    simp only [step] at h
    split at h
    · simp at h
    · split at h
      · unfold eventStep at h
        split at h
        · split at h
          · split at h <;> simp only [Outcome.ok.injEq, reduceCtorEq] at h
            subst h; exact ⟨rfl, id⟩
          · simp only [Outcome.ok.injEq] at h; subst h; exact ⟨rfl, id⟩
        all_goals simp only [Outcome.ok.injEq] at h; subst h; exact ⟨rfl, id⟩
      · simp at h
  | kx x pid =>
    simp only [step] at h
    split at h
    · simp at h
    · split at h <;> simp only [Outcome.ok.injEq, reduceCtorEq] at h
      subst h; exact ⟨rfl, id⟩
  | establish =>
    simp only [step] at h
    split at h <;> simp only [Outcome.ok.injEq, reduceCtorEq] at h
    subst h; exact ⟨rfl, id⟩
  | readerEnd =>
    simp only [step] at h
    split at h <;> simp only [Outcome.ok.injEq, reduceCtorEq] at h
    subst h; exact ⟨rfl, by simp⟩
  | takeKey byCtx =>
    simp only [step] at h
    split at h
    · split at h <;> try (simp only [Outcome.ok.injEq, reduceCtorEq] at h; done)
      · split at h <;> simp only [Outcome.ok.injEq, reduceCtorEq] at h
        subst h; exact ⟨rfl, id⟩
      · simp only [Outcome.ok.injEq] at h; subst h; exact ⟨rfl, id⟩
    · simp at h
  | send pid ok =>
    simp only [step] at h
    split at h
    · split at h
      · simp at h
      · split at h
        · simp only [Outcome.ok.injEq] at h; subst h; exact ⟨rfl, id⟩
        · split at h <;> simp only [Outcome.ok.injEq, reduceCtorEq] at h
          subst h; exact ⟨rfl, id⟩
    · simp at h
  | writeFail =>
    simp only [step] at h
    split at h <;> simp only [Outcome.ok.injEq, reduceCtorEq] at h <;> subst h <;> exact ⟨rfl, id⟩
  | read =>
    simp only [step] at h
    split at h
    · unfold readStep at h
      split at h
      · simp only [Outcome.ok.injEq] at h; subst h; exact ⟨rfl, id⟩
      · split at h <;> simp only [Outcome.ok.injEq, reduceCtorEq] at h
        subst h; exact ⟨rfl, id⟩
    · simp at h

/-- The reader stops at the second packet in a row that is not of this session. -/
theorem fails_bound (hcfg : cfg.OK) {s : State} (h : Reachable C cfg s) : s.running = true → s.rd.fails < 2 := by
  induction h with
  | init => intro _; exact Nat.zero_lt_two
  | @step s s' a hr hs ih =>
    by_cases ha : ∃ p, a = .packet p
    · obtain ⟨p, rfl⟩ := ha
      simp only [step] at hs
      split at hs
      · rename_i hi
        split at hs <;> simp only [Outcome.ok.injEq, reduceCtorEq] at hs
        rename_i rd evs go hrd
        subst hs
        unfold Receive.readerStep at hrd
        split at hrd
        · simp at hrd
        · simp at hrd
        · simp only [decryptError, hcfg.fails, Outcome.ok.injEq, Prod.mk.injEq] at hrd
          rw [← hrd.1, ← hrd.2.2]
          simp only [decide_eq_true_eq]
          omega
        · split at hrd
          · simp at hrd
          · simp only [Outcome.ok.injEq, Prod.mk.injEq] at hrd
            rw [← hrd.1]
            exact fun _ => ih hi.1
          · split at hrd <;> simp only [Outcome.ok.injEq, Prod.mk.injEq, reduceCtorEq] at hrd
            rw [← hrd.1]
            exact fun _ => Nat.zero_lt_two
      · simp at hs
    · obtain ⟨-, h2, h3⟩ := rd_same hs (fun p e => ha ⟨p, e⟩)
      rw [h2]
      exact fun h => ih (h3 h)

theorem budget_step (hcfg : cfg.OK) {s s' : State} {a : Act} (hr : Reachable C cfg s) (h : step C cfg s a = .ok s')
    (hp : ∀ p, a = .packet p → ∃ e, Packet.decrypt C.pkt (aux C cfg) s.kx.sess.cipherKeys s.kx.remoteSessionID p = .err e) :
    budget s' ≤ budget s := by
  by_cases ha : ∃ p, a = .packet p
  · obtain ⟨p, rfl⟩ := ha
    obtain ⟨e, hd⟩ := hp p rfl
    simp only [step] at h
    split at h
    · rename_i hi
      have hf := fails_bound hcfg hr hi.1
      have hrun := hi.1
      simp only [Receive.readerStep, keysOf, hd, decryptError, hcfg.fails, Outcome.ok.injEq] at h
      subst h
      simp only [budget, hrun, if_true, List.length_append, List.length_cons, List.length_nil, decide_eq_true_eq]
      split <;> omega
    · simp at h
  · obtain ⟨h1, h2, h3⟩ := rd_same h (fun p e => ha ⟨p, e⟩)
    unfold budget
    rw [h1, h2]
    cases e1 : s'.running with
    | false => simp
    | true => rw [h3 e1]; exact Nat.le_refl _

/-- C84, the part that holds: in any part of a run in which no packet is of this session, the call reads at most two
packets from the backend, and none after the second one.  Missing: that it reads none after it has what it needs. -/
theorem C84_bound_partial (hcfg : cfg.OK) : ∀ (as : List Act) {s s' : State}, Reachable C cfg s → runActs C cfg s as = .ok s' →
    (∀ as1 p as2 s1, as = as1 ++ .packet p :: as2 → runActs C cfg s as1 = .ok s1 →
      ∃ e, Packet.decrypt C.pkt (aux C cfg) s1.kx.sess.cipherKeys s1.kx.remoteSessionID p = .err e) →
    s'.got.length ≤ s.got.length + 2 := by
  have key : ∀ (as : List Act) {s s' : State}, Reachable C cfg s → runActs C cfg s as = .ok s' →
      (∀ as1 p as2 s1, as = as1 ++ .packet p :: as2 → runActs C cfg s as1 = .ok s1 →
        ∃ e, Packet.decrypt C.pkt (aux C cfg) s1.kx.sess.cipherKeys s1.kx.remoteSessionID p = .err e) →
      budget s' ≤ budget s := by
    intro as
    induction as with
    | nil => intro s s' _ h _; simp only [runActs, Outcome.ok.injEq] at h; subst h; exact Nat.le_refl _
    | cons a as ih =>
      intro s s' hr h hp
      simp only [runActs] at h
      split at h <;> try (simp only [reduceCtorEq] at h; done)
      rename_i s1 h1
      refine Nat.le_trans (ih (.step a hr h1) h ?_) (budget_step hcfg hr h1 ?_)
      · intro as1 p as2 s2 e hs2
        exact hp (a :: as1) p as2 s2 (by rw [e]; rfl) (by simp only [runActs, h1, hs2])
      · rintro p rfl
        exact hp [] p as s rfl rfl
  intro as s s' hr h hp
  have := key as hr h hp
  unfold budget at this
  have h2 : (if s.running = true then 2 - s.rd.fails else 0) ≤ 2 := by split <;> omega
  omega

/-- The hypotheses of `C84_bound_partial` hold for a run that reads two such packets. -/
example : cfgA.OK ∧ Reachable toyC cfgA (State.init cfgA) ∧
    ∃ s', runActs toyC cfgA (State.init cfgA) [.packet [1], .packet [2]] = .ok s' ∧ s'.got = [[1], [2]] ∧ s'.running = false ∧
      runActs toyC cfgA s' [.packet [3]] = .block :=
  ⟨⟨rfl, rfl⟩, .init, { State.init cfgA with rd := { (State.init cfgA).rd with fails := 2 }, running := false, got := [[1], [2]] },
    rfl, rfl, rfl, rfl⟩

/-! ### What the call sends -/

/-- C33, the other direction: every message which a session sends is one that a peer who knows its identity accepts: 146
bytes, signed over all of its content, with the own session ID, the own identity and a local key. -/
theorem C33_sent {remote : Option Bytes} {s : KX.State} (h : KX.Reachable C.kx cfg.kx remote s) :
    ∀ m ∈ s.sent, m.length = 146 ∧
      C.kx.verify (C.kx.idPub cfg.kx.identity) (m.take 64) ((m.drop 64).take 82) = true ∧
      ∃ k ∈ s.gens.map (·.1), ∃ x, KxMsg.decode ((m.drop 64).take 82) =
        ⟨cfg.kx.sessionID, C.kx.idPub cfg.kx.identity, C.kx.pub k, cfg.kx.mode, setIsAnswer 0 x⟩ := by
  intro m hm
  obtain ⟨k, hk, x, rfl⟩ := KX.sent_origin h m hm
  have hwf : (⟨cfg.kx.sessionID, C.kx.idPub cfg.kx.identity, C.kx.pub k, cfg.kx.mode, setIsAnswer 0 x⟩ : KxMsg).WF :=
    ⟨C.kx.idPub_length _, C.kx.pub_length _⟩
  obtain ⟨e1, e2⟩ := C08_key_exchange_message.1 _ hwf
  have hlen : (KxMsg.encode ⟨cfg.kx.sessionID, C.kx.idPub cfg.kx.identity, C.kx.pub k, cfg.kx.mode, setIsAnswer 0 x⟩).length = 82 := by
    simp only [signatureSize, kxSignedSize] at e1; omega
  have hd : ((KX.kxMessage C.kx cfg.kx (C.kx.pub k) x).drop 64).take 82 =
      KxMsg.encode ⟨cfg.kx.sessionID, C.kx.idPub cfg.kx.identity, C.kx.pub k, cfg.kx.mode, setIsAnswer 0 x⟩ := by
    rw [show (KX.kxMessage C.kx cfg.kx (C.kx.pub k) x).drop 64 = _ from drop_app (C.kx.sign_length _ _)]
    exact List.take_of_length_le (by omega)
  refine ⟨?_, ?_, k, hk, x, by rw [hd, e2]⟩
  · simp only [KX.kxMessage, List.length_append, C.kx.sign_length, hlen]
  · rw [hd]
    have ht : (KX.kxMessage C.kx cfg.kx (C.kx.pub k) x).take 64 = C.kx.sign cfg.kx.identity
        (KxMsg.encode ⟨cfg.kx.sessionID, C.kx.idPub cfg.kx.identity, C.kx.pub k, cfg.kx.mode, setIsAnswer 0 x⟩) := by
      simp only [KX.kxMessage]
      rw [List.take_append_of_le_length (by rw [C.kx.sign_length]; exact Nat.le_refl _),
        List.take_of_length_le (by rw [C.kx.sign_length]; exact Nat.le_refl _)]
    rw [ht]
    exact C.kx.verify_sign _ _

/-- The packet carries a message of the key exchange for those who have the PSK, or the empty message for those who have
the exchanged key. -/
def Opens (C : Crypto) (cfg : Cfg) (s : State) (p : Bytes) : Prop :=
  (∃ m ∈ s.kx.sent, ∃ h, Packet.decrypt C.pkt (aux C cfg) [] none p = .ok (h, stream [⟨typeKeyExchange, 0, m⟩])) ∨
  (∃ k h, Packet.decrypt C.pkt (aux C cfg) [some k] (some cfg.kx.sessionID) p = .ok (h, stream [⟨typeReadWrite, 1, []⟩]))

theorem message_stream (t : W32) (f : Byte) (b : Bytes) : message t f b = stream [⟨t, f, b⟩] := by
  simp [message, stream, Msg.bytes]

theorem sent_prefix {s s' : KX.State} {a : KX.Act} (h : KX.step C.kx cfg.kx s a = .ok s') : ∀ m ∈ s.sent, m ∈ s'.sent := by
  intro m hm
  rcases KX.step_sent h with e | ⟨p, x, _, e⟩ <;> rw [e]
  · exact hm
  · exact List.mem_append.2 (.inl hm)

theorem kxPackets_open {before after : List Bytes} {pid : W64} {p : Bytes} (hp : p ∈ kxPackets C cfg pid before after)
    (hl : ∀ m ∈ after, m.length = 146) :
    ∃ m ∈ after, ∃ h, Packet.decrypt C.pkt (aux C cfg) [] none p = .ok (h, stream [⟨typeKeyExchange, 0, m⟩]) := by
  simp only [kxPackets, List.mem_filterMap] at hp
  obtain ⟨m, hm, he⟩ := hp
  have hm := List.mem_of_mem_drop hm
  obtain ⟨pkt, f1, -, f3⟩ := Packet.C12_roundtrip_aux C.pkt (aux C cfg) (aux_keyOK C cfg) cfg.kx.sessionID pid
    (message typeKeyExchange 0 m) (by simp [message, putLE_length, hl m hm]) [] none
  rw [he] at f1; cases f1
  obtain ⟨h, d, -⟩ := f3 (.inl (by simp))
  exact ⟨m, hm, h, message_stream _ _ _ ▸ d⟩

/-- Only `takeKey` begins to seal. -/
theorem call_sealing {s s' : State} {a : Act} {k : Option Bytes} (hs : step C cfg s a = .ok s') (hc : s'.call = .sealing k) :
    s.call = .sealing k ∨ ∃ b ks, KX.getCipherKeysWait s.kx.sess b s.kx.ctx = .ok (some ks) ∧ ks[0]? = some k := by
  cases a with
  | packet p =>
    simp only [step] at hs
    split at hs <;> try (cases hs; done)
    split at hs <;> cases hs
    exact .inl hc
  | event =>
    simp only [step] at hs
    split at hs
    · cases hs
    · split at hs <;> try (cases hs; done)
      unfold eventStep at hs
      split at hs
      · split at hs
        · split at hs <;> cases hs
          exact .inl hc
        · cases hs; exact .inl hc
      all_goals cases hs; exact .inl hc
  | kx x pid =>
    cases x <;> simp only [step] at hs <;> (try (cases hs; done)) <;> split at hs <;> cases hs <;> exact .inl hc
  | establish => simp only [step] at hs; split at hs <;> cases hs; exact .inl hc
  | readerEnd => simp only [step] at hs; split at hs <;> cases hs; exact .inl hc
  | takeKey b =>
    simp only [step] at hs
    split at hs <;> try (cases hs; done)
    split at hs <;> try (cases hs; done)
    · rename_i ks hk
      split at hs <;> cases hs
      rename_i k' hk'
      cases hc
      exact .inr ⟨b, ks, hk, hk'⟩
    · cases hs; cases hc
  | writeFail => simp only [step] at hs; split at hs <;> cases hs <;> cases hc
  | read =>
    simp only [step] at hs
    split at hs <;> try (cases hs; done)
    unfold readStep at hs
    split at hs
    · cases hs; cases hc
    · split at hs <;> cases hs; cases hc
  | send pid ok =>
    simp only [step] at hs
    split at hs <;> try (cases hs; done)
    split at hs <;> try (cases hs; done)
    split at hs
    · cases hs; cases hc
    · split at hs <;> cases hs
      cases hc

theorem sealing_key {s : State} {k : Option Bytes} (hr : Reachable C cfg s) (hc : s.call = .sealing k) :
    ∃ k0, k = some k0 ∧ k0.length = 32 := by
  induction hr with
  | init => cases hc
  | @step s s' a hr hs ih =>
    rcases call_sealing hs hc with h | ⟨b, ks, h1, h2⟩
    · exact ih h
    · obtain ⟨k0, k1, k2, k3, rfl, hl⟩ := (KX.C42_wait (kx_reachable hr) b s.kx.ctx).2.1 ks h1
      simp only [List.getElem?_cons_zero, Option.some.injEq] at h2
      exact ⟨k0, h2.symm, hl⟩

/-- C82, what the other side gets: every packet which the call sends carries one of its signed messages of the key
exchange and is sealed with the PSK if there is one, or carries the empty message and is sealed with an exchanged
key. -/
theorem C82_sent {s : State} (hr : Reachable C cfg s) : ∀ p ∈ s.out, Opens C cfg s p := by
  induction hr with
  | init => simp [State.init]
  | @step s s' a hr hs ih =>
    have keep : s'.out = s.out → (∀ m ∈ s.kx.sent, m ∈ s'.kx.sent) → ∀ p ∈ s'.out, Opens C cfg s' p := by
      intro ho hk p hp
      rw [ho] at hp
      rcases ih p hp with ⟨m, hm, h⟩ | h
      · exact .inl ⟨m, hk m hm, h⟩
      · exact .inr h
    cases a with
    | packet p =>
      simp only [step] at hs
      split at hs <;> try (cases hs; done)
      split at hs <;> cases hs
      exact keep rfl (fun _ h => h)
    | event =>
      simp only [step] at hs
      split at hs
      · cases hs
      · split at hs <;> try (cases hs; done)
        unfold eventStep at hs
        split at hs
        · split at hs
          · split at hs <;> cases hs
            rename_i kx hk
            exact keep rfl (sent_prefix hk)
          · cases hs; exact keep rfl (fun _ h => h)
        · cases hs; exact keep rfl (fun _ h => h)
        · cases hs; exact keep rfl (fun _ h => h)
        · cases hs; exact keep rfl (fun _ h => h)
    | kx x pid =>
      have hk : ∃ kx, KX.step C.kx cfg.kx s.kx x = .ok kx ∧
          s' = { s with kx := kx, out := s.out ++ kxPackets C cfg pid s.kx.sent kx.sent } := by
        cases x <;> simp only [step] at hs <;> (try (cases hs; done)) <;> split at hs <;> cases hs <;> exact ⟨_, by assumption, rfl⟩
      obtain ⟨kx, hk, rfl⟩ := hk
      intro p hp
      rcases List.mem_append.1 hp with hp | hp
      · rcases ih p hp with ⟨m, hm, h⟩ | h
        · exact .inl ⟨m, sent_prefix hk m hm, h⟩
        · exact .inr h
      · obtain ⟨m, hm, h⟩ := kxPackets_open hp (fun m hm => (C33_sent (.step x (kx_reachable hr) hk) m hm).1)
        exact .inl ⟨m, hm, h⟩
    | establish => simp only [step] at hs; split at hs <;> cases hs; exact keep rfl (fun _ h => h)
    | readerEnd => simp only [step] at hs; split at hs <;> cases hs; exact keep rfl (fun _ h => h)
    | takeKey b =>
      simp only [step] at hs
      split at hs <;> try (cases hs; done)
      split at hs <;> try (cases hs; done)
      · split at hs <;> cases hs; exact keep rfl (fun _ h => h)
      · cases hs; exact keep rfl (fun _ h => h)
    | writeFail => simp only [step] at hs; split at hs <;> cases hs <;> exact keep rfl (fun _ h => h)
    | read =>
      simp only [step] at hs
      split at hs <;> try (cases hs; done)
      unfold readStep at hs
      split at hs
      · cases hs; exact keep rfl (fun _ h => h)
      · split at hs <;> cases hs; exact keep rfl (fun _ h => h)
    | send pid ok =>
      simp only [step] at hs
      split at hs <;> try (cases hs; done)
      rename_i k hcall
      split at hs <;> try (cases hs; done)
      split at hs
      · cases hs; exact keep rfl (fun _ h => h)
      · split at hs <;> cases hs
        rename_i pkt hseal
        intro p hp
        rcases List.mem_append.1 hp with hp | hp
        · exact ih p hp
        · simp only [List.mem_singleton] at hp
          subst hp
          obtain ⟨k0, rfl, hk0⟩ := sealing_key hr hcall
          obtain ⟨pkt', f1, -, f3⟩ := Packet.C12_roundtrip_confidential C.pkt (aux C cfg) (aux_keyOK C cfg) k0 hk0 cfg.kx.sessionID pid
            (message typeReadWrite 1 []) (by simp [message, putLE_length]) [] []
          rw [hseal] at f1; cases f1
          obtain ⟨h, d, -⟩ := f3 (by simp)
          exact .inr ⟨k0, h, message_stream _ _ _ ▸ d⟩

/-- C82, how often: the call sends at most one packet for each message of its key exchanger, and one more. -/
theorem C82_once {s : State} (hr : Reachable C cfg s) :
    s.out.length ≤ s.kx.sent.length + 1 ∧
      (s.call = .writing ∨ (∃ k, s.call = .sealing k) → s.out.length ≤ s.kx.sent.length) := by
  induction hr with
  | init => simp [State.init]
  | @step s s' a hr hs ih =>
    have keep : s'.out = s.out → s.kx.sent.length ≤ s'.kx.sent.length → (s'.call = s.call ∨ (∃ r, s'.call = .returned r) ∨
        (s.call = .writing ∧ ∃ k, s'.call = .sealing k)) → s'.out.length ≤ s'.kx.sent.length + 1 ∧
        (s'.call = .writing ∨ (∃ k, s'.call = .sealing k) → s'.out.length ≤ s'.kx.sent.length) := by
      intro ho hk hc
      rw [ho]
      refine ⟨by omega, fun h => ?_⟩
      have : s.out.length ≤ s.kx.sent.length := by
        rcases hc with e | ⟨r, e⟩ | ⟨e, _⟩
        · rw [e] at h; exact ih.2 h
        · rw [e] at h; rcases h with h | ⟨k, h⟩ <;> cases h
        · exact ih.2 (.inl e)
      omega
    cases a with
    | packet p =>
      simp only [step] at hs
      split at hs <;> try (cases hs; done)
      split at hs <;> cases hs
      exact keep rfl (Nat.le_refl _) (.inl rfl)
    | event =>
      simp only [step] at hs
      split at hs
      · cases hs
      · split at hs <;> try (cases hs; done)
        unfold eventStep at hs
        split at hs
        · split at hs
          · split at hs <;> cases hs
            rename_i kx hk
            refine keep rfl ?_ (.inl rfl)
            rcases KX.step_sent hk with e | ⟨p, x, _, e⟩ <;> simp [e]
          · cases hs; exact keep rfl (Nat.le_refl _) (.inl rfl)
        all_goals cases hs; exact keep rfl (Nat.le_refl _) (.inl rfl)
    | kx x pid =>
      have key : ∀ kx, KX.step C.kx cfg.kx s.kx x = .ok kx →
          s' = { s with kx := kx, out := s.out ++ kxPackets C cfg pid s.kx.sent kx.sent } →
          s'.out.length ≤ s'.kx.sent.length + 1 ∧
          (s'.call = .writing ∨ (∃ k, s'.call = .sealing k) → s'.out.length ≤ s'.kx.sent.length) := by
        intro kx hk e
        subst e
        have hle : (kxPackets C cfg pid s.kx.sent kx.sent).length ≤ kx.sent.length - s.kx.sent.length := by
          unfold kxPackets
          refine Nat.le_trans (List.length_filterMap_le _ _) ?_
          simp
        have hge : s.kx.sent.length ≤ kx.sent.length := by
          rcases KX.step_sent hk with e | ⟨p, x, _, e⟩ <;> simp [e]
        simp only [List.length_append]
        refine ⟨by omega, fun h => ?_⟩
        have := ih.2 h
        omega
      cases x <;> simp only [step] at hs <;> (try (cases hs; done)) <;> split at hs <;> cases hs <;> exact key _ ‹_› rfl
    | establish => simp only [step] at hs; split at hs <;> cases hs; exact keep rfl (Nat.le_refl _) (.inl rfl)
    | readerEnd => simp only [step] at hs; split at hs <;> cases hs; exact keep rfl (Nat.le_refl _) (.inl rfl)
    | takeKey b =>
      simp only [step] at hs
      split at hs <;> try (cases hs; done)
      rename_i hw
      split at hs <;> try (cases hs; done)
      · split at hs <;> cases hs; exact keep rfl (Nat.le_refl _) (.inr (.inr ⟨hw, _, rfl⟩))
      · cases hs; exact keep rfl (Nat.le_refl _) (.inr (.inl ⟨_, rfl⟩))
    | writeFail => simp only [step] at hs; split at hs <;> cases hs <;> exact keep rfl (Nat.le_refl _) (.inr (.inl ⟨_, rfl⟩))
    | read =>
      simp only [step] at hs
      split at hs <;> try (cases hs; done)
      unfold readStep at hs
      split at hs
      · cases hs; exact keep rfl (Nat.le_refl _) (.inr (.inl ⟨_, rfl⟩))
      · split at hs <;> cases hs; exact keep rfl (Nat.le_refl _) (.inr (.inl ⟨_, rfl⟩))
    | send pid ok =>
      simp only [step] at hs
      split at hs <;> try (cases hs; done)
      rename_i k hcall
      have := ih.2 (.inr ⟨k, hcall⟩)
      split at hs <;> try (cases hs; done)
      split at hs
      · cases hs; exact keep rfl (Nat.le_refl _) (.inr (.inl ⟨_, rfl⟩))
      · split at hs <;> cases hs
        simp only [List.length_append, List.length_cons, List.length_nil]
        refine ⟨by omega, fun h => ?_⟩
        rcases h with h | ⟨k, h⟩ <;> cases h

/-- C82: what the call has returned stays. -/
theorem C82_final {s s' : State} {a : Act} {r : Result} (hs : step C cfg s a = .ok s') (hc : s.call = .returned r) :
    s'.call = .returned r := by
  cases a with
  | packet p =>
    simp only [step] at hs
    split at hs <;> try (cases hs; done)
    split at hs <;> cases hs
    exact hc
  | event =>
    simp only [step] at hs
    split at hs
    · cases hs
    · split at hs <;> try (cases hs; done)
      unfold eventStep at hs
      split at hs
      · split at hs
        · split at hs <;> cases hs
          exact hc
        · cases hs; exact hc
      all_goals cases hs; exact hc
  | kx x pid =>
    cases x <;> simp only [step] at hs <;> (try (cases hs; done)) <;> split at hs <;> cases hs <;> exact hc
  | establish => simp only [step] at hs; split at hs <;> cases hs; exact hc
  | readerEnd => simp only [step] at hs; split at hs <;> cases hs; exact hc
  | takeKey b => simp [step, hc] at hs
  | writeFail => simp [step, hc] at hs
  | read => simp [step, hc] at hs
  | send pid ok => simp [step, hc] at hs

/-- In the honest run both calls have returned, and each has sent three packets: two of the key exchange and one more. -/
example : (netState honest).a.call = .returned (.keys [some (shared [4] [5]), none, none, none]) ∧
    (netState honest).a.out.length = 3 ∧ (netState honest).a.kx.sent.length = 2 := by decide +kernel

/-- C84: an undecryptable packet that is reported makes the call fail, unless the caller's handler says that it has been
handled. -/
theorem C84_reported {s s' : State} {rest : List Receive.Event} (ht : s.todo = .errDecrypt .cannotDecrypt :: rest)
    (hs : step C cfg s .event = .ok s') : (s'.failed = true ↔ s.failed = true ∨ cfg.handled = false) ∧
      ∀ ks, cfg.handled = false → ¬ s'.confirmed ks := by
  simp only [step, ht] at hs
  split at hs <;> try (cases hs; done)
  simp only [eventStep, Outcome.ok.injEq] at hs
  subst hs
  refine ⟨by simp, fun ks hh hc => ?_⟩
  have := hc.2
  simp [hh] at this

/-- Without a message `Read` waits for the reader, and fails when that has ended. -/
example (s : State) (h : s.queue = []) : (s.running = true → readStep s = .block) ∧
    (s.running = false → readStep s = .ok { s with call := .returned .readErr }) := by
  constructor <;> intro hr <;> simp [readStep, h, hr]

/-- The reader loop ends between two packets only. -/
example (s : State) : (s.readerIdle → step C cfg s .readerEnd = .ok { s with running := false }) ∧
    (¬ s.readerIdle → step C cfg s .readerEnd = .block) := by
  constructor <;> intro h <;> simp [step, h]

#print axioms C82_signed_partial
#print axioms C82_violated
#print axioms C82_violated_witness
#print axioms C82_psk_partial
#print axioms C83_agree_partial
#print axioms C83_violated
#print axioms C84_violated
#print axioms C84_violated_witness
#print axioms C84_bound_partial
#print axioms C33_sent
#print axioms C82_sent
#print axioms C84_reported
#print axioms C82_once
#print axioms C82_final
#print axioms C82_by_psk_partial

end Verif.Mutual
