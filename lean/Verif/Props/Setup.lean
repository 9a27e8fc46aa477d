import Verif.Spec.Setup
import Verif.Props.Negotiator
import Verif.Props.Options
import Verif.Lemmas.Amplify
import Verif.Props.Single
/-!
# C177: UDP packets of a session are not fragmented on their way

The README says that the session does not support traffic fragmentation, and that over UDP fragmentation has to be
disabled; `setupBackend` does that.
-/
namespace Verif.Setup
open Verif.Options Verif.Negotiator

/-- Every pong of the second side answers a ping that crossed the path. -/
theorem pong_crossed {ca cb : Cfg} {nf : Bool} {mtu : Nat} {wire : Nat → Nat} : ∀ (as : List (Bool × Act)) {n n' : Net},
    runNet ca cb n as = .ok n' → (∀ x ∈ as, crosses nf mtu wire x = true) →
    (∀ sz it, Msg.pong sz it ∈ n.b.out → arrives nf mtu (wire sz) = true) →
    ∀ sz it, Msg.pong sz it ∈ n'.b.out → arrives nf mtu (wire sz) = true := by
  intro as
  induction as with
  | nil => intro n n' h _ hb; simp only [runNet, Outcome.ok.injEq] at h; subst h; exact hb
  | cons x as ih =>
    obtain ⟨who, act⟩ := x
    intro n n' h hc hb
    simp only [runNet] at h
    split at h <;> try (simp only [reduceCtorEq] at h; done)
    rename_i n1 h1
    refine ih h (fun x hx => hc x (List.mem_cons_of_mem _ hx)) ?_
    simp only [netStep] at h1
    cases who with
    | true =>
      simp only [if_true] at h1
      repeat' split at h1
      all_goals simp only [Outcome.ok.injEq, reduceCtorEq] at h1
      subst h1; exact hb
    | false =>
      simp only [Bool.false_eq_true, if_false] at h1
      repeat' split at h1
      all_goals simp only [Outcome.ok.injEq, reduceCtorEq] at h1
      rename_i s hs
      subst h1
      intro sz it hm
      obtain ⟨⟨l, hl, hsub⟩, -⟩ := deliver_step hs
      have h2 : (sz, it) ∈ s.out.filterMap Msg.ponged := List.mem_filterMap.2 ⟨_, hm, rfl⟩
      rw [hl, List.mem_append] at h2
      rcases h2 with h2 | h2
      · obtain ⟨m, hm1, hp⟩ := List.mem_filterMap.1 h2
        cases m <;> simp only [Msg.ponged, Option.some.injEq, Prod.mk.injEq, reduceCtorEq] at hp
        obtain ⟨rfl, rfl⟩ := hp
        exact hb _ _ hm1
      · have h3 := hsub.subset h2
        have hx := hc (false, act) (List.mem_cons_self ..)
        cases act with
        | deliver m w =>
          cases m with
          | ping sz1 it1 =>
            simp only [delivered, List.filterMap_cons, Msg.pinged, List.filterMap_nil, List.mem_singleton, Prod.mk.injEq] at h3
            rw [h3.1]
            exact hx
          | _ => simp [delivered, Msg.pinged] at h3
        | _ => simp [delivered] at h3

/-- C177, the part that holds: a `*net.UDPConn` is told not to fragment, or the user is told that this did not work; if it
worked, then on a path that carries datagrams of up to `mtu` bytes in one piece, the negotiated size `e` is such that
messages of up to `e` bytes go in one piece. -/
theorem C177_partial (was fails handler : Bool) :
    (fails = false → setupBackend .udpConn was fails handler = ⟨true, 0⟩) ∧
    (fails = true → handler = true → (setupBackend .udpConn was fails handler).errors = 1) ∧
    ∀ {ca cb : Cfg} {ta tb : Int} {mtu e : Nat} {wire : Nat → Nat} {as : List (Bool × Act)} {n : Net}, fails = false →
      ca.Sane → cb.Sane → runNet ca cb ⟨.init ta, .init tb⟩ as = .ok n →
      (∀ x ∈ as, crosses (setupBackend .udpConn was fails handler).noFragment mtu wire x = true) →
      (∀ x y, x ≤ y → wire x ≤ wire y) → wire 0 ≤ mtu → n.a.est = some e → ∀ p ≤ e, wire p ≤ mtu := by
  refine ⟨fun h => by simp [setupBackend, h], fun h1 h2 => by simp [setupBackend, report, h1, h2], ?_⟩
  intro ca cb ta tb mtu e wire as n hf ha hb h hc hw h0 he p hp
  obtain ⟨⟨x, hx, ht⟩, -⟩ := C53_safe_partial ha hb (runNet_reachable as .init h) he
  rcases ht with rfl | ⟨it, -, ht⟩
  · exact Nat.le_trans (hw _ _ (Nat.le_trans hp hx)) h0
  · have := pong_crossed as h hc (by simp [State.init]) _ _ ht
    simp only [setupBackend, hf, Bool.false_eq_true, if_false, arrives, Bool.not_true, Bool.false_or, decide_eq_true_eq] at this
    exact Nat.le_trans (hw _ _ (Nat.le_trans hp hx)) this

/-- 44 bytes more than the message, and a path that carries 1450 bytes. -/
example : udp.Sane ∧ isOk (runNet udp udp ⟨.init Negotiator.minute, .init Negotiator.minute⟩ goodRun) = true ∧
    (goodRun.all (crosses (setupBackend .udpConn false false true).noFragment 1450 (44 + ·))) = true ∧ goodNet.a.est = some 1392 :=
  ⟨udp_sane, by decide +kernel⟩

/-- On a path that carries 1000 bytes this run is impossible. -/
example : (goodRun.all (crosses (setupBackend .udpConn false false true).noFragment 1000 (44 + ·))) = false := by
  decide +kernel

/-- The datagram with a message of the negotiation (negotiator.go:259, `WriteSingle`) is 53 bytes longer than the message. -/
theorem C177_probe (C : Packet.Crypto) (cfg : Send.Cfg) (now : Send.Now) (hk : Packet.KeyOK now.cipherKey)
    (ha : Packet.KeyOK now.aux) (m out : Bytes) (hl : m.length + 53 < 2 ^ 32)
    (h : Send.sendMessages C cfg now (Send.writeMessageSingle Headers.typeNegotiation m) = .ok out) :
    out.length = 53 + m.length := by
  rw [EndToEnd.single_stream Headers.typeNegotiation (by decide) m (by omega)] at h
  have hlen : (Receive.stream [⟨Headers.typeNegotiation, 1, m⟩]).length = m.length + 9 := by
    simp [Receive.stream, Receive.Msg.bytes, putLE_length]; omega
  cases hck : now.cipherKey with
  | none => simp [Send.sendMessages, hck] at h
  | some k =>
    obtain ⟨pkt, h1, h2, -⟩ := Packet.seal_spec C now.aux (some k) now.sessionID true now.packetID
      (Receive.stream [⟨Headers.typeNegotiation, 1, m⟩]) ha (by intro b hb; cases hb; exact hk k hck) (by intro h; cases h)
    have hi : Headers.isInternal Headers.typeNegotiation = true := by decide
    simp only [Send.sendMessages, if_true, hck, Option.map_some, hi, not_true_eq_false, false_and, if_false, h1] at h
    split at h <;> simp only [Outcome.ok.injEq, reduceCtorEq] at h
    rw [← h, List.length_take, h2, hlen]
    simp only [Headers.containerHeadersSize]
    omega

/-- C177, packets: so every packet with messages of the user (one message or as many as are merged), after the negotiation has
found `e`, goes in one piece. -/
theorem C177_packets_partial (was handler : Bool) {ca cb : Cfg} {ta tb : Int} {mtu e : Nat} {as : List (Bool × Act)} {n : Net}
    (ha : ca.Sane) (hb : cb.Sane) (h : runNet ca cb ⟨.init ta, .init tb⟩ as = .ok n)
    (hc : ∀ x ∈ as, crosses (setupBackend .udpConn was false handler).noFragment mtu (53 + ·) x = true) (hm : 53 ≤ mtu)
    (he : n.a.est = some e) (C : Packet.Crypto) (cfg : Send.Cfg) (hcfg : cfg.established.toNat = e) (hlt : e + 53 < 2 ^ 32)
    (now : Send.Now) (hk : Packet.KeyOK now.cipherKey) (hx : Packet.KeyOK now.aux) (job : Send.Job)
    (hj : job.confidential = true ∧ job.internal = false) (out : Bytes) (ho : Send.sendMessages C cfg now job = .ok out) :
    out.length ≤ mtu ∧ arrives true mtu out.length = true := by
  have h1 := Send.C18_packet_size C cfg now hk hx job hj.1 hj.2 out ho
  have h2 := (C177_partial was false handler).2.2 rfl ha hb h hc (fun x y hxy => Nat.add_le_add_left hxy 53) hm he e (Nat.le_refl _)
  simp only [Send.packetSize, hcfg, Headers.containerHeadersSize, Headers.messageHeadersSize] at h1
  have h3 : out.length ≤ mtu := by omega
  exact ⟨h3, by simp [arrives, h3]⟩

/-- The hypotheses of `C177_packets_partial`, on a path that carries 1450 bytes. -/
example : (goodRun.all (crosses (setupBackend .udpConn false false true).noFragment 1450 (53 + ·))) = true ∧
    goodNet.a.est = some 1392 ∧ (1392 : W32).toNat = 1392 := by decide +kernel

/-- The hypotheses of `C177_probe`: a message of two bytes. -/
example : (match Send.sendMessages Packet.toy ⟨1024, false, true⟩ EndToEnd.exNow
    (Send.writeMessageSingle Headers.typeNegotiation [1, 2]) with
    | .ok out => out.length == 55
    | _ => false) = true := by decide +kernel

/-- C177, other backends: nothing is done and nothing is reported. -/
theorem C177_untouched (b : Backend) (hb : b.isUDP = false) (was fails handler : Bool) :
    setupBackend b was fails handler = ⟨was, 0⟩ := by
  cases b <;> simp_all [setupBackend, Backend.isUDP]

example : (Backend.conn .tcp).isUDP = false ∧ (Backend.conn .unix).isUDP = false ∧ Backend.other.isUDP = false := by decide

/-- C177 is violated: a connection of another type with a UDP address (a wrapper of a `*net.UDPConn`, say) is recognised as
UDP (`IsLossyWriter`), and the size of its packets is negotiated, but it is not told not to fragment, and nobody is told.
Everything arrives, in pieces, and the negotiation finds that packets of three pieces are fine. Also nobody is told if
setting the option fails and `NewSession` was given no event handler. -/
theorem C177_violated :
    isLossyWriter (.conn .udp) = true ∧ isEnabled {} (.conn .udp) = true ∧
    (∀ fails handler, setupBackend (.conn .udp) false fails handler = ⟨false, 0⟩) ∧
    (∃ as n, runNet udp udp ⟨.init Negotiator.minute, .init Negotiator.minute⟩ as = .ok n ∧
      (∀ x ∈ as, crosses (setupBackend (.conn .udp) false false true).noFragment 576 (44 + ·) x = true) ∧
      n.a.est = some 1392 ∧ pieces 576 (44 + 1392) = 3) ∧
    setupBackend .udpConn false true false = ⟨false, 0⟩ := by
  refine ⟨by decide, by decide, by decide, ⟨goodRun, goodNet, netOf_eq good_ok, ?_, by decide +kernel, by decide⟩, by decide⟩
  have h : goodRun.all (crosses (setupBackend (.conn .udp) false false true).noFragment 576 (44 + ·)) = true := by
    decide +kernel
  exact List.all_eq_true.1 h

/-- A datagram that fits is one piece. -/
example : pieces 576 576 = 1 ∧ pieces 576 577 = 2 ∧ arrives true 576 577 = false ∧ arrives true 576 576 = true ∧
    arrives false 576 577 = true := by decide

#print axioms C177_partial
#print axioms C177_untouched
#print axioms C177_violated
#print axioms C177_probe
#print axioms C177_packets_partial

end Verif.Setup
