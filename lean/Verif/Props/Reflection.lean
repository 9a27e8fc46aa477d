import Verif.Props.Mutual
/-!
# C115: an echo is not a peer

Whoever can send packets back to their sender, and nothing else, knows no key and no secret.
-/
namespace Verif.KX
open Verif.Headers

variable {C : Crypto} {cfg : Cfg}

/-- The remote session ID is only set with an accepted key. -/
theorem remoteID_accepted {remote : Option Bytes} {s : State} (h : Reachable C cfg remote s) (ha : s.accepted = []) :
    s.remoteSessionID = none := by
  induction h with
  | init => rfl
  | @step s s' a hr hs ih =>
    have h0 : s.accepted = [] := by
      cases e : s.accepted with
      | nil => rfl
      | cons x l => have := (step_grows hs).2.1 x (by rw [e]; simp); rw [ha] at this; cases this
    by_cases h1 : ∃ b, a = .recv b
    · obtain ⟨b, rfl⟩ := h1
      simp only [step] at hs
      split at hs
      · split at hs <;> simp only [Outcome.ok.injEq, reduceCtorEq] at hs <;> subst hs <;> exact ih h0
      · simp at hs
    · by_cases h2 : a = .reader
      · subst h2
        simp only [step, readerStep] at hs
        split at hs
        · simp at hs
        · rename_i b msg hrd
          have hok := readerOK_reachable hr
          simp only [ReaderOK, hrd] at hok
          split at hs
          · simp at hs
          · simp only [Outcome.ok.injEq] at hs
            rcases enter_cases s b msg hok with ⟨he, _⟩ | ⟨id, _, _, _, he⟩
            · rw [← hs, he]; exact ih h0
            · rw [← hs, he] at ha; simp at ha
        · split at hs <;> simp only [Outcome.ok.injEq, reduceCtorEq] at hs
          subst hs; exact ih h0
        · split at hs <;> simp only [Outcome.ok.injEq, reduceCtorEq] at hs
          rename_i s1 hp
          obtain ⟨k, hk, _⟩ := publish_eq hp
          subst hs; rw [hk]; exact ih h0
        · rename_i msg _
          simp only [Outcome.ok.injEq] at hs; subst hs
          have : (finish cfg s msg).remoteSessionID = s.remoteSessionID := by
            unfold finish; cases succeeds cfg msg <;> rfl
          rw [this]; exact ih h0
      · have := step_frame hs (fun b e => h1 ⟨b, e⟩) h2
        rw [this.remoteSessionID]; exact ih h0

end Verif.KX

namespace Verif.Mutual
open Verif.Headers Verif.Receive

variable {C : Crypto} {cfg : Cfg}

/-- The executions in which every packet that arrives is one that this very session has sent (also several times, in any
order, or not at all). -/
inductive Echo (C : Crypto) (cfg : Cfg) : State → Prop
  | init : Echo C cfg (State.init cfg)
  | step {s s' : State} (a : Act) : Echo C cfg s → (∀ p, a = .packet p → p ∈ s.out) → step C cfg s a = .ok s' → Echo C cfg s'

theorem Echo.reachable {s : State} (h : Echo C cfg s) : Reachable C cfg s := by
  induction h with
  | init => exact .init
  | step a _ _ hs ih => exact .step a ih hs

/-- Without accepted keys there are no cipher keys. -/
theorem no_keys {s : State} (h : Reachable C cfg s) (ha : s.kx.accepted = []) : s.kx.sess.cipherKeys = [] := by
  have hr := kx_reachable h
  rcases (KX.sessOK_reachable hr).keys with ⟨h, _⟩ | ⟨l, x, ⟨s0, as, hr0, hrun, hsec⟩, hk, _⟩
  · exact h
  · obtain ⟨a, b, c, d, rfl, -⟩ := KX.secrets_eq hsec
    obtain ⟨k0, a, y, -, -, hy, -⟩ := KX.cipherKeys_origin hr (by rw [hk]; rfl)
    rw [ha] at hy; cases hy

structure EchoOK (C : Crypto) (cfg : Cfg) (s : State) : Prop where
  got : ∀ m ∈ s.kxGot, m ∈ s.kx.sent
  todo : ∀ e ∈ s.todo, ∃ m ∈ s.kx.sent, e = .handled typeKeyExchange m
  rw : s.rwGot = []
  out : ∀ p ∈ s.out, ∃ m ∈ s.kx.sent, ∃ pid,
    Packet.sealPacket C.pkt (aux C cfg) (aux C cfg) cfg.kx.sessionID false pid (message typeKeyExchange 0 m) = some p
  call : s.call = .writing ∨ s.call = .returned .writeErr

/-- Nothing that the session has sent is signed by the other identity. -/
theorem echo_accepted {s : State} {id : Bytes} (hid : cfg.remote = some id)
    (hother : ∀ body, C.kx.verify id (C.kx.sign cfg.kx.identity body) body = false) (hr : Reachable C cfg s)
    (hg : ∀ m ∈ s.kxGot, m ∈ s.kx.sent) (msg : KxMsg) : ¬ From C cfg s msg := by
  rintro ⟨id', b, i1, i2, i3⟩
  have hpin : s.kx.remoteIdentity = some id := by
    have : ∀ {t : KX.State}, KX.Reachable C.kx cfg.kx (some id) t → t.remoteIdentity = some id := by
      intro t ht
      induction ht with
      | init => rfl
      | step a _ hs ih => exact (KX.step_grows hs).2.2 _ ih
    exact this (hid ▸ kx_reachable hr)
  rw [hpin] at i1; cases i1
  obtain ⟨k, -, x, rfl⟩ := KX.sent_origin (kx_reachable hr) b (hg b i2)
  have hsig := i3.sig
  have hlen : (KxMsg.encode ⟨cfg.kx.sessionID, C.kx.idPub cfg.kx.identity, C.kx.pub k, cfg.kx.mode, setIsAnswer 0 x⟩).length = 82 := by
    have e1 := (C08_key_exchange_message.1 ⟨cfg.kx.sessionID, C.kx.idPub cfg.kx.identity, C.kx.pub k, cfg.kx.mode, setIsAnswer 0 x⟩
      ⟨C.kx.idPub_length _, C.kx.pub_length _⟩).1
    simp only [signatureSize, kxSignedSize] at e1; omega
  have h1 : KX.sigOf (KX.kxMessage C.kx cfg.kx (C.kx.pub k) x) = C.kx.sign cfg.kx.identity
      (KxMsg.encode ⟨cfg.kx.sessionID, C.kx.idPub cfg.kx.identity, C.kx.pub k, cfg.kx.mode, setIsAnswer 0 x⟩) := by
    simp only [KX.kxMessage, KX.sigOf]
    rw [List.take_append_of_le_length (by rw [C.kx.sign_length]; exact Nat.le_refl _),
      List.take_of_length_le (by rw [C.kx.sign_length]; exact Nat.le_refl _)]
  have h2 : KX.bodyOf (KX.kxMessage C.kx cfg.kx (C.kx.pub k) x) =
      KxMsg.encode ⟨cfg.kx.sessionID, C.kx.idPub cfg.kx.identity, C.kx.pub k, cfg.kx.mode, setIsAnswer 0 x⟩ := by
    unfold KX.bodyOf
    rw [show (KX.kxMessage C.kx cfg.kx (C.kx.pub k) x).drop 64 = _ from drop_app (C.kx.sign_length _ _)]
    exact List.take_of_length_le (by omega)
  rw [h1, h2, hother] at hsig
  cases hsig

theorem echo_none {s : State} {id : Bytes} (hid : cfg.remote = some id)
    (hother : ∀ body, C.kx.verify id (C.kx.sign cfg.kx.identity body) body = false) (hr : Reachable C cfg s)
    (hg : ∀ m ∈ s.kxGot, m ∈ s.kx.sent) : s.kx.accepted = [] ∧ s.kx.successes = 0 := by
  have hS := seenOK hr
  have hno := echo_accepted hid hother hr hg
  constructor
  · cases e : s.kx.accepted with
    | nil => rfl
    | cons y l => obtain ⟨m, hm, -⟩ := hS.accepted y (by rw [e]; simp); exact absurd hm (hno m)
  · rcases Nat.eq_zero_or_pos s.kx.successes with h | h
    · exact h
    · obtain ⟨m, hm, -⟩ := hS.successes h; exact absurd hm (hno m)

/-- What an own message of the key exchange does when it comes back before there are keys. -/
theorem echo_reader {s : State} {p m : Bytes} {pid : W64} (hk : s.kx.sess.cipherKeys = []) (hl : m.length = 146)
    (hp : Packet.sealPacket C.pkt (aux C cfg) (aux C cfg) cfg.kx.sessionID false pid (message typeKeyExchange 0 m) = some p)
    {rd : Receive.Reader} {evs : List Receive.Event} {go : Bool}
    (h : Receive.readerStep C.pkt cfg.rc (env cfg) (keysOf C cfg s) s.rd p = .ok (rd, evs, go)) :
    evs = [] ∨ evs = [.handled typeKeyExchange m] := by
  have hsl : (message typeKeyExchange 0 m).length = 155 := by simp [message, putLE_length, hl]
  obtain ⟨pkt, f1, -, f3⟩ := Packet.C12_roundtrip_aux C.pkt (aux C cfg) (aux_keyOK C cfg) cfg.kx.sessionID pid
    (message typeKeyExchange 0 m) (by omega) [] s.kx.remoteSessionID
  rw [hp] at f1; cases f1
  obtain ⟨hd, d1, -, d3⟩ := f3 (.inl (by simp))
  unfold Receive.readerStep at h
  simp only [keysOf, hk, d1] at h
  split at h
  · simp at h
  · simp only [Outcome.ok.injEq, Prod.mk.injEq] at h; exact .inl h.2.1.symm
  · have hproc : processIncomingMessages cfg.rc (env cfg) s.rd.rcv hd.length (message typeKeyExchange 0 m) =
        .ok (s.rd.rcv, [.handled typeKeyExchange m]) := by
      unfold processIncomingMessages
      rw [d3, Nat.min_self, List.take_of_length_le (Nat.le_refl _)]
      dsimp only
      rw [hsl, message_stream]
      show loop _ _ (154 + 1) _ ((⟨typeKeyExchange, 0, m⟩ : Msg).bytes ++ []) [] = _
      rw [loop_msg cfg.rc (env cfg) 154 s.rd.rcv ⟨typeKeyExchange, 0, m⟩ (by simp [Msg.Fits, hl]) (by simp [Msg.Whole]) [] []]
      have hc : counts cfg.rc typeKeyExchange = false := by simp [counts]
      simp only [hc, Bool.false_eq_true, if_false, Bool.false_and, List.nil_append, loop_nil]
      rfl
    rw [hproc] at h
    simp only [Outcome.ok.injEq, Prod.mk.injEq] at h
    exact .inr h.2.1.symm

theorem echoOK {s : State} {id : Bytes} (hid : cfg.remote = some id)
    (hother : ∀ body, C.kx.verify id (C.kx.sign cfg.kx.identity body) body = false) (h : Echo C cfg s) : EchoOK C cfg s := by
  induction h with
  | init => constructor <;> simp [State.init]
  | @step s s' a he hin hs ih =>
    have hr := he.reachable
    obtain ⟨hacc, hsuc⟩ := echo_none hid hother hr ih.got
    have hkeys := no_keys hr hacc
    have hest : s.established = false := by
      cases e : s.established with
      | false => rfl
      | true => have := (callOK hr).est e; omega
    have keep : s'.kx.sent = s.kx.sent → s'.kxGot = s.kxGot → s'.todo = s.todo → s'.rwGot = s.rwGot → s'.out = s.out →
        (s'.call = .writing ∨ s'.call = .returned .writeErr) → EchoOK C cfg s' := by
      intro h1 h2 h3 h4 h5 h6
      exact ⟨by rw [h1, h2]; exact ih.got, by rw [h1, h3]; exact ih.todo, by rw [h4]; exact ih.rw, by rw [h1, h5]; exact ih.out, h6⟩
    cases a with
    | packet p =>
      simp only [step] at hs
      split at hs <;> try (cases hs; done)
      split at hs <;> cases hs
      rename_i rd evs go hrd
      obtain ⟨m, hm, pid, hp⟩ := ih.out p (hin p rfl)
      refine ⟨ih.got, ?_, ih.rw, ih.out, ih.call⟩
      rcases echo_reader hkeys (C33_sent (kx_reachable hr) m hm).1 hp hrd with rfl | rfl
      · simp
      · intro e he
        rw [List.mem_singleton] at he
        exact ⟨m, hm, he⟩
    | event =>
      simp only [step] at hs
      split at hs
      · cases hs
      · rename_i e rest htodo
        split at hs <;> try (cases hs; done)
        obtain ⟨m, hm, rfl⟩ := ih.todo e (by rw [htodo]; simp)
        simp only [eventStep, if_true] at hs
        split at hs <;> cases hs
        rename_i kx hk
        refine ⟨?_, ?_, ih.rw, ?_, ih.call⟩
        · intro m' hm'
          rcases List.mem_append.1 hm' with h | h
          · exact sent_prefix hk _ (ih.got _ h)
          · rw [List.mem_singleton] at h; rw [h]; exact sent_prefix hk _ hm
        · intro e he
          obtain ⟨m', hm', rfl⟩ := ih.todo e (by rw [htodo]; exact List.mem_cons_of_mem _ he)
          exact ⟨m', sent_prefix hk _ hm', rfl⟩
        · intro p hp
          obtain ⟨m', hm', hx⟩ := ih.out p hp
          exact ⟨m', sent_prefix hk _ hm', hx⟩
    | kx x pid =>
      have hk : ∃ kx, KX.step C.kx cfg.kx s.kx x = .ok kx ∧
          s' = { s with kx := kx, out := s.out ++ kxPackets C cfg pid s.kx.sent kx.sent } := by
        cases x <;> simp only [step] at hs <;> (try (cases hs; done)) <;> split at hs <;> cases hs <;> exact ⟨_, by assumption, rfl⟩
      obtain ⟨kx, hk, rfl⟩ := hk
      refine ⟨fun m hm => sent_prefix hk _ (ih.got m hm), ?_, ih.rw, ?_, ih.call⟩
      · intro e he
        obtain ⟨m', hm', rfl⟩ := ih.todo e he
        exact ⟨m', sent_prefix hk _ hm', rfl⟩
      · intro p hp
        rcases List.mem_append.1 hp with hp | hp
        · obtain ⟨m', hm', hx⟩ := ih.out p hp
          exact ⟨m', sent_prefix hk _ hm', hx⟩
        · simp only [kxPackets, List.mem_filterMap] at hp
          obtain ⟨m, hm, hx⟩ := hp
          exact ⟨m, List.mem_of_mem_drop hm, pid, hx⟩
    | establish => simp only [step, hsuc] at hs; simp at hs
    | readerEnd => simp only [step] at hs; split at hs <;> cases hs; exact keep rfl rfl rfl rfl rfl ih.call
    | takeKey b =>
      simp only [step] at hs
      split at hs <;> try (cases hs; done)
      split at hs <;> try (cases hs; done)
      · rename_i ks hks
        obtain ⟨k0, k1, k2, k3, rfl, -⟩ := (KX.C42_wait (kx_reachable hr) b s.kx.ctx).2.1 ks hks
        simp [KX.getCipherKeysWait, hkeys] at hks
        split at hks <;> (try split at hks) <;> simp at hks
      · cases hs; exact keep rfl rfl rfl rfl rfl (.inr rfl)
    | writeFail => simp only [step] at hs; split at hs <;> cases hs <;> exact keep rfl rfl rfl rfl rfl (.inr rfl)
    | read => simp only [step] at hs; rcases ih.call with h | h <;> simp [h] at hs
    | send pid ok => simp only [step] at hs; rcases ih.call with h | h <;> simp [h] at hs

/-- C115 for a known remote identity, as long as nothing which the own identity signs is valid for it: whatever comes
back of what the session has sent, no remote side is believed: no session ID and no ECDH key is accepted, there are no
cipher keys, the exchange does not succeed, nothing arrives for the application, and the call can only fail.  Missing: an
unknown remote identity, and the own one (`C115_violated`, `C115_violated_own`). -/
theorem C115_partial {s : State} {id : Bytes} (hid : cfg.remote = some id)
    (hother : ∀ body, C.kx.verify id (C.kx.sign cfg.kx.identity body) body = false) (h : Echo C cfg s) :
    s.kx.remoteSessionID = none ∧ s.kx.accepted = [] ∧ s.kx.sess.cipherKeys = [] ∧ s.kx.successes = 0 ∧
      s.established = false ∧ s.rwGot = [] ∧ (s.call = .writing ∨ s.call = .returned .writeErr) := by
  have hr := h.reachable
  have hok := echoOK hid hother h
  obtain ⟨hacc, hsuc⟩ := echo_none hid hother hr hok.got
  refine ⟨KX.remoteID_accepted (kx_reachable hr) hacc, hacc, no_keys hr hacc, hsuc, ?_, hok.rw, hok.call⟩
  cases e : s.established with
  | false => rfl
  | true => have := (callOK hr).est e; omega

/-! ### Examples -/

/-- Is every packet one that was sent? -/
def echoes (s : State) : Act → Bool
  | .packet p => s.out.contains p
  | _ => true

def echoRun (C : Crypto) (cfg : Cfg) : State → List Act → Option State
  | s, [] => some s
  | s, a :: as =>
    if echoes s a then
      match step C cfg s a with
      | .ok s' => echoRun C cfg s' as
      | _ => none
    else none

theorem echoRun_echo : ∀ (as : List Act) {s s' : State}, Echo C cfg s → echoRun C cfg s as = some s' → Echo C cfg s' := by
  intro as
  induction as with
  | nil => intro s s' h hs; simp only [echoRun, Option.some.injEq] at hs; subst hs; exact h
  | cons a as ih =>
    intro s s' h hs
    simp only [echoRun] at hs
    split at hs <;> try (simp only [reduceCtorEq] at hs; done)
    rename_i he
    split at hs <;> try (simp only [reduceCtorEq] at hs; done)
    rename_i s1 h1
    refine ih (.step a h ?_ h1) hs
    intro p hp
    subst hp
    simpa [echoes] using he

def echoState (cfg : Cfg) (as : List Act) : State := (echoRun toyC cfg (State.init cfg) as).getD (State.init cfg)

theorem echoState_echo {cfg : Cfg} {as : List Act} (h : (echoRun toyC cfg (State.init cfg) as).isSome = true) :
    Echo toyC cfg (echoState cfg as) := by
  unfold echoState
  cases e : echoRun toyC cfg (State.init cfg) as with
  | none => rw [e] at h; cases h
  | some s => exact echoRun_echo as .init e

/-- Packets of the session, by number. -/
def nth (cfg : Cfg) (as : List Act) (i : Nat) : Bytes := (echoState cfg as).out.getD i []

/-- Alice makes a key and reads her own message. -/
def hello : List Act := (makeKey false [4] 1).map (·.2)
def again (cfg : Cfg) (as : List Act) (i : Nat) : List Act := as ++ (recvKx false (nth cfg as i)).map (·.2)

/-- An own message comes back to Alice, who expects Bob. -/
example : Echo toyC cfgA (echoState cfgA (hello ++ [.packet (nth cfgA hello 0), .event])) ∧
    (echoState cfgA (hello ++ [.packet (nth cfgA hello 0), .event])).kxGot ≠ [] ∧ cfgA.remote = some (KX.toy.idPub [8]) ∧
    ∀ body, toyC.kx.verify (KX.toy.idPub [8]) (toyC.kx.sign cfgA.kx.identity body) body = false :=
  ⟨echoState_echo (by decide +kernel), by decide +kernel, rfl, fun _ => rfl⟩

/-- Alice with a PSK and an unknown remote identity. -/
def cfgN : Cfg := { cfgA with kx := { KX.alice with psk := some [1, 2, 3] }, remote := none }
/-- Alice who expects herself. -/
def cfgO : Cfg := { cfgA with remote := some (KX.toy.idPub [7]) }

/-- The whole conversation: her key, her answer to it, her answer to nobody, the packet of `Write`. -/
def talk (cfg : Cfg) : List Act :=
  let a := again cfg hello 0 ++ (answerKx false 0 2).map (·.2)
  let b := again cfg a 1 ++ (write false 3).map (·.2)
  b ++ [.packet (nth cfg b 2), .event, .read]

/-- Negation of C115: with an unknown remote identity the echo becomes the peer, with a PSK too, although whoever sends
the packets back does not know it.  The remote identity and the remote session ID are the own ones, and the call gives the
keys without an error. -/
theorem C115_violated : ∃ s, Echo toyC cfgN s ∧ cfgN.kx.psk ≠ none ∧ s.confirmed s.kx.sess.cipherKeys ∧
    s.kx.remoteIdentity = some (toyC.kx.idPub cfgN.kx.identity) ∧ s.kx.remoteSessionID = some cfgN.kx.sessionID ∧
    s.established = true ∧ s.rwGot = [[]] :=
  ⟨echoState cfgN (talk cfgN), echoState_echo (by decide +kernel), by decide +kernel, ⟨by decide +kernel, by decide +kernel⟩,
    by decide +kernel, by decide +kernel, by decide +kernel, by decide +kernel⟩

/-- The same for two sides which share an identity. -/
theorem C115_violated_own : ∃ s, Echo toyC cfgO s ∧ s.confirmed s.kx.sess.cipherKeys ∧
    s.kx.remoteSessionID = some cfgO.kx.sessionID ∧ s.established = true :=
  ⟨echoState cfgO (talk cfgO), echoState_echo (by decide +kernel), ⟨by decide +kernel, by decide +kernel⟩,
    by decide +kernel, by decide +kernel⟩

#print axioms C115_partial
#print axioms C115_violated
#print axioms C115_violated_own

end Verif.Mutual

/-! ## C116: own packets that come back later -/

namespace Verif.EndToEnd
open Verif.Headers Verif.Receive Verif.Packet

/-- C116 for confidential packets, as long as the remote session ID is not the own one: if a packet that the session has
sealed with its own session ID comes back and is accepted, then its tags are valid under a key and a nonce with which it
was not sealed.  Missing: packets that are not confidential, among them all fragments (`C116_violated`), and a remote
session ID that is the own one (`C116_violated_same_id`). -/
theorem C116_partial (C : Crypto) (aux : Option Bytes) (keys : List (Option Bytes)) (own remote : SessID)
    (hne : remote ≠ own) (ok : KeysOK aux keys (some remote)) (k : Bytes) (hk : k.length = 32) (pid : W64) (msgs pkt : Bytes)
    (hs : sealPacket C aux (some k) own true pid msgs = some pkt) (h : ContainerHdr) (msgs' : Bytes)
    (hd : decrypt C aux keys (some remote) pkt = .ok (h, msgs')) :
    h.packetID = packetIDBytes pid ∧
    ∃ key iv, ((key ∈ keys ∧ iv = remote.bytes ++ packetIDBytes pid) ∨ (key = aux ∧ iv = packetIDBytes pid)) ∧
      iv ≠ own.bytes ++ packetIDBytes pid ∧ Genuine C key (packetIDBytes pid) iv (pkt.drop 8) := by
  obtain ⟨pkt', f1, -, f3, -⟩ := seal_spec C aux (some k) own true pid msgs ok.auxOK (fun b hb => by cases hb; exact hk) (by simp)
  rw [hs] at f1; cases f1
  obtain ⟨-, h1, key, iv, hc, hg, -⟩ := C13_accept_implies_genuine C aux keys (some remote) ok pkt h msgs' hd
  have hid : h.packetID = packetIDBytes pid := h1.trans f3
  rw [hid] at hg hc
  refine ⟨hid, key, iv, ?_, ?_, hg⟩
  · rcases hc with ⟨a, -, s, hs', hi⟩ | hc
    · cases hs'; exact .inl ⟨a, hi⟩
    · exact .inr hc
  · rcases hc with ⟨a, -, s, hs', hi⟩ | ⟨-, hi⟩
    · cases hs'
      intro he
      rw [hi] at he
      exact hne (sendIV_inj remote own pid pid (by simpa [sendIV] using he)).1
    · intro he
      rw [hi] at he
      have := congrArg List.length he
      simp [SessID.bytes, putLE_length] at this
      omega

def backPkt : Bytes := (sealPacket Packet.toy none (some (List.replicate 32 5)) ⟨1, 2⟩ true 7 [1, 2, 3]).getD []
def opened : Outcome DecryptErr (ContainerHdr × Bytes) → Option Bytes
  | .ok (_, m) => some m
  | _ => none

/-- A packet that comes back and is accepted: the toy cipher does not look at the nonce. -/
example : KeysOK none [some (List.replicate 32 5)] (some ⟨3, 4⟩) ∧ (⟨3, 4⟩ : SessID) ≠ ⟨1, 2⟩ ∧
    sealPacket Packet.toy none (some (List.replicate 32 5)) ⟨1, 2⟩ true 7 [1, 2, 3] = some backPkt ∧
    opened (decrypt Packet.toy none [some (List.replicate 32 5)] (some ⟨3, 4⟩) backPkt) = some [1, 2, 3] := by
  refine ⟨⟨?_, ?_, ?_⟩, by decide, by decide +kernel, by decide +kernel⟩
  · intro _ h; cases h
  · intro k hk b hb
    rw [List.mem_singleton] at hk
    rw [hk] at hb; cases hb; rfl
  · intro h; cases h

/-- Negation of C116, sessions whose remote session ID is the own one (`C115_violated`): every packet comes back as if
the other side had sent it. -/
theorem C116_violated_same_id (C : Crypto) (aux : Option Bytes) (ha : KeyOK aux) (k : Bytes) (hk : k.length = 32) (own : SessID)
    (pid : W64) (msgs : Bytes) (hm : msgs.length < 2 ^ 32) (rest : List (Option Bytes)) :
    ∃ pkt h, sealPacket C aux (some k) own true pid msgs = some pkt ∧
      decrypt C aux (some k :: rest) (some own) pkt = .ok (h, msgs) := by
  obtain ⟨pkt, h1, -, h3⟩ := C12_roundtrip_confidential C aux ha k hk own pid msgs hm [] rest
  obtain ⟨h, d, -⟩ := h3 (by simp)
  exact ⟨pkt, h, h1, d⟩

/-- The reader of the session that sent the message; the remote session ID is another one. -/
def ownKeys : Keys := ⟨exNow.aux, [exNow.cipherKey], some ⟨3, 4⟩⟩
def ownCfg : Receive.Cfg := ⟨0, 8, 1024, none, 10⟩
def ownEnv : Env := ⟨fun _ => false, fun t => t == 7, fun _ => false⟩
def delivered : Outcome Unit (Reader × List Event) → List Event
  | .ok (_, evs) => evs
  | _ => []

/-- Negation of C116, fragments: the session sends a message in three fragments; whoever sends these back makes the
session deliver the message to its own sender, though the remote session ID is another one and there is a cipher key. -/
theorem C116_violated : (∀ x ∈ exPieces, x.By Packet.toy ⟨88, true, true⟩ exNow 5 7 exMsg) ∧
    ownKeys.remote ≠ some exNow.sessionID ∧
    delivered (deliver Packet.toy ownCfg ownEnv ownKeys (Reader.init ownCfg 0) (exPieces.map (·.out))) = [.queued 7 exMsg] := by
  refine ⟨?_, by decide, by decide +kernel⟩
  unfold SentPiece.By
  decide +kernel

#print axioms C116_partial
#print axioms C116_violated_same_id
#print axioms C116_violated

end Verif.EndToEnd
