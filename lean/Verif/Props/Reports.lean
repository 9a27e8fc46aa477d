import Verif.Model.Reports
import Verif.Props.Outsider
/-!
# C169: An error is reported once
-/
namespace Verif.Reports
open Verif.Headers Verif.Receive

variable {C : Outsider.Crypto} {cfg : Cfg}

/-- A message of the key exchange that is signed by the peer (or by anybody, as long as no peer is known), but has another
answers mode or a key of zeros. -/
def Unusable (C : Outsider.Crypto) (cfg : Cfg) (b : Bytes) : Prop :=
  146 ≤ b.length ∧ (∀ id, cfg.out.remote = some id → Outsider.SignedBy C id b) ∧
  ((KxMsg.decode (KX.bodyOf b)).answersMode ≠ cfg.out.kx.mode ∨
    (KxMsg.decode (KX.bodyOf b)).kxPublicKey = List.replicate 32 0)

/-- A message that the key exchanger accepts. -/
def Accepted (C : Outsider.Crypto) (cfg : Cfg) (b : Bytes) : Prop :=
  146 ≤ b.length ∧ (∀ id, cfg.out.remote = some id → Outsider.SignedBy C id b) ∧
  (KxMsg.decode (KX.bodyOf b)).answersMode = cfg.out.kx.mode ∧
    (KxMsg.decode (KX.bodyOf b)).kxPublicKey ≠ List.replicate 32 0 ∧ cfg.kxDone = false

theorem checkSig_iff {b : Bytes} : KX.checkSig C.kx cfg.out.remote b = true ↔
    ∀ id, cfg.out.remote = some id → Outsider.SignedBy C id b := by
  unfold KX.checkSig Outsider.SignedBy
  cases cfg.out.remote with
  | none => simp
  | some id => simp

/-- C169 for a message to the key exchanger: nothing is reported if it is accepted; a message that is refused is reported
once, unless it is signed by the peer: then it is reported twice. -/
theorem C169_kx (b : Bytes) :
    ((kxCalls C cfg b).length = 0 ↔ Accepted C cfg b) ∧ ((kxCalls C cfg b).length = 2 ↔ Unusable C cfg b) ∧
    (kxCalls C cfg b).length ≤ 2 := by
  have hs := checkSig_iff (C := C) (cfg := cfg) (b := b)
  have hz : KX.zeroKey = List.replicate 32 0 := rfl
  unfold kxCalls KX.parseAndCheck Accepted Unusable
  rw [← hs, ← hz]
  by_cases hl : b.length < kxSignedSize
  · have hl' : ¬ 146 ≤ b.length := by simp only [kxSignedSize] at hl; omega
    simp [hl, hl', KX.report]
  · have hl' : 146 ≤ b.length := by simp only [kxSignedSize] at hl; omega
    cases hc : KX.checkSig C.kx cfg.out.remote b
    · simp [hl, KX.report]
    · by_cases hm : (KxMsg.decode (KX.bodyOf b)).answersMode = cfg.out.kx.mode
      · by_cases hk : (KxMsg.decode (KX.bodyOf b)).kxPublicKey = KX.zeroKey
        · simp [hl, hl', hm, hk, KX.report]
        · cases hd : cfg.kxDone <;> simp [hl, hl', hm, hk]
      · simp [hl, hl', hm, KX.report]

theorem negCalls_le (b : Bytes) : (negCalls cfg b).length ≤ 1 := by
  unfold negCalls
  split
  · simp
  · split <;> simp
  · split <;> simp
  · simp

/-- C169 for each effect of a packet, except for unusable messages of the peer. -/
theorem C169_event_partial (ev : Event) (h : ∀ b, ev = .handled typeKeyExchange b → ¬ Unusable C cfg b) :
    (eventCalls C cfg ev).length ≤ 1 := by
  cases ev <;> simp only [eventCalls] <;> try (simp; done)
  rename_i t b
  split
  · rename_i ht
    have h1 := h b (by rw [ht])
    have h2 := C169_kx (C := C) (cfg := cfg) b
    have : ¬ (kxCalls C cfg b).length = 2 := fun hc => h1 (h2.2.1.mp hc)
    omega
  · split
    · exact negCalls_le b
    · split <;> simp

/-! ### The number of calls for a packet -/

/-- What an effect may cost. -/
def weight : Event → Nat
  | .handled _ _ => 2
  | .queued _ _ => 0
  | .ignored _ _ => 0
  | .closed => 0
  | _ => 1

def weights (evs : List Event) : Nat := (evs.map weight).sum

theorem eventCalls_le (ev : Event) : (eventCalls C cfg ev).length ≤ weight ev := by
  cases ev <;> simp only [eventCalls, weight] <;> try (simp; done)
  split
  · exact (C169_kx _).2.2
  · split
    · exact Nat.le_trans (negCalls_le _) (by omega)
    · split <;> simp

theorem calls_le : ∀ evs : List Event, (evs.flatMap (eventCalls C cfg)).length ≤ weights evs := by
  intro evs
  induction evs with
  | nil => simp [weights]
  | cons e es ih =>
    have := eventCalls_le (C := C) (cfg := cfg) e
    simp only [List.flatMap_cons, List.length_append, weights, List.map_cons, List.sum_cons]
    unfold weights at ih
    omega

theorem weights_append (a b : List Event) : weights (a ++ b) = weights a + weights b := by
  simp [weights, List.sum_append]

theorem processIncomingMessage_weight (env : Env) (t : W32) (b : Bytes) : weight (processIncomingMessage env t b) ≤ 2 := by
  unfold processIncomingMessage
  split
  · simp [weight]
  · split <;> simp [weight]

theorem processOne_weight {rc : Receive.Cfg} {env : Env} {s : Rcv} {hdr : MsgHdr} {msg : Bytes} :
    (∀ s' e l, processOne rc env s hdr msg = .next s' e l → weights e ≤ 2) ∧
    (∀ s' e, processOne rc env s hdr msg = .stop s' e → weights e ≤ 1) := by
  have hp := processIncomingMessage_weight env
  unfold processOne
  constructor
  · intro s' e l h
    split at h
    · split at h
      · split at h
        · simp at h
        · simp only [Did.next.injEq] at h; rw [← h.2.1]; simp [weights]
        · simp only [Did.next.injEq] at h; rw [← h.2.1]; simpa [weights] using hp _ _
      all_goals simp at h
    · simp only [Did.next.injEq] at h; rw [← h.2.1]; simpa [weights] using hp _ _
  · intro s' e h
    split at h
    · split at h
      · split at h <;> simp at h
      · simp only [Did.stop.injEq] at h; rw [← h.2]; simp [weights, weight]
      all_goals simp at h
    · simp at h

theorem loop_weight {rc : Receive.Cfg} {env : Env} : ∀ (fuel : Nat) {s s' : Rcv} {rest : Bytes} {evs evs' : List Event},
    loop rc env fuel s rest evs = .ok (s', evs') → weights evs' ≤ weights evs + 2 * (rest.length / 9) + 1 := by
  intro fuel
  induction fuel with
  | zero =>
    intro s s' rest evs evs' h
    cases rest with
    | nil => simp only [loop, Outcome.ok.injEq, Prod.mk.injEq] at h; rw [← h.2]; omega
    | cons _ _ => simp [loop] at h
  | succ fuel ih =>
    intro s s' rest evs evs' h
    cases rest with
    | nil => simp only [loop, Outcome.ok.injEq, Prod.mk.injEq] at h; rw [← h.2]; omega
    | cons x xs =>
      rw [loop] at h
      case x_4 => simp
      split at h
      · simp only [Outcome.ok.injEq, Prod.mk.injEq] at h; rw [← h.2, weights_append]; simp [weights, weight]
      · rename_i hlen
        simp only [messageHeadersSize] at hlen
        split at h
        · split at h
          · simp only [Outcome.ok.injEq, Prod.mk.injEq] at h; rw [← h.2, weights_append]; simp [weights, weight]
          · rename_i hdr _ _
            generalize (if counts rc hdr.type = true then { s with received := s.received + 1 } else s) = s0 at h
            dsimp only at h
            split at h
            · simp at h
            · rename_i s1 e hp
              have := processOne_weight.2 _ _ hp
              simp only [Outcome.ok.injEq, Prod.mk.injEq] at h
              rw [← h.2, weights_append]; omega
            · rename_i s1 e l hp
              have hw := processOne_weight.1 _ _ _ hp
              split at h
              · split at h
                · simp only [Outcome.ok.injEq, Prod.mk.injEq] at h; rw [← h.2, weights_append]; omega
                · simp only [Outcome.ok.injEq, Prod.mk.injEq] at h
                  rw [← h.2, weights_append, weights_append]
                  have : weights [Event.closed] = 0 := rfl
                  omega
              · have := ih h
                rw [weights_append] at this
                simp only [List.length_drop, messageHeadersSize] at this
                have h2 : ((x :: xs).length - (9 + l)) / 9 ≤ ((x :: xs).length - 9) / 9 := Nat.div_le_div_right (by omega)
                have h3 : (x :: xs).length / 9 = ((x :: xs).length - 9) / 9 + 1 := by omega
                omega
        · simp at h

theorem plainOf_length {P : Packet.Crypto} {key : Option Bytes} {iv enc plain : Bytes} (h : Packet.plainOf P key iv enc = some plain) :
    plain.length = enc.length := by
  unfold Packet.plainOf at h
  split at h
  · unfold Packet.crypt at h
    split at h
    · simp only [Option.some.injEq] at h; rw [← h, Packet.xorStream_length]
    · simp at h
  · simp only [Option.some.injEq] at h; rw [h]

theorem tryDecrypt_length {P : Packet.Crypto} {pid enc iv : Bytes} {key : Option Bytes} {h : ContainerHdr} {msgs : Bytes}
    (hd : Packet.tryDecrypt P pid enc key iv = .ok (some (h, msgs))) : msgs.length + 36 ≤ enc.length := by
  unfold Packet.tryDecrypt at hd
  split at hd
  · simp at hd
  · rename_i plain hp
    have hl := plainOf_length hp
    split at hd
    · rename_i h1 n hr
      have hn : n = 36 ∧ 36 ≤ plain.length := by
        unfold readAfterIV at hr
        dsimp only at hr
        simp only [List.length_drop, tagSize] at hr
        split at hr
        · simp at hr
        · split at hr
          · simp at hr
          · split at hr
            · simp at hr
            · simp only [Outcome.ok.injEq, Prod.mk.injEq, containerHeadersSize] at hr
              omega
      dsimp only at hd
      split at hd
      · simp at hd
      · split at hd
        · simp at hd
        · simp only [Outcome.ok.injEq, Option.some.injEq, Prod.mk.injEq] at hd
          rw [← hd.2, List.length_drop]; omega
    all_goals simp at hd

theorem tryKeys_length {P : Packet.Crypto} {pid enc iv : Bytes} {h : ContainerHdr} {msgs : Bytes} : ∀ {ks : List (Option Bytes)},
    Packet.tryKeys P pid enc iv ks = .ok (some (h, msgs)) → msgs.length + 36 ≤ enc.length := by
  intro ks
  induction ks with
  | nil => intro hd; simp [Packet.tryKeys] at hd
  | cons k ks ih =>
    intro hd
    cases k with
    | none => exact ih hd
    | some k =>
      simp only [Packet.tryKeys] at hd
      split at hd
      · exact ih hd
      · exact tryDecrypt_length hd

theorem decrypt_length {P : Packet.Crypto} {aux : Option Bytes} {ks : List (Option Bytes)} {remote : Option SessID} {p : Bytes}
    {h : ContainerHdr} {msgs : Bytes} (hd : Packet.decrypt P aux ks remote p = .ok (h, msgs)) : msgs.length + 44 ≤ p.length := by
  unfold Packet.decrypt at hd
  split at hd
  · simp at hd
  · rename_i hl
    simp only [containerHeadersSize] at hl
    have h8 : (p.drop 8).length = p.length - 8 := by simp
    split at hd
    · simp at hd
    · dsimp only at hd
      split at hd <;> try (simp only [reduceCtorEq] at hd; done)
      · rename_i r hk
        simp only [Outcome.ok.injEq] at hd
        subst hd
        have := tryKeys_length hk
        omega
      · split at hd <;> try (simp only [reduceCtorEq] at hd; done)
        rename_i r hk
        simp only [Outcome.ok.injEq] at hd
        subst hd
        have := tryDecrypt_length hk
        omega

/-- C169, the worst case: the calls because of a packet, whatever is in it. -/
theorem C169_bound {keys : Keys} {rd : Reader} {p : Bytes} {ws : List Why} (h : packetCalls C cfg keys rd p = .ok ws) :
    ws.length ≤ 2 * ((p.length - 44) / 9) + 1 := by
  unfold packetCalls at h
  split at h <;> try (simp only [reduceCtorEq] at h; done)
  rename_i rd' evs c hr
  simp only [Outcome.ok.injEq] at h
  have hc := calls_le (C := C) (cfg := cfg) evs
  rw [h] at hc
  refine Nat.le_trans hc ?_
  unfold readerStep at hr
  split at hr <;> try (simp only [reduceCtorEq] at hr; done)
  · simp only [decryptError, Outcome.ok.injEq, Prod.mk.injEq] at hr
    rw [← hr.2.1]
    split
    · split <;> simp [weights, weight]
    · simp [weights]
  · rename_i hdr msgs hd
    have hl := decrypt_length hd
    split at hr
    · simp at hr
    · simp only [Outcome.ok.injEq, Prod.mk.injEq] at hr; rw [← hr.2.1]; simp [weights]
    · split at hr <;> try (simp only [reduceCtorEq] at hr; done)
      rename_i rcv evs1 hp
      simp only [Outcome.ok.injEq, Prod.mk.injEq] at hr
      have := loop_weight _ hp
      rw [← hr.2.1]
      have h0 : weights [] = 0 := rfl
      have h2 : (msgs.take (min msgs.length hdr.length.toNat)).length / 9 ≤ (p.length - 44) / 9 :=
        Nat.div_le_div_right (by simp only [List.length_take]; omega)
      omega

/-- C169 for a packet without unusable messages of the peer: not more calls than effects, at most one each. -/
theorem C169_packet_partial {keys : Keys} {rd rd' : Reader} {p : Bytes} {evs : List Event} {c : Bool}
    (h : readerStep C.pkt cfg.out.rc cfg.out.env keys rd p = .ok (rd', evs, c))
    (hu : ∀ b, .handled typeKeyExchange b ∈ evs → ¬ Unusable C cfg b) :
    packetCalls C cfg keys rd p = .ok (evs.flatMap (eventCalls C cfg)) ∧ (∀ ev ∈ evs, (eventCalls C cfg ev).length ≤ 1) ∧
    (evs.flatMap (eventCalls C cfg)).length ≤ evs.length := by
  have h1 : ∀ ev ∈ evs, (eventCalls C cfg ev).length ≤ 1 := fun ev hm =>
    C169_event_partial ev (fun b hb => hu b (by rw [← hb]; exact hm))
  refine ⟨by unfold packetCalls; rw [h], h1, ?_⟩
  clear h hu
  induction evs with
  | nil => simp
  | cons e es ih =>
    have := h1 e (by simp)
    have := ih (fun ev hm => h1 ev (by simp [hm]))
    simp only [List.flatMap_cons, List.length_append, List.length_cons]
    omega

/-- C169 is violated by every unusable message: the same error is reported twice. -/
theorem C169_violated (b : Bytes) (h : Unusable C cfg b) : ∃ e,
    eventCalls C cfg (.handled typeKeyExchange b) = [.kx e, .kx e] := by
  have h2 := (C169_kx (C := C) (cfg := cfg) b).2.1.mpr h
  simp only [eventCalls, if_true]
  unfold kxCalls at h2 ⊢
  split
  · rename_i e he
    rw [he] at h2
    refine ⟨e, ?_⟩
    cases e <;> simp [KX.report] at h2 ⊢
  · rename_i he; rw [he] at h2; simp only at h2; split at h2 <;> simp at h2
  · rename_i he
    split at h2
    · rename_i e1 he1; exact absurd he1 (by simp_all)
    · rename_i m he1; simp_all
    · simp at h2

/-- C169 is violated by a ping that cannot be sent. -/
theorem C169_violated_ping : pingCalls .fails = [.write, .write] := rfl

/-- C169 for the other pings. -/
theorem C169_ping_partial (w : Negotiator.Write) (h : w ≠ .fails) : (pingCalls w).length ≤ 1 := by
  cases w
  · simp [pingCalls, Negotiator.failedPing]
  · simp [pingCalls, Negotiator.failedPing]
  · exact absurd rfl h

/-! ### Examples -/

/-- Alice of `Verif.Outsider`, who knows Bob; her writes fail from a length of 6 on, and the handler of type 5 returns errors. -/
def alice : Cfg := ⟨Outsider.alice, fun _ => List.replicate 64 9, false, fun b => if b.length < 6 then .ok else .fails,
  fun t _ => t == 5⟩
def toyO : Outsider.Crypto := Outsider.toyO
def callsOf (r : Outcome Unit (List Why)) : Option (List Why) := match r with | .ok l => some l | _ => none
def reader0 : Reader := (Outsider.Side.init Outsider.alice 0).rd
def bobZero : Bytes := KX.kxMessage KX.toy KX.bob (List.replicate 32 0) false
def bobGood : Bytes := KX.kxMessage KX.toy KX.bob (KX.toy.pub [1]) false

/-- An accepted message, three that are refused, one of them unusable in another way, and one for a closed exchanger. -/
example : [(bobGood, []), (Outsider.eveMode, [.kx .badSignature]), ([1, 2], [.kx .tooShort]),
      (Outsider.bobMode, [.kx .modeMismatch, .kx .modeMismatch]), (bobZero, [.kx .zeroKey, .kx .zeroKey])].all
        (fun x => kxCalls toyO alice x.1 == x.2) = true ∧
    kxCalls toyO { alice with kxDone := true } bobGood = [.kxClosed] ∧
    kxCalls toyO { alice with kxDone := true } Outsider.eveMode = [.kx .badSignature] := by decide +kernel

/-- Messages of the negotiation: none, an unknown one, short ones, a control message, pings, a pong with a wrong and one with
a right checksum. -/
example : [([], [.junk]), ([3], [.junk]), ([0, 1], [.junk]), ([2, 1], [.junk]), ([0, 1, 2, 3, 4, 5, 6], []), ([1], []),
      ([1, 2, 3, 4, 5, 6], [.write]), (2 :: List.replicate 70 0, [Why.junk]), (2 :: List.replicate 70 9, [.write])].all
        (fun x => negCalls alice x.1 == x.2) = true ∧
    negCalls { alice with write := fun _ => .ok } (2 :: List.replicate 70 9) = [] ∧
    negCalls { alice with write := fun _ => .closed } [1] = [.write] := by decide +kernel

/-- The other effects. -/
example : [(.handled 5 [1], [.user]), (.handled 6 [1], []), (.handled typeNegotiation [7], [.junk]),
      (.handled typeKeyExchange [7], [.kx .tooShort]), (.queued 5 [1], []), (.ignored 5 [1], []), (Event.closed, []),
      (.errTooShort ⟨9, 2⟩, [Why.tooShort ⟨9, 2⟩]), (.errFragmentHeaders ⟨24, 2⟩, [.fragment ⟨24, 2⟩]),
      (.errDecrypt .cannotDecrypt, [.decrypt .cannotDecrypt])].all (fun x => eventCalls toyO alice x.1 == x.2) = true := by
  decide +kernel

/-- Packets: Bob's signed message with another mode, the same of somebody else, a good one, and bytes that are no packet. -/
example : [(Mutual.forged Packet.toy Outsider.bobMode, [Why.kx .modeMismatch, .kx .modeMismatch]),
      (Mutual.forged Packet.toy Outsider.eveMode, [.kx .badSignature]), (Mutual.forged Packet.toy bobGood, []),
      ([1, 2, 3], [])].all (fun x => callsOf (packetCalls toyO alice Outsider.noKeys reader0 x.1) == some x.2) = true ∧
    callsOf (packetCalls toyO alice Outsider.noKeys { reader0 with fails := 2 } [1, 2, 3]) =
      some [.decrypt (.tooShort ⟨44, 3⟩)] := by
  decide +kernel

/-- The hypotheses of `C169_violated` and of `C169_event_partial`. -/
example : Unusable toyO alice Outsider.bobMode ∧ ¬ Unusable toyO alice Outsider.eveMode ∧ ¬ Unusable toyO alice bobGood ∧
    Accepted toyO alice bobGood := by
  refine ⟨(C169_kx _).2.1.mp (by decide +kernel), fun h => absurd ((C169_kx _).2.1.mpr h) (by decide +kernel),
    fun h => absurd ((C169_kx _).2.1.mpr h) (by decide +kernel), (C169_kx _).1.mp (by decide +kernel)⟩

example : [Negotiator.Write.ok, .closed, .fails].map (fun w => (pingCalls w).length) = [0, 1, 2] := by decide +kernel

#print axioms C169_kx
#print axioms C169_event_partial
#print axioms C169_packet_partial
#print axioms C169_ping_partial
#print axioms C169_bound
#print axioms C169_violated
#print axioms C169_violated_ping

end Verif.Reports
