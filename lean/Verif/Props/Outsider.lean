import Verif.Model.Outsider
import Verif.Props.KeyExchange
import Verif.Props.Receive
import Verif.Props.Packet
import Verif.Props.Mutual
/-!
# C168: Packets of an outsider do not end a session
-/
namespace Verif.Outsider
open Verif.Headers Verif.Receive

variable {C : Crypto} {cfg : Cfg}

/-- A message of the key exchange that carries a signature of `id`. -/
def SignedBy (C : Crypto) (id b : Bytes) : Prop := C.kx.verify id (KX.sigOf b) (KX.bodyOf b) = true

/-- A packet that the session cannot decrypt. -/
def Undecryptable (C : Crypto) (keys : Keys) (p : Bytes) : Prop :=
  ∃ e, Packet.decrypt C.pkt keys.aux keys.cipher keys.remote p = .err e

theorem kxCloses_signed {id b : Bytes} (hid : cfg.remote = some id) (h : kxCloses C cfg b = true) : SignedBy C id b := by
  unfold SignedBy
  unfold kxCloses KX.parseAndCheck at h
  rw [hid] at h
  cases hv : C.kx.verify id (KX.sigOf b) (KX.bodyOf b) with
  | true => rfl
  | false =>
    simp only [KX.checkSig, hv, if_true] at h
    split at h <;> rename_i he
    · split at he
      · cases he; simp [KX.report] at h
      · cases he; simp [KX.report] at h
    · simp at h

theorem processOne_closed {rc : Receive.Cfg} {env : Env} {s s' : Rcv} {hdr : MsgHdr} {msg : Bytes} {e : List Event} {l : Nat} :
    (processOne rc env s hdr msg = .next s' e l ∨ processOne rc env s hdr msg = .stop s' e) → Event.closed ∉ e := by
  have hp : ∀ t m, processIncomingMessage env t m ≠ .closed := by
    intro t m; unfold processIncomingMessage; split
    · simp
    · split <;> simp
  intro h
  unfold processOne at h
  split at h
  · split at h
    · split at h
      · simp at h
      · simp only [Did.next.injEq, reduceCtorEq, or_false] at h; rw [← h.2.1]; simp
      · simp only [Did.next.injEq, reduceCtorEq, or_false] at h
        rw [← h.2.1]; simp only [List.mem_singleton]; exact fun hc => hp _ _ hc.symm
    · simp only [Did.stop.injEq, reduceCtorEq, false_or] at h; rw [← h.2]; simp
    · simp at h
    · simp at h
  · simp only [Did.next.injEq, reduceCtorEq, or_false] at h
    rw [← h.2.1]; simp only [List.mem_singleton]; exact fun hc => hp _ _ hc.symm

theorem loop_closed {rc : Receive.Cfg} {env : Env} (h0 : rc.detachOnMessages = 0) : ∀ (fuel : Nat) {s s' : Rcv} {rest : Bytes}
    {evs evs' : List Event}, Event.closed ∉ evs → loop rc env fuel s rest evs = .ok (s', evs') → Event.closed ∉ evs' := by
  intro fuel
  induction fuel with
  | zero =>
    intro s s' rest evs evs' hn h
    cases rest with
    | nil => simp only [loop, Outcome.ok.injEq, Prod.mk.injEq] at h; rw [← h.2]; exact hn
    | cons _ _ => simp [loop] at h
  | succ fuel ih =>
    intro s s' rest evs evs' hn h
    cases rest with
    | nil => simp only [loop, Outcome.ok.injEq, Prod.mk.injEq] at h; rw [← h.2]; exact hn
    | cons x xs =>
      rw [loop] at h
      case x_4 => simp
      have hc : ∀ t, counts rc t = false := by intro t; simp [counts, h0]
      split at h
      · simp only [Outcome.ok.injEq, Prod.mk.injEq] at h; rw [← h.2]; simp [hn]
      · split at h
        · split at h
          · simp only [Outcome.ok.injEq, Prod.mk.injEq] at h; rw [← h.2]; simp [hn]
          · simp only [hc, Bool.false_eq_true, if_false, Bool.false_and] at h
            split at h
            · simp at h
            · rename_i s1 e hp
              simp only [Outcome.ok.injEq, Prod.mk.injEq] at h
              rw [← h.2]
              simp [hn, processOne_closed (l := 0) (.inr hp)]
            · rename_i s1 e l hp
              exact ih (by simp [hn, processOne_closed (.inl hp)]) h
        · simp at h

/-- What a round of the reader loop gives. -/
theorem readerStep_closed {keys : Keys} {rd rd' : Reader} {p : Bytes} {evs : List Event} {continues : Bool}
    (h0 : cfg.rc.detachOnMessages = 0)
    (h : readerStep C.pkt cfg.rc cfg.env keys rd p = .ok (rd', evs, continues)) :
    Event.closed ∉ evs ∧
    ((Undecryptable C keys p ∧ rd'.fails = rd.fails + 1 ∧ continues = decide (¬ rd.fails + 1 ≥ cfg.rc.detachOnFails) ∧
        ∀ t b, Event.handled t b ∉ evs) ∨
      (continues = true ∧ rd'.fails ≤ rd.fails)) := by
  unfold readerStep at h
  split at h <;> try (simp only [reduceCtorEq] at h; done)
  · rename_i e he
    simp only [decryptError, Outcome.ok.injEq, Prod.mk.injEq] at h
    obtain ⟨h1, h2, h3⟩ := h
    refine ⟨?_, .inl ⟨⟨e, he⟩, by rw [← h1], by rw [← h3], ?_⟩⟩
    · rw [← h2]; split
      · split <;> simp
      · simp
    · intro t b; rw [← h2]; split
      · split <;> simp
      · simp
  · split at h
    · simp at h
    · simp only [Outcome.ok.injEq, Prod.mk.injEq] at h
      obtain ⟨h1, h2, h3⟩ := h
      exact ⟨by rw [← h2]; simp, .inr ⟨h3.symm, by rw [← h1]; exact Nat.le_refl _⟩⟩
    · split at h <;> try (simp only [reduceCtorEq] at h; done)
      rename_i rcv evs1 hp
      simp only [Outcome.ok.injEq, Prod.mk.injEq] at h
      obtain ⟨h1, h2, h3⟩ := h
      exact ⟨by rw [← h2]; exact loop_closed h0 _ (by simp) hp, .inr ⟨h3.symm, by rw [← h1]; exact Nat.zero_le _⟩⟩

/-- C168 for one packet, of a session that knows who its peer is and has no limit on messages: it ends only because of a
message with the peer's signature, or because the packet cannot be decrypted and is the last of
DetachOnSequentialDecryptFailsCount such packets. Nothing is assumed about who has made the packet. -/
theorem C168_packet_partial {keys : Keys} {s s' : Side} {p id : Bytes} (hid : cfg.remote = some id)
    (h0 : cfg.rc.detachOnMessages = 0) (hs : s.ended = false) (h : onPacket C cfg keys s p = .ok s') (he : s'.ended = true) :
    (Undecryptable C keys p ∧ cfg.rc.detachOnFails ≤ s.rd.fails + 1) ∨
    ∃ rd evs c b, readerStep C.pkt cfg.rc cfg.env keys s.rd p = .ok (rd, evs, c) ∧ .handled typeKeyExchange b ∈ evs ∧
      SignedBy C id b := by
  unfold onPacket at h
  rw [if_neg (by simp [hs])] at h
  split at h <;> try (simp only [reduceCtorEq] at h; done)
  rename_i rd evs c hr
  simp only [Outcome.ok.injEq] at h
  rw [← h] at he
  obtain ⟨hn, hx⟩ := readerStep_closed h0 hr
  simp only [Bool.or_eq_true, Bool.not_eq_true', List.any_eq_true] at he
  rcases he with he | ⟨ev, hm, hc⟩
  · rcases hx with ⟨hu, _, hd, _⟩ | ⟨ht, _⟩
    · rw [he] at hd
      exact .inl ⟨hu, by simpa using hd.symm⟩
    · rw [he] at ht; simp at ht
  · cases ev with
    | closed => exact absurd hm hn
    | handled t b =>
      simp only [closes, Bool.and_eq_true, decide_eq_true_eq] at hc
      exact .inr ⟨rd, evs, c, b, hr, by rw [← hc.1]; exact hm, kxCloses_signed hid hc.2⟩
    | _ => simp [closes] at hc

/-- The number of packets that cannot be decrypted. -/
def badCount (C : Crypto) : List (Keys × Bytes) → Nat
  | [] => 0
  | (keys, p) :: ps => (match Packet.decrypt C.pkt keys.aux keys.cipher keys.remote p with | .err _ => 1 | _ => 0) + badCount C ps

/-- No packet carries a message of the key exchange with a signature of `id`. -/
def Unsigned (C : Crypto) (cfg : Cfg) (id : Bytes) : Side → List (Keys × Bytes) → Prop
  | _, [] => True
  | s, (keys, p) :: ps =>
    (∀ rd evs c b, readerStep C.pkt cfg.rc cfg.env keys s.rd p = .ok (rd, evs, c) → .handled typeKeyExchange b ∈ evs →
      ¬ SignedBy C id b) ∧ ∀ s', onPacket C cfg keys s p = .ok s' → Unsigned C cfg id s' ps

/-- C168: such a session is not ended by any packets of others, in any order, as long as less than
DetachOnSequentialDecryptFailsCount of them cannot be decrypted. -/
theorem C168_run_partial {id : Bytes} (hid : cfg.remote = some id) (h0 : cfg.rc.detachOnMessages = 0) :
    ∀ (ps : List (Keys × Bytes)) {s s' : Side}, s.ended = false → s.rd.fails + badCount C ps < cfg.rc.detachOnFails →
    Unsigned C cfg id s ps → run C cfg s ps = .ok s' → s'.ended = false := by
  intro ps
  induction ps with
  | nil => intro s s' hs _ _ h; simp only [run, Outcome.ok.injEq] at h; rw [← h]; exact hs
  | cons x ps ih =>
    intro s s' hs hb hu h
    obtain ⟨keys, p⟩ := x
    simp only [run] at h
    split at h <;> try (simp only [reduceCtorEq] at h; done)
    rename_i s1 h1
    simp only [badCount] at hb
    have he : s1.ended = false := by
      cases he : s1.ended with
      | false => rfl
      | true =>
        rcases C168_packet_partial hid h0 hs h1 he with ⟨⟨e, hu'⟩, hle⟩ | ⟨rd, evs, c, b, hr, hm, hsg⟩
        · rw [hu'] at hb; simp only at hb; omega
        · exact absurd hsg (hu.1 rd evs c b hr hm)
    refine ih he ?_ (hu.2 s1 h1) h
    have hf : s1.rd.fails ≤ s.rd.fails + (match Packet.decrypt C.pkt keys.aux keys.cipher keys.remote p with | .err _ => 1 | _ => 0) := by
      unfold onPacket at h1
      rw [if_neg (by simp [hs])] at h1
      split at h1 <;> try (simp only [reduceCtorEq] at h1; done)
      rename_i rd evs c hr
      simp only [Outcome.ok.injEq] at h1
      rw [← h1]
      rcases (readerStep_closed h0 hr).2 with ⟨⟨e, hu'⟩, hf, _⟩ | ⟨_, hf⟩
      · rw [hu']; simp only; omega
      · simp only; omega
    omega

/-- C168 with a PSK, whether or not the peer is known: a packet whose header tag is valid neither under the key derived from
the PSK nor under an exchanged key ends the session exactly if it is the last of DetachOnSequentialDecryptFailsCount such
packets. -/
theorem C168_psk_partial {keys : Keys} {s s' : Side} {p : Bytes} (ok : Packet.KeysOK keys.aux keys.cipher keys.remote)
    (hbad : ∀ key iv, Packet.Candidate keys.aux keys.cipher keys.remote (Packet.wirePacketID C.pkt keys.aux p) key iv →
      ¬ Packet.HeaderOK C.pkt key (Packet.wirePacketID C.pkt keys.aux p) iv (p.drop 8))
    (hs : s.ended = false) (h : onPacket C cfg keys s p = .ok s') :
    s'.ended = true ↔ cfg.rc.detachOnFails ≤ s.rd.fails + 1 := by
  obtain ⟨e, he⟩ := Packet.C13_reject C.pkt keys.aux keys.cipher keys.remote ok p hbad
  unfold onPacket readerStep at h
  rw [if_neg (by simp [hs]), he] at h
  simp only [Outcome.ok.injEq] at h
  rw [← h]
  simp only [decryptError]
  cases cfg.rc.errorOnFails with
  | none => simp
  | some k => dsimp only; split <;> simp [closes]

/-- Negation of C168 with the default options (and 1): any packet that is too short ends the session at once, whatever keys,
identity and PSK it has. -/
theorem C168_violated (keys : Keys) (s : Side) (p : Bytes) (hp : p.length < 44) (hs : s.ended = false)
    (hd : cfg.rc.detachOnFails ≤ 1) : ∃ s', onPacket C cfg keys s p = .ok s' ∧ s'.ended = true := by
  have he : ∃ e, Packet.decrypt C.pkt keys.aux keys.cipher keys.remote p = .err e := by
    unfold Packet.decrypt; exact ⟨_, by rw [if_pos (by simpa [containerHeadersSize] using hp)]⟩
  obtain ⟨e, he⟩ := he
  unfold onPacket readerStep
  rw [if_neg (by simp [hs]), he]
  refine ⟨_, rfl, ?_⟩
  simp only [decryptError, Bool.or_eq_true, Bool.not_eq_true', decide_eq_false_iff_not, Nat.not_lt]
  left; omega

/-- Negation of C168 with any other value: so many of these packets one after another. -/
theorem C168_violated_limit (keys : Keys) (p : Bytes) (hp : p.length < 44) :
    ∀ (n : Nat) (s : Side), s.ended = false → cfg.rc.detachOnFails ≤ s.rd.fails + n + 1 →
    ∃ s', run C cfg s (List.replicate (n + 1) (keys, p)) = .ok s' ∧ s'.ended = true := by
  have he : ∃ e, Packet.decrypt C.pkt keys.aux keys.cipher keys.remote p = .err e := by
    unfold Packet.decrypt; exact ⟨_, by rw [if_pos (by simpa [containerHeadersSize] using hp)]⟩
  obtain ⟨e, he⟩ := he
  have hended : ∀ (n : Nat) (s : Side), s.ended = true → run C cfg s (List.replicate n (keys, p)) = .ok s := by
    intro n
    induction n with
    | zero => intro s _; rfl
    | succ n ih => intro s hs; simp only [List.replicate_succ, run, onPacket, hs, if_true]; exact ih s hs
  have hstep : ∀ s : Side, s.ended = false → ∃ s', onPacket C cfg keys s p = .ok s' ∧ s'.rd.fails = s.rd.fails + 1 ∧
      (cfg.rc.detachOnFails ≤ s.rd.fails + 1 → s'.ended = true) := by
    intro s hs
    unfold onPacket readerStep
    rw [if_neg (by simp [hs]), he]
    refine ⟨_, rfl, rfl, fun hle => ?_⟩
    simp only [decryptError, Bool.or_eq_true, Bool.not_eq_true', decide_eq_false_iff_not, Nat.not_lt]
    left; omega
  intro n
  induction n with
  | zero =>
    intro s hs hle
    obtain ⟨s1, h1, _, h3⟩ := hstep s hs
    exact ⟨s1, by simp [run, h1], h3 (by omega)⟩
  | succ n ih =>
    intro s hs hle
    obtain ⟨s1, h1, h2, _⟩ := hstep s hs
    rw [List.replicate_succ]
    simp only [run, h1]
    cases hc : s1.ended with
    | true => exact ⟨s1, hended _ _ hc, hc⟩
    | false => exact ih s1 hc (by rw [h2]; omega)

/-- A session that does not know its peer yet, has no PSK and has read nothing. -/
def stranger (C : Mutual.Crypto) (cfg : Mutual.Cfg) : Crypto × Cfg := (⟨C.pkt, C.kx⟩, ⟨cfg.rc, Mutual.env cfg, cfg.kx, none⟩)

/-- Negation of C168 for a session whose peer is not known yet, and without PSK: one packet, made without any key and
without a valid signature, ends it, whatever DetachOnSequentialDecryptFailsCount is; a message of 146 bytes or more with
another answers mode is enough. -/
theorem C168_violated_first (C : Mutual.Crypto) (cfg : Mutual.Cfg) (hd : cfg.rc.detachOnMessages = 0) (b : Bytes)
    (hl : 146 ≤ b.length) (hb : b.length < 2 ^ 31) (hm : (KxMsg.decode (KX.bodyOf b)).answersMode ≠ cfg.kx.mode) :
    ∃ s', onPacket (stranger C cfg).1 (stranger C cfg).2 ⟨none, [], none⟩ (Side.init (stranger C cfg).2 cfg.ids)
      (Mutual.forged C.pkt b) = .ok s' ∧ s'.ended = true := by
  obtain ⟨rd, hr⟩ := Mutual.forged_step (C := C) (cfg := cfg) hd b hb
  unfold onPacket
  rw [if_neg (by simp [Side.init])]
  have hr' : readerStep (stranger C cfg).1.pkt (stranger C cfg).2.rc (stranger C cfg).2.env ⟨none, [], none⟩
      (Side.init (stranger C cfg).2 cfg.ids).rd (Mutual.forged C.pkt b) =
      .ok (rd, [.handled typeKeyExchange b, .queued typeReadWrite []], true) := hr
  rw [hr']
  refine ⟨_, rfl, ?_⟩
  have hl' : ¬ b.length < kxSignedSize := by simp only [kxSignedSize]; omega
  have hp : KX.parseAndCheck C.kx cfg.kx none b = .err .modeMismatch := by
    unfold KX.parseAndCheck
    rw [if_neg hl', if_neg (by simp [KX.checkSig]), if_pos hm]
  simp [closes, kxCloses, stranger, hp, KX.report]

/-! ### Examples -/

/-- Alice of `Verif.Mutual`, who knows Bob, with a limit of two packets. -/
def alice : Cfg := ⟨Mutual.rc0, Mutual.env Mutual.cfgA, KX.alice, some (KX.toy.idPub [8])⟩
def toyO : Crypto := ⟨Packet.toy, KX.toy⟩
def noKeys : Keys := ⟨none, [], none⟩
def endOf (r : Outcome Unit Side) : Option Bool := match r with | .ok s => some s.ended | _ => none

/-- A message of the key exchange with Bob's signature and another answers mode, and one of somebody else. -/
def bobMode : Bytes := KX.kxMessage KX.toy { KX.bob with mode := 3 } (KX.toy.pub [1]) false
def eveMode : Bytes := KX.kxMessage KX.toy { KX.bob with mode := 3, identity := [6] } (KX.toy.pub [1]) false

/-- It needs two packets in a row; a good one in between starts the count again. The signed message ends the session, the
other one does not. -/
example :
    endOf (run toyO alice (Side.init alice 0) [(noKeys, [1, 2, 3])]) = some false ∧
    endOf (run toyO alice (Side.init alice 0) [(noKeys, [1, 2, 3]), (noKeys, [4])]) = some true ∧
    endOf (run toyO alice (Side.init alice 0) [(noKeys, [1]), (noKeys, Mutual.forged Packet.toy eveMode), (noKeys, [4])]) = some false ∧
    endOf (run toyO alice (Side.init alice 0) [(noKeys, Mutual.forged Packet.toy bobMode)]) = some true ∧
    endOf (run toyO { alice with remote := none } (Side.init alice 0) [(noKeys, Mutual.forged Packet.toy eveMode)]) = some true := by
  decide +kernel

/-- The message that reaches DetachOnMessagesCount ends the session. -/
example : [(0, 1, some false), (1, 1, some true), (2, 1, some false), (2, 2, some true)].all (fun x =>
    endOf (run toyO { alice with rc := { Mutual.rc0 with detachOnMessages := x.1 } } (Side.init alice 0)
      (((List.range x.2.1).map fun i => (noKeys, Packet.plainPacket Packet.toy none (packetIDBytes (BitVec.ofNat 64 (i + 1)))
        (Msg.bytes ⟨typeReadWrite, 0, [7]⟩))))) == x.2.2) = true := by decide +kernel

example : SignedBy toyO (KX.toy.idPub [8]) bobMode ∧ ¬ SignedBy toyO (KX.toy.idPub [8]) eveMode := by
  unfold SignedBy; exact ⟨by decide +kernel, by decide +kernel⟩

/-- The hypotheses of `C168_run_partial`. -/
example : alice.remote = some (KX.toy.idPub [8]) ∧ alice.rc.detachOnMessages = 0 ∧
    (Side.init alice 0).rd.fails + badCount toyO [(noKeys, [1, 2, 3]), (noKeys, Mutual.forged Packet.toy eveMode)] < alice.rc.detachOnFails ∧
    Unsigned toyO alice (KX.toy.idPub [8]) (Side.init alice 0) [(noKeys, [1, 2, 3])] := by
  refine ⟨rfl, rfl, by decide +kernel, ?_, fun _ _ => trivial⟩
  intro rd evs c b h hm
  rw [show readerStep toyO.pkt alice.rc alice.env noKeys (Side.init alice 0).rd [1, 2, 3] =
    .ok ({ (Side.init alice 0).rd with fails := 1 }, [], true) from rfl] at h
  simp only [Outcome.ok.injEq, Prod.mk.injEq] at h
  rw [← h.2.1] at hm
  simp at hm

/-- The hypotheses of `C168_psk_partial`. -/
example : Packet.KeysOK (some (List.replicate 32 1)) [] none ∧
    ∀ key iv, Packet.Candidate (some (List.replicate 32 1)) [] none
        (Packet.wirePacketID Packet.toy (some (List.replicate 32 1)) (List.replicate 60 9)) key iv →
      ¬ Packet.HeaderOK Packet.toy key (Packet.wirePacketID Packet.toy (some (List.replicate 32 1)) (List.replicate 60 9)) iv
        ((List.replicate 60 9).drop 8) := by
  refine ⟨⟨fun b h => by cases h; rfl, fun k hk => by simp at hk, fun _ k hk => by simp at hk⟩, ?_⟩
  rintro key iv (⟨h, _⟩ | ⟨rfl, rfl⟩)
  · simp at h
  · simp only [Packet.HeaderOK]; decide +kernel

/-- The hypotheses of `C168_violated_first`. -/
example : Mutual.cfgA.rc.detachOnMessages = 0 ∧ 146 ≤ eveMode.length ∧ eveMode.length < 2 ^ 31 ∧
    (KxMsg.decode (KX.bodyOf eveMode)).answersMode ≠ Mutual.cfgA.kx.mode := by decide +kernel

#print axioms C168_packet_partial
#print axioms C168_run_partial
#print axioms C168_psk_partial
#print axioms C168_violated
#print axioms C168_violated_limit
#print axioms C168_violated_first

end Verif.Outsider
