import Verif.Model.Stall
import Verif.Props.Forged
import Verif.Props.Negotiator
/-!
# C170: Packets of an outsider do not stop a session
-/
namespace Verif.Stall
open Verif.Headers Verif.Receive

variable {C : Packet.Crypto} {cfg : Cfg}

theorem run_append {as bs : List Act} : ∀ {s s' : State}, run C cfg s as = .ok s' → run C cfg s (as ++ bs) = run C cfg s' bs := by
  induction as with
  | nil => intro s s' h; simp only [run, Outcome.ok.injEq] at h; rw [h]; rfl
  | cons a as ih =>
    intro s s' h
    simp only [run, List.cons_append] at h ⊢
    cases hs : step C cfg s a with
    | ok s1 => rw [hs] at h; exact ih h
    | err e => rw [hs] at h; simp at h
    | panic => rw [hs] at h; simp at h
    | block => rw [hs] at h; simp at h

theorem run_preserves {P : State → Prop} (hp : ∀ s s' a, P s → step C cfg s a = .ok s' → P s') :
    ∀ (as : List Act) {s s' : State}, P s → run C cfg s as = .ok s' → P s' := by
  intro as
  induction as with
  | nil => intro s s' h hr; simp only [run, Outcome.ok.injEq] at hr; rw [← hr]; exact h
  | cons a as ih =>
    intro s s' h hr
    simp only [run] at hr
    split at hr <;> try (simp only [reduceCtorEq] at hr; done)
    rename_i s1 h1
    exact ih (hp _ _ _ h h1) hr

/-! ### The packet of the outsider -/

/-- One message in a packet that is made without any key: anybody can make it. -/
def forged (P : Packet.Crypto) (id : W64) (b : Bytes) : Bytes :=
  Packet.plainPacket P none (packetIDBytes id) (Msg.bytes ⟨typeNegotiation, 0, b⟩)

/-- It is read by a session without a PSK, whatever state it is in. -/
theorem forged_step (hm : cfg.env.hasMessenger typeNegotiation = true) {keys : Keys} (ha : keys.aux = none) (rd : Reader) (id : W64)
    (hn : EndToEnd.latest rd < id.toNat) (b : Bytes) (hb : b.length < 2 ^ 31)
    (hnf : EndToEnd.NoForgery C keys id (forged C id b)) :
    ∃ rd', readerStep C cfg.rc cfg.env keys rd (forged C id b) = .ok (rd', [.handled typeNegotiation b], true) := by
  have hlen : (Msg.bytes ⟨typeNegotiation, 0, b⟩).length = 9 + b.length := by rw [Receive.bytes_length]
  obtain ⟨pkt, h1, -, h3⟩ := Packet.C12_roundtrip_aux C none (by intro _ h; cases h) ⟨0, 0⟩ id
    (Msg.bytes ⟨typeNegotiation, 0, b⟩) (by omega) keys.cipher keys.remote
  have hp : pkt = forged C id b := by
    simp only [Packet.sealPacket, Option.some.injEq] at h1
    exact h1.symm
  rw [hp] at h3
  obtain ⟨h, d1, d2, d3⟩ := h3 hnf
  obtain ⟨ids, s1, -⟩ := EndToEnd.step_newer rd id hn
  have hh : h.length.toNat = 9 + b.length := by rw [d3, hlen]
  have hproc : processIncomingMessages cfg.rc cfg.env rd.rcv h.length (Msg.bytes ⟨typeNegotiation, 0, b⟩) =
      .ok (rd.rcv, [.handled typeNegotiation b]) := by
    unfold processIncomingMessages
    rw [hh, hlen, Nat.min_self, List.take_of_length_le (by omega)]
    have hl := loop_msg cfg.rc cfg.env (8 + b.length) rd.rcv ⟨typeNegotiation, 0, b⟩
      (by simp only [Msg.Fits]; omega) (by simp [Msg.Whole]) [] []
    have hc : counts cfg.rc typeNegotiation = false := by simp [counts]
    simp only [List.append_nil, hc, Bool.false_eq_true, if_false, Bool.false_and, List.nil_append, loop_nil] at hl
    dsimp only
    rw [hlen, show 9 + b.length = 8 + b.length + 1 by omega, hl]
    simp [dest, hm]
  refine ⟨{ rcv := rd.rcv, ids := ids, fails := 0 }, ?_⟩
  unfold readerStep
  rw [ha]
  simp only [d1, d2, s1, hproc]

/-- The message: "my search has ended". -/
def theEnd : Bytes := Negotiator.controlBytes 0 true

/-- What the outsider does: the packet is read and its message handled. -/
def attack (P : Packet.Crypto) (keys : Keys) (id : W64) (b : Bytes) (w : Negotiator.Write) : List Act :=
  [.packet keys (forged P id b), .message w false]

/-- The reader waits for somebody who is started by the reader. -/
structure Stalled (s : State) : Prop where
  reader : s.neg.reader = .stage
  started : s.neg.started = false
  ok : s.neg.okCalls = 0
  pinger : s.neg.pinger = .off
  fin : s.neg.fin = .off
  closer : s.neg.closer = .off
  cancelFn : s.neg.cancelFn = false

theorem stalled_step {s s' : State} {a : Act} (h : Stalled s) (hs : step C cfg s a = .ok s') :
    Stalled s' ∧ s'.rd = s.rd ∧ s'.queue = s.queue := by
  obtain ⟨h1, h2, h3, h4, h5, h6, h7⟩ := h
  cases a with
  | packet keys p => simp [step, h1] at hs
  | message w x => simp [step, h1] at hs
  | neg a =>
    simp only [step] at hs
    split at hs
    · split at hs <;> try (simp only [reduceCtorEq] at hs; done)
      rename_i n hn
      simp only [Outcome.ok.injEq] at hs
      subst hs
      cases a with
      | start e => simp [ownStep] at *
      | deliver m w => simp [ownStep] at *
      | pinger e => simp [Negotiator.step, Negotiator.pingerStep, h4] at hn
      | fin e => simp [Negotiator.step, Negotiator.finStep, h5] at hn
      | reader w => simp [Negotiator.step, Negotiator.readerStep, h1] at hn
      | closer => simp [Negotiator.step, Negotiator.closerStep, h6] at hn
      | closeCall =>
        simp only [Negotiator.step, h7, Bool.false_eq_true, if_false, Outcome.ok.injEq] at hn
        subst hn
        exact ⟨⟨h1, h2, h3, h4, h5, h6, h7⟩, rfl, rfl⟩
      | cancel =>
        simp only [Negotiator.step, Outcome.ok.injEq] at hn
        subst hn
        exact ⟨⟨h1, h2, h3, h4, h5, h6, h7⟩, rfl, rfl⟩
    · simp at hs

/-- The state of a session before its first key exchange is completed. -/
structure Fresh (s : State) : Prop where
  reader : s.neg.reader = .idle
  queue : s.queue = []
  started : s.neg.started = false
  ok : s.neg.okCalls = 0
  pinger : s.neg.pinger = .off
  fin : s.neg.fin = .off
  closer : s.neg.closer = .off
  cancelFn : s.neg.cancelFn = false
  once : s.neg.once = .fresh

/-- Negation of C170 without a PSK: one packet that anybody can make, read before the first key exchange is completed, and
the session never gets Established, reads no packet any more, and its reader never ends, whatever happens. -/
theorem C170_violated (hm : cfg.env.hasMessenger typeNegotiation = true) {keys : Keys} (ha : keys.aux = none) {s : State}
    (hf : Fresh s) (id : W64) (hn : EndToEnd.latest s.rd < id.toNat) (w : Negotiator.Write)
    (hnf : EndToEnd.NoForgery C keys id (forged C id theEnd)) :
    (∃ s', run C cfg s (attack C keys id theEnd w) = .ok s') ∧
    ∀ as s', run C cfg s (attack C keys id theEnd w ++ as) = .ok s' →
      s'.neg.okCalls = 0 ∧ s'.neg.reader = .stage ∧ ∀ keys p, step C cfg s' (.packet keys p) = .block := by
  obtain ⟨rd, hr⟩ := forged_step (cfg := cfg) hm ha s.rd id hn theEnd (by decide) hnf
  have he := Negotiator.C53_control cfg.sha 0 true (by decide)
  have h1 : run C cfg s (attack C keys id theEnd w) =
      .ok ⟨rd, [], { s.neg with remoteRTT := 0, once := .running, reader := .stage }⟩ := by
    simp [attack, run, step, hf.reader, hf.queue, hr, handled, onMessage, show Negotiator.decode cfg.sha theEnd = _ from he, Negotiator.deliver,
      hf.once]
  refine ⟨⟨_, h1⟩, ?_⟩
  intro as s' hs
  rw [run_append h1] at hs
  have h0 : Stalled ⟨rd, [], { s.neg with remoteRTT := 0, once := .running, reader := .stage }⟩ :=
    ⟨rfl, hf.started, hf.ok, hf.pinger, hf.fin, hf.closer, hf.cancelFn⟩
  have hst := run_preserves (fun _ _ _ hp h => (stalled_step hp h).1) as h0 hs
  exact ⟨hst.ok, hst.reader, fun keys p => by simp [step, hst.reader]⟩

/-- Negation of C170 later on: the same packet stops the reader for ever when the negotiation is switched off (on a backend
like TCP it is by default) or has timed out, unless the peer has sent such a message before. -/
theorem C170_violated_later (hm : cfg.env.hasMessenger typeNegotiation = true) {keys : Keys} (ha : keys.aux = none) {s : State}
    (hi : s.neg.reader = .idle) (hq : s.queue = []) (hst : s.neg.started = true) (ho : s.neg.once = .fresh)
    (hfin : s.neg.fin = .done ∨ s.neg.fin = .off) (id : W64) (hn : EndToEnd.latest s.rd < id.toNat) (w : Negotiator.Write)
    (hnf : EndToEnd.NoForgery C keys id (forged C id theEnd)) :
    (∃ s', run C cfg s (attack C keys id theEnd w) = .ok s') ∧
    ∀ as s', run C cfg s (attack C keys id theEnd w ++ as) = .ok s' →
      s'.neg.reader = .stage ∧ ∀ keys p, step C cfg s' (.packet keys p) = .block := by
  obtain ⟨rd, hr⟩ := forged_step (cfg := cfg) hm ha s.rd id hn theEnd (by decide) hnf
  have he := Negotiator.C53_control cfg.sha 0 true (by decide)
  have h1 : run C cfg s (attack C keys id theEnd w) =
      .ok ⟨rd, [], { s.neg with remoteRTT := 0, once := .running, reader := .stage }⟩ := by
    simp [attack, run, step, hi, hq, hr, handled, onMessage, show Negotiator.decode cfg.sha theEnd = _ from he,
      Negotiator.deliver, ho]
  refine ⟨⟨_, h1⟩, ?_⟩
  intro as s' hs
  rw [run_append h1] at hs
  have h0 : Negotiator.ReaderLost { s.neg with remoteRTT := 0, once := .running, reader := .stage } := ⟨hst, rfl, hfin⟩
  have hl := run_preserves (P := fun s => Negotiator.ReaderLost s.neg)
    (s := ⟨rd, [], { s.neg with remoteRTT := 0, once := .running, reader := .stage }⟩) (fun s s' a hp h => ?_) as h0 hs
  · exact ⟨hl.2.1, fun keys p => by simp [step, hl.2.1]⟩
  · cases a with
    | packet keys p => simp [step, hp.2.1] at h
    | message w x => simp [step, hp.2.1] at h
    | neg a =>
      simp only [step] at h
      split at h
      · split at h <;> try (simp only [reduceCtorEq] at h; done)
        rename_i n hn
        simp only [Outcome.ok.injEq] at h
        subst h
        exact Negotiator.readerLost_step hp hn
      · simp at h

/-- Negation of C170 for the negotiation: as long as it is going on, an outsider chooses the size that the peer seems to have
found, and so limits the payload size, down to nothing. -/
theorem C170_violated_size (hm : cfg.env.hasMessenger typeNegotiation = true) {keys : Keys} (ha : keys.aux = none) {s : State}
    (hi : s.neg.reader = .idle) (hq : s.queue = []) (hfin : s.neg.fin = .finalize) (id : W64) (hn : EndToEnd.latest s.rd < id.toNat)
    (w : Negotiator.Write) (n : Nat) (hn32 : n < 2 ^ 32)
    (hnf : EndToEnd.NoForgery C keys id (forged C id (Negotiator.controlBytes n false))) :
    ∃ s', run C cfg s (attack C keys id (Negotiator.controlBytes n false) w ++ [.neg (.fin .go)]) = .ok s' ∧
      s'.neg.est = some (min n s.neg.localRTT) := by
  obtain ⟨rd, hr⟩ := forged_step (cfg := cfg) hm ha s.rd id hn (Negotiator.controlBytes n false)
    (by simp [Negotiator.controlBytes, putLE_length]) hnf
  have h1 : run C cfg s (attack C keys id (Negotiator.controlBytes n false) w) = .ok ⟨rd, [], { s.neg with remoteRTT := n }⟩ := by
    simp [attack, run, step, hi, hq, hr, handled, onMessage, Negotiator.C53_control _ n false hn32, Negotiator.deliver]
  rw [run_append h1]
  simp only [run, step, ownStep, Negotiator.step, Negotiator.finStep, hfin, if_true]
  refine ⟨_, rfl, ?_⟩
  simp only [Option.some.injEq]
  split <;> omega

/-! ### With a PSK -/

/-- A packet whose header tag is right under none of the keys of the session. -/
def Foreign (C : Packet.Crypto) (keys : Keys) (p : Bytes) : Prop :=
  ∀ key iv, Packet.Candidate keys.aux keys.cipher keys.remote (Packet.wirePacketID C keys.aux p) key iv →
    ¬ Packet.HeaderOK C key (Packet.wirePacketID C keys.aux p) iv (p.drop 8)

/-- Equal but for the number of undecryptable packets. -/
structure Same (s t : State) : Prop where
  rcv : s.rd.rcv = t.rd.rcv
  ids : s.rd.ids = t.rd.ids
  queue : s.queue = t.queue
  neg : s.neg = t.neg

theorem foreign_step {keys : Keys} (ok : Packet.KeysOK keys.aux keys.cipher keys.remote) {p : Bytes} (hf : Foreign C keys p)
    {s s' : State} (h : step C cfg s (.packet keys p) = .ok s') : Same s' s := by
  obtain ⟨e, he⟩ := Packet.C13_reject C keys.aux keys.cipher keys.remote ok p hf
  simp only [step] at h
  split at h
  · rename_i hc
    unfold readerStep at h
    rw [he] at h
    simp only [Outcome.ok.injEq] at h
    subst h
    refine ⟨rfl, rfl, ?_, rfl⟩
    rw [hc.2]
    simp only [decryptError]
    split
    · split <;> rfl
    · rfl
  · simp at h

theorem same_step {s t s' : State} {a : Act} (hst : Same s t) (h : step C cfg s a = .ok s') :
    ∃ t', step C cfg t a = .ok t' ∧ Same s' t' := by
  obtain ⟨r, q, n⟩ := s
  obtain ⟨r2, q2, n2⟩ := t
  obtain ⟨h1, h2, h3, h4⟩ := hst
  dsimp only at h1 h2 h3 h4
  subst h3 h4
  cases a with
  | packet keys p =>
    simp only [step] at h ⊢
    split at h
    · rename_i hc
      rw [if_pos hc]
      unfold readerStep at h ⊢
      rw [h1, h2] at h
      generalize Packet.decrypt C keys.aux keys.cipher keys.remote p = d at h ⊢
      cases d with
      | panic => simp at h
      | block => simp at h
      | err e =>
        simp only [Outcome.ok.injEq] at h ⊢
        refine ⟨_, rfl, ?_⟩
        subst h
        refine ⟨rfl, rfl, ?_, rfl⟩
        simp only [decryptError]
        split
        · split <;> split <;> rfl
        · rfl
      | ok x =>
        obtain ⟨hdr, msgs⟩ := x
        dsimp only at h ⊢
        generalize r2.ids.step (packetIDValue hdr.packetID) = d at h ⊢
        match d with
        | none => simp at h
        | some (ids, false) =>
          simp only [Outcome.ok.injEq] at h ⊢
          exact ⟨_, rfl, by subst h; exact ⟨rfl, rfl, rfl, rfl⟩⟩
        | some (ids, true) =>
          dsimp only at h ⊢
          generalize processIncomingMessages cfg.rc cfg.env r2.rcv hdr.length msgs = d at h ⊢
          cases d with
          | ok x =>
            simp only [Outcome.ok.injEq] at h ⊢
            exact ⟨_, rfl, by subst h; exact ⟨rfl, rfl, rfl, rfl⟩⟩
          | _ => simp at h
    · simp at h
  | message w x =>
    simp only [step] at h ⊢
    split at h
    · rename_i hc
      rw [if_pos hc]
      cases q with
      | nil => simp at h
      | cons m q =>
        dsimp only at h ⊢
        split at h <;> try (simp only [reduceCtorEq] at h; done)
        rename_i n' hm
        simp only [Outcome.ok.injEq] at h
        exact ⟨_, rfl, by subst h; exact ⟨h1, h2, rfl, rfl⟩⟩
    · simp at h
  | neg a =>
    simp only [step] at h ⊢
    split at h
    · rename_i hc
      rw [if_pos hc]
      split at h <;> try (simp only [reduceCtorEq] at h; done)
      rename_i n' hm
      simp only [Outcome.ok.injEq] at h
      exact ⟨_, rfl, by subst h; exact ⟨h1, h2, rfl, rfl⟩⟩
    · simp at h

/-- `bs` is `as` without some packets, all of which are foreign. -/
inductive Without (C : Packet.Crypto) : List Act → List Act → Prop
  | nil : Without C [] []
  | keep {as bs : List Act} (a : Act) : Without C as bs → Without C (a :: as) (a :: bs)
  | drop {as bs : List Act} {keys : Keys} {p : Bytes} : Packet.KeysOK keys.aux keys.cipher keys.remote → Foreign C keys p →
      Without C as bs → Without C (.packet keys p :: as) bs

/-- C170 with a PSK: packets that are right under neither the key made of the PSK nor an exchanged key make no difference for
the negotiation and the reassembly, in any number and at any time: without them everything happens just the same. (Without a
PSK the absence of a key counts as a key, and the packets of outsiders are not foreign.) -/
theorem C170_psk_partial {as bs : List Act} (hw : Without C as bs) : ∀ {s t s' : State}, Same s t → run C cfg s as = .ok s' →
    ∃ t', run C cfg t bs = .ok t' ∧ Same s' t' := by
  induction hw with
  | nil => intro s t s' hst h; simp only [run, Outcome.ok.injEq] at h; rw [← h]; exact ⟨t, rfl, hst⟩
  | keep a _ ih =>
    intro s t s' hst h
    simp only [run] at h ⊢
    split at h <;> try (simp only [reduceCtorEq] at h; done)
    rename_i s1 h1
    obtain ⟨t1, h2, h3⟩ := same_step hst h1
    obtain ⟨t', h4, h5⟩ := ih h3 h
    exact ⟨t', by rw [h2]; exact h4, h5⟩
  | drop ok hf _ ih =>
    intro s t s' hst h
    simp only [run] at h
    split at h <;> try (simp only [reduceCtorEq] at h; done)
    rename_i s1 h1
    have h2 := foreign_step ok hf h1
    exact ih ⟨h2.rcv.trans hst.rcv, h2.ids.trans hst.ids, h2.queue.trans hst.queue, h2.neg.trans hst.neg⟩ h

/-! ### Examples -/

def noDetach : Receive.Cfg := ⟨0, 8, 65536, some 3, 100⟩
def exEnv : Env := ⟨fun t => t == typeNegotiation || t == typeKeyExchange, fun _ => false, fun _ => false⟩
def ex (enabled : Bool) : Cfg := ⟨noDetach, exEnv, ⟨1392, 8⟩, enabled, fun _ => List.replicate 64 9⟩
def start (enabled : Bool) : State := State.init (ex enabled) 0 60000000000
def noKeys : Keys := ⟨none, [], none⟩
/-- A packet of the peer with a message of the key exchange. -/
def exKx : Bytes := Packet.plainPacket Packet.toy none (packetIDBytes 1) (Msg.bytes ⟨typeKeyExchange, 0, [5, 5]⟩)
def seen (r : Outcome Unit State) : Option (Nat × Negotiator.Reader × Nat × Option Nat) :=
  match r with
  | .ok s => some (s.neg.okCalls, s.neg.reader, s.queue.length, s.neg.est)
  | _ => none

/-- Without the outsider the session gets Established; with their packet it does not, nor does it afterwards; and when it is
Established already, it reads no more. -/
example : seen (run Packet.toy (ex false) (start false) [.packet noKeys exKx, .message .ok true]) = some (1, .idle, 0, none) ∧
    seen (run Packet.toy (ex false) (start false) [.packet noKeys exKx, .message .ok false]) = some (0, .idle, 0, none) ∧
    seen (run Packet.toy (ex false) (start false) (attack Packet.toy noKeys 1 theEnd .ok)) = some (0, .stage, 0, none) := by
  decide +kernel

example :
    seen (run Packet.toy (ex false) (start false) (attack Packet.toy noKeys 1 theEnd .ok ++ [.packet noKeys exKx])) = none ∧
    seen (run Packet.toy (ex false) (start false) (attack Packet.toy noKeys 1 theEnd .ok ++ [.message .ok true])) = none ∧
    seen (run Packet.toy (ex false) (start false) ([.packet noKeys exKx, .message .ok true] ++
      attack Packet.toy noKeys 2 theEnd .ok)) = some (1, .stage, 0, none) := by decide +kernel

/-- A second success does not start the negotiator again, and only messages of the key exchange do. -/
example : seen (run Packet.toy (ex false) (start false) [.packet noKeys exKx, .message .ok true,
      .packet noKeys (Packet.plainPacket Packet.toy none (packetIDBytes 2) (Msg.bytes ⟨typeKeyExchange, 0, []⟩)),
      .message .ok true]) = some (1, .idle, 0, none) ∧
    seen (run Packet.toy (ex false) (start false)
      [.packet noKeys (Packet.plainPacket Packet.toy none (packetIDBytes 2) (Msg.bytes ⟨typeNegotiation, 0, []⟩)),
      .message .ok true]) = some (0, .idle, 0, none) ∧
    seen (run Packet.toy (ex false) (start false) [.neg (.start true)]) = none ∧
    seen (run Packet.toy (ex false) (start false) [.neg (.deliver (.control 1 true) .ok)]) = none ∧
    seen (run Packet.toy (ex false) (start false) [.packet noKeys exKx, .packet noKeys exKx]) = none := by decide +kernel

/-- The messages of a packet are handled in their order, also behind those without a handler, and only those of the key exchange
start the negotiator. -/
example : handled [.handled typeNegotiation [1], .queued typeReadWrite [2], .handled typeKeyExchange [3], .ignored 7 [4],
      .handled typeNegotiation [5]] = [(typeNegotiation, [1]), (typeKeyExchange, [3]), (typeNegotiation, [5])] ∧
    (match onMessage (ex false) (start false).neg 7 [] .ok true, onMessage (ex false) (start false).neg typeKeyExchange [] .ok true with
      | .ok n, .ok k => (n.okCalls, k.okCalls) == (0, 1)
      | _, _ => false) = true := by decide +kernel

/-- With the negotiation running the end is taken note of, and the reader goes on. -/
example : seen (run Packet.toy (ex true) (start true) ([.packet noKeys exKx, .message .ok true] ++
      attack Packet.toy noKeys 2 theEnd .ok ++ [.neg (.fin .fromReader)])) = some (0, .idle, 0, none) := by decide +kernel

/-- The hypotheses of `C170_violated`, of `C170_violated_later` and of `C170_violated_size`. -/
example : (ex false).env.hasMessenger typeNegotiation = true ∧ Fresh (start false) ∧ EndToEnd.latest (start false).rd < (1 : W64).toNat ∧
    EndToEnd.NoForgery Packet.toy noKeys 1 (forged Packet.toy 1 theEnd) := by
  refine ⟨by decide +kernel, ⟨rfl, rfl, rfl, rfl, rfl, rfl, rfl, rfl, rfl⟩, by decide +kernel, .inl (by simp [noKeys])⟩

example : ∃ s, run Packet.toy (ex false) (start false) [.packet noKeys exKx, .message .ok true] = .ok s ∧ s.neg.reader = .idle ∧
    s.queue = [] ∧ s.neg.started = true ∧ s.neg.once = .fresh ∧ s.neg.fin = .off := by
  refine ⟨_, rfl, ?_⟩
  decide +kernel

example : let n : Negotiator.State := { Negotiator.State.init 0 with fin := .finalize, localRTT := 1392, remoteRTT := 1392 }
    seen (run Packet.toy (ex true) { start true with neg := n } [.neg (.fin .go)]) = some (1, .idle, 0, some 1392) ∧
    seen (run Packet.toy (ex true) { start true with neg := n }
      (attack Packet.toy noKeys 2 (Negotiator.controlBytes 0 false) .ok ++ [.neg (.fin .go)])) = some (1, .idle, 0, some 0) := by
  decide +kernel

/-- The hypotheses of `C170_psk_partial`: a packet that is foreign to a session with a PSK. -/
example : Without Packet.toy [.packet ⟨some (List.replicate 32 1), [], none⟩ (List.replicate 60 9), .neg .cancel] [.neg .cancel] := by
  refine .drop ⟨fun b h => by cases h; rfl, fun k hk => by simp at hk, fun _ k hk => by simp at hk⟩ ?_ (.keep _ .nil)
  rintro key iv (⟨h, _⟩ | ⟨rfl, rfl⟩)
  · simp at h
  · simp only [Packet.HeaderOK]; decide +kernel

/-- A reader in a handler takes no packet, and waits; it does not crash. -/
example : (match run Packet.toy (ex false) (start false) (attack Packet.toy noKeys 1 theEnd .ok ++ [.packet noKeys exKx]) with
    | .block => true
    | _ => false) = true := by decide +kernel

#print axioms C170_psk_partial
#print axioms C170_violated
#print axioms C170_violated_later
#print axioms C170_violated_size

end Verif.Stall
