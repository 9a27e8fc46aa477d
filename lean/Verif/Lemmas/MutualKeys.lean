import Verif.Lemmas.Mutual
import Verif.Props.Packet
import Verif.Props.KeyRotation
/-!
# Where the messages of the temporary session come from
-/
namespace Verif.KX
variable {C : Crypto} {cfg : Cfg}

theorem hash_length (C : Crypto) (m : Bytes) (salts : List Bytes) : (hash C m salts).length = 32 := C.sha3_length _

theorem sharedKey_length {psk : Option Bytes} {a b k : Bytes} (h : generateSharedKey C psk (some a) (some b) = .ok k) :
    k.length = 32 := by
  unfold generateSharedKey at h
  dsimp only at h
  split at h
  · simp at h
  · cases psk with
    | none => simp only [Outcome.ok.injEq] at h; rw [← h]; exact C.dh_length _ _
    | some p =>
      simp only [Outcome.ok.injEq] at h
      rw [← h, xorBytes, List.length_zipWith, C.dh_length, hash_length]; rfl

/-- Every secret is the shared key of a local and a remote key. -/
theorem secret_pair {psk : Option Bytes} {k : Keys} {i : Nat} {x : Bytes} (h : secret C psk k i = some (some x)) :
    ∃ a y, (k.pair i) = (some a, some y) ∧ generateSharedKey C psk (some a) (some y) = .ok x := by
  unfold secret at h
  split at h <;> simp only [Option.some.injEq, reduceCtorEq] at h
  rename_i z hz
  subst h
  cases e1 : (k.pair i).1 with
  | none => simp [generateSharedKey, e1] at hz
  | some a =>
    cases e2 : (k.pair i).2 with
    | none => simp [generateSharedKey, e1, e2] at hz
    | some y => rw [e1, e2] at hz; exact ⟨a, y, by rw [← e1, ← e2], hz⟩

/-- Every cipher key is the shared key of a local key and an accepted one. -/
theorem cipherKey_origin {remote : Option Bytes} {s : State} (hr : Reachable C cfg remote s) {k : Bytes}
    (hk : some k ∈ s.sess.cipherKeys) :
    ∃ a y, a ∈ s.gens.map (·.1) ∧ y ∈ s.accepted ∧ generateSharedKey C cfg.psk (some a) (some y) = .ok k := by
  rcases (sessOK_reachable hr).keys with ⟨h, _⟩ | ⟨l, x, ⟨s0, as, hr0, hrun, hsec⟩, hkl, _⟩
  · simp [h] at hk
  · obtain ⟨a, b, c, d, rfl, ha, hb, hc, hd⟩ := secrets_eq hsec
    have hok := keysOK_reachable hr0
    have hg := run_grows as hrun
    have gen : ∀ a ∈ s0.gens.map (·.1), a ∈ s.gens.map (·.1) := by
      intro a ha
      simp only [List.mem_map] at ha ⊢
      obtain ⟨z, hz, rfl⟩ := ha
      exact ⟨z, hg.1 _ hz, rfl⟩
    rw [hkl] at hk
    simp only [List.mem_cons, List.not_mem_nil, or_false] at hk
    rcases hk with rfl | rfl | rfl | rfl
    · obtain ⟨a, y, h1, h2⟩ := secret_pair ha
      simp only [Keys.pair, Prod.mk.injEq] at h1
      exact ⟨a, y, gen _ (hok.nextLocal _ h1.1), hg.2 _ (hok.nextRemote _ h1.2), h2⟩
    · obtain ⟨a, y, h1, h2⟩ := secret_pair hb
      simp only [Keys.pair, Prod.mk.injEq] at h1
      exact ⟨a, y, gen _ (hok.nextLocal _ h1.1), hg.2 _ (hok.prevRemote _ h1.2), h2⟩
    · obtain ⟨a, y, h1, h2⟩ := secret_pair hc
      simp only [Keys.pair, Prod.mk.injEq] at h1
      exact ⟨a, y, gen _ (hok.prevLocal _ h1.1), hg.2 _ (hok.nextRemote _ h1.2), h2⟩
    · obtain ⟨a, y, h1, h2⟩ := secret_pair hd
      simp only [Keys.pair, Prod.mk.injEq] at h1
      exact ⟨a, y, gen _ (hok.prevLocal _ h1.1), hg.2 _ (hok.prevRemote _ h1.2), h2⟩

/-- The remote session ID is known as soon as a message is accepted. -/
theorem remoteID_known {remote : Option Bytes} {s : State} (h : Reachable C cfg remote s) :
    s.accepted ≠ [] → s.remoteSessionID ≠ none := by
  induction h with
  | init => simp [State.init]
  | @step s s' a hr hs ih =>
    have hpin := (C34_pinned (C := C) (cfg := cfg) (s := s) (s' := s') [a] (by simp only [runActs, hs])).2
    have keep : s.remoteSessionID ≠ none → s'.remoteSessionID ≠ none := by
      intro h
      cases e : s.remoteSessionID with
      | none => exact absurd e h
      | some x => rw [hpin x e]; simp
    intro hne
    cases keyStep hs with
    | same _ _ ha _ _ => rw [ha] at hne; exact keep (ih hne)
    | rotate _ _ _ _ ha _ _ _ => rw [ha] at hne; exact keep (ih hne)
    | receive pub b msg _ _ ha _ _ hrd hrd' hl _ =>
      by_cases hx : a = .reader
      · subst hx
        simp only [step, readerStep, hrd, hl, Bool.false_eq_true, if_false, Outcome.ok.injEq] at hs
        have hok := readerOK_reachable hr
        simp only [ReaderOK, hrd] at hok
        rcases enter_cases s b msg hok with ⟨he, _⟩ | ⟨id, _, _, _, he⟩
        · rw [← hs, he] at hrd'; simp at hrd'
        · rw [← hs, he]
          cases s.remoteSessionID <;> simp
      · by_cases hy : ∃ b, a = .recv b
        · obtain ⟨b', rfl⟩ := hy
          simp [step, hrd] at hs
        · have hf := step_frame hs (fun b e => hy ⟨b, e⟩) hx
          rw [hf.reader, hrd] at hrd'; simp at hrd'

end Verif.KX

namespace Verif.Mutual
open Verif.Headers

variable {C : Crypto} {cfg : Cfg}

theorem aux_keyOK (C : Crypto) (cfg : Cfg) : Packet.KeyOK (aux C cfg) := by
  intro b hb
  unfold aux at hb
  cases hp : cfg.kx.psk with
  | none => simp [hp] at hb
  | some p =>
    simp only [hp, Option.map_some, Option.some.injEq] at hb
    rw [← hb, KX.auxCipherKey, List.length_take, KX.hash_length]; rfl

/-- Keys of the session are as the theorems about packets want them. -/
theorem keysOK {s : State} (h : Reachable C cfg s) :
    Packet.KeysOK (aux C cfg) s.kx.sess.cipherKeys s.kx.remoteSessionID := by
  have hk := kx_reachable h
  refine ⟨aux_keyOK C cfg, ?_, ?_⟩
  · rintro _ hm b rfl
    obtain ⟨a, y, _, _, hs⟩ := KX.cipherKey_origin hk hm
    exact KX.sharedKey_length hs
  · intro hn k hm
    cases k with
    | none => rfl
    | some k =>
      obtain ⟨a, y, _, hy, _⟩ := KX.cipherKey_origin hk hm
      exact absurd hn (KX.remoteID_known hk (by intro h; rw [h] at hy; simp at hy))

/-- `k` is the shared key of a local key and an accepted one. -/
def Exchanged (C : Crypto) (cfg : Cfg) (s : State) (k : Bytes) : Prop :=
  ∃ a y, a ∈ s.kx.gens.map (·.1) ∧ y ∈ s.kx.accepted ∧ KX.generateSharedKey C.kx cfg.kx.psk (some a) (some y) = .ok k

/-- The effect `e` comes from a packet with valid tags under the key `psk` or an exchanged key. -/
def Carried (C : Crypto) (cfg : Cfg) (psk : Bytes) (s : State) (e : Receive.Event) : Prop :=
  ∃ p ∈ s.got, ∃ k iv pid len rcv rcv' evs, (k = psk ∨ Exchanged C cfg s k) ∧
    Packet.Genuine C.pkt (some k) pid iv (p.drop 8) ∧
    Receive.processIncomingMessages cfg.rc (env cfg) rcv len ((Packet.clear C.pkt (some k) iv (p.drop 8)).drop 36) =
      .ok (rcv', evs) ∧ e ∈ evs

theorem Carried.mono {psk : Bytes} {s s' : State} {e : Receive.Event} (h : Carried C cfg psk s e)
    (h1 : ∀ x ∈ s.kx.gens, x ∈ s'.kx.gens) (h2 : ∀ x ∈ s.kx.accepted, x ∈ s'.kx.accepted) (h3 : ∀ p ∈ s.got, p ∈ s'.got) :
    Carried C cfg psk s' e := by
  obtain ⟨p, hp, k, iv, pid, len, rcv, rcv', evs, hk, rest⟩ := h
  refine ⟨p, h3 p hp, k, iv, pid, len, rcv, rcv', evs, ?_, rest⟩
  rcases hk with hk | ⟨a, y, e1, e2, e3⟩
  · exact .inl hk
  · refine .inr ⟨a, y, ?_, h2 _ e2, e3⟩
    simp only [List.mem_map] at e1 ⊢
    obtain ⟨z, hz, rfl⟩ := e1
    exact ⟨z, h1 _ hz, rfl⟩

def isMessage : Receive.Event → Bool
  | .handled _ _ => true
  | .queued _ _ => true
  | _ => false

theorem readerStep_carried {psk : Bytes} {s : State} (hr : Reachable C cfg s) (hp : aux C cfg = some psk) {p : Bytes}
    {rd : Receive.Reader} {evs : List Receive.Event} {go : Bool}
    (h : Receive.readerStep C.pkt cfg.rc (env cfg) (keysOf C cfg s) s.rd p = .ok (rd, evs, go)) {e : Receive.Event}
    (he : e ∈ evs) (hm : isMessage e = true) {s' : State} (hg : s'.got = s.got ++ [p]) (hk : s'.kx = s.kx) :
    Carried C cfg psk s' e := by
  unfold Receive.readerStep at h
  split at h
  · simp at h
  · simp at h
  · rename_i er hd
    simp only [Outcome.ok.injEq, Prod.mk.injEq] at h
    rw [← h.2.1] at he
    unfold Receive.decryptError at he
    dsimp only at he
    split at he
    · split at he
      · simp only [List.mem_singleton] at he; rw [he] at hm; simp [isMessage] at hm
      · simp at he
    · simp at he
  · rename_i hdr msgs hd
    split at h
    · simp at h
    · simp only [Outcome.ok.injEq, Prod.mk.injEq] at h; rw [← h.2.1] at he; simp at he
    · split at h <;> simp only [Outcome.ok.injEq, Prod.mk.injEq, reduceCtorEq] at h
      rename_i rcv evs' hproc
      rw [← h.2.1] at he
      simp only [keysOf, hp] at hd
      obtain ⟨k, iv, h1, h2, h3⟩ := Packet.C14_psk_partial C.pkt psk s.kx.sess.cipherKeys s.kx.remoteSessionID
        (hp ▸ keysOK hr) p hdr msgs hd
      rw [h3] at hproc
      refine ⟨p, by rw [hg]; simp, k, iv, hdr.packetID, hdr.length, s.rd.rcv, rcv, evs', ?_, h2, hproc, he⟩
      rcases h1 with h1 | h1
      · right
        unfold Exchanged
        rw [hk]
        exact KX.cipherKey_origin (kx_reachable hr) h1
      · exact .inl h1

structure CarriedOK (C : Crypto) (cfg : Cfg) (psk : Bytes) (s : State) : Prop where
  todo : ∀ e ∈ s.todo, isMessage e = true → Carried C cfg psk s e
  kx : ∀ b ∈ s.kxGot, Carried C cfg psk s (.handled typeKeyExchange b)
  rw : ∀ b ∈ s.rwGot, ∃ t, Carried C cfg psk s (.queued t b)

theorem got_grows {s s' : State} {a : Act} (h : step C cfg s a = .ok s') :
    (∃ p, a = .packet p) ∨ (s'.got = s.got) := by
  cases a with
  | packet p => exact .inl ⟨p, rfl⟩
  | event =>
    simp only [step] at h
    split at h
    · simp at h
    · split at h
      · unfold eventStep at h
        split at h
        · split at h
          · split at h <;> simp only [Outcome.ok.injEq, reduceCtorEq] at h
            subst h; exact .inr rfl
          · simp only [Outcome.ok.injEq] at h; subst h; exact .inr rfl
        all_goals simp only [Outcome.ok.injEq] at h; subst h; exact .inr rfl
      · simp at h
  | kx x pid =>
    simp only [step] at h
    split at h
    · simp at h
    · split at h <;> simp only [Outcome.ok.injEq, reduceCtorEq] at h
      subst h; exact .inr rfl
  | establish =>
    simp only [step] at h
    split at h <;> simp only [Outcome.ok.injEq, reduceCtorEq] at h
    subst h; exact .inr rfl
  | readerEnd =>
    simp only [step] at h
    split at h <;> simp only [Outcome.ok.injEq, reduceCtorEq] at h
    subst h; exact .inr rfl
  | takeKey byCtx =>
    simp only [step] at h
    split at h
    · split at h <;> try (simp only [Outcome.ok.injEq, reduceCtorEq] at h; done)
      · split at h <;> simp only [Outcome.ok.injEq, reduceCtorEq] at h
        subst h; exact .inr rfl
      · simp only [Outcome.ok.injEq] at h; subst h; exact .inr rfl
    · simp at h
  | send pid ok =>
    simp only [step] at h
    split at h
    · split at h
      · simp at h
      · split at h
        · simp only [Outcome.ok.injEq] at h; subst h; exact .inr rfl
        · split at h <;> simp only [Outcome.ok.injEq, reduceCtorEq] at h
          subst h; exact .inr rfl
    · simp at h
  | writeFail =>
    simp only [step] at h
    split at h <;> simp only [Outcome.ok.injEq, reduceCtorEq] at h <;> subst h <;> exact .inr rfl
  | read =>
    simp only [step] at h
    split at h
    · unfold readStep at h
      split at h
      · simp only [Outcome.ok.injEq] at h; subst h; exact .inr rfl
      · split at h <;> simp only [Outcome.ok.injEq, reduceCtorEq] at h
        subst h; exact .inr rfl
    · simp at h

/-- Only packets and their effects change the messages. -/
theorem step_messages {s s' : State} {a : Act} (h : step C cfg s a = .ok s') :
    (∃ p, a = .packet p) ∨ a = .event ∨ (s'.todo = s.todo ∧ s'.kxGot = s.kxGot ∧ s'.rwGot = s.rwGot) := by
  cases a with
  | packet p => exact .inl ⟨p, rfl⟩
  | event => exact .inr (.inl rfl)
  | kx x pid =>
    simp only [step] at h
    split at h
    · simp at h
    · split at h <;> simp only [Outcome.ok.injEq, reduceCtorEq] at h
      subst h; exact .inr (.inr ⟨rfl, rfl, rfl⟩)
  | establish =>
    simp only [step] at h
    split at h <;> simp only [Outcome.ok.injEq, reduceCtorEq] at h
    subst h; exact .inr (.inr ⟨rfl, rfl, rfl⟩)
  | readerEnd =>
    simp only [step] at h
    split at h <;> simp only [Outcome.ok.injEq, reduceCtorEq] at h
    subst h; exact .inr (.inr ⟨rfl, rfl, rfl⟩)
  | takeKey byCtx =>
    simp only [step] at h
    split at h
    · split at h <;> try (simp only [Outcome.ok.injEq, reduceCtorEq] at h; done)
      · split at h <;> simp only [Outcome.ok.injEq, reduceCtorEq] at h
        subst h; exact .inr (.inr ⟨rfl, rfl, rfl⟩)
      · simp only [Outcome.ok.injEq] at h; subst h; exact .inr (.inr ⟨rfl, rfl, rfl⟩)
    · simp at h
  | send pid ok =>
    simp only [step] at h
    split at h
    · split at h
      · simp at h
      · split at h
        · simp only [Outcome.ok.injEq] at h; subst h; exact .inr (.inr ⟨rfl, rfl, rfl⟩)
        · split at h <;> simp only [Outcome.ok.injEq, reduceCtorEq] at h
          subst h; exact .inr (.inr ⟨rfl, rfl, rfl⟩)
    · simp at h
  | writeFail =>
    simp only [step] at h
    split at h <;> simp only [Outcome.ok.injEq, reduceCtorEq] at h <;> subst h <;> exact .inr (.inr ⟨rfl, rfl, rfl⟩)
  | read =>
    simp only [step] at h
    split at h
    · unfold readStep at h
      split at h
      · simp only [Outcome.ok.injEq] at h; subst h; exact .inr (.inr ⟨rfl, rfl, rfl⟩)
      · split at h <;> simp only [Outcome.ok.injEq, reduceCtorEq] at h
        subst h; exact .inr (.inr ⟨rfl, rfl, rfl⟩)
    · simp at h

theorem carriedOK {psk : Bytes} (hp : aux C cfg = some psk) {s : State} (h : Reachable C cfg s) : CarriedOK C cfg psk s := by
  induction h with
  | init => constructor <;> simp [State.init]
  | @step s s' a hr hs ih =>
    obtain ⟨g1, g2, _⟩ := kx_grows hr hs
    rcases step_messages hs with ⟨p, rfl⟩ | rfl | ⟨e1, e2, e3⟩
    · simp only [step] at hs
      split at hs
      · split at hs <;> simp only [Outcome.ok.injEq, reduceCtorEq] at hs
        rename_i rd evs go hread
        subst hs
        have hm : ∀ {e}, Carried C cfg psk s e → Carried C cfg psk { s with rd := rd, todo := evs, running := go, got := s.got ++ [p] } e :=
          fun h => h.mono (fun _ h => h) (fun _ h => h) (fun _ h => List.mem_append_left _ h)
        refine ⟨fun e he hme => readerStep_carried hr hp hread he hme rfl rfl, ?_, ?_⟩
        · exact fun b hb => hm (ih.kx b hb)
        · exact fun b hb => let ⟨t, h⟩ := ih.rw b hb; ⟨t, hm h⟩
      · simp at hs
    · have hgot : s'.got = s.got := by
        rcases got_grows hs with ⟨p, h⟩ | h
        · cases h
        · exact h
      have hm : ∀ {e}, Carried C cfg psk s e → Carried C cfg psk s' e :=
        fun h => h.mono g1 g2 (by rw [hgot]; exact fun _ h => h)
      simp only [step] at hs
      split at hs
      · simp at hs
      · rename_i e rest htodo
        have htail : ∀ x ∈ rest, isMessage x = true → Carried C cfg psk s' x :=
          fun x hx hmx => hm (ih.todo x (by rw [htodo]; exact List.mem_cons_of_mem _ hx) hmx)
        have hhead : isMessage e = true → Carried C cfg psk s' e :=
          fun hme => hm (ih.todo e (by rw [htodo]; simp) hme)
        split at hs
        · unfold eventStep at hs
          split at hs
          · rename_i b
            split at hs
            · rename_i ht
              split at hs <;> simp only [Outcome.ok.injEq, reduceCtorEq] at hs
              subst hs
              refine ⟨htail, ?_, fun b hb => let ⟨t, h⟩ := ih.rw b hb; ⟨t, hm h⟩⟩
              intro x hx
              rcases List.mem_append.1 hx with hx | hx
              · exact hm (ih.kx x hx)
              · rw [List.mem_singleton.1 hx, ← ht]; exact hhead rfl
            · simp only [Outcome.ok.injEq] at hs; subst hs
              exact ⟨htail, fun b hb => hm (ih.kx b hb), fun b hb => let ⟨t, h⟩ := ih.rw b hb; ⟨t, hm h⟩⟩
          · rename_i t b
            simp only [Outcome.ok.injEq] at hs; subst hs
            refine ⟨htail, fun b hb => hm (ih.kx b hb), ?_⟩
            intro x hx
            rcases List.mem_append.1 hx with hx | hx
            · exact let ⟨t, h⟩ := ih.rw x hx; ⟨t, hm h⟩
            · rw [List.mem_singleton.1 hx]; exact ⟨t, hhead rfl⟩
          all_goals
            simp only [Outcome.ok.injEq] at hs; subst hs
            exact ⟨htail, fun b hb => hm (ih.kx b hb), fun b hb => let ⟨t, h⟩ := ih.rw b hb; ⟨t, hm h⟩⟩
        · simp at hs
    · have hgot : ∀ p ∈ s.got, p ∈ s'.got := by
        rcases got_grows hs with ⟨p, rfl⟩ | h
        · simp only [step] at hs
          split at hs
          · split at hs <;> simp only [Outcome.ok.injEq, reduceCtorEq] at hs
            subst hs; exact fun _ h => List.mem_append_left _ h
          · simp at hs
        · rw [h]; exact fun _ h => h
      have hm : ∀ {e}, Carried C cfg psk s e → Carried C cfg psk s' e := fun h => h.mono g1 g2 hgot
      refine ⟨?_, ?_, ?_⟩
      · rw [e1]; exact fun e he hme => hm (ih.todo e he hme)
      · rw [e2]; exact fun b hb => hm (ih.kx b hb)
      · rw [e3]; exact fun b hb => let ⟨t, h⟩ := ih.rw b hb; ⟨t, hm h⟩

end Verif.Mutual

namespace Verif.KX
variable {C : Crypto} {cfg : Cfg}

theorem genStep_sent {s s' : State} {key : Option Bytes} {now : Nat} {g : Gen} {g' : Option Gen}
    (h : genStep C cfg s key now g = .ok (s', g')) : s'.sent = s.sent := by
  cases g with
  | check => simp only [genStep, Outcome.ok.injEq, Prod.mk.injEq] at h; rw [← h.1]
  | gen =>
    simp only [genStep] at h
    split at h <;> simp only [Outcome.ok.injEq, Prod.mk.injEq] at h <;> rw [← h.1]
  | snapshot =>
    simp only [genStep] at h
    split at h <;> simp only [Outcome.ok.injEq, Prod.mk.injEq, reduceCtorEq] at h
    rw [← h.1]
  | publish l =>
    simp only [genStep] at h
    split at h <;> simp only [Outcome.ok.injEq, Prod.mk.injEq, reduceCtorEq] at h
    rename_i s1 hp
    obtain ⟨k, hk, _⟩ := publish_eq hp
    rw [← h.1, hk]

/-- A step sends nothing or a message with the current public key. -/
theorem step_sent {s s' : State} {a : Act} (h : step C cfg s a = .ok s') :
    s'.sent = s.sent ∨ ∃ p x, s.nextPub = some p ∧ s'.sent = s.sent ++ [kxMessage C cfg p x] := by
  cases a with
  | recv b =>
    simp only [step] at h
    split at h
    · split at h <;> simp only [Outcome.ok.injEq, reduceCtorEq] at h <;> subst h <;> exact .inl rfl
    · simp at h
  | reader =>
    simp only [step, readerStep] at h
    split at h
    · simp at h
    · split at h <;> simp only [Outcome.ok.injEq, reduceCtorEq] at h
      subst h
      left
      unfold enter
      split
      · rfl
      · split <;> rfl
    · split at h <;> simp only [Outcome.ok.injEq, reduceCtorEq] at h
      subst h; exact .inl rfl
    · split at h <;> simp only [Outcome.ok.injEq, reduceCtorEq] at h
      rename_i s1 hp
      obtain ⟨k, hk, _⟩ := publish_eq hp
      subst h; rw [hk]; exact .inl rfl
    · simp only [Outcome.ok.injEq] at h
      subst h
      left
      unfold finish
      dsimp only
      split <;> rfl
  | tick =>
    simp only [step] at h
    split at h <;> simp only [Outcome.ok.injEq, reduceCtorEq] at h
    subst h; exact .inl rfl
  | main key now ok =>
    simp only [step, mainStep] at h
    split at h
    · split at h <;> simp only [Outcome.ok.injEq, reduceCtorEq] at h
      · rename_i hg; subst h; exact .inl (by have := genStep_sent hg; exact this)
      · rename_i hg; subst h; exact .inl (by have := genStep_sent hg; exact this)
    · split at h <;> simp only [Outcome.ok.injEq, reduceCtorEq] at h
      rename_i s1 hg
      subst h
      rcases sendPublicKey_ok hg with ⟨p, hp, rfl⟩ | rfl
      · exact .inr ⟨p, _, hp, rfl⟩
      · exact .inl rfl
    · simp at h
  | retry ok =>
    simp only [step] at h
    split at h
    · split at h <;> simp only [Outcome.ok.injEq, reduceCtorEq] at h
      rename_i s1 hg
      subst h
      rcases sendPublicKey_ok hg with ⟨p, hp, rfl⟩ | rfl
      · exact .inr ⟨p, _, hp, rfl⟩
      · exact .inl rfl
    · simp at h
  | timeout =>
    simp only [step] at h
    split at h <;> simp only [Outcome.ok.injEq, reduceCtorEq] at h
    subst h; exact .inl rfl
  | done =>
    simp only [step] at h
    split at h <;> simp only [Outcome.ok.injEq, reduceCtorEq] at h
    subst h; exact .inl rfl
  | answer i key now ok =>
    simp only [step, answerStep] at h
    split at h
    · simp at h
    · simp only [Outcome.ok.injEq] at h; subst h; exact .inl rfl
    · split at h <;> simp only [Outcome.ok.injEq, reduceCtorEq] at h
      · rename_i hg; subst h; exact .inl (by have := genStep_sent hg; exact this)
      · rename_i hg; subst h; exact .inl (by have := genStep_sent hg; exact this)
    · split at h <;> simp only [Outcome.ok.injEq, reduceCtorEq] at h
      rename_i s1 hg
      subst h
      rcases sendPublicKey_ok hg with ⟨p, hp, rfl⟩ | rfl
      · exact .inr ⟨p, _, hp, rfl⟩
      · exact .inl rfl
  | cancel => simp only [step, Outcome.ok.injEq] at h; subst h; exact .inl rfl

/-- Only public keys of local keys are sent. -/
theorem sent_origin {remote : Option Bytes} {s : State} (h : Reachable C cfg remote s) :
    ∀ m ∈ s.sent, ∃ k ∈ s.gens.map (·.1), ∃ x, m = kxMessage C cfg (C.pub k) x := by
  induction h with
  | init => simp [State.init]
  | @step s s' a hr hs ih =>
    have grow : ∀ k ∈ s.gens.map (·.1), k ∈ s'.gens.map (·.1) := by
      intro k hk
      simp only [List.mem_map] at hk ⊢
      obtain ⟨z, hz, rfl⟩ := hk
      exact ⟨z, (step_grows hs).1 _ hz, rfl⟩
    have old : ∀ m ∈ s.sent, ∃ k ∈ s'.gens.map (·.1), ∃ x, m = kxMessage C cfg (C.pub k) x := by
      intro m hm
      obtain ⟨k, hk, x, hx⟩ := ih m hm
      exact ⟨k, grow k hk, x, hx⟩
    rcases step_sent hs with e | ⟨p, x, hp, e⟩
    · rw [e]; exact old
    · rw [e]
      intro m hm
      rcases List.mem_append.1 hm with hm | hm
      · exact old m hm
      · rw [nextPub_eq hr] at hp
        cases hk : s.keys.nextLocal with
        | none => simp [hk] at hp
        | some k =>
          simp only [hk, Option.map_some, Option.some.injEq] at hp
          exact ⟨k, grow k ((keysOK_reachable hr).nextLocal _ hk), x, by rw [List.mem_singleton.1 hm, hp]⟩

end Verif.KX
