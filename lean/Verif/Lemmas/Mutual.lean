import Verif.Model.Mutual
import Verif.Lemmas.KeyExchangeSess
import Verif.Props.KeyExchange
/-!
# Lemmas about the temporary session of MutualConfirmationOfIdentity
-/
namespace Verif.KX
variable {C : Crypto} {cfg : Cfg}

theorem step_grows {s s' : State} {a : Act} (h : step C cfg s a = .ok s') :
    (∀ x ∈ s.gens, x ∈ s'.gens) ∧ (∀ x ∈ s.accepted, x ∈ s'.accepted) ∧
    (∀ id, s.remoteIdentity = some id → s'.remoteIdentity = some id) := by
  refine ⟨?_, ?_, ?_⟩
  · cases keyStep h with
    | same _ hg _ _ _ => rw [hg]; exact fun _ h => h
    | rotate _ _ _ hg _ _ _ _ => rw [hg]; exact fun _ h => List.mem_append_left _ h
    | receive _ _ _ _ hg _ _ _ _ _ _ _ => rw [hg]; exact fun _ h => h
  · cases keyStep h with
    | same _ _ ha _ _ => rw [ha]; exact fun _ h => h
    | rotate _ _ _ _ ha _ _ _ => rw [ha]; exact fun _ h => h
    | receive _ _ _ _ _ ha _ _ _ _ _ _ => rw [ha]; exact fun _ h => List.mem_append_left _ h
  · exact (C34_pinned (C := C) (cfg := cfg) [a] (by simp only [runActs, h])).1

theorem run_grows : ∀ (as : List Act) {s s' : State}, runActs C cfg s as = .ok s' →
    (∀ x ∈ s.gens, x ∈ s'.gens) ∧ (∀ x ∈ s.accepted, x ∈ s'.accepted) := by
  intro as
  induction as with
  | nil => intro s s' h; simp only [runActs, Outcome.ok.injEq] at h; subst h; exact ⟨fun _ h => h, fun _ h => h⟩
  | cons a as ih =>
    intro s s' h
    simp only [runActs] at h
    split at h <;> try (simp only [reduceCtorEq] at h; done)
    rename_i s1 h1
    exact ⟨fun x hx => (ih h).1 x ((step_grows h1).1 x hx), fun x hx => (ih h).2 x ((step_grows h1).2.1 x hx)⟩

/-- The first cipher key is the shared key of a local key and an accepted one. -/
theorem cipherKeys_origin {remote : Option Bytes} {s : State} (hr : Reachable C cfg remote s)
    (hl : s.sess.cipherKeys.length = 4) :
    ∃ k0 a y, s.sess.cipherKeys[0]? = some (some k0) ∧ a ∈ s.gens.map (·.1) ∧ y ∈ s.accepted ∧
      generateSharedKey C cfg.psk (some a) (some y) = .ok k0 := by
  rcases (sessOK_reachable hr).keys with ⟨h, _⟩ | ⟨l, x, ⟨s0, as, hr0, hrun, hsec⟩, hk, _, h0, _⟩
  · simp [h] at hl
  · obtain ⟨a, b, c, d, rfl, ha, _⟩ := secrets_eq hsec
    simp only [List.getElem?_cons_zero, Option.some.injEq] at h0
    subst h0
    have hok := keysOK_reachable hr0
    have hg := run_grows as hrun
    unfold secret at ha
    split at ha <;> simp only [Option.some.injEq, reduceCtorEq] at ha
    rename_i k hk0
    subst ha
    simp only [Keys.pair] at hk0
    cases e1 : s0.keys.nextLocal with
    | none => simp [generateSharedKey, e1] at hk0
    | some a =>
      cases e2 : s0.keys.nextRemote with
      | none => simp [generateSharedKey, e1, e2] at hk0
      | some y =>
        rw [e1, e2] at hk0
        refine ⟨k, a, y, by rw [hk]; rfl, ?_, hg.2 _ (hok.nextRemote _ e2), hk0⟩
        have := hok.nextLocal _ e1
        simp only [List.mem_map] at this ⊢
        obtain ⟨z, hz, rfl⟩ := this
        exact ⟨z, hg.1 _ hz, rfl⟩

end Verif.KX

namespace Verif.Mutual
open Verif.Headers

variable {C : Crypto} {cfg : Cfg}

/-- What a step does to the key exchanger. -/
theorem step_kx {s s' : State} {a : Act} (h : step C cfg s a = .ok s') :
    (s'.kx = s.kx ∧ s'.kxGot = s.kxGot) ∨
    (∃ b, KX.step C.kx cfg.kx s.kx (.recv b) = .ok s'.kx ∧ s'.kxGot = s.kxGot ++ [b]) ∨
    (∃ x, (∀ b, x ≠ KX.Act.recv b) ∧ KX.step C.kx cfg.kx s.kx x = .ok s'.kx ∧ s'.kxGot = s.kxGot) := by
  cases a with
  | packet p =>
    simp only [step] at h
    split at h
    · split at h <;> simp only [Outcome.ok.injEq, reduceCtorEq] at h
      subst h; exact .inl ⟨rfl, rfl⟩
    · simp at h
  | event =>
    simp only [step] at h
    split at h
    · simp at h
    · split at h
      · unfold eventStep at h
        split at h
        · split at h
          · split at h <;> simp only [Outcome.ok.injEq, reduceCtorEq] at h
            rename_i kx hk
            subst h; exact .inr (.inl ⟨_, hk, rfl⟩)
          · simp only [Outcome.ok.injEq] at h; subst h; exact .inl ⟨rfl, rfl⟩
        all_goals simp only [Outcome.ok.injEq] at h; subst h; exact .inl ⟨rfl, rfl⟩
      · simp at h
  | kx x pid =>
    simp only [step] at h
    split at h
    · simp at h
    · rename_i hx
      split at h <;> simp only [Outcome.ok.injEq, reduceCtorEq] at h
      rename_i kx hk
      subst h; exact .inr (.inr ⟨_, fun b => hx b, hk, rfl⟩)
  | establish =>
    simp only [step] at h
    split at h <;> simp only [Outcome.ok.injEq, reduceCtorEq] at h
    subst h; exact .inl ⟨rfl, rfl⟩
  | readerEnd =>
    simp only [step] at h
    split at h <;> simp only [Outcome.ok.injEq, reduceCtorEq] at h
    subst h; exact .inl ⟨rfl, rfl⟩
  | takeKey byCtx =>
    simp only [step] at h
    split at h
    · split at h <;> try (simp only [Outcome.ok.injEq, reduceCtorEq] at h; done)
      · split at h <;> simp only [Outcome.ok.injEq, reduceCtorEq] at h
        subst h; exact .inl ⟨rfl, rfl⟩
      · simp only [Outcome.ok.injEq] at h; subst h; exact .inl ⟨rfl, rfl⟩
    · simp at h
  | send pid ok =>
    simp only [step] at h
    split at h
    · split at h
      · simp at h
      · split at h
        · simp only [Outcome.ok.injEq] at h; subst h; exact .inl ⟨rfl, rfl⟩
        · split at h <;> simp only [Outcome.ok.injEq, reduceCtorEq] at h
          subst h; exact .inl ⟨rfl, rfl⟩
    · simp at h
  | writeFail =>
    simp only [step] at h
    split at h <;> simp only [Outcome.ok.injEq, reduceCtorEq] at h <;> subst h <;> exact .inl ⟨rfl, rfl⟩
  | read =>
    simp only [step] at h
    split at h
    · unfold readStep at h
      split at h
      · simp only [Outcome.ok.injEq] at h; subst h; exact .inl ⟨rfl, rfl⟩
      · split at h <;> simp only [Outcome.ok.injEq, reduceCtorEq] at h
        subst h; exact .inl ⟨rfl, rfl⟩
    · simp at h

theorem kx_reachable {s : State} (h : Reachable C cfg s) : KX.Reachable C.kx cfg.kx cfg.remote s.kx := by
  induction h with
  | init => exact .init
  | step a _ hs ih =>
    rcases step_kx hs with ⟨h1, _⟩ | ⟨b, h1, _⟩ | ⟨x, _, h1, _⟩
    · rw [h1]; exact ih
    · exact .step _ ih h1
    · exact .step _ ih h1

/-- `msg` was received and is signed by the remote identity. -/
def From (C : Crypto) (cfg : Cfg) (s : State) (msg : KxMsg) : Prop :=
  ∃ id b, s.kx.remoteIdentity = some id ∧ b ∈ s.kxGot ∧ KX.Valid C.kx cfg.kx id b msg

theorem From.mono {s s' : State} {msg : KxMsg} (h : From C cfg s msg)
    (h1 : ∀ id, s.kx.remoteIdentity = some id → s'.kx.remoteIdentity = some id) (h2 : ∀ b ∈ s.kxGot, b ∈ s'.kxGot) :
    From C cfg s' msg := by
  obtain ⟨id, b, i1, i2, i3⟩ := h
  exact ⟨id, b, h1 _ i1, h2 _ i2, i3⟩

def heldMsg : KX.Reader → Option KxMsg
  | .snapshot msg => some msg
  | .publish msg _ => some msg
  | .finish msg => some msg
  | _ => none

structure SeenOK (C : Crypto) (cfg : Cfg) (s : State) : Prop where
  parsed : ∀ b msg, s.kx.reader = .parsed b msg → b ∈ s.kxGot
  held : ∀ msg, heldMsg s.kx.reader = some msg → From C cfg s msg
  accepted : ∀ y ∈ s.kx.accepted, ∃ msg, From C cfg s msg ∧ msg.kxPublicKey = y
  successes : 0 < s.kx.successes → ∃ msg, From C cfg s msg ∧ KX.succeeds cfg.kx msg = true

theorem finish_successes (s : KX.State) (c : KX.Cfg) (msg : KxMsg) :
    (KX.finish c s msg).successes = s.successes + if KX.succeeds c msg then 1 else 0 := by
  unfold KX.finish
  cases KX.succeeds c msg <;> simp

/-- What a step of `Handle` does to the message in hand. -/
theorem reader_seen {s s' : KX.State} (hs : KX.step C.kx cfg.kx s .reader = .ok s') (hok : KX.ReaderOK C.kx cfg.kx s) :
    (∃ b msg, s.reader = .parsed b msg ∧ ((s'.reader = .idle ∧ s'.accepted = s.accepted ∧ s'.successes = s.successes) ∨
      ∃ id, s'.remoteIdentity = some id ∧ KX.Valid C.kx cfg.kx id b msg ∧ s'.reader = .snapshot msg ∧
        s'.accepted = s.accepted ++ [msg.kxPublicKey] ∧ s'.successes = s.successes)) ∨
    (∃ msg, heldMsg s.reader = some msg ∧ heldMsg s'.reader = some msg ∧ s'.accepted = s.accepted ∧
      s'.successes = s.successes ∧ (∀ b m, s'.reader ≠ .parsed b m)) ∨
    (∃ msg, heldMsg s.reader = some msg ∧ s'.reader = .idle ∧ s'.accepted = s.accepted ∧
      s'.successes = s.successes + if KX.succeeds cfg.kx msg then 1 else 0) := by
  simp only [KX.step, KX.readerStep] at hs
  split at hs
  · simp at hs
  · rename_i b msg hrd
    split at hs
    · simp at hs
    · simp only [Outcome.ok.injEq] at hs; subst hs
      simp only [KX.ReaderOK, hrd] at hok
      refine .inl ⟨b, msg, hrd, ?_⟩
      rcases KX.enter_cases s b msg hok with ⟨he, _⟩ | ⟨id, hv, _, _, he⟩ <;> rw [he]
      · exact .inl ⟨rfl, rfl, rfl⟩
      · exact .inr ⟨id, rfl, hv, rfl, rfl, rfl⟩
  · rename_i msg hrd
    split at hs <;> simp only [Outcome.ok.injEq, reduceCtorEq] at hs
    subst hs
    exact .inr (.inl ⟨msg, by rw [hrd]; rfl, rfl, rfl, rfl, by simp⟩)
  · rename_i msg l hrd
    split at hs <;> simp only [Outcome.ok.injEq, reduceCtorEq] at hs
    rename_i s1 hp
    obtain ⟨k, hk, _⟩ := KX.publish_eq hp
    subst hs
    rw [hk]
    exact .inr (.inl ⟨msg, by rw [hrd]; rfl, rfl, rfl, rfl, by simp⟩)
  · rename_i msg hrd
    simp only [Outcome.ok.injEq] at hs; subst hs
    exact .inr (.inr ⟨msg, by rw [hrd]; rfl, (KX.finish_frame s msg).2.2.2.2.1, (KX.finish_frame s msg).2.2.2.1,
      finish_successes _ _ _⟩)

theorem seenOK {s : State} (h : Reachable C cfg s) : SeenOK C cfg s := by
  induction h with
  | init => exact ⟨by simp [State.init, KX.State.init], by simp [State.init, KX.State.init, heldMsg],
      by simp [State.init, KX.State.init], by simp [State.init, KX.State.init]⟩
  | @step s s' a hr hs ih =>
    rcases step_kx hs with ⟨h1, h2⟩ | ⟨b, h1, h2⟩ | ⟨x, hx, h1, h2⟩
    · have hm : ∀ {msg}, From C cfg s msg → From C cfg s' msg := fun h => h.mono (by rw [h1]; exact fun _ h => h) (by rw [h2]; exact fun _ h => h)
      refine ⟨?_, ?_, ?_, ?_⟩ <;> rw [h1]
      · rw [h2]; exact ih.parsed
      · exact fun msg h => hm (ih.held msg h)
      · exact fun y hy => let ⟨m, h, e⟩ := ih.accepted y hy; ⟨m, hm h, e⟩
      · exact fun hp => let ⟨m, h, e⟩ := ih.successes hp; ⟨m, hm h, e⟩
    · have hg := KX.step_grows h1
      have hm : ∀ {msg}, From C cfg s msg → From C cfg s' msg :=
        fun h => h.mono hg.2.2 (by rw [h2]; exact fun _ h => List.mem_append_left _ h)
      simp only [KX.step] at h1
      split at h1
      · rename_i hrd
        split at h1 <;> simp only [Outcome.ok.injEq, reduceCtorEq] at h1
        · refine ⟨?_, ?_, ?_, ?_⟩ <;> rw [← h1]
          · intro b' msg he
            simp only [KX.Reader.parsed.injEq] at he
            rw [h2, ← he.1]; simp
          · simp [heldMsg]
          · exact fun y hy => let ⟨m, h, e⟩ := ih.accepted y hy; ⟨m, hm h, e⟩
          · exact fun hp => let ⟨m, h, e⟩ := ih.successes hp; ⟨m, hm h, e⟩
        · refine ⟨?_, ?_, ?_, ?_⟩ <;> rw [← h1]
          · intro b' msg he; rw [hrd] at he; simp at he
          · intro msg he; simp [hrd, heldMsg] at he
          · exact fun y hy => let ⟨m, h, e⟩ := ih.accepted y hy; ⟨m, hm h, e⟩
          · exact fun hp => let ⟨m, h, e⟩ := ih.successes hp; ⟨m, hm h, e⟩
      · simp at h1
    · have hg := KX.step_grows h1
      have hm : ∀ {msg}, From C cfg s msg → From C cfg s' msg :=
        fun h => h.mono hg.2.2 (by rw [h2]; exact fun _ h => h)
      by_cases hx2 : x = .reader
      · subst hx2
        rcases reader_seen h1 (KX.readerOK_reachable (kx_reachable hr)) with
          ⟨b, msg, hrd, ⟨e1, e2, e3⟩ | ⟨id, e0, hv, e1, e2, e3⟩⟩ | ⟨msg, e0, e1, e2, e3, e4⟩ | ⟨msg, e0, e1, e2, e3⟩
        · refine ⟨by simp [e1], by simp [e1, heldMsg], ?_, ?_⟩
          · rw [e2]; exact fun y hy => let ⟨m, h, e⟩ := ih.accepted y hy; ⟨m, hm h, e⟩
          · rw [e3]; exact fun hp => let ⟨m, h, e⟩ := ih.successes hp; ⟨m, hm h, e⟩
        · have hf : From C cfg s' msg := ⟨id, b, e0, by rw [h2]; exact ih.parsed b msg hrd, hv⟩
          refine ⟨by simp [e1], ?_, ?_, ?_⟩
          · intro m he
            simp only [e1, heldMsg, Option.some.injEq] at he
            rw [← he]; exact hf
          · rw [e2]
            intro y hy
            rcases List.mem_append.1 hy with hy | hy
            · exact let ⟨m, h, e⟩ := ih.accepted y hy; ⟨m, hm h, e⟩
            · exact ⟨msg, hf, (List.mem_singleton.1 hy).symm⟩
          · rw [e3]; exact fun hp => let ⟨m, h, e⟩ := ih.successes hp; ⟨m, hm h, e⟩
        · refine ⟨fun b m h => absurd h (e4 b m), ?_, ?_, ?_⟩
          · intro m he
            rw [e1] at he; cases he
            exact hm (ih.held _ e0)
          · rw [e2]; exact fun y hy => let ⟨m, h, e⟩ := ih.accepted y hy; ⟨m, hm h, e⟩
          · rw [e3]; exact fun hp => let ⟨m, h, e⟩ := ih.successes hp; ⟨m, hm h, e⟩
        · refine ⟨by simp [e1], by simp [e1, heldMsg], ?_, ?_⟩
          · rw [e2]; exact fun y hy => let ⟨m, h, e⟩ := ih.accepted y hy; ⟨m, hm h, e⟩
          · intro hp
            cases hsu : KX.succeeds cfg.kx msg with
            | true => exact ⟨msg, hm (ih.held _ e0), hsu⟩
            | false =>
              rw [e3, hsu] at hp
              exact let ⟨m, h, e⟩ := ih.successes (by simpa using hp); ⟨m, hm h, e⟩
      · have hf := KX.step_frame h1 hx hx2
        refine ⟨?_, ?_, ?_, ?_⟩
        · rw [hf.reader, h2]; exact ih.parsed
        · rw [hf.reader]; exact fun msg h => hm (ih.held msg h)
        · rw [hf.accepted]; exact fun y hy => let ⟨m, h, e⟩ := ih.accepted y hy; ⟨m, hm h, e⟩
        · rw [hf.successes]; exact fun hp => let ⟨m, h, e⟩ := ih.successes hp; ⟨m, hm h, e⟩

theorem successes_step {s s' : KX.State} {a : KX.Act} (hr : KX.Reachable C.kx cfg.kx cfg.remote s)
    (h : KX.step C.kx cfg.kx s a = .ok s') : s.successes ≤ s'.successes := by
  by_cases h1 : ∃ b, a = .recv b
  · obtain ⟨b, rfl⟩ := h1
    simp only [KX.step] at h
    split at h
    · split at h <;> simp only [Outcome.ok.injEq, reduceCtorEq] at h <;> subst h <;> exact Nat.le_refl _
    · simp at h
  · by_cases h2 : a = .reader
    · subst h2
      rcases reader_seen h (KX.readerOK_reachable hr) with
          ⟨b, msg, hrd, ⟨e1, e2, e3⟩ | ⟨id, e0, hv, e1, e2, e3⟩⟩ | ⟨msg, e0, e1, e2, e3, e4⟩ | ⟨msg, e0, e1, e2, e3⟩ <;>
        rw [e3] <;> omega
    · exact Nat.le_of_eq (KX.step_frame h (fun b e => h1 ⟨b, e⟩) h2).successes.symm

/-- `ks` are the keys of a session: the first is the shared key of a local and an accepted key. -/
def Origin (C : Crypto) (cfg : Cfg) (s : State) (ks : List (Option Bytes)) : Prop :=
  ks.length = 4 ∧ ∃ k0 a y, ks[0]? = some (some k0) ∧ a ∈ s.kx.gens.map (·.1) ∧ y ∈ s.kx.accepted ∧
    KX.generateSharedKey C.kx cfg.kx.psk (some a) (some y) = .ok k0

structure CallOK (C : Crypto) (cfg : Cfg) (s : State) : Prop where
  est : s.established = true → 0 < s.kx.successes
  reading : s.call = .reading → s.established = true
  queue : ∀ m ∈ s.queue, m ∈ s.rwGot
  ret : ∀ ks, s.call = .returned (.keys ks) → s.established = true ∧ [] ∈ s.rwGot ∧ Origin C cfg s ks

theorem Origin.mono {s s' : State} {ks : List (Option Bytes)} (h : Origin C cfg s ks)
    (h1 : ∀ x ∈ s.kx.gens, x ∈ s'.kx.gens) (h2 : ∀ x ∈ s.kx.accepted, x ∈ s'.kx.accepted) : Origin C cfg s' ks := by
  obtain ⟨hl, k0, a, y, e1, e2, e3, e4⟩ := h
  refine ⟨hl, k0, a, y, e1, ?_, h2 _ e3, e4⟩
  simp only [List.mem_map] at e2 ⊢
  obtain ⟨z, hz, rfl⟩ := e2
  exact ⟨z, h1 _ hz, rfl⟩

theorem kx_grows {s s' : State} {a : Act} (hr : Reachable C cfg s) (h : step C cfg s a = .ok s') :
    (∀ x ∈ s.kx.gens, x ∈ s'.kx.gens) ∧ (∀ x ∈ s.kx.accepted, x ∈ s'.kx.accepted) ∧ s.kx.successes ≤ s'.kx.successes := by
  rcases step_kx h with ⟨h1, _⟩ | ⟨b, h1, _⟩ | ⟨x, _, h1, _⟩
  · rw [h1]; exact ⟨fun _ h => h, fun _ h => h, Nat.le_refl _⟩
  · exact ⟨(KX.step_grows h1).1, (KX.step_grows h1).2.1, successes_step (kx_reachable hr) h1⟩
  · exact ⟨(KX.step_grows h1).1, (KX.step_grows h1).2.1, successes_step (kx_reachable hr) h1⟩

theorem callOK {s : State} (h : Reachable C cfg s) : CallOK C cfg s := by
  induction h with
  | init => constructor <;> simp [State.init]
  | @step s s' a hr hs ih =>
    obtain ⟨g1, g2, g3⟩ := kx_grows hr hs
    -- the fields which matter are unchanged
    have same : s'.established = s.established → s'.call = s.call → s'.queue = s.queue → s'.rwGot = s.rwGot →
        CallOK C cfg s' := by
      intro e1 e2 e3 e4
      refine ⟨?_, ?_, ?_, ?_⟩
      · rw [e1]; exact fun h => Nat.lt_of_lt_of_le (ih.est h) g3
      · rw [e1, e2]; exact ih.reading
      · rw [e3, e4]; exact ih.queue
      · rw [e1, e2, e4]; exact fun ks h => ⟨(ih.ret ks h).1, (ih.ret ks h).2.1, (ih.ret ks h).2.2.mono g1 g2⟩
    -- the call does not get the keys
    have other : s'.established = s.established → s'.kx = s.kx → s'.call ≠ .reading → (∀ ks, s'.call ≠ .returned (.keys ks)) →
        (∀ m ∈ s'.queue, m ∈ s.queue) → s'.rwGot = s.rwGot → CallOK C cfg s' := by
      intro e1 e2 e3 e4 e5 e6
      refine ⟨?_, fun h => absurd h e3, ?_, fun ks h => absurd h (e4 ks)⟩
      · rw [e1, e2]; exact ih.est
      · rw [e6]; exact fun m hm => ih.queue m (e5 m hm)
    cases a with
    | packet p =>
      simp only [step] at hs
      split at hs
      · split at hs <;> simp only [Outcome.ok.injEq, reduceCtorEq] at hs
        subst hs; exact same rfl rfl rfl rfl
      · simp at hs
    | event =>
      simp only [step] at hs
      split at hs
      · simp at hs
      · split at hs
        · unfold eventStep at hs
          split at hs
          · split at hs
            · split at hs <;> simp only [Outcome.ok.injEq, reduceCtorEq] at hs
              subst hs; exact same rfl rfl rfl rfl
            · simp only [Outcome.ok.injEq] at hs; subst hs; exact same rfl rfl rfl rfl
          · rename_i b
            simp only [Outcome.ok.injEq] at hs; subst hs
            refine ⟨ih.est, ih.reading, ?_, ?_⟩
            · intro m hm
              rcases List.mem_append.1 hm with hm | hm
              · exact List.mem_append_left _ (ih.queue m hm)
              · exact List.mem_append_right _ hm
            · intro ks hk
              exact ⟨(ih.ret ks hk).1, List.mem_append_left _ (ih.ret ks hk).2.1, (ih.ret ks hk).2.2⟩
          all_goals simp only [Outcome.ok.injEq] at hs; subst hs; exact same rfl rfl rfl rfl
        · simp at hs
    | kx x pid =>
      simp only [step] at hs
      split at hs
      · simp at hs
      · split at hs <;> simp only [Outcome.ok.injEq, reduceCtorEq] at hs
        subst hs; exact same rfl rfl rfl rfl
    | establish =>
      simp only [step] at hs
      split at hs <;> simp only [Outcome.ok.injEq, reduceCtorEq] at hs
      rename_i hp
      subst hs
      exact ⟨fun _ => hp, fun _ => rfl, ih.queue, fun ks h => ⟨rfl, (ih.ret ks h).2.1, (ih.ret ks h).2.2⟩⟩
    | readerEnd =>
      simp only [step] at hs
      split at hs <;> simp only [Outcome.ok.injEq, reduceCtorEq] at hs
      subst hs; exact same rfl rfl rfl rfl
    | takeKey byCtx =>
      simp only [step] at hs
      split at hs
      · split at hs <;> try (simp only [Outcome.ok.injEq, reduceCtorEq] at hs; done)
        · split at hs <;> simp only [Outcome.ok.injEq, reduceCtorEq] at hs
          subst hs; exact other rfl rfl (by simp) (by simp) (fun _ h => h) rfl
        · simp only [Outcome.ok.injEq] at hs; subst hs
          exact other rfl rfl (by simp) (by simp) (fun _ h => h) rfl
      · simp at hs
    | send pid ok =>
      simp only [step] at hs
      split at hs
      · split at hs
        · simp at hs
        · rename_i he
          split at hs
          · simp only [Outcome.ok.injEq] at hs; subst hs
            exact other rfl rfl (by simp) (by simp) (fun _ h => h) rfl
          · split at hs <;> simp only [Outcome.ok.injEq, reduceCtorEq] at hs
            subst hs
            exact ⟨ih.est, fun _ => by simpa using he, ih.queue, by simp⟩
      · simp at hs
    | writeFail =>
      simp only [step] at hs
      split at hs <;> simp only [Outcome.ok.injEq, reduceCtorEq] at hs <;> subst hs <;>
        exact other rfl rfl (by simp) (by simp) (fun _ h => h) rfl
    | read =>
      simp only [step] at hs
      split at hs
      · rename_i hc
        unfold readStep at hs
        split at hs
        · rename_i m q hq
          simp only [Outcome.ok.injEq] at hs; subst hs
          refine ⟨ih.est, by simp, fun x hx => ih.queue x (by rw [hq]; exact List.mem_cons_of_mem _ hx), ?_⟩
          intro ks hk
          simp only [Call.returned.injEq] at hk
          split at hk
          · rename_i hm
            unfold finalKeys at hk
            split at hk <;> simp only [Result.keys.injEq, reduceCtorEq] at hk
            rename_i hl
            subst hk
            refine ⟨ih.reading hc, ?_, hl, KX.cipherKeys_origin (kx_reachable hr) hl⟩
            subst hm
            exact ih.queue [] (by rw [hq]; simp)
          · simp at hk
        · split at hs <;> simp only [Outcome.ok.injEq, reduceCtorEq] at hs
          subst hs; exact other rfl rfl (by simp) (by simp) (fun _ h => h) rfl
      · simp at hs

end Verif.Mutual
