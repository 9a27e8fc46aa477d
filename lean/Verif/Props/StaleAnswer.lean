import Verif.Props.Misbinding
/-!
# C138: a key update is over only when the peer has the new key

An answer does not tell which key it answers.
-/
namespace Verif.KX
open Verif.Headers

variable {C : Crypto} {cfg : Cfg}

/-- The update of the local key is over: `localKeyCreatedAt` is that of the current key, so that the notification ends the
retries (key_exchanger.go:651-703), and the next update may begin. -/
def UpdateOver (s : State) : Prop := s.gens ≠ [] ∧ s.created = s.nextCreated

/-- C138 for two sides: when the update of `sA` is over, the peer has accepted the current public key of `sA`. -/
def PeerHasKey (sA sB : State) : Prop := UpdateOver sA → ∀ p, sA.nextPub = some p → p ∈ sB.accepted

/-- Negation of C138, in general: whatever the peer has accepted, and whichever key it answers - an answer `b` of the peer,
recorded or delayed as long as one likes, puts an end to the update. -/
theorem C138_violated {remote : Option Bytes} {s : State} {id b : Bytes} {msg : KxMsg} {l : List (Option Bytes)}
    (h : Reachable C cfg remote s) (hid : s.remoteIdentity = some id) (hr : s.reader = .idle) (hc : s.ctx = false)
    (hm : s.main.locks = false) (hv : Valid C cfg id b msg) (ha : isAnswer msg.flags = true) (hg : s.gens ≠ [])
    (hz : secrets C cfg.psk (s.keys.receive msg.kxPublicKey) = some l) :
    ∃ s', runActs C cfg s (handle b) = .ok s' ∧ UpdateOver s' ∧ s'.nextPub = s.nextPub ∧ s'.gens = s.gens ∧ s'.sent = s.sent ∧
      s'.successes = s.successes + 1 := by
  have hp := (parse_valid hv).1
  have hsucc : succeeds cfg msg = true := by simp [succeeds, ha]
  by_cases hl : (l[0]?).join.getD [] = []
  · refine ⟨finish cfg { s with remoteIdentity := some id, remoteSessionID := s.remoteSessionID.or (some msg.sessionID),
                                keys := s.keys.receive msg.kxPublicKey, accepted := s.accepted ++ [msg.kxPublicKey],
                                reader := .finish msg } msg, ?_, ?_⟩
    · simp [handle, runActs, step, hr, hid, hp, readerStep, hm, enter, hc, hz, publish, hl]
    · simp [finish, hsucc, UpdateOver, hg]
  · have hset := setSecrets_taken hz hl (sessOK_reachable h).pre
    refine ⟨finish cfg { s with remoteIdentity := some id, remoteSessionID := s.remoteSessionID.or (some msg.sessionID),
                                keys := s.keys.receive msg.kxPublicKey, accepted := s.accepted ++ [msg.kxPublicKey],
                                reader := .finish msg, sess := ⟨l, true, 1⟩ } msg, ?_, ?_⟩
    · simp [handle, runActs, step, hr, hid, hp, readerStep, hm, enter, hc, hz, publish, hset, hl]
    · simp [finish, hsucc, UpdateOver, hg]

/-- A success is the end of `Handle` with an answer. -/
theorem success_answer (hmode : cfg.mode = 1) {s s' : State} {a : Act} (hs : step C cfg s a = .ok s')
    (h : s'.successes = s.successes + 1) : a = .reader ∧ ∃ msg, s.reader = .finish msg ∧ isAnswer msg.flags = true := by
  by_cases h1 : ∃ b, a = .recv b
  · obtain ⟨b, rfl⟩ := h1
    simp only [step] at hs
    split at hs
    · split at hs <;> simp only [Outcome.ok.injEq, reduceCtorEq] at hs <;> subst hs <;> simp at h
    · simp at hs
  · by_cases h2 : a = .reader
    · subst h2
      refine ⟨rfl, ?_⟩
      simp only [step, readerStep] at hs
      split at hs
      · simp at hs
      · split at hs
        · simp at hs
        · simp only [Outcome.ok.injEq] at hs; subst hs
          unfold enter at h
          repeat' split at h
          all_goals simp at h
      · split at hs <;> simp only [Outcome.ok.injEq, reduceCtorEq] at hs
        subst hs; simp at h
      · split at hs <;> simp only [Outcome.ok.injEq, reduceCtorEq] at hs
        rename_i s1 hp
        obtain ⟨k, hk, _⟩ := publish_eq hp
        subst hs; subst hk; simp at h
      · rename_i msg hrd
        simp only [Outcome.ok.injEq] at hs; subst hs
        refine ⟨msg, hrd, ?_⟩
        cases hsu : succeeds cfg msg with
        | false => simp [finish, hsu] at h
        | true => simpa [succeeds, hmode] using hsu
    · have hf := step_frame hs (fun b e => h1 ⟨b, e⟩) h2
      rw [hf.successes] at h; omega

/-- An update in progress stays in progress. -/
theorem nextCreated_step {s s' : State} {a : Act} (hs : step C cfg s a = .ok s') (h0 : s.created < s.nextCreated)
    (hc : s'.created = s.created) : s'.created < s'.nextCreated := by
  rcases keyStep hs with ⟨_, _, _, _, hn⟩ | ⟨_, _, _, _, _, _, hn, _⟩ | ⟨_, _, _, _, _, _, _, hn, _, _, _, _⟩
  · omega
  · rw [hn, hc]; split <;> omega
  · omega

/-- C138, the part that holds: in the default mode an update that was in progress is over only after `Handle` has, since
then, finished a message with the answer flag that the remote identity has signed.  Missing: that it answers this key. -/
theorem C138_partial {remote : Option Bytes} (hmode : cfg.mode = 1) : ∀ (as : List Act) {s s' : State}, Reachable C cfg remote s →
    s.created < s.nextCreated → runActs C cfg s as = .ok s' → UpdateOver s' →
    ∃ (bs cs : List Act) (s1 : State) (id b : Bytes) (msg : KxMsg), as = bs ++ .reader :: cs ∧ runActs C cfg s bs = .ok s1 ∧ s1.reader = .finish msg ∧
      s1.remoteIdentity = some id ∧ 146 ≤ b.length ∧ C.verify id (b.take 64) ((b.drop 64).take 82) = true ∧
      msg = KxMsg.decode ((b.drop 64).take 82) ∧ isAnswer msg.flags = true := by
  intro as
  induction as with
  | nil =>
    intro s s' _ h0 hs hov
    simp only [runActs, Outcome.ok.injEq] at hs
    subst hs
    exact absurd hov.2 (by omega)
  | cons a as ih =>
    intro s s' hr h0 hs hov
    simp only [runActs] at hs
    split at hs <;> try (simp only [reduceCtorEq] at hs; done)
    rename_i s1 h1
    rcases created_step h1 with ⟨hc, hsu⟩ | ⟨hc, hsu, -, -, hlock, -, -⟩
    · -- nothing happened to `created`
      obtain ⟨bs, cs, s2, id, b, msg, e, e1, e2⟩ := ih (.step a hr h1) (nextCreated_step h1 h0 hc) hs hov
      exact ⟨a :: bs, cs, s2, id, b, msg, by rw [e]; rfl, by simp only [runActs, h1]; exact e1, e2⟩
    · obtain ⟨rfl, msg, hm, hans⟩ := success_answer hmode h1 hsu
      have hok := readerOK_reachable hr
      simp only [ReaderOK, hm] at hok
      obtain ⟨id, b, hid, hv⟩ := hok
      exact ⟨[], as, s, id, b, msg, rfl, rfl, hm, hid, hv.len, hv.sig, hv.dec, hans⟩

/-! ### Example: a network that delays one message and loses another one -/

/-- Two sides, and the messages that each has received. -/
structure Two where
  a : State
  b : State
  gotA : List Bytes
  gotB : List Bytes

/-- A step of one side; a message can be received as often as the other side has sent it. -/
def twoStep (t : Two) : Bool × Act → Option Two
  | (false, act) =>
    match step toy alice t.a act with
    | .ok a' =>
      match act with
      | .recv m => if t.gotA.count m < t.b.sent.count m then some { t with a := a', gotA := t.gotA ++ [m] } else none
      | _ => some { t with a := a' }
    | _ => none
  | (true, act) =>
    match step toy bob t.b act with
    | .ok b' =>
      match act with
      | .recv m => if t.gotB.count m < t.a.sent.count m then some { t with b := b', gotB := t.gotB ++ [m] } else none
      | _ => some { t with b := b' }
    | _ => none

def twoRun : Two → List (Bool × Act) → Option Two
  | t, [] => some t
  | t, x :: xs => (twoStep t x).bind (twoRun · xs)

theorem twoRun_reachable {rA rB : Option Bytes} : ∀ (xs : List (Bool × Act)) {t t' : Two}, Reachable toy alice rA t.a →
    Reachable toy bob rB t.b → twoRun t xs = some t' → Reachable toy alice rA t'.a ∧ Reachable toy bob rB t'.b := by
  intro xs
  induction xs with
  | nil => intro t t' h1 h2 h; simp only [twoRun, Option.some.injEq] at h; subst h; exact ⟨h1, h2⟩
  | cons x xs ih =>
    intro t t' h1 h2 h
    simp only [twoRun, Option.bind_eq_some_iff] at h
    obtain ⟨t1, ht, h⟩ := h
    obtain ⟨side, act⟩ := x
    have key : Reachable toy alice rA t1.a ∧ Reachable toy bob rB t1.b := by
      cases side <;> simp only [twoStep] at ht
      · split at ht
        · rename_i a' ha
          split at ht
          · split at ht <;> simp only [Option.some.injEq, reduceCtorEq] at ht
            subst ht; exact ⟨.step _ h1 ha, h2⟩
          · simp only [Option.some.injEq] at ht
            subst ht; exact ⟨.step _ h1 ha, h2⟩
        · simp at ht
      · split at ht
        · rename_i a' ha
          split at ht
          · split at ht <;> simp only [Option.some.injEq, reduceCtorEq] at ht
            subst ht; exact ⟨h1, .step _ h2 ha⟩
          · simp only [Option.some.injEq] at ht
            subst ht; exact ⟨h1, .step _ h2 ha⟩
        · simp at ht
    exact ih key.1 key.2 h

/-- Alice and Bob, who know each other's identities. -/
def twoInit : Two := ⟨State.init (some (toy.idPub [8])), State.init (some (toy.idPub [7])), [], []⟩
def on (x : Bool) (as : List Act) : List (Bool × Act) := as.map (x, ·)

/-- Both make keys.  Alice sends hers twice, as no answer comes in time; Bob answers twice; Alice receives one of the answers
and is done.  After the interval she makes a new key and sends it, which is lost.  Now the other answer arrives. -/
def staleRun : List (Bool × Act) :=
  on false (rotate [4] 5 ++ [.retry true]) ++ on true (rotate [1] 5) ++
  on true (handle alice4 ++ handle alice4) ++
  on true [.answer 0 none 0 true, .answer 0 none 0 true, .answer 0 none 0 true, .answer 0 none 0 true] ++
  on false (handle bobAnswer ++ [.done]) ++
  on false (rotate [6] 9) ++
  on false (handle bobAnswer ++ [.done])

def staleEnd : Two := (twoRun twoInit staleRun).getD twoInit

/-- Negation of C138: nothing is forged or repeated by the network, one message is late and one is lost.  Alice's update is
over, she does not send her key again, and she sends with a key that Bob does not have. -/
theorem C138_violated_run :
    twoRun twoInit staleRun ≠ none ∧ Reachable toy alice (some (toy.idPub [8])) staleEnd.a ∧
    Reachable toy bob (some (toy.idPub [7])) staleEnd.b ∧ ¬ PeerHasKey staleEnd.a staleEnd.b ∧
    UpdateOver staleEnd.a ∧ staleEnd.a.main = .idle ∧ staleEnd.a.successes = 2 ∧ staleEnd.a.reports = [] ∧
    staleEnd.a.nextPub = some (toy.pub [6]) ∧ staleEnd.b.accepted = [toy.pub [4], toy.pub [4]] ∧
    staleEnd.a.sess.cipherKeys[0]? = some (some (toy.dh [6] (toy.pub [1]))) ∧
    some (toy.dh [6] (toy.pub [1])) ∉ staleEnd.b.sess.cipherKeys := by
  have hr : Reachable toy alice (some (toy.idPub [8])) staleEnd.a ∧ Reachable toy bob (some (toy.idPub [7])) staleEnd.b := by
    have h : (twoRun twoInit staleRun).isSome = true := by decide +kernel
    obtain ⟨t, ht⟩ := Option.isSome_iff_exists.mp h
    have : staleEnd = t := by unfold staleEnd; rw [ht]; rfl
    rw [this]
    exact twoRun_reachable staleRun .init .init ht
  have hover : UpdateOver staleEnd.a := ⟨by decide +kernel, by decide +kernel⟩
  have hpub : staleEnd.a.nextPub = some (toy.pub [6]) := by decide +kernel
  have hacc : staleEnd.b.accepted = [toy.pub [4], toy.pub [4]] := by decide +kernel
  refine ⟨?_, hr.1, hr.2, ?_, hover, by decide +kernel, by decide +kernel, by decide +kernel, hpub, hacc, by decide +kernel,
    by decide +kernel⟩
  · intro h
    have h' : (twoRun twoInit staleRun).isSome = true := by decide +kernel
    rw [h] at h'; simp at h'
  · intro h
    have := h hover _ hpub
    rw [hacc] at this
    revert this
    decide +kernel

/-- The hypotheses of the general theorems hold: before the late answer arrives. -/
def staleBefore : Two := (twoRun twoInit (staleRun.take (staleRun.length - 6))).getD twoInit

example : staleBefore.a.remoteIdentity = some (toy.idPub [8]) ∧ staleBefore.a.reader = .idle ∧ staleBefore.a.ctx = false ∧
    staleBefore.a.main.locks = false ∧ isAnswer (KxMsg.decode (bodyOf bobAnswer)).flags = true ∧ staleBefore.a.gens ≠ [] ∧
    secrets toy none (staleBefore.a.keys.receive (toy.pub [1])) ≠ none ∧ staleBefore.a.created < staleBefore.a.nextCreated ∧
    alice.mode = 1 ∧ staleBefore.a.main = .waiting ∧ ¬ UpdateOver staleBefore.a := by
  have h : ¬ (staleBefore.a.gens ≠ [] ∧ staleBefore.a.created = staleBefore.a.nextCreated) := by decide +kernel
  exact ⟨by decide +kernel, by decide +kernel, by decide +kernel, by decide +kernel, by decide +kernel, by decide +kernel,
    by decide +kernel, by decide +kernel, rfl, by decide +kernel, h⟩

#print axioms C138_violated
#print axioms C138_partial
#print axioms C138_violated_run

end Verif.KX
