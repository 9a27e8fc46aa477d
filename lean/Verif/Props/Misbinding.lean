import Verif.Props.Forget
import Verif.Lemmas.Amplify
/-!
# C135: two sides with a common key know who they talk to

The key of the session depends on the ECDH keys and the PSK only, and a signed message names its sender, but not the
receiver.
-/
namespace Verif.KX
open Verif.Headers

variable {C : Crypto} {cfg : Cfg}

/-- C135 for two sessions: with a common key, each one's remote identity is the identity of the other. -/
def Agree (C : Crypto) (cfgA cfgB : Cfg) (sA sB : State) : Prop :=
  ∀ k, some k ∈ sA.sess.cipherKeys → some k ∈ sB.sess.cipherKeys →
    sA.remoteIdentity = some (C.idPub cfgB.identity) ∧ sB.remoteIdentity = some (C.idPub cfgA.identity)

/-- The executions in which every message with a good signature of the identity that the session believes in (or, if it
knows none yet, that the message names) carries an ECDH public key that is related to this identity by `R`. -/
inductive SignedReach (C : Crypto) (cfg : Cfg) (remote : Option Bytes) (R : Bytes → Bytes → Prop) : State → Prop
  | init : SignedReach C cfg remote R (State.init remote)
  | step {s s' : State} (a : Act) : SignedReach C cfg remote R s →
      (∀ b, a = .recv b →
        let msg := KxMsg.decode ((b.drop 64).take 82)
        let id := s.remoteIdentity.getD msg.identityPublicKey
        C.verify id (b.take 64) ((b.drop 64).take 82) = true → R msg.kxPublicKey id) →
      step C cfg s a = .ok s' → SignedReach C cfg remote R s'

theorem SignedReach.reachable {remote : Option Bytes} {R : Bytes → Bytes → Prop} {s : State}
    (h : SignedReach C cfg remote R s) : Reachable C cfg remote s := by
  induction h with
  | init => exact .init
  | step a _ _ hs ih => exact .step a ih hs

/-- The keys accepted so far are related to the remote identity, and so is the one in hand. -/
structure Owned (C : Crypto) (R : Bytes → Bytes → Prop) (s : State) : Prop where
  acc : ∀ r ∈ s.accepted, ∃ id, s.remoteIdentity = some id ∧ R r id
  hand : ∀ b msg, s.reader = .parsed b msg → C.verify (s.remoteIdentity.getD msg.identityPublicKey) (sigOf b) (bodyOf b) = true →
    R msg.kxPublicKey (s.remoteIdentity.getD msg.identityPublicKey)

theorem owned {remote : Option Bytes} {R : Bytes → Bytes → Prop} {s : State} (h : SignedReach C cfg remote R s) :
    Owned C R s := by
  induction h with
  | init => exact ⟨by simp [State.init], by simp [State.init]⟩
  | @step s s' a hr hh hs ih =>
    by_cases h1 : ∃ b, a = .recv b
    · obtain ⟨b, rfl⟩ := h1
      have hb := hh b rfl
      simp only [step] at hs
      split at hs
      · split at hs <;> simp only [Outcome.ok.injEq, reduceCtorEq] at hs <;> subst hs
        · rename_i hrd msg hp
          refine ⟨ih.acc, ?_⟩
          intro b' msg' he hv
          simp only [Reader.parsed.injEq] at he
          obtain ⟨rfl, rfl⟩ := he
          obtain ⟨-, -, hd, -, -⟩ := parse_ok hp
          subst hd
          exact hb hv
        · exact ⟨ih.acc, ih.hand⟩
      · simp at hs
    · by_cases h2 : a = .reader
      · subst h2
        simp only [step, readerStep] at hs
        split at hs
        · simp at hs
        · rename_i b msg hrd
          have hok := readerOK_reachable hr.reachable
          simp only [ReaderOK, hrd] at hok
          split at hs
          · simp at hs
          · simp only [Outcome.ok.injEq] at hs
            subst hs
            have hih := ih.hand b msg hrd
            unfold enter
            split
            · exact ⟨ih.acc, by simp⟩
            · split
              · exact ⟨ih.acc, by simp⟩
              · rename_i id hid
                refine ⟨?_, by simp⟩
                intro r hrm
                simp only [List.mem_append, List.mem_singleton] at hrm
                refine ⟨id, rfl, ?_⟩
                rcases hrm with hrm | rfl
                · obtain ⟨id', h3, h4⟩ := ih.acc r hrm
                  rw [h3] at hid
                  simp only [Option.some_or, Option.some.injEq] at hid
                  exact hid ▸ h4
                · cases hri : s.remoteIdentity with
                  | some id' =>
                    rw [hri] at hid hih
                    simp only [Option.some_or, Option.some.injEq] at hid
                    subst hid
                    exact hih (hok.2.1 _ hri)
                  | none =>
                    rw [hri] at hid hih
                    simp only [Option.none_or, adopt] at hid
                    split at hid <;> simp only [Option.some.injEq, reduceCtorEq] at hid
                    rename_i hv
                    subst hid
                    exact hih hv
        · split at hs <;> simp only [Outcome.ok.injEq, reduceCtorEq] at hs
          subst hs; exact ⟨ih.acc, by simp⟩
        · split at hs <;> simp only [Outcome.ok.injEq, reduceCtorEq] at hs
          rename_i s1 hp
          obtain ⟨k, hk, _⟩ := publish_eq hp
          subst hs; rw [hk]; exact ⟨ih.acc, by simp⟩
        · rename_i msg _
          simp only [Outcome.ok.injEq] at hs; subst hs
          unfold finish; cases succeeds cfg msg <;> exact ⟨ih.acc, by simp⟩
      · have := step_frame hs (fun b e => h1 ⟨b, e⟩) h2
        exact ⟨by rw [this.accepted, this.remoteIdentity]; exact ih.acc,
          by rw [this.reader, this.remoteIdentity]; exact ih.hand⟩

/-- The executions in which every message with such a signature carries an ECDH key of the owner of that identity: `owner`
tells who made an ECDH public key. -/
abbrev HonestReach (C : Crypto) (cfg : Cfg) (remote : Option Bytes) (owner : Bytes → Bytes) : State → Prop :=
  SignedReach C cfg remote (fun p id => owner p = id)

/-- C135, the part that holds: if the identities that the two sides believe in sign nothing but their own ECDH keys, and
the shared keys do not collide, two different sides with a common key agree on who they are.  Missing: an identity that
signs the ECDH key of somebody else. -/
theorem C135_partial {cfgA cfgB : Cfg} {rA rB : Option Bytes} {owner : Bytes → Bytes} {sA sB : State}
    (hA : HonestReach C cfgA rA owner sA) (hB : HonestReach C cfgB rB owner sB)
    (mA : ∀ a ∈ sA.gens.map (·.1), owner (C.pub a) = C.idPub cfgA.identity)
    (mB : ∀ b ∈ sB.gens.map (·.1), owner (C.pub b) = C.idPub cfgB.identity)
    (hne : C.idPub cfgA.identity ≠ C.idPub cfgB.identity)
    (hdh : ∀ a ∈ sA.gens.map (·.1), ∀ r ∈ sA.accepted, ∀ b ∈ sB.gens.map (·.1), ∀ q ∈ sB.accepted, ∀ k,
      generateSharedKey C cfgA.psk (some a) (some r) = .ok k → generateSharedKey C cfgB.psk (some b) (some q) = .ok k →
      (C.pub a = C.pub b ∧ r = q) ∨ (C.pub a = q ∧ r = C.pub b)) :
    Agree C cfgA cfgB sA sB := by
  intro k h1 h2
  obtain ⟨-, -, -, -, a, -, r, -, ha, hr, hk⟩ := C127_origin_partial hA.reachable h1
  obtain ⟨-, -, -, -, b, -, q, -, hb, hq, hk'⟩ := C127_origin_partial hB.reachable h2
  obtain ⟨iA, hiA, oA⟩ := (owned hA).acc r hr
  obtain ⟨iB, hiB, oB⟩ := (owned hB).acc q hq
  rcases hdh a ha r hr b hb q hq k hk hk' with ⟨h3, -⟩ | ⟨h3, h4⟩
  · exact absurd ((mA a ha).symm.trans ((congrArg owner h3).trans (mB b hb))) hne
  · rw [hiA, hiB, ← oA, ← oB, h4, ← h3, mA a ha, mB b hb]
    exact ⟨rfl, rfl⟩

/-- What a session signs is valid for a session of the same mode. -/
theorem kxMessage_valid {m : Cfg} (p : Bytes) (x : Bool) (hp : p.length = 32) (hz : p ≠ zeroKey) (hm : m.mode = cfg.mode) :
    Valid C cfg (C.idPub m.identity) (kxMessage C m p x)
      ⟨m.sessionID, C.idPub m.identity, p, m.mode, setIsAnswer 0 x⟩ := by
  have hb := body_kxMessage (C := C) (cfg := m) p x hp
  have hd := (C08_key_exchange_message.1 ⟨m.sessionID, C.idPub m.identity, p, m.mode, setIsAnswer 0 x⟩ ⟨C.idPub_length _, hp⟩).2
  have hsig : sigOf (kxMessage C m p x) =
      C.sign m.identity (KxMsg.encode ⟨m.sessionID, C.idPub m.identity, p, m.mode, setIsAnswer 0 x⟩) := by
    unfold sigOf kxMessage
    rw [List.take_append_of_le_length (by rw [C.sign_length]; simp), List.take_of_length_le (by rw [C.sign_length]; simp)]
  have hbody : bodyOf (kxMessage C m p x) =
      KxMsg.encode ⟨m.sessionID, C.idPub m.identity, p, m.mode, setIsAnswer 0 x⟩ := hb.1
  refine ⟨by rw [hb.2]; exact Nat.le_refl _, by rw [hsig, hbody]; exact C.verify_sign _ _, by rw [hbody, hd], hm, hz⟩

/-- Negation of C135, in general: Alice knows Bob, and Bob knows a third one.  The third one signs Alice's ECDH public key,
and Bob's message goes to Alice.  Then Alice and Bob send with a common key (which the third one does not know), Alice
believes she talks to Bob, and Bob believes he talks to the third one.  Without a PSK anybody can make the packets; with a
PSK the third one has to have it, as every peer of Bob does. -/
theorem C135_violated {cfgA cfgB m : Cfg} {rA rB : Option Bytes} {sA sB : State} {a b : Bytes} {lA lB : List (Option Bytes)}
    (x y : Bool) (hA : Reachable C cfgA rA sA) (hB : Reachable C cfgB rB sB) (hpsk : cfgA.psk = cfgB.psk)
    (hidA : sA.remoteIdentity = some (C.idPub cfgB.identity)) (hidB : sB.remoteIdentity = some (C.idPub m.identity))
    (hrA : sA.reader = .idle) (hrB : sB.reader = .idle) (hcA : sA.ctx = false) (hcB : sB.ctx = false)
    (hlA : sA.main.locks = false) (hlB : sB.main.locks = false) (hm : m.mode = cfgB.mode) (hm' : cfgB.mode = cfgA.mode)
    (ha : sA.keys.nextLocal = some a) (hb : sB.keys.nextLocal = some b) (ha0 : C.pub a ≠ zeroKey) (hb0 : C.pub b ≠ zeroKey)
    (hzA : secrets C cfgA.psk (sA.keys.receive (C.pub b)) = some lA)
    (hzB : secrets C cfgB.psk (sB.keys.receive (C.pub a)) = some lB)
    (hne : C.idPub m.identity ≠ C.idPub cfgA.identity) :
    ∃ sA' sB' k, runActs C cfgA sA [.recv (kxMessage C cfgB (C.pub b) y), .reader, .reader, .reader] = .ok sA' ∧
      runActs C cfgB sB [.recv (kxMessage C m (C.pub a) x), .reader, .reader, .reader] = .ok sB' ∧
      sA'.sess.cipherKeys[0]? = some (some k) ∧ sB'.sess.cipherKeys[0]? = some (some k) ∧
      sA'.remoteIdentity = some (C.idPub cfgB.identity) ∧ sB'.remoteIdentity = some (C.idPub m.identity) ∧
      ¬ Agree C cfgA cfgB sA' sB' := by
  have vA := kxMessage_valid (C := C) (cfg := cfgA) (m := cfgB) (C.pub b) y (C.pub_length b) hb0 hm'
  have vB := kxMessage_valid (C := C) (cfg := cfgB) (m := m) (C.pub a) x (C.pub_length a) ha0 hm
  obtain ⟨sA', k, h1, h2, h3, h4⟩ := C127_violated hA hidA hrA hcA hlA vA rfl ha hzA
  obtain ⟨sB', k', h1', h2', h3', h4'⟩ := C127_violated hB hidB hrB hcB hlB vB rfl hb hzB
  have fA := (C34_pinned _ h1).1 _ hidA
  have fB := (C34_pinned _ h1').1 _ hidB
  have hk : k' = k := by
    rw [← hpsk, C35_shared] at h4'
    rw [h4] at h4'
    simpa using h4'.symm
  subst hk
  refine ⟨sA', sB', k', h1, h1', h3, h3', fA, fB, ?_⟩
  intro hag
  have := (hag k' (List.mem_of_getElem? h3) (List.mem_of_getElem? h3')).2
  rw [fB] at this
  exact hne (by simpa using this)

/-! ### Examples -/

/-- A third one; and the message in which the third one signs Alice's ECDH key, with Alice's session ID. -/
def mallory : Cfg := ⟨1, none, [9], ⟨100, 1⟩⟩
def claimed : Bytes := kxMessage toy mallory (toy.pub [4]) false
def bobAt (remote : Option Bytes) (as : List Act) : State := okState (runActs toy bob (State.init remote) as)
def aliceKnows (as : List Act) : State := okState (runActs toy alice (State.init (some (toy.idPub [8]))) as)

/-- Negation of C135: a run of both sides.  Alice is set up with Bob's identity; Bob with the one of the third, or with
none. -/
theorem C135_violated_run : ∀ remote ∈ [none, some (toy.idPub [9])],
    let sA := aliceKnows (rotate [4] 5 ++ handle bob1)
    let sB := bobAt remote (rotate [1] 5 ++ handle claimed)
    Reachable toy alice (some (toy.idPub [8])) sA ∧ Reachable toy bob remote sB ∧ sB.sent = [bob1] ∧
    sA.sess.cipherKeys[0]? = some (some (toy.dh [4] (toy.pub [1]))) ∧
    sB.sess.cipherKeys[0]? = some (some (toy.dh [4] (toy.pub [1]))) ∧
    sA.remoteIdentity = some (toy.idPub bob.identity) ∧ sB.remoteIdentity = some (toy.idPub mallory.identity) ∧
    sB.remoteSessionID = some alice.sessionID ∧ toy.idPub mallory.identity ≠ toy.idPub alice.identity := by
  intro remote hr
  simp only [List.mem_cons, List.not_mem_nil, or_false] at hr
  rcases hr with rfl | rfl <;>
  exact ⟨reachable_run (by decide +kernel), reachable_run (by decide +kernel), by decide +kernel, by decide +kernel,
    by decide +kernel, by decide +kernel, by decide +kernel, by decide +kernel, by decide +kernel⟩

/-- The hypotheses of `C135_violated` hold in the example. -/
example : let sA := aliceKnows (rotate [4] 5)
    let sB := bobAt (some (toy.idPub [9])) (rotate [1] 5)
    Reachable toy alice (some (toy.idPub [8])) sA ∧ Reachable toy bob (some (toy.idPub [9])) sB ∧
    sA.remoteIdentity = some (toy.idPub bob.identity) ∧ sB.remoteIdentity = some (toy.idPub mallory.identity) ∧
    sA.reader = .idle ∧ sB.reader = .idle ∧ sA.ctx = false ∧ sB.ctx = false ∧ sA.main.locks = false ∧ sB.main.locks = false ∧
    sA.keys.nextLocal = some [4] ∧ sB.keys.nextLocal = some [1] ∧ toy.pub [4] ≠ zeroKey ∧ toy.pub [1] ≠ zeroKey ∧
    secrets toy none (sA.keys.receive (toy.pub [1])) ≠ none ∧ secrets toy none (sB.keys.receive (toy.pub [4])) ≠ none :=
  ⟨reachable_run (by decide +kernel), reachable_run (by decide +kernel), by decide +kernel⟩

/-- An honest run: Bob accepts Alice's own message. -/
def alice4 : Bytes := kxMessage toy alice (toy.pub [4]) false
def makerOf (p : Bytes) : Bytes := if p = toy.pub [4] then toy.idPub [7] else toy.idPub [8]

/-- Is the message, if it has a good signature, with a key of its signer? -/
def honestMsg (C : Crypto) (owner : Bytes → Bytes) (s : State) : Act → Bool
  | .recv b =>
    let msg := KxMsg.decode ((b.drop 64).take 82)
    let id := s.remoteIdentity.getD msg.identityPublicKey
    !C.verify id (b.take 64) ((b.drop 64).take 82) || owner msg.kxPublicKey = id
  | _ => true

def runHonest (C : Crypto) (cfg : Cfg) (owner : Bytes → Bytes) : State → List Act → Bool
  | _, [] => true
  | s, a :: as =>
    match step C cfg s a with
    | .ok s' => honestMsg C owner s a && runHonest C cfg owner s' as
    | _ => false

theorem honest_run {remote : Option Bytes} {owner : Bytes → Bytes} : ∀ (as : List Act) {s : State},
    HonestReach C cfg remote owner s → runHonest C cfg owner s as = true →
    HonestReach C cfg remote owner (okState (runActs C cfg s as)) := by
  intro as
  induction as with
  | nil => intro s h _; exact h
  | cons a as ih =>
    intro s h hr
    simp only [runHonest] at hr
    simp only [runActs]
    split at hr
    · rename_i s' hs
      simp only [Bool.and_eq_true] at hr
      rw [hs]
      refine ih (.step a h ?_ hs) hr.2
      rintro b rfl
      intro msg id hv
      have := hr.1
      simp only [honestMsg] at this
      rcases (Bool.or_eq_true _ _).mp this with h1 | h1
      · simp only [msg, id] at hv; rw [hv] at h1; simp at h1
      · exact of_decide_eq_true h1
    · simp at hr

example : let sA := aliceKnows (rotate [4] 5 ++ handle bob1)
    let sB := bobAt none (rotate [1] 5 ++ handle alice4)
    HonestReach toy alice (some (toy.idPub [8])) makerOf sA ∧ HonestReach toy bob none makerOf sB ∧
    sA.gens.map (·.1) = [[4]] ∧ sB.gens.map (·.1) = [[1]] ∧ sA.accepted = [toy.pub [1]] ∧ sB.accepted = [toy.pub [4]] ∧
    makerOf (toy.pub [4]) = toy.idPub alice.identity ∧ makerOf (toy.pub [1]) = toy.idPub bob.identity ∧
    toy.idPub alice.identity ≠ toy.idPub bob.identity ∧
    some (toy.dh [4] (toy.pub [1])) ∈ sA.sess.cipherKeys ∧ some (toy.dh [4] (toy.pub [1])) ∈ sB.sess.cipherKeys :=
  ⟨honest_run _ .init (by decide +kernel), honest_run _ .init (by decide +kernel), by decide +kernel⟩

#print axioms C135_partial
#print axioms C135_violated
#print axioms C135_violated_run

end Verif.KX
