import Verif.Props.KeyRotation
import Verif.Spec.Recent
/-!
# Properties of forgetting replaced keys: C127
-/
namespace Verif.KX
open Verif.Headers Verif.Spec

variable {C : Crypto} {cfg : Cfg}

theorem mem_lastTwo {l : List Bytes} {x : Bytes} (h : (last2 l).1 = some x ∨ (last2 l).2 = some x) : x ∈ lastTwo l := by
  have key : ∀ i, i < 2 → l.reverse[i]? = some x → x ∈ lastTwo l := by
    intro i hi h
    have hlt : i < l.length := by
      have := (List.getElem?_eq_some_iff.1 h).1; simpa using this
    rw [List.getElem?_reverse hlt] at h
    unfold lastTwo
    apply List.mem_of_getElem? (i := l.length - 1 - i - (l.length - 2))
    rw [List.getElem?_drop, ← h]
    congr 1
    omega
  rcases h with h | h
  · exact key 0 (by omega) h
  · exact key 1 (by omega) h

/-- Nothing is taken out of the histories. -/
theorem histories_step {s s' : State} {a : Act} (hs : step C cfg s a = .ok s') :
    s.gens <+: s'.gens ∧ s.accepted <+: s'.accepted := by
  cases keyStep hs with
  | same _ hg ha _ _ => rw [hg, ha]; exact ⟨List.prefix_refl _, List.prefix_refl _⟩
  | rotate _ _ _ hg ha _ _ _ => rw [hg, ha]; exact ⟨List.prefix_append _ _, List.prefix_refl _⟩
  | receive _ _ _ _ hg ha _ _ _ _ _ _ => rw [hg, ha]; exact ⟨List.prefix_refl _, List.prefix_append _ _⟩

theorem histories_run : ∀ (as : List Act) {s s' : State}, runActs C cfg s as = .ok s' →
    s.gens <+: s'.gens ∧ s.accepted <+: s'.accepted := by
  intro as
  induction as with
  | nil =>
    intro s s' h
    simp only [runActs, Outcome.ok.injEq] at h
    subst h
    exact ⟨List.prefix_refl _, List.prefix_refl _⟩
  | cons a as ih =>
    intro s s' h
    simp only [runActs] at h
    split at h <;> try (simp at h; done)
    rename_i s1 hs1
    have h1 := histories_step hs1
    have h2 := ih h
    exact ⟨h1.1.trans h2.1, h1.2.trans h2.2⟩

/-- Both keys of a secret. -/
theorem secret_pair {psk : Option Bytes} {k : Keys} {i : Nat} {x : Bytes} (h : secret C psk k i = some (some x)) :
    ∃ a r, k.pair i = (some a, some r) ∧ generateSharedKey C psk (some a) (some r) = .ok x := by
  unfold secret at h
  split at h <;> simp only [Option.some.injEq, reduceCtorEq] at h
  rename_i y hy
  subst h
  rcases hp : k.pair i with ⟨a, r⟩
  rw [hp] at hy
  cases a with
  | none => simp [generateSharedKey] at hy
  | some a =>
    cases r with
    | none => simp [generateSharedKey] at hy
    | some r => exact ⟨a, r, rfl, hy⟩

/-- The keys of a secret are recent. -/
theorem secret_recent {remote : Option Bytes} {s : State} (h : Reachable C cfg remote s) {psk : Option Bytes} {i : Nat}
    {x : Bytes} (hx : secret C psk s.keys i = some (some x)) :
    ∃ a ∈ lastTwo (s.gens.map (·.1)), ∃ r ∈ lastTwo (collapse s.accepted),
      generateSharedKey C psk (some a) (some r) = .ok x := by
  obtain ⟨a, r, hp, hg⟩ := secret_pair hx
  have hh := histOK_reachable h
  have hl := hh.loc
  have hr := hh.rem
  refine ⟨a, mem_lastTwo ?_, r, mem_lastTwo ?_, hg⟩
  · rw [← hl]
    unfold Keys.pair at hp
    split at hp <;> simp only [Prod.mk.injEq] at hp
    · exact .inl hp.1
    · exact .inl hp.1
    · exact .inr hp.1
    · exact .inr hp.1
  · rw [← hr]
    unfold Keys.pair at hp
    split at hp <;> simp only [Prod.mk.injEq] at hp
    · exact .inl hp.2
    · exact .inr hp.2
    · exact .inl hp.2
    · exact .inr hp.2

theorem mem_secrets {psk : Option Bytes} {k : Keys} {l : List (Option Bytes)} {x : Bytes} (h : secrets C psk k = some l)
    (hx : some x ∈ l) : ∃ i, secret C psk k i = some (some x) := by
  obtain ⟨a, b, c, d, rfl, ha, hb, hc, hd⟩ := secrets_eq h
  simp only [List.mem_cons, List.not_mem_nil, or_false] at hx
  rcases hx with rfl | rfl | rfl | rfl
  · exact ⟨0, ha⟩
  · exact ⟨1, hb⟩
  · exact ⟨2, hc⟩
  · exact ⟨3, hd⟩

theorem collapse_mem : ∀ (l : List Bytes) (x : Bytes), x ∈ collapse l → x ∈ l := by
  intro l
  induction l using collapse.induct with
  | case1 => simp [collapse]
  | case2 x => simp [collapse]
  | case3 y l ih =>
    intro x h
    simp only [collapse, if_true] at h
    exact List.mem_cons_of_mem _ (ih x h)
  | case4 y z l hyz ih =>
    intro x h
    simp only [collapse, hyz, if_false, List.mem_cons] at h
    rcases h with rfl | h
    · simp
    · exact List.mem_cons_of_mem _ (ih x h)

/-- C127, what holds in every run: each key in use was computed from a private key this side made and a public key it
accepted, and from keys that were recent at some time of the run. -/
theorem C127_origin_partial {remote : Option Bytes} {s : State} (h : Reachable C cfg remote s) {k : Bytes}
    (hk : some k ∈ s.sess.cipherKeys) :
    ∃ s0 as, Reachable C cfg remote s0 ∧ runActs C cfg s0 as = .ok s ∧
      ∃ a ∈ lastTwo (s0.gens.map (·.1)), ∃ r ∈ lastTwo (collapse s0.accepted),
        a ∈ s.gens.map (·.1) ∧ r ∈ s.accepted ∧ generateSharedKey C cfg.psk (some a) (some r) = .ok k := by
  rcases (sessOK_reachable h).keys with ⟨h0, _⟩ | ⟨l, x, ⟨s0, as, hr0, hrun, hl⟩, hkeys, _⟩
  · rw [h0] at hk; simp at hk
  · rw [hkeys] at hk
    obtain ⟨i, hi⟩ := mem_secrets hl hk
    obtain ⟨a, ha, r, hr, hg⟩ := secret_recent hr0 hi
    have hh := histories_run as hrun
    refine ⟨s0, as, hr0, hrun, a, ha, r, hr, ?_, ?_, hg⟩
    · exact (hh.1.map (·.1)).subset (List.mem_of_mem_drop ha)
    · exact hh.2.subset (collapse_mem _ _ (List.mem_of_mem_drop hr))

/-- C127, if key updates do not overlap: when no update is under way, each key in use is computed from one of the last two
private keys this side made and one of the last two public keys it accepted. -/
theorem C127_serial_partial {remote : Option Bytes} {s : State} (hs : SerialReach C cfg remote s) (hq : Quiet s) {k : Bytes}
    (hk : some k ∈ s.sess.cipherKeys) :
    ∃ a ∈ lastTwo (s.gens.map (·.1)), ∃ r ∈ lastTwo (collapse s.accepted),
      generateSharedKey C cfg.psk (some a) (some r) = .ok k := by
  have h := hs.reachable
  obtain ⟨l, h1, h2⟩ := (serialInv hs).published hq.clean
  obtain ⟨s0, as, hr0, hrun, a, ha, r, hr, hga, har, _⟩ := C127_origin_partial h hk
  have hh := histOK_reachable h
  -- both current keys are there
  obtain ⟨a1, ha1⟩ : ∃ a1, s.keys.nextLocal = some a1 := by
    have := congrArg Prod.fst hh.loc
    simp only [last2_last] at this
    rw [this]
    cases hc : (s.gens.map (·.1)).getLast? with
    | none => rw [List.getLast?_eq_none_iff] at hc; rw [hc] at hga; simp at hga
    | some x => exact ⟨x, rfl⟩
  obtain ⟨r1, hr1⟩ : ∃ r1, s.keys.nextRemote = some r1 := by
    rw [accepted_last h]
    cases hc : s.accepted.getLast? with
    | none => rw [List.getLast?_eq_none_iff] at hc; rw [hc] at har; simp at har
    | some x => exact ⟨x, rfl⟩
  obtain ⟨k0, hk0⟩ := published_some hs hq (i := 0) (by omega) (a := a1) (b := r1) (by simp [Keys.pair, ha1, hr1])
  have hlen := secret_key hk0
  have hcl : s.sess.cipherKeys = l := by
    apply h2
    obtain ⟨x0, x1, x2, x3, rfl, e0, _⟩ := secrets_eq h1
    rw [hk0, Option.some.injEq] at e0
    subst e0
    simp only [List.getElem?_cons_zero, Option.join_some, Option.getD_some]
    intro hz; rw [hz] at hlen; simp at hlen
  rw [hcl] at hk
  obtain ⟨i, hi⟩ := mem_secrets h1 hk
  exact secret_recent h hi

/-- Alice after three exchanges, with her keys 4, 6 and 9. -/
def thirdKey : List Act := rotate [4] 5 ++ handle bobAnswer ++ [.done] ++ rotate [6] 9 ++ handle bobAnswer ++ [.done] ++
  rotate [9] 12 ++ handle bobAnswer ++ [.done]

theorem thirdKey_reach : PreparedReach toy alice none (aliceAt thirdKey) := runPrepared_reach _ .init (by decide +kernel)

example : SerialReach toy alice none (aliceAt thirdKey) ∧ Quiet (aliceAt thirdKey) ∧
    (aliceAt thirdKey).gens.map (·.1) = [[4], [6], [9]] ∧ lastTwo ((aliceAt thirdKey).gens.map (·.1)) = [[6], [9]] ∧
    lastTwo (collapse (aliceAt thirdKey).accepted) = [toy.pub [1]] ∧
    (aliceAt thirdKey).sess.cipherKeys = [some (toy.dh [9] (toy.pub [1])), none, some (toy.dh [6] (toy.pub [1])), none] :=
  ⟨thirdKey_reach.serial, by decide +kernel, by decide +kernel, by decide +kernel, by decide +kernel, by decide +kernel⟩

/-- Two messages before the first key: the two answers and the loop each make a key, and the loop, which was first,
passes its secrets on last. -/
def raceOfThree : List Act := handle bob1 ++ handle bob1 ++
  [.answer 0 none 0 true, .answer 1 none 0 true, .answer 0 none 0 true, .answer 1 none 0 true, .tick, .main none 0 true,
   .main (some [4]) 5 true, .main none 0 true,
   .answer 0 (some [6]) 6 true, .answer 0 none 0 true, .answer 0 none 0 true,
   .answer 1 (some [9]) 7 true, .answer 1 none 0 true, .answer 1 none 0 true,
   .main none 0 true]

/-- Negation of C127 for the local keys, with overlapping updates: the key 4 has been replaced twice, no update is under
way, and the session sends with the key made of it. -/
theorem C127_violated_race :
    let s := aliceAt raceOfThree
    Reachable toy alice none s ∧ Quiet s ∧ s.gens.map (·.1) = [[4], [6], [9]] ∧ s.accepted = [toy.pub [1], toy.pub [1]] ∧
    s.sess.cipherKeys[0]? = some (some (toy.dh [4] (toy.pub [1]))) ∧
    ∀ a ∈ lastTwo (s.gens.map (·.1)), generateSharedKey toy alice.psk (some a) (some (toy.pub [1])) ≠ .ok (toy.dh [4] (toy.pub [1])) :=
  ⟨reachable_run (by decide +kernel), by decide +kernel, by decide +kernel, by decide +kernel, by decide +kernel,
    by decide +kernel⟩

/-- Negation of C127 for the remote keys, in general: let the peer have signed, at whatever time, a message with the public
key of `x`.  Whoever plays it back and knows `x` (and the PSK) can compute the key the session sends with from then on. -/
theorem C127_violated {remote : Option Bytes} {s : State} {id b x a : Bytes} {msg : KxMsg}
    (h : Reachable C cfg remote s) (hid : s.remoteIdentity = some id) (hr : s.reader = .idle) (hc : s.ctx = false)
    (hm : s.main.locks = false) (hv : Valid C cfg id b msg) (hx : msg.kxPublicKey = C.pub x) (ha : s.keys.nextLocal = some a)
    {l : List (Option Bytes)} (hz : secrets C cfg.psk (s.keys.receive msg.kxPublicKey) = some l) :
    ∃ s' k, runActs C cfg s [.recv b, .reader, .reader, .reader] = .ok s' ∧ s'.nextPub = some (C.pub a) ∧
      s'.sess.cipherKeys[0]? = some (some k) ∧ generateSharedKey C cfg.psk (some x) (some (C.pub a)) = .ok k := by
  have hp := (parse_valid hv).1
  have hpub : s.nextPub = some (C.pub a) := by rw [nextPub_eq h, ha]; rfl
  have hnr : (s.keys.receive msg.kxPublicKey).nextRemote = some (C.pub x) := by
    unfold Keys.receive
    split
    · rename_i he; rw [he, hx]
    · rw [hx]
  have hnl : (s.keys.receive msg.kxPublicKey).nextLocal = some a := by
    unfold Keys.receive
    split <;> exact ha
  obtain ⟨x0, x1, x2, x3, rfl, e0, e1, e2, e3⟩ := secrets_eq hz
  obtain ⟨k, hk⟩ : ∃ k, x0 = some k := by
    have h0 := e0
    simp only [secret, Keys.pair, hnl, hnr, generateSharedKey] at h0
    split at h0 <;> rename_i hh
    · simp only [Option.some.injEq] at h0; exact ⟨_, h0.symm⟩
    · split at hh
      · simp at hh
      · split at hh <;> simp at hh
    · simp at h0
  subst hk
  have hlen := secret_key e0
  have h0 : ([some k, x1, x2, x3][0]?).join.getD [] ≠ [] := by
    simp only [List.getElem?_cons_zero, Option.join_some, Option.getD_some]
    intro hz; rw [hz] at hlen; simp at hlen
  have hset := setSecrets_taken hz h0 (sessOK_reachable h).pre
  refine ⟨{ s with remoteIdentity := some id, remoteSessionID := s.remoteSessionID.or (some msg.sessionID),
                   keys := s.keys.receive msg.kxPublicKey, accepted := s.accepted ++ [msg.kxPublicKey],
                   reader := .finish msg, sess := ⟨[some k, x1, x2, x3], true, 1⟩ }, k, ?_, hpub, rfl, ?_⟩
  · have hne : k ≠ [] := by rintro rfl; simp at hlen
    simp [runActs, step, hr, hid, hp, readerStep, hm, enter, hc, hz, publish, hset, hne]
  · obtain ⟨a', r', hp', hg⟩ := secret_pair e0
    simp only [Keys.pair, hnl, hnr, Prod.mk.injEq, Option.some.injEq] at hp'
    obtain ⟨rfl, rfl⟩ := hp'
    rw [← hg, C35_shared]

/-- Bob's third message. -/
def bob3 : Bytes := kxMessage toy bob (toy.pub [3]) false

/-- Negation of C127 for the remote keys: Bob has replaced his key 1 twice and Alice has accepted the new ones.  Then his
first message is played back, and she sends with a key that follows from the private key 1 and her public key. -/
theorem C127_violated_replay :
    let s := aliceAt (rotate [4] 5 ++ handle bob1 ++ handle bob2 ++ handle bob3)
    let s' := aliceAt (rotate [4] 5 ++ handle bob1 ++ handle bob2 ++ handle bob3 ++ handle bob1)
    Reachable toy alice none s' ∧ lastTwo s.accepted = [toy.pub [2], toy.pub [3]] ∧
    (∀ k ∈ s.sess.cipherKeys, k ≠ some (toy.dh [1] (toy.pub [4]))) ∧
    s'.sess.cipherKeys[0]? = some (some (toy.dh [1] (toy.pub [4]))) ∧ s'.nextPub = some (toy.pub [4]) :=
  ⟨reachable_run (by decide +kernel), by decide +kernel, by decide +kernel, by decide +kernel, by decide +kernel⟩

example : let s := aliceAt (rotate [4] 5 ++ handle bob1 ++ handle bob2 ++ handle bob3)
    Reachable toy alice none s ∧ s.remoteIdentity = some (toy.idPub [8]) ∧ s.reader = .idle ∧ s.ctx = false ∧
    s.main.locks = false ∧ Valid toy alice (toy.idPub [8]) bob1 (KxMsg.decode (bodyOf bob1)) ∧
    (KxMsg.decode (bodyOf bob1)).kxPublicKey = toy.pub [1] ∧ s.keys.nextLocal = some [4] ∧
    secrets toy alice.psk (s.keys.receive (toy.pub [1])) ≠ none :=
  ⟨reachable_run (by decide +kernel), by decide +kernel, by decide +kernel, by decide +kernel, by decide +kernel,
    ⟨by decide +kernel, by decide +kernel, rfl, by decide +kernel, by decide +kernel⟩, by decide +kernel, by decide +kernel,
    by decide +kernel⟩

#print axioms C127_origin_partial
#print axioms C127_serial_partial
#print axioms C127_violated_race
#print axioms C127_violated
#print axioms C127_violated_replay

end Verif.KX
