import Verif.Lemmas.KeyExchangeHist
import Verif.Props.KeyExchange
/-!
# Properties of key agreement and rotation: C35, C37, C38
-/
namespace Verif.KX
open Verif.Headers

variable {C : Crypto} {cfg : Cfg}

/-! ### C35 -/

/-- C35: each with its own private key and the other's public key, and with the same PSK, both sides compute the same. -/
theorem C35_shared (psk : Option Bytes) (a b : Bytes) :
    generateSharedKey C psk (some a) (some (C.pub b)) = generateSharedKey C psk (some b) (some (C.pub a)) := by
  simp only [generateSharedKey, C.dh_comm a b]

theorem secret_cross {psk : Option Bytes} {kA kB : Keys} {i j : Nat} {a b : Bytes}
    (hA : kA.pair i = (some a, some (C.pub b))) (hB : kB.pair j = (some b, some (C.pub a))) :
    secret C psk kA i = secret C psk kB j := by
  simp only [secret, hA, hB, C35_shared psk a b]

/-- C35: if each side has the other's last two public keys, the secrets 0 and 3 are the same on both sides, and the
secrets 1 and 2 match crosswise. -/
theorem C35_crosswise (psk : Option Bytes) (a a' b b' : Bytes) :
    let A : Keys := ⟨some (C.pub b'), some (C.pub b), some a', some a⟩
    let B : Keys := ⟨some (C.pub a'), some (C.pub a), some b', some b⟩
    secret C psk A 0 = secret C psk B 0 ∧ secret C psk A 1 = secret C psk B 2 ∧
    secret C psk A 2 = secret C psk B 1 ∧ secret C psk A 3 = secret C psk B 3 :=
  ⟨secret_cross rfl rfl, secret_cross rfl rfl, secret_cross rfl rfl, secret_cross rfl rfl⟩

/-- No key update is under way. -/
def Quiet (s : State) : Prop := s.reader = .idle ∧ s.main.locks = false ∧ ∀ g, Answer.gen g ∉ s.answers

theorem Quiet.clean {s : State} (h : Quiet s) : ¬ Dirty s := by
  rintro (⟨msg, hd⟩ | ⟨msg, l, hd⟩ | ⟨g, hd, _⟩ | ⟨g, hd, _⟩)
  · rw [h.1] at hd; simp at hd
  · rw [h.1] at hd; simp at hd
  · have := h.2.1; rw [hd] at this; simp [Main.locks] at this
  · exact h.2.2 g hd

/-- The public key sent belongs to the local key. -/
theorem nextPub_eq {remote : Option Bytes} {s : State} (h : Reachable C cfg remote s) :
    s.nextPub = s.keys.nextLocal.map C.pub := by
  induction h with
  | init => rfl
  | @step s s' a _ hs ih =>
    cases keyStep hs with
    | same hk _ _ hp _ => rw [hk, hp]; exact ih
    | rotate priv _ hk _ _ hp _ _ => rw [hk, hp]; rfl
    | receive pub _ _ hk _ _ hp _ _ _ _ _ =>
      rw [hk, hp, ih]
      unfold Keys.receive
      split <;> rfl

theorem accepted_last {remote : Option Bytes} {s : State} (h : Reachable C cfg remote s) :
    s.keys.nextRemote = s.accepted.getLast? := by
  have := congrArg Prod.fst (histOK_reachable h).rem
  simp only [last2_last, collapse_last] at this
  exact this

/-- Published secrets are what the session uses. -/
theorem published_key {remote : Option Bytes} {s : State} (hr : SerialReach C cfg remote s) (hq : Quiet s)
    {i : Nat} {k : Bytes} (hi : i < 4) (h0 : ∃ k0, secret C cfg.psk s.keys 0 = some (some k0))
    (hk : secret C cfg.psk s.keys i = some (some k)) : s.sess.cipherKeys[i]? = some (some k) := by
  obtain ⟨l, h1, h2⟩ := (serialInv hr).published hq.clean
  obtain ⟨x0, x1, x2, x3, rfl, e0, e1, e2, e3⟩ := secrets_eq h1
  obtain ⟨k0, h0⟩ := h0
  have hlen := secret_key h0
  rw [e0, Option.some.injEq] at h0
  rw [h2 (by
    simp only [List.getElem?_cons_zero, Option.join_some, h0, Option.getD_some]
    intro hz; rw [hz] at hlen; simp at hlen)]
  have : i = 0 ∨ i = 1 ∨ i = 2 ∨ i = 3 := by omega
  rcases this with rfl | rfl | rfl | rfl
  · rw [e0, Option.some.injEq] at hk; simp [hk]
  · rw [e1, Option.some.injEq] at hk; simp [hk]
  · rw [e2, Option.some.injEq] at hk; simp [hk]
  · rw [e3, Option.some.injEq] at hk; simp [hk]

theorem published_some {remote : Option Bytes} {s : State} (hr : SerialReach C cfg remote s) (hq : Quiet s)
    {i : Nat} (hi : i < 4) {a b : Bytes} (hp : s.keys.pair i = (some a, some b)) :
    ∃ k, secret C cfg.psk s.keys i = some (some k) := by
  obtain ⟨l, h1, _⟩ := (serialInv hr).published hq.clean
  obtain ⟨x0, x1, x2, x3, rfl, e0, e1, e2, e3⟩ := secrets_eq h1
  have hne : secret C cfg.psk s.keys i ≠ none := by
    have : i = 0 ∨ i = 1 ∨ i = 2 ∨ i = 3 := by omega
    rcases this with rfl | rfl | rfl | rfl <;> simp [e0, e1, e2, e3]
  have hns : secret C cfg.psk s.keys i ≠ some none := by
    simp only [secret, hp, generateSharedKey]
    split <;> rename_i h <;> simp only [Option.some.injEq, reduceCtorEq, ne_eq, not_false_eq_true, not_true_eq_false]
    split at h
    · simp at h
    · split at h <;> simp at h
  cases h : secret C cfg.psk s.keys i with
  | none => exact absurd h hne
  | some x =>
    cases x with
    | none => exact absurd h hns
    | some k => exact ⟨k, rfl⟩

/-- C35 for sessions, if key updates of one side do not overlap: once each side has accepted the other's current public
key, and no update is under way, the keys used for sending are equal. -/
theorem C35_sessions_partial {cfgA cfgB : Cfg} {rA rB : Option Bytes} {sA sB : State} (hA : SerialReach C cfgA rA sA)
    (hB : SerialReach C cfgB rB sB) (hpsk : cfgA.psk = cfgB.psk) (qA : Quiet sA) (qB : Quiet sB)
    (hAB : sB.accepted.getLast? = sA.nextPub) (hBA : sA.accepted.getLast? = sB.nextPub)
    (nA : sA.nextPub ≠ none) (nB : sB.nextPub ≠ none) :
    ∃ k, sA.sess.cipherKeys[0]? = some (some k) ∧ sB.sess.cipherKeys[0]? = some (some k) := by
  have pA := nextPub_eq hA.reachable
  have pB := nextPub_eq hB.reachable
  have lA := accepted_last hA.reachable
  have lB := accepted_last hB.reachable
  cases ea : sA.keys.nextLocal with
  | none => rw [ea] at pA; exact absurd pA nA
  | some a =>
    cases eb : sB.keys.nextLocal with
    | none => rw [eb] at pB; exact absurd pB nB
    | some b =>
      rw [ea] at pA; rw [eb] at pB
      have hpA : sA.keys.pair 0 = (some a, some (C.pub b)) := by simp [Keys.pair, ea, lA, hBA, pB]
      have hpB : sB.keys.pair 0 = (some b, some (C.pub a)) := by simp [Keys.pair, eb, lB, hAB, pA]
      obtain ⟨k, hk⟩ := published_some hA qA (by omega) hpA
      have hk' : secret C cfgB.psk sB.keys 0 = some (some k) := by
        rw [← hpsk, ← hk]; exact (secret_cross hpA hpB).symm
      exact ⟨k, published_key hA qA (by omega) ⟨k, hk⟩ hk, published_key hB qB (by omega) ⟨k, hk'⟩ hk'⟩

/-- C35: key updates do not overlap in particular if no message is accepted before the first local key is there. -/
theorem C35_prepared {remote : Option Bytes} {s : State} (h : PreparedReach C cfg remote s) : SerialReach C cfg remote s :=
  h.serial

def isPrepared (s : State) : Bool := s.accepted.isEmpty || s.nextPub.isSome

/-- Run, checking every state. -/
def runPrepared (C : Crypto) (cfg : Cfg) : State → List Act → Bool
  | _, [] => true
  | s, a :: as =>
    match step C cfg s a with
    | .ok s' => isPrepared s' && runPrepared C cfg s' as
    | _ => false

theorem runPrepared_reach {remote : Option Bytes} : ∀ (as : List Act) {s : State}, PreparedReach C cfg remote s →
    runPrepared C cfg s as = true → PreparedReach C cfg remote (okState (runActs C cfg s as)) := by
  intro as
  induction as with
  | nil => intro s h _; exact h
  | cons a as ih =>
    intro s h hp
    simp only [runPrepared] at hp
    split at hp <;> try (simp at hp; done)
    rename_i s1 hs1
    simp only [Bool.and_eq_true] at hp
    simp only [runActs, hs1]
    refine ih (.step a h hs1 ?_) hp.2
    intro hne hn
    simp [isPrepared, hn, hne] at hp

/-- Alice's answer to Bob. -/
def aliceAnswer : Bytes := kxMessage toy alice (toy.pub [4]) true

/-- Alice and Bob after an exchange. -/
def aliceDone : State := okState (runActs toy alice (State.init none) (rotate [4] 5 ++ handle bobAnswer ++ [.done]))
def bobDone : State := okState (runActs toy bob (State.init none) (rotate [1] 7 ++ handle aliceAnswer ++ [.done]))

theorem aliceDone_reach : PreparedReach toy alice none aliceDone := runPrepared_reach _ .init (by decide +kernel)
theorem bobDone_reach : PreparedReach toy bob none bobDone := runPrepared_reach _ .init (by decide +kernel)

instance (s : State) : Decidable (Quiet s) :=
  if h : s.reader = .idle ∧ s.main.locks = false ∧ s.answers.all (fun a => !a.critical) = true then
    .isTrue ⟨h.1, h.2.1, fun g hg => by have := List.all_eq_true.1 h.2.2 _ hg; simp [Answer.critical] at this⟩
  else .isFalse fun hq => h ⟨hq.1, hq.2.1, List.all_eq_true.2 fun a ha => by
    cases a with
    | gen g => exact absurd ha (hq.2.2 g)
    | _ => rfl⟩

example : Quiet aliceDone ∧ Quiet bobDone ∧ bobDone.accepted.getLast? = aliceDone.nextPub ∧
    aliceDone.accepted.getLast? = bobDone.nextPub ∧ aliceDone.nextPub ≠ none ∧ bobDone.nextPub ≠ none := by decide +kernel

/-- The schedule of the race: a message arrives before the first key; the answering goroutine and the loop both make a
key, and the loop passes the older secrets on after the newer ones. -/
def race : List Act := handle bob1 ++
  [.answer 0 none 0 true, .answer 0 none 0 true, .tick, .main none 0 true, .main (some [4]) 5 true, .main none 0 true,
   .answer 0 (some [6]) 6 true, .answer 0 none 0 true, .answer 0 none 0 true, .main none 0 true, .answer 0 none 0 true]

/-- Negation of C35 for overlapping updates: Alice has sent the public key of her key 6, and Bob has accepted it; no
update is under way, but her session uses a secret of her first key, and Bob's does not. -/
theorem C35_violated :
    let sA := aliceAt race
    let sB := okState (runActs toy bob (State.init none)
      (rotate [1] 7 ++ handle (kxMessage toy alice (toy.pub [6]) true) ++ [.done]))
    Reachable toy alice none sA ∧ PreparedReach toy bob none sB ∧ Quiet sA ∧ Quiet sB ∧
    sA.sent = [kxMessage toy alice (toy.pub [6]) true] ∧ sA.nextPub = some (toy.pub [6]) ∧
    sB.accepted.getLast? = sA.nextPub ∧ sA.accepted.getLast? = sB.nextPub ∧
    (∃ k, sA.sess.cipherKeys[0]? = some (some k) ∧ some k ∉ sB.sess.cipherKeys) := by
  refine ⟨reachable_run (by decide +kernel), runPrepared_reach _ .init (by decide +kernel), by decide +kernel, by decide +kernel,
    by decide +kernel, by decide +kernel, by decide +kernel, by decide +kernel,
    ⟨1 :: 5 :: List.replicate 30 0, by decide +kernel, by decide +kernel⟩⟩

/-! ### C37 -/

theorem last2_range (f : Nat → Bytes) (n : Nat) :
    last2 ((List.range (n + 1)).map f) = (some (f n), if n = 0 then none else some (f (n - 1))) := by
  rw [List.range_succ, List.map_append, List.map_cons, List.map_nil, last2_snoc]
  cases n with
  | zero => rfl
  | succ n =>
    rw [List.range_succ, List.map_append, List.map_cons, List.map_nil, last2_snoc]
    simp

/-- C37, as far as it holds: A's keys are `a 0, a 1, …`, B's are `b 0, b 1, …`.  When A encrypted, it had made its keys up
to `i` and had seen B's up to `j`; when B decrypts, it has made its keys up to `j` or `j+1` and has seen A's up to `i` or
`i+1`.  Then the key A used is among those B tries. -/
theorem C37_ahead_partial {cfgA cfgB : Cfg} {rA rB : Option Bytes} {sA sB : State} (hA : SerialReach C cfgA rA sA)
    (hB : SerialReach C cfgB rB sB) (hpsk : cfgA.psk = cfgB.psk) (qA : Quiet sA) (qB : Quiet sB)
    (a b : Nat → Bytes) (i j i' j' : Nat)
    (gA : sA.gens.map (·.1) = (List.range (i + 1)).map a) (gB : sB.gens.map (·.1) = (List.range (j' + 1)).map b)
    (kA : collapse sA.accepted = (List.range (j + 1)).map (fun n => C.pub (b n)))
    (kB : collapse sB.accepted = (List.range (i' + 1)).map (fun n => C.pub (a n)))
    (hi : i' = i ∨ i' = i + 1) (hj : j' = j ∨ j' = j + 1) :
    ∃ k, sA.sess.cipherKeys[0]? = some (some k) ∧ some k ∈ sB.sess.cipherKeys := by
  have hhA := histOK_reachable hA.reachable
  have hhB := histOK_reachable hB.reachable
  have lA := hhA.loc; rw [gA, last2_range] at lA
  have lB := hhB.loc; rw [gB, last2_range] at lB
  have rA' := hhA.rem; rw [kA, last2_range] at rA'
  have rB' := hhB.rem; rw [kB, last2_range] at rB'
  simp only [Prod.mk.injEq] at lA lB rA' rB'
  have hpA : sA.keys.pair 0 = (some (a i), some (C.pub (b j))) := by simp [Keys.pair, lA.1, rA'.1]
  have hpB0 : sB.keys.pair 0 = (some (b j'), some (C.pub (a i'))) := by simp [Keys.pair, lB.1, rB'.1]
  obtain ⟨k, hk⟩ := published_some hA qA (by omega) hpA
  obtain ⟨k0, hk0⟩ := published_some hB qB (by omega) hpB0
  refine ⟨k, published_key hA qA (by omega) ⟨k, hk⟩ hk, ?_⟩
  -- the index under which B has it
  have hex : ∃ n, n < 4 ∧ sB.keys.pair n = (some (b j), some (C.pub (a i))) := by
    rcases hi with rfl | rfl <;> rcases hj with rfl | rfl
    · exact ⟨0, by omega, hpB0⟩
    · exact ⟨2, by omega, by simp [Keys.pair, lB.2, rB'.1]⟩
    · exact ⟨1, by omega, by simp [Keys.pair, lB.1, rB'.2]⟩
    · exact ⟨3, by omega, by simp [Keys.pair, lB.2, rB'.2]⟩
  obtain ⟨n, hn, hpn⟩ := hex
  have hkn : secret C cfgB.psk sB.keys n = some (some k) := by
    rw [← hpsk, ← hk]; exact (secret_cross hpA hpn).symm
  exact List.mem_of_getElem? (published_key hB qB hn ⟨k0, hk0⟩ hkn)

/-- Bob after his next key, one ahead of Alice. -/
def bobAhead : State := okState (runActs toy bob (State.init none)
  (rotate [1] 7 ++ handle aliceAnswer ++ [.done] ++ rotate [2] 9))

example : PreparedReach toy bob none bobAhead ∧ Quiet aliceDone ∧ Quiet bobAhead ∧
    aliceDone.gens.map (·.1) = (List.range 1).map (fun _ => [4]) ∧
    bobAhead.gens.map (·.1) = (List.range 2).map (fun n => if n = 0 then [1] else [2]) ∧
    collapse aliceDone.accepted = (List.range 1).map (fun n => toy.pub (if n = 0 then [1] else [2])) ∧
    collapse bobAhead.accepted = (List.range 1).map (fun _ => toy.pub [4]) :=
  ⟨runPrepared_reach _ .init (by decide +kernel), by decide +kernel, by decide +kernel, by decide +kernel, by decide +kernel,
    by decide +kernel, by decide +kernel⟩

/-- Negation of C37 for a receiver that is behind: Alice has made her second key and uses it for sending, before the
message with the new public key is even sent; Bob has everything sent so far, and cannot decrypt. -/
theorem C37_violated :
    let sA := okState (runActs toy alice (State.init none) (rotate [4] 5 ++ handle bobAnswer ++ [.done] ++ (rotate [6] 9).take 5))
    PreparedReach toy alice none sA ∧ PreparedReach toy bob none bobDone ∧ Quiet sA ∧ Quiet bobDone ∧
    sA.sent = [kxMessage toy alice (toy.pub [4]) false] ∧ bobDone.accepted = [toy.pub [4]] ∧ bobDone.gens.length = 1 ∧
    sA.gens.length = 2 ∧ (∃ k, sA.sess.cipherKeys[0]? = some (some k) ∧ some k ∉ bobDone.sess.cipherKeys) := by
  exact ⟨runPrepared_reach _ .init (by decide +kernel), bobDone_reach, by decide +kernel, by decide +kernel,
    by decide +kernel, by decide +kernel, by decide +kernel, by decide +kernel,
    ⟨1 :: 7 :: List.replicate 30 0, by decide +kernel, by decide +kernel⟩⟩

/-! ### C38 -/

/-- C38, if key updates do not overlap: whenever a key is made, the previous one has been confirmed, and the stamps of
the keys increase, whatever the clock says. -/
theorem C38_serial_partial {remote : Option Bytes} {s : State} (hr : SerialReach C cfg remote s) :
    (s.gens.map (·.2)).Pairwise (· < ·) ∧
    ∀ a s', step C cfg s a = .ok s' → s'.gens ≠ s.gens → s.created = s.nextCreated ∧ s.nextCreated < s'.nextCreated := by
  have hi := serialInv hr
  refine ⟨hi.stamps, fun a s' hs hne => ?_⟩
  cases keyStep hs with
  | same _ hg _ _ _ => exact absurd hg hne
  | rotate priv now hk hg ha hp hn hw =>
    have h1 := hi.genAt hw
    have h2 := hi.created
    refine ⟨by omega, ?_⟩
    rw [hn]; split <;> omega
  | receive _ _ _ _ hg _ _ _ _ _ _ _ => exact absurd hg hne

/-- A run in which key updates do not overlap. -/
inductive SerialRun (C : Crypto) (cfg : Cfg) (s : State) : State → Prop
  | refl : SerialRun C cfg s s
  | step {s1 s2} (a : Act) : SerialRun C cfg s s1 → step C cfg s1 a = .ok s2 → Excl s2 → SerialRun C cfg s s2

/-- C38, if key updates do not overlap: in any part of a run, at most one key more is made than exchanges succeed. -/
theorem C38_count_partial {remote : Option Bytes} {s s' : State} (hr : SerialReach C cfg remote s)
    (h : SerialRun C cfg s s') :
    s'.gens.length + s.successes ≤ s.gens.length + s'.successes + 1 := by
  have key : SerialReach C cfg remote s' ∧
      s'.gens.length + (if s'.nextCreated ≤ s'.created then 1 else 0) + s.successes ≤
        s.gens.length + (if s.nextCreated ≤ s.created then 1 else 0) + s'.successes := by
    induction h with
    | refl => exact ⟨hr, Nat.le_refl _⟩
    | @step s1 s2 a _ hs he ih =>
      obtain ⟨hr1, ih⟩ := ih
      refine ⟨.step a hr1 hs he, ?_⟩
      have hc := created_step hs
      cases keyStep hs with
      | same _ hg _ _ hn =>
        rw [hg, hn]
        rcases hc with ⟨h1, h2⟩ | ⟨h1, h2, h3, _⟩
        · rw [h1, h2]; exact ih
        · rw [h1, h2]; split <;> split at ih <;> omega
      | rotate priv now hk hg ha hp hn hw =>
        have h1 := (serialInv hr1).genAt hw
        rcases hc with ⟨h2, h3⟩ | ⟨_, _, _, h4, _⟩
        · have : ¬ s2.nextCreated ≤ s2.created := by rw [h2, hn]; split <;> omega
          rw [if_neg this, hg, h3]
          rw [if_pos h1] at ih
          simp only [List.length_append, List.length_cons, List.length_nil]
          omega
        · rw [h4] at hg
          have := congrArg List.length hg
          simp at this
      | receive _ _ _ _ hg _ _ hn _ _ _ _ =>
        rw [hg, hn]
        rcases hc with ⟨h1, h2⟩ | ⟨h1, h2, h3, _⟩
        · rw [h1, h2]; exact ih
        · rw [h1, h2]; split <;> split at ih <;> omega
  have := key.2
  split at this <;> split at this <;> omega

example : aliceDone.gens = [([4], 5)] ∧ aliceDone.successes = 1 := by decide +kernel

/-- Negation of C38 for overlapping updates: two keys without any confirmation, and the second stamp is smaller. -/
theorem C38_violated :
    let s := aliceAt (handle bob1 ++ [.answer 0 none 0 true, .answer 0 none 0 true, .tick, .main none 0 true,
      .main (some [4]) 5 true, .answer 0 (some [6]) 3 true])
    Reachable toy alice none s ∧ s.gens = [([4], 5), ([6], 3)] ∧ s.successes = 0 := by
  exact ⟨reachable_run (by decide +kernel), by decide +kernel, by decide +kernel⟩

#print axioms C35_shared
#print axioms C35_crosswise
#print axioms C35_sessions_partial
#print axioms C35_prepared
#print axioms C35_violated
#print axioms C37_ahead_partial
#print axioms C37_violated
#print axioms C38_serial_partial
#print axioms C38_count_partial
#print axioms C38_violated

end Verif.KX
