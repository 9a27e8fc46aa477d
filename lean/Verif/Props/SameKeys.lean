import Verif.Props.Ephemeral
/-!
# C181: both sides have the same ephemeral keys
-/
namespace Verif.KX
open Verif.Headers

variable {C : Crypto} {cfg : Cfg}

/-- `o` has accepted all ECDH keys which `s` has made, in their order (repetitions of the last one do not count). -/
def Knows (C : Crypto) (o s : State) : Prop := collapse o.accepted = s.gens.map (C.pub ·.1)

/-- What is in use when no update is under way. -/
theorem ephemeral_quiet {remote : Option Bytes} {s : State} (hr : SerialReach C cfg remote s) (hq : Quiet s) {a b : Bytes}
    (hp : s.keys.pair 0 = (some a, some b)) :
    ∃ k0 k1 k2 k3, s.sess.cipherKeys = [some k0, k1, k2, k3] ∧ secret C cfg.psk s.keys 0 = some (some k0) ∧
      secret C cfg.psk s.keys 1 = some k1 ∧ secret C cfg.psk s.keys 2 = some k2 ∧ secret C cfg.psk s.keys 3 = some k3 := by
  obtain ⟨l, h1, h2⟩ := (serialInv hr).published hq.clean
  obtain ⟨x0, x1, x2, x3, rfl, e0, e1, e2, e3⟩ := secrets_eq h1
  obtain ⟨k0, h0⟩ := published_some hr hq (i := 0) (by omega) hp
  have hlen := secret_key h0
  rw [e0, Option.some.injEq] at h0
  subst h0
  exact ⟨k0, x1, x2, x3, h2 (by simp only [List.getElem?_cons_zero, Option.join_some, Option.getD_some]
                                intro hz; rw [hz] at hlen; simp at hlen), e0, e1, e2, e3⟩

theorem secret_cross_opt {psk : Option Bytes} {kA kB : Keys} {i j : Nat} {x y : Option Bytes}
    (hA : kA.pair i = (x, y.map C.pub)) (hB : kB.pair j = (y, x.map C.pub)) : secret C psk kA i = secret C psk kB j := by
  cases x with
  | none => cases y <;> simp [secret, hA, hB, generateSharedKey]
  | some a =>
    cases y with
    | none => simp [secret, hA, hB, generateSharedKey]
    | some b => exact secret_cross hA hB

theorem last2_map (f : Bytes → Bytes) (l : List Bytes) : last2 (l.map f) = ((last2 l).1.map f, (last2 l).2.map f) := by
  simp [last2, ← List.map_reverse]

/-- C181, as far as it holds: two sides whose key updates do not overlap, which have accepted all keys of each other and have
no update under way, have the same four keys, but in another order: the second of one side is the third of the other.  (Missing:
the same order, see `C181_violated`; and sides whose updates overlap, see `C35_violated`.) -/
theorem C181_partial {cfgA cfgB : Cfg} {rA rB : Option Bytes} {sA sB : State} {eA eB : List (Option Bytes)}
    (hA : EphReach C cfgA rA sA eA) (hB : EphReach C cfgB rB sB eB) (sA' : SerialReach C cfgA rA sA)
    (sB' : SerialReach C cfgB rB sB) (hpsk : cfgA.psk = cfgB.psk) (qA : Quiet sA) (qB : Quiet sB)
    (nA : sA.gens ≠ []) (nB : sB.gens ≠ []) (hAB : Knows C sA sB) (hBA : Knows C sB sA) :
    ∃ k0 k1 k2 k3, getEphemeralKeys eA = [some k0, k1, k2, k3] ∧ getEphemeralKeys eB = [some k0, k2, k1, k3] ∧
      (sB.gens.length = 1 → k1 = none) ∧ (sA.gens.length = 1 → k2 = none) := by
  rw [C167_in_use hA, C167_in_use hB]
  have lA := (histOK_reachable sA'.reachable).loc
  have lB := (histOK_reachable sB'.reachable).loc
  have mA := (histOK_reachable sA'.reachable).rem
  have mB := (histOK_reachable sB'.reachable).rem
  unfold Knows at hAB hBA
  rw [hAB, show sB.gens.map (C.pub ·.1) = (sB.gens.map (·.1)).map C.pub by simp, last2_map, ← lB] at mA
  rw [hBA, show sA.gens.map (C.pub ·.1) = (sA.gens.map (·.1)).map C.pub by simp, last2_map, ← lA] at mB
  simp only [Prod.mk.injEq] at mA mB
  have lA1 : sA.keys.nextLocal = _ := congrArg Prod.fst lA
  have lA2 : sA.keys.prevLocal = _ := congrArg Prod.snd lA
  have lB1 : sB.keys.nextLocal = _ := congrArg Prod.fst lB
  have lB2 : sB.keys.prevLocal = _ := congrArg Prod.snd lB
  have some_of : ∀ {s : State}, s.gens ≠ [] → s.keys.nextLocal = (last2 (s.gens.map (·.1))).1 → ∃ a, s.keys.nextLocal = some a := by
    intro s hn hl
    rw [last2_last] at hl
    cases h : (s.gens.map (·.1)).getLast? with
    | none => simp [hn] at h
    | some a => exact ⟨a, by rw [hl, h]⟩
  obtain ⟨a, ha⟩ := some_of nA lA1
  obtain ⟨b, hb⟩ := some_of nB lB1
  have pA0 : sA.keys.pair 0 = (some a, some (C.pub b)) := by simp [Keys.pair, ha, mA.1, hb]
  have pB0 : sB.keys.pair 0 = (some b, some (C.pub a)) := by simp [Keys.pair, hb, mB.1, ha]
  obtain ⟨k0, k1, k2, k3, hk, e0, e1, e2, e3⟩ := ephemeral_quiet sA' qA pA0
  obtain ⟨j0, j1, j2, j3, hj, f0, f1, f2, f3⟩ := ephemeral_quiet sB' qB pB0
  rw [← hpsk] at f0 f1 f2 f3
  have c0 : secret C cfgA.psk sA.keys 0 = secret C cfgA.psk sB.keys 0 := secret_cross pA0 pB0
  have c1 : secret C cfgA.psk sA.keys 1 = secret C cfgA.psk sB.keys 2 :=
    secret_cross_opt (x := sA.keys.nextLocal) (y := sB.keys.prevLocal) (by simp only [Keys.pair, mA.2]) (by simp only [Keys.pair, mB.1])
  have c2 : secret C cfgA.psk sA.keys 2 = secret C cfgA.psk sB.keys 1 :=
    secret_cross_opt (x := sA.keys.prevLocal) (y := sB.keys.nextLocal) (by simp only [Keys.pair, mA.1]) (by simp only [Keys.pair, mB.2])
  have c3 : secret C cfgA.psk sA.keys 3 = secret C cfgA.psk sB.keys 3 :=
    secret_cross_opt (x := sA.keys.prevLocal) (y := sB.keys.prevLocal) (by simp only [Keys.pair, mA.2]) (by simp only [Keys.pair, mB.2])
  rw [e0, f0] at c0; rw [e1, f2] at c1; rw [e2, f1] at c2; rw [e3, f3] at c3
  simp only [Option.some.injEq] at c0 c1 c2 c3
  subst c0; subst c1; subst c2; subst c3
  have prev_none : ∀ {s : State}, s.gens.length = 1 → s.keys.prevLocal = (last2 (s.gens.map (·.1))).2 → s.keys.prevLocal = none := by
    intro s hl h
    match hg : s.gens, hl with
    | [x], _ => rw [h, hg]; rfl
  refine ⟨k0, k1, k2, k3, hk, hj, fun hl => ?_, fun hl => ?_⟩
  · have : sA.keys.prevRemote = none := by rw [mA.2, prev_none hl lB2]; rfl
    simp only [secret, Keys.pair, ha, this, generateSharedKey, Option.some.injEq] at e1
    exact e1.symm
  · have : sA.keys.prevLocal = none := prev_none hl lA2
    simp only [secret, Keys.pair, this, generateSharedKey, Option.some.injEq] at e2
    exact e2.symm

/-- C181 for the first exchange: when both sides have made one key, the lists are equal. -/
theorem C181_first {cfgA cfgB : Cfg} {rA rB : Option Bytes} {sA sB : State} {eA eB : List (Option Bytes)}
    (hA : EphReach C cfgA rA sA eA) (hB : EphReach C cfgB rB sB eB) (sA' : SerialReach C cfgA rA sA)
    (sB' : SerialReach C cfgB rB sB) (hpsk : cfgA.psk = cfgB.psk) (qA : Quiet sA) (qB : Quiet sB)
    (nA : sA.gens.length = 1) (nB : sB.gens.length = 1) (hAB : Knows C sA sB) (hBA : Knows C sB sA) :
    getEphemeralKeys eA = getEphemeralKeys eB ∧ getEphemeralKeys eA ≠ [] := by
  obtain ⟨k0, k1, k2, k3, h1, h2, h3, h4⟩ := C181_partial hA hB sA' sB' hpsk qA qB (by intro h; simp [h] at nA)
    (by intro h; simp [h] at nB) hAB hBA
  rw [h1, h2, h3 nB, h4 nA]
  exact ⟨rfl, by simp⟩

/-! ### Examples -/

/-- Alice and Bob after two exchanges. -/
def aliceTwice : List Act := rotate [4] 5 ++ handle bobAnswer ++ [.done] ++ rotate [6] 9 ++
  handle (kxMessage toy bob (toy.pub [2]) true) ++ [.done]
def bobTwice : List Act := rotate [1] 7 ++ handle aliceAnswer ++ [.done] ++ rotate [2] 9 ++
  handle (kxMessage toy alice (toy.pub [6]) true) ++ [.done]
def bobAfter (as : List Act) : State := okState (runActs toy bob (State.init none) as)

/-- The hypotheses of `C181_first` can be met. -/
example : ∃ eA eB, EphReach toy alice none aliceDone eA ∧ EphReach toy bob none bobDone eB ∧
    SerialReach toy alice none aliceDone ∧ SerialReach toy bob none bobDone ∧ Quiet aliceDone ∧ Quiet bobDone ∧
    aliceDone.gens.length = 1 ∧ bobDone.gens.length = 1 ∧ Knows toy aliceDone bobDone ∧ Knows toy bobDone aliceDone := by
  obtain ⟨eA, hA⟩ := aliceDone_reach.serial.reachable.eph
  obtain ⟨eB, hB⟩ := bobDone_reach.serial.reachable.eph
  exact ⟨eA, eB, hA, hB, aliceDone_reach.serial, bobDone_reach.serial, by decide +kernel, by decide +kernel, by decide +kernel,
    by decide +kernel, by unfold Knows; decide +kernel, by unfold Knows; decide +kernel⟩

/-- Negation of C181, and the hypotheses of `C181_partial`: after two exchanges in step, without anything under way, the lists
of the two sides differ. -/
theorem C181_violated : ∃ sA sB eA eB, EphReach toy alice none sA eA ∧ EphReach toy bob none sB eB ∧
    SerialReach toy alice none sA ∧ SerialReach toy bob none sB ∧ alice.psk = bob.psk ∧ Quiet sA ∧ Quiet sB ∧ sA.gens ≠ [] ∧
    sB.gens ≠ [] ∧ Knows toy sA sB ∧ Knows toy sB sA ∧ getEphemeralKeys eA ≠ getEphemeralKeys eB := by
  have kA : (aliceAt aliceTwice).sess.cipherKeys ≠ (bobAfter bobTwice).sess.cipherKeys := by decide +kernel
  have rA : PreparedReach toy alice none (aliceAt aliceTwice) := runPrepared_reach _ .init (by decide +kernel)
  have rB : PreparedReach toy bob none (bobAfter bobTwice) := runPrepared_reach _ .init (by decide +kernel)
  obtain ⟨eA, hA⟩ := rA.serial.reachable.eph
  obtain ⟨eB, hB⟩ := rB.serial.reachable.eph
  refine ⟨_, _, eA, eB, hA, hB, rA.serial, rB.serial, rfl, by decide +kernel, by decide +kernel, by decide +kernel,
    by decide +kernel, by unfold Knows; decide +kernel, by unfold Knows; decide +kernel, ?_⟩
  rw [C167_in_use hA, C167_in_use hB]
  exact kA

#print axioms C181_partial
#print axioms C181_first
#print axioms C181_violated

end Verif.KX
