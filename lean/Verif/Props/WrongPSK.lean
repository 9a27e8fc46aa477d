import Verif.Lemmas.WrongPSK
import Verif.Props.Mutual
/-!
# C180: MutualConfirmationOfIdentity and another PSK
-/
namespace Verif.Mutual
open Verif.Headers

variable {C : Crypto} {cfg : Cfg}

/-- C180: whoever sends the packets, in whatever order: as long as none of them has valid tags under the key made from the PSK
of this side, nothing of them is heard.  The key exchange gets no message, accepts no key and does not succeed, nothing comes
to `Read`, and the call neither writes its message nor gives keys. -/
theorem C180_call {s : State} (hr : Reachable C cfg s) (hf : ∀ p ∈ s.got, ¬ Familiar C cfg p) :
    s.kxGot = [] ∧ s.kx.accepted = [] ∧ s.kx.successes = 0 ∧ s.rwGot = [] ∧ s.established = false ∧ s.call ≠ .reading ∧
      (∀ ks, ¬ s.confirmed ks) ∧ s.kx.sess.cipherKeys.all (· = none) = true := by
  have d := deaf hr hf
  refine ⟨d.kxGot, accepted_nil hr d.kxGot, successes_zero hr d.kxGot, d.rwGot, d.established, d.reading,
    fun ks h => d.call ks h.1, ?_⟩
  rw [List.all_eq_true]
  intro k hk
  cases k with
  | none => rfl
  | some k =>
    obtain ⟨_, y, _, hy, _⟩ := KX.cipherKey_origin (kx_reachable hr) hk
    rw [accepted_nil hr d.kxGot] at hy; simp at hy

/-- C180 for two sides: if no packet of one side has valid tags under the key of the other, and the other way round, neither
call gives keys. -/
theorem C180_net {cfgA cfgB : Cfg} {xs : List (Bool × Act)} {n : Net}
    (h : netRun C cfgA cfgB (Net.init cfgA cfgB) xs = .ok n)
    (hA : ∀ p ∈ n.b.out, ¬ Familiar C cfgA p) (hB : ∀ p ∈ n.a.out, ¬ Familiar C cfgB p) :
    (∀ ks, ¬ n.a.confirmed ks) ∧ (∀ ks, ¬ n.b.confirmed ks) ∧ n.a.kx.accepted = [] ∧ n.b.kx.accepted = [] := by
  obtain ⟨rA, rB⟩ := netRun_reachable xs .init .init h
  have key : ∀ (xs : List (Bool × Act)) {n n' : Net}, netRun C cfgA cfgB n xs = .ok n' →
      (∀ p ∈ n.a.got, p ∈ n.b.out) → (∀ p ∈ n.b.got, p ∈ n.a.out) →
      (∀ p ∈ n'.a.got, p ∈ n'.b.out) ∧ (∀ p ∈ n'.b.got, p ∈ n'.a.out) := by
    intro xs
    induction xs with
    | nil => intro n n' h h1 h2; simp only [netRun, Outcome.ok.injEq] at h; subst h; exact ⟨h1, h2⟩
    | cons x xs ih =>
      intro n n' h h1 h2
      simp only [netRun] at h
      split at h <;> try (simp only [reduceCtorEq] at h; done)
      rename_i n1 hn
      obtain ⟨side, x⟩ := x
      cases side with
      | false =>
        simp only [netStep] at hn
        split at hn
        · rename_i hd
          split at hn <;> simp only [Outcome.ok.injEq, reduceCtorEq] at hn
          rename_i a ha
          subst hn
          refine ih h (fun p hp => ?_) (fun p hp => out_mono ha p (h2 p hp))
          rcases (got_mono ha).2 p hp with hp | rfl
          · exact h1 p hp
          · simpa [deliverable] using hd
        · simp at hn
      | true =>
        simp only [netStep] at hn
        split at hn
        · rename_i hd
          split at hn <;> simp only [Outcome.ok.injEq, reduceCtorEq] at hn
          rename_i a ha
          subst hn
          refine ih h (fun p hp => out_mono ha p (h1 p hp)) (fun p hp => ?_)
          rcases (got_mono ha).2 p hp with hp | rfl
          · exact h2 p hp
          · simpa [deliverable] using hd
        · simp at hn
  obtain ⟨k1, k2⟩ := key xs h (by simp [Net.init, State.init]) (by simp [Net.init, State.init])
  have a := C180_call rA fun p hp => hA p (k1 p hp)
  have b := C180_call rB fun p hp => hB p (k2 p hp)
  exact ⟨a.2.2.2.2.2.2.1, b.2.2.2.2.2.2.1, a.2.1, b.2.1⟩

/-! ### Examples -/

/-- Bob with another PSK than Alice. -/
def otherPSK (cfg : Cfg) : Cfg := { cfg with kx := { cfg.kx with psk := some [9] } }
def kxPktO (cfg : Cfg) (k : Bytes) (answer : Bool) (pid : W64) : Bytes :=
  (Packet.sealPacket toyC.pkt (aux toyC (otherPSK cfg)) (aux toyC (otherPSK cfg)) cfg.kx.sessionID false pid
    (message typeKeyExchange 0 (KX.kxMessage toyC.kx cfg.kx (toyC.kx.pub k) answer))).getD []

/-- Both make a key and send it; each gets the packet of the other. -/
def strangers : List (Bool × Act) :=
  makeKey false [4] 1 ++ makeKey true [5] 1 ++
  [(false, .packet (kxPktO cfgB [5] false 1)), (true, .packet (kxPktP cfgA [4] false 1))]

def familiar (C : Crypto) (cfg : Cfg) (p : Bytes) : Bool :=
  let id := Packet.wirePacketID C.pkt (aux C cfg) p
  let c := Packet.clear C.pkt (aux C cfg) id (p.drop 8)
  decide (c.take 16 = C.pkt.poly (Packet.oneTimeKey C.pkt (aux C cfg) id) ((c.drop 32).take 4)) &&
    decide ((c.drop 16).take 16 = C.pkt.poly (Packet.oneTimeKey C.pkt (aux C cfg) id) (c.drop 36))

theorem familiar_iff {p : Bytes} : familiar C cfg p = true ↔ Familiar C cfg p := by
  simp only [familiar, Bool.and_eq_true, decide_eq_true_eq]; rfl

/-- The hypotheses of `C180_call` and `C180_net` can be met: both sides have sent a packet and got one. -/
example : ∃ n, netRun toyC (withPSK cfgA) (otherPSK cfgB) (Net.init (withPSK cfgA) (otherPSK cfgB)) strangers = .ok n ∧
    n.a.got.length = 1 ∧ n.b.got.length = 1 ∧ (∀ p ∈ n.b.out, ¬ Familiar toyC (withPSK cfgA) p) ∧
    (∀ p ∈ n.a.out, ¬ Familiar toyC (otherPSK cfgB) p) := by
  have key : (match netRun toyC (withPSK cfgA) (otherPSK cfgB) (Net.init (withPSK cfgA) (otherPSK cfgB)) strangers with
      | .ok n => n.a.got.length == 1 && (n.b.got.length == 1 && (n.b.out.all (fun p => !familiar toyC (withPSK cfgA) p) &&
          n.a.out.all (fun p => !familiar toyC (otherPSK cfgB) p)))
      | _ => false) = true := by decide +kernel
  split at key
  · rename_i n hn
    simp only [Bool.and_eq_true, beq_iff_eq, List.all_eq_true, Bool.not_eq_true'] at key
    refine ⟨n, hn, key.1, key.2.1, fun p hp h => ?_, fun p hp h => ?_⟩
    · have := key.2.2.1 p hp; rw [familiar_iff.2 h] at this; cases this
    · have := key.2.2.2 p hp; rw [familiar_iff.2 h] at this; cases this
  · simp at key

/-- The assumption is about the PSK: with the same PSK the packets have valid tags. -/
example : Familiar toyC (withPSK cfgA) (kxPktP cfgB [5] false 1) ∧ ¬ Familiar toyC (withPSK cfgA) (kxPktO cfgB [5] false 1) :=
  ⟨familiar_iff.1 (by decide +kernel), fun h => absurd (familiar_iff.2 h) (by decide +kernel)⟩

#print axioms C180_net
#print axioms C180_call

end Verif.Mutual
