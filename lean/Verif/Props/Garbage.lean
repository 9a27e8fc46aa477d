import Verif.Props.Dropped
/-!
# C183: what is delivered depends on the accepted packets only
-/
namespace Verif.Receive
open Verif.Headers

/-- The packet was accepted. -/
def isAccepted (e : Verdict × List Event) : Bool := e.1 == .good

/-- The accepted packets. -/
def acceptedOf (as : List Arrival) (log : List (Verdict × List Event)) : List Arrival :=
  ((as.zip log).filter fun x => isAccepted x.2).map (·.1)

/-- Only a report about the decryption. -/
def OnlyReport (evs : List Event) : Prop := evs = [] ∨ ∃ e, evs = [.errDecrypt e]

/-- Equal in everything but the two counters: the reassembly, the count of messages and the known packet IDs. -/
def SameButCounts (r q : Reader) : Prop := r.rcv = q.rcv ∧ r.ids.stor = q.ids.stor

/-- An accepted packet does the same, whatever the counters are. -/
theorem good_step {C : Packet.Crypto} {cfg : Cfg} {env : Env} {keys : Keys} {p : Bytes} {r q r' : Reader} {evs : List Event} {c : Bool}
    (hs : SameButCounts r q) (hv : verdict C keys r p = .good) (h : readerStep C cfg env keys r p = .ok (r', evs, c)) :
    ∃ q', readerStep C cfg env keys q p = .ok (q', evs, true) ∧ c = true ∧ SameButCounts r' q' ∧ verdict C keys q p = .good ∧
      r'.fails = 0 := by
  obtain ⟨h1, h3⟩ := hs
  unfold readerStep at h ⊢
  split at h
  · simp at h
  · simp at h
  · rename_i e hd
    simp [verdict, hd] at hv
  · rename_i hdr msgs hd
    split at h
    · simp at h
    · rename_i ids hi
      simp [verdict, hd, hi] at hv
    · rename_i ids hi
      obtain ⟨d', e1, e2, -, -⟩ := check_count h3 hi
      have hv' : verdict C keys q p = .good := by simp [verdict, hd, e1]
      rw [e1, hv', ← h1]
      simp only at h ⊢
      split at h <;> simp only [Outcome.ok.injEq, Prod.mk.injEq, reduceCtorEq] at h
      obtain ⟨rfl, rfl, rfl⟩ := h
      exact ⟨_, rfl, rfl, ⟨rfl, e2⟩, trivial, rfl⟩

/-- Any other packet changes nothing but the counters. -/
theorem other_step {C : Packet.Crypto} {cfg : Cfg} {env : Env} {keys : Keys} {p : Bytes} {r r' : Reader} {evs : List Event} {c : Bool}
    (hv : verdict C keys r p ≠ .good) (h : readerStep C cfg env keys r p = .ok (r', evs, c)) :
    SameButCounts r' r ∧ OnlyReport evs ∧ r'.fails = r.fails + (if verdict C keys r p = .bad then 1 else 0) ∧
      (c = false → verdict C keys r p = .bad ∧ cfg.detachOnFails ≤ r.fails + 1) := by
  unfold readerStep at h
  split at h
  · simp at h
  · simp at h
  · rename_i e hd
    have hb : verdict C keys r p = .bad := by simp [verdict, hd]
    rw [hb]
    simp only [decryptError, Outcome.ok.injEq, Prod.mk.injEq] at h
    obtain ⟨rfl, rfl, rfl⟩ := h
    refine ⟨⟨rfl, rfl⟩, ?_, by simp, by simp⟩
    split
    · split
      · exact .inr ⟨e, rfl⟩
      · exact .inl rfl
    · exact .inl rfl
  · rename_i hdr msgs hd
    split at h
    · simp at h
    · rename_i ids hi
      have hb : verdict C keys r p = .duplicate := by simp [verdict, hd, hi]
      rw [hb]
      simp only [Outcome.ok.injEq, Prod.mk.injEq] at h
      obtain ⟨rfl, rfl, rfl⟩ := h
      exact ⟨⟨rfl, by rw [check_false hi]⟩, .inl rfl, by simp, by simp⟩
    · rename_i ids hi
      exact absurd (by simp [verdict, hd, hi]) hv

theorem play_accepted {C : Packet.Crypto} {cfg : Cfg} : ∀ {as : List Arrival} {r q r' : Reader} {log : List (Verdict × List Event)},
    SameButCounts r q → play C cfg r as = .ok (r', log) →
    ∃ q', play C cfg q (acceptedOf as log) = .ok (q', log.filter isAccepted) ∧ SameButCounts r' q' ∧
      ∀ e ∈ log, isAccepted e = false → OnlyReport e.2
  | [], r, q, r', log, hs, h => by
    simp only [play, Outcome.ok.injEq, Prod.mk.injEq] at h
    obtain ⟨rfl, rfl⟩ := h
    exact ⟨q, rfl, hs, by simp⟩
  | a :: as, r, q, r', log, hs, h => by
    unfold play at h
    split at h <;> try (simp at h; done)
    · rename_i r1 evs h1
      split at h <;> simp only [Outcome.ok.injEq, Prod.mk.injEq, reduceCtorEq] at h
      rename_i r2 log2 h2
      obtain ⟨rfl, rfl⟩ := h
      by_cases hv : verdict C a.keys r a.packet = .good
      · obtain ⟨q1, e1, -, e2, e3, e4⟩ := good_step hs hv h1
        obtain ⟨q', g1, g2, g4⟩ := play_accepted e2 h2
        refine ⟨q', ?_, g2, ?_⟩
        · have : acceptedOf (a :: as) ((verdict C a.keys r a.packet, evs) :: log2) = a :: acceptedOf as log2 := by
            simp [acceptedOf, isAccepted, hv]
          rw [this, play, e1]
          simp only [g1, e3]
          simp [isAccepted, hv]
        · intro e he
          rcases List.mem_cons.mp he with rfl | he
          · intro h; simp [isAccepted, hv] at h
          · exact g4 e he
      · obtain ⟨f1, f2, -, -⟩ := other_step hv h1
        obtain ⟨q', g1, g2, g4⟩ := play_accepted (q := q) ⟨f1.1.trans hs.1, f1.2.trans hs.2⟩ h2
        refine ⟨q', ?_, g2, ?_⟩
        · simpa [acceptedOf, isAccepted, hv] using g1
        · intro e he
          rcases List.mem_cons.mp he with rfl | he
          · exact fun _ => f2
          · exact g4 e he
    · rename_i r1 evs h1
      simp only [Outcome.ok.injEq, Prod.mk.injEq] at h
      obtain ⟨rfl, rfl⟩ := h
      by_cases hv : verdict C a.keys r a.packet = .good
      · obtain ⟨_, _, hc, _⟩ := good_step hs hv h1
        simp at hc
      · obtain ⟨f1, f2, -, -⟩ := other_step hv h1
        refine ⟨q, ?_, ⟨f1.1.trans hs.1, f1.2.trans hs.2⟩, ?_⟩
        · simp [acceptedOf, isAccepted, hv, play]
        · intro e he
          obtain rfl := List.mem_singleton.mp he
          exact fun _ => f2

/-- C183 for the packets up to the end of the loop: those that are not accepted (undecryptable or refused for their IDs), wherever
they are among the others, have no effect but reports about the decryption; without them all accepted packets have the same
effects in the same order, and reassembly, counted messages and known packet IDs end the same. -/
theorem C183_effects (C : Packet.Crypto) (cfg : Cfg) {as : List Arrival} {r r' : Reader} {log : List (Verdict × List Event)}
    (h : play C cfg r as = .ok (r', log)) :
    (∀ e ∈ log, isAccepted e = false → OnlyReport e.2) ∧
    ∃ q', play C cfg r (acceptedOf as log) = .ok (q', log.filter isAccepted) ∧ SameButCounts r' q' := by
  obtain ⟨q', g1, g2, g3⟩ := play_accepted ⟨rfl, rfl⟩ h
  exact ⟨g3, q', g1, g2⟩

/-- The verdicts so far, newest first, give the counter. -/
theorem play_whole {C : Packet.Crypto} {cfg : Cfg} : ∀ {as : List Arrival} {r r' : Reader} {log : List (Verdict × List Event)}
    (vs : List Verdict), streak vs = r.fails → play C cfg r as = .ok (r', log) →
    (∀ pre, pre <+: log → streak ((pre.map (·.1)).reverse ++ vs) < cfg.detachOnFails) → log.length = as.length
  | [], r, r', log, vs, _, h, _ => by
    simp only [play, Outcome.ok.injEq, Prod.mk.injEq] at h
    obtain ⟨-, rfl⟩ := h
    rfl
  | a :: as, r, r', log, vs, hf, h, hn => by
    have key : ∀ {r1 evs c}, readerStep C cfg a.env a.keys r a.packet = .ok (r1, evs, c) →
        streak (verdict C a.keys r a.packet :: vs) = r1.fails ∧ (c = false → verdict C a.keys r a.packet = .bad ∧
          cfg.detachOnFails ≤ r.fails + 1) := by
      intro r1 evs c h1
      by_cases hv : verdict C a.keys r a.packet = .good
      · obtain ⟨_, _, hc, _, _, h0⟩ := good_step ⟨rfl, rfl⟩ hv h1
        rw [hv, h0]
        exact ⟨rfl, fun h => by simp [hc] at h⟩
      · obtain ⟨-, -, f3, f4⟩ := other_step hv h1
        refine ⟨?_, f4⟩
        rw [f3]
        cases hw : verdict C a.keys r a.packet with
        | bad => simp [streak, hf]
        | duplicate => simp [streak, hf]
        | good => exact absurd hw hv
    unfold play at h
    split at h <;> try (simp at h; done)
    · rename_i r1 evs h1
      split at h <;> simp only [Outcome.ok.injEq, Prod.mk.injEq, reduceCtorEq] at h
      rename_i r2 log2 h2
      obtain ⟨rfl, rfl⟩ := h
      rw [List.length_cons, List.length_cons, play_whole (verdict C a.keys r a.packet :: vs) (key h1).1 h2]
      intro pre hp
      have := hn ((verdict C a.keys r a.packet, evs) :: pre) (List.cons_prefix_cons.mpr ⟨rfl, hp⟩)
      simpa using this
    · rename_i r1 evs h1
      simp only [Outcome.ok.injEq, Prod.mk.injEq] at h
      obtain ⟨-, rfl⟩ := h
      obtain ⟨f5, f6⟩ := (key h1).2 rfl
      have := hn _ (List.prefix_refl _)
      simp [f5, streak] at this
      omega

/-- C183 (restriction that holds): in a new session no packet is left out, as long as there are never as many undecryptable packets in
a row as `DetachOnSequentialDecryptFailsCount` says.  Missing: the value 0, see `C183_violated`. -/
theorem C183_partial (C : Packet.Crypto) (cfg : Cfg) (size : Int) {as : List Arrival} {r' : Reader} {log : List (Verdict × List Event)}
    (h : play C cfg (Reader.init cfg size) as = .ok (r', log))
    (hn : ∀ pre, pre <+: log → streak (pre.map (·.1)).reverse < cfg.detachOnFails) : log.length = as.length :=
  play_whole [] rfl h (by simpa using hn)

/-- C183 is violated with the default options (0, documented as "never"): after one undecryptable packet nothing is received,
whatever comes. -/
theorem C183_violated (C : Packet.Crypto) (cfg : Cfg) (h0 : cfg.detachOnFails = 0) (r : Reader) (a : Arrival) (as : List Arrival)
    {e : Packet.DecryptErr} (ha : Packet.decrypt C a.keys.aux a.keys.cipher a.keys.remote a.packet = .err e) :
    ∃ r' evs, play C cfg r (a :: as) = .ok (r', [(.bad, evs)]) ∧ OnlyReport evs := by
  obtain ⟨r', evs, h1⟩ := C47_violated C cfg h0 a.env a.keys r a.packet e ha
  have hv : verdict C a.keys r a.packet = .bad := by simp [verdict, ha]
  refine ⟨r', evs, ?_, (other_step (by rw [hv]; simp) h1).2.1⟩
  rw [play, h1, hv]

theorem play_of_logOf {o : Outcome Unit (Reader × List (Verdict × List Event))} {log : List (Verdict × List Event)} {m n : Nat}
    (h : logOf o = some (log, m, n)) : ∃ r, o = .ok (r, log) := by
  cases o with
  | ok x =>
    simp only [logOf, Option.some.injEq, Prod.mk.injEq] at h
    exact ⟨x.1, by rw [← h.1]⟩
  | _ => simp [logOf] at h

def cfgTwo : Cfg := { cfg0 with detachOnFails := 2 }

/-- Garbage, a message, garbage and the message again: one message. -/
example : ∃ r log, play Packet.toy cfgTwo (Reader.init cfgTwo 0) [arrival [1], arrival pkt5, arrival [2], arrival pkt5] = .ok (r, log) ∧
    (∀ pre, pre <+: log → streak (pre.map (·.1)).reverse < cfgTwo.detachOnFails) ∧
    log.filter isAccepted = [(.good, [.queued 0xFFFFFFFC [65]])] := by
  obtain ⟨r, h⟩ := play_of_logOf (show logOf (play Packet.toy cfgTwo (Reader.init cfgTwo 0)
      [arrival [1], arrival pkt5, arrival [2], arrival pkt5]) =
      some ([(.bad, []), (.good, [.queued 0xFFFFFFFC [65]]), (.bad, []), (.duplicate, [])], 1, 1) by decide +kernel)
  refine ⟨r, _, h, ?_, by decide⟩
  intro pre hp
  rw [List.prefix_iff_eq_take] at hp
  rw [hp]
  generalize pre.length = n
  rcases n with _ | _ | _ | _ | n <;> simp [streak, cfgTwo]

/-- With the default options the message after the garbage is not received. -/
example : logOf (play Packet.toy cfg0 (Reader.init cfg0 0) [arrival [1], arrival pkt5]) = some ([(.bad, [])], 0, 1) ∧
    logOf (play Packet.toy cfg0 (Reader.init cfg0 0) [arrival pkt5]) = some ([(.good, [.queued 0xFFFFFFFC [65]])], 0, 0) := by
  decide +kernel

/-- The third failure in a row is reported. -/
example : logOf (play Packet.toy cfgNever (Reader.init cfgNever 0) [arrival [1], arrival [2], arrival [3]]) =
    some ([(.bad, []), (.bad, []), (.bad, [.errDecrypt (.tooShort ⟨44, 1⟩)])], 0, 3) := by
  decide +kernel

#print axioms C183_effects
#print axioms C183_partial
#print axioms C183_violated

end Verif.Receive
