import Verif.Lemmas.Dropped
import Verif.Props.Receive
/-!
# C182: a packet that is refused for its packet ID has no effect but on the counter
-/
namespace Verif.Receive
open Verif.Headers

/-- Two readers that differ in the counter, and any packets: the refused ones may be left out. -/
theorem play_others {C : Packet.Crypto} {cfg : Cfg} : ∀ {as : List Arrival} {r q r' : Reader} {log : List (Verdict × List Event)},
    SameButCount r q → play C cfg r as = .ok (r', log) →
    ∃ q', play C cfg q (others as log) = .ok (q', log.filter fun e => !isRefused e) ∧ SameButCount r' q' ∧
      r'.ids.unexpected = r.ids.unexpected + log.countP isRefused ∧ q'.ids.unexpected = q.ids.unexpected ∧
      ∀ e ∈ log, isRefused e = true → e.2 = []
  | [], r, q, r', log, hs, h => by
    simp only [play, Outcome.ok.injEq, Prod.mk.injEq] at h
    obtain ⟨rfl, rfl⟩ := h
    exact ⟨q, rfl, hs, by simp, rfl, by simp⟩
  | a :: as, r, q, r', log, hs, h => by
    unfold play at h
    split at h <;> try (simp at h; done)
    · rename_i r1 evs h1
      split at h <;> simp only [Outcome.ok.injEq, Prod.mk.injEq, reduceCtorEq] at h
      rename_i r2 log2 h2
      obtain ⟨rfl, rfl⟩ := h
      obtain ⟨q1, e1, e2, e3, e4, e5, e6⟩ := step_count hs h1
      by_cases hv : verdict C a.keys r a.packet = .duplicate
      · obtain ⟨rfl, -, f3⟩ := e6 hv
        have hs1 : SameButCount r1 q := ⟨f3.1.trans hs.1, f3.2.1.trans hs.2.1, f3.2.2.trans hs.2.2⟩
        obtain ⟨q', g1, g2, g3, g4, g5⟩ := play_others hs1 h2
        refine ⟨q', ?_, g2, ?_, g4, ?_⟩
        · simpa [others, isRefused, hv] using g1
        · rw [g3, e4, if_pos hv]
          simp [isRefused, hv]
          omega
        · intro e he
          rcases List.mem_cons.mp he with rfl | he
          · exact fun _ => rfl
          · exact g5 e he
      · obtain ⟨q', g1, g2, g3, g4, g5⟩ := play_others e2 h2
        rw [if_neg hv, Nat.add_zero] at e4 e5
        refine ⟨q', ?_, g2, ?_, g4.trans e5, ?_⟩
        · have : others (a :: as) ((verdict C a.keys r a.packet, evs) :: log2) = a :: others as log2 := by
            simp [others, isRefused, hv]
          rw [this, play, e1]
          simp only [g1, e3]
          simp [isRefused, hv]
        · rw [g3, e4]
          simp [isRefused, hv]
        · intro e he
          rcases List.mem_cons.mp he with rfl | he
          · intro h; simp [isRefused, hv] at h
          · exact g5 e he
    · rename_i r1 evs h1
      simp only [Outcome.ok.injEq, Prod.mk.injEq] at h
      obtain ⟨rfl, rfl⟩ := h
      obtain ⟨q1, e1, e2, e3, e4, e5, e6⟩ := step_count hs h1
      have hv : verdict C a.keys r a.packet ≠ .duplicate := fun hv => by simpa using (e6 hv).2.1
      rw [if_neg hv, Nat.add_zero] at e4 e5
      refine ⟨q1, ?_, e2, ?_, e5, ?_⟩
      · have : others (a :: as) [(verdict C a.keys r a.packet, evs)] = [a] := by
          simp [others, isRefused, hv]
        rw [this, play, e1]
        simp [isRefused, hv, e3]
      · rw [e4]; simp [isRefused, hv]
      · intro e he
        obtain rfl := List.mem_singleton.mp he
        intro h; simp [isRefused, hv] at h

/-- C182: whatever packets arrive, under whatever keys, the refused ones have no effects; without them all other packets have the
same verdicts and effects, and the session comes to the same state; only `GetUnexpectedPacketIDCount` tells how many there were. -/
theorem C182_no_trace (C : Packet.Crypto) (cfg : Cfg) {as : List Arrival} {r r' : Reader} {log : List (Verdict × List Event)}
    (h : play C cfg r as = .ok (r', log)) :
    (∀ e ∈ log, isRefused e = true → e.2 = []) ∧
    ∃ q', play C cfg r (others as log) = .ok (q', log.filter fun e => !isRefused e) ∧ SameButCount r' q' ∧
      q'.ids.unexpected = r.ids.unexpected ∧ r'.ids.unexpected = r.ids.unexpected + log.countP isRefused := by
  obtain ⟨q', g1, g2, g3, g4, g5⟩ := play_others ⟨rfl, rfl, rfl⟩ h
  exact ⟨g5, q', g1, g2, g4, g3⟩

/-- C182: in a new session `GetUnexpectedPacketIDCount` is the number of packets refused for their IDs; packets that cannot be
decrypted are not among them. -/
theorem C182_count (C : Packet.Crypto) (cfg : Cfg) (size : Int) {as : List Arrival} {r : Reader} {log : List (Verdict × List Event)}
    (h : play C cfg (Reader.init cfg size) as = .ok (r, log)) : r.ids.unexpected = log.countP isRefused := by
  obtain ⟨-, -, -, -, -, h1⟩ := C182_no_trace C cfg h
  simpa [Reader.init] using h1

/-- The next packet with the ID `id` is refused. -/
def Knows (id : W64) (r : Reader) : Prop :=
  r.ids.step id = some ({ r.ids with unexpected := r.ids.unexpected + 1 }, false)

theorem knows_after {C : Packet.Crypto} {cfg : Cfg} {env : Env} {keys : Keys} {p : Bytes} {r r' : Reader} {evs : List Event} {c : Bool}
    {hdr : ContainerHdr} {msgs : Bytes} (h1 : r.ids.stor.isSome)
    (ha : Packet.decrypt C keys.aux keys.cipher keys.remote p = .ok (hdr, msgs))
    (hs : readerStep C cfg env keys r p = .ok (r', evs, c)) : Knows (packetIDValue hdr.packetID) r' := by
  unfold readerStep at hs
  rw [ha] at hs
  simp only at hs
  split at hs
  · simp at hs
  · rename_i hi
    simp only [Outcome.ok.injEq, Prod.mk.injEq] at hs
    obtain ⟨rfl, -, -⟩ := hs
    exact (step_stor hi h1).2
  · rename_i hi
    split at hs <;> simp only [Outcome.ok.injEq, Prod.mk.injEq, reduceCtorEq] at hs
    obtain ⟨rfl, -, -⟩ := hs
    exact (step_stor hi h1).2

theorem knows_count {id : W64} {r : Reader} (h : Knows id r) :
    Knows id { r with ids := { r.ids with unexpected := r.ids.unexpected + 1 } } := by
  unfold Knows at h ⊢
  obtain ⟨d', e1, e2, e3, e4⟩ := check_count (c := r.ids) (d := { r.ids with unexpected := r.ids.unexpected + 1 }) rfl h
  simp only at e1 e2 e4 ⊢
  rw [e1]
  have : d' = { stor := r.ids.stor, unexpected := r.ids.unexpected + 1 + 1 } := by
    cases d'
    simp_all
  rw [this]

/-- C182: a backend that repeats packets (without changing their order) does no harm, for every size of the storage: after any
packets, a packet with the ID of the packet right before it is refused, whatever the keys are by then.  This is what remains of
C01 with the default size. -/
theorem C182_twice (C : Packet.Crypto) (cfg : Cfg) {size : Int} (h0 : 0 ≤ size) {as : List Arrival} {r r' : Reader}
    {log : List (Verdict × List Event)} (h : play C cfg (Reader.init cfg size) as = .ok (r, log)) (a b : Arrival)
    {evs : List Event} {c : Bool} {hdr hdr' : ContainerHdr} {msgs msgs' : Bytes}
    (ha : Packet.decrypt C a.keys.aux a.keys.cipher a.keys.remote a.packet = .ok (hdr, msgs))
    (hs : readerStep C cfg a.env a.keys r a.packet = .ok (r', evs, c))
    (hb : Packet.decrypt C b.keys.aux b.keys.cipher b.keys.remote b.packet = .ok (hdr', msgs'))
    (hid : packetIDValue hdr'.packetID = packetIDValue hdr.packetID) :
    readerStep C cfg b.env b.keys r' b.packet =
      .ok ({ r' with ids := { r'.ids with unexpected := r'.ids.unexpected + 1 } }, [], true) := by
  have h2 := knows_after (play_stor h (init_stor h0)) ha hs
  unfold Knows at h2
  simp [readerStep, hb, hid, h2]

/-- Copies of the packet right before are skipped. -/
theorem play_copies {C : Packet.Crypto} {cfg : Cfg} {a : Arrival} {hdr : ContainerHdr} {msgs : Bytes}
    (ha : Packet.decrypt C a.keys.aux a.keys.cipher a.keys.remote a.packet = .ok (hdr, msgs)) (bs : List Arrival) :
    ∀ (copies : List Arrival) {r : Reader}, (∀ b ∈ copies, SameID C a b) → Knows (packetIDValue hdr.packetID) r →
      ∃ q, SameButCount r q ∧ ∀ {q' log}, play C cfg q bs = .ok (q', log) →
        play C cfg r (copies ++ bs) = .ok (q', List.replicate copies.length (.duplicate, []) ++ log)
  | [], r, _, _ => ⟨r, ⟨rfl, rfl, rfl⟩, fun h => by simpa using h⟩
  | b :: copies, r, hb, hk => by
    obtain ⟨q, h1, h2⟩ := play_copies ha bs copies (fun x hx => hb x (by simp [hx])) (knows_count hk)
    refine ⟨q, h1, fun h => ?_⟩
    obtain ⟨hdr0, msgs0, hdr', msgs', g1, g2, g3⟩ := hb b (by simp)
    have e : hdr0 = hdr := by rw [ha] at g1; simp at g1; exact g1.1.symm
    subst e
    unfold Knows at hk
    have hs : readerStep C cfg b.env b.keys r b.packet =
        .ok ({ r with ids := { r.ids with unexpected := r.ids.unexpected + 1 } }, [], true) := by
      simp [readerStep, g2, g3, hk]
    have hv : verdict C b.keys r b.packet = .duplicate := by simp [verdict, g2, g3, hk]
    have := h2 h
    rw [List.cons_append, play, hs]
    simp only [this, hv, List.length_cons, List.replicate_succ, List.cons_append]

theorem play_repeats {C : Packet.Crypto} {cfg : Cfg} {as bs : List Arrival} (h : Repeats C as bs) :
    ∀ {r q r' : Reader} {log : List (Verdict × List Event)}, SameButCount r q → r.ids.stor.isSome →
      play C cfg r as = .ok (r', log) →
      ∃ q' log', play C cfg q bs = .ok (q', log') ∧ SameButCount r' q' ∧
        (log'.filter fun e => !isRefused e) = log.filter fun e => !isRefused e := by
  induction h with
  | nil =>
    intro r q r' log hs _ h
    simp only [play, Outcome.ok.injEq, Prod.mk.injEq] at h
    obtain ⟨rfl, rfl⟩ := h
    exact ⟨q, [], rfl, hs, rfl⟩
  | @cons a as bs copies hc _ ih =>
    intro r q r' log hs hi h
    unfold play at h
    split at h <;> try (simp at h; done)
    · rename_i r1 evs h1
      split at h <;> simp only [Outcome.ok.injEq, Prod.mk.injEq, reduceCtorEq] at h
      rename_i r2 log2 h2
      obtain ⟨rfl, rfl⟩ := h
      obtain ⟨q1, e1, e2, e3, -, -, -⟩ := step_count hs h1
      have hi1 := reader_stor h1 hi
      cases copies with
      | nil =>
        obtain ⟨q', log', g1, g2, g3⟩ := ih e2 hi1 h2
        refine ⟨q', (verdict C a.keys r a.packet, evs) :: log', ?_, g2, ?_⟩
        · simp only [List.nil_append]
          rw [play, e1]
          simp only [g1, e3]
        · simp only [List.filter_cons, g3]
      | cons b copies =>
        obtain ⟨hdr, msgs, -, -, ha, -, -⟩ := hc b (by simp)
        have hq : q.ids.stor.isSome := by rw [← hs.2.2]; exact hi
        obtain ⟨q2, f1, f2⟩ := play_copies (cfg := cfg) ha bs (b :: copies) hc (knows_after hq ha e1)
        have hs2 : SameButCount r1 q2 := ⟨e2.1.trans f1.1, e2.2.1.trans f1.2.1, e2.2.2.trans f1.2.2⟩
        obtain ⟨q', log', g1, g2, g3⟩ := ih hs2 hi1 h2
        refine ⟨q', (verdict C a.keys r a.packet, evs) :: (List.replicate (b :: copies).length (.duplicate, []) ++ log'), ?_, g2, ?_⟩
        · have := f2 g1
          rw [play, e1]
          simp only [this, e3]
        · have hr : (List.replicate (b :: copies).length ((Verdict.duplicate, []) : Verdict × List Event)).filter (fun e => !isRefused e) = [] := by
            rw [List.filter_replicate]; simp [isRefused]
          simp only [List.filter_cons, List.filter_append, hr, List.nil_append, g3]
    · rename_i r1 evs h1
      simp only [Outcome.ok.injEq, Prod.mk.injEq] at h
      obtain ⟨rfl, rfl⟩ := h
      obtain ⟨q1, e1, e2, e3, -, -, -⟩ := step_count hs h1
      refine ⟨q1, [(verdict C a.keys r a.packet, evs)], ?_, e2, rfl⟩
      rw [play, e1]
      simp only [e3]

/-- C182: a backend that repeats packets, each any number of times, but does not change their order, makes no difference, for every
non-negative `PacketIDStorageSize`: the same effects, in the same order, and the same state, but for the counter. -/
theorem C182_repeats (C : Packet.Crypto) (cfg : Cfg) {size : Int} (h0 : 0 ≤ size) {as bs : List Arrival} (hr : Repeats C as bs)
    {r : Reader} {log : List (Verdict × List Event)} (h : play C cfg (Reader.init cfg size) as = .ok (r, log)) :
    ∃ r' log', play C cfg (Reader.init cfg size) bs = .ok (r', log') ∧ SameButCount r r' ∧
      (log'.filter fun e => !isRefused e) = log.filter fun e => !isRefused e :=
  play_repeats hr ⟨rfl, rfl, rfl⟩ (init_stor h0) h

/-- The arrivals of the example: a plain text packet, garbage, the packet again, and once more. -/
def arrival (p : Bytes) : Arrival := ⟨env0 false, noKeys, p⟩

def cfgNever : Cfg := { cfg0 with detachOnFails := 10 }

def logOf : Outcome Unit (Reader × List (Verdict × List Event)) → Option (List (Verdict × List Event) × Nat × Nat)
  | .ok (r, log) => some (log, r.ids.unexpected, r.fails)
  | _ => none

example : logOf (play Packet.toy cfgNever (Reader.init cfgNever 0) [arrival pkt5, arrival [1], arrival pkt5, arrival [2], arrival pkt5]) =
    some ([(.good, [.queued 0xFFFFFFFC [65]]), (.bad, []), (.duplicate, []), (.bad, []), (.duplicate, [])], 2, 2) := by
  decide +kernel

example : logOf (play Packet.toy cfgNever (Reader.init cfgNever 0) [arrival pkt5, arrival [1], arrival [2]]) =
    some ([(.good, [.queued 0xFFFFFFFC [65]]), (.bad, []), (.bad, [])], 0, 2) := by
  decide +kernel

example : Repeats Packet.toy [arrival pkt5, arrival [1]] [arrival pkt5, arrival pkt5, arrival pkt5, arrival [1]] := by
  have hd : Packet.decrypt Packet.toy noKeys.aux noKeys.cipher noKeys.remote pkt5 =
      .ok (Packet.containerSet Packet.toy none (packetIDBytes 5) [0xFC, 0xFF, 0xFF, 0xFF, 1, 0, 0, 0, 0, 65],
        [0xFC, 0xFF, 0xFF, 0xFF, 1, 0, 0, 0, 0, 65]) := by decide +kernel
  refine .cons _ [arrival pkt5, arrival pkt5] ?_ (.cons _ [] (by simp) .nil)
  intro b hb
  simp only [List.mem_cons, List.not_mem_nil, or_false, or_self] at hb
  subst hb
  exact ⟨_, _, _, _, hd, hd, rfl⟩

/-- Without a storage (a negative size) nothing is refused: the second copy is delivered too. -/
example : logOf (play Packet.toy cfgNever (Reader.init cfgNever (-1)) [arrival pkt5, arrival pkt5]) =
    some ([(.good, [.queued 0xFFFFFFFC [65]]), (.good, [.queued 0xFFFFFFFC [65]])], 0, 0) := by
  decide +kernel

#print axioms C182_no_trace
#print axioms C182_count
#print axioms C182_twice
#print axioms C182_repeats

end Verif.Receive
