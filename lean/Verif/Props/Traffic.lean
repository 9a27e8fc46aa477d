import Verif.Lemmas.Traffic
/-!
# Property theorems C85–C87: delivery between two sides that both send and receive
-/
namespace Verif.Traffic
open Verif.Headers Verif.Receive Verif.Packet Verif.PacketID Verif.Spec

/-! ## A concrete pair of sides -/

def exKey : Bytes := List.replicate 32 7

/-- Default options of a session without a PSK; `type 7` has a reader. -/
def exCfg (ids : Int) : Cfg :=
  { aux := none, sessionID := ⟨1, 2⟩, limit := 1000, rc := ⟨0, 1000, 1000, some 3, 5⟩
    env := ⟨fun _ => false, fun t => t == 7, fun _ => false⟩, ids := ids }

def exKeys : Keys := ⟨none, [some exKey], some ⟨1, 2⟩⟩

def exMsg (n : Byte) : Msg := ⟨7, 1, [n]⟩

/-- The packets a side has sent, as the network has them. -/
def pkts (x : Outcome Unit Side) : List Bytes :=
  match x with
  | .ok s => s.out.map (·.pkt)
  | _ => []

def gots (x : Outcome Unit Side) : Option (List Event) :=
  match x with
  | .ok s => some s.got
  | _ => none

/-! ## C85: at most once -/

/-- C85, partial: whatever the network does with the packets, each message is delivered to a side at most as often
as the other side has sent it.  Missing: window sizes above 64 (the default is 256) when the packet IDs of the
other side jump by more than 64 (`C85_violated`); fragments; `DetachOnMessagesCount`. -/
theorem C85_once_partial (C : Crypto) (cfgA cfgB : Cfg) (hd : cfgA.rc.detachOnMessages = 0) (hlim : cfgB.limit < 2 ^ 32)
    (n : Net) (h : Reach C cfgA cfgB n) (hw : Whole n.b)
    (hids : (1 ≤ cfgA.ids ∧ cfgA.ids ≤ 64) ∨ (0 ≤ cfgA.ids ∧ cfgA.ids < 2 ^ 63 ∧ SmallJumps n.a.hist)) :
    Once cfgA.env n := by
  obtain ⟨c, rs, del, h1, h2, h3, h4, h5⟩ := reach_inv hd hlim h hw
  have hnd := noReplay_of cfgA.ids n.a.hist hids c rs h1
  rw [← h4] at hnd
  have hnd := nodup_of_map _ _ hnd
  intro e he
  have : n.a.got.count e = (n.a.got.filter isDelivery).count e := (List.count_filter he).symm
  rw [this, h5, List.map_flatMap, List.map_flatMap]
  exact count_flatMap_le _ e del n.b.out hnd h3

/-- The second side sends `m`, receives the packets `ps`, and sends `m2`. -/
theorem two_sends {C : Crypto} {cfgB : Cfg} (hlim : cfgB.limit < 2 ^ 32) (ha : KeyOK cfgB.aux) {k : Bytes}
    (hk : k.length = 32) {m m2 : Msg} (hm : (stream [m]).length ≤ cfgB.limit) (hm2 : (stream [m2]).length ≤ cfgB.limit)
    {keysB : Keys} {ps : List Bytes} (hp : ∀ p ∈ ps, 44 ≤ p.length) {b : Side}
    (h : run C cfgB (Side.init cfgB) (sendNow [m] (some k) ++ recvs keysB ps) = .ok b) :
    ∃ b' p1 p2, run C cfgB (Side.init cfgB) (sendNow [m] (some k) ++ recvs keysB ps ++ sendNow [m2] (some k)) = .ok b' ∧
      b'.out = [⟨1, [m], p1⟩, ⟨BitVec.ofNat 64 (ps.length + 2), [m2], p2⟩] ∧
      SealedWith C cfgB k ⟨1, [m], p1⟩ ∧ SealedWith C cfgB k ⟨BitVec.ofNat 64 (ps.length + 2), [m2], p2⟩ := by
  obtain ⟨p1, r1, s1⟩ := sendNow_ok (C := C) ha hk (s := Side.init cfgB) rfl hm
  have h' := h
  rw [run_append, r1] at h'
  obtain ⟨c1, c2, c3⟩ := recvs_count hp h'
  obtain ⟨p2, r2, s2⟩ := sendNow_ok (C := C) ha hk (s := b) c3 hm2
  have hn : nextID b.count = BitVec.ofNat 64 (ps.length + 2) := by
    rw [nextID, c1]
    have : (Side.init cfgB).count + 1 + ps.length + 1 = ps.length + 2 := by show 0 + 1 + ps.length + 1 = _; omega
    rw [← this]
  refine ⟨_, p1, p2, run_append_ok h r2, ?_, s1, hn ▸ s2⟩
  show b.out ++ [_] = _
  rw [c2, hn]; rfl

/-- C85 is false, with the default window or any window above 64, for every cryptography and key: the second side
sends a message `m`, then receives 64 or more packets of any kind (ordinary traffic of the first side, or copies of
a single old packet, or garbage), and sends one more message.  Whoever kept the packet of `m` can have it delivered
again: the packet IDs taken by the received packets make the ID jump, and the jump empties the table of IDs. -/
theorem C85_violated (C : Crypto) (cfgA cfgB : Cfg) (hd : cfgA.rc.detachOnMessages = 0) (hlim : cfgB.limit < 2 ^ 32)
    (ha : KeyOK cfgB.aux) (k : Bytes) (hk : k.length = 32) (hids : 0 ≤ cfgA.ids) (hids' : cfgA.ids < 2 ^ 63)
    (m m2 : Msg) (hm : (stream [m]).length ≤ cfgB.limit) (hm2 : (stream [m2]).length ≤ cfgB.limit)
    (hf : m.Fits ∧ m.Whole) (hf2 : m2.Fits ∧ m2.Whole)
    (keysB : Keys) (ps : List Bytes) (hp : ∀ p ∈ ps, 44 ≤ p.length) (hlen : 64 ≤ ps.length)
    (hlen' : ps.length + 1 < windowOf cfgA.ids) (b : Side)
    (h : run C cfgB (Side.init cfgB) (sendNow [m] (some k) ++ recvs keysB ps) = .ok b) :
    ∃ n, Reach C cfgA cfgB n ∧ Whole n.b ∧ ¬ Once cfgA.env n := by
  obtain ⟨b', p1, p2, r1, ho, s1, s2⟩ := two_sends hlim ha hk hm hm2 hp h
  have hw64 := windowOf_lt cfgA.ids hids'
  have hr : Filter.run (windowOf cfgA.ids) { latest := 0, seen := [] }
      (([1, BitVec.ofNat 64 (ps.length + 2), 1] : List W64).map (·.toNat)) = [true, true, true] := by
    have e : (BitVec.ofNat 64 (ps.length + 2)).toNat = ps.length + 2 := by
      rw [BitVec.toNat_ofNat, Nat.mod_eq_of_lt (by omega)]
    have e1 : (1 : W64).toNat = 1 := rfl
    have g1 : ps.length + 2 > 1 := by omega
    have g2 : ps.length + 2 - 1 > 64 := by omega
    have g3 : ¬ (1 > ps.length + 2) := by omega
    have g4 : ¬ (1 = ps.length + 2) := by omega
    have g5 : ¬ (ps.length + 2 - 1 ≥ windowOf cfgA.ids) := by omega
    have g6 : (1 : Nat) ∉ [ps.length + 2] := by simp
    simp only [List.map_cons, List.map_nil, e, e1, Filter.run, Filter.step, g1, g2, g3, g4, g5, g6, if_true, if_false,
      Nat.zero_lt_one]
  obtain ⟨c, hc⟩ := checks_receive (by rw [receive_eq cfgA.ids hids hids', hr])
  let x1 : Sent := ⟨1, [m], p1⟩
  let x2 : Sent := ⟨BitVec.ofNat 64 (ps.length + 2), [m2], p2⟩
  have hall : ∀ x ∈ [x1, x2, x1], SealedWith C cfgB k x ∧ ∀ m' ∈ x.batch, m'.Fits ∧ m'.Whole := by
    intro x hx
    simp only [List.mem_cons, List.not_mem_nil, or_false] at hx
    rcases hx with rfl | rfl | rfl
    · exact ⟨s1, by simpa [x1] using hf⟩
    · exact ⟨s2, by simpa [x2] using hf2⟩
    · exact ⟨s1, by simpa [x1] using hf⟩
  obtain ⟨a, ra, -, hg, -⟩ := recvs_sealed (cfgA := cfgA) hd ha hk hlim [] hall (s := Side.init cfgA) rfl hc
  have hreach := reach_b (cfgA := cfgA) .init r1
  refine ⟨_, reach_a hreach ?_ ra, ?_, ?_⟩
  · intro p hp
    obtain ⟨x, hx, rfl⟩ := List.mem_map.mp hp
    refine genuine_sealed ha hk hlim (hall x hx).1 [] ?_
    show x ∈ b'.out
    rw [ho]
    simp only [List.mem_cons, List.not_mem_nil, or_false] at hx ⊢
    rcases hx with rfl | rfl | rfl <;> simp [x1, x2]
  · intro x hx
    rw [show ({ Net.init cfgA cfgB with b := b' } : Net).b.out = b'.out from rfl, ho] at hx
    simp only [List.mem_cons, List.not_mem_nil, or_false] at hx
    rcases hx with rfl | rfl
    · simpa using hf
    · simpa using hf2
  · intro hon
    have := hon (dest cfgA.env m) (dest_delivery _ _)
    rw [show ({ ({ Net.init cfgA cfgB with b := b' } : Net) with a := a } : Net).a.got = a.got from rfl,
      show ({ ({ Net.init cfgA cfgB with b := b' } : Net) with a := a } : Net).b.out = b'.out from rfl, ho, hg] at this
    simp [keep, x1, x2, Side.init, List.count_cons] at this
    omega

/-- C85 is false with default options: 65 copies of one old packet of Alice make Bob's packet IDs jump. -/
theorem C85_violated_witness :
    let alice := run toy (exCfg 0) (Side.init (exCfg 0)) (sendNow [exMsg 1] (some exKey))
    let bob := run toy (exCfg 0) (Side.init (exCfg 0)) (sendNow [exMsg 2] (some exKey) ++
      recvs exKeys (List.replicate 65 ((pkts alice)[0]!)) ++ sendNow [exMsg 3] (some exKey))
    gots bob = some [.queued 7 [1]] ∧ (pkts bob).length = 2 ∧
    gots (run toy (exCfg 0) (Side.init (exCfg 0)) (recvs exKeys [(pkts bob)[0]!, (pkts bob)[0]!, (pkts bob)[1]!,
      (pkts bob)[0]!])) = some [.queued 7 [2], .queued 7 [3], .queued 7 [2]] := by
  decide +kernel

/-- The hypotheses of `C85_once_partial` are met by a run with a repeated packet. -/
example : ∃ n, Reach toy (exCfg 64) (exCfg 64) n ∧ Whole n.b ∧ n.b.out.length = 1 ∧ n.a.hist = [1, 1] ∧
    n.a.got = [.queued 7 [2]] ∧ (1 ≤ (exCfg 64).ids ∧ (exCfg 64).ids ≤ 64) := by
  obtain ⟨p, r, hs⟩ := sendNow_ok (C := toy) (cfg := exCfg 64) (by simp [KeyOK, exCfg]) (k := exKey) (by decide)
    (s := Side.init (exCfg 64)) rfl (batch := [exMsg 2]) (by decide)
  have hb := reach_b (cfgA := exCfg 64) .init r
  have hf : (exMsg 2).Fits ∧ (exMsg 2).Whole := ⟨by unfold Msg.Fits; decide, by unfold Msg.Whole; decide⟩
  have hall : ∀ x ∈ [(⟨1, [exMsg 2], p⟩ : Sent), ⟨1, [exMsg 2], p⟩],
      SealedWith toy (exCfg 64) exKey x ∧ ∀ m' ∈ x.batch, m'.Fits ∧ m'.Whole := by
    intro x hx
    simp only [List.mem_cons, List.not_mem_nil, or_false, or_self] at hx
    subst hx
    exact ⟨hs, by simpa using hf⟩
  obtain ⟨a, ra, -, hg, -⟩ := recvs_sealed (cfgA := exCfg 64) rfl (by simp [KeyOK, exCfg]) (by decide) (by decide) [] hall
    (s := Side.init (exCfg 64)) rfl (c := _) (rs := [true, false]) (by rfl)
  have hgen : ∀ q ∈ [p, p], Genuine toy [⟨1, [exMsg 2], p⟩] exKeys q := by
    intro q hq
    simp only [List.mem_cons, List.not_mem_nil, or_false, or_self] at hq
    subst hq
    exact genuine_sealed (cfg := exCfg 64) (by simp [KeyOK, exCfg]) (k := exKey) (by decide) (by decide) (x := ⟨1, [exMsg 2], q⟩)
      hs [] (by simp)
  refine ⟨_, reach_a hb hgen ra, ?_, rfl, ?_, by rw [hg]; rfl, by decide⟩
  · intro x hx
    have hx : x ∈ [(⟨1, [exMsg 2], p⟩ : Sent)] := hx
    simp only [List.mem_cons, List.not_mem_nil, or_false] at hx
    subst hx
    simpa using hf
  · have : run toy (exCfg 64) (Side.init (exCfg 64)) (recvs exKeys [p, p]) = .ok a := ra
    obtain ⟨hd, d1, d2, -⟩ := decrypt_sealed (cfg := exCfg 64) (by simp [KeyOK, exCfg]) (k := exKey) (by decide) (by decide)
      (x := ⟨1, [exMsg 2], p⟩) hs []
    have e : checkedID toy exKeys p = [1] := by
      unfold checkedID exKeys
      have d1 : decrypt toy none [some exKey] (some ⟨1, 2⟩) p = .ok (hd, stream [exMsg 2]) := d1
      rw [d1]; simpa using d2
    simp only [recvs, List.map_cons, List.map_nil, run, step] at this
    split at this <;> try (cases this; done)
    rename_i s1 h1
    split at h1 <;> try (cases h1; done)
    split at h1 <;> cases h1
    split at this <;> try (cases this; done)
    rename_i s2 h2
    split at h2 <;> try (cases h2; done)
    split at h2 <;> cases h2
    cases this
    simp [e, Side.init]

/-! ## C86: reordering -/

/-- C86, partial: a packet of the other side whose ID was not received before and lags behind the highest received ID
by less than the window is delivered.  Missing: the lag counts packet IDs, and the other side also takes IDs for the
packets it receives (`C86_violated`). -/
theorem C86_window_partial (C : Crypto) (cfgA cfgB : Cfg) (hd : cfgA.rc.detachOnMessages = 0) (hlim : cfgB.limit < 2 ^ 32)
    (ha : KeyOK cfgB.aux) (k : Bytes) (hk : k.length = 32) (hids : 0 ≤ cfgA.ids) (hids' : cfgA.ids < 2 ^ 63)
    (n : Net) (h : Reach C cfgA cfgB n) (hw : Whole n.b) (hrun : n.a.running = true)
    (x : Sent) (hx : x ∈ n.b.out) (hs : SealedWith C cfgB k x) (hz : x.id ≠ 0) (hnew : x.id ∉ n.a.hist)
    (hwin : highest n.a.hist < x.id.toNat ∨ highest n.a.hist < x.id.toNat + windowOf cfgA.ids)
    (rest : List (Option Bytes)) :
    ∃ a', step C cfgA n.a (.recv ⟨cfgB.aux, some k :: rest, some cfgB.sessionID⟩ x.pkt) = .ok a' ∧
      a'.got = n.a.got ++ x.batch.map (dest cfgA.env) ∧ a'.running = true := by
  obtain ⟨c, rs, del, h1, h2, -⟩ := reach_inv hd hlim h hw
  obtain ⟨rs', m, e1, e2⟩ := C03_fresh_accepted cfgA.ids hids hids' n.a.hist x.id hz hnew hwin
  obtain ⟨c', e3⟩ := checks_receive e1
  rw [checks_append, h1] at e3
  simp only [Option.bind_some, Option.map_eq_some_iff] at e3
  obtain ⟨⟨c2, r2⟩, e4, e5⟩ := e3
  simp only [Prod.mk.injEq] at e5
  have hr2 : r2 = [true] := by
    have := congrArg List.length e5.2
    have l1 := checks_length _ _ _ _ h1
    have l2 := checks_length _ _ _ _ e4
    have := List.append_inj e5.2 (by rw [l1, e2])
    exact this.2
  subst hr2
  obtain ⟨a', g1, g2, g3, -⟩ := recvs_sealed (cfgA := cfgA) hd ha hk hlim rest (xs := [x])
    (by intro y hy; simp at hy; subst hy; exact ⟨hs, hw y hx⟩) hrun (by rw [h2]; exact e4)
  refine ⟨a', ?_, by simpa [keep] using g3, g2⟩
  simp only [recvs, List.map_cons, List.map_nil, run] at g1
  split at g1 <;> cases g1
  assumption

/-- The hypotheses of `C86_window_partial` are met. -/
example : ∃ n x, Reach toy (exCfg 64) (exCfg 64) n ∧ x ∈ n.b.out ∧ SealedWith toy (exCfg 64) exKey x ∧ x.id ≠ 0 ∧
    x.id ∉ n.a.hist ∧ n.a.running = true ∧ highest n.a.hist < x.id.toNat := by
  obtain ⟨p, r, hs⟩ := sendNow_ok (C := toy) (cfg := exCfg 64) (by simp [KeyOK, exCfg]) (k := exKey) (by decide)
    (s := Side.init (exCfg 64)) rfl (batch := [exMsg 2]) (by decide)
  exact ⟨_, ⟨1, [exMsg 2], p⟩, reach_b (cfgA := exCfg 64) .init r, by simp [Side.init, nextID], hs, by show (1 : W64) ≠ 0; decide,
    by simp [Net.init, Side.init], rfl, by simp [Net.init, Side.init, highest]⟩

/-- C86 is false for every window: the second side sends `m`, receives about as many packets as the window is wide, and
sends `m2`.  The packet of `m`, overtaken by just this one packet, is dropped as too old. -/
theorem C86_violated (C : Crypto) (cfgA cfgB : Cfg) (hd : cfgA.rc.detachOnMessages = 0) (hlim : cfgB.limit < 2 ^ 32)
    (ha : KeyOK cfgB.aux) (k : Bytes) (hk : k.length = 32) (hids : 0 ≤ cfgA.ids) (hids' : cfgA.ids < 2 ^ 63)
    (m m2 : Msg) (hm : (stream [m]).length ≤ cfgB.limit) (hm2 : (stream [m2]).length ≤ cfgB.limit)
    (hf : m.Fits ∧ m.Whole) (hf2 : m2.Fits ∧ m2.Whole)
    (keysB : Keys) (ps : List Bytes) (hp : ∀ p ∈ ps, 44 ≤ p.length) (hlen : windowOf cfgA.ids ≤ ps.length + 1)
    (hlen' : ps.length + 2 < 2 ^ 64) (b : Side)
    (h : run C cfgB (Side.init cfgB) (sendNow [m] (some k) ++ recvs keysB ps) = .ok b) :
    ∃ b' x1 x2 a, run C cfgB (Side.init cfgB) (sendNow [m] (some k) ++ recvs keysB ps ++ sendNow [m2] (some k)) = .ok b' ∧
      b'.out = [x1, x2] ∧ x1.batch = [m] ∧ x2.batch = [m2] ∧
      run C cfgA (Side.init cfgA) (recvs ⟨cfgB.aux, [some k], some cfgB.sessionID⟩ [x2.pkt, x1.pkt]) = .ok a ∧
      a.got = [dest cfgA.env m2] := by
  obtain ⟨b', p1, p2, r1, ho, s1, s2⟩ := two_sends hlim ha hk hm hm2 hp h
  have hr : Filter.run (windowOf cfgA.ids) { latest := 0, seen := [] }
      (([BitVec.ofNat 64 (ps.length + 2), 1] : List W64).map (·.toNat)) = [true, false] := by
    have e : (BitVec.ofNat 64 (ps.length + 2)).toNat = ps.length + 2 := by
      rw [BitVec.toNat_ofNat, Nat.mod_eq_of_lt (by omega)]
    have e1 : (1 : W64).toNat = 1 := rfl
    have g1 : ps.length + 2 > 0 := by omega
    have g3 : ¬ (1 > ps.length + 2) := by omega
    have g4 : ¬ (1 = ps.length + 2) := by omega
    have g5 : ps.length + 2 - 1 ≥ windowOf cfgA.ids := by omega
    simp only [List.map_cons, List.map_nil, e, e1, Filter.run, Filter.step, g1, g3, g4, g5, if_true, if_false]
  obtain ⟨c, hc⟩ := checks_receive (by rw [receive_eq cfgA.ids hids hids', hr])
  obtain ⟨a, ra, -, hg, -⟩ := recvs_sealed (cfgA := cfgA) hd ha hk hlim []
    (xs := [⟨BitVec.ofNat 64 (ps.length + 2), [m2], p2⟩, ⟨1, [m], p1⟩]) (by
      intro x hx
      simp only [List.mem_cons, List.not_mem_nil, or_false] at hx
      rcases hx with rfl | rfl
      · exact ⟨s2, by simpa using hf2⟩
      · exact ⟨s1, by simpa using hf⟩) (s := Side.init cfgA) rfl hc
  exact ⟨b', _, _, a, r1, ho, rfl, rfl, ra, by rw [hg]; simp [keep, Side.init]⟩

/-- C86 is false with default options: the network delays Bob's packet 0 until after Bob's packet 1 has arrived; in
between Bob received 255 copies of a packet of Alice. -/
theorem C86_violated_witness :
    let alice := run toy (exCfg 0) (Side.init (exCfg 0)) (sendNow [exMsg 1] (some exKey))
    let bob := run toy (exCfg 0) (Side.init (exCfg 0)) (sendNow [exMsg 2] (some exKey) ++
      recvs exKeys (List.replicate 255 ((pkts alice)[0]!)) ++ sendNow [exMsg 3] (some exKey))
    gots bob = some [.queued 7 [1]] ∧ (pkts bob).length = 2 ∧
    gots (run toy (exCfg 0) (Side.init (exCfg 0)) (recvs exKeys [(pkts bob)[1]!, (pkts bob)[0]!])) =
      some [.queued 7 [3]] := by
  decide +kernel

/-! ## C87: ordered lossless backends -/

/-- Everything a serial side writes is sealed with its key, with increasing packet IDs. -/
theorem serial_out {C : Crypto} {cfg : Cfg} (ha : KeyOK cfg.aux) {k : Bytes} (hk : k.length = 32) (as : List Act) (s s' : Side)
    (hser : Serial as) (hu : Under k as) (hp : s.pending = []) (hs : ∀ x ∈ s.out, SealedWith C cfg k x)
    (hinc : (s.out.map (·.id.toNat)).Pairwise (· < ·)) (hle : ∀ x ∈ s.out, x.id.toNat ≤ s.count ∧ 0 < x.id.toNat)
    (h : run C cfg s as = .ok s') (hc : s'.count < 2 ^ 64) :
    s.count ≤ s'.count ∧ (∀ x ∈ s'.out, SealedWith C cfg k x) ∧ (s'.out.map (·.id.toNat)).Pairwise (· < ·) ∧
      (∀ x ∈ s'.out, x.id.toNat ≤ s'.count ∧ 0 < x.id.toNat) := by
  induction as using Serial.induct generalizing s with
  | case1 => cases h; exact ⟨Nat.le_refl _, hs, hinc, hle⟩
  | case2 batch key conf ok as ih =>
    obtain ⟨rfl, rfl⟩ := hu _ (by simp) batch key conf rfl
    have hu' : Under k as := fun a ha => hu a (by simp [ha])
    simp only [run, step] at h
    split at h <;> try (cases h; done)
    rename_i s1 h1
    split at h1 <;> try (cases h1; done)
    rename_i hl
    cases h1
    simp only [hp, List.nil_append, List.getElem?_cons_zero] at h
    obtain ⟨pkt, g1, -⟩ := seal_spec C cfg.aux (some k) cfg.sessionID true (nextID s.count) (stream batch) ha
      (fun b hb => by cases hb; exact hk) (by simp)
    cases ok with
    | false =>
      simp only [Bool.false_eq_true, if_false] at h
      obtain ⟨i1, i2⟩ := ih { s with count := s.count + 1, pending := [] } hser hu' rfl hs hinc
        (fun x hx => ⟨Nat.le_succ_of_le (hle x hx).1, (hle x hx).2⟩) h
      exact ⟨Nat.le_of_succ_le i1, i2⟩
    | true =>
      simp only [if_true, g1] at h
      have hcount : s.count + 1 ≤ s'.count → (nextID s.count).toNat = s.count + 1 := by
        intro hle'
        rw [nextID, BitVec.toNat_ofNat, Nat.mod_eq_of_lt (by omega)]
      have hmono : s.count + 1 ≤ s'.count := run_count_le _ _ h
      have hcount := hcount hmono
      obtain ⟨i1, i2⟩ := ih { s with count := s.count + 1, pending := [], out := s.out ++ [⟨nextID s.count, batch, pkt⟩] }
        hser hu' rfl (by
          intro x hx
          rcases List.mem_append.mp hx with hx | hx
          · exact hs x hx
          · simp at hx; subst hx; exact ⟨g1, hl⟩) (by
          simp only [List.map_append, List.map_cons, List.map_nil]
          rw [List.pairwise_append]
          refine ⟨hinc, by simp, ?_⟩
          intro i hi j hj
          obtain ⟨x, hx, rfl⟩ := List.mem_map.mp hi
          simp at hj; subst hj
          have := (hle x hx).1
          omega) (by
          intro x hx
          rcases List.mem_append.mp hx with hx | hx
          · exact ⟨Nat.le_succ_of_le (hle x hx).1, (hle x hx).2⟩
          · simp at hx; subst hx; simp only [hcount]; omega) h
      exact ⟨Nat.le_of_succ_le i1, i2⟩
  | case3 keys p as ih =>
    have hu' : Under k as := fun a ha => hu a (by simp [ha])
    simp only [run, step] at h
    split at h <;> try (cases h; done)
    rename_i s1 h1
    split at h1 <;> try (cases h1; done)
    split at h1 <;> cases h1
    rename_i rd evs go _
    obtain ⟨i1, i2⟩ := ih { s with count := s.count + takenBy p, rd := rd, running := go, got := s.got ++ evs
                                   hist := s.hist ++ checkedID C keys p } hser hu' hp hs hinc (fun x hx => ⟨Nat.le_trans (hle x hx).1 (Nat.le_add_right _ _), (hle x hx).2⟩) h
    exact ⟨Nat.le_trans (Nat.le_add_right _ _) i1, i2⟩
  | case4 => simp_all [Serial]

/-- IDs above everything seen are accepted. -/
theorem checks_increasing (r : Reader) (ids : List W64) (hinc : (ids.map (·.toNat)).Pairwise (· < ·))
    (hnew : ∀ i ∈ ids, EndToEnd.latest r < i.toNat) :
    ∃ c, checks r.ids ids = some (c, ids.map fun _ => true) := by
  induction ids generalizing r with
  | nil => exact ⟨r.ids, rfl⟩
  | cons i ids ih =>
    obtain ⟨c1, s1, s2⟩ := EndToEnd.step_newer r i (hnew i (by simp))
    rw [List.map_cons, List.pairwise_cons] at hinc
    obtain ⟨c, h⟩ := ih { rcv := r.rcv, ids := c1, fails := 0 } hinc.2
      (fun j hj => Nat.lt_of_le_of_lt (s2 _ _) (hinc.1 _ (List.mem_map.mpr ⟨j, hj, rfl⟩)))
    exact ⟨c, by simp only [checks, s1]; simp only at h; rw [h]; rfl⟩

theorem latest_new (cfg : Cfg) : EndToEnd.latest (Side.init cfg).rd = 0 := by
  unfold EndToEnd.latest Side.init Reader.init storOfOption newStor
  simp only
  split
  · rfl
  · rename_i s hs
    repeat' split at hs
    all_goals first | (cases hs; done) | (cases hs; rfl)

theorem keep_all (xs : List Sent) : keep xs ((xs.map (·.id)).map fun _ => true) = xs := by
  induction xs with
  | nil => rfl
  | cons x xs ih => simp only [List.map_cons, keep, ih]

/-- C87, partial: if `sendMessages` calls do not overlap and the backend delivers all packets in order, then every
message is delivered exactly once and in order, whatever the sender received in between and however many of its writes
failed, with every `PacketIDStorageSize`.  Missing: overlapping calls (`C87_violated`), fragments. -/
theorem C87_serial_partial (C : Crypto) (cfgA cfgB : Cfg) (hd : cfgA.rc.detachOnMessages = 0) (hlim : cfgB.limit < 2 ^ 32)
    (ha : KeyOK cfgB.aux) (k : Bytes) (hk : k.length = 32) (as : List Act) (hser : Serial as) (hu : Under k as)
    (b : Side) (h : run C cfgB (Side.init cfgB) as = .ok b) (hc : b.count < 2 ^ 64) (hw : Whole b)
    (rest : List (Option Bytes)) :
    ∃ a, run C cfgA (Side.init cfgA) (recvs ⟨cfgB.aux, some k :: rest, some cfgB.sessionID⟩ (b.out.map (·.pkt))) = .ok a ∧
      a.got = (b.out.flatMap (·.batch)).map (dest cfgA.env) := by
  obtain ⟨-, h1, h2, h3⟩ := serial_out ha hk as (Side.init cfgB) b hser hu rfl (by simp [Side.init]) (by simp [Side.init])
    (by simp [Side.init]) h hc
  obtain ⟨c, hch⟩ := checks_increasing (Side.init cfgA).rd (b.out.map (·.id)) (by simpa [Function.comp_def] using h2)
    (by
      intro i hi
      obtain ⟨x, hx, rfl⟩ := List.mem_map.mp hi
      rw [latest_new]; exact (h3 x hx).2)
  obtain ⟨a, ra, -, hg, -⟩ := recvs_sealed (cfgA := cfgA) hd ha hk hlim rest (xs := b.out) (fun x hx => ⟨h1 x hx, hw x hx⟩)
    (s := Side.init cfgA) rfl hch
  exact ⟨a, ra, by rw [hg, keep_all]; rfl⟩

/-- C87 is false for every window: one writer has taken its packet ID but is not yet at `backend.Write` when another
writer, after the side has received about as many packets as the window is wide (none if
`PacketIDStorageSize` is 1), sends its packet.  The first writer's packet, delivered next by the
backend, is dropped as too old. -/
theorem C87_violated (C : Crypto) (cfgA cfgB : Cfg) (hd : cfgA.rc.detachOnMessages = 0) (hlim : cfgB.limit < 2 ^ 32)
    (ha : KeyOK cfgB.aux) (k : Bytes) (hk : k.length = 32) (hids : 0 ≤ cfgA.ids) (hids' : cfgA.ids < 2 ^ 63)
    (m m2 : Msg) (hm : (stream [m]).length ≤ cfgB.limit) (hm2 : (stream [m2]).length ≤ cfgB.limit)
    (hf : m.Fits ∧ m.Whole) (hf2 : m2.Fits ∧ m2.Whole)
    (keysB : Keys) (ps : List Bytes) (hp : ∀ p ∈ ps, 44 ≤ p.length) (hlen : windowOf cfgA.ids ≤ ps.length + 1)
    (hlen' : ps.length + 2 < 2 ^ 64) (b : Side)
    (h : run C cfgB (Side.init cfgB) ([.begin [m] (some k) true] ++ recvs keysB ps) = .ok b) :
    ∃ b' a, run C cfgB b [.begin [m2] (some k) true, .finish 1 true, .finish 0 true] = .ok b' ∧
      b'.out.flatMap (·.batch) = [m2, m] ∧
      run C cfgA (Side.init cfgA) (recvs ⟨cfgB.aux, [some k], some cfgB.sessionID⟩ (b'.out.map (·.pkt))) = .ok a ∧
      a.got = [dest cfgA.env m2] := by
  have h' := h
  simp only [List.cons_append, List.nil_append, run, step, hm, if_true] at h'
  obtain ⟨c1, c2, c3⟩ := recvs_count hp h'
  obtain ⟨p1, s1, -⟩ := seal_spec C cfgB.aux (some k) cfgB.sessionID true 1 (stream [m]) ha
    (fun b hb => by cases hb; exact hk) (by simp)
  obtain ⟨p2, s2, -⟩ := seal_spec C cfgB.aux (some k) cfgB.sessionID true (BitVec.ofNat 64 (ps.length + 2)) (stream [m2]) ha
    (fun b hb => by cases hb; exact hk) (by simp)
  have hn : nextID b.count = BitVec.ofNat 64 (ps.length + 2) := by
    rw [nextID, c1]
    have : (Side.init cfgB).count + 1 + ps.length + 1 = ps.length + 2 := by show 0 + 1 + ps.length + 1 = _; omega
    rw [← this]
  have hpend : b.pending = [⟨1, [m], some k, true⟩] := c3
  have hout : b.out = [] := c2
  have hr : Filter.run (windowOf cfgA.ids) { latest := 0, seen := [] }
      (([BitVec.ofNat 64 (ps.length + 2), 1] : List W64).map (·.toNat)) = [true, false] := by
    have e : (BitVec.ofNat 64 (ps.length + 2)).toNat = ps.length + 2 := by
      rw [BitVec.toNat_ofNat, Nat.mod_eq_of_lt (by omega)]
    have e1 : (1 : W64).toNat = 1 := rfl
    have g1 : ps.length + 2 > 0 := by omega
    have g3 : ¬ (1 > ps.length + 2) := by omega
    have g4 : ¬ (1 = ps.length + 2) := by omega
    have g5 : ps.length + 2 - 1 ≥ windowOf cfgA.ids := by omega
    simp only [List.map_cons, List.map_nil, e, e1, Filter.run, Filter.step, g1, g3, g4, g5, if_true, if_false]
  obtain ⟨c, hc⟩ := checks_receive (by rw [receive_eq cfgA.ids hids hids', hr])
  obtain ⟨a, ra, -, hg, -⟩ := recvs_sealed (cfgA := cfgA) hd ha hk hlim []
    (xs := [⟨BitVec.ofNat 64 (ps.length + 2), [m2], p2⟩, ⟨1, [m], p1⟩]) (by
      intro x hx
      simp only [List.mem_cons, List.not_mem_nil, or_false] at hx
      rcases hx with rfl | rfl
      · exact ⟨⟨s2, hm2⟩, by simpa using hf2⟩
      · exact ⟨⟨s1, hm⟩, by simpa using hf⟩) (s := Side.init cfgA) rfl hc
  refine ⟨{ b with count := b.count + 1, pending := [], out := [⟨BitVec.ofNat 64 (ps.length + 2), [m2], p2⟩, ⟨1, [m], p1⟩] },
    a, ?_, rfl, ra, by rw [hg]; simp [keep, Side.init]⟩
  simp only [run, step, hm2, if_true, hpend, hout, hn, List.cons_append, List.nil_append, List.getElem?_cons_succ,
    List.getElem?_cons_zero, s2, s1, List.eraseIdx_cons_succ, List.eraseIdx_cons_zero]

/-- C87 is false with `PacketIDStorageSize` = 1: two concurrent writers, the packets in the order of the writes. -/
theorem C87_violated_witness :
    let bob := run toy (exCfg 1) (Side.init (exCfg 1)) [.begin [exMsg 2] (some exKey) true, .begin [exMsg 3] (some exKey) true,
      .finish 1 true, .finish 0 true]
    (pkts bob).length = 2 ∧
    gots (run toy (exCfg 1) (Side.init (exCfg 1)) (recvs exKeys (pkts bob))) = some [.queued 7 [3]] := by
  decide +kernel

/-- The hypotheses of `C87_serial_partial` are met. -/
example : let as : List Act := sendNow [exMsg 2] (some exKey) ++ recvs exKeys [[1, 2, 3]] ++
      [.begin [exMsg 3] (some exKey) true, .finish 0 false] ++ sendNow [exMsg 4] (some exKey)
    Serial as ∧ (pkts (run toy (exCfg 1) (Side.init (exCfg 1)) as)).length = 2 ∧
    gots (run toy (exCfg 1) (Side.init (exCfg 1)) (recvs exKeys (pkts (run toy (exCfg 1) (Side.init (exCfg 1)) as)))) =
      some [.queued 7 [2], .queued 7 [4]] := by
  refine ⟨by simp [Serial, sendNow, recvs], by decide +kernel⟩

/-- The IDs of a side jump only because of packets of at least 44 bytes: a shorter one takes no packet ID. -/
theorem C85_short (C : Crypto) (cfg : Cfg) {s s' : Side} {keys : Keys} {p : Bytes} (hp : p.length < containerHeadersSize)
    (h : step C cfg s (.recv keys p) = .ok s') : s'.count = s.count := by
  simp only [step] at h
  split at h <;> try (cases h; done)
  split at h <;> cases h
  show s.count + takenBy p = s.count
  rw [takenBy, if_pos hp, Nat.add_zero]

example : (match step toy (exCfg 1) (Side.init (exCfg 1)) (.recv exKeys [1, 2, 3]) with | .ok s => some s.count | _ => none) =
    some 0 := by decide +kernel

#print axioms C85_once_partial
#print axioms C85_violated
#print axioms C85_violated_witness
#print axioms C86_window_partial
#print axioms C86_violated
#print axioms C86_violated_witness
#print axioms C87_serial_partial
#print axioms C87_violated
#print axioms C87_violated_witness
#print axioms C85_short

end Verif.Traffic
