import Verif.Lemmas.Numbering
/-!
# C151: packet IDs start with zero and increase by one

README.md, "Encryption": "PacketID is intended to be unique only within a Session. So it just starts with zero and then
increases by 1 for each next message."
-/
namespace Verif.Traffic
open Verif.Headers Verif.Receive Verif.Packet

/-- C151: the exact packet IDs of a session whose `sendMessages` calls do not overlap. -/
theorem C151_exact {C : Crypto} {cfg : Cfg} (as : List Act) : ∀ (s s' : Side), Serial as → s.pending = [] →
    run C cfg s as = .ok s' → s'.out.map (·.id) = s.out.map (·.id) ++ (numbers s.count as).map (BitVec.ofNat 64) := by
  induction as using Serial.induct with
  | case1 => intro s s' _ _ h; cases h; simp [numbers]
  | case2 batch key conf ok as ih =>
    intro s s' hser hp h
    simp only [run, step] at h
    split at h <;> try (cases h; done)
    rename_i s1 h1
    split at h1 <;> try (cases h1; done)
    cases h1
    simp only [hp, List.nil_append, List.getElem?_cons_zero, List.eraseIdx_cons_zero] at h
    cases ok with
    | false =>
      simp only [Bool.false_eq_true, if_false] at h
      have := ih _ s' hser rfl h
      simpa [numbers] using this
    | true =>
      simp only [if_true] at h
      split at h <;> try (cases h; done)
      rename_i h2
      split at h2 <;> cases h2
      have := ih _ s' hser rfl h
      rw [this]
      simp [numbers, nextID]
  | case3 keys p as ih =>
    intro s s' hser hp h
    simp only [run, step] at h
    split at h <;> try (cases h; done)
    rename_i s1 h1
    split at h1 <;> try (cases h1; done)
    split at h1 <;> cases h1
    rename_i rd evs go _
    have := ih { s with count := s.count + takenBy p, rd := rd, running := go, got := s.got ++ evs
                        hist := s.hist ++ checkedID C keys p } s' hser hp h
    rw [this]
    have e : s.count + takenBy p = if p.length < 44 then s.count else s.count + 1 := by
      by_cases hl : p.length < 44 <;> simp [takenBy, containerHeadersSize, hl]
    simp only [numbers, e]
  | case4 => intro s s' hser; simp_all [Serial]

/-- C151 (what holds): a session that only sends, without failures and one packet after the other, numbers its packets 1, 2, 3, …
Missing for the full C151: the first number, and the others as soon as a packet is received, see `C151_violated`. -/
theorem C151_partial {C : Crypto} {cfg : Cfg} {k : Bytes} (bs : List (List Msg)) {s : Side}
    (h : run C cfg (Side.init cfg) (bs.flatMap fun b => sendNow b (some k)) = .ok s) :
    s.out.map (·.id) = (List.range bs.length).map fun i => BitVec.ofNat 64 (i + 1) := by
  rw [C151_exact _ _ _ (serial_sends bs k) rfl h, show (Side.init cfg).count = 0 from rfl, numbers_sends]
  simp [Side.init]

/-- Negation of C151: no session ever sends a packet with the ID zero (before the counter has run through), so as soon as it has
sent anything the claim is wrong. -/
theorem C151_violated {C : Crypto} {cfg : Cfg} (as : List Act) {s : Side} (h : run C cfg (Side.init cfg) as = .ok s)
    (hc : s.count < 2 ^ 64) (hne : s.out ≠ []) : ¬ FromZero (s.out.map (·.id)) := by
  intro hz
  have h0 := no_zero as _ _ h hc (by simp [Side.init]) (by simp [Side.init])
  cases ho : s.out with
  | nil => exact hne ho
  | cons x xs =>
    rw [FromZero, ho] at hz
    simp only [List.map_cons, List.length_cons, List.range_succ_eq_map, List.cons.injEq] at hz
    exact h0 x (by simp [ho]) hz.1

/-- Negation of C151, the steps: whatever the number `n` of packets received (also copies of one packet) between two packets
that are sent, their IDs differ by `n + 1`. -/
theorem C151_violated_steps {C : Crypto} {cfg : Cfg} {k : Bytes} {b b2 : List Msg} {keys : Keys} (ps : List Bytes)
    (hp : ∀ p ∈ ps, 44 ≤ p.length) {s : Side}
    (h : run C cfg (Side.init cfg) (sendNow b (some k) ++ recvs keys ps ++ sendNow b2 (some k)) = .ok s) :
    s.out.map (·.id) = [1, BitVec.ofNat 64 (ps.length + 2)] := by
  have hser : ∀ ps : List Bytes, Serial (recvs keys ps ++ sendNow b2 (some k)) := by
    intro ps
    induction ps with
    | nil => simp [recvs, sendNow, Serial]
    | cons p ps ih => simpa [recvs, Serial] using ih
  have hnum : ∀ (ps : List Bytes) (c : Nat), (∀ p ∈ ps, 44 ≤ p.length) →
      numbers c (recvs keys ps ++ sendNow b2 (some k)) = [c + ps.length + 1] := by
    intro ps
    induction ps with
    | nil => intro c _; simp [recvs, sendNow, numbers]
    | cons p ps ih =>
      intro c hp
      have h1 := hp p (by simp)
      have := ih (c + 1) (fun q hq => hp q (by simp [hq]))
      simp only [recvs] at this
      simp only [recvs, List.map_cons, List.cons_append, numbers]
      rw [if_neg (by omega), this, List.length_cons]
      congr 1; omega
  have hs : Serial (sendNow b (some k) ++ recvs keys ps ++ sendNow b2 (some k)) := by
    have := hser ps
    simpa [sendNow, Serial] using this
  rw [C151_exact _ _ _ hs rfl h]
  have := hnum ps 1 hp
  simp only [Side.init, List.map_nil, List.nil_append, sendNow, List.cons_append, numbers, if_true] at this ⊢
  rw [this]
  simp only [List.map_cons, List.map_nil, Nat.zero_add, List.nil_append, List.cons.injEq, and_true]
  exact ⟨rfl, by congr 1; omega⟩

/-- The first ID is 1; three received packets make a gap of 3. -/
theorem C151_violated_witness :
    let alice := run toy (exCfg 0) (Side.init (exCfg 0)) (sendNow [exMsg 1] (some exKey))
    let bob := run toy (exCfg 0) (Side.init (exCfg 0)) (sendNow [exMsg 2] (some exKey) ++
      recvs exKeys (List.replicate 3 ((pkts alice)[0]!)) ++ sendNow [exMsg 3] (some exKey))
    (match bob with | .ok s => s.out.map (·.id) | _ => []) = [1, 5] := by
  decide +kernel

/-- A packet that could not be sent leaves a gap; a short packet does not. -/
example : numbers 0 [.begin [] none true, .finish 0 false, .recv exKeys [1, 2, 3], .begin [] none true, .finish 0 true,
    .begin [] none true, .finish 0 true] = [2, 3] := by decide

#print axioms C151_exact
#print axioms C151_partial
#print axioms C151_violated
#print axioms C151_violated_steps
#print axioms C151_violated_witness

end Verif.Traffic
