import Verif.Spec.Traffic
import Verif.Props.Replay
import Verif.Props.EndToEnd
/-!
# Helper lemmas about the traffic of two sides
-/
namespace Verif.PacketID

/-- The check after a history, with the verdicts. -/
def checks : Check → List W64 → Option (Check × List Bool)
  | c, [] => some (c, [])
  | c, id :: ids =>
    match c.step id with
    | none => none
    | some (c', r) => (checks c' ids).map fun x => (x.1, r :: x.2)

theorem run_checks (c : Check) (ids : List W64) :
    Check.run c ids = (checks c ids).map fun x => (x.2, x.1.unexpected) := by
  induction ids generalizing c with
  | nil => rfl
  | cons id ids ih =>
    simp only [Check.run, checks]
    cases c.step id with
    | none => rfl
    | some x => simp only [ih]; cases checks x.1 ids <;> rfl

theorem checks_append (c : Check) (xs ys : List W64) :
    checks c (xs ++ ys) = (checks c xs).bind fun x => (checks x.1 ys).map fun y => (y.1, x.2 ++ y.2) := by
  induction xs generalizing c with
  | nil => simp [checks]
  | cons x xs ih =>
    simp only [List.cons_append, checks]
    cases c.step x with
    | none => rfl
    | some w =>
      simp only [ih]
      cases checks w.1 xs with
      | none => rfl
      | some z => simp; cases checks z.1 ys <;> rfl

theorem checks_length (c : Check) (ids : List W64) (c' : Check) (rs : List Bool) (h : checks c ids = some (c', rs)) :
    rs.length = ids.length := by
  induction ids generalizing c rs with
  | nil => simp [checks] at h; obtain ⟨-, rfl⟩ := h; rfl
  | cons id ids ih =>
    simp only [checks] at h
    split at h
    · cases h
    · simp only [Option.map_eq_some_iff] at h
      obtain ⟨⟨c1, r1⟩, h1, h2⟩ := h
      cases h2
      simp [ih _ _ h1]

theorem accepted_append (xs ys : List W64) (rs qs : List Bool) (h : rs.length = xs.length) :
    Spec.accepted (xs ++ ys) (rs ++ qs) = Spec.accepted xs rs ++ Spec.accepted ys qs := by
  induction xs generalizing rs with
  | nil => cases rs with
    | nil => rfl
    | cons r rs => simp at h
  | cons x xs ih =>
    cases rs with
    | nil => simp at h
    | cons r rs =>
      have := ih rs (by simpa using h)
      cases r <;> simp [Spec.accepted, this]

/-- The check of a new session. -/
def newCheck (size : Int) : Check := { stor := storOfOption size, unexpected := 0 }

theorem checks_receive {size : Int} {ids : List W64} {rs : List Bool} {n : Nat} (h : receive size ids = some (rs, n)) :
    ∃ c, checks (newCheck size) ids = some (c, rs) := by
  rw [receive, run_checks, Option.map_eq_some_iff] at h
  obtain ⟨⟨c, r⟩, h1, h2⟩ := h
  simp only [Prod.mk.injEq] at h2
  exact ⟨c, by rw [← h2.1]; exact h1⟩

theorem receive_checks {size : Int} {ids : List W64} {rs : List Bool} {c : Check}
    (h : checks (newCheck size) ids = some (c, rs)) : receive size ids = some (rs, c.unexpected) := by
  rw [receive, run_checks]
  have : checks { stor := storOfOption size, unexpected := 0 } ids = some (c, rs) := h
  rw [this]; rfl

/-- Histories without big jumps, or with a small window, accept every ID once. -/
theorem noReplay_of (size : Int) (ids : List W64)
    (h : (1 ≤ size ∧ size ≤ 64) ∨ (0 ≤ size ∧ size < 2 ^ 63 ∧ Spec.SmallJumps ids)) (c : Check) (rs : List Bool)
    (hc : checks (newCheck size) ids = some (c, rs)) : (Spec.accepted ids rs).Nodup := by
  have h1 := receive_checks hc
  rcases h with h | h
  · obtain ⟨rs', n, e1, -, e2⟩ := C02_small_window_no_replay size h.1 h.2 ids
    rw [h1] at e1; cases e1; exact e2
  · obtain ⟨rs', n, e1, -, e2⟩ := C01_replay_partial size h.1 h.2.1 ids h.2.2
    rw [h1] at e1; cases e1; exact e2

end Verif.PacketID

namespace Verif.Traffic
open Verif.Headers Verif.Receive Verif.Packet Verif.PacketID Verif.Spec

theorem dest_delivery (env : Env) (m : Msg) : isDelivery (dest env m) = true := by
  unfold dest; split <;> rfl

/-! ## Counting -/

theorem count_flatMap_le (f : Sent → List Event) (e : Event) (xs ys : List Sent) (hn : xs.Nodup)
    (hs : ∀ x ∈ xs, x ∈ ys) : (xs.flatMap f).count e ≤ (ys.flatMap f).count e := by
  induction xs generalizing ys with
  | nil => simp
  | cons x xs ih =>
    rw [List.nodup_cons] at hn
    have hp := List.perm_cons_erase (hs x (by simp))
    have := ih (ys.erase x) hn.2 (fun y hy => by
      have hne : y ≠ x := fun h => hn.1 (h ▸ hy)
      exact (List.mem_erase_of_ne hne).mpr (hs y (by simp [hy])))
    have e1 : (ys.flatMap f).count e = ((x :: ys.erase x).flatMap f).count e :=
      (hp.flatMap_right f).count_eq e
    rw [e1]
    simp only [List.flatMap_cons, List.count_append]
    omega

theorem nodup_of_map {α β : Type} (f : α → β) (xs : List α) (h : (xs.map f).Nodup) : xs.Nodup := by
  induction xs with
  | nil => simp
  | cons x xs ih =>
    rw [List.map_cons, List.nodup_cons] at h
    rw [List.nodup_cons]
    exact ⟨fun hx => h.1 (List.mem_map.mpr ⟨x, hx, rfl⟩), ih h.2⟩

/-! ## The invariant of the receiving side -/

/-- What the first side has got, in terms of what the second one sent. -/
def Inv (cfgA : Cfg) (n : Net) : Prop :=
  ∃ c rs, ∃ del : List Sent, checks (newCheck cfgA.ids) n.a.hist = some (c, rs) ∧ n.a.rd.ids = c ∧
    (∀ x ∈ del, x ∈ n.b.out) ∧ del.map (·.id) = accepted n.a.hist rs ∧
    n.a.got.filter isDelivery = (del.flatMap (·.batch)).map (dest cfgA.env)

theorem decryptError_noDelivery (cfg : Receive.Cfg) (n : Nat) (e : DecryptErr) :
    (decryptError cfg n e).2.1.filter isDelivery = [] := by
  unfold decryptError
  simp only
  cases cfg.errorOnFails with
  | none => rfl
  | some k => simp only; split <;> rfl

/-- Sending leaves the receiving part alone. -/
theorem step_out {C : Crypto} {cfg : Cfg} {s s' : Side} {x : Act} (h : step C cfg s x = .ok s') :
    ∀ y ∈ s.out, y ∈ s'.out := by
  intro y hy
  cases x with
  | «begin» b k c => simp only [step] at h; split at h <;> cases h; exact hy
  | finish i ok =>
    simp only [step] at h
    split at h
    · cases h
    · split at h
      · split at h <;> cases h
        simp [hy]
      · cases h; exact hy
  | recv keys p =>
    simp only [step] at h
    split at h
    · split at h <;> cases h
      exact hy
    · cases h

theorem step_same {C : Crypto} {cfg : Cfg} {s s' : Side} {x : Act} (h : step C cfg s x = .ok s')
    (hx : ∀ keys p, x ≠ .recv keys p) : s'.rd = s.rd ∧ s'.got = s.got ∧ s'.hist = s.hist ∧ s'.running = s.running := by
  cases x with
  | «begin» b k c => simp only [step] at h; split at h <;> cases h; simp
  | finish i ok =>
    simp only [step] at h
    split at h
    · cases h
    · split at h
      · split at h <;> cases h
        simp
      · cases h; simp
  | recv keys p => exact absurd rfl (hx keys p)

theorem inv_recv {C : Crypto} {cfgA : Cfg} (hd : cfgA.rc.detachOnMessages = 0) {n : Net} {a' : Side} {keys : Keys}
    {p : Bytes} (hi : Inv cfgA n) (hw : Whole n.b) (hl : ∀ x ∈ n.b.out, (stream x.batch).length < 2 ^ 32)
    (hg : Genuine C n.b.out keys p)
    (h : step C cfgA n.a (.recv keys p) = .ok a') : Inv cfgA { n with a := a' } := by
  obtain ⟨c, rs, del, h1, h2, h3, h4, h5⟩ := hi
  simp only [step] at h
  split at h
  · split at h <;> try (cases h; done)
    rename_i rd evs go hr
    cases h
    unfold readerStep at hr
    unfold checkedID
    cases hdec : decrypt C keys.aux keys.cipher keys.remote p with
    | panic => rw [hdec] at hr; cases hr
    | block => rw [hdec] at hr; cases hr
    | err e =>
      rw [hdec] at hr
      cases hr
      exact ⟨c, rs, del, by simpa using h1, h2, h3, by simpa using h4, by
        simp [List.filter_append, decryptError_noDelivery, h5]⟩
    | ok hm =>
      obtain ⟨hdr, msgs⟩ := hm
      obtain ⟨x, hx, e1, e2, e3⟩ := hg hdr msgs hdec
      rw [hdec] at hr
      simp only at hr
      rw [e1] at hr
      simp only [e1]
      have hrl := checks_length _ _ _ _ h1
      have hstep : ∀ c' v, n.a.rd.ids.step x.id = some (c', v) →
          checks (newCheck cfgA.ids) (n.a.hist ++ [x.id]) = some (c', rs ++ [v]) := by
        intro c' v hv
        rw [checks_append, h1]
        simp only [Option.bind_some, checks, ← h2, hv, Option.map_some]
      split at hr
      · cases hr
      · rename_i ids hv
        cases hr
        refine ⟨ids, rs ++ [false], del, hstep _ _ hv, rfl, h3, ?_, by simpa using h5⟩
        rw [accepted_append _ _ _ _ hrl, ← h4]; simp [accepted]
      · rename_i ids hv
        rw [e2, e3, C11_aggregate cfgA.rc hd cfgA.env n.a.rd.rcv x.batch (fun m hm => (hw x hx m hm).1)
          (fun m hm => (hw x hx m hm).2) (hl x hx)] at hr
        simp only at hr
        cases hr
        refine ⟨ids, rs ++ [true], del ++ [x], hstep _ _ hv, rfl, ?_, ?_, ?_⟩
        · intro y hy
          rcases List.mem_append.mp hy with hy | hy
          · exact h3 y hy
          · simp at hy; subst hy; exact hx
        · rw [accepted_append _ _ _ _ hrl, ← h4]; simp [accepted]
        · have : (x.batch.map (dest cfgA.env)).filter isDelivery = x.batch.map (dest cfgA.env) := by
            rw [List.filter_eq_self]; intro e he
            obtain ⟨m, -, rfl⟩ := List.mem_map.mp he
            exact dest_delivery _ _
          simp [List.filter_append, h5, this, List.flatMap_append]
  · cases h

/-! ## Sizes -/

def Small (cfg : Cfg) (s : Side) : Prop :=
  (∀ x ∈ s.out, (stream x.batch).length ≤ cfg.limit) ∧ ∀ x ∈ s.pending, (stream x.batch).length ≤ cfg.limit

theorem small_step {C : Crypto} {cfg : Cfg} {s s' : Side} {x : Act} (hs : Small cfg s) (h : step C cfg s x = .ok s') :
    Small cfg s' := by
  cases x with
  | «begin» b k c =>
    simp only [step] at h
    split at h <;> cases h
    refine ⟨hs.1, fun y hy => ?_⟩
    rcases List.mem_append.mp hy with hy | hy
    · exact hs.2 y hy
    · simp at hy; subst hy; assumption
  | finish i ok =>
    simp only [step] at h
    split at h
    · cases h
    · rename_i x hx
      split at h
      · split at h <;> cases h
        refine ⟨fun y hy => ?_, fun y hy => hs.2 y (List.mem_of_mem_eraseIdx hy)⟩
        rcases List.mem_append.mp hy with hy | hy
        · exact hs.1 y hy
        · simp at hy; subst hy; exact hs.2 x (List.mem_of_getElem? hx)
      · cases h; exact ⟨hs.1, fun y hy => hs.2 y (List.mem_of_mem_eraseIdx hy)⟩
  | recv keys p =>
    simp only [step] at h
    split at h
    · split at h <;> cases h
      exact hs
    · cases h

theorem reach_small {C : Crypto} {cfgA cfgB : Cfg} {n : Net} (h : Reach C cfgA cfgB n) : Small cfgB n.b := by
  induction h with
  | init => exact ⟨by simp [Net.init, Side.init], by simp [Net.init, Side.init]⟩
  | step x _ _ hs ih =>
    obtain ⟨side, x⟩ := x
    cases side <;> simp only [netStep] at hs <;> split at hs <;> cases hs
    · exact ih
    · rename_i b hb; exact small_step ih hb

theorem reach_inv {C : Crypto} {cfgA cfgB : Cfg} (hd : cfgA.rc.detachOnMessages = 0) (hlim : cfgB.limit < 2 ^ 32)
    {n : Net} (h : Reach C cfgA cfgB n) (hw : Whole n.b) : Inv cfgA n := by
  induction h with
  | init => exact ⟨_, _, [], rfl, rfl, by simp, rfl, rfl⟩
  | @step n0 n' x hr hg hs ih =>
    obtain ⟨side, x⟩ := x
    cases side with
    | false =>
      simp only [netStep] at hs
      split at hs <;> cases hs
      rename_i a ha
      by_cases hx : ∃ keys p, x = .recv keys p
      · obtain ⟨keys, p, rfl⟩ := hx
        exact inv_recv hd (ih hw) hw (fun y hy => Nat.lt_of_le_of_lt ((reach_small hr).1 y hy) hlim) (hg keys p rfl) ha
      · obtain ⟨e1, e2, e3, -⟩ := step_same ha (fun keys p h => hx ⟨keys, p, h⟩)
        obtain ⟨c, rs, del, h1, h2, h3, h4, h5⟩ := ih hw
        exact ⟨c, rs, del, by rw [e3]; exact h1, by rw [e1]; exact h2, h3, by rw [e3]; exact h4, by rw [e2]; exact h5⟩
    | true =>
      simp only [netStep] at hs
      split at hs <;> cases hs
      rename_i b hb
      have hsub := step_out hb
      obtain ⟨c, rs, del, h1, h2, h3, h4, h5⟩ := ih (fun y hy => hw y (hsub y hy))
      exact ⟨c, rs, del, h1, h2, fun y hy => hsub y (h3 y hy), h4, h5⟩

/-! ## Runs -/

theorem run_append (C : Crypto) (cfg : Cfg) (s : Side) (xs ys : List Act) :
    run C cfg s (xs ++ ys) = match run C cfg s xs with
      | .ok s' => run C cfg s' ys
      | .err e => .err e
      | .panic => .panic
      | .block => .block := by
  induction xs generalizing s with
  | nil => rfl
  | cons x xs ih =>
    simp only [List.cons_append, run]
    cases step C cfg s x with
    | ok s' => exact ih s'
    | err e => rfl
    | panic => rfl
    | block => rfl

theorem run_append_ok {C : Crypto} {cfg : Cfg} {s s' s'' : Side} {xs ys : List Act} (h1 : run C cfg s xs = .ok s')
    (h2 : run C cfg s' ys = .ok s'') : run C cfg s (xs ++ ys) = .ok s'' := by
  rw [run_append, h1]; exact h2

theorem reach_b {C : Crypto} {cfgA cfgB : Cfg} {as : List Act} {n : Net} {b' : Side} (h : Reach C cfgA cfgB n)
    (hr : run C cfgB n.b as = .ok b') : Reach C cfgA cfgB { n with b := b' } := by
  induction as generalizing n with
  | nil => cases hr; exact h
  | cons a as ih =>
    simp only [run] at hr
    cases hs : step C cfgB n.b a with
    | ok s =>
      rw [hs] at hr
      exact ih (n := { n with b := s }) (.step (true, a) h (by intro k p e; cases e) (by simp only [netStep, hs])) hr
    | err e => rw [hs] at hr; cases hr
    | panic => rw [hs] at hr; cases hr
    | block => rw [hs] at hr; cases hr

theorem reach_a {C : Crypto} {cfgA cfgB : Cfg} {keys : Keys} {ps : List Bytes} {n : Net} {a' : Side}
    (h : Reach C cfgA cfgB n) (hg : ∀ p ∈ ps, Genuine C n.b.out keys p)
    (hr : run C cfgA n.a (recvs keys ps) = .ok a') : Reach C cfgA cfgB { n with a := a' } := by
  induction ps generalizing n with
  | nil => cases hr; exact h
  | cons p ps ih =>
    simp only [recvs, List.map_cons, run] at hr
    cases hs : step C cfgA n.a (.recv keys p) with
    | ok s =>
      rw [hs] at hr
      exact ih (n := { n with a := s }) (.step (false, .recv keys p) h
        (by intro k q e; cases e; exact hg p (by simp)) (by simp only [netStep, hs]))
        (fun q hq => hg q (by simp [hq])) hr
    | err e => rw [hs] at hr; cases hr
    | panic => rw [hs] at hr; cases hr
    | block => rw [hs] at hr; cases hr

theorem step_count_le {C : Crypto} {cfg : Cfg} {s s' : Side} {x : Act} (h : step C cfg s x = .ok s') :
    s.count ≤ s'.count := by
  cases x with
  | «begin» b k c => simp only [step] at h; split at h <;> cases h; exact Nat.le_succ _
  | finish i ok =>
    simp only [step] at h
    split at h
    · cases h
    · split at h
      · split at h <;> cases h
        exact Nat.le_refl _
      · cases h; exact Nat.le_refl _
  | recv keys p =>
    simp only [step] at h
    split at h
    · split at h <;> cases h
      exact Nat.le_add_right _ _
    · cases h

theorem run_count_le {C : Crypto} {cfg : Cfg} (as : List Act) (s : Side) {s' : Side} (h : run C cfg s as = .ok s') :
    s.count ≤ s'.count := by
  induction as generalizing s with
  | nil => cases h; exact Nat.le_refl _
  | cons a as ih =>
    simp only [run] at h
    cases hs : step C cfg s a with
    | ok t => rw [hs] at h; exact Nat.le_trans (step_count_le hs) (ih t h)
    | err e => rw [hs] at h; cases h
    | panic => rw [hs] at h; cases h
    | block => rw [hs] at h; cases h

/-- Received packets take packet IDs. -/
theorem recvs_count {C : Crypto} {cfg : Cfg} {keys : Keys} {ps : List Bytes} {s s' : Side}
    (hp : ∀ p ∈ ps, 44 ≤ p.length) (hr : run C cfg s (recvs keys ps) = .ok s') :
    s'.count = s.count + ps.length ∧ s'.out = s.out ∧ s'.pending = s.pending := by
  induction ps generalizing s with
  | nil => cases hr; simp
  | cons p ps ih =>
    simp only [recvs, List.map_cons, run] at hr
    cases hs : step C cfg s (.recv keys p) with
    | ok t =>
      rw [hs] at hr
      obtain ⟨e1, e2, e3⟩ := ih (fun q hq => hp q (by simp [hq])) hr
      simp only [step] at hs
      split at hs
      · split at hs <;> cases hs
        have h44 := hp p (by simp)
        have : takenBy p = 1 := by
          unfold takenBy containerHeadersSize; rw [if_neg (by omega)]
        refine ⟨?_, e2, e3⟩
        rw [e1]; simp only [this, List.length_cons]; omega
      · cases hs
    | err e => rw [hs] at hr; cases hr
    | panic => rw [hs] at hr; cases hr
    | block => rw [hs] at hr; cases hr

/-- Packets sealed with the key `k`. -/
def SealedWith (C : Crypto) (cfg : Cfg) (k : Bytes) (x : Sent) : Prop :=
  sealPacket C cfg.aux (some k) cfg.sessionID true x.id (stream x.batch) = some x.pkt ∧
    (stream x.batch).length ≤ cfg.limit

theorem decrypt_sealed {C : Crypto} {cfg : Cfg} (ha : KeyOK cfg.aux) {k : Bytes} (hk : k.length = 32)
    (hlim : cfg.limit < 2 ^ 32) {x : Sent} (hx : SealedWith C cfg k x) (rest : List (Option Bytes)) :
    ∃ h, decrypt C cfg.aux (some k :: rest) (some cfg.sessionID) x.pkt = .ok (h, stream x.batch) ∧
      packetIDValue h.packetID = x.id ∧ h.length = BitVec.ofNat 32 (stream x.batch).length := by
  have hl : (stream x.batch).length < 2 ^ 32 := Nat.lt_of_le_of_lt hx.2 hlim
  obtain ⟨pkt, f1, f2, f3⟩ := C12_roundtrip_confidential C cfg.aux ha k hk cfg.sessionID x.id
      (stream x.batch) hl [] rest
  have : pkt = x.pkt := by have := f1.symm.trans hx.1; simpa using this
  subst this
  obtain ⟨h, d1, d2, d3⟩ := f3 (by simp)
  refine ⟨h, d1, d2, ?_⟩
  apply BitVec.eq_of_toNat_eq
  rw [d3, BitVec.toNat_ofNat, Nat.mod_eq_of_lt hl]

theorem genuine_sealed {C : Crypto} {cfg : Cfg} (ha : KeyOK cfg.aux) {k : Bytes} (hk : k.length = 32)
    (hlim : cfg.limit < 2 ^ 32) {x : Sent} (hx : SealedWith C cfg k x) (rest : List (Option Bytes)) {out : List Sent}
    (ho : x ∈ out) : Genuine C out ⟨cfg.aux, some k :: rest, some cfg.sessionID⟩ x.pkt := by
  intro h msgs hd
  obtain ⟨h', d1, d2, d3⟩ := decrypt_sealed ha hk hlim hx rest
  have hd : decrypt C cfg.aux (some k :: rest) (some cfg.sessionID) x.pkt = .ok (h, msgs) := hd
  rw [d1] at hd; cases hd
  exact ⟨x, ho, d2, rfl, d3⟩

/-- Elements with the verdict "accept". -/
def keep : List Sent → List Bool → List Sent
  | x :: xs, true :: rs => x :: keep xs rs
  | _ :: xs, false :: rs => keep xs rs
  | _, _ => []

/-- Sealed packets are delivered according to the verdicts on their IDs. -/
theorem recvs_sealed {C : Crypto} {cfgA cfgB : Cfg} (hd : cfgA.rc.detachOnMessages = 0) (ha : KeyOK cfgB.aux)
    {k : Bytes} (hk : k.length = 32) (hlim : cfgB.limit < 2 ^ 32) (rest : List (Option Bytes)) {xs : List Sent}
    (hx : ∀ x ∈ xs, SealedWith C cfgB k x ∧ ∀ m ∈ x.batch, m.Fits ∧ m.Whole) {s : Side} (hrun : s.running = true)
    {c : Check} {rs : List Bool} (hc : checks s.rd.ids (xs.map (·.id)) = some (c, rs)) :
    ∃ s', run C cfgA s (recvs ⟨cfgB.aux, some k :: rest, some cfgB.sessionID⟩ (xs.map (·.pkt))) = .ok s' ∧
      s'.running = true ∧ s'.got = s.got ++ ((keep xs rs).flatMap (·.batch)).map (dest cfgA.env) ∧
      s'.rd.ids = c := by
  induction xs generalizing s rs with
  | nil => simp [checks] at hc; obtain ⟨rfl, rfl⟩ := hc; exact ⟨s, rfl, hrun, by simp [keep], rfl⟩
  | cons x xs ih =>
    simp only [List.map_cons, checks] at hc
    split at hc
    · cases hc
    · rename_i c1 v hv
      simp only [Option.map_eq_some_iff] at hc
      obtain ⟨⟨c2, rs1⟩, g1, g2⟩ := hc
      simp only [Prod.mk.injEq] at g2
      obtain ⟨rfl, rfl⟩ := g2
      obtain ⟨h, d1, d2, d3⟩ := decrypt_sealed ha hk hlim (hx x (by simp)).1 rest
      have hagg := C11_aggregate cfgA.rc hd cfgA.env s.rd.rcv x.batch (fun m hm => ((hx x (by simp)).2 m hm).1)
        (fun m hm => ((hx x (by simp)).2 m hm).2) (Nat.lt_of_le_of_lt (hx x (by simp)).1.2 hlim)
      cases v with
      | false =>
        obtain ⟨s', r1, r2, r3, r4⟩ := ih (fun y hy => hx y (by simp [hy]))
          (s := { s with count := s.count + takenBy x.pkt, rd := { s.rd with ids := c1 }, running := true
                         got := s.got ++ []
                         hist := s.hist ++ checkedID C ⟨cfgB.aux, some k :: rest, some cfgB.sessionID⟩ x.pkt }) rfl g1
        refine ⟨s', ?_, r2, by rw [r3]; simp [keep], r4⟩
        simp only [recvs, List.map_cons, run, step, hrun, if_true, readerStep, d1, d2, hv]
        exact r1
      | true =>
        obtain ⟨s', r1, r2, r3, r4⟩ := ih (fun y hy => hx y (by simp [hy]))
          (s := { s with count := s.count + takenBy x.pkt, rd := { rcv := s.rd.rcv, ids := c1, fails := 0 }, running := true
                         got := s.got ++ x.batch.map (dest cfgA.env)
                         hist := s.hist ++ checkedID C ⟨cfgB.aux, some k :: rest, some cfgB.sessionID⟩ x.pkt }) rfl g1
        refine ⟨s', ?_, r2, by rw [r3]; simp [keep], r4⟩
        simp only [recvs, List.map_cons, run, step, hrun, if_true, readerStep, d1, d2, hv, d3, hagg]
        exact r1

/-- A packet sent without interruption gets the next packet ID. -/
theorem sendNow_ok {C : Crypto} {cfg : Cfg} (ha : KeyOK cfg.aux) {k : Bytes} (hk : k.length = 32) {s : Side}
    (hp : s.pending = []) {batch : List Msg} (hl : (stream batch).length ≤ cfg.limit) :
    ∃ pkt, run C cfg s (sendNow batch (some k)) =
        .ok { s with count := s.count + 1, pending := [], out := s.out ++ [⟨nextID s.count, batch, pkt⟩] } ∧
      SealedWith C cfg k ⟨nextID s.count, batch, pkt⟩ := by
  obtain ⟨pkt, h1, -⟩ := seal_spec C cfg.aux (some k) cfg.sessionID true (nextID s.count) (stream batch) ha
    (fun b hb => by cases hb; exact hk) (by simp)
  refine ⟨pkt, ?_, h1, hl⟩
  simp only [sendNow, run, step, hl, if_true, hp, List.nil_append, List.getElem?_cons_zero, h1, List.eraseIdx_cons_zero]

end Verif.Traffic
