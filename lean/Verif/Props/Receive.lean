import Verif.Lemmas.Reader
import Verif.Props.Replay
/-!
# Property theorems C10, C11, C24, C25, C26, C47, C48, C49, C52 (dispatch), C71: the receive path
-/
namespace Verif.Receive
open Verif.Headers Verif.PendingChain

/-! ## C10, C11 -/

/-- C10: every byte string is, in a unique way, a sequence of complete messages followed by an
incomplete rest; if none of the messages is a fragment the receiver delivers exactly them, in order,
and reports an error exactly if the rest is not empty.  The bytes looked at are those within the declared
length.  (`detachOnMessages = 0`: without the option of C49.) -/
theorem C10_parser (cfg : Cfg) (hd : cfg.detachOnMessages = 0) (env : Env) (s : Rcv) (length : W32)
    (b : Bytes) :
    (∃ ms tail, b.take length.toNat = stream ms ++ tail ∧ Incomplete tail ∧ ∀ m ∈ ms, Msg.Fits m) ∧
    ∀ ms tail, b.take length.toNat = stream ms ++ tail → Incomplete tail → (∀ m ∈ ms, Msg.Fits m) →
      (∀ m ∈ ms, m.Whole) →
      ∃ report, tailReport tail report ∧
        processIncomingMessages cfg env s length b = .ok (s, ms.map (dest env) ++ report) := by
  constructor
  · exact decompose _ _ (Nat.le_refl _)
  · intro ms tail he hi hf hw
    have ht : b.take (min b.length length.toNat) = b.take length.toNat := by
      by_cases h : b.length ≤ length.toNat
      · rw [Nat.min_eq_left h, List.take_length, List.take_of_length_le h]
      · rw [Nat.min_eq_right (by omega)]
    obtain ⟨r, h1, h2⟩ := loop_stream cfg env hd ms hf hw tail hi (stream ms ++ tail).length
      (Nat.le_refl _) s []
    refine ⟨r, h1, ?_⟩
    unfold processIncomingMessages
    simp only [ht, he]
    simpa using h2

theorem bytes_inj (m m' : Msg) (h : m.Fits) (h' : m'.Fits) (t t' : Bytes)
    (he : m.bytes ++ t = m'.bytes ++ t') : m = m' ∧ t = t' := by
  have e1 := read_bytes m h t
  rw [he, read_bytes m' h' t'] at e1
  injection e1 with e1
  injection e1 with a b c
  have hl : m.payload.length = m'.payload.length := by
    rw [← ofNat_len m h, ← ofNat_len m' h', b]
  obtain ⟨e2, e3⟩ := payload_bytes m t
  obtain ⟨e4, e5⟩ := payload_bytes m' t'
  rw [he, hl] at e2 e3
  refine ⟨?_, e3.symm.trans e5⟩
  have hp : m.payload = m'.payload := e2.symm.trans e4
  cases m; cases m'; simp_all

/-- C10: the decomposition is unique, so "the longest well-formed prefix" is well defined. -/
theorem C10_unique (ms ms' : List Msg) (t t' : Bytes) (hf : ∀ m ∈ ms, Msg.Fits m)
    (hf' : ∀ m ∈ ms', Msg.Fits m) (hi : Incomplete t) (hi' : Incomplete t')
    (he : stream ms ++ t = stream ms' ++ t') : ms = ms' ∧ t = t' := by
  induction ms generalizing ms' with
  | nil =>
    cases ms' with
    | nil => exact ⟨rfl, he⟩
    | cons m ms' =>
      exfalso; apply hi
      exact ⟨m, stream ms' ++ t', hf' m (by simp), by simpa [stream] using he⟩
  | cons m ms ih =>
    cases ms' with
    | nil =>
      exfalso; apply hi'
      exact ⟨m, stream ms ++ t, hf m (by simp), by simpa [stream] using he.symm⟩
    | cons m' ms' =>
      simp only [stream, List.append_assoc] at he
      obtain ⟨h1, h2⟩ := bytes_inj m m' (hf m (by simp)) (hf' m' (by simp)) _ _ he
      obtain ⟨h3, h4⟩ := ih ms' (fun m hm => hf m (by simp [hm])) (fun m hm => hf' m (by simp [hm])) h2
      exact ⟨by rw [h1, h3], h4⟩

example : let ms : List Msg := [⟨7, 0, [1, 2]⟩, ⟨0xFFFFFFFC, 1, []⟩]
    Incomplete [1, 2, 3] ∧ (∀ m ∈ ms, Msg.Fits m) ∧ (∀ m ∈ ms, m.Whole) := by
  refine ⟨?_, by unfold Msg.Fits; decide, by unfold Msg.Whole; decide⟩
  rintro ⟨m, t, _, h⟩
  have := congrArg List.length h
  simp [bytes_length] at this
  omega

theorem incomplete_nil : Incomplete [] := by
  rintro ⟨m, t, _, h⟩
  have := congrArg List.length h
  simp [bytes_length] at this
  omega

/-- C11: what the sender merges into one packet (messages one after another, container length = total
length) is delivered as exactly these messages, types, order. -/
theorem C11_aggregate (cfg : Cfg) (hd : cfg.detachOnMessages = 0) (env : Env) (s : Rcv) (ms : List Msg)
    (hf : ∀ m ∈ ms, m.Fits) (hw : ∀ m ∈ ms, m.Whole) (hl : (stream ms).length < 2 ^ 32) :
    processIncomingMessages cfg env s (BitVec.ofNat 32 (stream ms).length) (stream ms) =
      .ok (s, ms.map (dest env)) := by
  have e : (BitVec.ofNat 32 (stream ms).length).toNat = (stream ms).length := by
    simp only [BitVec.toNat_ofNat]; omega
  obtain ⟨r, h1, h2⟩ := (C10_parser cfg hd env s (BitVec.ofNat 32 (stream ms).length) (stream ms)).2 ms []
    (by rw [e]; simp) incomplete_nil hf hw
  rw [h2]
  simp [tailReport] at h1
  simp [h1]

/-! ## C52: dispatch -/

/-- C52 (dispatch): a message is given to a handler or queue only if that is registered for exactly the
type in its header, the payload is unaltered, and a handler has priority. -/
theorem C52_dispatch (cfg : Cfg) (hd : cfg.detachOnMessages = 0) (env : Env) (s : Rcv) (ms : List Msg)
    (hf : ∀ m ∈ ms, m.Fits) (hw : ∀ m ∈ ms, m.Whole) (hl : (stream ms).length < 2 ^ 32) :
    ∃ evs, processIncomingMessages cfg env s (BitVec.ofNat 32 (stream ms).length) (stream ms) =
        .ok (s, evs) ∧
      (∀ t p, .handled t p ∈ evs → env.hasMessenger t = true ∧ ∃ m ∈ ms, m.type = t ∧ m.payload = p) ∧
      (∀ t p, .queued t p ∈ evs → env.hasMessenger t = false ∧ env.hasChan t = true ∧
        ∃ m ∈ ms, m.type = t ∧ m.payload = p) ∧
      (∀ m ∈ ms, env.hasMessenger m.type = true → .handled m.type m.payload ∈ evs) := by
  refine ⟨_, C11_aggregate cfg hd env s ms hf hw hl, ?_, ?_, ?_⟩
  · intro t p h
    obtain ⟨m, hm, he⟩ := List.mem_map.mp h
    unfold dest at he
    split at he <;> cases he
    exact ⟨by assumption, m, hm, rfl, rfl⟩
  · intro t p h
    obtain ⟨m, hm, he⟩ := List.mem_map.mp h
    unfold dest at he
    split at he <;> cases he
    exact ⟨by assumption, by assumption, m, hm, rfl, rfl⟩
  · intro m hm h
    refine List.mem_map.mpr ⟨m, hm, ?_⟩
    simp [dest, h]

/-! ## C49 -/

theorem upTo_append_lt (n : Nat) (a b : List Msg) (h : a.countP Msg.IsApp < n) :
    upTo n (a ++ b) = a ++ upTo (n - a.countP Msg.IsApp) b := by
  induction a generalizing n with
  | nil => simp
  | cons m a ih =>
    cases n with
    | zero => omega
    | succ n =>
      simp only [List.cons_append, upTo, List.countP_cons] at *
      by_cases hm : m.IsApp = true
      · simp only [hm, if_true] at *
        rw [ih n (by omega), show n + 1 - (a.countP Msg.IsApp + 1) = n - a.countP Msg.IsApp by omega]
      · simp only [hm, if_false, Nat.add_zero, Bool.false_eq_true] at *
        rw [ih (n + 1) h]

theorem upTo_append_ge (n : Nat) (a b : List Msg) (h : n ≤ a.countP Msg.IsApp) :
    upTo n (a ++ b) = upTo n a := by
  induction a generalizing n with
  | nil =>
    have : n = 0 := by simpa using h
    subst this; simp [upTo]
  | cons m a ih =>
    cases n with
    | zero => simp [upTo]
    | succ n =>
      simp only [List.cons_append, upTo, List.countP_cons] at *
      by_cases hm : m.IsApp = true
      · simp only [hm, if_true] at *
        rw [ih n (by omega)]
      · simp only [hm, if_false, Nat.add_zero, Bool.false_eq_true] at *
        rw [ih (n + 1) h]

theorem closed_not_dest (env : Env) (ms : List Msg) : (ms.map (dest env)).contains .closed = false := by
  rw [List.contains_eq_any_beq, List.any_eq_false]
  intro e he
  obtain ⟨m, -, rfl⟩ := List.mem_map.mp he
  unfold dest
  split <;> simp

/-- A packet with these messages. -/
def packetOf (ms : List Msg) : W32 × Bytes := (BitVec.ofNat 32 (stream ms).length, stream ms)

theorem processAll_limit (cfg : Cfg) (hn : 0 < cfg.detachOnMessages) (env : Env)
    (hwait : ∀ e, env.waitsForAnswer e = false) (ps : List (List Msg))
    (hf : ∀ ms ∈ ps, ∀ m ∈ ms, m.Fits) (hw : ∀ ms ∈ ps, ∀ m ∈ ms, m.Whole)
    (hl : ∀ ms ∈ ps, (stream ms).length < 2 ^ 32) (s : Rcv) (hs : s.received < cfg.detachOnMessages) :
    ∃ s', processAll cfg env s (ps.map packetOf) =
      if ps.flatten.countP Msg.IsApp < cfg.detachOnMessages - s.received then
        .ok (s', ps.flatten.map (dest env))
      else .ok (s', (upTo (cfg.detachOnMessages - s.received) ps.flatten).map (dest env) ++ [.closed]) := by
  induction ps generalizing s with
  | nil => exact ⟨s, by simp [processAll]; omega⟩
  | cons ms ps ih =>
    have e : (BitVec.ofNat 32 (stream ms).length).toNat = (stream ms).length := by
      have := hl ms (by simp)
      simp only [BitVec.toNat_ofNat]; omega
    have hp : processIncomingMessages cfg env s (packetOf ms).1 (packetOf ms).2 =
        loop cfg env (stream ms).length s (stream ms) [] := by
      unfold processIncomingMessages packetOf
      simp only [e, Nat.min_self, List.take_length]
    rw [loop_limit cfg env hn hwait ms (hf ms (by simp)) (hw ms (by simp)) _ (Nat.le_refl _) s hs] at hp
    simp only [List.map_cons, processAll, hp, List.nil_append, List.flatten_cons, List.countP_append]
    by_cases hc : ms.countP Msg.IsApp < cfg.detachOnMessages - s.received
    · rw [if_pos hc]
      dsimp only
      rw [closed_not_dest]
      obtain ⟨s', hih⟩ := ih (fun ms h => hf ms (by simp [h])) (fun ms h => hw ms (by simp [h]))
        (fun ms h => hl ms (by simp [h])) { s with received := s.received + ms.countP Msg.IsApp }
        (by simp only; omega)
      refine ⟨s', ?_⟩
      simp only [Bool.false_eq_true, if_false]
      rw [hih]
      simp only
      rw [upTo_append_lt _ _ _ hc,
        show cfg.detachOnMessages - (s.received + ms.countP Msg.IsApp) =
          cfg.detachOnMessages - s.received - ms.countP Msg.IsApp by omega]
      by_cases hc2 : ps.flatten.countP Msg.IsApp < cfg.detachOnMessages - s.received - ms.countP Msg.IsApp
      · rw [if_pos hc2, if_pos (by omega)]; simp
      · rw [if_neg hc2, if_neg (by omega)]; simp
    · rw [if_neg hc]
      dsimp only
      refine ⟨{ s with received := cfg.detachOnMessages }, ?_⟩
      rw [if_pos (by simp [List.contains_eq_any_beq]), if_neg (by omega), upTo_append_ge _ _ _ (by omega)]

/-- C49 (restriction that holds): with DetachOnMessagesCount = n > 0 the deliveries of any sequence of
packets are exactly those up to and including the n-th application message, then the session closes
itself; with fewer application messages everything is delivered and it does not.
Missing for the full C49: sessions which, when the n-th message arrives, still wait for the answer in
a key exchange (`C49_violated`); fragmented messages, each fragment of which counts as a message
(`C49_fragments_count`). -/
theorem C49_limit_partial (cfg : Cfg) (hn : 0 < cfg.detachOnMessages) (env : Env)
    (hwait : ∀ e, env.waitsForAnswer e = false) (ps : List (List Msg))
    (hf : ∀ ms ∈ ps, ∀ m ∈ ms, m.Fits) (hw : ∀ ms ∈ ps, ∀ m ∈ ms, m.Whole)
    (hl : ∀ ms ∈ ps, (stream ms).length < 2 ^ 32) :
    ∃ s', processAll cfg env (Rcv.init cfg) (ps.map packetOf) =
      if ps.flatten.countP Msg.IsApp < cfg.detachOnMessages then .ok (s', ps.flatten.map (dest env))
      else .ok (s', (upTo cfg.detachOnMessages ps.flatten).map (dest env) ++ [.closed]) := by
  have := processAll_limit cfg hn env hwait ps hf hw hl (Rcv.init cfg) hn
  simpa [Rcv.init] using this

/-- The prefix delivered by C49 has exactly `n` application messages. -/
theorem upTo_count (n : Nat) (ms : List Msg) (h : n ≤ ms.countP Msg.IsApp) :
    (upTo n ms).countP Msg.IsApp = n := by
  induction ms generalizing n with
  | nil =>
    have : n = 0 := by simpa using h
    subst this; simp [upTo]
  | cons m ms ih =>
    cases n with
    | zero => simp [upTo]
    | succ n =>
      simp only [upTo, List.countP_cons] at *
      by_cases hm : m.IsApp = true
      · simp only [hm, if_true] at *; rw [ih n (by omega)]
      · simp only [hm, if_false, Nat.add_zero, Bool.false_eq_true] at *; rw [ih (n + 1) h]

/-- C49: never with option 0. -/
theorem C49_zero_never (cfg : Cfg) (hd : cfg.detachOnMessages = 0) (env : Env) (ps : List (List Msg))
    (hf : ∀ ms ∈ ps, ∀ m ∈ ms, m.Fits) (hw : ∀ ms ∈ ps, ∀ m ∈ ms, m.Whole)
    (hl : ∀ ms ∈ ps, (stream ms).length < 2 ^ 32) (s : Rcv) :
    processAll cfg env s (ps.map packetOf) = .ok (s, ps.flatten.map (dest env)) := by
  induction ps with
  | nil => rfl
  | cons ms ps ih =>
    simp only [List.map_cons, processAll]
    rw [show processIncomingMessages cfg env s (packetOf ms).1 (packetOf ms).2 = _ from
      C11_aggregate cfg hd env s ms (hf ms (by simp)) (hw ms (by simp)) (hl ms (by simp))]
    dsimp only
    rw [closed_not_dest, ih (fun ms h => hf ms (by simp [h])) (fun ms h => hw ms (by simp [h]))
      (fun ms h => hl ms (by simp [h]))]
    simp

/-- Options used in the witnesses. -/
def cfg1 : Cfg := { detachOnMessages := 1, maxChainIDDiff := 8, maxFragmented := 65536,
                    errorOnFails := some 3, detachOnFails := 0 }
/-- A default channel only, no handlers. -/
def env0 (w : Bool) : Env := { hasMessenger := fun _ => false, hasChan := fun t => t = 0xFFFFFFFC,
                               waitsForAnswer := fun _ => w }

/-- The effects, if it ended normally. -/
def events : Outcome Unit (Rcv × List Event) → Option (List Event)
  | .ok x => some x.2
  | _ => none

/-- C49 is violated: with DetachOnMessagesCount = 1, three application messages are delivered (and the
session stays open) while the session waits for the answer of a key exchange. -/
theorem C49_violated :
    events (processAll cfg1 (env0 true) (Rcv.init cfg1)
        ([[⟨0xFFFFFFFC, 1, [1]⟩], [⟨0xFFFFFFFC, 1, [2]⟩], [⟨0xFFFFFFFC, 1, [3]⟩]].map packetOf)) =
      some [.queued 0xFFFFFFFC [1], .queued 0xFFFFFFFC [2], .queued 0xFFFFFFFC [3]] := by
  decide +kernel

/-- A message that carries a fragment. -/
def fragMsg (id start total : Nat) (payload : Bytes) : Msg :=
  { type := 0xFFFFFFFC, flags := 2,
    payload := putLE 8 id ++ putLE 8 start ++ putLE 8 total ++ payload }

/-- C49 is violated also with fragmentation: every fragment counts, so that with
DetachOnMessagesCount = 1 the session closes itself before any message was delivered. -/
theorem C49_fragments_count :
    events (processAll cfg1 (env0 false) (Rcv.init cfg1)
        ([[fragMsg 1 0 128 (List.replicate 64 7)], [fragMsg 1 64 128 (List.replicate 64 7)]].map packetOf)) =
      some [.closed] := by
  decide +kernel

example : let ps : List (List Msg) := [[⟨0xFFFFFFFE, 0, [9]⟩, ⟨0xFFFFFFFC, 1, [1]⟩, ⟨5, 1, [2]⟩]]
    (∀ ms ∈ ps, ∀ m ∈ ms, Msg.Fits m) ∧ (∀ ms ∈ ps, ∀ m ∈ ms, Msg.Whole m) ∧
    (∀ ms ∈ ps, (stream ms).length < 2 ^ 32) ∧ cfg1.detachOnMessages ≤ ps.flatten.countP Msg.IsApp ∧
    (upTo 1 ps.flatten).map (dest (env0 false)) = [.ignored 0xFFFFFFFE [9], .queued 0xFFFFFFFC [1]] := by
  refine ⟨?_, ?_, by decide, by decide, by decide⟩
  · unfold Msg.Fits; decide
  · unfold Msg.Whole; decide

/-! ## C24: fragments of different messages -/

theorem fragStep_other (cfg : Cfg) (s : Rcv) (f : FragHdr) (p : Bytes) (s' : Rcv) (r : Option Bytes)
    (hle : f.chainID.toNat ≤ s.last) (h : fragStep cfg s f p = some (s', r)) (j : Nat)
    (hj : j ≠ f.chainID.toNat % cfg.maxChainIDDiff) :
    s'.last = s.last ∧ s'.pending[j]? = s.pending[j]? := by
  unfold fragStep at h
  have ha : advance s f.chainID.toNat = s := by unfold advance; rw [if_neg (by omega)]
  simp only [ha] at h
  split at h
  · cases h; exact ⟨rfl, rfl⟩
  · split at h
    · cases h
    · split at h
      · cases h
      · split at h
        · cases h; exact ⟨rfl, rfl⟩
        · cases hm : mergeSlot ‹Chain› f.startPos.toNat p with
          | none => simp_all
          | some x =>
            simp only [hm, Option.map_some, Option.some.injEq, Prod.mk.injEq] at h
            obtain ⟨rfl, -⟩ := h
            refine ⟨rfl, ?_⟩
            simp only [List.getElem?_set]
            rw [if_neg (fun h => hj h.symm)]

theorem fragStep_same (cfg : Cfg) (s t : Rcv) (f : FragHdr) (p : Bytes) (s' : Rcv) (r : Option Bytes)
    (hle : f.chainID.toNat ≤ s.last) (hlast : s.last = t.last)
    (hslot : s.pending[f.chainID.toNat % cfg.maxChainIDDiff]? =
      t.pending[f.chainID.toNat % cfg.maxChainIDDiff]?)
    (h : fragStep cfg s f p = some (s', r)) :
    ∃ t', fragStep cfg t f p = some (t', r) ∧ s'.last = t'.last ∧ s'.last = s.last ∧
      s'.pending[f.chainID.toNat % cfg.maxChainIDDiff]? =
        t'.pending[f.chainID.toNat % cfg.maxChainIDDiff]? := by
  unfold fragStep at h ⊢
  have ha : advance s f.chainID.toNat = s := by unfold advance; rw [if_neg (by omega)]
  have hb : advance t f.chainID.toNat = t := by unfold advance; rw [if_neg (by omega)]
  simp only [ha] at h
  simp only [hb, ← hlast, ← hslot]
  split at h
  · cases h; rename_i hh; exact ⟨t, by rw [if_pos hh], hlast, rfl, hslot⟩
  · rename_i hh
    rw [if_neg hh]
    split at h
    · cases h
    · rename_i hh2
      rw [if_neg hh2]
      split at h
      · cases h
      · rename_i c hc
        split at h
        · cases h; exact ⟨t, rfl, hlast, rfl, hslot⟩
        · rename_i c1 hp
          cases hm : mergeSlot c1 f.startPos.toNat p with
          | none => rw [hm] at h; cases h
          | some x =>
            rw [hm] at h
            simp only [Option.map_some, Option.some.injEq, Prod.mk.injEq] at h
            obtain ⟨rfl, rfl⟩ := h
            refine ⟨_, rfl, rfl, rfl, ?_⟩
            have h1 : f.chainID.toNat % cfg.maxChainIDDiff < s.pending.length :=
              (List.getElem?_eq_some_iff.mp hc).1
            have h2 : f.chainID.toNat % cfg.maxChainIDDiff < t.pending.length :=
              (List.getElem?_eq_some_iff.mp (hslot ▸ hc)).1
            simp only [List.getElem?_set_self h1, List.getElem?_set_self h2]

theorem noninterference (cfg : Cfg) (c : W64) (fs : List (FragHdr × Bytes)) (s t : Rcv)
    (hlast : s.last = t.last)
    (hwin : ∀ f ∈ fs, f.1.chainID.toNat ≤ s.last ∧ s.last - f.1.chainID.toNat < cfg.maxChainIDDiff)
    (hc : c.toNat ≤ s.last ∧ s.last - c.toNat < cfg.maxChainIDDiff)
    (hslot : s.pending[c.toNat % cfg.maxChainIDDiff]? = t.pending[c.toNat % cfg.maxChainIDDiff]?)
    (rs : List (W64 × Option Bytes)) (h : fragRun cfg s fs = some rs) :
    fragRun cfg t (fs.filter (fun f => f.1.chainID = c)) = some (rs.filter (fun r => r.1 = c)) := by
  induction fs generalizing s t rs with
  | nil => cases h; rfl
  | cons f fs ih =>
    simp only [fragRun] at h
    cases hs : fragStep cfg s f.1 f.2 with
    | none => rw [hs] at h; cases h
    | some x =>
      obtain ⟨s', r⟩ := x
      rw [hs] at h
      cases hr : fragRun cfg s' fs with
      | none => simp [hr] at h
      | some rs' =>
        simp only [hr, Option.map_some, Option.some.injEq] at h
        subst h
        have hf := hwin f (by simp)
        by_cases hid : f.1.chainID = c
        · subst hid
          obtain ⟨t', ht, h1, h2, h3⟩ := fragStep_same cfg s t f.1 f.2 s' r hf.1 hlast hslot hs
          have := ih s' t' h1 (fun g hg => by rw [h2]; exact hwin g (by simp [hg])) (by rw [h2]; exact hc)
            h3 rs' hr
          simp only [List.filter_cons, decide_true, if_true, fragRun, ht, this, Option.map_some]
        · have hne : c.toNat % cfg.maxChainIDDiff ≠ f.1.chainID.toNat % cfg.maxChainIDDiff := by
            intro he
            apply hid
            apply BitVec.eq_of_toNat_eq
            generalize f.1.chainID.toNat = a at *
            generalize c.toNat = b at *
            generalize cfg.maxChainIDDiff = D at *
            have h1 : ∀ x y : Nat, y ≤ x → x - y < D → x % D = y % D → x = y := by
              intro x y hxy hd hm
              have : (x - y) % D = 0 := Nat.sub_mod_eq_zero_of_mod_eq hm
              rw [Nat.mod_eq_of_lt hd] at this
              omega
            rcases Nat.le_total a b with hab | hab
            · exact (h1 b a hab (by omega) he).symm
            · exact h1 a b hab (by omega) he.symm
          obtain ⟨h1, h2⟩ := fragStep_other cfg s f.1 f.2 s' r hf.1 hs _ hne
          have := ih s' t (h1.trans hlast) (fun g hg => by rw [h1]; exact hwin g (by simp [hg]))
            (by rw [h1]; exact hc) (h2.trans hslot) rs' hr
          simp only [List.filter_cons, hid, decide_false, Bool.false_eq_true, if_false, this]

/-- C24 (restriction that holds): while no newer message begins, and with all chain IDs less than
MaxChainIDDiff behind the newest one, messages do not influence each other: the results for the fragments
of message `c`, in any interleaving with fragments of other messages, are the same as if only the
fragments of `c` had arrived.
Missing for the full C24: a newer message destroys all incomplete ones (`C24_violated_loss`); a message
exactly MaxChainIDDiff behind shares a slot with the newest (`C24_violated_mix`). -/
theorem C24_noninterference_partial (cfg : Cfg) (s : Rcv) (c : W64) (fs : List (FragHdr × Bytes))
    (hwin : ∀ f ∈ fs, f.1.chainID.toNat ≤ s.last ∧ s.last - f.1.chainID.toNat < cfg.maxChainIDDiff)
    (hc : c.toNat ≤ s.last ∧ s.last - c.toNat < cfg.maxChainIDDiff)
    (rs : List (W64 × Option Bytes)) (h : fragRun cfg s fs = some rs) :
    fragRun cfg s (fs.filter (fun f => f.1.chainID = c)) = some (rs.filter (fun r => r.1 = c)) :=
  noninterference cfg c fs s s rfl hwin hc rfl rs h

/-- Default options. -/
def cfg0 : Cfg := { cfg1 with detachOnMessages := 0 }

/-- Two 128-byte messages in two fragments each. -/
def fragA (start : Nat) : FragHdr × Bytes := (⟨8, BitVec.ofNat 64 start, 128⟩, List.replicate 64 65)
def fragB (id : Nat) (start : Nat) : FragHdr × Bytes :=
  (⟨BitVec.ofNat 64 id, BitVec.ofNat 64 start, 128⟩, List.replicate 64 66)

example : (∀ f ∈ [fragA 0, fragB 9 0, fragA 64, fragB 9 64],
      f.1.chainID.toNat ≤ ({ Rcv.init cfg0 with last := 9 } : Rcv).last ∧
      ({ Rcv.init cfg0 with last := 9 } : Rcv).last - f.1.chainID.toNat < cfg0.maxChainIDDiff) ∧
    fragRun cfg0 { Rcv.init cfg0 with last := 9 } [fragA 0, fragB 9 0, fragA 64, fragB 9 64] =
      some [(8, none), (9, none), (8, some (List.replicate 128 65)), (9, some (List.replicate 128 66))] := by
  decide +kernel

/-- C24 is violated (loss): all fragments of both messages arrive, the first of the newer message in
between; the older message is never delivered. -/
theorem C24_violated_loss :
    fragRun cfg0 (Rcv.init cfg0) [fragA 0, fragB 9 0, fragA 64, fragB 9 64] =
      some [(8, none), (9, none), (8, none), (9, some (List.replicate 128 66))] := by
  decide +kernel

/-- C24 is violated (mixture): a late fragment of message 8 completes message 16; half of the delivered
message belongs to the other one. -/
theorem C24_violated_mix :
    fragRun cfg0 (Rcv.init cfg0) [fragB 16 0, fragA 64] =
      some [(16, none), (8, some (List.replicate 64 66 ++ List.replicate 64 65))] := by
  decide +kernel

/-! ## C25, C26 -/

/-- C25 (restriction that holds): a running session never hangs on a packet, and if a packet crashes it
then its decrypted content has a fragment header with a start position of 2^64 - 2^32 or more. -/
theorem C25_receiver_partial (C : Packet.Crypto) (cfg : Cfg) (ok : CfgOK cfg) (env : Env) (size : Int)
    (hsize : size < 2 ^ 62) (r : Reader) (vs : List Verdict) (h : Reach C cfg env size r vs)
    (keys : Keys) (kok : Packet.KeysOK keys.aux keys.cipher keys.remote) (p : Bytes) :
    (∃ r' evs c, readerStep C cfg env keys r p = .ok (r', evs, c)) ∨
    (readerStep C cfg env keys r p = .panic ∧
      ∃ hdr msgs i fh, Packet.decrypt C keys.aux keys.cipher keys.remote p = .ok (hdr, msgs) ∧
        FragHdr.read (msgs.drop i) = .ok fh ∧ 2 ^ 64 - 2 ^ 32 ≤ fh.startPos.toNat) := by
  obtain ⟨h1, h2⟩ := reach_inv C cfg ok env size hsize r vs h
  rcases readerStep_total C cfg ok env keys kok r h1 h2 p with ⟨r', evs, c, h, -, -⟩ | h
  · exact .inl ⟨r', evs, c, h⟩
  · exact .inr h

/-- A fragment of one byte with start position 2^64 - 1. -/
def deadlyMsg (id : W64) : Msg :=
  ⟨0xFFFFFFFC, 2, putLE 8 id.toNat ++ (putLE 8 (2 ^ 64 - 1) ++ (putLE 8 1 ++ [0]))⟩

/-- The content of the packet of death. -/
def deadly (id : W64) : Bytes := (deadlyMsg id).bytes

theorem deadly_panics (cfg : Cfg) (ok : CfgOK cfg) (hmax : 0 < cfg.maxFragmented) (env : Env) (s : Rcv)
    (h : Inv cfg s) (id : W64) (hid : s.last < id.toNat) :
    processIncomingMessages cfg env s 34 (deadly id) = .panic := by
  have hlen : (deadly id).length = 34 := by simp [deadly, deadlyMsg, bytes_length, putLE_length]
  unfold processIncomingMessages
  simp only
  rw [hlen, show min 34 (34 : W32).toNat = 34 from rfl, ← hlen, List.take_length]
  have hfits : Msg.Fits (deadlyMsg id) := by
    simp [Msg.Fits, deadlyMsg, putLE_length]
  have e1 := read_bytes _ hfits []
  have e2 := (payload_bytes (deadlyMsg id) []).1
  have e3 := ofNat_len _ hfits
  rw [List.append_nil] at e1 e2
  change MsgHdr.read ((deadly id).take messageHeadersSize) = _ at e1
  change ((deadly id).drop messageHeadersSize).take _ = _ at e2
  generalize hb : deadly id = b at *
  cases b with
  | nil => simp at hlen
  | cons x xs =>
    generalize hbb : x :: xs = b at *
    rw [hlen, loop.eq_def, ← hbb]
    dsimp only
    rw [hbb, if_neg (by rw [hlen, messageHeadersSize]; omega), e1]
    dsimp only
    rw [e3, e2, if_neg (by rw [hlen]; simp [deadlyMsg, putLE_length, messageHeadersSize])]
    have key : ∀ s : Rcv, Inv cfg s → s.last < id.toNat →
        fragStep cfg s ⟨id, BitVec.ofNat 64 (2 ^ 64 - 1), 1⟩ [0] = none := by
      intro s h hid
      have ha : advance s id.toNat = { s with last := id.toNat, pending := s.pending.map reset } := by
        unfold advance; rw [if_pos hid]
      unfold fragStep
      simp only [ha]
      rw [if_neg (by omega), if_neg (by have := ok.diff; omega)]
      have hlt : id.toNat % cfg.maxChainIDDiff < s.pending.length := by
        rw [h.len]; exact Nat.mod_lt _ ok.diff
      rw [List.getElem?_map, List.getElem?_eq_getElem hlt]
      simp only [Option.map_some]
      have hs := h.slots _ (List.getElem_mem hlt)
      generalize s.pending[id.toNat % cfg.maxChainIDDiff] = c at *
      have hslot := (slotInv_reset cfg c hs).slot
      have hp : prepare cfg (reset c) (1 : W64).toNat = some (PendingChain.init (reset c) 1) := by
        unfold prepare
        rw [if_pos (show (reset c).expected = 0 from rfl),
          if_neg (by rw [show (1 : W64).toNat = 1 from rfl]; omega)]; rfl
      rw [hp]
      dsimp only
      have hm : merge (PendingChain.init (reset c) 1) (2 ^ 64 - 1) [0] = .panic := by
        obtain ⟨h1, h2, h3, h4, h5⟩ := init_wf _ hslot 1
        unfold merge
        rw [h5, h2, if_neg (by omega)]
        simp only [List.length_singleton]
        rw [if_neg (by omega), if_pos]
        rw [h4]
        have := (slotInv_reset cfg c hs).data
        have := ok.max
        split
        · omega
        · simp
      have hst : (BitVec.ofNat 64 (2 ^ 64 - 1)).toNat = 2 ^ 64 - 1 := by decide
      simp only [mergeSlot, hst, hm, Option.map_none]
    simp only [deadlyMsg]
    have hfr : FragHdr.read (putLE 8 id.toNat ++ (putLE 8 (2 ^ 64 - 1) ++ (putLE 8 1 ++ [0]))) =
        .ok ⟨id, BitVec.ofNat 64 (2 ^ 64 - 1), 1⟩ := by
      unfold FragHdr.read
      rw [if_neg (by simp [putLE_length, fragmentHeadersSize])]
      simp only [take_app (putLE_length 8 _), drop_app (putLE_length 8 _), ofNat_getLE_putLE64]
      congr 2
    have hdrop : (putLE 8 id.toNat ++ (putLE 8 (2 ^ 64 - 1) ++ (putLE 8 1 ++ [0]))).drop
        fragmentHeadersSize = [0] := by
      rw [← List.append_assoc, ← List.append_assoc]
      exact drop_app (by simp [putLE_length, fragmentHeadersSize])
    unfold processOne
    rw [if_pos (show isFragmented 2 = true by decide), hfr]
    dsimp only
    rw [hdrop]
    have hif : ∀ (P : Prop) [Decidable P],
        Inv cfg (if P then { s with received := s.received + 1 } else s) ∧
        (if P then { s with received := s.received + 1 } else s).last < id.toNat := by
      intro P _
      split
      · exact ⟨⟨h.len, h.slots⟩, hid⟩
      · exact ⟨h, hid⟩
    rw [key]
    · exact (hif _).1
    · exact (hif _).2

/-- C25 is violated, even by an outsider: for every running session without PSK there is a packet which
anybody can compute without any key and which crashes the process — provided its packet ID is accepted
by the replay filter and the exchanged keys do not accidentally match its header tag. -/
theorem C25_violated (C : Packet.Crypto) (cfg : Cfg) (ok : CfgOK cfg) (hmax : 0 < cfg.maxFragmented)
    (env : Env) (size : Int) (hsize : size < 2 ^ 62) (r : Reader) (vs : List Verdict)
    (h : Reach C cfg env size r vs) (keys : Keys) (haux : keys.aux = none) (sid : SessID)
    (hrem : keys.remote = some sid) (hk : ∀ k ∈ keys.cipher, Packet.KeyOK k) (pid : W64)
    (hid : ∃ c', r.ids.step pid = some (c', true)) (chain : W64) (hch : r.rcv.last < chain.toNat)
    (hx : ∀ k ∈ keys.cipher, k ≠ none → ¬ Packet.HeaderOK C k (packetIDBytes pid)
      (sid.bytes ++ packetIDBytes pid)
      ((Packet.plainPacket C none (packetIDBytes pid) (deadly chain)).drop 8)) :
    readerStep C cfg env keys r (Packet.plainPacket C none (packetIDBytes pid) (deadly chain)) = .panic := by
  obtain ⟨h1, h2⟩ := reach_inv C cfg ok env size hsize r vs h
  obtain ⟨hdr, hd, hpid, hl⟩ := Packet.C14_violated C keys.cipher sid hk pid (deadly chain) hx
  have hlen : (deadly chain).length = 34 := by simp [deadly, deadlyMsg, bytes_length, putLE_length]
  have hl : hdr.length = 34 := by rw [hl, hlen]; rfl
  unfold readerStep
  rw [haux, hrem, hd]
  dsimp only
  obtain ⟨c', hc'⟩ := hid
  rw [hpid, hc']
  dsimp only
  rw [hl, deadly_panics cfg ok hmax env r.rcv h1 chain hch]

/-- The hypotheses of `C25_violated` are met by a new session with the default options and without PSK,
before any key exchange is finished (the remote session ID may be anything: no key uses it). -/
theorem C25_violated_new_session (C : Packet.Crypto) (env : Env) (sid : SessID) :
    readerStep C cfg0 env ⟨none, [none, none, none, none], some sid⟩ (Reader.init cfg0 0)
      (Packet.plainPacket C none (packetIDBytes 1) (deadly 1)) = .panic := by
  refine C25_violated C cfg0 ⟨by decide, by decide⟩ (by decide) env 0 (by decide) _ [] .init
    ⟨none, [none, none, none, none], some sid⟩ rfl sid rfl ?_ 1
    ⟨{ stor := some { latest := 1, table := [1, 0, 0, 0] }, unexpected := 0 }, ?_⟩ 1 (by decide) ?_
  · intro k hk b hb
    simp only [List.mem_cons, List.not_mem_nil, or_false, or_self] at hk
    subst hk; cases hb
  · decide +kernel
  · intro k hk hk'
    simp only [List.mem_cons, List.not_mem_nil, or_false, or_self] at hk
    exact absurd hk hk'

/-- C26: in every state of a session there are exactly MaxChainIDDiff buffers, none longer than
MaxFragmentedMessageSize, with at most one bookkeeping bit per byte (rounded up to words). -/
theorem C26_memory (C : Packet.Crypto) (cfg : Cfg) (ok : CfgOK cfg) (env : Env) (size : Int)
    (hsize : size < 2 ^ 62) (r : Reader) (vs : List Verdict) (h : Reach C cfg env size r vs) :
    r.rcv.pending.length = cfg.maxChainIDDiff ∧
    (∀ c ∈ r.rcv.pending, c.data.length ≤ cfg.maxFragmented ∧
      c.isSet.length ≤ (cfg.maxFragmented + 63) / 64) ∧
    (r.rcv.pending.map (·.data.length)).sum ≤ cfg.maxChainIDDiff * cfg.maxFragmented := by
  obtain ⟨h1, -⟩ := reach_inv C cfg ok env size hsize r vs h
  have hb : ∀ c ∈ r.rcv.pending, c.data.length ≤ cfg.maxFragmented := fun c hc => (h1.slots c hc).data
  refine ⟨h1.len, fun c hc => ⟨hb c hc, ?_⟩, ?_⟩
  · rw [(h1.slots c hc).slot.isSetLen]; have := hb c hc; omega
  · rw [← h1.len]
    generalize r.rcv.pending = l at hb
    clear h1
    induction l with
    | nil => simp
    | cons c l ih =>
      have := hb c (by simp)
      have := ih (fun c hc => hb c (by simp [hc]))
      simp only [List.map_cons, List.sum_cons, List.length_cons, Nat.succ_mul]
      omega

example : CfgOK cfg0 ∧ CfgOK cfg1 := ⟨⟨by decide, by decide⟩, ⟨by decide, by decide⟩⟩

/-! ## C47, C48 -/

/-- C47 (restriction that holds, option > 0): a running session stops exactly at the packet which makes
the run of undecryptable packets as long as the option says. -/
theorem C47_detach_partial (C : Packet.Crypto) (cfg : Cfg) (hD : 0 < cfg.detachOnFails) (env : Env)
    (size : Int) (r : Reader) (vs : List Verdict) (h : Reach C cfg env size r vs)
    (keys : Keys) (p : Bytes) (r' : Reader) (evs : List Event) (continues : Bool)
    (hs : readerStep C cfg env keys r p = .ok (r', evs, continues)) :
    streak vs < cfg.detachOnFails ∧
    (continues = false ↔ streak (verdict C keys r p :: vs) = cfg.detachOnFails) := by
  obtain ⟨h1, h2⟩ := reach_fails C cfg env size r vs h
  have h2 := h2 hD
  refine ⟨by omega, ?_⟩
  unfold readerStep at hs
  unfold verdict
  split at hs
  · cases hs
  · cases hs
  · next e he =>
    simp only [decryptError, Outcome.ok.injEq, Prod.mk.injEq] at hs
    obtain ⟨-, -, hc⟩ := hs
    rw [he, ← hc]
    simp only [streak, decide_eq_false_iff_not]
    omega
  · next hdr msgs he =>
    rw [he]
    dsimp only
    cases hids : r.ids.step (packetIDValue hdr.packetID) with
    | none => rw [hids] at hs; cases hs
    | some x =>
      obtain ⟨ids, b⟩ := x
      rw [hids] at hs
      cases b with
      | false =>
        cases hs
        simp only [streak]
        constructor
        · intro h; cases h
        · omega
      | true =>
        dsimp only at hs
        split at hs <;> cases hs
        simp only [streak]
        constructor
        · intro h; cases h
        · omega

/-- C47 is violated for option 0 ("never"): the first undecryptable packet stops the session, whatever
came before. -/
theorem C47_violated (C : Packet.Crypto) (cfg : Cfg) (h0 : cfg.detachOnFails = 0) (env : Env)
    (keys : Keys) (r : Reader) (p : Bytes) (e : Packet.DecryptErr)
    (hp : Packet.decrypt C keys.aux keys.cipher keys.remote p = .err e) :
    ∃ r' evs, readerStep C cfg env keys r p = .ok (r', evs, false) := by
  unfold readerStep
  rw [hp]
  simp [decryptError, h0]

example : cfg0.detachOnFails = 0 ∧
    Packet.decrypt Packet.toy none [none] none [1, 2, 3] = .err (.tooShort ⟨44, 3⟩) := by decide

/-- C48: with option `k` (nil means 3, 0 means never) an undecryptable packet is reported exactly if it
makes the run of undecryptable packets `k` or longer; other packets report no decryption error. -/
theorem C48_error (C : Packet.Crypto) (cfg : Cfg) (o : Option Nat) (ho : cfg.errorOnFails = errorOption o)
    (env : Env) (size : Int) (r : Reader) (vs : List Verdict) (h : Reach C cfg env size r vs)
    (keys : Keys) (p : Bytes) (e : Packet.DecryptErr)
    (hp : Packet.decrypt C keys.aux keys.cipher keys.remote p = .err e) :
    ∃ r' evs c, readerStep C cfg env keys r p = .ok (r', evs, c) ∧
      verdict C keys r p = .bad ∧
      (evs = [.errDecrypt e] ∨ evs = []) ∧
      (evs = [.errDecrypt e] ↔ o ≠ some 0 ∧ o.getD 3 ≤ streak (.bad :: vs)) := by
  obtain ⟨h1, -⟩ := reach_fails C cfg env size r vs h
  unfold readerStep
  rw [hp]
  refine ⟨_, _, _, rfl, by simp [verdict, hp], ?_, ?_⟩
  · simp only [decryptError]
    split
    · split
      · exact .inl rfl
      · exact .inr rfl
    · exact .inr rfl
  · simp only [decryptError, ho, streak, h1]
    match o with
    | none =>
      simp only [errorOption, Option.getD_none]
      by_cases hk : streak vs + 1 ≥ 3
      · rw [if_pos hk]; simp; omega
      · rw [if_neg hk]; simp; omega
    | some 0 => simp [errorOption]
    | some (k + 1) =>
      simp only [errorOption, Option.getD_some]
      by_cases hk : streak vs + 1 ≥ k + 1
      · rw [if_pos hk]; simp; omega
      · rw [if_neg hk]; simp; omega

/-- C48: packets that decrypt never report a decryption error. -/
theorem C48_no_error (C : Packet.Crypto) (cfg : Cfg) (env : Env) (r : Reader) (keys : Keys) (p : Bytes)
    (r' : Reader)
    (evs : List Event) (c : Bool) (hs : readerStep C cfg env keys r p = .ok (r', evs, c))
    (hv : verdict C keys r p ≠ .bad) : ∀ e, .errDecrypt e ∉ evs := by
  have aux : ∀ (fuel : Nat) (s : Rcv) (rest : Bytes) (ev : List Event) s' ev',
      loop cfg env fuel s rest ev = .ok (s', ev') → (∀ e, .errDecrypt e ∉ ev) → ∀ e, .errDecrypt e ∉ ev' := by
    intro fuel
    induction fuel with
    | zero =>
      intro s rest ev s' ev' hl hn
      cases rest with
      | nil => rw [loop_nil] at hl; cases hl; exact hn
      | cons x xs => simp [loop] at hl
    | succ fuel ih =>
      intro s rest ev s' ev' hl hn
      have hpim : ∀ t b e, processIncomingMessage env t b ≠ .errDecrypt e := by
        intro t b e
        unfold processIncomingMessage
        cases env.hasMessenger t <;> cases env.hasChan t <;> simp
      cases rest with
      | nil => rw [loop_nil] at hl; cases hl; exact hn
      | cons x xs =>
        rw [loop.eq_def] at hl
        dsimp only at hl
        split at hl
        · cases hl; intro e; simp [hn e]
        · split at hl
          · split at hl
            · cases hl; intro e; simp [hn e]
            · have hone : ∀ s hdr msg, (∀ s' e l, processOne cfg env s hdr msg = .next s' e l →
                  ∀ x, .errDecrypt x ∉ e) ∧ (∀ s' e, processOne cfg env s hdr msg = .stop s' e →
                  ∀ x, .errDecrypt x ∉ e) := by
                intro s hdr msg
                constructor
                · intro s' e l hh x
                  unfold processOne at hh
                  split at hh
                  · split at hh
                    · split at hh
                      · cases hh
                      · cases hh; simp
                      · cases hh; simp [(hpim _ _ _).symm]
                    · cases hh
                    · cases hh
                    · cases hh
                  · cases hh; simp [(hpim _ _ _).symm]
                · intro s' e hh x
                  unfold processOne at hh
                  split at hh
                  · split at hh
                    · split at hh <;> cases hh
                    · cases hh; simp
                    · cases hh
                    · cases hh
                  · cases hh
              split at hl
              · cases hl
              · next hst => cases hl; intro e; simp [hn e, (hone _ _ _).2 _ _ hst e]
              · next hnx =>
                have hno : ∀ x, .errDecrypt x ∉ (ev ++ ‹List Event›) := by
                  intro x; simp [hn x, (hone _ _ _).1 _ _ _ hnx x]
                split at hl
                · split at hl
                  · cases hl; exact hno
                  · cases hl; intro e
                    have := hno e
                    simp only [List.mem_append, not_or] at this ⊢
                    exact ⟨this, by simp⟩
                · exact ih _ _ _ _ _ hl hno
          · cases hl
  unfold readerStep at hs
  unfold verdict at hv
  split at hs
  · cases hs
  · cases hs
  · next he => rw [he] at hv; simp at hv
  · split at hs
    · cases hs
    · cases hs; simp
    · split at hs
      · cases hs
      · cases hs
      · cases hs
      · next hp => cases hs; exact aux _ _ _ _ _ _ hp (by simp)

/-! ### "Sequential" to the letter

`streak` passes over packets that are dropped because of their packet IDs. -/

theorem streak_strict : ∀ (vs : List Verdict), .duplicate ∉ vs → streak vs = strictStreak vs
  | [], _ => rfl
  | .bad :: vs, h => by simp only [streak, strictStreak, streak_strict vs (fun hm => h (List.mem_cons_of_mem _ hm))]
  | .good :: _, _ => rfl
  | .duplicate :: _, h => absurd List.mem_cons_self h

/-- C47 to the letter, if no packet is dropped because of its ID. -/
theorem C47_strict_partial (C : Packet.Crypto) (cfg : Cfg) (hD : 0 < cfg.detachOnFails) (env : Env)
    (size : Int) (r : Reader) (vs : List Verdict) (h : Reach C cfg env size r vs) (hn : .duplicate ∉ vs)
    (keys : Keys) (p : Bytes) (hp : verdict C keys r p ≠ .duplicate) (r' : Reader) (evs : List Event) (continues : Bool)
    (hs : readerStep C cfg env keys r p = .ok (r', evs, continues)) :
    continues = false ↔ strictStreak (verdict C keys r p :: vs) = cfg.detachOnFails := by
  rw [← streak_strict (verdict C keys r p :: vs) (by
    simp only [List.mem_cons, not_or]; exact ⟨fun e => hp e.symm, hn⟩)]
  exact (C47_detach_partial C cfg hD env size r vs h keys p r' evs continues hs).2

/-- C48 to the letter, if no packet is dropped because of its ID.  Missing: packets that are dropped, see `C48_violated`. -/
theorem C48_partial (C : Packet.Crypto) (cfg : Cfg) (o : Option Nat) (ho : cfg.errorOnFails = errorOption o)
    (env : Env) (size : Int) (r : Reader) (vs : List Verdict) (h : Reach C cfg env size r vs) (hn : .duplicate ∉ vs)
    (keys : Keys) (p : Bytes) (e : Packet.DecryptErr)
    (hp : Packet.decrypt C keys.aux keys.cipher keys.remote p = .err e) :
    ∃ r' evs c, readerStep C cfg env keys r p = .ok (r', evs, c) ∧ (evs = [.errDecrypt e] ∨ evs = []) ∧
      (evs = [.errDecrypt e] ↔ o ≠ some 0 ∧ o.getD 3 ≤ strictStreak (.bad :: vs)) := by
  obtain ⟨r', evs, c, h1, -, h2, h3⟩ := C48_error C cfg o ho env size r vs h keys p e hp
  refine ⟨r', evs, c, h1, h2, ?_⟩
  rw [h3, streak_strict (.bad :: vs) (by simpa using hn)]

/-- The reader over some packets, with their verdicts; `none` if it stops. -/
def follow (C : Packet.Crypto) (cfg : Cfg) (env : Env) (keys : Keys) : Reader → List Verdict → List Bytes → Option (Reader × List Verdict)
  | r, vs, [] => some (r, vs)
  | r, vs, p :: ps =>
    match readerStep C cfg env keys r p with
    | .ok (r', _, true) => follow C cfg env keys r' (verdict C keys r p :: vs) ps
    | _ => none

theorem follow_reach {C : Packet.Crypto} {cfg : Cfg} {env : Env} {keys : Keys} {size : Int} : ∀ {ps : List Bytes} {r r' : Reader}
    {vs vs' : List Verdict}, Reach C cfg env size r vs → follow C cfg env keys r vs ps = some (r', vs') → Reach C cfg env size r' vs'
  | [], _, _, _, _, h, hf => by cases hf; exact h
  | p :: ps, r, _, vs, _, h, hf => by
    simp only [follow] at hf
    split at hf
    · rename_i r1 evs h1
      exact follow_reach (Reach.step keys p h h1) hf
    · cases hf

/-- A packet without encryption, as the other side sends it before there are keys. -/
def plainOne : Bytes := (Packet.sealPacket Packet.toy none none ⟨1, 2⟩ false 1 []).getD []

/-- The configuration with the value `n` for both options; three bytes which are no packet; no keys. -/
def cfgFails (n : Nat) : Cfg := { cfg0 with detachOnFails := n, errorOnFails := some n }
def noPacket : Bytes := [1, 2, 3]
def keyless : Keys := ⟨none, [none], none⟩

/-- The reader after the packet 1. -/
def afterOne : Reader :=
  match readerStep Packet.toy cfg0 (env0 false) keyless (Reader.init cfg0 0) plainOne with
  | .ok (r, _, _) => r
  | _ => Reader.init cfg0 0

/-- And after the packet 1 has come again. -/
def afterTwice : Reader :=
  match readerStep Packet.toy cfg0 (env0 false) keyless afterOne plainOne with
  | .ok (r, _, _) => r
  | _ => Reader.init cfg0 0

theorem step_noPacket (n : Nat) (r : Reader) :
    readerStep Packet.toy (cfgFails n) (env0 false) keyless r noPacket =
      .ok ({ r with fails := r.fails + 1 }, if r.fails + 1 ≥ n then [.errDecrypt (.tooShort ⟨44, 3⟩)] else [], decide (¬ r.fails + 1 ≥ n)) ∧
    verdict Packet.toy keyless r noPacket = .bad := ⟨rfl, rfl⟩

theorem follow_noPacket (n : Nat) : ∀ (k : Nat) (r : Reader) (vs : List Verdict) (rest : List Bytes), r.fails + k < n →
    follow Packet.toy (cfgFails n) (env0 false) keyless r vs (List.replicate k noPacket ++ rest) =
      follow Packet.toy (cfgFails n) (env0 false) keyless { r with fails := r.fails + k } (List.replicate k .bad ++ vs) rest
  | 0, r, vs, rest, _ => rfl
  | k + 1, r, vs, rest, h => by
    have hd : decide (¬ r.fails + 1 ≥ n) = true := by simp; omega
    rw [List.replicate_succ, List.cons_append, follow, (step_noPacket n r).1, hd, (step_noPacket n r).2]
    simp only
    rw [follow_noPacket n k _ _ rest (by simp only; omega)]
    simp only [show r.fails + 1 + k = r.fails + (k + 1) by omega, List.replicate_succ', List.append_assoc, List.cons_append, List.nil_append]

/-- C47 and C48 to the letter are violated for every option `n` of at least 2: a good packet, `n - 1` bad ones, the good one again, a bad
one.  The last one is the only bad one in a row, and yet it stops the session, and is reported. -/
theorem C48_violated (n : Nat) (hn : 2 ≤ n) : ∃ r vs, Reach Packet.toy (cfgFails n) (env0 false) 0 r vs ∧
    strictStreak (verdict Packet.toy keyless r noPacket :: vs) = 1 ∧
    ∃ r', readerStep Packet.toy (cfgFails n) (env0 false) keyless r noPacket = .ok (r', [.errDecrypt (.tooShort ⟨44, 3⟩)], false) := by
  have h : follow Packet.toy (cfgFails n) (env0 false) keyless (Reader.init (cfgFails n) 0) []
      (plainOne :: (List.replicate (n - 1) noPacket ++ [plainOne])) =
      some (⟨afterTwice.rcv, afterTwice.ids, n - 1⟩, .duplicate :: (List.replicate (n - 1) .bad ++ [.good])) := by
    have h1 : ∀ ps, follow Packet.toy (cfgFails n) (env0 false) keyless (Reader.init (cfgFails n) 0) [] (plainOne :: ps) =
      follow Packet.toy (cfgFails n) (env0 false) keyless afterOne [.good] ps := fun _ => rfl
    have h0 : afterOne.fails = 0 := rfl
    rw [h1, follow_noPacket n _ _ _ _ (by rw [h0]; omega), h0, Nat.zero_add]
    rfl
  refine ⟨⟨afterTwice.rcv, afterTwice.ids, n - 1⟩, _, follow_reach .init h, rfl, ⟨afterTwice.rcv, afterTwice.ids, n - 1 + 1⟩, ?_⟩
  rw [(step_noPacket n _).1]
  simp only [show n - 1 + 1 = n by omega, ge_iff_le, Nat.le_refl, if_true, not_true_eq_false, decide_false]

/-- The states of C47 and C48 exist: a session that survived an undecryptable packet with option 2. -/
example : ∃ r, Reach Packet.toy { cfg0 with detachOnFails := 2 } (env0 false) 0 r [.bad] ∧
    0 < ({ cfg0 with detachOnFails := 2 } : Cfg).detachOnFails := by
  refine ⟨{ Reader.init { cfg0 with detachOnFails := 2 } 0 with fails := 1 }, ?_, by decide⟩
  have h := Reach.step (C := Packet.toy) (cfg := { cfg0 with detachOnFails := 2 }) (env := env0 false)
    (size := 0) ⟨none, [none], none⟩ [1, 2, 3] (evs := []) .init
    (r' := { Reader.init { cfg0 with detachOnFails := 2 } 0 with fails := 1 }) rfl
  exact h

/-! ## C01, C02: the replay filter inside the reader loop -/

/-- The packets with an effect are among the accepted ones. -/
theorem run_accepted (C : Packet.Crypto) (cfg : Cfg) (env : Env) (r : Reader) (log : List (W64 × List Event))
    (h : Run C cfg env r log) :
    ∃ rs n, PacketID.Check.run r.ids (log.map (·.1)) = some (rs, n) ∧
      List.Sublist (effective log) (Spec.accepted (log.map (·.1)) rs) := by
  induction h with
  | done => exact ⟨[], _, rfl, List.Sublist.refl _⟩
  | bad keys p hd hs hrun ih =>
    unfold readerStep at hs
    rw [hd] at hs
    simp only [Outcome.ok.injEq, Prod.mk.injEq] at hs
    obtain ⟨rfl, -, -⟩ := hs
    exact ih
  | good keys p hd hs hrun ih =>
    rename_i r r' log hdr msgs evs c
    unfold readerStep at hs
    rw [hd] at hs
    dsimp only at hs
    obtain ⟨rs, n, h1, h2⟩ := ih
    cases hids : r.ids.step (packetIDValue hdr.packetID) with
    | none => rw [hids] at hs; cases hs
    | some x =>
      obtain ⟨ids, b⟩ := x
      rw [hids] at hs
      cases b with
      | false =>
        simp only [Outcome.ok.injEq, Prod.mk.injEq] at hs
        obtain ⟨rfl, rfl, -⟩ := hs
        refine ⟨false :: rs, n, ?_, ?_⟩
        · simp only [List.map_cons, PacketID.Check.run, hids]
          simp only at h1
          rw [h1]; rfl
        · simpa [effective, Spec.accepted] using h2
      | true =>
        dsimp only at hs
        split at hs
        · cases hs
        · cases hs
        · cases hs
        · simp only [Outcome.ok.injEq, Prod.mk.injEq] at hs
          obtain ⟨rfl, rfl, -⟩ := hs
          refine ⟨true :: rs, n, ?_, ?_⟩
          · simp only [List.map_cons, PacketID.Check.run, hids]
            simp only at h1
            rw [h1]; rfl
          · simp only [List.map_cons, Spec.accepted]
            simp only [effective, List.filter_cons]
            split
            · exact List.Sublist.cons_cons _ h2
            · exact List.Sublist.cons _ h2

/-- C01 for the whole reader loop: whatever packets arrive under whatever keys, if the received IDs do not
jump by more than 64, no two packets with the same ID have an effect.  Missing: larger jumps, see
`PacketID.C01_replay_violated`. -/
theorem C01_reader_partial (C : Packet.Crypto) (cfg : Cfg) (env : Env) (size : Int) (h0 : 0 ≤ size)
    (h : size < 2 ^ 63) (log : List (W64 × List Event)) (hr : Run C cfg env (Reader.init cfg size) log)
    (hj : Spec.SmallJumps (log.map (·.1))) : (effective log).Nodup := by
  obtain ⟨rs, n, h1, h2⟩ := run_accepted C cfg env _ log hr
  obtain ⟨rs', n', h1', -, h3⟩ := PacketID.C01_replay_partial size h0 h _ hj
  have : rs = rs' := by
    rw [PacketID.receive] at h1'
    have := h1.symm.trans h1'
    simp at this; exact this.1
  subst this
  exact h2.nodup h3

/-- C02 for the whole reader loop: with `PacketIDStorageSize` between 1 and 64, whatever packets arrive under
whatever keys, no two packets with the same ID have an effect. -/
theorem C02_reader (C : Packet.Crypto) (cfg : Cfg) (env : Env) (size : Int) (h1 : 1 ≤ size)
    (h : size ≤ 64) (log : List (W64 × List Event)) (hr : Run C cfg env (Reader.init cfg size) log) :
    (effective log).Nodup := by
  obtain ⟨rs, n, h1', h2⟩ := run_accepted C cfg env _ log hr
  obtain ⟨rs', n', h1'', -, h3⟩ := PacketID.C02_small_window_no_replay size h1 h (log.map (·.1))
  have : rs = rs' := by
    rw [PacketID.receive] at h1''
    have := h1'.symm.trans h1''
    simp at this; exact this.1
  subst this
  exact h2.nodup h3

/-- The reader after a step (for examples). -/
def stateAfter : Outcome Unit (Reader × List Event × Bool) → Reader
  | .ok x => x.1
  | _ => Reader.init cfg0 1

def pkt5 : Bytes :=
  Packet.plainPacket Packet.toy none (packetIDBytes 5) [0xFC, 0xFF, 0xFF, 0xFF, 1, 0, 0, 0, 0, 65]
def noKeys : Keys := ⟨none, [], none⟩
def reader5 (n : Nat) : Reader :=
  n.repeat (fun r => stateAfter (readerStep Packet.toy cfg0 (env0 false) noKeys r pkt5)) (Reader.init cfg0 1)

/-- Such runs exist, with replays: a plain text packet arrives twice. -/
example : Run Packet.toy cfg0 (env0 false) (Reader.init cfg0 1) [(5, [.queued 0xFFFFFFFC [65]]), (5, [])] := by
  have hd : Packet.decrypt Packet.toy noKeys.aux noKeys.cipher noKeys.remote pkt5 =
      .ok (Packet.containerSet Packet.toy none (packetIDBytes 5) [0xFC, 0xFF, 0xFF, 0xFF, 1, 0, 0, 0, 0, 65],
        [0xFC, 0xFF, 0xFF, 0xFF, 1, 0, 0, 0, 0, 65]) := by decide +kernel
  exact .good (r' := reader5 1) (c := true) noKeys pkt5 hd (by decide +kernel)
    (.good (r' := reader5 2) (c := true) noKeys pkt5 hd (by decide +kernel) .done)

/-! ## C24: old fragments -/

/-- C24: a fragment of a message more than `MaxChainIDDiff` behind the newest one is ignored. -/
theorem C24_old_ignored (cfg : Cfg) (s : Rcv) (fh : FragHdr) (p : Bytes)
    (h : fh.chainID.toNat + cfg.maxChainIDDiff < s.last) : fragStep cfg s fh p = some (s, none) := by
  unfold fragStep
  have h1 : ¬ fh.chainID.toNat > s.last := by omega
  have h2 : s.last - fh.chainID.toNat > cfg.maxChainIDDiff := by omega
  simp only [advance, if_neg h1, if_pos h2]

example : (Headers.FragHdr.mk 3 0 70).chainID.toNat + cfg0.maxChainIDDiff < 1000 := by decide

/-! ## C71 -/

/-- C71 is violated: a packet with a single message (a fragment of 25 bytes that is a whole message of
itself) is delivered as two: after the assembled message the receiver continues 24 bytes too early,
inside the payload, and takes the payload bytes for another message (here of type 5, "AB"). -/
theorem C71_violated :
    let inner : Msg := ⟨5, 0, [65, 66, 1, 1, 1, 1, 1, 1, 1, 1, 1, 1, 1, 1, 1]⟩
    let m := fragMsg 1 0 25 (7 :: inner.bytes)
    inner.bytes.length = 24 ∧ m.Fits ∧
    events (processAll cfg0 (env0 false) (Rcv.init cfg0) [packetOf [m]]) =
      some [.queued 0xFFFFFFFC (7 :: inner.bytes), .ignored 5 inner.payload] := by
  refine ⟨by decide, by unfold Msg.Fits; decide, by decide +kernel⟩

#print axioms C10_parser
#print axioms C10_unique
#print axioms C11_aggregate
#print axioms C52_dispatch
#print axioms C49_limit_partial
#print axioms C49_zero_never
#print axioms C49_violated
#print axioms C49_fragments_count
#print axioms C24_noninterference_partial
#print axioms C24_violated_loss
#print axioms C24_violated_mix
#print axioms C25_receiver_partial
#print axioms C25_violated
#print axioms C25_violated_new_session
#print axioms C26_memory
#print axioms C47_detach_partial
#print axioms C47_violated
#print axioms C48_error
#print axioms C47_strict_partial
#print axioms C48_partial
#print axioms C48_violated
#print axioms C48_no_error
#print axioms C71_violated
#print axioms C01_reader_partial
#print axioms C02_reader
#print axioms C24_old_ignored

end Verif.Receive
