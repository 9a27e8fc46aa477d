import Verif.Lemmas.Receive
import Verif.Lemmas.PendingChain
/-!
# Lemmas about the reassembly slots of a session
-/
namespace Verif.Receive
open Verif.Headers Verif.PendingChain

/-- Sensible options: at least one slot, sizes far below 2^64. -/
structure CfgOK (cfg : Cfg) : Prop where
  diff : 0 < cfg.maxChainIDDiff
  max : cfg.maxFragmented < 2 ^ 62

/-- Invariant of one slot. -/
structure SlotInv (cfg : Cfg) (c : Chain) : Prop where
  slot : SlotOK c
  wf : c.expected ≠ 0 → WF c
  exp : c.expected ≤ cfg.maxFragmented
  data : c.data.length ≤ cfg.maxFragmented

/-- Invariant of the reassembly state. -/
structure Inv (cfg : Cfg) (s : Rcv) : Prop where
  len : s.pending.length = cfg.maxChainIDDiff
  slots : ∀ c ∈ s.pending, SlotInv cfg c

theorem inv_init (cfg : Cfg) : Inv cfg (Rcv.init cfg) := by
  refine ⟨by simp [Rcv.init], ?_⟩
  intro c hc
  have : c = empty := (List.mem_replicate.mp hc).2
  subst this
  exact ⟨⟨rfl⟩, fun h => absurd rfl h, by simp [empty], by simp [empty]⟩

theorem slotInv_reset (cfg : Cfg) (c : Chain) (h : SlotInv cfg c) : SlotInv cfg (reset c) := by
  refine ⟨⟨?_⟩, fun h => absurd rfl h, by simp [reset], h.data⟩
  simpa [reset] using h.slot.isSetLen

theorem inv_advance (cfg : Cfg) (s : Rcv) (h : Inv cfg s) (id : Nat) : Inv cfg (advance s id) := by
  unfold advance
  split
  · refine ⟨by simpa using h.len, ?_⟩
    intro c hc
    obtain ⟨c', hc', rfl⟩ := List.mem_map.mp hc
    exact slotInv_reset cfg c' (h.slots c' hc')
  · exact h

theorem advance_received (s : Rcv) (id : Nat) : (advance s id).received = s.received := by
  unfold advance; split <;> rfl

theorem prepare_spec (cfg : Cfg) (c : Chain) (h : SlotInv cfg c) (total : Nat) (c' : Chain)
    (hp : prepare cfg c total = some c') :
    WF c' ∧ c'.expected ≤ cfg.maxFragmented ∧ c'.data.length ≤ cfg.maxFragmented := by
  unfold prepare at hp
  split at hp
  · split at hp
    · cases hp
    · cases hp
      obtain ⟨h1, h2, h3, h4, h5⟩ := init_wf c h.slot total
      refine ⟨h1, by omega, ?_⟩
      rw [h4]
      split
      · exact h.data
      · simp; omega
  · cases hp
    next hne => exact ⟨h.wf hne, h.exp, h.data⟩

theorem mergeSlot_spec (c : Chain) (h : WF c) (bound : Nat) (hb : bound < 2 ^ 62)
    (he : c.expected ≤ bound) (hd : c.data.length ≤ bound) (start : Nat) (p : Bytes)
    (hp : p.length < 2 ^ 62) (hs : start < 2 ^ 64) :
    (mergeSlot c start p = none ∧ 2 ^ 64 ≤ start + p.length) ∨
    (∃ c' r, mergeSlot c start p = some (c', r) ∧ WF c' ∧ c'.expected = c.expected ∧
      c'.data.length = c.data.length ∧ (∀ m, r = some m → m = c'.data)) := by
  unfold mergeSlot
  by_cases hinc : c.received ≥ c.expected
  · right
    have : merge c start p = .err .duplicate := by unfold merge; rw [if_pos hinc]
    rw [this]
    exact ⟨c, none, rfl, h, rfl, rfl, by simp⟩
  · by_cases hr : start + p.length ≤ c.expected
    · right
      obtain ⟨c', w, e1, e2, -, e4⟩ := merge_spec c h (by omega) hinc start p hr
      rw [e4]
      refine ⟨c', _, rfl, w, e1, ?_, ?_⟩
      · rw [e2, copyAt_length]; have := h.fits; omega
      · intro m hm
        split at hm <;> cases hm
        rfl
    · by_cases hw : 2 ^ 64 ≤ start + p.length
      · unfold merge
        rw [if_neg hinc]
        simp only
        by_cases ho : (p.length + start) % 2 ^ 64 > c.expected
        · rw [if_pos ho]; exact .inr ⟨c, none, rfl, h, rfl, rfl, by simp⟩
        · rw [if_neg ho, if_pos (by omega)]
          exact .inl ⟨rfl, hw⟩
      · right
        have : merge c start p = .err .outOfRange := by
          unfold merge
          rw [if_neg hinc]
          simp only
          rw [Nat.mod_eq_of_lt (by omega), if_pos (by omega)]
        rw [this]
        exact ⟨c, none, rfl, h, rfl, rfl, by simp⟩

/-- One fragment: a panic needs a start position that wraps; otherwise the invariant is kept. -/
theorem fragStep_spec (cfg : Cfg) (ok : CfgOK cfg) (s : Rcv) (h : Inv cfg s) (fh : FragHdr)
    (p : Bytes) (hp : p.length < 2 ^ 62) :
    (fragStep cfg s fh p = none ∧ 2 ^ 64 ≤ fh.startPos.toNat + p.length) ∨
    (∃ s' r, fragStep cfg s fh p = some (s', r) ∧ Inv cfg s' ∧ s'.received = s.received ∧
      ∀ m, r = some m → m.length ≤ cfg.maxFragmented) := by
  have h1 := inv_advance cfg s h fh.chainID.toNat
  have hr1 := advance_received s fh.chainID.toNat
  unfold fragStep
  simp only
  generalize advance s fh.chainID.toNat = s1 at *
  split
  · exact .inr ⟨s1, none, rfl, h1, hr1, by simp⟩
  · rw [if_neg (by have := ok.diff; omega)]
    have hlt : fh.chainID.toNat % cfg.maxChainIDDiff < s1.pending.length := by
      rw [h1.len]; exact Nat.mod_lt _ ok.diff
    rw [List.getElem?_eq_getElem hlt]
    have hs := h1.slots _ (List.getElem_mem hlt)
    generalize s1.pending[fh.chainID.toNat % cfg.maxChainIDDiff] = c at *
    dsimp only
    cases hpr : prepare cfg c fh.total.toNat with
    | none => exact .inr ⟨s1, none, rfl, h1, hr1, by simp⟩
    | some c1 =>
      obtain ⟨w, e1, e2⟩ := prepare_spec cfg c hs _ c1 hpr
      dsimp only
      rcases mergeSlot_spec c1 w cfg.maxFragmented ok.max e1 e2 fh.startPos.toNat p hp
        fh.startPos.isLt with ⟨hm, hw⟩ | ⟨c2, r, hm, w2, e3, e4, e5⟩
      · rw [hm]; exact .inl ⟨rfl, hw⟩
      · rw [hm]
        refine .inr ⟨_, r, rfl, ⟨by simpa using h1.len, ?_⟩, hr1, ?_⟩
        · intro x hx
          rcases List.mem_or_eq_of_mem_set hx with hx | rfl
          · exact h1.slots x hx
          · exact ⟨w2.slot, fun _ => w2, by omega, by omega⟩
        · intro m hm
          rw [e5 m hm]; omega

theorem fragRead_take (b : Bytes) (n : Nat) (fh : FragHdr) (h : FragHdr.read (b.take n) = .ok fh) :
    FragHdr.read b = .ok fh := by
  unfold FragHdr.read at h ⊢
  split at h
  · cases h
  · next hn =>
    have hlen : 24 ≤ n ∧ 24 ≤ b.length := by
      simp [fragmentHeadersSize, List.length_take] at hn; omega
    rw [if_neg (by rw [fragmentHeadersSize]; omega)]
    simp only [List.take_take, List.drop_take] at h
    rw [Nat.min_eq_left (by omega), Nat.min_eq_left (by omega), Nat.min_eq_left (by omega)] at h
    exact h

/-- The loop always ends; a crash needs a start position that wraps; the invariant is kept. -/
theorem loop_total (cfg : Cfg) (ok : CfgOK cfg) (env : Env) (fuel : Nat) (s : Rcv) (h : Inv cfg s)
    (rest : Bytes) (hlen : rest.length ≤ fuel) (hbig : rest.length < 2 ^ 62) (evs : List Event) :
    (∃ s' evs', loop cfg env fuel s rest evs = .ok (s', evs') ∧ Inv cfg s') ∨
    (loop cfg env fuel s rest evs = .panic ∧ ∃ i fh, FragHdr.read (rest.drop i) = .ok fh ∧
      2 ^ 64 ≤ fh.startPos.toNat + rest.length) := by
  induction fuel generalizing s rest evs with
  | zero =>
    have : rest = [] := List.length_eq_zero_iff.mp (by omega)
    subst this
    exact .inl ⟨s, evs, loop_nil .., h⟩
  | succ fuel ih =>
    cases rest with
    | nil => exact .inl ⟨s, evs, loop_nil .., h⟩
    | cons x xs =>
      generalize hb : x :: xs = rest at *
      have hne : rest ≠ [] := by rw [← hb]; simp
      have hinvc : ∀ (t : W32), Inv cfg (if counts cfg t then { s with received := s.received + 1 } else s) := by
        intro t; split
        · exact ⟨h.len, h.slots⟩
        · exact h
      rw [loop.eq_def]
      rw [← hb]
      dsimp only
      rw [hb]
      by_cases h9 : rest.length < messageHeadersSize
      · rw [if_pos h9]; exact .inl ⟨s, _, rfl, h⟩
      · rw [if_neg h9]
        obtain ⟨hdr, hr⟩ : ∃ hdr, MsgHdr.read (rest.take messageHeadersSize) = .ok hdr := by
          unfold MsgHdr.read; rw [if_neg (by rw [List.length_take]; omega)]; exact ⟨_, rfl⟩
        rw [hr]
        dsimp only
        by_cases hp : rest.length < messageHeadersSize + hdr.length.toNat
        · rw [if_pos hp]; exact .inl ⟨s, _, rfl, h⟩
        · rw [if_neg hp]
          have h1 := hinvc hdr.type
          generalize (if counts cfg hdr.type then { s with received := s.received + 1 } else s) = s1 at *
          have hdrop : ∀ l, (rest.drop (messageHeadersSize + l)).length ≤ fuel := by
            intro l; rw [List.length_drop, messageHeadersSize]
            have := List.length_pos_iff.mpr hne; omega
          have hdrop2 : ∀ l, (rest.drop (messageHeadersSize + l)).length < 2 ^ 62 := by
            intro l; rw [List.length_drop]; omega
          have go : ∀ s2 (_ : Inv cfg s2) e l,
              (∃ s' evs', (if counts cfg hdr.type && decide (s2.received ≥ cfg.detachOnMessages) then
                if env.waitsForAnswer (evs ++ e) then (Outcome.ok (s2, evs ++ e) : Outcome Unit (Rcv × List Event))
                else .ok (s2, evs ++ e ++ [.closed])
                else loop cfg env fuel s2 (rest.drop (messageHeadersSize + l)) (evs ++ e)) = .ok (s', evs') ∧
                Inv cfg s') ∨
              ((if counts cfg hdr.type && decide (s2.received ≥ cfg.detachOnMessages) then
                if env.waitsForAnswer (evs ++ e) then (Outcome.ok (s2, evs ++ e) : Outcome Unit (Rcv × List Event))
                else .ok (s2, evs ++ e ++ [.closed])
                else loop cfg env fuel s2 (rest.drop (messageHeadersSize + l)) (evs ++ e)) = .panic ∧
                ∃ i fh, FragHdr.read (rest.drop i) = .ok fh ∧ 2 ^ 64 ≤ fh.startPos.toNat + rest.length) := by
            intro s2 h2 e l
            split
            · split
              · exact .inl ⟨_, _, rfl, h2⟩
              · exact .inl ⟨_, _, rfl, h2⟩
            · rcases ih s2 h2 (rest.drop (messageHeadersSize + l)) (hdrop l) (hdrop2 l) (evs ++ e) with
                hh | ⟨hh, i, fh, hi, hw⟩
              · exact .inl hh
              · refine .inr ⟨hh, messageHeadersSize + l + i, fh, ?_, ?_⟩
                · rw [← List.drop_drop]; exact hi
                · rw [List.length_drop] at hw; omega
          unfold processOne
          by_cases hfr : isFragmented hdr.flags = true
          · rw [if_pos hfr]
            generalize hmsg : (rest.drop messageHeadersSize).take hdr.length.toNat = msg
            cases hfh : FragHdr.read msg with
            | ok fh =>
              dsimp only
              have hml : msg.length ≤ rest.length := by
                rw [← hmsg, List.length_take, List.length_drop]; omega
              rcases fragStep_spec cfg ok s1 h1 fh (msg.drop fragmentHeadersSize)
                (by rw [List.length_drop]; omega) with ⟨hh, hw⟩ | ⟨s2, r, hh, h2, -, -⟩
              · rw [hh]
                refine .inr ⟨rfl, messageHeadersSize, fh, ?_, ?_⟩
                · rw [← hmsg] at hfh; exact fragRead_take _ _ _ hfh
                · rw [List.length_drop] at hw; omega
              · rw [hh]
                cases r with
                | none => exact go s2 h2 [] _
                | some m => exact go s2 h2 _ _
            | err e => exact .inl ⟨_, _, rfl, h1⟩
            | panic => unfold FragHdr.read at hfh; split at hfh <;> cases hfh
            | block => unfold FragHdr.read at hfh; split at hfh <;> cases hfh
          · rw [if_neg hfr]
            exact go s1 h1 _ _

theorem process_total (cfg : Cfg) (ok : CfgOK cfg) (env : Env) (s : Rcv) (h : Inv cfg s) (l : W32)
    (msgs : Bytes) :
    (∃ s' evs, processIncomingMessages cfg env s l msgs = .ok (s', evs) ∧ Inv cfg s') ∨
    (processIncomingMessages cfg env s l msgs = .panic ∧
      ∃ i fh, FragHdr.read (msgs.drop i) = .ok fh ∧ 2 ^ 64 - 2 ^ 32 ≤ fh.startPos.toNat) := by
  unfold processIncomingMessages
  have hl : (msgs.take (min msgs.length l.toNat)).length < 2 ^ 32 := by
    rw [List.length_take]; have := l.isLt; omega
  rcases loop_total cfg ok env _ s h (msgs.take (min msgs.length l.toNat)) (Nat.le_refl _) (by omega) []
    with hh | ⟨hh, i, fh, hi, hw⟩
  · exact .inl hh
  · refine .inr ⟨hh, i, fh, ?_, by omega⟩
    rw [List.drop_take] at hi
    exact fragRead_take _ _ _ hi

end Verif.Receive
