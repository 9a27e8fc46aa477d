import Verif.Spec.Receive
import Verif.Lemmas.Headers
/-!
# Lemmas about the packet parser
-/
namespace Verif.Receive
open Verif.Headers

theorem bytes_length (m : Msg) : m.bytes.length = 9 + m.payload.length := by
  simp [Msg.bytes, putLE_length]; omega

theorem whole_iff (m : Msg) : m.Whole ↔ isFragmented m.flags = false := by
  have : ∀ f : Byte, f.getLsbD 1 = isFragmented f := by decide +kernel
  unfold Msg.Whole; rw [this]

theorem read_bytes (m : Msg) (h : m.Fits) (tail : Bytes) :
    MsgHdr.read ((m.bytes ++ tail).take messageHeadersSize) =
      .ok ⟨m.type, BitVec.ofNat 32 m.payload.length, m.flags⟩ := by
  have e : (m.bytes ++ tail).take messageHeadersSize =
      putLE 4 m.type.toNat ++ (putLE 4 m.payload.length ++ [m.flags]) := by
    have : m.bytes ++ tail = (putLE 4 m.type.toNat ++ (putLE 4 m.payload.length ++ [m.flags])) ++
        (m.payload ++ tail) := by simp [Msg.bytes]
    rw [this, take_app]
    simp [putLE_length, messageHeadersSize]
  have hl : (BitVec.ofNat 32 m.payload.length).toNat = m.payload.length := by
    simp only [BitVec.toNat_ofNat]; exact Nat.mod_eq_of_lt h
  rw [e]
  unfold MsgHdr.read
  rw [if_neg (by simp [putLE_length, messageHeadersSize])]
  simp only [take_app (putLE_length 4 _), drop_app (putLE_length 4 _), ofNat_getLE_putLE32]
  have := ofNat_getLE_putLE32 (BitVec.ofNat 32 m.payload.length)
  rw [hl] at this
  rw [this]
  rfl

theorem payload_bytes (m : Msg) (tail : Bytes) :
    ((m.bytes ++ tail).drop messageHeadersSize).take m.payload.length = m.payload ∧
    (m.bytes ++ tail).drop (messageHeadersSize + m.payload.length) = tail := by
  constructor
  · have : m.bytes ++ tail = (putLE 4 m.type.toNat ++ (putLE 4 m.payload.length ++ [m.flags])) ++
        (m.payload ++ tail) := by simp [Msg.bytes]
    rw [this, drop_app (by simp [putLE_length, messageHeadersSize]), take_app rfl]
  · rw [drop_app]; rw [bytes_length]; rfl

theorem dest_eq (env : Env) (m : Msg) :
    processIncomingMessage env m.type m.payload = dest env m := by
  unfold processIncomingMessage dest
  cases env.hasMessenger m.type <;> cases env.hasChan m.type <;> rfl

theorem ofNat_len (m : Msg) (h : m.Fits) : (BitVec.ofNat 32 m.payload.length).toNat = m.payload.length := by
  simp only [BitVec.toNat_ofNat]; exact Nat.mod_eq_of_lt h

/-- One round of the loop on a complete whole message. -/
theorem loop_msg (cfg : Cfg) (env : Env) (fuel : Nat) (s : Rcv) (m : Msg) (h : m.Fits) (hw : m.Whole)
    (tail : Bytes) (evs : List Event) :
    loop cfg env (fuel + 1) s (m.bytes ++ tail) evs =
      let s := if counts cfg m.type then { s with received := s.received + 1 } else s
      if counts cfg m.type && decide (s.received ≥ cfg.detachOnMessages) then
        if env.waitsForAnswer (evs ++ [dest env m]) then .ok (s, evs ++ [dest env m])
        else .ok (s, evs ++ [dest env m] ++ [.closed])
      else loop cfg env fuel s tail (evs ++ [dest env m]) := by
  have hl := bytes_length m
  have hn : m.bytes ++ tail ≠ [] := by
    intro h0; have := congrArg List.length h0; simp [hl] at this
  have e1 := read_bytes m h tail
  obtain ⟨e2, e3⟩ := payload_bytes m tail
  have hfr := (whole_iff m).mp hw
  have hlen : (m.bytes ++ tail).length = 9 + m.payload.length + tail.length := by simp [hl]
  generalize hb : m.bytes ++ tail = b at *
  cases b with
  | nil => exact absurd rfl hn
  | cons x xs =>
    rw [loop]
    rw [if_neg (by rw [hlen, messageHeadersSize]; omega), e1]
    dsimp only
    rw [ofNat_len m h, if_neg (by rw [hlen, messageHeadersSize]; omega), e2]
    simp only [processOne, hfr, dest_eq, Bool.false_eq_true, if_false]
    rw [ofNat_len m h, e3]
    intro h; cases h

theorem loop_nil (cfg : Cfg) (env : Env) (fuel : Nat) (s : Rcv) (evs : List Event) :
    loop cfg env fuel s [] evs = .ok (s, evs) := by unfold loop; rfl

/-- A byte string either begins with a complete message, or the header is cut, or the payload is. -/
theorem split_first (b : Bytes) : (∃ m tail, Msg.Fits m ∧ b = m.bytes ++ tail) ∨ b.length < 9 ∨
    (9 ≤ b.length ∧ ∃ hdr, MsgHdr.read (b.take messageHeadersSize) = .ok hdr ∧
      b.length < 9 + hdr.length.toNat) := by
  by_cases hl : b.length < 9
  · exact .inr (.inl hl)
  · obtain ⟨hdr, hr⟩ : ∃ hdr, MsgHdr.read (b.take messageHeadersSize) = .ok hdr := by
      unfold MsgHdr.read; rw [if_neg (by simp [messageHeadersSize]; omega)]; exact ⟨_, rfl⟩
    by_cases hp : b.length < 9 + hdr.length.toNat
    · exact .inr (.inr ⟨by omega, hdr, hr, hp⟩)
    · left
      refine ⟨⟨hdr.type, hdr.flags, (b.drop 9).take hdr.length.toNat⟩, b.drop (9 + hdr.length.toNat), ?_, ?_⟩
      · simp only [Msg.Fits, List.length_take]; have := hdr.length.isLt; omega
      · unfold MsgHdr.read at hr
        rw [if_neg (by simp [messageHeadersSize]; omega)] at hr
        have hlen9 : (b.take messageHeadersSize).length = 9 := by simp [messageHeadersSize]; omega
        generalize hb9 : b.take messageHeadersSize = h9 at *
        injection hr with hr
        subst hr
        simp only at hp ⊢
        have e1 : putLE 4 (BitVec.ofNat 32 (getLE (h9.take 4))).toNat = h9.take 4 :=
          putLE_ofNat32 _ (by simp; omega)
        have e2 : putLE 4 (BitVec.ofNat 32 (getLE ((h9.drop 4).take 4))).toNat = (h9.drop 4).take 4 :=
          putLE_ofNat32 _ (by simp; omega)
        have e3 : [((h9.drop 4).drop 4).headD 0] = ((h9.drop 4).drop 4) := by
          rw [List.drop_drop, headD_drop_take (by omega), List.take_of_length_le (by simp; omega)]
        generalize hL : BitVec.ofNat 32 (getLE ((h9.drop 4).take 4)) = L at *
        have hpl : ((b.drop 9).take L.toNat).length = L.toNat := by simp; omega
        simp only [Msg.bytes]
        rw [hpl, e1, e2, e3]
        have : b = b.take 9 ++ ((b.drop 9).take L.toNat ++ b.drop (9 + L.toNat)) := by
          rw [← List.drop_drop, List.take_append_drop, List.take_append_drop]
        rw [show messageHeadersSize = 9 from rfl] at hb9
        rw [hb9] at this
        conv => lhs; rw [this]
        simp only [← List.append_assoc]
        congr 2
        rw [List.append_assoc, List.take_append_drop, List.take_append_drop]

theorem bytes_not_incomplete (m : Msg) (h : m.Fits) (tail : Bytes) : ¬ Incomplete (m.bytes ++ tail) :=
  fun hi => hi ⟨m, tail, h, rfl⟩

/-- The loop at the first incomplete message. -/
theorem loop_tail (cfg : Cfg) (env : Env) (fuel : Nat) (s : Rcv) (b : Bytes) (hi : Incomplete b)
    (hf : b.length ≤ fuel) (evs : List Event) :
    ∃ r, tailReport b r ∧ loop cfg env fuel s b evs = .ok (s, evs ++ r) := by
  cases b with
  | nil => exact ⟨[], by simp [tailReport], by rw [loop_nil, List.append_nil]⟩
  | cons x xs =>
    cases fuel with
    | zero => simp at hf
    | succ fuel =>
      generalize hb : x :: xs = b at *
      have hne : b ≠ [] := by rw [← hb]; simp
      rcases split_first b with h | h | ⟨h9, hdr, hr, hp⟩
      · exact absurd h hi
      · refine ⟨[.errTooShort ⟨9, b.length⟩], ?_, ?_⟩
        · rw [tailReport, if_neg hne]; exact ⟨9, h, rfl⟩
        · rw [← hb] at h ⊢
          rw [loop, if_pos (show _ < messageHeadersSize from h)]
          · rfl
          · intro h; cases h
      · refine ⟨[.errTooShort ⟨9 + hdr.length.toNat, b.length⟩], ?_, ?_⟩
        · rw [tailReport, if_neg hne]; exact ⟨_, hp, rfl⟩
        · rw [← hb] at h9 hr hp ⊢
          rw [loop, if_neg (by rw [messageHeadersSize]; omega), hr]
          · dsimp only
            rw [if_pos (show _ < messageHeadersSize + _ from hp)]; rfl
          · intro h; cases h

theorem stream_length (ms : List Msg) : ms.length ≤ (stream ms).length := by
  induction ms with
  | nil => simp [stream]
  | cons m ms ih => simp only [stream, List.length_append, bytes_length, List.length_cons]; omega

/-- Every byte string is a sequence of complete messages and an incomplete rest. -/
theorem decompose (n : Nat) (b : Bytes) (hn : b.length ≤ n) :
    ∃ ms tail, b = stream ms ++ tail ∧ Incomplete tail ∧ ∀ m ∈ ms, Msg.Fits m := by
  induction n generalizing b with
  | zero =>
    refine ⟨[], b, rfl, ?_, by simp⟩
    rintro ⟨m, tail, _, rfl⟩
    simp [bytes_length] at hn
  | succ n ih =>
    by_cases hi : Incomplete b
    · exact ⟨[], b, rfl, hi, by simp⟩
    · have : ∃ m tail, Msg.Fits m ∧ b = m.bytes ++ tail := Classical.not_not.mp hi
      obtain ⟨m, tail, hf, rfl⟩ := this
      obtain ⟨ms, t, rfl, h2, h3⟩ := ih tail (by simp [bytes_length] at hn; omega)
      refine ⟨m :: ms, t, by simp [stream], h2, ?_⟩
      intro m' hm'
      rcases List.mem_cons.mp hm' with rfl | h
      · exact hf
      · exact h3 _ h

theorem counts_zero (cfg : Cfg) (h : cfg.detachOnMessages = 0) (t : W32) : counts cfg t = false := by
  simp [counts, h]

/-- The whole loop without a limit on messages. -/
theorem loop_stream (cfg : Cfg) (env : Env) (hd : cfg.detachOnMessages = 0) (ms : List Msg)
    (hf : ∀ m ∈ ms, m.Fits) (hw : ∀ m ∈ ms, m.Whole) (tail : Bytes) (hi : Incomplete tail)
    (fuel : Nat) (hfuel : (stream ms ++ tail).length ≤ fuel) (s : Rcv) (evs : List Event) :
    ∃ r, tailReport tail r ∧
      loop cfg env fuel s (stream ms ++ tail) evs = .ok (s, evs ++ ms.map (dest env) ++ r) := by
  induction ms generalizing fuel evs with
  | nil =>
    obtain ⟨r, h1, h2⟩ := loop_tail cfg env fuel s tail hi (by simpa [stream] using hfuel) evs
    exact ⟨r, h1, by simpa [stream] using h2⟩
  | cons m ms ih =>
    cases fuel with
    | zero => simp [stream, bytes_length] at hfuel
    | succ fuel =>
      have hlen : (stream ms ++ tail).length ≤ fuel := by
        simp [stream, bytes_length] at hfuel; simp; omega
      obtain ⟨r, h1, h2⟩ := ih (fun m hm => hf m (by simp [hm])) (fun m hm => hw m (by simp [hm]))
        fuel hlen (evs ++ [dest env m])
      refine ⟨r, h1, ?_⟩
      rw [stream, List.append_assoc, loop_msg cfg env fuel s m (hf m (by simp)) (hw m (by simp))]
      simp only [counts_zero cfg hd, Bool.false_and, if_false, Bool.false_eq_true]
      rw [h2]; simp

theorem counts_app (cfg : Cfg) (h : 0 < cfg.detachOnMessages) (m : Msg) :
    counts cfg m.type = m.IsApp := by
  simp [counts, h, Msg.IsApp, typeKeyExchange, typeNegotiation]

/-- The whole loop with a limit of messages, as long as it need not wait for an answer. -/
theorem loop_limit (cfg : Cfg) (env : Env) (hd : 0 < cfg.detachOnMessages)
    (hwait : ∀ e, env.waitsForAnswer e = false) (ms : List Msg)
    (hf : ∀ m ∈ ms, m.Fits) (hw : ∀ m ∈ ms, m.Whole)
    (fuel : Nat) (hfuel : (stream ms).length ≤ fuel) (s : Rcv) (hs : s.received < cfg.detachOnMessages)
    (evs : List Event) :
    loop cfg env fuel s (stream ms) evs =
      if ms.countP Msg.IsApp < cfg.detachOnMessages - s.received then
        .ok ({ s with received := s.received + ms.countP Msg.IsApp }, evs ++ ms.map (dest env))
      else .ok ({ s with received := cfg.detachOnMessages },
        evs ++ (upTo (cfg.detachOnMessages - s.received) ms).map (dest env) ++ [.closed]) := by
  induction ms generalizing fuel evs s with
  | nil =>
    rw [stream, loop_nil, if_pos (by simp; omega)]
    simp
  | cons m ms ih =>
    cases fuel with
    | zero => simp [stream, bytes_length] at hfuel
    | succ fuel =>
      have hlen : (stream ms).length ≤ fuel := by
        simp [stream, bytes_length] at hfuel; omega
      rw [stream, loop_msg cfg env fuel s m (hf m (by simp)) (hw m (by simp))]
      simp only [counts_app cfg hd, hwait, Bool.false_eq_true, if_false]
      obtain ⟨k, hk⟩ : ∃ k, cfg.detachOnMessages - s.received = k + 1 :=
        ⟨cfg.detachOnMessages - s.received - 1, by omega⟩
      by_cases ha : m.IsApp = true
      · simp only [ha, if_true, Bool.true_and, List.countP_cons, upTo, hk]
        by_cases hlast : s.received + 1 ≥ cfg.detachOnMessages
        · have : k = 0 := by omega
          subst this
          rw [if_pos (by simpa using hlast), if_neg (by omega),
            show s.received + 1 = cfg.detachOnMessages by omega]
          simp [upTo]
        · rw [if_neg (by simpa using hlast)]
          rw [ih (fun m hm => hf m (by simp [hm])) (fun m hm => hw m (by simp [hm])) fuel hlen _
            (by simp; omega)]
          simp only
          rw [show cfg.detachOnMessages - (s.received + 1) = k by omega]
          by_cases hc : ms.countP Msg.IsApp < k
          · rw [if_pos hc, if_pos (by omega)]; simp; omega
          · rw [if_neg hc, if_neg (by omega)]; simp
      · have ha' : m.IsApp = false := by simpa using ha
        simp only [ha', Bool.false_and, if_false, Bool.false_eq_true, List.countP_cons, upTo, hk,
          Nat.add_zero]
        rw [ih (fun m hm => hf m (by simp [hm])) (fun m hm => hw m (by simp [hm])) fuel hlen s hs, hk]
        by_cases hc : ms.countP Msg.IsApp < k + 1
        · rw [if_pos hc, if_pos hc]; simp
        · rw [if_neg hc, if_neg hc]; simp

end Verif.Receive
