import Verif.Model.StdIO
import Verif.Props.ReadQueue
import Verif.Props.Send
import Verif.Props.EndToEnd
/-!
# A session given to functions of the standard library: C110 - C114
-/
namespace Verif.StdIO

/-! ## C110 -/

/-- "It returns the number of bytes read (0 <= n <= len(p))" (package io, type Reader). -/
def Counted (n : Int) (len : Nat) : Prop := 0 ≤ n ∧ n ≤ len

instance (n : Int) (len : Nat) : Decidable (Counted n len) := inferInstanceAs (Decidable (_ ∧ _))

/-- "It returns the number of bytes written from p (0 <= n <= len(p)) … must return a non-nil error if it returns n < len(p)"
(package io, type Writer). -/
def Written (r : Int × Option Err) (len : Nat) : Prop := Counted r.1 len ∧ (r.1 < len → r.2 ≠ none)

/-- The Go result of a `Read` of Model/ReadQueue.lean. -/
def ofRet : ReadQueue.Ret → Res
  | .ok _ d => ⟨d.length, none, d⟩
  | .tooBig _ _ _ => ⟨-1, some .tooBig, []⟩
  | .closed => ⟨-1, some .alreadyClosed, []⟩

/-- `sessRead` is `Read` of the model with goroutines: after the end of a session, with no other `Read` running, a `Read` call runs to
its end, with this result, and leaves these messages. -/
theorem C110_refines {s : ReadQueue.State} (h : ReadQueue.Reachable s) (hc : s.calls = []) (hs : s.reader = .stopped) (len : Nat) :
    ∃ as s' r, ReadQueue.runActs s (.take len :: as) = .ok s' ∧ s'.calls = [] ∧ s'.reader = .stopped ∧
      s'.rets = s.rets ++ [r] ∧ ofRet r = (sessRead (s.arrived.drop s.taken) len).1 ∧
      s'.arrived.drop s'.taken = (sessRead (s.arrived.drop s.taken) len).2 := by
  have hi := ReadQueue.inv_reachable s h
  have hw : ReadQueue.waiting s = s.queue := by simp [ReadQueue.waiting, hs, ReadQueue.Reader.items]
  have hcont := hi.content
  rw [hw] at hcont
  have key : ∀ s', ReadQueue.Inv s' → s'.reader = .stopped →
      s'.arrived.drop s'.taken = s'.queue.map fun i => (s'.items i).data := by
    intro s' hi' hr'
    have := hi'.content
    rwa [show ReadQueue.waiting s' = s'.queue by simp [ReadQueue.waiting, hr', ReadQueue.Reader.items]] at this
  cases hq : s.queue with
  | nil =>
    rw [hq] at hcont
    refine ⟨[], { s with rets := s.rets ++ [.closed] }, .closed, ?_, hc, hs, rfl, ?_, ?_⟩
    · simp [ReadQueue.runActs, ReadQueue.step, hq, hs]
    · rw [hcont]; rfl
    · simp only; rw [hcont]; rfl
  | cons i q =>
    rw [hq] at hcont
    have hb : (s.items i).busy = true := hi.busy i (by rw [hw, hq]; simp)
    by_cases hl : len < (s.items i).data.length
    · refine ⟨[.copy 0], { s with queue := q, taken := s.taken + 1, rets := s.rets ++ [.tooBig s.taken len (s.items i).data.length] },
        .tooBig s.taken len (s.items i).data.length, ?_, hc, hs, rfl, ?_, ?_⟩
      · simp [ReadQueue.runActs, ReadQueue.step, hq, hc, hl]
      · rw [hcont]; simp [sessRead, hl, ofRet]
      · have h1 : s.arrived.drop (s.taken + 1) = (s.arrived.drop s.taken).drop 1 := by rw [List.drop_drop]
        simp only; rw [h1, hcont]; simp [sessRead, hl]
    · refine ⟨[.copy 0, .release 0],
        { s with
            queue := q, taken := s.taken + 1, items := ReadQueue.setItem s.items i ⟨[], false⟩, pool := i :: s.pool
            rets := s.rets ++ [.ok s.taken (s.items i).data] },
        .ok s.taken (s.items i).data, ?_, hc, hs, rfl, ?_, ?_⟩
      · simp [ReadQueue.runActs, ReadQueue.step, hq, hc, hl, hb]
      · rw [hcont]; simp [sessRead, hl, ofRet]
      · have h1 : s.arrived.drop (s.taken + 1) = (s.arrived.drop s.taken).drop 1 := by rw [List.drop_drop]
        simp only; rw [h1, hcont]; simp [sessRead, hl]

/-- C110 for successful calls of `Read`, and for all calls of `Write` and `WriteMessage`.  Missing: failed calls of `Read`
(`C110_violated`), and `WriteMessageSingle` (`C110_violated_single`). -/
theorem C110_partial (src : List Bytes) (len : Nat) :
    ((sessRead src len).1.err = none → Counted (sessRead src len).1.n len ∧ (sessRead src len).1.n = (sessRead src len).1.put.length) ∧
    ∀ err payload, Written (writeMessage err payload) payload.length := by
  constructor
  · cases src with
    | nil => simp [sessRead]
    | cons m ms =>
      simp only [sessRead, Counted]
      split <;> simp <;> omega
  · intro err payload
    cases err <;> simp [Written, Counted, writeMessage]

/-- Negation of C110: every `Read` that fails returns -1. -/
theorem C110_violated (src : List Bytes) (len : Nat) (h : (sessRead src len).1.err ≠ none) :
    (sessRead src len).1.n = -1 ∧ ¬ Counted (sessRead src len).1.n len := by
  cases src with
  | nil => simp [sessRead, Counted]
  | cons m ms =>
    simp only [sessRead, Counted] at *
    split at h <;> simp_all

example : (sessRead [[1, 2, 3]] 2).1 = ⟨-1, some .tooBig, []⟩ ∧ (sessRead [[1, 2, 3]] 3).1 = ⟨3, none, [1, 2, 3]⟩ := by decide

/-- Negation of C110 for `WriteMessageSingle`: whenever it succeeds it returns 53 more than `len(payload)`. -/
theorem C110_violated_single (C : Packet.Crypto) (cfg : Send.Cfg) (now : Send.Now) (t : W32)
    (ht : t ≠ Headers.typeKeyExchange) (hk : Packet.KeyOK now.cipherKey) (ha : Packet.KeyOK now.aux) (payload : Bytes)
    (hl : payload.length + 53 < 2 ^ 32) (n : Int) (h : writeMessageSingle C cfg now t payload = .ok (n, none)) :
    n = payload.length + 53 ∧ ¬ Written (n, none) payload.length := by
  have hlen : (Send.writeMessageSingle t payload).messages.length = 9 + payload.length := by
    simp [Send.writeMessageSingle, Send.single, Send.messageBytes, putLE_length]; omega
  have hn : n = payload.length + 53 := by
    unfold writeMessageSingle at h
    cases hs : Send.sendMessages C cfg now (Send.writeMessageSingle t payload) with
    | ok out =>
      rw [hs] at h
      simp only [Outcome.ok.injEq, Prod.mk.injEq, and_true] at h
      obtain ⟨k, hck, hseal⟩ := EndToEnd.send_sealed C cfg now _ (Send.conf_flags t ht) hk ha (by omega) out hs
      obtain ⟨pkt, h1, h2, _⟩ := Packet.seal_spec C now.aux (some k) now.sessionID true now.packetID
        (Send.writeMessageSingle t payload).messages ha (by intro b hb; cases hb; exact hk k hck) (by simp)
      rw [h1] at hseal
      cases hseal
      omega
    | err e => rw [hs] at h; cases e <;> simp at h
    | panic => rw [hs] at h; cases h
    | block => rw [hs] at h; cases h
  refine ⟨hn, ?_⟩
  simp only [Written, Counted]
  omega

example : writeMessageSingle Packet.toy ⟨1024, true, false⟩ Send.exNow 16 [7, 8, 9] = .ok (56, none) := by decide +kernel

/-- C110 for a failed `WriteMessageSingle`: the count is 0, so that the contract of `io.Writer` is kept. -/
theorem C110_single_failed (C : Packet.Crypto) (cfg : Send.Cfg) (now : Send.Now) (t : W32) (payload : Bytes) (n : Int)
    (e : Err) (h : writeMessageSingle C cfg now t payload = .ok (n, some e)) : n = 0 ∧ Written (n, some e) payload.length := by
  have hn : n = 0 := by
    unfold writeMessageSingle at h
    cases hs : Send.sendMessages C cfg now (Send.writeMessageSingle t payload) with
    | ok out => rw [hs] at h; simp at h
    | err e => rw [hs] at h; cases e <;> simp at h <;> exact h.1.symm
    | panic => rw [hs] at h; cases h
    | block => rw [hs] at h; cases h
  subst hn
  refine ⟨rfl, ?_⟩
  simp [Written, Counted]

example : writeMessageSingle Packet.toy ⟨2, true, false⟩ Send.exNow 16 [7, 8, 9] = .ok (0, some .tooBig) := by decide +kernel

/-! ## C111 -/

/-- The messages that `io.ReadAll` gets: those before the first that is longer than the room in the slice. -/
def fitting (grow : Nat → Nat) : List Bytes → (len cap : Nat) → List Bytes
  | [], _, _ => []
  | m :: ms, len, cap =>
    if cap - len < m.length then []
    else m :: fitting grow ms (len + m.length) (if len + m.length = cap then grow cap else cap)

theorem readAll_eq (grow : Nat → Nat) : ∀ (src : List Bytes) (b : Bytes) (cap : Nat),
    readAll grow src b cap =
      if b ++ (fitting grow src b.length cap).flatten = [] then .panic
      else .ok ((b ++ (fitting grow src b.length cap).flatten).dropLast,
        some (if (fitting grow src b.length cap).length = src.length then .alreadyClosed else .tooBig)) := by
  have hcut : ∀ (b : Bytes) (e : Err), e ≠ .eof → afterRead b ⟨-1, some e, []⟩ =
      if b = [] then .panic else .ok (b.dropLast, some (some e)) := by
    intro b e he
    unfold afterRead reslice
    by_cases hb : b = []
    · subst hb; simp
    · have : 0 < b.length := List.length_pos_iff.mpr hb
      rw [if_neg (by simp only; omega), if_neg hb]
      have h1 : ((b.length : Int) + -1).toNat = b.length - 1 := by omega
      simp only [List.append_nil, h1, ← List.dropLast_eq_take]
  intro src
  induction src with
  | nil =>
    intro b cap
    simp only [readAll, sessRead, fitting, List.flatten_nil, List.append_nil]
    rw [hcut b _ (by decide)]
    by_cases hb : b = [] <;> simp [hb]
  | cons m ms ih =>
    intro b cap
    simp only [readAll, sessRead, fitting]
    by_cases hl : cap - b.length < m.length
    · simp only [hl, if_true, List.flatten_nil, List.append_nil]
      rw [hcut b _ (by decide)]
      by_cases hb : b = [] <;> simp [hb]
    · simp only [hl, if_false]
      have h1 : afterRead b ⟨m.length, none, m⟩ = .ok (b ++ m, none) := by
        unfold afterRead reslice
        rw [if_neg (by simp only; omega)]
        have h2 : ((b.length : Int) + (m.length : Int)).toNat = (b ++ m).length := by rw [List.length_append]; omega
        simp only [h2, List.take_length]
      rw [h1]
      simp only
      rw [ih]
      simp [List.length_append, List.append_assoc]

/-- What `io.ReadAll` gives: the messages that fit, without the last byte, and an error; a panic if there is no byte. -/
theorem C111_exact (grow : Nat → Nat) (src : List Bytes) :
    readAll grow src [] 512 =
      if (fitting grow src 0 512).flatten = [] then .panic
      else .ok ((fitting grow src 0 512).flatten.dropLast,
        some (if (fitting grow src 0 512).length = src.length then .alreadyClosed else .tooBig)) := by
  have := readAll_eq grow src [] 512
  simpa using this

/-- C111 up to one byte, for up to 512 bytes: `io.ReadAll` gives all but the last byte.  Missing: the last byte, success
(`C111_violated`), and longer streams (`C111_exact`). -/
theorem C111_partial (grow : Nat → Nat) (src : List Bytes) (h0 : src.flatten ≠ []) (h : src.flatten.length ≤ 512) :
    readAll grow src [] 512 = .ok (src.flatten.dropLast, some .alreadyClosed) := by
  have key : ∀ (src : List Bytes) (len cap : Nat), len + src.flatten.length ≤ cap ∨ src.flatten = [] →
      fitting grow src len cap = src := by
    intro src
    induction src with
    | nil => intros; rfl
    | cons m ms ih =>
      intro len cap h
      simp only [List.flatten_cons, List.length_append, List.append_eq_nil_iff] at h
      have hm : ¬ cap - len < m.length := by
        rcases h with h | h
        · omega
        · rw [h.1]; simp
      rw [fitting, if_neg hm, ih]
      rcases h with h | h
      · by_cases hf : len + m.length = cap
        · exact .inr (List.eq_nil_of_length_eq_zero (by omega))
        · rw [if_neg hf]; exact .inl (by omega)
      · exact .inr h.2
  rw [C111_exact, key src 0 512 (.inl (by omega)), if_neg h0, if_pos rfl]

/-- Negation of C111: `io.ReadAll` never gives all of a stream, and never succeeds. -/
theorem C111_violated (grow : Nat → Nat) (src : List Bytes) :
    (∀ e, readAll grow src [] 512 ≠ .ok (src.flatten, e)) ∧ ∀ b, readAll grow src [] 512 ≠ .ok (b, none) := by
  have hle : ∀ (src : List Bytes) (len cap : Nat), (fitting grow src len cap).flatten.length ≤ src.flatten.length := by
    intro src
    induction src with
    | nil => intros; exact Nat.le_refl _
    | cons m ms ih =>
      intro len cap
      rw [fitting]
      split
      · simp
      · simp only [List.flatten_cons, List.length_append]
        exact Nat.add_le_add_left (ih _ _) _
  rw [C111_exact]
  by_cases h : (fitting grow src 0 512).flatten = []
  · simp [h]
  · simp only [h, if_false]
    refine ⟨fun e he => ?_, fun b hb => ?_⟩
    · simp only [Outcome.ok.injEq, Prod.mk.injEq] at he
      have h1 := congrArg List.length he.1
      have h2 := hle src 0 512
      have h3 := List.length_pos_iff.mpr h
      rw [List.length_dropLast] at h1
      omega
    · simp at hb

/-- Two messages; the last byte is lost.  A session that ends without a message makes `io.ReadAll` panic, and so does a first message
of more than 512 bytes. -/
example : readAll (· * 2) [[1, 2], [3, 4]] [] 512 = .ok ([1, 2, 3], some .alreadyClosed) ∧ readAll (· * 2) [] [] 512 = .panic := by
  decide +kernel

example (m : Bytes) (h : 512 < m.length) (ms : List Bytes) (grow : Nat → Nat) : readAll grow (m :: ms) [] 512 = .panic := by
  rw [C111_exact, show fitting grow (m :: ms) 0 512 = [] by rw [fitting, if_pos (by simpa using h)]]
  rfl

/-! ## C112 -/

/-- `io.Copy` writes the messages up to the first that is longer than its buffer, and ends with an error. -/
theorem C112_exact (size : Nat) (src : List Bytes) :
    (copyFrom size src).1 = (src.takeWhile (fun m => m.length ≤ size)).filter (· ≠ []) ∧
    (copyFrom size src).2 = some (if src.all (fun m => m.length ≤ size) then .alreadyClosed else .tooBig) := by
  induction src with
  | nil => simp [copyFrom, sessRead]
  | cons m ms ih =>
    by_cases hl : m.length ≤ size
    · have h1 : ¬ size < m.length := by omega
      simp only [copyFrom, sessRead, h1, if_false, List.takeWhile_cons, hl, decide_true, if_true, List.all_cons, Bool.true_and]
      refine ⟨?_, ih.2⟩
      rw [ih.1]
      cases m with
      | nil => simp
      | cons x m => simp
    · have h1 : size < m.length := by omega
      simp [copyFrom, sessRead, h1, hl]

/-- C112 up to the result: messages of up to 32768 bytes all get to the target, in order.  Missing: success (`C112_violated`), and
longer messages. -/
theorem C112_partial (src : List Bytes) (h : ∀ m ∈ src, m.length ≤ 32768) :
    (copyFrom 32768 src).1.flatten = src.flatten ∧ (copyFrom 32768 src).2 = some .alreadyClosed := by
  obtain ⟨h1, h2⟩ := C112_exact 32768 src
  have h3 : src.takeWhile (fun m => decide (m.length ≤ 32768)) = src := by
    clear h1 h2
    induction src with
    | nil => rfl
    | cons m ms ih =>
      rw [List.takeWhile_cons, if_pos (by simpa using h m (by simp)), ih fun x hx => h x (by simp [hx])]
  have h4 : ∀ l : List Bytes, (l.filter (· ≠ [])).flatten = l.flatten := by
    intro l
    induction l with
    | nil => rfl
    | cons m ms ih =>
      cases m with
      | nil => simpa using ih
      | cons x m => simp at ih ⊢; exact ih
  rw [h1, h2, h3, h4]
  exact ⟨rfl, by rw [if_pos (by simpa using h)]⟩

/-- Negation of C112: `io.Copy` from a session never succeeds. -/
theorem C112_violated (size : Nat) (src : List Bytes) : (copyFrom size src).2 ≠ none := by
  rw [(C112_exact size src).2]
  simp

example : copyFrom 32768 [[1, 2], [], [3]] = ([[1, 2], [3]], some .alreadyClosed) := by decide +kernel

/-! ## C113 -/

/-- Negation of C113 for `bytes.Buffer`: reading a session to its end always panics. -/
theorem C113_violated (free : Nat → Nat) (src : List Bytes) (b : Bytes) : bufferReadFrom free src b = .panic := by
  induction src generalizing b with
  | nil => simp [bufferReadFrom, sessRead]
  | cons m ms ih =>
    simp only [bufferReadFrom, sessRead]
    split
    · simp
    · rw [if_neg (by simp only; omega)]
      exact ih _

/-- Negation of C113 for `bufio.Reader`: reading a session byte by byte gives the messages up to the first that is longer than the
buffer, and then panics. -/
theorem C113_violated_bufio (size : Nat) (src : List Bytes) (h : ∀ m ∈ src, m ≠ []) (tries : Nat) :
    bufioBytes size src tries = ((src.takeWhile (fun m => m.length ≤ size)).flatten, .panic) := by
  induction src generalizing tries with
  | nil => simp [bufioBytes, sessRead]
  | cons m ms ih =>
    by_cases hl : m.length ≤ size
    · have h1 : ¬ size < m.length := by omega
      have h2 : 0 < m.length := List.length_pos_iff.mpr (h m (by simp))
      simp only [bufioBytes, sessRead, h1, if_false, List.takeWhile_cons, hl, decide_true, if_true, List.flatten_cons]
      rw [if_neg (by omega), if_pos (by omega), ih (fun x hx => h x (by simp [hx]))]
      simp
    · have h1 : size < m.length := by omega
      simp [bufioBytes, sessRead, h1, hl]

/-- C113, the bytes that are read before: they are a begin of the stream, also with empty messages, and nothing but a panic or
`io.ErrNoProgress` ends it.  Missing: the end without a panic (`C113_violated_bufio`), and what `C113_violated` says. -/
theorem C113_partial (size : Nat) (src : List Bytes) (tries : Nat) :
    (bufioBytes size src tries).1 <+: src.flatten ∧
    ((bufioBytes size src tries).2 = .panic ∨ (bufioBytes size src tries).2 = .ok .noProgress) := by
  induction src generalizing tries with
  | nil => simp [bufioBytes, sessRead]
  | cons m ms ih =>
    by_cases hl : m.length ≤ size
    · have h1 : ¬ size < m.length := by omega
      simp only [bufioBytes, sessRead, h1, if_false, List.flatten_cons]
      rw [if_neg (by omega)]
      by_cases hm : 0 < m.length
      · rw [if_pos (by omega)]
        refine ⟨?_, (ih 100).2⟩
        simp only [Int.toNat_natCast, List.take_length]
        exact List.prefix_append_right_inj m |>.mpr (ih 100).1
      · rw [if_neg (by omega)]
        have hm' : m = [] := List.eq_nil_of_length_eq_zero (by omega)
        subst hm'
        split
        · simp
        · simpa using ih (tries - 1)
    · have h1 : size < m.length := by omega
      simp [bufioBytes, sessRead, h1]

example : bufioBytes 4096 [[1, 2], [], [3]] 100 = ([1, 2, 3], .panic) ∧
    (bufioBytes 4096 (List.replicate 100 []) 100).2 = .ok .noProgress := by decide +kernel

/-! ## C114 -/

/-- What `io.ReadFull` is for: the first `room` bytes of the stream, the rest is left for later. -/
def FullRead (room : Nat) (src : List Bytes) (r : Int × Option Err × Bytes × List Bytes) : Prop :=
  r.1 = room ∧ r.2.1 = none ∧ r.2.2.1 = src.flatten.take room ∧ r.2.2.2.flatten = src.flatten.drop room

theorem readFull_whole (room : Nat) : ∀ (pre post : List Bytes) (b : Bytes), b.length + pre.flatten.length = room →
    (∀ m ms, pre = ms ++ [m] → m ≠ []) →
    readFull room (pre ++ post) b.length b = ((room : Int), none, b ++ pre.flatten, post) := by
  intro pre
  induction pre with
  | nil =>
    intro post b h _
    simp only [List.flatten_nil, List.length_nil, Nat.add_zero] at h
    cases post <;> simp [readFull, h]
  | cons m ms ih =>
    intro post b h hl
    simp only [List.flatten_cons, List.length_append] at h
    have hlt : b.length < room := by
      rcases List.eq_nil_or_concat ms with rfl | ⟨ms', x, rfl⟩
      · have := List.length_pos_iff.mpr (hl m [] rfl); omega
      · have := List.length_pos_iff.mpr (hl x (m :: ms') (by simp))
        simp at h; omega
    have h1 : ¬ room - b.length < m.length := by omega
    simp only [List.cons_append, readFull, sessRead, h1, if_false]
    rw [if_neg (by omega)]
    have h2 := ih post (b ++ m) (by rw [List.length_append]; omega) (fun x xs hx => hl x (m :: xs) (by rw [hx]; rfl))
    rw [List.length_append, Int.natCast_add] at h2
    rw [h2]
    simp [List.append_assoc]

/-- C114 when a message ends where the buffer ends.  Missing: other lengths (`C114_violated`). -/
theorem C114_partial (pre post : List Bytes) (hl : ∀ m ms, pre = ms ++ [m] → m ≠ []) :
    FullRead pre.flatten.length (pre ++ post) (readFull pre.flatten.length (pre ++ post) 0 []) := by
  have := readFull_whole pre.flatten.length pre post [] (by simp) hl
  simp only [List.length_nil, Int.natCast_zero, List.nil_append] at this
  rw [this]
  simp [FullRead]

/-- Negation of C114: whenever the end of the buffer is inside of a message, `io.ReadFull` fails, reports one byte less than it has
read, and the message is lost. -/
theorem C114_violated (room : Nat) (pre post : List Bytes) (m : Bytes) (h1 : pre.flatten.length < room)
    (h2 : room < pre.flatten.length + m.length) :
    readFull room (pre ++ m :: post) 0 [] = ((pre.flatten.length : Int) - 1, some .tooBig, pre.flatten, post) := by
  have key : ∀ (pre : List Bytes) (b : Bytes), b.length + pre.flatten.length < room → room < b.length + pre.flatten.length + m.length →
      readFull room (pre ++ m :: post) b.length b =
        (((b.length + pre.flatten.length : Nat) : Int) - 1, some .tooBig, b ++ pre.flatten, post) := by
    intro pre
    induction pre with
    | nil =>
      intro b h1 h2
      simp only [List.flatten_nil, List.length_nil, Nat.add_zero] at h1 h2
      have h3 : room - b.length < m.length := by omega
      simp only [List.nil_append, readFull, sessRead, h3, if_true]
      rw [if_neg (by omega), if_neg (by omega)]
      simp
      omega
    | cons x xs ih =>
      intro b h1 h2
      simp only [List.flatten_cons, List.length_append] at h1 h2
      have h3 : ¬ room - b.length < x.length := by omega
      simp only [List.cons_append, readFull, sessRead, h3, if_false]
      rw [if_neg (by omega)]
      have h4 := ih (b ++ x) (by rw [List.length_append]; omega) (by rw [List.length_append]; omega)
      rw [List.length_append, Int.natCast_add] at h4
      rw [h4]
      simp [List.append_assoc]
      omega
  have := key pre [] (by simpa using h1) (by simpa using h2)
  simpa using this

/-- A header of two bytes in a message of three. -/
example : readFull 2 [[1, 2, 3], [4]] 0 [] = (-1, some .tooBig, [], [[4]]) ∧
    readFull 3 [[1, 2], [3], [4]] 0 [] = (3, none, [1, 2, 3], [[4]]) := by decide +kernel

#print axioms C110_refines
#print axioms C110_partial
#print axioms C110_violated
#print axioms C110_violated_single
#print axioms C111_exact
#print axioms C111_partial
#print axioms C111_violated
#print axioms C112_exact
#print axioms C112_partial
#print axioms C112_violated
#print axioms C113_violated
#print axioms C113_violated_bufio
#print axioms C113_partial
#print axioms C114_partial
#print axioms C114_violated
#print axioms C110_single_failed

end Verif.StdIO
