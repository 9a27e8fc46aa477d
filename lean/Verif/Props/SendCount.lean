import Verif.Model.SendCount
import Verif.Props.Send
/-!
# Property theorems C44 (fragmented messages) and C148: SendInfo.N is the number of bytes written

The full claim (send_info.go:17-19): when the channel of `Done` is closed, `N` is the number of bytes that were
written to the backend to send the (merged) message.
-/
namespace Verif.SendCount
open Verif.Headers Verif.Send

/-- The claim, for one result. -/
def Right (r : Result) : Prop := r.n = (r.taken : Int)

/-- C148, the part which holds: for every message that is not fragmented, if it has been sent without an error, or
was not merged with others (an internal message, or no SendDelay), or was refused for its size at once.  Missing: fragmented
messages (`C148_violated`), and delayed ones that fail (`C148_violated_error`). -/
theorem C148_partial (C : Packet.Crypto) (cfg : Cfg) (w : Backend) (nows : Nat → Now) (before after : Bytes)
    (plan : Plan) (hf : ∀ jobs, plan ≠ .fragmented jobs) (r : Result)
    (h : result C cfg w nows before after plan = some r) (hok : r.err = false ∨ ∀ m, plan ≠ .later m) :
    Right r := by
  have hs : ∀ job, Right (send C cfg (nows 0) w job) := by
    intro job
    simp only [send]
    split <;> simp [Right]
  cases plan with
  | tooBig a b => simp only [result, Option.some.injEq] at h; subst h; simp [Right]
  | now job => simp only [result, Option.some.injEq] at h; subst h; exact hs job
  | later m =>
    simp only [result, sendBuffer, Option.some.injEq] at h
    rcases hok with hok | hok
    · split at h
      · subst h; simp_all
      · subst h; exact hs _
    · exact absurd rfl (hok m)
  | fragmented jobs => exact absurd rfl (hf jobs)
  | hangs => simp [result] at h

/-- And then all the messages in the buffer were written: with a backend which takes all it gets or fails, `N` counts the
44 bytes of the packet header and the bytes of all merged messages. -/
theorem C148_all (C : Packet.Crypto) (cfg : Cfg) (w : Backend) (now : Now) (messages : Bytes)
    (hk : Packet.KeyOK now.cipherKey) (ha : Packet.KeyOK now.aux) (hl : messages.length + 44 < 2 ^ 32)
    (hw : ∀ b, (w b).2 = false → (w b).1 = b.length)
    (h : (sendBuffer C cfg now w messages).err = false) :
    (sendBuffer C cfg now w messages).n = messages.length + 44 := by
  have hse : (send C cfg now w ⟨true, false, messages⟩).err = false := by
    simp only [sendBuffer] at h
    split at h
    · rename_i e; simp only at h; rw [e] at h; cases h
    · exact h
  simp only [sendBuffer, hse, Bool.false_eq_true, if_false]
  simp only [send] at hse ⊢
  split at hse
  · rename_i out ho
    simp only at hse
    simp only [ho, hw out hse]
    have : out.length = messages.length + 44 := by
      simp only [sendMessages, if_true] at ho
      cases hkey : now.cipherKey with
      | none => rw [hkey] at ho; cases ho
      | some k =>
        rw [hkey] at ho hk
        simp only [Option.map_some] at ho
        split at ho
        · cases ho
        · split at ho
          · cases ho
          · obtain ⟨pkt, h1, h2, -⟩ := Packet.seal_spec C now.aux (some k) now.sessionID true now.packetID messages ha hk
              (by simp)
            rw [h1] at ho
            dsimp only at ho
            split at ho
            · cases ho
            · cases ho
              rw [List.length_take, h2, containerHeadersSize, Nat.mod_eq_of_lt (by omega)]
              omega
    omega
  · cases hse

/-- C148 is violated for every fragmented message: `N` is -1, also if everything was written. -/
theorem C148_violated (C : Packet.Crypto) (cfg : Cfg) (w : Backend) (nows : Nat → Now) (before after : Bytes)
    (jobs : List Job) (r : Result) (h : result C cfg w nows before after (.fragmented jobs) = some r) :
    r.n = -1 ∧ ¬ Right r := by
  simp only [result, sendFragments, Option.some.injEq] at h
  subst h
  exact ⟨rfl, by simp only [Right]; omega⟩

/-- C148 is violated for every merged message whose packet the backend has taken in part, or in full, but
with an error: `N` is -1. -/
theorem C148_violated_error (C : Packet.Crypto) (cfg : Cfg) (w : Backend) (nows : Nat → Now) (before after m : Bytes)
    (r : Result) (h : result C cfg w nows before after (.later m) = some r) (he : r.err = true) :
    r.n = -1 ∧ ¬ Right r := by
  simp only [result, sendBuffer, Option.some.injEq] at h
  split at h
  · subst h; exact ⟨rfl, by simp only [Right]; omega⟩
  · subst h; simp_all

/-- C44 for a fragmented message: when its channel is closed, there is no error exactly if every fragment has been given to the
backend, which has taken it without an error; and the fragments cover the message. -/
theorem C44_fragmented (C : Packet.Crypto) (cfg : Cfg) (he : 25 ≤ cfg.established.toNat) (hf : cfg.fragmentation = true)
    (w : Backend) (nows : Nat → Now) (before after : Bytes) (chainID : W64)
    (t : W32) (ht : t ≠ typeKeyExchange ∧ t ≠ typeNegotiation) (payload : Bytes)
    (hl : payload.length < 2 ^ 32) (hbig : cfg.established.toNat < payload.length) :
    ∃ fs r, Covers fs chainID cfg.established.toNat payload ∧
      result C cfg w nows before after (writeMessageAsync cfg chainID t payload) = some r ∧
      (r.err = false ↔ ∀ k f, fs[k]? = some f → ∃ out,
        sendMessages C cfg (nows k) ⟨false, false,
          messageBytes t 2 (putLE 8 chainID.toNat ++ putLE 8 f.startPos ++ putLE 8 payload.length ++ f.payload)⟩ = .ok out ∧
        (w out).2 = false) := by
  obtain ⟨fs, h1, h2⟩ := C20_plan cfg he hf chainID t ht payload hl hbig
  refine ⟨fs, _, h1, by rw [h2]; rfl, ?_⟩
  have hsend : ∀ now job, (send C cfg now w job).err = false ↔ ∃ out, sendMessages C cfg now job = .ok out ∧ (w out).2 = false := by
    intro now job
    simp only [send]
    split
    · rename_i out ho
      simp only [ho, Outcome.ok.injEq, exists_eq_left']
    · rename_i hne
      exact ⟨fun h => by simp at h, fun ⟨out, ho, _⟩ => absurd ho (hne out)⟩
  simp only [sendFragments, List.map_map, List.any_eq_false, List.mem_map]
  constructor
  · intro h k f hk
    rw [← hsend]
    have := h _ ⟨(_, k), List.mem_zipIdx_iff_getElem?.2 (by simpa using ⟨f, hk, rfl⟩), rfl⟩
    simpa using this
  · rintro h x ⟨⟨job, k⟩, hm, rfl⟩
    have hk := List.mem_zipIdx_iff_getElem?.1 hm
    simp only [List.getElem?_map, Option.map_eq_some_iff] at hk
    obtain ⟨f, hf', rfl⟩ := hk
    have := (hsend (nows k) _).2 (h k f hf')
    simpa using this

/-! ## Examples -/

def toyC : Packet.Crypto :=
  { keyStream := fun _ _ _ => 0, poly := fun _ _ => List.replicate 16 0, blake3 := fun x => x, poly_length := fun _ _ => by simp }

def here : Nat → Now := fun i => ⟨some (List.replicate 32 9), none, ⟨1, 2⟩, BitVec.ofNat 64 (i + 1), true, false⟩

/-- A backend which takes everything, and one which takes 50 bytes and fails. -/
def good : Backend := fun b => (b.length, false)
def bad : Backend := fun b => (min 50 b.length, true)

/-- Three bytes without a delay, with a delay (beside a message of 10 bytes), and 40 bytes in fragments; and the errors. -/
example :
    result toyC ⟨30, true, false⟩ good here [] [] (writeMessageAsync ⟨30, true, false⟩ 1 (2 ^ 31) [1, 2, 3]) = some ⟨56, false, 56⟩ ∧
    result toyC ⟨30, true, false⟩ bad here [] [] (writeMessageAsync ⟨30, true, false⟩ 1 (2 ^ 31) [1, 2, 3]) = some ⟨50, true, 50⟩ ∧
    result toyC ⟨30, true, true⟩ good here (List.replicate 10 7) [] (writeMessageAsync ⟨30, true, true⟩ 1 (2 ^ 31) [1, 2, 3])
      = some ⟨66, false, 66⟩ ∧
    result toyC ⟨30, true, true⟩ bad here (List.replicate 10 7) [] (writeMessageAsync ⟨30, true, true⟩ 1 (2 ^ 31) [1, 2, 3])
      = some ⟨-1, true, 50⟩ ∧
    result toyC ⟨30, true, true⟩ good here [] [] (writeMessageAsync ⟨30, true, true⟩ 1 (2 ^ 31) (List.replicate 40 1))
      = some ⟨-1, false, 579⟩ ∧
    result toyC ⟨30, false, true⟩ good here [] [] (writeMessageAsync ⟨30, false, true⟩ 1 (2 ^ 31) (List.replicate 40 1))
      = some ⟨0, true, 0⟩ := by
  decide +kernel

/-- One fragment of seven is refused by the backend: an error. -/
example :
    result toyC ⟨30, true, true⟩ (fun b => if b.length = 83 then (83, false) else (0, true)) here [] []
      (writeMessageAsync ⟨30, true, true⟩ 1 (2 ^ 31) (List.replicate 40 1)) = some ⟨-1, true, 498⟩ := by
  decide +kernel

#print axioms C44_fragmented
#print axioms C148_partial
#print axioms C148_all
#print axioms C148_violated
#print axioms C148_violated_error

end Verif.SendCount
