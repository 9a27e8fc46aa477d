import Verif.Spec.Options
import Verif.Props.KeyExchange
/-!
# Options: C98, C99, C100, C101
-/
namespace Verif.Options
open Verif.Headers

/-! ## C98 -/

theorem lossy_iff (b : Backend) : isLossyWriter b = b.isUDP := by
  cases b with
  | conn a => cases a <;> rfl
  | _ => rfl

theorem init_ok {backend : Backend} {limit lossy : W32} {o : SessOptions} {s : Sess}
    (h : initSession backend limit lossy (some o) = .ok s) :
    let w := withDefaults backend limit lossy (some o)
    s = ⟨w, if w.packetIDStorageSize > 0 then some (PacketID.newStor (storageSize w.packetIDStorageSize)) else none,
      packetSizeLimit w.payloadSizeLimit, w.payloadSizeLimit, w.kx.psk, w.maxChainIDDiff.toNat⟩ := by
  simp only [initSession] at h
  split at h
  · cases h
  split at h
  · cases h
  cases h
  rfl

/-- C98 (restriction that holds): every session has the documented behaviour for the documented values of its options, except
DetachOnSequentialDecryptFailsCount = 0 (and ReadTimeout below 0, see C76).
Missing for the full C98: `NeverStops`, see `C98_violated`. -/
theorem C98_partial (backend : Backend) (limit lossy : W32) (o : SessOptions) (s : Sess)
    (h : initSession backend limit lossy (some o) = .ok s) :
    Documented o backend limit lossy s ∧ DocumentedKx o.kx (kxDefaults s.options.kx) ∧
      DocumentedNeg o.neg backend (negDefaults s.options.neg) := by
  have e := init_ok h
  subst e
  refine ⟨?_, ?_, ?_⟩
  · constructor
    · intro h; simp [withDefaults, h, microsecond]
    · intro h; simp [withDefaults, h, Sess.atOnce]
    · intro d h hd; simp [withDefaults, h]; omega
    · intro h n; simp [withDefaults, h, Sess.reports, BitVec.le_def]
    · intro k h hk n
      have hk' : ¬ some k = some (0 : W64) := fun e => hk (Option.some.inj e)
      simp only [withDefaults, Option.getD_some, h, hk', if_false, Sess.reports, BitVec.le_def, ge_iff_le, decide_eq_true_eq]
    · intro h n; simp [withDefaults, h, Sess.reports]
    · intro h n; simp [withDefaults, h, Sess.detaches]
    · intro h n
      have : 0 < o.detachOnMessages.toNat := by
        have : o.detachOnMessages.toNat ≠ 0 := fun e => h (BitVec.eq_of_toNat_eq e)
        omega
      simp [withDefaults, Sess.detaches, BitVec.le_def, BitVec.lt_def]
      omega
    · intro h n; simp [withDefaults, Sess.stops, BitVec.le_def]
    · intro h; simp [withDefaults, h, lossy_iff]
    · intro h; simp only [withDefaults, Option.getD_some, h, if_false]
    · intro h
      have h0 : o.packetIDStorageSize ≠ 0 := by omega
      simp [withDefaults, h0]; omega
    · intro h; simp [withDefaults, h, storageSize, PacketID.newStor]
    · intro h; simp [withDefaults, h, storageSize, PacketID.newStor]
    · intro h
      have h0 : o.packetIDStorageSize ≠ 0 := by omega
      have h1 : o.packetIDStorageSize.toNat ≠ 1 := by omega
      have h2 : o.packetIDStorageSize > 0 := by omega
      have h3 : 0 < o.packetIDStorageSize.toNat := by omega
      simp only [withDefaults, Option.getD_some, h0, if_false, h2, if_true, storageSize, h1, PacketID.newStor, h3]
      refine ⟨_, rfl, ?_, ?_⟩ <;> simp <;> omega
    · intro age len
      simp only [withDefaults, Sess.takesFragment, Option.getD_some, Bool.and_eq_true, Bool.not_eq_true', decide_eq_false_iff_not,
        BitVec.lt_def, gt_iff_lt, Nat.not_lt]
      split <;> split <;> rfl
  · constructor <;> intros <;> simp_all [withDefaults, kxDefaults, minute, second]
  · constructor <;> intros <;> simp_all [withDefaults, negDefaults, isEnabled, totalTimeout, minute, second, lossy_iff] <;> omega

/-- C98 fails for the zero value of DetachOnSequentialDecryptFailsCount on every session: the first undecryptable packet stops it. -/
theorem C98_violated (backend : Backend) (limit lossy : W32) (o : SessOptions) (s : Sess)
    (h : initSession backend limit lossy (some o) = .ok s) (h0 : o.detachOnFails = 0) : ¬ NeverStops o s ∧ ∀ n, s.stops n = true := by
  have e := init_ok h
  have : ∀ n, s.stops n = true := fun n => by simp [e, withDefaults, Sess.stops, h0, BitVec.le_def]
  exact ⟨fun h => absurd (h h0 1) (by rw [this 1]; decide), this⟩

/-- Nil options are the zero options. -/
theorem C98_nil (backend : Backend) (limit lossy : W32) : initSession backend limit lossy none = initSession backend limit lossy (some {}) := rfl

/-- Not vacuous: default options on a TCP connection. -/
example : ∃ s, initSession (.conn .tcp) defaultLimit defaultLossyLimit (some {}) = .ok s ∧ s.packetSizeLimit = 65269 ∧ s.chains = 8 ∧
    s.options.sendDelay = some 50000 := by
  refine ⟨_, rfl, ?_⟩; decide +kernel

/-! ## C99 -/

theorem cannot_make (size n : Nat) : canMake size n = false ↔ 2 ^ 48 < size * n := by
  unfold canMake; rw [decide_eq_false_iff_not]; omega

theorem storage_fails (n : Int) : ((if n = 0 then 256 else n) > 0 ∧
    canMake 8 ((storageSize (if n = 0 then 256 else n) + 63) / 64) = false) ↔ 2 ^ 51 < n := by
  by_cases h0 : n = 0
  · subst h0; decide
  · rw [if_neg h0]
    rw [cannot_make, storageSize]
    by_cases h1 : n.toNat = 1
    · rw [if_pos h1]; omega
    · rw [if_neg h1]; omega

theorem chains_fail (n : W64) : canMake chainSize (if n = 0 then 8 else n).toNat = false ↔ 2 ^ 42 < n.toNat := by
  by_cases h0 : n = 0
  · subst h0; decide
  · rw [if_neg h0]
    rw [cannot_make, chainSize]
    omega

/-- C99: exactly which options make NewSession panic, out of memory aside: PacketIDStorageSize above 2^51 and MaxChainIDDiff above
2^42. -/
theorem C99_new (backend : Backend) (limit lossy : W32) (o : SessOptions) :
    initSession backend limit lossy (some o) = .panic ↔ 2 ^ 51 < o.packetIDStorageSize ∨ 2 ^ 42 < o.maxChainIDDiff.toNat := by
  have h1 := storage_fails o.packetIDStorageSize
  have h2 := chains_fail o.maxChainIDDiff
  unfold initSession
  simp only
  split
  · rename_i h; exact iff_of_true rfl (.inl (h1.mp h))
  · rename_i h
    split
    · rename_i h'; exact iff_of_true rfl (.inr (h2.mp h'))
    · rename_i h'
      refine iff_of_false (by simp) ?_
      rintro (h3 | h3)
      · exact h (h1.mpr h3)
      · exact h' (h2.mpr h3)

theorem ticker_fails (d e : Int) (he : 0 < e) : canTick (if d = 0 then e else d) = false ↔ d < 0 := by
  simp only [canTick, decide_eq_false_iff_not]
  split <;> omega

/-- C99: exactly which options make the goroutine of the key exchange panic. -/
theorem C99_start (o : KxOptions) (skipped : Bool) :
    loopTickers (kxDefaults o) skipped = .panic ↔ (skipped = false ∧ o.retryInterval < 0) ∨ o.keyUpdateInterval < 0 := by
  have h1 := ticker_fails o.retryInterval second (by decide)
  have h2 := ticker_fails o.keyUpdateInterval minute (by decide)
  unfold loopTickers
  simp only [kxDefaults, h1, h2]
  by_cases h3 : skipped = false ∧ o.retryInterval < 0
  · simp [h3]
  · rw [if_neg h3]
    by_cases h4 : o.keyUpdateInterval < 0
    · simp [h4]
    · rw [if_neg h4]
      exact iff_of_false (by simp) (fun h => h.elim h3 h4)

/-- C99 (restriction that holds): with the sizes below these bounds and without negative intervals neither NewSession nor the key exchange
panics.
Missing for the full C99: all other values, see `C99_violated`. -/
theorem C99_partial (backend : Backend) (limit lossy : W32) (o : SessOptions) (h1 : o.packetIDStorageSize ≤ 2 ^ 51)
    (h2 : o.maxChainIDDiff.toNat ≤ 2 ^ 42) (h3 : 0 ≤ o.kx.retryInterval) (h4 : 0 ≤ o.kx.keyUpdateInterval) (skipped : Bool) :
    ∃ s, initSession backend limit lossy (some o) = .ok s ∧ loopTickers (kxDefaults s.options.kx) skipped = .ok () := by
  have h5 : initSession backend limit lossy (some o) ≠ .panic := fun h => by
    rcases (C99_new ..).mp h with h | h <;> omega
  cases h : initSession backend limit lossy (some o) with
  | ok s =>
    refine ⟨s, rfl, ?_⟩
    have e : s.options.kx = o.kx := by rw [init_ok h]; rfl
    rw [e]
    have h6 : loopTickers (kxDefaults o.kx) skipped ≠ .panic := fun h => by
      rcases (C99_start ..).mp h with h | h <;> omega
    unfold loopTickers at h6 ⊢
    split
    · rename_i h7; simp [h7] at h6
    · rename_i h7
      split
      · rename_i h8; rw [if_neg h7, if_pos h8] at h6; exact absurd rfl h6
      · rfl
  | panic => exact absurd h h5
  | err e =>
    simp only [initSession] at h
    split at h
    · cases h
    split at h <;> cases h
  | block =>
    simp only [initSession] at h
    split at h
    · cases h
    split at h <;> cases h

/-- C99 fails: a negative interval ("off" for other options of the package) crashes the program, and so do large tables. -/
theorem C99_violated : loopTickers (kxDefaults { keyUpdateInterval := -1 }) false = .panic ∧
    loopTickers (kxDefaults { retryInterval := -1 }) false = .panic ∧
    initSession .udpConn defaultLimit defaultLossyLimit (some { maxChainIDDiff := 2 ^ 42 + 1 }) = .panic ∧
    initSession .udpConn defaultLimit defaultLossyLimit (some { packetIDStorageSize := 2 ^ 62 }) = .panic :=
  ⟨by decide +kernel, by decide +kernel, (C99_new ..).mpr (.inr (by decide)), (C99_new ..).mpr (.inl (by decide))⟩

/-! ## C100 -/

/-- C100 (restriction that holds, and exactly this): GetPacketSizeLimit is PayloadSizeLimit with the headers, 53 bytes, up to
2^32 - 54; from there on it wraps, and is below the size of the headers.
Missing for the full C100: these 53 values, see `C100_violated`. -/
theorem C100_partial (backend : Backend) (limit lossy : W32) (o : SessOptions) (s : Sess)
    (h : initSession backend limit lossy (some o) = .ok s) :
    (s.packetSizeLimit.toNat = s.options.payloadSizeLimit.toNat + containerHeadersSize + messageHeadersSize ↔
      s.options.payloadSizeLimit.toNat ≤ 2 ^ 32 - 54) ∧
    (2 ^ 32 - 54 < s.options.payloadSizeLimit.toNat → s.packetSizeLimit.toNat < 53) := by
  have e : s.packetSizeLimit = packetSizeLimit s.options.payloadSizeLimit := by rw [init_ok h]
  rw [e]
  have := s.options.payloadSizeLimit.isLt
  simp only [packetSizeLimit, BitVec.toNat_add, BitVec.toNat_ofNat, containerHeadersSize, messageHeadersSize]
  constructor
  · constructor <;> omega
  · omega

/-- C100 fails: the largest payload limit gives a buffer of 52 bytes, in which no message fits. -/
theorem C100_violated : ∃ s, initSession .udpConn defaultLimit defaultLossyLimit (some { payloadSizeLimit := 0xFFFFFFFF }) = .ok s ∧
    s.packetSizeLimit = 52 ∧ s.establishedPayloadSize = 0xFFFFFFFF := by
  refine ⟨_, rfl, ?_⟩; decide +kernel

/-! ## C101 -/

/-- C101 (restriction that holds): while the caller leaves the variables alone, the session uses what it was created with; the key of the
packets before the exchange is kept in any case.
Missing for the full C101: later changes, see `C101_exact`, `C101_violated`. -/
theorem C101_partial (C : KX.Crypto) (backend : Backend) (limit lossy : W32) (o : SessOptions) (r : Refs) (v : Vars) (s : Sess)
    (h : initSession backend limit lossy (some (r.options v o)) = .ok s) :
    s.errorOnLater r v = s.options.errorOnFails ∧ s.sendDelayLater r v = s.options.sendDelay ∧
    (∀ priv pub, s.sharedKeyLater C v priv pub = KX.generateSharedKey C (if r.psk then some v.psk else none) priv pub) ∧
    s.auxKey C = if r.psk then some (KX.auxCipherKey C v.psk) else none := by
  have e := init_ok h
  subst e
  rcases r with ⟨rp, rs, re⟩
  refine ⟨?_, ?_, ?_, ?_⟩
  · cases re
    · rfl
    · by_cases h0 : some v.errorOnFails = some (0 : W64) <;>
        simp only [Sess.errorOnLater, withDefaults, Refs.options, Option.getD_some, if_true, h0, if_false, Option.map_some, Option.map_none]
  · cases rs
    · rfl
    · by_cases h0 : v.sendDelay ≤ 0 <;> simp [Sess.sendDelayLater, withDefaults, Refs.options, h0]
  · intro priv pub
    cases rp <;> rfl
  · cases rp <;> rfl

/-- C101, what is wrong: the exchanged keys, the number of failures and the delay follow the variables of the caller. -/
theorem C101_exact (C : KX.Crypto) (backend : Backend) (limit lossy : W32) (o : SessOptions) (v later : Vars) (s : Sess)
    (h : initSession backend limit lossy (some ((Refs.mk true true true).options v o)) = .ok s) :
    (∀ priv pub, s.sharedKeyLater C later priv pub = KX.generateSharedKey C (some later.psk) priv pub) ∧
    (v.errorOnFails ≠ 0 → s.errorOnLater ⟨true, true, true⟩ later = some later.errorOnFails) ∧
    (0 < v.sendDelay → s.sendDelayLater ⟨true, true, true⟩ later = some later.sendDelay) := by
  have e := init_ok h
  subst e
  refine ⟨fun priv pub => ?_, fun h0 => ?_, fun h0 => ?_⟩
  · simp [Sess.sharedKeyLater, withDefaults, Refs.options]
  · have h1 : ¬ some v.errorOnFails = some (0 : W64) := fun e => h0 (Option.some.inj e)
    simp only [Sess.errorOnLater, withDefaults, Refs.options, Option.getD_some, if_true, h1, if_false, Option.map_some]
  · have h1 : ¬ v.sendDelay ≤ 0 := by omega
    simp only [Sess.sendDelayLater, withDefaults, Refs.options, Option.getD_some, if_true, h1, if_false, Option.map_some]

/-- C101 fails: the caller wipes the pre-shared key after NewSession.  The keys of the exchange are then those of a key of zeros, which
everybody knows, and not those of the remote side. -/
theorem C101_violated : ∃ s, initSession .udpConn defaultLimit defaultLossyLimit
      (some ((Refs.mk true false false).options ⟨[1, 2, 3], 0, 0⟩ {})) = .ok s ∧
    s.sharedKeyLater KX.toy ⟨[0, 0, 0], 0, 0⟩ (some [1]) (some (KX.toy.pub [2])) =
      KX.generateSharedKey KX.toy (some [0, 0, 0]) (some [1]) (some (KX.toy.pub [2])) ∧
    s.sharedKeyLater KX.toy ⟨[0, 0, 0], 0, 0⟩ (some [1]) (some (KX.toy.pub [2])) ≠
      KX.generateSharedKey KX.toy (some [1, 2, 3]) (some [2]) (some (KX.toy.pub [1])) := by
  refine ⟨_, rfl, ?_⟩; decide +kernel

example : ∃ s, initSession .udpConn defaultLimit defaultLossyLimit (some ((Refs.mk true true true).options ⟨[1], 5, 7⟩ {})) = .ok s ∧
    s.errorOnLater ⟨true, true, true⟩ ⟨[1], 5, 9⟩ = some 9 ∧ s.sendDelayLater ⟨true, true, true⟩ ⟨[1], -4, 9⟩ = some (-4) := by
  refine ⟨_, rfl, ?_⟩; decide +kernel

#print axioms C98_partial
#print axioms C98_violated
#print axioms C98_nil
#print axioms C99_new
#print axioms C99_start
#print axioms C99_partial
#print axioms C99_violated
#print axioms C100_partial
#print axioms C100_violated
#print axioms C101_partial
#print axioms C101_exact
#print axioms C101_violated

end Verif.Options
