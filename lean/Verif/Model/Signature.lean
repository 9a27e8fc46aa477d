import Verif.Model.Identity
/-!
# Signatures: identity.go:349-361

Ed25519 is a parameter: how a signature is computed and checked is left open, the sizes and the
panics of `crypto/ed25519` are not.  A byte slice is its contents; `Sign` reads `data` before it writes
to `signature`, so it does not matter whether the two overlap.
-/
namespace Verif.Signature
open Verif.Identity

/-- `crypto/ed25519`. -/
structure Ed25519 where
  /-- private key, data -/
  sign : Bytes → Bytes → Bytes
  /-- public key, data, signature -/
  verify : Bytes → Bytes → Bytes → Bool
  sign_length : ∀ k m, (sign k m).length = 64
  verify_sign : ∀ k m, k.length = 64 → verify (publicOf k) m (sign k m) = true
  /-- a signature of another length is not valid -/
  verify_length : ∀ k m s, verify k m s = true → s.length = 64

inductive SigErr where
  | invalidSignature
  deriving DecidableEq, Repr

/-- `(*Identity).VerifySignature` (identity.go:350-355): `ed25519.Verify` panics if the public key does not
have 32 bytes. -/
def verifySignature (E : Ed25519) (i : Keys) (signature data : Bytes) : Outcome SigErr Unit :=
  if i.pub.length ≠ 32 then .panic
  else if E.verify i.pub data signature then .ok () else .err .invalidSignature

/-- `copy(dst, src)`: the new contents of `dst`. -/
def copyInto (dst src : Bytes) : Bytes := src.take dst.length ++ dst.drop src.length

/-- `(*Identity).Sign` (identity.go:358-361): the new contents of `signature`.  `ed25519.Sign` panics if the
private key does not have 64 bytes. -/
def sign (E : Ed25519) (i : Keys) (signature data : Bytes) : Outcome SigErr Bytes :=
  if i.priv.length ≠ 64 then .panic else .ok (copyInto signature (E.sign i.priv data))

end Verif.Signature
