import Verif.Model.Constructors
/-!
# Using what the constructors of `Identity` return
-/
namespace Verif.Constructors
open Verif.Identity Verif.Signature

/-- Can it be used as a remote identity: does checking a signature work? -/
def UsableRemote (E : Ed25519) (k : Keys) : Prop := ∀ sig data, verifySignature E k sig data ≠ .panic

/-- Can it be used as a local identity: does signing work, and are the signatures accepted by those who have the public key? -/
def UsableLocal (E : Ed25519) (k : Keys) : Prop :=
  ∀ data, ∃ s, sign E k (List.replicate 64 0) data = .ok s ∧ verifySignature E ⟨k.pub, []⟩ s data = .ok ()

/-- `var e ErrWrongKeyLength; errors.As(err, &e)` with the two lengths. -/
def isWrongLength (expected real : Nat) (e : Chain) : Bool := e.contains (.wrongLength expected real)

/-- `var e ErrCannotLoadKeys; errors.As(err, &e)`. -/
def isCannotLoadKeys (e : Chain) : Bool := e.contains .cannotLoadKeys

end Verif.Constructors
