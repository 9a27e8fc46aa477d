import Verif.Model.MutualError
/-!
# Specification: what `MutualConfirmationOfIdentity` returns
-/
namespace Verif.MutualError

/-- C165: the call that has returned gives four keys and no error, or an error. -/
def KeysOrError (s : State) : Prop := s.call = .done → (s.ret = none ↔ s.keys = some true)

/-- C165: if the caller was told of a packet that cannot be decrypted, and the call got no keys, the error says so. -/
def SaysWhy (s : State) : Prop := s.call = .done → true ∈ s.reports → s.keys = none → s.ret = some .cannotDecrypt

end Verif.MutualError
