import Verif.Model.Receive
import Verif.Model.Send
import Verif.Model.KeyExchange
/-!
# Sizes reported in errors: errors.go:84-98, 142-162, 205-220

`ErrTooShort`, `ErrPayloadTooBig` and `ErrWrongKeyLength` carry two sizes. The other models mention some of these errors
without the sizes; here are the sizes, at the same conditions (the theorems of `Verif.Props.Errors` connect both).
-/
namespace Verif.Errors
open Verif.Headers

/-- `ErrPayloadTooBig` (errors.go:203-218). -/
structure TooBig where
  max : Nat
  real : Nat
  deriving DecidableEq, Repr

/-- The error of `parseMessage` (negotiator.go:414-421) alone. -/
def errOf {α : Type} : Outcome TooShort α → Option TooShort
  | .err e => some e
  | _ => none

/-- The `ErrTooShort` of `(*negotiator).Handle` (negotiator.go:494-509), if there is one. A ping is sent back without being
parsed (negotiator.go:453-457); errors of `WriteSingle` are not of this kind. -/
def negotiatorTooShort : Bytes → Option TooShort
  | [] => some ⟨1, 0⟩
  | t :: b =>
    if t = 0 then errOf (ControlMsg.parse (t :: b))
    else if t = 2 then errOf (PingPong.parse (t :: b))
    else none

/-- The `ErrTooShort` of `parseAndCheck` of the key exchanger (key_exchanger.go:344-346). -/
def kxTooShort (b : Bytes) : Option TooShort :=
  if b.length < kxSignedSize then some ⟨kxSignedSize, b.length⟩ else none

/-- The `ErrPayloadTooBig` of `sendMessages` (session.go:1903-1911). `len(messagesBytesOut)` is `len(messagesBytes)`, because
of `Grow` (session.go:1884), so the second condition never holds. -/
def sendTooBig (cfg : Send.Cfg) (job : Send.Job) : Option TooBig :=
  if ¬ job.internal ∧ (containerHeadersSize + Send.len32 job.messages) % 2 ^ 32 > Send.packetSize cfg then
    some ⟨Send.packetSize cfg, containerHeadersSize + job.messages.length⟩
  else none

/-- The `ErrPayloadTooBig` of `writeMessageAsync` with an empty buffer (session.go:1609-1616). -/
def delayedTooBig (cfg : Send.Cfg) (payload : Bytes) : Option TooBig :=
  if containerHeadersSize + messageHeadersSize + payload.length > Send.packetSize cfg then
    some ⟨Send.packetSize cfg, containerHeadersSize + messageHeadersSize + payload.length⟩
  else none

end Verif.Errors
