import Verif.Model.Options
import Verif.Model.Negotiator
/-!
# `setupBackend` (session.go:519-530) and what a path does with datagrams

What is simplified
* `udpnofrag.UDPSetNoFragment` sets an option of the socket or fails; which of both is an input.
* Of the backend only its type matters (`Options.Backend`), and whether its socket had the option before.
-/
namespace Verif.Setup
open Verif.Options

/-- What `NewSession` has done to the backend. -/
structure Made where
  /-- the datagrams of the socket are not fragmented on their way -/
  noFragment : Bool
  /-- calls of the user's `EventHandler.Error` before `NewSession` returns -/
  errors : Nat
  deriving DecidableEq, Repr

/-- `sess.error` (session.go:2007-2009) during `init`: without an event handler there is a dummy (session.go:422-424); what
`Error` returns is ignored. -/
def report (handler : Bool) : Nat := if handler then 1 else 0

/-- `setupBackend` (session.go:519-530); `was`: the socket has the option already, `fails`: setting it does not work,
`handler`: `NewSession` was given an event handler. -/
def setupBackend (b : Backend) (was fails handler : Bool) : Made :=
  match b with
  | .udpConn => if fails then ⟨was, report handler⟩ else ⟨true, 0⟩
  | .conn _ => ⟨was, 0⟩
  | .other => ⟨was, 0⟩

end Verif.Setup
