import Verif.Model.Send
/-!
# `SendInfo.N`: session.go:1432-1510, 1546-1572, 1735-1790, 1853-1987

What the fields `N` and `Err` of a SendInfo are when its channel is closed, in terms of what the backend
has taken.  A call of `backend.Write` takes some of the bytes and returns their number, with an error or
without.
-/
namespace Verif.SendCount
open Verif.Headers Verif.Send

/-- `backend.Write`: the number of bytes taken, and whether there is an error. -/
abbrev Backend := Bytes → Nat × Bool

/-- The result of a call: `N`, whether `Err` is not nil, and (not visible to the caller) the number of bytes
which the backend has taken. -/
structure Result where
  n : Int
  err : Bool
  taken : Nat
  deriving DecidableEq, Repr

/-- `sendMessages` (session.go:1853-1987) with its result: 0 and an error if it does not get to the write. -/
def send (C : Packet.Crypto) (cfg : Cfg) (now : Now) (w : Backend) (job : Job) : Result :=
  match sendMessages C cfg now job with
  | .ok out => ⟨(w out).1, (w out).2, (w out).1⟩
  | _ => ⟨0, true, 0⟩

/-- `sendDelayedNowSyncFromBuffer` (session.go:1776-1790) for the messages in the buffer: -1 if there is an
error. -/
def sendBuffer (C : Packet.Crypto) (cfg : Cfg) (now : Now) (w : Backend) (messages : Bytes) : Result :=
  let r := send C cfg now w ⟨true, false, messages⟩
  if r.err then { r with n := -1 } else r

/-- The goroutines of `writeMessageAsyncAsFragmented` (session.go:1486-1509): each fragment is sent by
itself (`nows`: what each of them sees), and `N` is -1 whatever they did. -/
def sendFragments (C : Packet.Crypto) (cfg : Cfg) (w : Backend) (jobs : List (Now × Job)) : Result :=
  let rs := jobs.map fun x => send C cfg x.1 w x.2
  ⟨-1, rs.any (·.err), (rs.map (·.taken)).sum⟩

/-- The SendInfo of a message when its channel is closed.  `before` and `after` are the other messages in
the buffer, for a message which is sent with a delay. -/
def result (C : Packet.Crypto) (cfg : Cfg) (w : Backend) (nows : Nat → Now) (before after : Bytes) :
    Plan → Option Result
  | .tooBig _ _ => some ⟨0, true, 0⟩
  | .now job => some (send C cfg (nows 0) w job)
  | .later message => some (sendBuffer C cfg (nows 0) w (before ++ message ++ after))
  | .fragmented jobs => some (sendFragments C cfg w (jobs.zipIdx.map fun x => (nows x.2, x.1)))
  | .hangs => none

end Verif.SendCount
