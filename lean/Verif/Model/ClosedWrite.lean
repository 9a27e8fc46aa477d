import Verif.Model.Send
/-!
# Writing to a session that is Closed: session.go:588-600, 1361-1374, 1410-1427, 1432-1510, 1574-1633, 1853-1967

The state is Closed, the context is cancelled, and the loops of the session have ended.  A `select` whose cases are both ready
takes any of them; these choices are an argument (`Choices`).

Simplifications:
* Nobody flushes the delayed buffer any more: `delayedSenderLoop` and the flush in `Close` have ended.
* `waitForSend` returns at once, because the session is done (session.go:1654), and `writeMessageAsync` tries again: the number of
  tries is that of the choices given.
* The errors of the fragments are in the order of the fragments.
-/
namespace Verif.ClosedWrite
open Verif.Send Verif.Headers

/-- What is left of the session. -/
structure Sess where
  /-- `establishedPayloadSize` -/
  size : W32
  fragmentation : Bool
  /-- `SendDelay != nil` -/
  delay : Bool
  /-- `isEstablished` is closed: the session was Established once -/
  established : Bool
  /-- `GetCipherKeys` has keys -/
  keys : Bool
  /-- `delayedWriteBuf.Len()` -/
  buf : Nat
  deriving DecidableEq, Repr

/-- What the `select`s take when the context is cancelled and `isEstablished` is closed: in packet `k`, and in try `k` of
`writeMessageAsync`. -/
structure Choices where
  /-- `ctx.Done()` in line 1597 or 1898 -/
  ctx : Nat → Bool
  /-- `ctx.Done()` in `GetEstablishedPayloadSize` (session.go:595-596) -/
  zero : Nat → Bool
  /-- `Wait` returns before the goroutines of the fragments have finished (send_info.go:142-147) -/
  early : Bool

inductive Err where
  | alreadyClosed
  | canceled
  | tooBig (max real : Nat)
  deriving DecidableEq, Repr

inductive Res where
  | ok (n : Nat)
  | errs (es : List Err)
  /-- the call has not returned -/
  | goesOn
  deriving DecidableEq, Repr

/-- `GetEstablishedPayloadSize` (session.go:588-600) in the state Closed. -/
def Sess.read (s : Sess) (zero : Bool) : W32 := if s.established && !zero then s.size else 0

/-- `GetEstablishedPacketSize` (session.go:580-584). -/
def Sess.packetSize (s : Sess) (zero : Bool) : Nat := ((s.read zero).toNat + containerHeadersSize + messageHeadersSize) % 2 ^ 32

/-- `sendMessages` (session.go:1853-1967) for packet `k`: it does not come to `backend.Write`. -/
def sendMessages (s : Sess) (c : Choices) (k : Nat) (job : Job) : Err :=
  if job.confidential && !s.keys then .canceled
  else if job.internal then .alreadyClosed
  else if !s.established || c.ctx k then .alreadyClosed
  else if (containerHeadersSize + len32 job.messages) % 2 ^ 32 > s.packetSize (c.zero k) then
    .tooBig (s.packetSize (c.zero k)) (containerHeadersSize + job.messages.length)
  else .alreadyClosed

/-- The loop of `writeMessageAsync` (session.go:1605-1633), with `tries` tries from number `k` on; then `Wait` in `WriteMessage`,
which ends by the context, and the error is not set (session.go:1367-1372). -/
def delayed (s : Sess) (c : Choices) (payload : Bytes) : (tries k : Nat) → Res
  | 0, _ => .goesOn
  | tries + 1, k =>
    if containerHeadersSize + s.buf + messageHeadersSize + payload.length > s.packetSize (c.zero k) then
      if s.buf = 0 then
        .errs [.tooBig (s.packetSize (c.zero k)) (containerHeadersSize + s.buf + messageHeadersSize + payload.length)]
      else delayed s c payload tries (k + 1)
    else .ok payload.length

/-- `WriteMessage` (session.go:1361-1374). -/
def writeMessage (s : Sess) (c : Choices) (tries : Nat) (t : W32) (payload : Bytes) : Res :=
  if len32 payload > s.size.toNat ∧ ¬ isInternal t then
    if ¬ s.fragmentation then .errs [.tooBig s.size.toNat payload.length]
    else match fragments ⟨s.read (c.zero 0), true, s.delay⟩ 0 payload with
      | none => .goesOn
      | some fs =>
        if c.early then .ok payload.length
        else .errs ((fs.map fun f => single t (setIsFragmented 0 true) (fragmentPayload f)).mapIdx fun k job => sendMessages s c (k + 1) job)
  else
    let flags := setIsConfidential 0 (t != typeKeyExchange)
    if ¬ isConfidential flags ∨ ¬ s.delay then .errs [sendMessages s c 0 (single t flags payload)]
    else if ¬ isInternal t ∧ (¬ s.established ∨ c.ctx 0) then .errs [.alreadyClosed]
    else delayed s c payload tries 1

/-- `WriteMessageSingle` (session.go:1380-1391). -/
def writeMessageSingle (s : Sess) (c : Choices) (t : W32) (payload : Bytes) : Res :=
  .errs [sendMessages s c 0 (Send.writeMessageSingle t payload)]

end Verif.ClosedWrite
