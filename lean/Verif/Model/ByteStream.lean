import Verif.Model.Receive
/-!
# The backend below `readerLoop`: session.go:904, 909-924

`readerLoop` takes what one `backend.Read(inputBuffer)` returns for one packet.  On a datagram backend that is a datagram, cut
to the length of the buffer; on a stream backend (TCP, a Unix stream socket, a pipe) it is any number of the next bytes.

Simplifications: errors of `Read` and pauses are in `Verif.Lifecycle`.
-/
namespace Verif.ByteStream
open Verif.Receive

/-- `Read` calls on a stream with the bytes `pending`: each returns some of the next bytes, as many as there are, as the
buffer has room for (`len(inputBuffer) = GetPacketSizeLimit()`, session.go:904), and as the backend likes (`sizes`). -/
def reads (bufLen : Nat) : (sizes : List Nat) → (pending : Bytes) → List Bytes
  | [], _ => []
  | n :: ns, b => b.take (min n bufLen) :: reads bufLen ns (b.drop (min n bufLen))

/-- A `Read` call on a datagram socket: what does not fit is dropped. -/
def datagram (bufLen : Nat) (p : Bytes) : Bytes := p.take bufLen

/-- `readerLoop` (session.go:909-949) with fixed keys on what the `Read` calls return: the effects in order, and whether it
goes on; `n == 0` is skipped (session.go:922-924). -/
def loop (C : Packet.Crypto) (cfg : Cfg) (env : Env) (keys : Keys) : Reader → List Bytes → Outcome Unit (List Event × Bool)
  | _, [] => .ok ([], true)
  | r, p :: ps =>
    if p.length = 0 then loop C cfg env keys r ps
    else
      match readerStep C cfg env keys r p with
      | .ok (r', evs, true) =>
        match loop C cfg env keys r' ps with
        | .ok (evs', b) => .ok (evs ++ evs', b)
        | x => x
      | .ok (_, evs, false) => .ok (evs, false)
      | .err e => .err e
      | .panic => .panic
      | .block => .block

end Verif.ByteStream
