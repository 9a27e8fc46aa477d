import Verif.Model.ReadQueue
import Verif.Model.Send
/-!
# `Read` and `Write` as the standard library uses them: session.go:1361-1391, 2167-2194, messenger.go:33-57

`Session` is given to functions that want an `io.Reader` or an `io.Writer`.  The results are Go's pairs of a count (an `int`)
and an error.  The functions of the standard library are not code of the repository; they are written down here as far as they
depend on these results (packages io, bytes and bufio of Go 1.13 to 1.22).

Simplification: one goroutine reads, and all messages have arrived and the session has ended before it begins
(`C110_refines` in Props/StdIO.lean ties this to Model/ReadQueue.lean).
-/
namespace Verif.StdIO

/-- Errors, as far as somebody distinguishes them. -/
inductive Err where
  /-- `io.EOF`; the session never returns it -/
  | eof
  | alreadyClosed
  | tooBig
  | unexpectedEOF
  | noProgress
  | other
  deriving DecidableEq, Repr

/-- Result of `Read(p)`: `n`, `err`, and what was copied to the begin of `p`. -/
structure Res where
  n : Int
  err : Option Err
  put : Bytes
  deriving DecidableEq, Repr

/-- `read` (session.go:2167-2180); the messages that are still in the queue. -/
def sessRead : List Bytes → Nat → Res × List Bytes
  | [], _ => (⟨-1, some .alreadyClosed, []⟩, [])
  | m :: ms, len => if len < m.length then (⟨-1, some .tooBig, []⟩, ms) else (⟨m.length, none, m⟩, ms)

/-- `WriteMessage` (session.go:1361-1375), also called by `Write` and `Messenger.Write`: `err` is what `sendInfo.Err` is. -/
def writeMessage (err : Option Err) (payload : Bytes) : Int × Option Err :=
  match err with
  | none => (payload.length, none)
  | some e => (0, some e)

/-- `WriteMessageSingle` (session.go:1380-1391, 1540-1570, 1963-1987), also called by `Messenger.WriteSingle`: `sendMessages` gives
the count of `backend.Write`; here the backend takes all. -/
def writeMessageSingle (C : Packet.Crypto) (cfg : Send.Cfg) (now : Send.Now) (t : W32) (payload : Bytes) :
    Outcome Unit (Int × Option Err) :=
  match Send.sendMessages C cfg now (Send.writeMessageSingle t payload) with
  | .ok out => .ok (out.length, none)
  | .err .alreadyClosed => .ok (0, some .alreadyClosed)
  | .err .tooBig => .ok (0, some .tooBig)
  | .err .canceled => .ok (0, some .other)
  | .panic => .panic
  | .block => .block

/-! ## Functions of the standard library -/

/-- `b[:len(b)+n]` after `Read` has written behind `b`: a negative length panics. -/
def reslice (b : Bytes) (r : Res) : Option Bytes :=
  if (b.length : Int) + r.n < 0 then none else some ((b ++ r.put).take (b.length + r.n).toNat)

/-- The part of `io.ReadAll` behind `Read`: the slice, and whether it returns (an `io.EOF` becomes nil). -/
def afterRead (b : Bytes) (r : Res) : Outcome Unit (Bytes × Option (Option Err)) :=
  match reslice b r with
  | none => .panic
  | some b' =>
    match r.err with
    | none => .ok (b', none)
    | some .eof => .ok (b', some none)
    | some e => .ok (b', some (some e))

/-- `io.ReadAll` (`ioutil.ReadAll` was `bytes.Buffer.ReadFrom` before Go 1.16): `cap` is the capacity of the slice, `grow` that of
`append(b, 0)` for a full one.  The first capacity is 512. -/
def readAll (grow : Nat → Nat) : List Bytes → Bytes → Nat → Outcome Unit (Bytes × Option Err)
  | [], b, cap =>
    match afterRead b (sessRead [] (cap - b.length)).1 with
    | .ok (b', e) => .ok (b', e.getD none)
    | _ => .panic
  | m :: ms, b, cap =>
    match afterRead b (sessRead (m :: ms) (cap - b.length)).1 with
    | .ok (b', some e) => .ok (b', e)
    | .ok (b', none) => readAll grow ms b' (if b'.length = cap then grow cap else cap)
    | _ => .panic

/-- `io.Copy` with a buffer of `size` bytes (32768) to a writer that takes all: the slices written, and the error. -/
def copyFrom (size : Nat) : List Bytes → List Bytes × Option Err
  | [] =>
    let r := (sessRead [] size).1
    (if r.n > 0 then [r.put.take r.n.toNat] else [], if r.err = some .eof then none else r.err)
  | m :: ms =>
    let r := (sessRead (m :: ms) size).1
    let w := if r.n > 0 then [r.put.take r.n.toNat] else []
    match r.err with
    | none => let (ws, e) := copyFrom size ms; (w ++ ws, e)
    | some e => (w, if e = .eof then none else some e)

/-- `(*bytes.Buffer).ReadFrom`: `free` is the room behind `len` bytes (at least 512).  `io.Copy` calls it if the target is a buffer. -/
def bufferReadFrom (free : Nat → Nat) : List Bytes → Bytes → Outcome Unit (Bytes × Option Err)
  | [], b =>
    let r := (sessRead [] (free b.length)).1
    if r.n < 0 then .panic else .ok (b ++ r.put.take r.n.toNat, if r.err = some .eof then none else r.err)
  | m :: ms, b =>
    let r := (sessRead (m :: ms) (free b.length)).1
    if r.n < 0 then .panic
    else
      match r.err with
      | none => bufferReadFrom free ms (b ++ r.put.take r.n.toNat)
      | some e => .ok (b ++ r.put.take r.n.toNat, if e = .eof then none else some e)

/-- `(*bufio.Reader).ReadByte` until it fails, with a buffer of `size` bytes (4096): it fills an empty buffer and gives up after
`tries` (100) reads of nothing.  The bytes that were read before the panic or the error. -/
def bufioBytes (size : Nat) : List Bytes → (tries : Nat) → Bytes × Outcome Unit Err
  | [], _ =>
    let r := (sessRead [] size).1
    if r.n < 0 then ([], .panic) else (r.put.take r.n.toNat, .ok (r.err.getD .noProgress))
  | m :: ms, tries =>
    let r := (sessRead (m :: ms) size).1
    if r.n < 0 then ([], .panic)
    else
      match r.err with
      | some e => (r.put.take r.n.toNat, .ok e)
      | none =>
        if r.n > 0 then let (b, o) := bufioBytes size ms 100; (r.put.take r.n.toNat ++ b, o)
        else if tries ≤ 1 then ([], .ok .noProgress)
        else bufioBytes size ms (tries - 1)

/-- `io.ReadFull`: `room` is `len(buf)`, `n` the count so far, `b` what is in the buffer; the count, the error, the buffer, and the
messages that are left. -/
def readFull (room : Nat) : List Bytes → Int → Bytes → Int × Option Err × Bytes × List Bytes
  | [], n, b =>
    if n ≥ room then (n, none, b, [])
    else
      let r := (sessRead [] (room - b.length)).1
      let n' := n + r.n
      (n', if n' ≥ room then none else if n' > 0 ∧ r.err = some .eof then some .unexpectedEOF else r.err, b ++ r.put, [])
  | m :: ms, n, b =>
    if n ≥ room then (n, none, b, m :: ms)
    else
      let r := (sessRead (m :: ms) (room - b.length)).1
      match r.err with
      | none => readFull room ms (n + r.n) (b ++ r.put)
      | some e =>
        let n' := n + r.n
        (n', if n' ≥ room then none else if n' > 0 ∧ e = .eof then some .unexpectedEOF else some e, b ++ r.put, ms)

end Verif.StdIO
