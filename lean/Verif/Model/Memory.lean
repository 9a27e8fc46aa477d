import Verif.Model.Send
/-!
# Buffers from the pool: buffer_pool.go, and the functions that use them

The other models treat a slice as a list.  Here a buffer is its array with its old contents, and the functions of the send
path and of `decrypt` are translated once more with all `Grow`, slice expressions and `copy` calls, to see what recycled
contents and capacities do.

Simplifications: which buffer the pool gives is an input of each function (`Verif.Pool` is about who holds a buffer);
`Bytes` always begins at the begin of its array; of the headers only that of a message is taken from a pool, because all
fields of the others are set before they are used (message.go:405-429, message_fragment_headers.go:39-43).
-/
namespace Verif.Mem
open Verif.Headers Verif.Send

/-- `buffer` (buffer_pool.go:9-22): the array behind `Bytes` (its length is `cap(Bytes)`), `len(Bytes)`, `Offset`,
`MetadataVariableUInt`. -/
structure Buf where
  arr : Bytes
  len : Nat
  offset : Nat
  count : Nat
  deriving DecidableEq, Repr

/-- `buf.Bytes`. -/
def Buf.bytes (b : Buf) : Bytes := b.arr.take b.len

/-- `Reset` (buffer_pool.go:48-52). -/
def Buf.reset (b : Buf) : Buf := { b with offset := 0, len := 0, count := 0 }

/-- `Grow` (buffer_pool.go:54-61). -/
def Buf.grow (b : Buf) (size : Nat) : Buf :=
  if b.arr.length < size then { b with arr := List.replicate size 0, len := size } else { b with len := size }

/-- A buffer made by the pool (buffer_pool.go:75-85). -/
def Buf.new (maxSize : Nat) : Buf := Buf.grow ⟨[], 0, 0, 0⟩ maxSize

/-- `copy(arr[lo:hi], src)`, without the check of the bounds. -/
def copyTo (arr : Bytes) (lo hi : Nat) (src : Bytes) : Bytes :=
  arr.take lo ++ (src.take (hi - lo) ++ arr.drop (lo + min (hi - lo) src.length))

/-- `copy(buf.Bytes[i:], src)`: panics if `i` is behind the end. -/
def Buf.copyAt (b : Buf) (i : Nat) (src : Bytes) : Outcome SendErr Buf :=
  if i ≤ b.len then .ok { b with arr := copyTo b.arr i b.len src } else .panic

/-- `slice.SetZeros(dst)`, then `chacha20.XORKeyStream(dst, src, iv, key)` (crypt.go:12-20) for `dst = arr[lo:hi]`. -/
def cryptTo (C : Packet.Crypto) (key iv arr : Bytes) (lo hi : Nat) (src : Bytes) : Option Bytes :=
  let arr := copyTo arr lo hi (List.replicate (hi - lo) 0)
  if hi - lo < src.length then none
  else (Packet.crypt C key iv src).map (copyTo arr lo hi)

/-! ## Sending -/

/-- `containerHdr.Write(buf.Bytes)` (message.go:346-364). -/
def Buf.putContainer (b : Buf) (h : ContainerHdr) : Outcome SendErr Buf :=
  if b.len < containerHeadersSize then .err .tooBig
  else
    let arr := copyTo b.arr 0 b.len h.packetID
    let arr := copyTo arr 8 b.len h.headersChecksum
    let arr := copyTo arr 24 b.len h.messagesChecksum
    .ok { b with arr := copyTo arr 40 b.len (putLE 4 h.length.toNat) }

/-- `ivBuf` in `sendMessages` (session.go:1936-1944). -/
def fillSendIV (sessionID : SessID) (confidential : Bool) (packetID : Bytes) (iv : Buf) : Outcome SendErr Buf :=
  if confidential then
    match (iv.grow 24).copyAt 0 sessionID.bytes with
    | .ok iv => iv.copyAt 16 packetID
    | r => r
  else (iv.grow 8).copyAt 0 packetID

/-- The encryption in `sendMessages` (session.go:1924-1961) with the buffers `encrypted` and `ivBuf` of the pool. -/
def encryptBufs (C : Packet.Crypto) (now : Now) (confidential : Bool) (key : Bytes) (buf enc iv : Buf) :
    Outcome SendErr Bytes :=
  let size := (buf.len - buf.offset) % 2 ^ 32
  let buf := buf.grow size
  let enc := enc.grow size
  let packetID := packetIDBytes now.packetID
  match fillSendIV now.sessionID confidential packetID iv with
  | .ok iv =>
    if size < 8 then .panic
    else
      match cryptTo C key iv.bytes enc.arr 8 size ((buf.arr.take size).drop 8) with
      | none => .panic
      | some arr =>
        match (match now.aux with
          | none => some (copyTo arr 0 8 packetID)
          | some a => cryptTo C a Packet.emptyIV arr 0 8 packetID) with
        | none => .panic
        | some arr => .ok (arr.take size)
  | .err e => .err e
  | .panic => .panic
  | .block => .block

/-- `sendMessages` (session.go:1853-1987) with the buffers `buf`, `encrypted` and `ivBuf` as the pool gives them. -/
def sendMessages (C : Packet.Crypto) (cfg : Send.Cfg) (now : Now) (job : Job) (buf enc iv : Buf) : Outcome SendErr Bytes :=
  match (if job.confidential then now.cipherKey.map some else some now.aux) with
  | none => .err .canceled
  | some key =>
    let hdr := Packet.containerSet C key (packetIDBytes now.packetID) job.messages
    match (buf.grow (containerHeadersSize + job.messages.length)).putContainer hdr with
    | .ok buf =>
      match buf.copyAt containerHeadersSize job.messages with
      | .ok buf =>
        let outLen := buf.len - containerHeadersSize
        let n := min outLen job.messages.length
        if ¬ job.internal ∧ ¬ now.established then .err .alreadyClosed
        else if ¬ job.internal ∧ (containerHeadersSize + outLen % 2 ^ 32) % 2 ^ 32 > packetSize cfg then .err .tooBig
        else if n ≠ job.messages.length then .err .tooBig
        else
          match (match key with
            | none => (.ok buf.bytes : Outcome SendErr Bytes)
            | some k => encryptBufs C now job.confidential k buf enc iv) with
          | .ok out => if now.done then .err .alreadyClosed else .ok out
          | r => r
      | .err e => .err e
      | .panic => .panic
      | .block => .block
    | .err e => .err e
    | .panic => .panic
    | .block => .block

/-- `messageHeaders` (message.go:116-160): a header of the pool. -/
structure Hdr where
  type : W32
  length : W32
  flags : Byte
  deriving DecidableEq, Repr

/-- A header made by the pool (message.go:216-222). -/
def Hdr.new : Hdr := ⟨0, 0, 0⟩

/-- `Set` (message.go:230-233): the flags stay as they are. -/
def Hdr.set (h : Hdr) (t : W32) (payload : Bytes) : Hdr := { h with type := t, length := BitVec.ofNat 32 (len32 payload) }

/-- `Reset` (message.go:206-210), called when the header is put into the pool (message.go:248). -/
def Hdr.reset (_ : Hdr) : Hdr := ⟨0, 0, 0⟩

/-- `hdr.Write(buf.Bytes)` for the header of a message (message.go:271-283): type, length, flags at the begin of `b`. -/
def Buf.putMessage (b : Buf) (h : Hdr) : Outcome SendErr Buf :=
  if b.len < messageHeadersSize then .err .tooBig
  else
    let arr := copyTo b.arr 0 b.len (putLE 4 h.type.toNat)
    let arr := copyTo arr 4 b.len (putLE 4 h.length.toNat)
    .ok { b with arr := copyTo arr 8 b.len [h.flags] }

/-- `writeMessageSingle` (session.go:1546-1572) up to `sendMessages`: `buf.Bytes`. -/
def single (h : Hdr) (payload : Bytes) (buf : Buf) : Outcome SendErr Bytes :=
  match (buf.grow (messageHeadersSize + payload.length)).putMessage h with
  | .ok buf =>
    match buf.copyAt messageHeadersSize payload with
    | .ok buf => .ok buf.bytes
    | .err e => .err e
    | .panic => .panic
    | .block => .block
  | .err e => .err e
  | .panic => .panic
  | .block => .block

/-- `writeMessageFragment` (session.go:1512-1544) up to `writeMessageSingle`: the bytes of the fragment with its header
(message_fragment_headers.go:50-67). -/
def fragment (f : Fragment) (buf : Buf) : Outcome SendErr Bytes :=
  let buf := buf.grow (fragmentHeadersSize + f.payload.length)
  let arr := copyTo buf.arr 0 buf.len (putLE 8 f.chainID.toNat)
  let arr := copyTo arr 8 buf.len (putLE 8 f.startPos)
  let buf := { buf with arr := copyTo arr 16 buf.len (putLE 8 f.total) }
  match buf.copyAt fragmentHeadersSize f.payload with
  | .ok buf => .ok buf.bytes
  | .err e => .err e
  | .panic => .panic
  | .block => .block

/-- The header in `WriteMessageAsync` and `WriteMessageSingle` (session.go:1384-1388, 1451-1455) from the header `h` of
the pool. -/
def header (h : Hdr) (t : W32) (payload : Bytes) : Hdr :=
  let h := h.set t payload
  { h with flags := setIsConfidential h.flags (t != typeKeyExchange) }

/-- The header in `writeMessageFragment` (session.go:1537-1541). -/
def fragmentHeader (h : Hdr) (t : W32) (payload : Bytes) : Hdr :=
  let h := h.set t payload
  { h with flags := setIsFragmented h.flags true }

/-- What `writeMessageAsync` does under the lock (session.go:1607-1628). -/
inductive Append where
  /-- `ErrPayloadTooBig` -/
  | tooBig
  /-- wait until the buffer has been sent -/
  | wait
  | appended (buf : Buf)
  deriving DecidableEq, Repr

/-- `appendToDelayedWriteBuffer` (session.go:1699-1735), the bytes: `buf.Bytes[:endIdx]` panics behind the capacity. -/
def append (b : Buf) (h : Hdr) (payload : Bytes) : Outcome SendErr Buf :=
  let start := b.len
  let stop := start + messageHeadersSize + payload.length
  if b.arr.length < stop then .panic
  else
    let arr := copyTo b.arr start stop (putLE 4 h.type.toNat)
    let arr := copyTo arr (start + 4) stop (putLE 4 h.length.toNat)
    let arr := copyTo arr (start + 8) stop [h.flags]
    .ok { b with arr := copyTo arr (start + messageHeadersSize) stop payload, len := stop, count := b.count + 1 }

/-- The closure in `writeMessageAsync` (session.go:1607-1628) with the delayed buffer `b`. -/
def writeDelayed (cfg : Send.Cfg) (b : Buf) (h : Hdr) (payload : Bytes) : Outcome SendErr Append :=
  if containerHeadersSize + b.len + messageHeadersSize + payload.length > packetSize cfg then
    if b.len = 0 then .ok .tooBig else .ok .wait
  else
    match append b h payload with
    | .ok b => .ok (.appended b)
    | .err e => .err e
    | .panic => .panic
    | .block => .block

/-! ## Receiving -/

/-- The decryption step of `tryDecrypt` (session.go:1111-1126) into the array of the buffer. -/
def plainTo (C : Packet.Crypto) (key : Option Bytes) (iv : Bytes) (dec : Buf) (enc : Bytes) : Option Bytes :=
  match key with
  | some k => cryptTo C k iv dec.arr 0 dec.len enc
  | none => some (copyTo dec.arr 0 dec.len enc)

/-- `tryDecrypt` (session.go:1103-1153) into the buffer `decrypted`, which it leaves changed. -/
def tryDecrypt (C : Packet.Crypto) (packetID enc : Bytes) (key : Option Bytes) (iv : Bytes) (dec : Buf) :
    Outcome Packet.DecryptErr (Option ContainerHdr) × Buf :=
  let dec := dec.reset.grow enc.length
  match plainTo C key iv dec enc with
  | none => (.panic, dec)
  | some arr =>
    let dec := { dec with arr := arr }
    match readAfterIV packetID dec.bytes with
    | .ok (h, n) =>
      let dec := { dec with offset := n }
      if Packet.headersChecksum C key h.packetID h.length ≠ h.headersChecksum then (.ok none, dec)
      else if Packet.messagesChecksum C key h.packetID (dec.bytes.drop dec.offset) ≠ h.messagesChecksum then
        (.err .invalidChecksum, dec)
      else (.ok (some h), dec)
    | .err e => (.err (.tooShort e), dec)
    | .panic => (.panic, dec)
    | .block => (.block, dec)

/-- The loop over the cipher keys (session.go:1248-1257). -/
def tryKeys (C : Packet.Crypto) (packetID enc iv : Bytes) :
    List (Option Bytes) → Buf → Outcome Packet.DecryptErr (Option ContainerHdr) × Buf
  | [], dec => (.ok none, dec)
  | none :: ks, dec => tryKeys C packetID enc iv ks dec
  | some k :: ks, dec =>
    match tryDecrypt C packetID enc (some k) iv dec with
    | (.ok none, dec) => tryKeys C packetID enc iv ks dec
    | r => r

/-- `decryptPacketIDBytes` (session.go:1171-1183): the packet ID is decrypted into the begin of `decrypted`. -/
def decryptPacketID (C : Packet.Crypto) (aux : Option Bytes) (enc : Bytes) (dec : Buf) : Option (Bytes × Buf) :=
  match aux with
  | none => some (enc, dec)
  | some a =>
    if dec.arr.length < enc.length then none
    else
      match cryptTo C a Packet.emptyIV dec.arr 0 enc.length enc with
      | none => none
      | some arr => some (arr.take enc.length, { dec with arr := arr, offset := dec.offset + enc.length })

/-- `fillWithRemoteIV` (session.go:1155-1169): `ivBuf.Bytes`. -/
def fillIV (remote : Option SessID) (packetID : Bytes) (iv : Buf) : Outcome SendErr Bytes :=
  match remote with
  | none => .ok iv.bytes
  | some s =>
    match (iv.grow 24).copyAt 0 s.bytes with
    | .ok iv =>
      match iv.copyAt 16 packetID with
      | .ok iv => .ok iv.bytes
      | .err e => .err e
      | .panic => .panic
      | .block => .block
    | .err e => .err e
    | .panic => .panic
    | .block => .block

/-- The result of `decrypt`: header and messages, `decrypted.Bytes[decrypted.Offset:]` (session.go:1241-1245). -/
def finish : Outcome Packet.DecryptErr (Option ContainerHdr) × Buf → Outcome Packet.DecryptErr (ContainerHdr × Bytes) × Buf
  | (.ok (some h), dec) => (.ok (h, dec.bytes.drop dec.offset), dec)
  | (.ok none, dec) => (.err .cannotDecrypt, dec)
  | (.err e, dec) => (.err e, dec)
  | (.panic, dec) => (.panic, dec)
  | (.block, dec) => (.block, dec)

/-- `Session.decrypt` (session.go:1185-1265) with the buffer `decrypted` of the reader loop and `ivBuf` of the pool. -/
def decrypt (C : Packet.Crypto) (aux : Option Bytes) (keys : List (Option Bytes)) (remote : Option SessID)
    (packet : Bytes) (dec iv : Buf) : Outcome Packet.DecryptErr (ContainerHdr × Bytes) × Buf :=
  if packet.length < containerHeadersSize then (.err (.tooShort ⟨containerHeadersSize, packet.length⟩), dec)
  else
    match decryptPacketID C aux (packet.take 8) dec with
    | none => (.panic, dec)
    | some (packetID, dec) =>
      match fillIV remote packetID iv with
      | .ok iv =>
        match tryKeys C packetID (packet.drop 8) iv keys dec with
        | (.ok none, dec) => finish (tryDecrypt C packetID (packet.drop 8) aux packetID dec)
        | r => finish r
      | _ => (.panic, dec)

/-- The reader loop (session.go:901-949): packets are decrypted one after the other into the same buffer, with whatever
keys there are at that time and whatever buffer the pool gives for the IV. -/
def decryptAll (C : Packet.Crypto) :
    List (Option Bytes × List (Option Bytes) × Option SessID × Bytes × Buf) → Buf →
      List (Outcome Packet.DecryptErr (ContainerHdr × Bytes))
  | [], _ => []
  | (aux, keys, remote, packet, iv) :: rest, dec =>
    let r := decrypt C aux keys remote packet dec iv
    r.1 :: decryptAll C rest r.2

end Verif.Mem
