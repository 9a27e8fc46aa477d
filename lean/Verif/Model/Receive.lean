import Verif.Model.Headers
import Verif.Model.Packet
import Verif.Model.PacketID
import Verif.Model.PendingChain
/-!
# The receive path: session.go:811-1101 (readerLoop … processIncomingMessage)

What the session does with a packet is recorded as a list of events.  The reactions of handlers
(which may change keys or states) are outside; keys are inputs of every step.  Counters are natural
numbers (in Go wrapping `uint64`).
-/
namespace Verif.Receive
open Verif.Headers Verif.PendingChain

/-- Observable effects of the receive path. -/
inductive Event where
  /-- `sess.messenger[hdr.Type].handle(payload)` (session.go:1076) -/
  | handled (t : W32) (payload : Bytes)
  /-- `ch <- item` for `sess.readChan[hdr.Type]` (session.go:1099) -/
  | queued (t : W32) (payload : Bytes)
  /-- no messenger and no channel for this type (session.go:1096-1098) -/
  | ignored (t : W32) (payload : Bytes)
  /-- `ErrTooShort` reported (session.go:971, 980) -/
  | errTooShort (e : TooShort)
  /-- "unable to read fragment headers" (session.go:996) -/
  | errFragmentHeaders (e : TooShort)
  /-- `sess.Close()` (session.go:1010) -/
  | closed
  /-- "unable to decrypt" (session.go:889) -/
  | errDecrypt (e : Packet.DecryptErr)
  deriving DecidableEq, Repr

/-- Options used by the receive path (after the defaults of `init`, session.go:440-485). -/
structure Cfg where
  /-- `DetachOnMessagesCount` -/
  detachOnMessages : Nat
  /-- `MaxChainIDDiff`; `init` replaces 0 by the default -/
  maxChainIDDiff : Nat
  /-- `MaxFragmentedMessageSize` -/
  maxFragmented : Nat
  /-- `ErrorOnSequentialDecryptFailsCount`; `none` = never -/
  errorOnFails : Option Nat
  /-- `DetachOnSequentialDecryptFailsCount` -/
  detachOnFails : Nat

/-- The environment of a step: which message types have a messenger or a channel, and whether the
session is still in the key exchange and waits for an answer (session.go:1006), depending on the
effects so far. -/
structure Env where
  hasMessenger : W32 → Bool
  hasChan : W32 → Bool
  waitsForAnswer : List Event → Bool

/-- The state of the receive path. -/
structure Rcv where
  /-- `sess.pendingChains` -/
  pending : List Chain
  /-- `sess.lastRemoteChainID` -/
  last : Nat
  /-- `sess.receivedMessagesCount` -/
  received : Nat
  deriving DecidableEq, Repr

/-- The state after `init` (session.go:515). -/
def Rcv.init (cfg : Cfg) : Rcv :=
  { pending := List.replicate cfg.maxChainIDDiff empty, last := 0, received := 0 }

/-- `processIncomingMessage` (session.go:1074-1101).  The payload is `payload[:hdr.Length]`; both
callers pass a payload of exactly that length.  Sending into the channel may block until `Read` is
called; see `Verif.Model.ReadQueue`. -/
def processIncomingMessage (env : Env) (t : W32) (payload : Bytes) : Event :=
  if env.hasMessenger t then .handled t payload
  else if env.hasChan t then .queued t payload
  else .ignored t payload

/-- Beginning of `processIncomingMessageFragment` (session.go:1025-1037).  The inner condition of the
code repeats the outer one, so its `else` branch (lines 1031-1035) is dead and a newer chain ID resets
*all* slots. -/
def advance (s : Rcv) (id : Nat) : Rcv :=
  if id > s.last then { s with last := id, pending := s.pending.map reset } else s

/-- The slot prepared for `Merge` (session.go:1047-1054): `none` if the announced size is refused. -/
def prepare (cfg : Cfg) (chain : Chain) (total : Nat) : Option Chain :=
  if chain.expected = 0 then
    if total > cfg.maxFragmented then none else some (PendingChain.init chain total)
  else some chain

/-- `Merge` into the prepared slot and the new slot content (session.go:1056-1068): errors are only
logged. -/
def mergeSlot (chain : Chain) (startPos : Nat) (payload : Bytes) : Option (Chain × Option Bytes) :=
  match merge chain startPos payload with
  | .ok r => some r
  | .err _ => some (chain, none)
  | .panic => none
  | .block => none

/-- `processIncomingMessageFragment` (session.go:1020-1072) up to the assembled message, if any;
`none` is a panic (division by zero, index out of range, or inside `Merge`). -/
def fragStep (cfg : Cfg) (s : Rcv) (fh : FragHdr) (payload : Bytes) : Option (Rcv × Option Bytes) :=
  let id := fh.chainID.toNat
  let s := advance s id
  if s.last - id > cfg.maxChainIDDiff then some (s, none)
  else if cfg.maxChainIDDiff = 0 then none
  else
    let slot := id % cfg.maxChainIDDiff
    match s.pending[slot]? with
    | none => none
    | some chain =>
      match prepare cfg chain fh.total.toNat with
      | none => some (s, none)
      | some chain =>
        (mergeSlot chain fh.startPos.toNat payload).map fun r =>
          ({ s with pending := s.pending.set slot r.1 }, r.2)

/-- What one message does. -/
inductive Did where
  /-- the loop goes on; `length` is `hdr.Length` after the call -/
  | next (s : Rcv) (evs : List Event) (length : Nat)
  /-- `processIncomingMessages` returns -/
  | stop (s : Rcv) (evs : List Event)
  | panic

/-- Lines 992-1004 of session.go: fragment or whole message. An assembled message changes
`hdr.Length` (session.go:1070), by which the loop advances. -/
def processOne (cfg : Cfg) (env : Env) (s : Rcv) (hdr : MsgHdr) (msg : Bytes) : Did :=
  if isFragmented hdr.flags then
    match FragHdr.read msg with
    | .ok fh =>
      match fragStep cfg s fh (msg.drop fragmentHeadersSize) with
      | none => .panic
      | some (s, none) => .next s [] hdr.length.toNat
      | some (s, some m) =>
        let l := (BitVec.ofNat 32 m.length).toNat
        .next s [processIncomingMessage env hdr.type (m.take l)] l
    | .err e => .stop s [.errFragmentHeaders e]
    | .panic => .panic
    | .block => .panic
  else .next s [processIncomingMessage env hdr.type msg] hdr.length.toNat

/-- Does the message count for `DetachOnMessagesCount` (session.go:985)? -/
def counts (cfg : Cfg) (t : W32) : Bool :=
  decide (cfg.detachOnMessages > 0) && t != typeKeyExchange && t != typeNegotiation

/-- The loop of `processIncomingMessages` (session.go:966-1016) on the bytes `rest` from position `i`
on; `evs` are the effects so far.  Every round consumes at least 9 bytes, so `fuel = rest.length`
rounds suffice; running out of fuel would be reported as `block`. -/
def loop (cfg : Cfg) (env : Env) : Nat → Rcv → Bytes → List Event → Outcome Unit (Rcv × List Event)
  | _, s, [], evs => .ok (s, evs)
  | 0, _, _ :: _, _ => .block
  | fuel + 1, s, rest, evs =>
    if rest.length < messageHeadersSize then
      .ok (s, evs ++ [.errTooShort ⟨messageHeadersSize, rest.length⟩])
    else
      match MsgHdr.read (rest.take messageHeadersSize) with
      | .ok hdr =>
        if rest.length < messageHeadersSize + hdr.length.toNat then
          .ok (s, evs ++ [.errTooShort ⟨messageHeadersSize + hdr.length.toNat, rest.length⟩])
        else
          let s := if counts cfg hdr.type then { s with received := s.received + 1 } else s
          match processOne cfg env s hdr ((rest.drop messageHeadersSize).take hdr.length.toNat) with
          | .panic => .panic
          | .stop s e => .ok (s, evs ++ e)
          | .next s e l =>
            if counts cfg hdr.type && decide (s.received ≥ cfg.detachOnMessages) then
              if env.waitsForAnswer (evs ++ e) then .ok (s, evs ++ e)
              else .ok (s, evs ++ e ++ [.closed])
            else loop cfg env fuel s (rest.drop (messageHeadersSize + l)) (evs ++ e)
      | _ => .panic

/-- `processIncomingMessages` (session.go:952-1018). -/
def processIncomingMessages (cfg : Cfg) (env : Env) (s : Rcv) (length : W32) (msgs : Bytes) :
    Outcome Unit (Rcv × List Event) :=
  let rest := msgs.take (min msgs.length length.toNat)
  loop cfg env rest.length s rest []

/-! ## The reader loop -/

/-- State of `readerLoop`. -/
structure Reader where
  rcv : Rcv
  ids : PacketID.Check
  /-- `sess.sequentialDecryptFailsCount` -/
  fails : Nat
  deriving DecidableEq

/-- `readerLoopDecryptError` (session.go:882-899): the new counter, the reported errors and whether
the loop continues. -/
def decryptError (cfg : Cfg) (fails : Nat) (e : Packet.DecryptErr) : Nat × List Event × Bool :=
  let n := fails + 1
  let evs := match cfg.errorOnFails with
    | some k => if n ≥ k then [.errDecrypt e] else []
    | none => []
  (n, evs, decide (¬ n ≥ cfg.detachOnFails))

/-- Keys of the session at the time a packet is handled. -/
structure Keys where
  aux : Option Bytes
  cipher : List (Option Bytes)
  remote : Option SessID

/-- One round of `readerLoop` (session.go:924-948) with a non-empty packet read from the backend:
new state, effects, and whether the loop continues. -/
def readerStep (C : Packet.Crypto) (cfg : Cfg) (env : Env) (keys : Keys) (r : Reader) (packet : Bytes) :
    Outcome Unit (Reader × List Event × Bool) :=
  match Packet.decrypt C keys.aux keys.cipher keys.remote packet with
  | .panic => .panic
  | .block => .block
  | .err e =>
    let x := decryptError cfg r.fails e
    .ok ({ r with fails := x.1 }, x.2.1, x.2.2)
  | .ok (hdr, msgs) =>
    match r.ids.step (packetIDValue hdr.packetID) with
    | none => .panic
    | some (ids, false) => .ok ({ r with ids := ids }, [], true)
    | some (ids, true) =>
      match processIncomingMessages cfg env r.rcv hdr.length msgs with
      | .panic => .panic
      | .block => .block
      | .err e => .err e
      | .ok (rcv, evs) => .ok ({ rcv := rcv, ids := ids, fails := 0 }, evs, true)

/-- The packets of a session one after another, as far as `processIncomingMessages` is concerned; after
`sess.Close()` the loop of `readerLoop` (session.go:909) ends. -/
def processAll (cfg : Cfg) (env : Env) :
    Rcv → List (W32 × Bytes) → Outcome Unit (Rcv × List Event)
  | s, [] => .ok (s, [])
  | s, p :: ps =>
    match processIncomingMessages cfg env s p.1 p.2 with
    | .ok (s', evs) =>
      if evs.contains .closed then .ok (s', evs)
      else match processAll cfg env s' ps with
        | .ok (s'', evs') => .ok (s'', evs ++ evs')
        | r => r
    | r => r

/-- A sequence of fragments (session.go:1020-1072): for each its chain ID and the message assembled by
it, if any; `none` is a panic. -/
def fragRun (cfg : Cfg) : Rcv → List (FragHdr × Bytes) → Option (List (W64 × Option Bytes))
  | _, [] => some []
  | s, f :: fs =>
    match fragStep cfg s f.1 f.2 with
    | none => none
    | some (s', r) => (fragRun cfg s' fs).map ((f.1.chainID, r) :: ·)

/-- The reader of a new session (session.go:427-470, 514) with `PacketIDStorageSize = size`. -/
def Reader.init (cfg : Cfg) (size : Int) : Reader :=
  { rcv := Rcv.init cfg, ids := { stor := PacketID.storOfOption size, unexpected := 0 }, fails := 0 }

/-- `ErrorOnSequentialDecryptFailsCount` after `init` (session.go:447-453): nil becomes 3, 0 becomes
"never". -/
def errorOption (o : Option Nat) : Option Nat :=
  match o with
  | none => some 3
  | some 0 => none
  | some k => some k

end Verif.Receive
