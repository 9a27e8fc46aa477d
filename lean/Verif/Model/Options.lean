import Verif.Model.Headers
import Verif.Model.PacketID
import Verif.Model.KeyExchange
/-!
# Options: session.go:197-322, 436-517, key_exchanger.go:122-244, negotiator.go:79-174, is_lossy_writer.go

Durations are integers (nanoseconds, in Go `int64`).  `EnableDebug` and `EnableInfo` are in
Model/Output.lean.
-/
namespace Verif.Options
open Verif.Headers

/-- Types of `net.Addr` (is_lossy_writer.go:16-24). -/
inductive Addr where
  | tcp
  | udp
  | unix
  | other
  deriving DecidableEq, Repr

/-- Types of backends (is_lossy_writer.go:11-28). -/
inductive Backend where
  | udpConn
  /-- with a method `LocalAddr` -/
  | conn (local_ : Addr)
  | other
  deriving DecidableEq, Repr

/-- `IsLossyWriter` (is_lossy_writer.go:10-29). -/
def isLossyWriter : Backend → Bool
  | .udpConn => true
  | .conn .tcp => false
  | .conn .udp => true
  | .conn .unix => false
  | .conn .other => false
  | .other => false

/-- `KeyExchangerOptions` (key_exchanger.go:122-177); `maximalTimeDifference` is not exported and used nowhere. -/
structure KxOptions where
  keyUpdateInterval : Int := 0
  retryInterval : Int := 0
  timeout : Int := 0
  /-- `none` is nil -/
  psk : Option Bytes := none
  answersMode : Byte := 0
  deriving DecidableEq, Repr

/-- `NegotiatorOptions` (negotiator.go:79-110). -/
structure NegOptions where
  /-- 0 auto, 1 false, 2 true (negotiator.go:62-72) -/
  enable : Byte := 0
  readTimeout : Int := 0
  totalTimeout : Int := 0
  maxIterations : W32 := 0
  deriving DecidableEq, Repr

/-- `SessionOptions` (session.go:197-317); the defaults of the fields are the zero values of Go. -/
structure SessOptions where
  /-- `none` is nil, as for `errorOnFails` -/
  sendDelay : Option Int := none
  detachOnMessages : W64 := 0
  detachOnFails : W64 := 0
  errorOnFails : Option W64 := none
  kx : KxOptions := {}
  payloadSizeLimit : W32 := 0
  neg : NegOptions := {}
  packetIDStorageSize : Int := 0
  enableFragmentation : Bool := false
  maxChainIDDiff : W64 := 0
  maxFragmentedMessageSize : W64 := 0
  deriving DecidableEq, Repr

/-- Time units of package time. -/
def microsecond : Int := 1000
def second : Int := 1000000000
def minute : Int := 60 * second

/-- `make([]T, n)` for elements of `size` bytes: no panic.  In package runtime (`makeslice`) the limit is `maxAlloc`, 2^48 bytes on
the usual 64-bit platforms; that the machine has that much memory is not asked. -/
def canMake (size n : Nat) : Bool := size * n ≤ 2 ^ 48

/-- `sizeof(pendingChain)`: two slices and two words (pending_chain.go). -/
def chainSize : Nat := 64

/-- What `init` makes of the options (fields of `Session`). -/
structure Sess where
  /-- with defaults -/
  options : SessOptions
  /-- `receivedPacketIDs` -/
  ids : Option PacketID.Stor
  packetSizeLimit : W32
  establishedPayloadSize : W32
  /-- `psk` if there is an `auxCipherKey` of it -/
  aux : Option Bytes
  /-- `len(pendingChains)` -/
  chains : Nat
  deriving DecidableEq, Repr

/-- The options with their defaults: session.go:440-486 without the storage.  `lossy` and `limit` are the global limits
(`payloadLossySizeLimit`, `payloadSizeLimit`) at this moment. -/
def withDefaults (backend : Backend) (limit lossy : W32) (opts : Option SessOptions) : SessOptions :=
  let o := opts.getD {}
  let errorOn := match o.errorOnFails with
    | none => some 3
    | some v => some v
  let delay := match o.sendDelay with
    | none => some (50 * microsecond)
    | some d => some d
  { o with
    errorOnFails := if errorOn = some 0 then none else errorOn
    sendDelay := match delay with
      | some d => if d ≤ 0 then none else some d
      | none => none
    packetIDStorageSize := if o.packetIDStorageSize = 0 then 256 else o.packetIDStorageSize
    payloadSizeLimit := if o.payloadSizeLimit = 0 then (if isLossyWriter backend then lossy else limit) else o.payloadSizeLimit
    maxChainIDDiff := if o.maxChainIDDiff = 0 then 8 else o.maxChainIDDiff
    maxFragmentedMessageSize := if o.maxFragmentedMessageSize = 0 then 65536 else o.maxFragmentedMessageSize }

/-- `updatePacketSizeLimit` (session.go:551-556): the sum wraps. -/
def packetSizeLimit (payload : W32) : W32 :=
  payload + BitVec.ofNat 32 containerHeadersSize + BitVec.ofNat 32 messageHeadersSize

/-- The size given to `newPacketIDStorage` (session.go:465-470). -/
def storageSize (size : Int) : Nat := if size.toNat = 1 then 0 else size.toNat

/-- `init` (session.go:418-517): the tables are made after the defaults.  Buffers of less than 4 GiB can be made. -/
def initSession (backend : Backend) (limit lossy : W32) (opts : Option SessOptions) : Outcome Unit Sess :=
  let o := withDefaults backend limit lossy opts
  if o.packetIDStorageSize > 0 ∧ canMake 8 ((storageSize o.packetIDStorageSize + 63) / 64) = false then .panic
  else if canMake chainSize o.maxChainIDDiff.toNat = false then .panic
  else .ok {
    options := o
    ids := if o.packetIDStorageSize > 0 then some (PacketID.newStor (storageSize o.packetIDStorageSize)) else none
    packetSizeLimit := packetSizeLimit o.payloadSizeLimit
    establishedPayloadSize := o.payloadSizeLimit
    aux := o.kx.psk
    chains := o.maxChainIDDiff.toNat }

/-- The options of the key exchanger (key_exchanger.go:220-234). -/
def kxDefaults (o : KxOptions) : KxOptions :=
  { o with
    keyUpdateInterval := if o.keyUpdateInterval = 0 then minute else o.keyUpdateInterval
    retryInterval := if o.retryInterval = 0 then second else o.retryInterval
    timeout := if o.timeout = 0 then minute else o.timeout
    answersMode := if o.answersMode = 0 then 1 else o.answersMode }

/-- `time.NewTicker` panics for durations that are not positive. -/
def canTick (d : Int) : Bool := 0 < d

/-- The tickers that the loop of the key exchanger makes in its first iteration (key_exchanger.go:545-547, 671); `skipped`: it has not
got to `retryUntilSuccessOrTimeout`, because the session is closed or an answer has made the key. -/
def loopTickers (o : KxOptions) (skipped : Bool) : Outcome Unit Unit :=
  if skipped = false ∧ canTick o.retryInterval = false then .panic
  else if canTick o.keyUpdateInterval = false then .panic
  else .ok ()

/-- The options of the negotiator (negotiator.go:118-128). -/
def negDefaults (o : NegOptions) : NegOptions :=
  { o with
    totalTimeout := if o.totalTimeout = 0 then 5 * minute else o.totalTimeout
    readTimeout := if o.readTimeout = 0 then minute else o.readTimeout
    maxIterations := if o.maxIterations = 0 then 4 else o.maxIterations }

/-- `isEnabled` (negotiator.go:148-160). -/
def isEnabled (o : NegOptions) (backend : Backend) : Bool :=
  if o.enable = 0 then isLossyWriter backend
  else if o.enable = 2 then true
  else if o.enable = 1 then false
  else true

/-- The time-out of the context of a negotiation (negotiator.go:169-173). -/
def totalTimeout (o : NegOptions) : Option Int := if o.totalTimeout > 0 then some o.totalTimeout else none

/-! ## What the session does with them -/

/-- Is a message of `WriteMessageAsync` sent at once (session.go:1457)? -/
def Sess.atOnce (s : Sess) : Bool := s.options.sendDelay.isNone

/-- Is the `n`-th undecryptable packet in a row reported (session.go:886-891)? -/
def Sess.reports (s : Sess) (n : W64) : Bool :=
  match s.options.errorOnFails with
  | none => false
  | some k => n ≥ k

/-- Does the reader stop at the `n`-th undecryptable packet in a row (session.go:893-896)? -/
def Sess.stops (s : Sess) (n : W64) : Bool := n ≥ s.options.detachOnFails

/-- Does the session detach at the `n`-th message, counted from 1 (session.go:983-986, 1005)? -/
def Sess.detaches (s : Sess) (n : W64) : Bool :=
  s.options.detachOnMessages > 0 && (n > 0 && n ≥ s.options.detachOnMessages)

/-- Does a fragment of a message of `len` bytes, `age` chains behind the latest, reach its buffer (session.go:1039-1052)? -/
def Sess.takesFragment (s : Sess) (age len : W64) : Bool :=
  !(age > s.options.maxChainIDDiff) && !(len > s.options.maxFragmentedMessageSize)

/-! ## Memory that is shared with the caller

`sess.options = *opts` (session.go:441) and `kx.options = *opts` (key_exchanger.go:221) copy the structure, not what its pointers and
slices refer to. -/

/-- What the caller has in the variables that the options refer to. -/
structure Vars where
  psk : Bytes
  sendDelay : Int
  errorOnFails : W64
  deriving DecidableEq, Repr

/-- Which fields of the options are set: `&v.sendDelay`, `&v.errorOnFails`, `v.psk`; otherwise nil. -/
structure Refs where
  psk : Bool
  sendDelay : Bool
  errorOnFails : Bool
  deriving DecidableEq, Repr

/-- The options as `init` sees them. -/
def Refs.options (r : Refs) (v : Vars) (o : SessOptions) : SessOptions :=
  { o with
    sendDelay := if r.sendDelay then some v.sendDelay else none
    errorOnFails := if r.errorOnFails then some v.errorOnFails else none
    kx := { o.kx with psk := if r.psk then some v.psk else none } }

/-- `*sess.options.ErrorOnSequentialDecryptFailsCount` at a later time (session.go:888): nil or the own 3 stay, otherwise it is the
variable of the caller. -/
def Sess.errorOnLater (s : Sess) (r : Refs) (later : Vars) : Option W64 :=
  s.options.errorOnFails.map (fun k => if r.errorOnFails then later.errorOnFails else k)

/-- `*sess.options.SendDelay` at a later time (session.go:1729, 1842). -/
def Sess.sendDelayLater (s : Sess) (r : Refs) (later : Vars) : Option Int :=
  s.options.sendDelay.map (fun d => if r.sendDelay then later.sendDelay else d)

/-- The key of packets before the exchange (session.go:510-513), computed by `init`. -/
def Sess.auxKey (C : KX.Crypto) (s : Sess) : Option Bytes := s.aux.map (KX.auxCipherKey C)

/-- `generateSharedKey` at a later time (key_exchanger.go:311-317). -/
def Sess.sharedKeyLater (C : KX.Crypto) (s : Sess) (later : Vars) (priv pub : Option Bytes) : Outcome KX.KeyErr Bytes :=
  KX.generateSharedKey C (s.options.kx.psk.map (fun _ => later.psk)) priv pub

end Verif.Options
