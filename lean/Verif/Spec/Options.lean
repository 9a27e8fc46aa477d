import Verif.Model.Options
/-!
# What the documentation says about the options (session.go:197-317, key_exchanger.go:122-198, negotiator.go:62-110)
-/
namespace Verif.Options
open Verif.Headers

/-- Connections that are known to lose packets: "currently it only looks for UDP connections" (is_lossy_writer.go:8). -/
def Backend.isUDP : Backend → Bool
  | .udpConn => true
  | .conn a => a == .udp
  | .other => false

/-- The documented meaning of the options of a session. -/
structure Documented (o : SessOptions) (backend : Backend) (limit lossy : W32) (s : Sess) : Prop where
  /-- SendDelay: "nil-value then DefaultSendDelay", 50 microseconds -/
  delayNil : o.sendDelay = none → s.options.sendDelay = some 50000
  /-- "zero then no delay will be performed" -/
  delayZero : o.sendDelay = some 0 → s.atOnce = true
  delay : ∀ d, o.sendDelay = some d → 0 < d → s.options.sendDelay = some d
  /-- ErrorOnSequentialDecryptFailsCount: nil is 3 -/
  errorNil : o.errorOnFails = none → ∀ n, s.reports n = true ↔ 3 ≤ n.toNat
  errorOn : ∀ k, o.errorOnFails = some k → k ≠ 0 → ∀ n, s.reports n = true ↔ k.toNat ≤ n.toNat
  /-- zero means never, as for the neighbouring options -/
  errorZero : o.errorOnFails = some 0 → ∀ n, s.reports n = false
  /-- DetachOnMessagesCount: "zero-value then never" -/
  messagesZero : o.detachOnMessages = 0 → ∀ n, s.detaches n = false
  messages : o.detachOnMessages ≠ 0 → ∀ n, s.detaches n = true ↔ o.detachOnMessages.toNat ≤ n.toNat
  /-- DetachOnSequentialDecryptFailsCount, values above 0 -/
  fails : o.detachOnFails ≠ 0 → ∀ n, s.stops n = true ↔ o.detachOnFails.toNat ≤ n.toNat
  /-- PayloadSizeLimit: zero is the limit of the package for this kind of backend -/
  payloadZero : o.payloadSizeLimit = 0 → s.options.payloadSizeLimit = if backend.isUDP then lossy else limit
  payload : o.payloadSizeLimit ≠ 0 → s.options.payloadSizeLimit = o.payloadSizeLimit
  /-- PacketIDStorageSize: "negative" switches the check off, "1" only allows growing IDs, zero is 256, others are rounded up to 64 -/
  idsOff : o.packetIDStorageSize < 0 → s.ids = none
  idsGrow : o.packetIDStorageSize = 1 → s.ids = some ⟨0, []⟩
  idsZero : o.packetIDStorageSize = 0 → ∃ st, s.ids = some st ∧ st.table.length * 64 = 256
  ids : 1 < o.packetIDStorageSize → ∃ st, s.ids = some st ∧
    o.packetIDStorageSize ≤ st.table.length * 64 ∧ st.table.length * 64 < o.packetIDStorageSize + 64
  /-- MaxChainIDDiff and MaxFragmentedMessageSize, with the defaults 8 and 65536 -/
  fragments : ∀ age len : W64, s.takesFragment age len = true ↔
    age.toNat ≤ (if o.maxChainIDDiff = 0 then 8 else o.maxChainIDDiff.toNat) ∧
    len.toNat ≤ (if o.maxFragmentedMessageSize = 0 then 65536 else o.maxFragmentedMessageSize.toNat)

/-- DetachOnSequentialDecryptFailsCount: "If it is set to a zero-value then never". -/
def NeverStops (o : SessOptions) (s : Sess) : Prop := o.detachOnFails = 0 → ∀ n, s.stops n = false

/-- The documented meaning of the options of the key exchange. -/
structure DocumentedKx (o k : KxOptions) : Prop where
  intervalZero : o.keyUpdateInterval = 0 → k.keyUpdateInterval = 60000000000
  interval : o.keyUpdateInterval ≠ 0 → k.keyUpdateInterval = o.keyUpdateInterval
  retryZero : o.retryInterval = 0 → k.retryInterval = 1000000000
  retry : o.retryInterval ≠ 0 → k.retryInterval = o.retryInterval
  timeoutZero : o.timeout = 0 → k.timeout = 60000000000
  timeout : o.timeout ≠ 0 → k.timeout = o.timeout
  psk : k.psk = o.psk
  modeZero : o.answersMode = 0 → k.answersMode = 1
  mode : o.answersMode ≠ 0 → k.answersMode = o.answersMode

/-- The documented meaning of the options of the negotiation, without ReadTimeout below zero (C76). -/
structure DocumentedNeg (o : NegOptions) (backend : Backend) (k : NegOptions) : Prop where
  auto : o.enable = 0 → isEnabled k backend = backend.isUDP
  off : o.enable = 1 → isEnabled k backend = false
  on : o.enable = 2 → isEnabled k backend = true
  totalZero : o.totalTimeout = 0 → totalTimeout k = some 300000000000
  totalOff : o.totalTimeout < 0 → totalTimeout k = none
  total : 0 < o.totalTimeout → totalTimeout k = some o.totalTimeout
  readZero : o.readTimeout = 0 → k.readTimeout = 60000000000
  read : o.readTimeout ≠ 0 → k.readTimeout = o.readTimeout
  iterationsZero : o.maxIterations = 0 → k.maxIterations = 4
  iterations : o.maxIterations ≠ 0 → k.maxIterations = o.maxIterations

end Verif.Options
