# Formal model of xaionaro-go/secureio

## Trusted base

* The Lean 4.33.0 kernel.
* Axioms: at most `propext`, `Classical.choice`, `Quot.sound`. Each file `lean/Verif/Props/*.lean` ends with
  `#print axioms` for its theorems, and the table below repeats the result per theorem. No own axioms, no `sorry`, no
  `native_decide`, no `bv_decide`. No Mathlib module is imported.
* The hand translation from Go to Lean. Every model definition cites file and lines in /repo; each model file begins
  with its simplifications. The code was read, not run.
* Cryptographic primitives are *parameters* (arbitrary functions): the XChaCha20 key stream, BLAKE3, SHA3, SHA-512,
  Poly1305, Ed25519, X25519. Theorems quantify over all of them. What is assumed about them is a field of the structure
  that bundles them (sizes of results; signatures verify; Diffie-Hellman commutes), and an instance shows that the
  fields can be met. No probabilistic or computational security is claimed: "nobody can make this MAC" is not a theorem,
  "what is accepted carries a right MAC under this key" is.
* Go runtime: sections protected by a mutex and operations of `sync/atomic` are atomic steps; accesses without
  synchronisation are separate steps; a channel is its buffer and its closed flag; a slice is a list; a fixed width integer
  is a `BitVec`, or a `Nat` with explicit `% 2^n`. A goroutine may be delayed at any point for any time: theorems hold
  for all interleavings. "Returns" and "ends" are proved as: it always can go on by its own steps, or within so many of them.
* Memory model: reads and writes are sequentially consistent. Go promises this only for programs without data races;
  where the code has a race, the model interleaves the accesses, which is less than what the Go memory model allows.
  (Maps read and written at the same time are a crash, as in the Go runtime.)

## Method

`Model/` has the functions of the code. `Lemmas/` has invariants and technical lemmas. `Props/` has the property theorems,
the small specifications they are stated with, and next to each theorem an `example` in which its hypotheses hold.
Names: `Cxx_…` proves the property or a part of it; `Cxx_…_partial` proves it under a restriction that the full
property does not have; `Cxx_violated…` proves that the code does not have the property, by a concrete execution (which
is checked by the kernel with `decide`) or in general.

Wrong programs: `seeded/LOG.jsonl` has one line per deliberate bug that was put into a copy of the model, with the theorems
that failed, and the theorems that were tightened when none did.

## What is modelled

| Model file | Go code |
|---|---|
| `Go.lean` | byte slices, `binary.LittleEndian`, results of calls (ok, error, panic, blocked) |
| `Headers.lean` | message.go, message_fragment_headers.go, key_seed_update_message.go, negotiation_message.go, bytes of a SessionID; limits of sizes (session.go) |
| `PacketID.lean` | packetid_storage.go, `checkAndRememberPacketID` |
| `PendingChain.lean` | pending_chain.go |
| `Packet.lean` | crypt.go, checksums, `sendMessages` (bytes), `decrypt`, `tryDecrypt` |
| `Receive.lean` | `readerLoop` decisions, `processIncomingMessages`, `processIncomingMessageFragment`, `processIncomingMessage` |
| `ReadQueue.lean` | read_item.go, `Read`, delivery to the queue, end of the queue |
| `Send.lean` | `WriteMessageAsync`, `WriteSingle`, fragmentation, one call at a time, with one payload size for the whole call |
| `DelayedSend.lean` | the delayed buffer, `sendDelayedNow`, the sender loop, `SendInfo` and its pool, `SendNow`, all threads |
| `Lifecycle.lean` | `Start`, `Close`, `CloseAndWait`, `SetPause`, the reader loop, the backend closer, clean-up, state changes |
| `StateWait.lean` | session_state.go |
| `Messenger.lean` | messenger.go, handlers, dispatch, clean-up |
| `KeyExchange.lean` | key_exchanger.go, hash.go, `setSecrets`, `GetCipherKeysWait` |
| `Negotiator.lean` | negotiator.go, one side and two connected sides |
| `SessionID.lean` | `sessionIDGetter`, bytes of a SessionID |
| `Identity.lean`, `Pem.lean` | identity.go key files; the PEM text |
| `Mutual.lean` | `MutualConfirmationOfIdentity`: receive path, packets and key exchanger of its session put together, one side and two connected sides |
| `Traffic.lean` | two sides that both send and receive over a network that does anything with packets: packet IDs taken by sending and by receiving, overlapping `sendMessages` calls |
| `Memory.lean` | pooled buffers and headers with their old contents and capacities: `Grow`, slicing and copying in `sendMessages`, `writeMessageSingle`, `writeMessageFragment`, `appendToDelayedWriteBuffer`, `tryDecrypt`, `decrypt` |
| `ByteStream.lean` | what `backend.Read` returns on stream and datagram backends, `readerLoop` on top of it |
| `Sync.lean` | programs of lock, field, channel and backend operations; goroutines that execute their runs |
| `Calls.lean` | every function of session.go, session_state.go, key_exchanger.go, negotiator.go and messenger.go with such operations, as such a program |
| `Handshake.lean` | key_exchanger.go: `loop`, `KeyUpdateSendWait`, retries, answers and `skipKeyUpdateUntil` of two connected sides that lose, delay and reorder messages |
| `Options.lean` | options and their defaults (session.go `init`, `newKeyExchanger`, `newNegotiator`), `isLossyWriter`, limits of `make` and `time.NewTicker`, variables shared with the caller |
| `StdIO.lean` | results of `Read`, `Write`, `WriteMessage`, `WriteMessageSingle`; functions of the standard library that call them (io.ReadAll, io.Copy, io.ReadFull, bytes.Buffer, bufio.Reader), written down from their documentation and source |
| `WriteBuffer.lean` | who reads the slice given to `Write` and when: one call, the goroutines of its fragments, and a caller who uses the slice again after the return |
| `Output.lean` | the INFO and DEBUG channels: options, build tag, `infof`, `debugf`, closing by the reader, a user who receives |
| `SendNow.lean` | `SendNowAndWait`, `Wait`, start and end of `delayedSenderLoop`; with and without `SendDelay` |
| `SizeChange.lean` | writes that begin before, during and after the negotiation of the payload size, which is read several times |
| `ClosedWrite.lean` | writes to a session that is Closed; the choices of the `select`s are an argument |
| `Timing.lean` | the operations done for a received packet and their cost; a search for a checksum by time; caches, scheduler and noise are left out |
| `Signature.lean` | `Sign` and `VerifySignature`; Ed25519 is a parameter, its sizes and panics are not |
| `SendCount.lean` | the `N` and `Err` that each way of sending leaves in the `SendInfo`; the backend is a function |
| `Order.lean` | the calls of one goroutine, the sender loop and the goroutines of fragments as a transition system; errors and other writers are left out |
| `Pool.lean` | all users of the pools of buffers, headers and read items at once: buffer_pool.go, message.go, message_fragment_headers.go, read_item.go, and session.go: WriteMessageSingle, WriteMessageAsync, writeMessageFragment, sendDelayedNow, sendMessages, decrypt, processIncomingMessage, read as sequences of operations on pooled objects |
| `KeyTimer.lean` | the time of key updates: key_exchanger.go: loop with its ticker, KeyUpdateSendWait, retryUntilSuccessOrTimeout with its timer, updateLocalKey, sendPublicKey with skipKeyUpdateUntil, Handle, sendSuccessNotifications, and a paused reader |
| `CloseReport.lean` | the calls of EventHandler.Error when a session is closed: session.go: Close, readerLoop, readerLoopReadError, processIncomingMessage, the error functions of initNegotiator and startKeyExchange; key_exchanger.go: Handle, loop, KeyUpdateSendWait, retryUntilSuccessOrTimeout, mustSendPublicKey; negotiator.go: pingSenderLoop |
| `Constructors.lean` | what the constructors of identity.go return to their caller, with the Go types of the errors (errors.go: newErrWrongKeyLength, newErrCannotLoadKeys) |
| `Retry.lean` | key_exchanger.go: newKeyExchanger (default values of the durations), KeyUpdateSendWait, retryUntilSuccessOrTimeout with its two timers, mustSendPublicKey, loop until its ticker is made |
| `MutualError.lean` | identity.go: MutualConfirmationOfIdentity (its results), event_handler.go: errorHandlerWrapper, session.go: readerLoopDecryptError, default of ErrorOnSequentialDecryptFailsCount |
| `Ephemeral.lean` | session.go: GetEphemeralKeys, the field currentSecrets in setSecrets |
| `Outsider.lean` | session.go: readerLoop with the errFunc of startKeyExchange (what ends a session), key_exchanger.go: errFunc in parseAndCheck |
| `Reports.lean` | session.go: calls of EventHandler.Error in processIncomingMessage(s), readerLoopDecryptError and the errFuncs; negotiator.go: errors of Handle, sendControl and failing pings |
| `Stall.lean` | session.go: readerLoop with the handlers it calls, onKeyExchangeSuccess and the negotiator (what the reader waits for) |
| `Backlog.lean` | session.go: sendMessages (backend.Write), delayedSenderLoop, interruptRead, with `Lifecycle.lean`: a backend with full buffers |
| `Setup.lean` | session.go: setupBackend, error; with `Options.lean` and `Negotiator.lean`: datagrams that may or may not be fragmented |
| `SizeGet.lean` | session.go: GetEstablishedPayloadSize, GetEstablishedPacketSize called at any time, with the steps of Start, the negotiation, SetPause and Close that they look at |
| `Errors.lean` | the sizes in `ErrTooShort` and `ErrPayloadTooBig`, function by function |
| `Names.lean` | `String` of message types, states, packet IDs and keys |
| `Closure.lean` | the goroutines of a session, `stopWaitGroup` and the callbacks; what the goroutines do otherwise is left out, so that they may do more than in Go |
| `ReadChan.lean` | `Read` and `setMessenger` for `MessageTypeReadWrite`: which channel a call waits for, session.go:508, 836-838, 1074-1101, 1309-1322, 2112-2123, 2167-2185; left out: contents and small buffers (in `ReadQueue.lean`), crashes while a map is written (in `Messenger.lean`), other types |
| `Handlers.lean` | `SetHandlerFuncs`, `handlerByFuncs`, and how its results are reported, session.go:1074-1080, 1323-1358; left out: overlapping registrations (in `Messenger.lean`), what the functions do besides returning an error |
| `SendTimer.lean` | the timer of the delayed sender with a discrete clock; goroutines run at once when they can, only `backend.Write` takes time (at most a given number of ticks); the session stays Established |
| `Reader.lean` | `readerLoop` and `readerLoopReadError` on results and errors of `backend.Read` |

Not modelled: the contents of debug output and of error strings, Go memory reclamation, the operating system behind the
backend (only that `Read` and `Write` give a count and an error, and that deadlines interrupt `Read`), real time (a timer
may fire at any moment after it was set), fairness of the scheduler, the exported test helpers.

The models of different parts are separate transition systems. What one assumes about another one is written in its
header (for instance: Lifecycle assumes that the negotiator reports success once, which `C62_success_once` proves, and that
closing the messengers returns, which `C77_violated` shows to be false during a negotiation).

## Where the code and the properties disagree

The properties say what a user may expect from the documentation and the API. The following are places at which the code
does something else. Each of them is a theorem (`…_violated…`), the line numbers are in the model files.

* **C01 A replayed packet is never accepted twice** (`C01_replay_violated`). Code violates the property: an ID jump of more than 64 clears the whole table.
* **C14 Application data is only accepted under the exchanged key** (`C14_violated`, `C14_violated_witness`). Code violates the property: without a pre-shared key packets built with no key at all are accepted.
* **C15 Application data only leaves encrypted under the exchanged key** (`C15_violated`). Code violates the property: fragments of a fragmented message are never encrypted with the exchanged key, and are sent in plain text without a PSK.
* **C17 No nonce is used twice with the PSK-derived key** (`C17_violated`, `C17_violated_packet_ids`). Code violates the property: two sessions with one pre-shared key reuse nonces, and encrypted packet IDs repeat the key stream.
* **C19 Oversized messages are refused when fragmentation is off** (`C19_violated`). Code violates the property for payloads of 4 GiB and more (uint32 truncation).
* **C22 A fragmented message is only delivered when every byte has arrived** (`C22_violated`). Code violates the property for pieces shorter than 64 bytes (established payload below 88).
* **C23 A reassembled message has the announced length** (`C23_violated`). Code violates the property when a slot is reused by a shorter message (stale tail).
* **C24 Fragments of different messages never mix** (`C24_violated_loss`, `C24_violated_mix`). Code violates the property: a newer message destroys all incomplete ones, and chain IDs exactly MaxChainIDDiff apart share a buffer.
* **C25 No received bytes can crash the receiver** (`C25_violated`, `C25_violated_new_session`). Code violates the property: a fragment whose start position wraps crashes the process, without PSK even when sent by an outsider.
* **C28 The session goes through its documented phases in order** (`C28_violated`). Code violates the property: Close before Start makes a new session Closing.
* **C29 SetPause contract** (`C29_violated`). Code violates the property for backends without deadlines: SetPause(true) pauses the session and returns an error.
* **C30 SetPause returns once the reader is detached** (`C30_violated`, `C30_violated_sequential`). Code violates the property: a second SetPause(true), or one that comes before the reader left the previous pause, hangs a call for ever.
* **C35 Both sides derive the same key** (`C35_violated`). Code violates the property otherwise: an answer sent before the first local key exists calls updateLocalKey without the lock, and stale secrets can be passed on last.
* **C37 Traffic survives a key rotation** (`C37_violated`). Code violates the property for a receiver that is behind: the sender uses a new local key before it has sent it.
* **C38 No second rotation while one is in progress** (`C38_violated`). Code violates the property when an answering goroutine and the loop both make the first key.
* **C39 Stale key-exchange messages are rejected** (`C39_violated`, `C39_violated_witness`). Code violates the property: any message signed by the peer is accepted, whatever its age or session.
* **C40 A key-exchange message cannot crash the process** (`C40_violated`, `C40_violated_witness`, `C40_violated_nil`). Code violates the property: a public key of low order panics the receiver.
* **C44 A successful Write means the message was handed to the backend** (`C44_violated`, `C44_violated_cancel`). Code violates the property: a Write after Close, or one waiting when the context is cancelled, may return no error though nothing is ever sent.
* **C45 Each accepted message is sent exactly once, in order** (`C45_violated`). Code violates the property: a message accepted after Close is in no packet.
* **C46 SendInfo is not recycled while in use** (`C46_violated`). Code violates the property with fragmentation: the SendInfo is recycled while the sending goroutine still uses it.
* **C47 DetachOnSequentialDecryptFailsCount** (`C47_violated`, `C48_violated`). Code violates the property for option 0 (the default): the first undecryptable packet stops the session; and for every option from 2 on, since a packet that is decrypted but dropped because of its ID does not end a sequence of undecryptable ones (C48_violated).
* **C48 ErrorOnSequentialDecryptFailsCount** (`C48_violated`). Code violates the property to the letter: a packet that is decrypted but dropped because of its ID does not restart the count, so a failure is reported that follows a good packet.
* **C49 DetachOnMessagesCount** (`C49_violated`). Code violates the property while a session waits for the answer of a key exchange, and counts fragments.
* **C51 Read never loses data** (`C51_violated`). Code violates the property: a Read with a too small buffer loses its message.
* **C52 Multiplexer channels are isolated** (`C52_violated`). Code violates the property for channel ID 2^32-1 (wraps to type 0).
* **C53 The negotiated payload size is safe** (`C53_violated`). Code violates the property for an authenticated peer that does not: an unasked-for pong larger than the limit is counted.
* **C54 The size probing terminates and stays in range** (`C54_violated`, `C54_overflow`, `C54_small_limit`). Code violates the range otherwise.
* **C55 Negotiation always ends** (`C55_violated`, `C55_silent`). Code violates the property with default settings: a side whose search ends by MaxIterations sends no end message, so the other side waits until the total time-out.
* **C56 Negotiation messages never block the reader** (`C56_violated_late`, `C56_violated_disabled`, `C56_violated_timeout`, `C56_violated_early`, `C56_violated_crash`). Code violates the property in five ways, all between two sides that follow the protocol.
* **C57 The identity is stable across restarts** (`C57_violated`, `C57_violated_mixed`). Code violates the property for two first calls at the same time: different keys, or even a mixed key nobody has generated, because the file is opened without O_EXCL and O_TRUNC.
* **C58 A crash while creating the identity is survivable** (`C58_violated`). Code violates the property: after a crash between creating and filling the private key file every later call panics.
* **C63 Lossless in-order transport gives exact delivery** (`C63_violated`, `C63_violated_concurrent`). Code violates the property for fragmented messages: with the default options the ninth of nine messages sent one after the other is delivered with the end of the first one appended, and of two messages written at the same time the older one never arrives.
* **C64 A one-time MAC key authenticates one string** (`C64_violated`, `C64_violated_sides`). Code violates the second half: header and messages are authenticated with the same one-time key, and so are the packets of the two sides with the same packet ID.
* **C65 Unread messages do not block the session** (`C65_violated`). Code violates the property: 1025 unread messages block the reader for ever.
* **C66 Pausing and resuming never breaks the session** (`C66_violated`). Code violates the property: with SetPause calls that do not wait for the reader a read deadline can stay in the past and is taken for a time-out, so the session closes itself.
* **C67 CloseAndWait returns from a paused session** (`C67_violated`). Code violates the property: Close on a paused session whose reader waits never reaches Closed.
* **C68 Close always leads to Closed** (`C68_violated`, `C68_violated_pause`). Code violates the property: the interrupt of Close is lost when the reader is between two reads.
* **C69 Registering a handler while messages arrive** (`C69_violated`, `C69_violated_messenger`, `C69_violated_map`). Code violates the property: a message that arrives before SetHandler was called, or while a map is written, crashes the program.
* **C70 API calls in any state do not crash** (`C70_violated_new`, `C70_violated_start`, `C70_violated_handler`). Code violates the property before Start, while Start runs (also when the context of Start is cancelled meanwhile, see C160), and for SetHandlerFuncs on a finished session.
* **C71 Message boundaries in a packet are respected** (`C71_violated`). Code violates the property for fragments that are whole messages.
* **C72 Close together with writing never crashes** (`C72_violated`, `C72_violated_channel`, `C72_violated_fragment`). Code violates the property in three ways.
* **C73 A messenger is closed exactly once** (`C73_violated`). Code violates the property: a registration that overlaps the end of the session leaves a messenger open for ever.
* **C75 A successful negotiation leaves a usable payload size** (`C75_violated`, `C75_narrow`). Code violates the property for limits from 147 to 150: nothing is probed and the negotiation succeeds with size 0.
* **C76 A negative ReadTimeout switches the time-out off** (`C76_violated`). Code violates the property in the first round.
* **C77 Closing a session during the negotiation completes** (`C77_violated`). Code violates the property: the finalizer leaves first, the ping sender then waits for it for ever.
* **C78 TotalTimeout falls back to the best size found so far** (`C78_violated`). Code violates the property: after the time-out no result is used or reported.
* **C79 Negotiation finds more than half of what the path carries** (`C79_ends_low`, `C79_violated`). Code violates the property for every path that carries less than about a third of the limit.
* **C80 A malformed key file is reported as an error** (`C80_violated`). Code violates the property: a file without PEM block crashes the program (nil block dereferenced).
* **C81 The public key file belongs to the identity** (`C81_violated`). Code violates the property: a partly written public key file is never repaired.
* **C82 MutualConfirmationOfIdentity confirms who is on the other side now** (`C82_violated`, `C82_violated_witness`). Code violates the property without a PSK: one unencrypted packet with a recorded answer of the remote side and an empty message makes the call succeed.
* **C83 Both sides of MutualConfirmationOfIdentity get the same first key** (`C83_violated`). Code violates the property otherwise: an answering goroutine makes a second key after the exchange, and both calls succeed with different first keys.
* **C84 MutualConfirmationOfIdentity leaves the backend to its user** (`C84_violated`, `C84_violated_witness`). Code violates the property: the reader goes on reading until the session is closed, and drops a packet it cannot decrypt without a report.
* **C85 A message is delivered at most as often as it was sent** (`C85_violated`, `C85_violated_witness`). Code violates the property with the default window and every window above 64: every received packet takes a packet ID of the receiver, so 64 received packets between two sends (for example copies of one old packet) make the next ID jump by more than 64; the jump empties the table of received IDs, and older packets are accepted again.
* **C86 Reordering within PacketIDStorageSize packets loses nothing** (`C86_violated`, `C86_violated_witness`). Code violates the property: the window counts packet IDs, and received packets take IDs too; a packet overtaken by a single one is dropped if the sender received as many packets in between as the window is wide.
* **C87 Nothing is lost on an ordered lossless backend** (`C87_violated`, `C87_violated_witness`). Code violates the property: the packet ID is taken before and not under the same lock as backend.Write, so concurrent writers write out of order, and a packet can be too old on arrival; with PacketIDStorageSize = 1 two writers are enough.
* **C89 WriteMessageAsync never panics and appends exactly the message** (`C89_violated`). Code violates the property: the established payload size is taken from the peer without comparing it with the own limit, and the message is appended behind the capacity of the pooled buffer, so that Write panics.
* **C90 Messages survive a stream backend** (`C90_violated`, `C90_violated_witness`). Code violates the property: the result of one Read is taken for one packet, although the header has the length; two packets read at once, or a packet read in two parts, are lost, and with the default options the session ends.
* **C91 What Write accepts fits in the buffer of the receiver** (`C91_violated`, `C91_violated_witness`). Code violates the property when the limits differ and there is no negotiation.
* **C92 Locks of sessions never wait in a circle** (`C92_violated`). Code violates the property: setMessenger calls Close of the old handler, and EventHandler.Error, with sess.locker held; there GetRemoteIdentity, NewMessenger, SetHandlerFuncs, SetPause and Start wait for ever.
* **C93 No data races on the fields of a session** (`C93_violated`). Code violates the property for nine fields: sess.messenger, sess.readChan, sess.currentSecrets, kx.nextLocalPublicKey, kx.localKeyCreatedAt (written under a read lock), kx.skipKeyUpdateUntil, n.localLargestRTT, n.remoteLargestRTT, n.recvChan.
* **C94 A handler can use its session** (`C94_violated`, `C94_violated_write`). Code violates the property: handlers run in the goroutine that reads. WaitForClosure, CloseAndWait, SetPause(true) and Read on an empty queue wait for that goroutine and never return; a handler that sends before the last message of the negotiation has been received waits until the session is closed. All of this is proved for all programs and executions.
* **C95 Two sessions that answer each other do not block each other** (`C95_violated`). Code violates the property for every buffer size: both readers wait in backend.Write while nobody reads.
* **C96 The first key exchange does not wait for KeyUpdateInterval** (`C96_violated`). Code violates the property in the default mode: when the answer to the first message of the other side is sent before the own loop has started, it sets skipKeyUpdateUntil, the loop skips its first update, and nothing is sent until the ticker of KeyUpdateInterval; the session stays in KeyExchanging for a minute although nothing is lost.
* **C97 Retries make good for lost key-exchange messages** (`C97_violated`). Code violates the property in the mode "disable": a side that has finished neither sends nor answers, so one lost message cannot be made good before KeyUpdateInterval.
* **C98 Options mean what their documentation says** (`C98_violated`). Code violates the property for DetachOnSequentialDecryptFailsCount = 0, documented as "never": the first undecryptable packet stops the session.
* **C99 No option value crashes the program** (`C99_violated`, `C99_violated_retry`, `C99_violated_interval`). Code violates the property: a negative KeyUpdateInterval or RetryInterval makes time.NewTicker panic in a goroutine, and large MaxChainIDDiff or PacketIDStorageSize make NewSession panic.
* **C100 The packet size limit has room for the payload limit** (`C100_violated`). Code violates the property for the 53 largest values: the sum wraps and the buffer is shorter than the headers.
* **C101 A session does not change with the variables its options came from** (`C101_violated`). Code violates the property: only the structure is copied. The keys of the exchange are made with what is in the PSK slice at that time (after wiping it: zeros), SendDelay and ErrorOnSequentialDecryptFailsCount are read from the variables of the caller.
* **C102 A failed backend ends the session** (`C102_violated`). Code violates the property with a handler that returns true: the reader reads the failed backend again and again without a pause.
* **C103 Nothing that Read returns is dropped** (`C103_violated`). Code violates the property: data that is returned together with an error is dropped.
* **C104 A pause is not an error** (`C104_violated`). Code violates the property on backends whose time-out error does not have the text "i/o timeout".
* **C106 A completed key exchange does not time out** (`C106_violated`, `C106_timed_violated`). Code violates the property: a notification about an older key that gets into the channel between makeSuccessNotifyChanEmpty and updateLocalKey makes sendSuccessNotifications drop the right one, or is the only one there is; in the mode "disable" the session then times out although both sides have all keys. The same happens when the clock is set back while a goroutine that answers makes a key.
* **C107 The key exchange is reported as done only when there is a key** (`C107_violated`). Code violates the property in the modes "answer" and "disable": the message of the other side counts as success even if this side has no key.
* **C108 A session that has ended leaves the backend usable** (`C108_violated`). Code violates the property: if a packet ends Read while Close interrupts it, the interrupt sets the deadline after the reader has finished, and nobody resets it.
* **C109 A paused session leaves the backend usable** (`C109_violated`). Code violates the property: the reader lets SetPause return before it resets the deadline.
* **C110 Counts are those of io.Reader and io.Writer** (`C110_violated`, `C110_violated_single`). Code violates the property: every failed Read returns -1, and a successful WriteMessageSingle (also Messenger.WriteSingle) returns the size of the packet, 53 bytes more than the payload.
* **C111 io.ReadAll gets all that was sent** (`C111_violated`). Code violates the property for every series of messages: the count -1 at the end takes away the last byte (or makes the slice expression panic if there is none), the error is not io.EOF, and a message that is longer than the room in the slice is dropped.
* **C112 io.Copy copies all that was sent** (`C112_violated`). Code violates the property: the end of a session is never io.EOF, so that io.Copy always fails, and a message of more than 32768 bytes ends it early.
* **C113 A session may be read through bytes.Buffer and bufio.Reader** (`C113_violated`, `C113_violated_bufio`). Code violates the property: the count -1 makes (*bytes.Buffer).ReadFrom panic at the end of every session, and bufio.Reader too, also on a message that is longer than its buffer.
* **C114 io.ReadFull reads the bytes asked for** (`C114_violated`). Code violates the property whenever the buffer ends inside of a message: io.ReadFull fails, reports one byte less than it has read (-1 if none), and the message is lost.
* **C115 An echo is not a peer** (`C115_violated`, `C115_violated_own`). Code violates the property for an unknown remote identity, with a PSK too, and if both sides share an identity: the key exchanger never compares the received session ID, identity or ECDH key with its own, so that a session talks to itself.
* **C116 Own messages are not received** (`C116_violated`, `C116_violated_same_id`). Code violates the property: nothing in a packet that is not confidential tells the direction, and all fragments are such packets; a fragmented message that is sent back is delivered to its sender. Confidential packets are accepted if the remote session ID is the own one (C115).
* **C117 Write does not keep the slice** (`C117_violated`). Code violates the property for fragmented messages: Write returns when the context ends, while goroutines of fragments have not copied the slice yet; they only look at the state of the session, so they send what the caller has put there since.
* **C118 EnableInfo and EnableDebug decide what the output channels carry** (`C118_violated`). Code violates the property: ifInfo looks at EnableDebug instead of EnableInfo, which is used nowhere. EnableInfo alone gives nothing, EnableDebug alone gives INFO messages.
* **C120 OnConnect means that the session is established** (`C120_violated`). Code violates the property: onConnect does not look at the result of setState, so that OnConnect is also called for a session that was closed before and is never established.
* **C121 SendNowAndWait returns** (`C121_violated`, `C121_violated_example`, `C121_violated_unconnected`, `C121_violated_crash`). Code violates the property: SendNowAndWait sends to a channel without looking at the context. With SendDelay switched off nobody ever receives from it, and the call hangs for ever although the message is already sent; the same in a session that ends before it is established. For a fragmented message that is not sent yet the sender loop panics in its deferred Release.
* **C122 Writing alone never crashes** (`C122_violated`, `C122_violated_later`). Code violates the property: waitForSend counts a reference to a SendInfo that may already be back in the pool. When two writers wait for the same one, the panic of the first is recovered but its count stays, so the second does not notice and hands the SendInfo to the sender loop; the loop takes the very same object from the pool as the next current one and panics in its deferred Release.
* **C123 Errors tell the truth about sizes** (`C123_violated`, `C123_violated_single`). Code violates the property: parseMessage of the negotiator always reports the size of a control message, so that a pong of 6 to 68 bytes is refused with an ErrTooShort which says that 6 bytes are expected. WriteMessageSingle refuses a big payload with an ErrPayloadTooBig whose sizes are those of packets: writing a payload of MaxSize bytes fails again.
* **C124 Names identify what they name** (`C124_violated`, `C124_violated_distinct`). Code violates the property: MessageType.String subtracts MessageTypeReadWrite instead of MessageTypeChannel(0) and cuts the result to a byte, so that channel 0 is called channel5, no channel has its own number, and channels 0 and 256 have the same name; the type of the negotiation is unknown, like the reserved ones.
* **C125 WaitForClosure waits until everything has finished** (`C125_violated`, `C125_violated_error`, `C125_violated_early`). Code violates the property: the goroutine of OnConnect, those of the negotiation and those that answer key-exchange messages are not counted in stopWaitGroup, so that OnConnect and Error can be called after WaitForClosure has returned; before Start the counter is 0 and WaitForClosure returns at once.
* **C126 A message is delayed by SendDelay at most** (`C126_violated`, `C126_violated_defaults`). Code violates the property: every appended message restarts the timer, so that messages that come just before the timer expires delay the first one until the buffer is full: k messages by nearly k times SendDelay, with the defaults more than 7000 times.
* **C127 Replaced keys are forgotten** (`C127_violated`, `C127_violated_replay`, `C127_violated_race`). Code violates the property: any message the peer has ever signed is accepted as current, so who has an old private key of the peer plays back the message with its public key, and can compute the key the session sends with from then on. For the local keys, if two messages come before the first key is made, the loop and two answering goroutines each make a key, and the secrets of the first can be passed on last.
* **C128 Close sends what was accepted before** (`C128_violated`, `C128_violated_all`). Code violates the property: Close sets the state Closing first and then flushes, and a flush in that state fails by itself (isDone), so the loop in startClosing throws away everything that waits; this happens in every state in which Close can be called.
* **C130 A write ends when the session has ended** (`C130_violated`, `C130_violated_all`, `C130_violated_busy`). Code violates the property: waitForSend notices that the sender loop has ended, but assigns the SendInfo with the error to its own parameter, so writeMessageAsync tries again for ever. With two calls waiting for room when Close comes, the first fills the buffer that nobody empties any more, and the second runs in a busy loop, allocating a SendInfo in each round.
* **C131 A message that is dropped is reported** (`C131_violated_type`, `C131_violated_size`). Code violates the property: a message of a type without handler and queue is dropped silently; the fragments of a message bigger than MaxFragmentedMessageSize of the receiver (64 kB by default, not checked by the sender) are dropped in every order with an entry in the optional info log only, and so are those of a message overtaken by a newer one (C24).
* **C132 Read returns when the session has ended** (`C132_violated`, `C132_violated_example`, `C132_violated_late`). Code violates the property: setMessenger puts a new channel into the map, and nobody writes to or closes the old one, so that a Read waiting for it never returns in any run; the same for every Read after a registration that is completed after the end of the reader loop.
* **C133 Registering a messenger loses no message** (`C133_violated`, `C133_violated_example`). Code violates the property: messages waiting in the old channel when a messenger is registered for MessageTypeReadWrite are never delivered in any run.
* **C134 The functions given to SetHandlerFuncs are called** (`C134_violated`, `C134_violated_example`). Code violates the property: onError is never called; HandleError, which would, is in no interface and nothing calls it.
* **C135 Two sides with a common key agree on who they are** (`C135_violated`, `C135_violated_run`). Code violates the property: the key depends on the ECDH keys and the PSK only, and the signed message names its sender but not its receiver. A third one who is a peer of Bob (or comes first, if Bob has no remote identity configured) signs the ECDH public key of Alice; then Alice and Bob have a common key, Alice rightly believes to talk to Bob, and Bob takes what Alice sends for messages of the third one. The third one does not learn the key; with a PSK it has to have the PSK.
* **C136 Packets of an outsider do not keep out those of the peer** (`C136_violated`, `C136_violated_example`). Code violates the property: the storage of packet IDs is one for all keys. Without a PSK anybody can make a packet with the ID 2^64-1; it is accepted, and from then on every packet of the peer is dropped as too old, without a report. With a PSK the same is done by a packet recorded in an earlier session with this PSK, up to its ID.
* **C137 A peer that begins a new session is not ignored** (`C137_violated`, `C137_violated_example`). Code violates the property: packet IDs begin with 1 in each session, and the old session drops them as too old until they get beyond the ID it has seen last minus PacketIDStorageSize, without a report.
* **C138 A key update is over only when the peer has the new key** (`C138_violated`, `C138_violated_run`). Code violates the property: an answer does not tell which key it answers, and sendSuccessNotifications takes it for the key made last. If a request was sent twice and the second answer comes after the next key was made, the update of this key is over at once; if its request is lost, the exchanger sends with a key that the peer cannot have, until the next interval.
* **C140 The key files of the quick start can be used** (`C140_violated_private`, `C140_violated_public`). Code violates the property: the private key file of ssh-keygen has a PEM block with more than 64 bytes (format openssh-key-v1), which NewIdentity refuses in every run; the public key file has no PEM block, on which NewRemoteIdentity panics.
* **C141 With fragmentation no message is refused for its size** (`C141_violated`). Code violates the property: the size is compared when the call begins, before the wait for Established. A message that fits the limit then, but not the size that the negotiation finds, is not fragmented any more and is refused.
* **C142 A write to a closed session fails with ErrAlreadyClosed** (`C142_violated_success`, `C142_violated_fragments`, `C142_violated_size`, `C142_violated_keys`). Code violates the property: after Close of a session that was Established both cases of the selects on the context and on isEstablished are ready. With a SendDelay every message that fits may be put into a buffer that nobody sends, and Write succeeds; so may the write of a fragmented message, since Wait returns at once. A message that fits may also be refused as too big for a packet size of 53, and without keys the error is ErrCanceled.
* **C143 WriteMessageAsync does not wait** (`C143_violated`, `C143_violated_full`). Code violates the property: before the session is established the call waits for that (GetEstablishedPayloadSize), so for ever without the other side; in an established session it waits when the message does not fit beside those in the buffer.
* **C144 The channel of Done is closed in the end** (`C144_violated`, `C144_violated_all`). Code violates the property: a message that comes into the buffer after the last flush of Close, or when the context has ended, never gets a result, so that the example of README.md waits for ever (Wait also looks at the context, Done does not).
* **C145 SendID is unique** (`C145_violated`). Code violates the property: messages merged into one packet share one SendInfo and its SendID.
* **C146 The time a packet takes says nothing about its checksums** (`C146_violated`). Code violates the property: checksums are compared with bytes.Compare, which stops at the first word that differs. Who holds back one packet that the receiver would accept and measures the time finds a valid checksum for messages of their choice with n * 256^w packets (16 bytes as n words of w bytes: 4096 packets with w = 1, 2^65 with w = 8 as in the assembler version for amd64) instead of 256^16.
* **C147 What Sign has signed is accepted by VerifySignature** (`C147_violated`, `C147_violated_panic`, `C147_violated_empty`). Code violates the property: Sign copies the 64 bytes into whatever slice it gets; with any other length of the slice it reports nothing, and the signature is refused. With a remote identity, which has no private key, it panics.
* **C148 SendInfo.N is the number of bytes written to send the message** (`C148_violated`, `C148_violated_error`). Code violates the property: for a fragmented message N is always -1, and for merged messages it is -1 when there was an error, whatever the backend has taken.
* **C149 Messages of one goroutine are sent in the order of its calls** (`C149_violated`). Code violates the property: WriteMessageSingle and the fragments of a big message do not wait for the messages in the buffer, and nothing waits for the fragments of a message written by WriteMessageAsync.
* **C150 Messages written before the session is Established are sent when it is** (`C150_violated`). Code violates the property: the size of a message is compared with PayloadSizeLimit before the call waits; if the negotiation finds a smaller size, a message between the two is refused, with fragmentation too.
* **C151 Packet IDs start with zero and increase by one** (`C151_violated`, `C151_violated_steps`, `C151_violated_witness`). Code violates the property: the first ID is 1, no packet ever has the ID 0, and every received packet of 44 bytes or more and every failed write takes a number too.
* **C152 GetEstablishedPayloadSize returns the result of the negotiation** (`C152_violated`, `C152_violated_closed`, `C152_violated_new`). Code violates the property: during Closing the size is returned as it is, which before the end of the negotiation is the configured limit; on a closed session both cases of the select can be ready and a call returns the size or zero (GetEstablishedPacketSize: 53); before Start the methods panic.
* **C154 Concurrent calls do not share buffers** (`C154_violated`). Code violates the last part of the property: the fragment header of each fragment (session.go:1528), the container header of a packet dropped for its ID (session.go:936-943) and the read item of a message which no channel takes (session.go:1066-1068) or whose reader has a too small buffer (session.go:2171-2173) never return to their pools. Everything else is proved without restriction, and the return of the objects for all other calls.
* **C155 A pause can last as long as the user wants** (`C155_violated`). Code violates the property: the key exchanger does not know of the pause. At the next tick of KeyUpdateInterval it begins an update, nobody reads the answer, and after Timeout it closes the session and reports a time-out. No pause longer than KeyUpdateInterval + Timeout leaves the session open (C155_long).
* **C157 A key is not used for longer than KeyUpdateInterval** (`C157_violated`). Code violates the property for the key made at the start: the ticker is made when the first exchange is over, and the first tick does not replace a key that nothing has confirmed yet.
* **C158 Close returns immediately** (`C158_violated`). Code violates the property: the loop of startClosing goes on as long as it finds messages, and WriteMessageAsync accepts messages after the state is Closing, so writers can keep Close from returning for any number of rounds, and nothing they write is sent.
* **C159 Closing a session is not an error** (`C159_violated`). Code violates the property: a retry, an update or an answer of the key exchange that is under way finds that it cannot write any more and reports it, a key message or a ping in the last packet is reported as not handled, and a negotiation that is collecting answers always reports that it was cancelled.
* **C160 Cancelling the context of Start ends the session** (`C160_violated`, `C160_start_violated`). Code violates the property: with a context that is cancelled before Start has made its messengers, NewMessenger returns nil and Start crashes the program; a paused session never ends, because SetPause(false) is refused once the session is Closing.
* **C161 An identity that a constructor returns can be used** (`C161_violated`). Code violates the property: NewIdentity returns an identity also with an error, and if the keys could not be generated or loaded it has none, so that using it crashes.
* **C162 Errors about keys can be recognised** (`C162_violated`, `C162_violated_remote`). Code violates the property: NewIdentityFromPrivateKey and NewRemoteIdentityFromPublicKey return a pointer to ErrWrongKeyLength, everything else a value, and NewRemoteIdentity never reports ErrCannotLoadKeys.
* **C165 The error of MutualConfirmationOfIdentity says what went wrong** (`C165_violated_why`, `C165_violated_keys`). Code violates the property: the call overwrites the ErrCannotDecrypt of its handler by its own error of Write or Read, and with ErrorOnSequentialDecryptFailsCount 1 or 2 a packet that comes late makes it return keys and an error. With the default value nobody is told at all, because the session detaches after two failures and reports after three.
* **C166 What is received does not pile up goroutines** (`C166_violated`, `C166_violated_witness`). Code violates the property: Handle starts a goroutine for each request, and each waits until its answer is written. While the backend takes nothing (a peer on TCP that does not read), each copy of one signed request adds a goroutine; without a PSK anybody on the way can send such copies.
* **C167 GetEphemeralKeys returns the last generated shared keys** (`C167_violated`). Code violates the property: updateSecrets computes the secrets and hands them over without a common lock, so if a message arrives before the first local key is there, the loop and answering goroutines can hand over older secrets after newer ones, and GetEphemeralKeys keeps returning the older.
* **C168 Packets of an outsider do not end a session** (`C168_violated`, `C168_violated_limit`, `C168_violated_first`). Code violates the property: with the default options one packet that cannot be decrypted, of any content and at any time, ends the session, even with a PSK and a known peer (0 is documented as "never", see C98); and as long as the peer is not known and there is no PSK, one unencrypted message of the key exchange with another answers mode and no valid signature closes the session, because the mode is checked first.
* **C169 An error is reported once** (`C169_violated`, `C169_violated_ping`). Code violates the property: a message of the key exchange with the signature of the peer (or of anybody, while no peer is known) and another answers mode or a key of zeros is given to Error twice, by errFunc and again because Handle returns the same error (key_exchanger.go:367-376, session.go:1076-1078); a ping that cannot be sent is given to Error by sess.error and again by errFunc (negotiator.go:305-309).
* **C170 Packets of an outsider do not stop a session** (`C170_violated`, `C170_violated_later`, `C170_violated_size`). Code violates the property without a PSK, because messages of the negotiation are accepted in packets made without any key (C14): one packet of 59 bytes with the message that the search has ended, read before the first key exchange is completed, blocks the reader at stageChan; the one who would receive from it is started by the reader (onKeyExchangeSuccess), so the session is never Established, and since the reader never ends WaitForClosure does not return either. On a backend where the negotiation is off (TCP) or after its time-out the same packet stops the reader of an Established session. While the negotiation is running an outsider can set the size that the peer seems to have found, down to 0, and so the payload size.
* **C171 A session can be closed although its peer does not read** (`C171_violated`, `C171_violated_handler`). Code violates the property on every backend with SetReadDeadline, such as TCP: closing only moves the deadline for reading and leaves the backend open, so a goroutine of the session that waits in backend.Write (the delayed sender or the key exchanger) waits until the peer reads, and CloseAndWait and WaitForClosure do not return. If it is the reader, in a handler that answers, the session does not even get Closed, and Read does not return.
* **C172 Each key exchange has ECDH key pairs of its own** (`C172_violated`). Code violates the property: an answer makes a key only if there was none (sendPublicKey), so all requests of the peer between two updates of the loop are answered with one and the same key pair, although each of them is an exchange with new shared keys.
* **C173 Messages written within the send delay are merged into one packet** (`C173_violated`). Code violates the property: the sender loop does not know of the flushes of onConnect (lastSendID begins with zero), so a request of a writer to send a packet that onConnect has sent already makes the loop send what is in the buffer at once; the next message, which would fit, gets a packet of its own.
* **C174 A write that waits for room in the packet is not overtaken for ever** (`C174_violated`). Code violates the property: waiting calls do not queue up; when a packet was taken, the call that enters the critical section first gets the room. Whatever the packet size, for two messages that do not fit into one packet there is for every number k an execution in which a call waits while k packets with messages of later calls are sent (induction on k).
* **C175 Nothing happens to a session that is Closed** (`C175_violated`). Code violates the property: Closed is set by the reader before it resets the deadline and without waiting for others. The negotiation that ends afterwards calls OnConnect; the backend closer may put the read deadline into the past, or, for a backend without deadlines, close the backend, of a session that is Closed.
* **C177 UDP packets of a session are not fragmented on their way** (`C177_violated`). Code violates the property: setupBackend knows the type *net.UDPConn only, while IsLossyWriter also takes any type with a UDP address for UDP; for these (wrappers of a connection) the size is negotiated with datagrams that may be fragmented, so that any size is found to be good. If setting the option fails and there is no event handler, nobody is told.
* **C178 Who sees the packets learns their number and sizes, but not their contents** (`C178_violated`, `C178_violated_hidden`, `C178_violated_ids`). Code violates the property for what is encrypted with the key made of the PSK: its nonce is the packet ID alone, so of two packets with one ID (of two sessions, or of the two peers) each byte of one follows from that byte of the other; and packet IDs are all encrypted with one key and a nonce of zeros, so with the first packet (ID 1) every ID can be read.
* **C179 Each round of the negotiation tries three sizes in a shorter interval than the round before** (`C179_violated`, `C179_violated_sizes`). Code violates the property: four sizes are sent in each round (both ends of the interval are among them). When the second greatest of them makes the round trip in a later round, the upper end is doubled, up to the limit, so with default settings on a path for 976 bytes without any loss the third interval (840 to 1392) is longer than the second (562 to 979).
* **C181 GetEphemeralKeys returns the same keys on both sides** (`C181_violated`). Code violates the property from the second exchange on: the second key is made of the recent local and the previous remote key, the third of the previous local and the recent remote key, so that they are interchanged on the other side.
* **C183 What is delivered depends on the accepted packets only** (`C183_violated`). Code violates the property with the default options: DetachOnSequentialDecryptFailsCount = 0 detaches at the first undecryptable packet (C47), and nothing that comes after it is received.

Smaller observations that are visible in the models:

* `NewMessenger` registers the messenger before its owner can call `SetHandler`; `setMessenger` replaces the read channel of the
  type, so that messages queued before are no longer seen by `Read`.
* `sessionIDGetter.Get` keeps its lock while the clock stands still (`C43_frozen`), and uses a `mathrand.Rand` outside of it.
* A key exchange message with the wrong answers mode closes a session that has no configured remote identity, although
  nothing in it was verified (`C41_unverified`).
* The established payload size 24 makes `WriteMessageAsync` of a long message loop for ever (`C20_hangs`).
* `AcquireReadItem(…, isOneTimeUse)` does not store its argument, so one-time items go to the pool as well.
* `saveKeyToPemFile` does not close the file.

## Properties and theorems

Axioms: `p` propext, `q` Quot.sound, `c` Classical.choice, `-` none. All names begin with `Verif.`.

| Id | Property | Status | Theorems (axioms) | Remarks |
|---|---|---|---|---|
| C01 | A replayed packet is never accepted twice | partial | `PacketID.C01_replay_partial` (pcq), `Receive.C01_reader_partial` (pcq), `PacketID.C01_replay_violated` (pcq), `PacketID.C01_exact` (pcq) | Code violates the property: an ID jump of more than 64 clears the whole table. Proved for histories without such jumps; negation proved for the default and every size above 64; C01_exact says for every history exactly which packets pass. |
| C02 | Replay protection with a window of at most 64 IDs or in grow-only mode | proved | `PacketID.C02_small_window_no_replay` (pcq), `Receive.C02_reader` (pcq), `PacketID.C02_grow_only` (pcq) |  |
| C03 | A new packet inside the window is never dropped as a replay | proved | `PacketID.C03_fresh_accepted` (pcq), `PacketID.C03_zero_first_refused` (pcq) |  |
| C04 | Too old and disabled modes of the packet-ID check | proved | `PacketID.C04_too_old_dropped` (pcq), `PacketID.C04_counter` (pcq), `PacketID.C04_disabled` (pq), `PacketID.C04_refines_filter` (pcq) |  |
| C05 | Message header encoding round-trips | proved | `Headers.C05_message_header` (pcq), `Headers.C05_flags` (pq) |  |
| C06 | Container header encoding round-trips | proved | `Headers.C06_container_header` (pcq), `Headers.C06_packet_id` (pcq) |  |
| C07 | Fragment header encoding round-trips | proved | `Headers.C07_fragment_header` (pcq) |  |
| C08 | Key-exchange message and session ID encoding round-trips | proved | `Headers.C08_session_id` (pcq), `Headers.C08_key_exchange_message` (pcq) |  |
| C09 | Negotiation message encoding round-trips | proved | `Headers.C09_control_message` (pcq), `Headers.C09_ping_pong` (pcq), `Headers.C09_bad_pong_ignored` (p) |  |
| C10 | The container parser is total and delivers exactly the well-formed prefix | proved | `Receive.C10_parser` (pcq), `Receive.C10_unique` (pcq) |  |
| C11 | Aggregated messages are split back exactly | proved | `Receive.C11_aggregate` (pcq) |  |
| C12 | Encrypt/decrypt round trip of a packet | proved | `Packet.C12_roundtrip_confidential` (pcq), `Packet.C12_roundtrip_aux` (pcq) |  |
| C13 | Only packets whose two checksums verify under one of the session's keys are accepted | proved | `Packet.C13_accept_implies_genuine` (pcq), `Packet.C13_reject` (pcq) |  |
| C14 | Application data is only accepted under the exchanged key | partial | `Packet.C14_psk_partial` (pcq), `Packet.C14_violated` (pcq), `Packet.C14_violated_witness` (pcq) | Code violates the property: without a pre-shared key packets built with no key at all are accepted. Proved: with a pre-shared key every accepted packet is genuine under that key or an exchanged one. |
| C15 | Application data only leaves encrypted under the exchanged key | partial | `Send.C15_encrypted_partial` (pq), `Send.C15_violated` (pq) | Code violates the property: fragments of a fragmented message are never encrypted with the exchanged key, and are sent in plain text without a PSK. Proved for every message that is not fragmented. |
| C16 | No nonce is used twice with an exchanged key within a session | proved | `Packet.C16_nonce_unique` (pcq) |  |
| C17 | No nonce is used twice with the PSK-derived key | partial | `Packet.C17_one_session_partial` (pcq), `Packet.C17_violated` (pq), `Packet.C17_violated_packet_ids` (pq) | Code violates the property: two sessions with one pre-shared key reuse nonces, and encrypted packet IDs repeat the key stream. Proved inside one session. |
| C18 | Packets never exceed the established packet size | proved | `Send.C18_packet_size` (pq), `Send.C18_fragment_size` (pq), `DelayedSend.C18_batch` (pcq) |  |
| C19 | Oversized messages are refused when fragmentation is off | partial | `Send.C19_refused_partial` (pq), `Send.C19_fits` (pq), `Send.C19_single_refused` (pq), `Send.C19_violated` (pq) | Code violates the property for payloads of 4 GiB and more (uint32 truncation). Proved for smaller payloads. |
| C20 | Fragmentation covers the payload exactly | proved | `Send.C20_covers` (pq), `Send.C20_plan` (pq), `Send.C20_hangs` (pq), `EndToEnd.plan_pieces` (pcq) | For an established payload size of at least 25; C20_hangs shows that 24 makes the call hang. |
| C21 | A message is reassembled once all its fragments have arrived | proved | `PendingChain.C21_completes` (pcq) |  |
| C22 | A fragmented message is only delivered when every byte has arrived | partial | `PendingChain.C22_delivered_when_all_partial` (pcq), `PendingChain.C22_violated` (pcq), `PendingChain.C22_exact` (pcq) | Code violates the property for pieces shorter than 64 bytes (established payload below 88). Proved for pieces of 64 bytes and more; negation proved; exact characterisation proved for all pieces. |
| C23 | A reassembled message has the announced length | partial | `PendingChain.C23_delivered_bytes_partial` (pcq), `PendingChain.C23_violated` (pcq) | Code violates the property when a slot is reused by a shorter message (stale tail). Proved for slots that never held a longer message. |
| C24 | Fragments of different messages never mix | partial | `Receive.C24_noninterference_partial` (pq), `Receive.C24_old_ignored` (pq), `Receive.C24_violated_loss` (pq), `Receive.C24_violated_mix` (pq) | Code violates the property: a newer message destroys all incomplete ones, and chain IDs exactly MaxChainIDDiff apart share a buffer. Proved: no interference while no newer message begins and IDs are closer. |
| C25 | No received bytes can crash the receiver | partial | `Receive.C25_receiver_partial` (pcq), `Receive.C25_violated` (pcq), `Receive.C25_violated_new_session` (pcq), `Packet.C25_decrypt_total` (pcq), `PendingChain.C25_merge_partial` (pcq), `PendingChain.C25_merge_panics` (pcq) | Code violates the property: a fragment whose start position wraps crashes the process, without PSK even when sent by an outsider. Proved: in every reachable state nothing else crashes or hangs the receive path. |
| C26 | Reassembly memory is bounded | proved | `Receive.C26_memory` (pcq) |  |
| C27 | Closed is final | proved | `Lifecycle.C27_final` (pcq), `Lifecycle.C27_final_run` (pcq) |  |
| C28 | The session goes through its documented phases in order | partial | `Lifecycle.C28_phases_partial` (pcq), `Lifecycle.C28_violated` (pq) | Code violates the property: Close before Start makes a new session Closing. Proved: all other transitions are as documented. |
| C29 | SetPause contract | partial | `Lifecycle.C29_pause` (pcq), `Lifecycle.C29_unpause` (pcq), `Lifecycle.C29_proceeds` (pcq), `Lifecycle.C29_result_partial` (pcq), `Lifecycle.C29_violated` (pq) | Code violates the property for backends without deadlines: SetPause(true) pauses the session and returns an error. Proved for backends with deadlines. |
| C30 | SetPause returns once the reader is detached | partial | `Lifecycle.C30_detached` (pcq), `Lifecycle.C30_returns_partial` (pcq), `Lifecycle.C30_channel` (pq), `Lifecycle.C30_violated` (pcq), `Lifecycle.C30_violated_sequential` (pcq) | Code violates the property: a second SetPause(true), or one that comes before the reader left the previous pause, hangs a call for ever. Proved for calls made after the reader left the previous pause and not disturbed by other SetPause or Close calls. |
| C31 | Exactly one Close succeeds | proved | `Lifecycle.C31_once` (pcq), `Lifecycle.C31_result` (pq) |  |
| C32 | WaitForState never misses a state that persists | proved | `StateWait.C32_result` (pcq), `StateWait.C32_woken` (pcq), `StateWait.C32_progress` (pcq), `StateWait.C32_others` (pq), `StateWait.C32_returns` (pcq) |  |
| C33 | Unauthenticated key-exchange messages have no effect | proved | `KX.C33_ignored` (pq), `KX.C33_effect` (pcq), `Mutual.C33_sent` (pcq) |  |
| C34 | The remote identity is pinned | proved | `KX.C34_pinned` (pcq), `KX.C34_adopted` (pcq), `KX.C34_first` (pq) |  |
| C35 | Both sides derive the same key | partial | `KX.C35_shared` (pq), `KX.C35_crosswise` (pq), `KX.C35_sessions_partial` (pcq), `KX.C35_prepared` (pcq), `KX.C35_violated` (pq) | Proved for the key derivation, and for sessions whose key updates do not overlap. Code violates the property otherwise: an answer sent before the first local key exists calls updateLocalKey without the lock, and stale secrets can be passed on last. |
| C36 | Different PSKs never give the same key | proved | `KX.C36_keys_differ` (pq), `KX.C36_psk_matters` (pq), `KX.C36_inputs` (pq), `KX.C36_inputs_second` (pq), `KX.C36_hash` (p), `KX.C36_derived` (pq) |  |
| C37 | Traffic survives a key rotation | partial | `KX.C37_ahead_partial` (pcq), `KX.C37_violated` (pq) | Proved for a receiver that is ahead by at most one key of either side. Code violates the property for a receiver that is behind: the sender uses a new local key before it has sent it. |
| C38 | No second rotation while one is in progress | partial | `KX.C38_serial_partial` (pcq), `KX.C38_count_partial` (pcq), `KX.C38_violated` (pq) | Proved for sessions whose key updates do not overlap. Code violates the property when an answering goroutine and the loop both make the first key. |
| C39 | Stale key-exchange messages are rejected | partial | `KX.C39_current_partial` (p), `KX.C39_violated` (pq), `KX.C39_violated_witness` (pq) | Code violates the property: any message signed by the peer is accepted, whatever its age or session. Proved: the current message played back changes no key. |
| C40 | A key-exchange message cannot crash the process | partial | `KX.C40_cause_partial` (pq), `KX.C40_honest_partial` (pq), `KX.C40_violated` (pq), `KX.C40_violated_witness` (pq), `KX.C40_violated_nil` (pq) | Code violates the property: a public key of low order panics the receiver. Proved: this (or a failed random generator) is the only cause, and honest peers cause no panic. |
| C41 | Answers-mode mismatch and invalid keys are reported and ignored | proved | `KX.C41_ignored` (pq), `KX.C41_handle` (pq), `KX.C41_unverified` (pq) |  |
| C42 | After the first exchange a sending key is always available | proved | `KX.C42_keys` (pq), `KX.C42_available` (pq), `KX.C42_wait` (pq), `KX.C42_no_double_close` (pq) |  |
| C43 | Session IDs are unique and increasing | proved | `SessionID.C43_increasing` (pq), `SessionID.C43_unique` (pq), `SessionID.C43_returns` (pq), `SessionID.C43_is_time` (p), `SessionID.C43_limit` (p), `SessionID.C43_frozen` (pq) | For every clock; the 64-bit limit is shown to be needed. A clock that stands still at the last value keeps Get in its loop with the lock held (C43_frozen). |
| C44 | A successful Write means the message was handed to the backend | partial | `DelayedSend.C44_delivered_partial` (pcq), `SendCount.C44_fragmented` (pq), `DelayedSend.C44_violated` (pq), `DelayedSend.C44_violated_cancel` (pq) | Code violates the property: a Write after Close, or one waiting when the context is cancelled, may return no error though nothing is ever sent. Proved: whenever the wait ended by Done(), no error means exactly that the packet was written, or for a fragmented message that all fragments were. |
| C45 | Each accepted message is sent exactly once, in order | partial | `DelayedSend.C45_in_order_partial` (pcq), `DelayedSend.C45_result_partial` (pcq), `DelayedSend.C45_violated` (pq), `DelayedSend.close_drops` (pcq) | Code violates the property: a message accepted after Close is in no packet. Proved (no fragmentation): written packets contain the accepted messages once, in order, and a finished SendInfo reports the result of its packet. Close drops what is waiting. |
| C46 | SendInfo is not recycled while in use | partial | `DelayedSend.C46_counts` (pcq), `DelayedSend.C46_recycled_partial` (pcq), `DelayedSend.C46_violated` (pq) | Code violates the property with fragmentation: the SendInfo is recycled while the sending goroutine still uses it. Proved: counts in all cases; finality without fragmentation. |
| C47 | DetachOnSequentialDecryptFailsCount | partial | `Receive.C47_detach_partial` (pcq), `Receive.C47_strict_partial` (pcq), `Receive.C47_violated` (pq), `Receive.C48_violated` (pq) | Code violates the property for option 0 (the default): the first undecryptable packet stops the session; and for every option from 2 on, since a packet that is decrypted but dropped because of its ID does not end a sequence of undecryptable ones (C48_violated). Proved for every option above 0 if such packets are passed over, and to the letter without them. |
| C48 | ErrorOnSequentialDecryptFailsCount | partial | `Receive.C48_error` (pq), `Receive.C48_partial` (pq), `Receive.C48_no_error` (pq), `Receive.C48_violated` (pq) | Code violates the property to the letter: a packet that is decrypted but dropped because of its ID does not restart the count, so a failure is reported that follows a good packet. Proved if such packets are passed over, and to the letter without them. |
| C49 | DetachOnMessagesCount | partial | `Receive.C49_limit_partial` (pcq), `Receive.C49_zero_never` (pcq), `Receive.C49_violated` (pq), `Receive.C49_fragments_count` (pq) | Code violates the property while a session waits for the answer of a key exchange, and counts fragments. Proved for all other packet sequences. |
| C50 | Read returns whole messages in order | proved | `ReadQueue.C50_read_exact` (pcq), `ReadQueue.C50_in_order` (pcq), `ReadQueue.C50_closed_last` (pcq) |  |
| C51 | Read never loses data | partial | `ReadQueue.C51_no_loss_partial` (pcq), `ReadQueue.C51_violated` (pcq) | Code violates the property: a Read with a too small buffer loses its message. Proved: nothing is lost otherwise. |
| C52 | Multiplexer channels are isolated | partial | `Headers.C52_channels_isolated_partial` (pcq), `Headers.C52_documented` (pcq), `Headers.C52_violated` (pq), `Receive.C52_dispatch` (pcq) | Code violates the property for channel ID 2^32-1 (wraps to type 0). Proved for all other channel IDs, hence for all that the README allows (0 to 2^31); dispatch by type proved. |
| C53 | The negotiated payload size is safe | partial | `Negotiator.C53_short` (-), `Negotiator.C53_safe_partial` (pcq), `Negotiator.C53_safe_other_partial` (pcq), `Negotiator.C53_echo` (pcq), `Negotiator.C53_checksum` (pq), `Negotiator.C53_control` (pcq), `Negotiator.C53_violated` (p) | Proved for two sides that follow the protocol. Code violates the property for an authenticated peer that does not: an unasked-for pong larger than the limit is counted. |
| C54 | The size probing terminates and stays in range | partial | `Negotiator.C54_rounds` (pcq), `Negotiator.C54_range_partial` (pcq), `Negotiator.C54_terminates` (pcq), `Negotiator.C54_goes_on` (pcq), `Negotiator.C54_violated` (p), `Negotiator.C54_overflow` (-), `Negotiator.C54_small_limit` (-) | Number of rounds and termination proved in all cases; the range for limits below 2^30 and a peer that follows the protocol. Code violates the range otherwise. |
| C55 | Negotiation always ends | partial | `Negotiator.C55_violated` (pcq), `Negotiator.C55_silent` (pcq), `Negotiator.C55_silent_other` (pcq), `Negotiator.C55_ready_partial` (pcq), `Negotiator.C55_stays_partial` (pcq), `Negotiator.C55_told_partial` (pcq), `Negotiator.C55_reaches_limit` (pq) | Code violates the property with default settings: a side whose search ends by MaxIterations sends no end message, so the other side waits until the total time-out. Proved: a side that is through and was told so by the other one succeeds. |
| C56 | Negotiation messages never block the reader | partial | `Negotiator.C56_violated_late` (pq), `Negotiator.C56_violated_disabled` (pq), `Negotiator.C56_violated_timeout` (pq), `Negotiator.C56_violated_early` (pcq), `Negotiator.C56_violated_crash` (p), `Negotiator.C56_causes_partial` (pcq), `Negotiator.C56_collecting_partial` (pcq) | Code violates the property in five ways, all between two sides that follow the protocol. Proved: there are no other places at which the reader can be blocked, and it never is while the probes of a round are collected. |
| C57 | The identity is stable across restarts | partial | `Identity.C57_sequential_partial` (pcq), `Identity.C57_stable_partial` (pcq), `Identity.C57_no_failure` (pcq), `Identity.C57_completes` (pq), `Identity.C57_violated` (pcq), `Identity.C57_violated_mixed` (pcq) | Proved for calls that do not overlap until the first one has succeeded, with failures and crashes everywhere. Code violates the property for two first calls at the same time: different keys, or even a mixed key nobody has generated, because the file is opened without O_EXCL and O_TRUNC. |
| C58 | A crash while creating the identity is survivable | partial | `Identity.C58_outcomes_partial` (pcq), `Identity.C58_violated` (pcq) | Code violates the property: after a crash between creating and filling the private key file every later call panics. Proved: the complete list of what can be left. |
| C59 | Keys of a wrong length are refused | proved | `Identity.C59_private` (p), `Identity.C59_public` (p), `Identity.C59_embedded` (pcq) |  |
| C60 | Default payload limits | proved | `Headers.C60_set_limit` (pq), `Headers.C60_defaults` (pq) |  |
| C61 | Nothing is written to the backend after Close | proved | `Send.C61_no_write` (pq), `DelayedSend.C61_check` (p), `DelayedSend.C61_nothing_after_close` (pq) |  |
| C62 | OnConnect is called at most once | proved | `Lifecycle.C62_once` (pcq), `Negotiator.C62_success_once` (pcq) | The session part assumes that the negotiator reports success at most once, which C62_success_once proves. |
| C63 | Lossless in-order transport gives exact delivery | partial | `EndToEnd.C63_delivery` (pcq), `EndToEnd.plan_message` (pq), `EndToEnd.C63_fragmented_partial` (pcq), `EndToEnd.C63_violated` (pq), `EndToEnd.C63_violated_concurrent` (pq) | Code violates the property for fragmented messages: with the default options the ninth of nine messages sent one after the other is delivered with the end of the first one appended, and of two messages written at the same time the older one never arrives. Proved: exact delivery for whole messages in any batching; fragmented messages under the restrictions of C22 and C23 (pieces of at least 64 bytes, no longer message before in the slot). |
| C64 | A one-time MAC key authenticates one string | partial | `Packet.C64_mac_key_preimage` (pcq), `Packet.C64_violated` (pq), `Packet.C64_violated_sides` (pq) | Code violates the second half: header and messages are authenticated with the same one-time key, and so are the packets of the two sides with the same packet ID. Proved: preimages of the MAC key differ between packets. |
| C65 | Unread messages do not block the session | partial | `ReadQueue.C65_not_blocked_partial` (pcq), `ReadQueue.C65_violated` (pcq) | Code violates the property: 1025 unread messages block the reader for ever. Proved: up to 1024 unread messages never block it. |
| C66 | Pausing and resuming never breaks the session | partial | `Lifecycle.C66_polite_partial` (pcq), `Lifecycle.C66_violated` (pq) | Code violates the property: with SetPause calls that do not wait for the reader a read deadline can stay in the past and is taken for a time-out, so the session closes itself. Proved for callers that wait for the reader (Polite). |
| C67 | CloseAndWait returns from a paused session | partial | `Lifecycle.C67_violated` (pcq), `Lifecycle.C68_closes_partial` (pcq) | Code violates the property: Close on a paused session whose reader waits never reaches Closed. Proved (C68_closes_partial) when the reader is not waiting yet. |
| C68 | Close always leads to Closed | partial | `Lifecycle.C68_closes_partial` (pcq), `Lifecycle.C68_violated` (pq), `Lifecycle.C68_violated_pause` (pq) | Code violates the property: the interrupt of Close is lost when the reader is between two reads. Proved for the remaining executions, see the hypotheses. |
| C69 | Registering a handler while messages arrive | partial | `Messenger.C69_outcome` (pcq), `Messenger.C69_destination` (pq), `Messenger.C69_arrival` (pq), `Messenger.C69_no_crash_partial` (pcq), `Messenger.C69_calm_partial` (pcq), `Messenger.C69_violated` (pq), `Messenger.C69_violated_messenger` (pq), `Messenger.C69_violated_map` (pq) | Code violates the property: a message that arrives before SetHandler was called, or while a map is written, crashes the program. Proved: each message has exactly one outcome; there are only three ways to crash; none with careful use (Calm). |
| C70 | API calls in any state do not crash | partial | `Lifecycle.C70_no_crash_partial` (pcq), `Lifecycle.C70_violated_new` (pq), `Lifecycle.C70_violated_start` (pq), `Messenger.C70_violated_handler` (pq) | Code violates the property before Start, while Start runs (also when the context of Start is cancelled meanwhile, see C160), and for SetHandlerFuncs on a finished session. Proved for a session whose key exchanger exists. |
| C71 | Message boundaries in a packet are respected | partial | `Receive.C71_violated` (pq), `Receive.C11_aggregate` (pcq) | Code violates the property for fragments that are whole messages. Proved for messages that are not fragments. |
| C72 | Close together with writing never crashes | partial | `DelayedSend.C72_only_two_partial` (pcq), `DelayedSend.C72_violated` (pq), `DelayedSend.C72_violated_channel` (pq), `DelayedSend.C72_violated_fragment` (pq) | Code violates the property in three ways. Proved: without fragmentation there are only two ways to crash. |
| C73 | A messenger is closed exactly once | partial | `Messenger.C73_once` (pcq), `Messenger.C73_owner` (pcq), `Messenger.C73_closed_partial` (pcq), `Messenger.C73_violated` (pq) | Code violates the property: a registration that overlaps the end of the session leaves a messenger open for ever. Proved when no registration is in progress as the session ends. |
| C74 | A session ID survives its byte form | proved | `SessionID.C74_roundtrip` (pcq), `SessionID.C74_short` (p) |  |
| C75 | A successful negotiation leaves a usable payload size | partial | `Negotiator.C75_floor_partial` (pcq), `Negotiator.C75_violated` (p), `Negotiator.C75_narrow` (pq) | Code violates the property for limits from 147 to 150: nothing is probed and the negotiation succeeds with size 0. Proved: 0 is the only value below 147, between sides that follow the protocol. |
| C76 | A negative ReadTimeout switches the time-out off | partial | `Negotiator.C76_later_partial` (pcq), `Negotiator.C76_always` (pq), `Negotiator.C76_violated` (p) | Code violates the property in the first round. Proved for the later rounds and for positive time-outs. |
| C77 | Closing a session during the negotiation completes | partial | `Negotiator.C77_closes_partial` (pcq), `Negotiator.C77_violated` (pq) | Code violates the property: the finalizer leaves first, the ping sender then waits for it for ever. Proved for a negotiator that has succeeded or was not enabled. |
| C78 | TotalTimeout falls back to the best size found so far | partial | `Negotiator.C78_violated` (pq), `Negotiator.C78_best_partial` (pcq) | Code violates the property: after the time-out no result is used or reported. Proved: whatever is used is the minimum of what both sides have found. |
| C79 | Negotiation finds more than half of what the path carries | partial | `Negotiator.C79_half_partial` (pq), `Negotiator.C79_grows` (pq), `Negotiator.C79_ends_low` (pq), `Negotiator.C79_violated` (pq) | Code violates the property for every path that carries less than about a third of the limit. Proved, round by round, for the other paths. |
| C80 | A malformed key file is reported as an error | partial | `Identity.C80_block_partial` (p), `Identity.C80_violated` (p) | Code violates the property: a file without PEM block crashes the program (nil block dereferenced). Proved for files with a block. |
| C81 | The public key file belongs to the identity | partial | `Identity.C81_matches_partial` (pcq), `Identity.C81_violated` (pcq) | Code violates the property: a partly written public key file is never repaired. Proved for calls one after the other without failures. |
| C82 | MutualConfirmationOfIdentity confirms who is on the other side now | partial | `Mutual.C82_sent` (pcq), `Mutual.C82_once` (pq), `Mutual.C82_final` (pq), `Mutual.C82_signed_partial` (pcq), `Mutual.C82_psk_partial` (pcq), `Mutual.C82_by_psk_partial` (pcq), `Mutual.C82_violated` (pcq), `Mutual.C82_violated_witness` (pcq) | Code violates the property without a PSK: one unencrypted packet with a recorded answer of the remote side and an empty message makes the call succeed. Proved: a signed answer and an empty message were received, the first key belongs to a signed public key; with a PSK these came in packets sealed with the PSK or with an exchanged key. |
| C83 | Both sides of MutualConfirmationOfIdentity get the same first key | partial | `Mutual.C83_agree_partial` (pcq), `Mutual.C83_violated` (pq) | Proved for calls in which each side makes one local key and messages are authentic. Code violates the property otherwise: an answering goroutine makes a second key after the exchange, and both calls succeed with different first keys. |
| C84 | MutualConfirmationOfIdentity leaves the backend to its user | partial | `Mutual.C84_reported` (pq), `Mutual.C84_bound_partial` (pcq), `Mutual.C84_violated` (pq), `Mutual.C84_violated_witness` (pq) | Code violates the property: the reader goes on reading until the session is closed, and drops a packet it cannot decrypt without a report. Proved: at most two such packets in a row are read. |
| C85 | A message is delivered at most as often as it was sent | partial | `Traffic.C85_short` (pq), `Traffic.C85_once_partial` (pcq), `Traffic.C85_violated` (pcq), `Traffic.C85_violated_witness` (pq) | Code violates the property with the default window and every window above 64: every received packet takes a packet ID of the receiver, so 64 received packets between two sends (for example copies of one old packet) make the next ID jump by more than 64; the jump empties the table of received IDs, and older packets are accepted again. Proved for windows of up to 64 and for traffic without such jumps. |
| C86 | Reordering within PacketIDStorageSize packets loses nothing | partial | `Traffic.C86_window_partial` (pcq), `Traffic.C86_violated` (pcq), `Traffic.C86_violated_witness` (pq) | Code violates the property: the window counts packet IDs, and received packets take IDs too; a packet overtaken by a single one is dropped if the sender received as many packets in between as the window is wide. Proved for packets whose IDs lag by less than the window. |
| C87 | Nothing is lost on an ordered lossless backend | partial | `Traffic.C87_serial_partial` (pcq), `Traffic.C87_violated` (pcq), `Traffic.C87_violated_witness` (pq) | Code violates the property: the packet ID is taken before and not under the same lock as backend.Write, so concurrent writers write out of order, and a packet can be too old on arrival; with PacketIDStorageSize = 1 two writers are enough. Proved for sends that do not overlap, with any failures and received packets in between. |
| C88 | Recycled buffers change nothing on the wire or in what is received | proved | `Mem.C88_send` (pcq), `Mem.C88_message` (pq), `Mem.C88_fragment` (pq), `Mem.C88_receive` (pcq), `Mem.C88_roundtrip` (pcq) | For packets below 4 GiB. That there are no keys before the session ID of the peer is known is proved in Lemmas/MutualKeys.lean. |
| C89 | WriteMessageAsync never panics and appends exactly the message | partial | `Mem.C89_contents` (pq), `Mem.C89_partial` (pq), `Mem.C89_iff` (pcq), `Mem.C89_violated` (pcq) | Code violates the property: the established payload size is taken from the peer without comparing it with the own limit, and the message is appended behind the capacity of the pooled buffer, so that Write panics. Proved while the established size is not more than 44 above the limit, with the exact condition. |
| C90 | Messages survive a stream backend | partial | `ByteStream.C90_exact` (pcq), `ByteStream.C90_packets_partial` (pcq), `ByteStream.C90_violated` (pcq), `ByteStream.C90_violated_witness` (pq) | Code violates the property: the result of one Read is taken for one packet, although the header has the length; two packets read at once, or a packet read in two parts, are lost, and with the default options the session ends. Proved: exactly the packets that were read alone and whole arrive. |
| C91 | What Write accepts fits in the buffer of the receiver | partial | `ByteStream.C91_partial` (pq), `ByteStream.C91_violated` (pcq), `ByteStream.C91_violated_witness` (pq) | Code violates the property when the limits differ and there is no negotiation. Proved when the established size of the sender is not above the limit of the receiver. |
| C92 | Locks of sessions never wait in a circle | partial | `Sync.C92_partial` (pq), `Sync.C92_progress_partial` (pq), `Sync.C92_violated` (pq), `Sync.C92_exact` (pq) | Code violates the property: setMessenger calls Close of the old handler, and EventHandler.Error, with sess.locker held; there GetRemoteIdentity, NewMessenger, SetHandlerFuncs, SetPause and Start wait for ever. Proved when these callbacks keep off those methods; handlers and OnConnect may call all. |
| C93 | No data races on the fields of a session | partial | `Sync.C93_partial` (pcq), `Sync.C93_violated` (pq), `Sync.C93_exact` (pcq) | Code violates the property for nine fields: sess.messenger, sess.readChan, sess.currentSecrets, kx.nextLocalPublicKey, kx.localKeyCreatedAt (written under a read lock), kx.skipKeyUpdateUntil, n.localLargestRTT, n.remoteLargestRTT, n.recvChan. Proved for the other nine, with any callbacks. |
| C94 | A handler can use its session | partial | `Sync.C94_partial` (pq), `Sync.C94_waits_for_itself` (pcq), `Sync.C94_closure_waits` (pcq), `Sync.C94_sending_waits` (pcq), `Sync.C94_violated` (pcq), `Sync.C94_violated_write` (pcq), `Sync.C94_outside` (pq) | Code violates the property: handlers run in the goroutine that reads. WaitForClosure, CloseAndWait, SetPause(true) and Read on an empty queue wait for that goroutine and never return; a handler that sends before the last message of the negotiation has been received waits until the session is closed. All of this is proved for all programs and executions. Proved for the methods that do not wait for the reader, in sessions that are established or closed; waiting for the goroutines of the negotiation is left open. |
| C95 | Two sessions that answer each other do not block each other | partial | `Sync.C95_partial` (pcq), `Sync.C95_both_full` (pcq), `Sync.C95_violated` (pcq) | Code violates the property for every buffer size: both readers wait in backend.Write while nobody reads. Proved when everything that is ever written fits into the buffer. Closing the backend, which makes its Write return, is not modelled. |
| C96 | The first key exchange does not wait for KeyUpdateInterval | partial | `Handshake.C96_partial` (pcq), `Handshake.C96_violated` (p) | Code violates the property in the default mode: when the answer to the first message of the other side is sent before the own loop has started, it sets skipKeyUpdateUntil, the loop skips its first update, and nothing is sent until the ticker of KeyUpdateInterval; the session stays in KeyExchanging for a minute although nothing is lost. Proved for sides that do not skip, and for the other modes. |
| C97 | Retries make good for lost key-exchange messages | partial | `Handshake.C97_partial` (pcq), `Handshake.C97_violated` (pq) | Code violates the property in the mode "disable": a side that has finished neither sends nor answers, so one lost message cannot be made good before KeyUpdateInterval. Proved for the modes with answers, for sides whose loop has not skipped its update (C96). |
| C98 | Options mean what their documentation says | partial | `Options.C98_partial` (pcq), `Options.C98_violated` (p), `Options.C98_nil` (-) | Code violates the property for DetachOnSequentialDecryptFailsCount = 0, documented as "never": the first undecryptable packet stops the session. Proved for all other documented values (ReadTimeout below 0: C76). |
| C99 | No option value crashes the program | partial | `Options.C99_partial` (pcq), `Options.C99_new` (pcq), `Options.C99_start` (pcq), `Options.C99_violated` (pcq), `Retry.C99_update_partial` (pq), `Retry.C99_violated_retry` (pq), `Retry.C99_violated_interval` (pq), `Retry.C99_negative_timeout` (pcq) | Code violates the property: a negative KeyUpdateInterval or RetryInterval makes time.NewTicker panic in a goroutine, and large MaxChainIDDiff or PacketIDStorageSize make NewSession panic. Proved for the rest, with exact conditions; the panics that are modelled are those of make and time.NewTicker (out of memory is not). Retry has the first key update step by step; there a negative Timeout does not crash but gives up at once. |
| C100 | The packet size limit has room for the payload limit | partial | `Options.C100_partial` (pq), `Options.C100_violated` (pq) | Code violates the property for the 53 largest values: the sum wraps and the buffer is shorter than the headers. Proved, as an equivalence, for all others. |
| C101 | A session does not change with the variables its options came from | partial | `Options.C101_partial` (pq), `Options.C101_exact` (pq), `Options.C101_violated` (pq) | Code violates the property: only the structure is copied. The keys of the exchange are made with what is in the PSK slice at that time (after wiping it: zeros), SendDelay and ErrorOnSequentialDecryptFailsCount are read from the variables of the caller. Proved while these do not change. |
| C102 | A failed backend ends the session | partial | `Reader.C102_partial` (pq), `Reader.C102_exact` (pq), `Reader.C102_any_error` (pq), `Reader.C102_closed` (p), `Reader.C102_violated` (pq) | Code violates the property with a handler that returns true: the reader reads the failed backend again and again without a pause. Proved for handlers that return false, with the exact number of reports. |
| C103 | Nothing that Read returns is dropped | partial | `Reader.C103_partial` (pq), `Reader.C103_until_end` (pq), `Reader.C103_violated` (q) | Code violates the property: data that is returned together with an error is dropped. Proved for data without an error. |
| C104 | A pause is not an error | partial | `Reader.C104_partial` (p), `Reader.C104_no_deadlines` (p), `Reader.C104_violated` (p) | Code violates the property on backends whose time-out error does not have the text "i/o timeout". Proved for the others. |
| C105 | A key update ends with a new key, or with a report | proved | `Handshake.C105_renewed` (pcq) | Both sides with the same answers mode; sending does not fail. |
| C106 | A completed key exchange does not time out | partial | `Handshake.C106_partial` (pcq), `Handshake.C106_violated` (pcq), `Handshake.C106_clock` (pcq), `KeyTimer.C106_timed_partial` (pcq), `KeyTimer.C106_timed_violated` (p), `KeyTimer.C106_timed_clock` (p) | Code violates the property: a notification about an older key that gets into the channel between makeSuccessNotifyChanEmpty and updateLocalKey makes sendSuccessNotifications drop the right one, or is the only one there is; in the mode "disable" the session then times out although both sides have all keys. The same happens when the clock is set back while a goroutine that answers makes a key. Proved for updates without these two cases, and also with time (KeyTimer). |
| C107 | The key exchange is reported as done only when there is a key | partial | `Handshake.C107_partial` (pcq), `Handshake.C107_violated` (p) | Code violates the property in the modes "answer" and "disable": the message of the other side counts as success even if this side has no key. Proved for the default mode. |
| C108 | A session that has ended leaves the backend usable | partial | `Lifecycle.C108_partial` (pcq), `Lifecycle.C108_open` (pcq), `Lifecycle.C108_detach` (pcq), `Lifecycle.C108_violated` (pcq), `Lifecycle.C108_without_deadlines` (pq) | Code violates the property: if a packet ends Read while Close interrupts it, the interrupt sets the deadline after the reader has finished, and nobody resets it. Proved: the backend is never closed; a session that ends by itself (DetachOn...) never touches the backend; otherwise for interrupts that come before the reader has answered them. |
| C109 | A paused session leaves the backend usable | partial | `Lifecycle.C109_partial` (pcq), `Lifecycle.C109_violated` (pq) | Code violates the property: the reader lets SetPause return before it resets the deadline. Proved for polite callers (C66): the reader does not read, and its next step, which cannot block, makes the backend usable. |
| C110 | Counts are those of io.Reader and io.Writer | partial | `StdIO.C110_partial` (pq), `StdIO.C110_refines` (pcq), `StdIO.C110_violated` (p), `StdIO.C110_violated_single` (pq), `StdIO.C110_single_failed` (pq) | Code violates the property: every failed Read returns -1, and a successful WriteMessageSingle (also Messenger.WriteSingle) returns the size of the packet, 53 bytes more than the payload. Proved for successful Reads, Write and WriteMessage, and for failing WriteMessageSingle. The theorem C110_refines ties the sequential Read of this model to the one with goroutines (ReadQueue). |
| C111 | io.ReadAll gets all that was sent | partial | `StdIO.C111_partial` (pcq), `StdIO.C111_exact` (pcq), `StdIO.C111_violated` (pcq) | Code violates the property for every series of messages: the count -1 at the end takes away the last byte (or makes the slice expression panic if there is none), the error is not io.EOF, and a message that is longer than the room in the slice is dropped. Proved exactly what io.ReadAll returns; for up to 512 bytes it is all but the last byte. |
| C112 | io.Copy copies all that was sent | partial | `StdIO.C112_partial` (pq), `StdIO.C112_exact` (pq), `StdIO.C112_violated` (pq) | Code violates the property: the end of a session is never io.EOF, so that io.Copy always fails, and a message of more than 32768 bytes ends it early. Proved: messages up to this length all get to the target. |
| C113 | A session may be read through bytes.Buffer and bufio.Reader | partial | `StdIO.C113_partial` (pq), `StdIO.C113_violated` (pq), `StdIO.C113_violated_bufio` (pq) | Code violates the property: the count -1 makes (*bytes.Buffer).ReadFrom panic at the end of every session, and bufio.Reader too, also on a message that is longer than its buffer. Proved: the bytes that bufio.Reader returns before are a begin of the stream. |
| C114 | io.ReadFull reads the bytes asked for | partial | `StdIO.C114_partial` (pq), `StdIO.C114_violated` (pq) | Code violates the property whenever the buffer ends inside of a message: io.ReadFull fails, reports one byte less than it has read (-1 if none), and the message is lost. Proved for buffers that end where a message ends. |
| C115 | An echo is not a peer | partial | `Mutual.C115_partial` (pcq), `Mutual.C115_violated` (pq), `Mutual.C115_violated_own` (pq) | Code violates the property for an unknown remote identity, with a PSK too, and if both sides share an identity: the key exchanger never compares the received session ID, identity or ECDH key with its own, so that a session talks to itself. Proved for a known remote identity under which nothing is valid that the own identity signs. |
| C116 | Own messages are not received | partial | `EndToEnd.C116_partial` (pcq), `EndToEnd.C116_violated` (pq), `EndToEnd.C116_violated_same_id` (pcq) | Code violates the property: nothing in a packet that is not confidential tells the direction, and all fragments are such packets; a fragmented message that is sent back is delivered to its sender. Confidential packets are accepted if the remote session ID is the own one (C115). Proved otherwise: acceptance means tags that are valid under another nonce than the one used. |
| C117 | Write does not keep the slice | partial | `WriteBuf.C117_partial` (pq), `WriteBuf.C117_small` (pq), `WriteBuf.C117_violated` (p) | Code violates the property for fragmented messages: Write returns when the context ends, while goroutines of fragments have not copied the slice yet; they only look at the state of the session, so they send what the caller has put there since. Proved for messages that are not fragmented, and as long as the context has not ended. |
| C118 | EnableInfo and EnableDebug decide what the output channels carry | partial | `Output.C118_debug` (pq), `Output.C118_partial` (pq), `Output.C118_rest` (pq), `Output.C118_ignored` (p), `Output.C118_violated` (pq) | Code violates the property: ifInfo looks at EnableDebug instead of EnableInfo, which is used nowhere. EnableInfo alone gives nothing, EnableDebug alone gives INFO messages. Proved for the DEBUG channel, and for the INFO channel if both options are the same. |
| C119 | The output channels do not disturb the session | proved | `Output.C119_total` (pq), `Output.C119_no_panic` (pq), `Output.C119_order` (pq), `Output.C119_end` (pq), `Output.C119_told` (pq) | For all interleavings of any number of logging goroutines, the end of the reader, and the user. Copying the arguments (package deepcopy) is not modelled. |
| C120 | OnConnect means that the session is established | partial | `Lifecycle.C120_partial` (pcq), `Lifecycle.C120_told` (pcq), `Lifecycle.C120_violated` (pq) | Code violates the property: onConnect does not look at the result of setState, so that OnConnect is also called for a session that was closed before and is never established. Proved for sessions that are not closed, and that no session gets Established without OnConnect. |
| C121 | SendNowAndWait returns | partial | `DelayedSend.C121_partial` (pcq), `SendNow.C121_exit` (p), `SendNow.C121_wait` (p), `SendNow.C121_not_before` (p), `SendNow.C121_violated` (pq), `SendNow.C121_violated_example` (p), `SendNow.C121_violated_unconnected` (p), `DelayedSend.C121_violated_crash` (pq) | Code violates the property: SendNowAndWait sends to a channel without looking at the context. With SendDelay switched off nobody ever receives from it, and the call hangs for ever although the message is already sent; the same in a session that ends before it is established. For a fragmented message that is not sent yet the sender loop panics in its deferred Release. Proved for a connected session with the delay, without fragmentation, before Close: when the loop is waiting, at most seven of its own steps lead to the end of the wait, whatever other goroutines do in between, and none of them crashes. |
| C122 | Writing alone never crashes | partial | `DelayedSend.C122_partial` (pcq), `DelayedSend.C122_pool_partial` (pcq), `DelayedSend.C122_violated` (pq), `DelayedSend.C122_violated_later` (pq) | Code violates the property: waitForSend counts a reference to a SendInfo that may already be back in the pool. When two writers wait for the same one, the panic of the first is recovered but its count stays, so the second does not notice and hands the SendInfo to the sender loop; the loop takes the very same object from the pool as the next current one and panics in its deferred Release. Proved for one writer at a time, without fragmentation, before Close: nothing crashes except SendNow after the sender loop has ended. |
| C123 | Errors tell the truth about sizes | partial | `Errors.C123_headers` (pq), `Errors.C123_decrypt` (pq), `Errors.C123_receive` (pq), `Errors.C123_key_exchange` (p), `Errors.C123_negotiation_partial` (p), `Errors.C123_keys` (pq), `Errors.C123_write` (pq), `Errors.C123_packet_partial` (pq), `Errors.C123_delayed_partial` (pq), `Errors.C123_delayed_true` (-), `Errors.C123_read` (pcq), `Errors.C123_violated` (pq), `Errors.C123_violated_single` (pq) | Code violates the property: parseMessage of the negotiator always reports the size of a control message, so that a pong of 6 to 68 bytes is refused with an ErrTooShort which says that 6 bytes are expected. WriteMessageSingle refuses a big payload with an ErrPayloadTooBig whose sizes are those of packets: writing a payload of MaxSize bytes fails again. Proved for every other place that creates one of these errors. |
| C124 | Names identify what they name | partial | `Names.C124_channel_partial` (pq), `Names.C124_distinct_partial` (pcq), `Names.C124_kinds_partial` (pcq), `Names.C124_states` (-), `Names.C124_packet_ids` (pcq), `Names.C124_secrets` (pcq), `Names.C124_violated` (pcq), `Names.C124_violated_distinct` (pq) | Code violates the property: MessageType.String subtracts MessageTypeReadWrite instead of MessageTypeChannel(0) and cuts the result to a byte, so that channel 0 is called channel5, no channel has its own number, and channels 0 and 256 have the same name; the type of the negotiation is unknown, like the reserved ones. Proved: the exact names, that names of channels are equal exactly modulo 256, that no channel is called like another kind of message, and the property for states, packet IDs and keys. |
| C125 | WaitForClosure waits until everything has finished | partial | `Closure.C125_finished_partial` (pq), `Closure.C125_after_partial` (pq), `Closure.C125_silent_partial` (pq), `Closure.C125_violated` (pq), `Closure.C125_violated_error` (pq), `Closure.C125_violated_early` (pq) | Code violates the property: the goroutine of OnConnect, those of the negotiation and those that answer key-exchange messages are not counted in stopWaitGroup, so that OnConnect and Error can be called after WaitForClosure has returned; before Start the counter is 0 and WaitForClosure returns at once. Proved: after Start the session is Closed, all counted goroutines have ended, the backend is never read and no handler is ever called again; and nothing at all happens if the goroutines that are not counted have ended. |
| C126 | A message is delayed by SendDelay at most | partial | `SendTimer.C126_count_partial` (pq), `SendTimer.C126_quiet_partial` (pq), `SendTimer.C126_size_partial` (pq), `SendTimer.C126_clock` (pq), `SendTimer.C126_violated` (pq), `SendTimer.C126_violated_defaults` (pq) | Code violates the property: every appended message restarts the timer, so that messages that come just before the timer expires delay the first one until the buffer is full: k messages by nearly k times SendDelay, with the defaults more than 7000 times. Proved: n messages in a packet wait for n times SendDelay at most (so a message alone in its packet for SendDelay), a packet leaves within SendDelay after its last message, the number of messages is bounded by the packet size, and no expiry of the timer is ever lost. |
| C127 | Replaced keys are forgotten | partial | `KX.C127_origin_partial` (pq), `KX.C127_serial_partial` (pcq), `KX.C127_violated` (pq), `KX.C127_violated_replay` (pq), `KX.C127_violated_race` (pq) | Code violates the property: any message the peer has ever signed is accepted as current, so who has an old private key of the peer plays back the message with its public key, and can compute the key the session sends with from then on. For the local keys, if two messages come before the first key is made, the loop and two answering goroutines each make a key, and the secrets of the first can be passed on last. Proved: if updates do not overlap, each key in use comes from the last two local keys and the last two remote keys accepted (equal keys in succession count once); in every run it comes from keys that were recent in this sense at some time. |
| C128 | Close sends what was accepted before | partial | `DelayedSend.C128_one_partial` (pcq), `DelayedSend.C128_told_partial` (pcq), `DelayedSend.C128_violated` (pq), `DelayedSend.C128_violated_all` (pq) | Code violates the property: Close sets the state Closing first and then flushes, and a flush in that state fails by itself (isDone), so the loop in startClosing throws away everything that waits; this happens in every state in which Close can be called. Proved: after Close at most one packet is written, the one the sender loop had already checked; when the loop of Close is over every earlier message has its final result, which says whether it was sent, except those in the packet the sender loop is just handling. |
| C129 | Messages of the protocol do not multiply | proved | `KX.C129_answers` (pcq), `KX.C129_bytes` (pcq), `Handshake.C129_rest` (pq), `Handshake.C129_rest_from` (pq), `Negotiator.C129_negotiation` (pq) | For all runs, stated with what goes in and what comes out. The number of goroutines that are about to answer is the number of requests not yet answered; it has no other bound. |
| C130 | A write ends when the session has ended | partial | `DelayedSend.C130_partial` (pcq), `DelayedSend.C130_violated` (pq), `DelayedSend.C130_violated_all` (pq), `DelayedSend.C130_violated_busy` (pq) | Code violates the property: waitForSend notices that the sender loop has ended, but assigns the SendInfo with the error to its own parameter, so writeMessageAsync tries again for ever. With two calls waiting for room when Close comes, the first fills the buffer that nobody empties any more, and the second runs in a busy loop, allocating a SendInfo in each round. Proved: a call that finds the buffer empty or with room for its message returns within four steps of its own. |
| C131 | A message that is dropped is reported | partial | `Receive.C131_partial` (pcq), `Receive.C131_violated_type` (pcq), `Receive.C131_violated_size` (pcq) | Code violates the property: a message of a type without handler and queue is dropped silently; the fragments of a message bigger than MaxFragmentedMessageSize of the receiver (64 kB by default, not checked by the sender) are dropped in every order with an entry in the optional info log only, and so are those of a message overtaken by a newer one (C24). Proved: of a packet without fragments every message whose type has a handler or a queue is handed over, and an incomplete rest is reported exactly once. |
| C132 | Read returns when the session has ended | partial | `ReadChan.C132_partial` (p), `ReadChan.C132_violated` (pq), `ReadChan.C132_violated_example` (p), `ReadChan.C132_violated_late` (pq) | Code violates the property: setMessenger puts a new channel into the map, and nobody writes to or closes the old one, so that a Read waiting for it never returns in any run; the same for every Read after a registration that is completed after the end of the reader loop. Proved: otherwise every Read can return when the session has ended. |
| C133 | Registering a messenger loses no message | partial | `ReadChan.C133_once_partial` (pcq), `ReadChan.C133_order_partial` (pcq), `ReadChan.C133_violated` (pq), `ReadChan.C133_violated_example` (p) | Code violates the property: messages waiting in the old channel when a messenger is registered for MessageTypeReadWrite are never delivered in any run. Proved: every message is in exactly one place in all runs, and without a registration Read returns all of them in order. |
| C134 | The functions given to SetHandlerFuncs are called | partial | `Handlers.C134_partial` (pq), `Handlers.C134_violated` (pq), `Handlers.C134_violated_example` (p) | Code violates the property: onError is never called; HandleError, which would, is in no interface and nothing calls it. Proved: each message causes exactly one call of handle of the last registration of its type, in order, and its errors go to Error of the session. |
| C135 | Two sides with a common key agree on who they are | partial | `KX.C135_partial` (pcq), `KX.C135_violated` (pcq), `KX.C135_violated_run` (pq) | Code violates the property: the key depends on the ECDH keys and the PSK only, and the signed message names its sender but not its receiver. A third one who is a peer of Bob (or comes first, if Bob has no remote identity configured) signs the ECDH public key of Alice; then Alice and Bob have a common key, Alice rightly believes to talk to Bob, and Bob takes what Alice sends for messages of the third one. The third one does not learn the key; with a PSK it has to have the PSK. Proved: if the believed identities sign only their own ECDH keys and shared keys do not collide, the sides agree. |
| C136 | Packets of an outsider do not keep out those of the peer | partial | `EndToEnd.C136_partial` (pcq), `EndToEnd.C136_violated` (pcq), `EndToEnd.C136_violated_example` (pq) | Code violates the property: the storage of packet IDs is one for all keys. Without a PSK anybody can make a packet with the ID 2^64-1; it is accepted, and from then on every packet of the peer is dropped as too old, without a report. With a PSK the same is done by a packet recorded in an earlier session with this PSK, up to its ID. Proved: with a PSK only packets with right checksums under an exchanged key or the key made of the PSK have an effect on later ones. |
| C137 | A peer that begins a new session is not ignored | partial | `EndToEnd.C137_partial` (pcq), `EndToEnd.C137_violated` (pcq), `EndToEnd.C137_violated_example` (pq) | Code violates the property: packet IDs begin with 1 in each session, and the old session drops them as too old until they get beyond the ID it has seen last minus PacketIDStorageSize, without a report. Proved: packets with higher IDs are processed, and packets that cannot be decrypted are reported as the option says. |
| C138 | A key update is over only when the peer has the new key | partial | `KX.C138_partial` (pcq), `KX.C138_violated` (pq), `KX.C138_violated_run` (pq) | Code violates the property: an answer does not tell which key it answers, and sendSuccessNotifications takes it for the key made last. If a request was sent twice and the second answer comes after the next key was made, the update of this key is over at once; if its request is lost, the exchanger sends with a key that the peer cannot have, until the next interval. Proved in general: any answer the peer has ever signed ends the update in progress; a run of two sides over a network that only loses and delays messages; and that in the default mode an update in progress ends only with an answer signed by the remote identity. |
| C139 | The exchanged key is known to the two sides only | proved | `KX.C139_origin` (pcq), `KX.C139_secret` (pcq), `KX.C139_first_comer` (pq) | Assumes what the cryptography is for: who does not have an identity key cannot make its signatures during the run (Deliverable), and a shared key cannot be computed without one of the private ECDH keys (hypothesis of C139_secret). Identities are assumed to sign nothing but key-exchange messages; Identity.Sign is exported. A session without a configured remote identity takes the one that comes first, which may be that of the attacker (C139_first_comer). |
| C140 | The key files of the quick start can be used | partial | `Identity.C140_partial` (p), `Identity.C140_violated_private` (pq), `Identity.C140_violated_public` (pq) | Code violates the property: the private key file of ssh-keygen has a PEM block with more than 64 bytes (format openssh-key-v1), which NewIdentity refuses in every run; the public key file has no PEM block, on which NewRemoteIdentity panics. Proved for files that the package has written itself. The PEM decoder is a parameter; of it is used that a block begins at the beginning of a line with -----BEGIN. |
| C141 | With fragmentation no message is refused for its size | partial | `SizeChange.C141_partial` (pcq), `SizeChange.C141_accepted` (pq), `SizeChange.C141_carried` (pcq), `SizeChange.C141_reason` (pcq), `SizeChange.C141_violated` (pq) | Code violates the property: the size is compared when the call begins, before the wait for Established. A message that fits the limit then, but not the size that the negotiation finds, is not fragmented any more and is refused. Proved for all calls that begin when the session is Established; C141_reason shows that there is no other reason. Sizes below 25 (C20_hangs) and payloads within 53 bytes of 4 GiB are excluded. |
| C142 | A write to a closed session fails with ErrAlreadyClosed | partial | `ClosedWrite.C142_partial` (pq), `ClosedWrite.C142_fails_partial` (pcq), `ClosedWrite.C142_violated_success` (pq), `ClosedWrite.C142_violated_fragments` (pq), `ClosedWrite.C142_violated_size` (pq), `ClosedWrite.C142_violated_keys` (pq) | Code violates the property: after Close of a session that was Established both cases of the selects on the context and on isEstablished are ready. With a SendDelay every message that fits may be put into a buffer that nobody sends, and Write succeeds; so may the write of a fragmented message, since Wait returns at once. A message that fits may also be refused as too big for a packet size of 53, and without keys the error is ErrCanceled. Proved for sessions that were never Established, and, without SendDelay and fragmentation, that there is an error. |
| C143 | WriteMessageAsync does not wait | partial | `SizeChange.C143_partial` (pq), `SizeChange.C143_violated` (pq), `SizeChange.C143_violated_full` (pq) | Code violates the property: before the session is established the call waits for that (GetEstablishedPayloadSize), so for ever without the other side; in an established session it waits when the message does not fit beside those in the buffer. Proved for the other calls: they return after two steps. |
| C144 | The channel of Done is closed in the end | partial | `DelayedSend.C144_where_partial` (pcq), `DelayedSend.C144_sent_partial` (pcq), `DelayedSend.C144_closer_partial` (pcq), `DelayedSend.C144_buffer_partial` (pcq), `DelayedSend.C144_violated` (pcq), `DelayedSend.C144_violated_all` (pcq) | Code violates the property: a message that comes into the buffer after the last flush of Close, or when the context has ended, never gets a result, so that the example of README.md waits for ever (Wait also looks at the context, Done does not). Proved: a message without a result is in the buffer or in a packet that is being sent; such a packet gets its result by three steps of the thread that sends it, and the buffer by five of the sender loop while that waits for its timer. Without EnableFragmentation. |
| C145 | SendID is unique | partial | `DelayedSend.C145_partial` (pcq), `DelayedSend.C145_packets_partial` (pcq), `DelayedSend.C145_later` (pq), `DelayedSend.C145_bound` (pq), `DelayedSend.C145_violated` (pq) | Code violates the property: messages merged into one packet share one SendInfo and its SendID. Proved for different SendInfo objects, so for messages of different packets, and that a number is not given again (before the 64-bit counter wraps). |
| C146 | The time a packet takes says nothing about its checksums | partial | `Timing.C146_partial` (pq), `Timing.C146_violated` (pq), `Timing.C146_forgery` (pcq), `Timing.C146_chosen` (pcq) | Code violates the property: checksums are compared with bytes.Compare, which stops at the first word that differs. Who holds back one packet that the receiver would accept and measures the time finds a valid checksum for messages of their choice with n * 256^w packets (16 bytes as n words of w bytes: 4096 packets with w = 1, 2^65 with w = 8 as in the assembler version for amd64) instead of 256^16. Proved: a packet whose header checksum is wrong in its first word under all keys takes a time that depends on its length and the number of keys only. Times are sums of costs of the operations; noise is not modelled. |
| C147 | What Sign has signed is accepted by VerifySignature | partial | `Signature.C147_partial` (pcq), `Signature.C147_rest` (pq), `Signature.C147_violated` (pq), `Signature.C147_violated_panic` (p), `Signature.C147_violated_empty` (p) | Code violates the property: Sign copies the 64 bytes into whatever slice it gets; with any other length of the slice it reports nothing, and the signature is refused. With a remote identity, which has no private key, it panics. Proved for slices of 64 bytes and identities with a private key. |
| C148 | SendInfo.N is the number of bytes written to send the message | partial | `SendCount.C148_partial` (pq), `SendCount.C148_all` (pq), `SendCount.C148_violated` (pq), `SendCount.C148_violated_error` (pq) | Code violates the property: for a fragmented message N is always -1, and for merged messages it is -1 when there was an error, whatever the backend has taken. Proved for messages that are not fragmented and were sent without an error or not merged. |
| C149 | Messages of one goroutine are sent in the order of its calls | partial | `Order.C149_partial` (pcq), `Order.C149_sync` (p), `Order.C149_buffered` (p), `Order.C149_violated` (pcq) | Code violates the property: WriteMessageSingle and the fragments of a big message do not wait for the messages in the buffer, and nothing waits for the fragments of a message written by WriteMessageAsync. Proved exactly which programs are safe: a call that does not wait has to be followed by calls through the buffer only, up to one that waits. In particular programs of waiting calls only, and those where nothing is fragmented and WriteMessageSingle is not used. |
| C150 | Messages written before the session is Established are sent when it is | partial | `SizeChange.C150_wait` (pq), `SizeChange.C150_waiting` (pq), `SizeChange.C150_partial` (pcq), `SizeChange.C150_small_partial` (pq), `SizeChange.C150_violated` (pq) | Code violates the property: the size of a message is compared with PayloadSizeLimit before the call waits; if the negotiation finds a smaller size, a message between the two is refused, with fragmentation too. Proved: nothing is sent before Established, with fragmentation no call fails before, and afterwards every other call ends with its message sent, after three steps of the call and the sender loop at most. Sizes below 25 and payloads within 53 bytes of 4 GiB are excluded as in C141. |
| C151 | Packet IDs start with zero and increase by one | partial | `Traffic.C151_exact` (pq), `Traffic.C151_partial` (pq), `Traffic.C151_violated` (pq), `Traffic.C151_violated_steps` (pq), `Traffic.C151_violated_witness` (pq) | Code violates the property: the first ID is 1, no packet ever has the ID 0, and every received packet of 44 bytes or more and every failed write takes a number too. Proved: the exact numbers for calls that do not overlap; they are 1, 2, 3, … if nothing is received and nothing fails. |
| C152 | GetEstablishedPayloadSize returns the result of the negotiation | partial | `SizeGet.C152_partial` (pq), `SizeGet.C152_values` (pq), `SizeGet.C152_no_panic` (p), `SizeGet.C152_returns` (pq), `SizeGet.C152_waits` (pq), `SizeGet.C152_packet` (pq), `SizeGet.C152_violated` (p), `SizeGet.C152_violated_closed` (p), `SizeGet.C152_violated_new` (p) | Code violates the property: during Closing the size is returned as it is, which before the end of the negotiation is the configured limit; on a closed session both cases of the select can be ready and a call returns the size or zero (GetEstablishedPacketSize: 53); before Start the methods panic. Proved for all calls as long as the session is not closed; otherwise nothing but the result, the limit or zero is returned. |
| C153 | WriteMessageSingle sends a message by itself | proved | `EndToEnd.C153_alone` (pcq), `EndToEnd.C153_like` (pq), `EndToEnd.C153_sent` (pq) | Messages too big for a packet are refused (C19); payloads of 4 GiB and more are not covered (C19_violated). |
| C154 | Concurrent calls do not share buffers | partial | `Pool.C154_no_crash` (pcq), `Pool.C154_bytes` (pcq), `Pool.C154_received` (pcq), `Pool.C154_appended` (pcq), `Pool.C154_given` (pcq), `Pool.C154_delayed` (pcq), `Pool.C154_read` (pcq), `Pool.C154_exclusive` (pcq), `Pool.C154_returned_partial` (pcq), `Pool.C154_violated` (pq) | Code violates the last part of the property: the fragment header of each fragment (session.go:1528), the container header of a packet dropped for its ID (session.go:936-943) and the read item of a message which no channel takes (session.go:1066-1068) or whose reader has a too small buffer (session.go:2171-2173) never return to their pools. Everything else is proved without restriction, and the return of the objects for all other calls. |
| C155 | A pause can last as long as the user wants | partial | `KeyTimer.C155_short_partial` (pcq), `KeyTimer.C155_long` (pcq), `KeyTimer.C155_violated` (p) | Code violates the property: the key exchanger does not know of the pause. At the next tick of KeyUpdateInterval it begins an update, nobody reads the answer, and after Timeout it closes the session and reports a time-out. No pause longer than KeyUpdateInterval + Timeout leaves the session open (C155_long). Proved: a pause that begins when no update is under way does no harm until Timeout after the next tick. |
| C156 | A peer that is gone is noticed | proved | `KeyTimer.C156_noticed` (pcq), `KeyTimer.C156_reported` (pcq) | Time passes only when no goroutine of the exchanger has anything to do. In the default mode only answers complete an exchange, in the others every message; messages recorded before count as well (C39). |
| C157 | A key is not used for longer than KeyUpdateInterval | partial | `KeyTimer.C157_partial` (pcq), `KeyTimer.C157_later_partial` (pcq), `KeyTimer.C157_violated` (p) | Code violates the property for the key made at the start: the ticker is made when the first exchange is over, and the first tick does not replace a key that nothing has confirmed yet. Proved: at most KeyUpdateInterval + max(KeyUpdateInterval, Timeout) for this key, max(KeyUpdateInterval, Timeout) for all others, which is KeyUpdateInterval with the default options. |
| C158 | Close returns immediately | partial | `DelayedSend.C158_never_waits` (pcq), `DelayedSend.C158_bound_partial` (pcq), `DelayedSend.C158_alone_partial` (pcq), `DelayedSend.C158_violated` (pcq) | Code violates the property: the loop of startClosing goes on as long as it finds messages, and WriteMessageAsync accepts messages after the state is Closing, so writers can keep Close from returning for any number of rounds, and nothing they write is sent. Proved without fragmentation: Close never waits and never writes itself; it makes at most 7 steps, and 4 more for each message added after the call. |
| C159 | Closing a session is not an error | partial | `CloseReport.C159_read_partial` (pq), `CloseReport.C159_rest_partial` (pcq), `CloseReport.C159_violated` (pq), `CloseReport.C159_negotiation` (pq) | Code violates the property: a retry, an update or an answer of the key exchange that is under way finds that it cannot write any more and reports it, a key message or a ping in the last packet is reported as not handled, and a negotiation that is collecting answers always reports that it was cancelled. Proved: interrupted Reads are never reported, and a session at rest closes silently. |
| C160 | Cancelling the context of Start ends the session | partial | `Lifecycle.C160_noticed` (pcq), `Lifecycle.C160_ends_partial` (pcq), `Lifecycle.C160_start_partial` (p), `Lifecycle.C160_start_over` (pcq), `Lifecycle.C160_violated` (pcq), `Lifecycle.C160_start_violated` (pq), `Lifecycle.C160_start_never` (pcq) | Code violates the property: with a context that is cancelled before Start has made its messengers, NewMessenger returns nil and Start crashes the program; a paused session never ends, because SetPause(false) is refused once the session is Closing. Proved: the backend closer always notices, and the session ends if the reader is not at one of the unlucky places of C68. |
| C161 | An identity that a constructor returns can be used | partial | `Constructors.C161_identity_partial` (pcq), `Constructors.C161_others` (pcq), `Constructors.C161_unsaved` (pq), `Constructors.C161_violated` (p), `Constructors.C161_same_keys` (p), `Constructors.C161_same_remote` (pq), `Constructors.C161_same_calls` (pcq) | Code violates the property: NewIdentity returns an identity also with an error, and if the keys could not be generated or loaded it has none, so that using it crashes. Proved: without an error it can be used; with an error it can be used or has no keys at all; the other constructors return nil with an error. |
| C162 | Errors about keys can be recognised | partial | `Constructors.C162_files_partial` (p), `Constructors.C162_load` (p), `Constructors.C162_violated` (-), `Constructors.C162_violated_remote` (p) | Code violates the property: NewIdentityFromPrivateKey and NewRemoteIdentityFromPublicKey return a pointer to ErrWrongKeyLength, everything else a value, and NewRemoteIdentity never reports ErrCannotLoadKeys. Proved for keys in files, and when NewIdentity reports ErrCannotLoadKeys. How the errors library wraps errors is trusted. |
| C163 | A request of a key that is not answered is repeated every RetryInterval until Timeout | proved | `Retry.C163_regular` (pcq), `Retry.C163_gives_up` (pcq), `Retry.C163_rate` (pcq), `Retry.C163_success` (pq) | Model of the first update of an exchanger; notifications of older keys are left out (the loop drops them and waits on, see C106). |
| C164 | GetRemoteIdentity returns the identity that has signed the keys of the session | proved | `KX.C164_keys` (pcq), `KX.C164_known` (pcq), `KX.C164_in_time` (pcq) | That the signed message is for this session and of now is not part of the property (see C39, C135). |
| C165 | The error of MutualConfirmationOfIdentity says what went wrong | partial | `MutualError.C165_no_error` (pcq), `MutualError.C165_keys_partial` (pcq), `MutualError.C165_default_silent` (pcq), `MutualError.C165_only` (pcq), `MutualError.C165_violated_why` (p), `MutualError.C165_violated_keys` (-) | Code violates the property: the call overwrites the ErrCannotDecrypt of its handler by its own error of Write or Read, and with ErrorOnSequentialDecryptFailsCount 1 or 2 a packet that comes late makes it return keys and an error. With the default value nobody is told at all, because the session detaches after two failures and reports after three. Proved: no error means four keys; with other values than 1 and 2 four keys mean no error; ErrCannotDecrypt is returned only beside keys or for a packet that came after the call had failed for another reason. |
| C166 | What is received does not pile up goroutines | partial | `KX.C166_count_partial` (pcq), `KX.C166_quick_partial` (pcq), `KX.C166_disabled` (pcq), `KX.C166_violated` (pq), `KX.C166_violated_witness` (pq) | Code violates the property: Handle starts a goroutine for each request, and each waits until its answer is written. While the backend takes nothing (a peer on TCP that does not read), each copy of one signed request adds a goroutine; without a PSK anybody on the way can send such copies. Proved: never more than requests that are not yet answered, at most one if the answers are written before the next message comes, and none in the mode "disable". |
| C167 | GetEphemeralKeys returns the last generated shared keys | partial | `KX.C167_in_use` (pq), `KX.C167_whole` (pq), `KX.C167_last_partial` (pcq), `KX.C167_common_partial` (pcq), `KX.C167_violated` (pq) | Code violates the property: updateSecrets computes the secrets and hands them over without a common lock, so if a message arrives before the first local key is there, the loop and answering goroutines can hand over older secrets after newer ones, and GetEphemeralKeys keeps returning the older. Proved: it always returns the keys in use, all or none, made of keys of this session; and it returns the last ones when key updates do not overlap. |
| C168 | Packets of an outsider do not end a session | partial | `Outsider.C168_packet_partial` (pq), `Outsider.C168_run_partial` (pq), `Outsider.C168_psk_partial` (pcq), `Outsider.C168_violated` (pq), `Outsider.C168_violated_limit` (pq), `Outsider.C168_violated_first` (pcq) | Code violates the property: with the default options one packet that cannot be decrypted, of any content and at any time, ends the session, even with a PSK and a known peer (0 is documented as "never", see C98); and as long as the peer is not known and there is no PSK, one unencrypted message of the key exchange with another answers mode and no valid signature closes the session, because the mode is checked first. Proved: a session that knows its peer is ended only by a message with the signature of the peer or by DetachOnSequentialDecryptFailsCount undecryptable packets in a row (0 counts like 1); with a PSK each packet of others is one of the latter kind. C168_violated_limit shows that the option, if set, does what it says, also for outsiders. |
| C169 | An error is reported once | partial | `Reports.C169_kx` (pq), `Reports.C169_event_partial` (pq), `Reports.C169_packet_partial` (pq), `Reports.C169_ping_partial` (pq), `Reports.C169_bound` (pcq), `Reports.C169_violated` (pq), `Reports.C169_violated_ping` (-) | Code violates the property: a message of the key exchange with the signature of the peer (or of anybody, while no peer is known) and another answers mode or a key of zeros is given to Error twice, by errFunc and again because Handle returns the same error (key_exchanger.go:367-376, session.go:1076-1078); a ping that cannot be sent is given to Error by sess.error and again by errFunc (negotiator.go:305-309). Proved: exactly the messages that are refused are reported by the key exchanger, those two kinds twice and all others once; everything else at most once; a packet of n bytes causes at most 2*((n-44)/9)+1 calls, whatever it contains. |
| C170 | Packets of an outsider do not stop a session | partial | `Stall.C170_psk_partial` (pcq), `Stall.C170_violated` (pcq), `Stall.C170_violated_later` (pcq), `Stall.C170_violated_size` (pcq) | Code violates the property without a PSK, because messages of the negotiation are accepted in packets made without any key (C14): one packet of 59 bytes with the message that the search has ended, read before the first key exchange is completed, blocks the reader at stageChan; the one who would receive from it is started by the reader (onKeyExchangeSuccess), so the session is never Established, and since the reader never ends WaitForClosure does not return either. On a backend where the negotiation is off (TCP) or after its time-out the same packet stops the reader of an Established session. While the negotiation is running an outsider can set the size that the peer seems to have found, down to 0, and so the payload size. Proved: packets whose header tag is right neither under an exchanged key nor under the key made of the PSK make no difference to the negotiation and to the reassembly, in any run; how they can end the session is the subject of C168. |
| C171 | A session can be closed although its peer does not read | partial | `Backlog.C171_no_new` (pcq), `Backlog.C171_partial` (pcq), `Backlog.C171_closed` (pcq), `Backlog.C171_ends` (pq), `Backlog.C171_violated` (pcq), `Backlog.C171_violated_handler` (pcq) | Code violates the property on every backend with SetReadDeadline, such as TCP: closing only moves the deadline for reading and leaves the backend open, so a goroutine of the session that waits in backend.Write (the delayed sender or the key exchanger) waits until the peer reads, and CloseAndWait and WaitForClosure do not return. If it is the reader, in a handler that answers, the session does not even get Closed, and Read does not return. Proved: after Close no write begins, so it is enough that the peer reads as many packets as goroutines are writing at that moment; a backend without deadlines is closed if the reader is in Read, and then no write waits; each goroutine ends within two steps of its own. A backend that has only SetDeadline interrupts writes, too, but only until the reader resets the deadline (example). |
| C172 | Each key exchange has ECDH key pairs of its own | partial | `KX.C172_between` (pq), `KX.C172_update_partial` (pq), `KX.C172_origin` (pq), `KX.C172_violated` (pq) | Code violates the property: an answer makes a key only if there was none (sendPublicKey), so all requests of the peer between two updates of the loop are answered with one and the same key pair, although each of them is an exchange with new shared keys. Proved: every message carries a key made in this session; an update of the loop makes a key, and the request, its retries and all answers until the next update carry it and no other key; if an update was not answered, the next one sends the same key again (example). |
| C173 | Messages written within the send delay are merged into one packet | partial | `DelayedSend.C173_packet` (pcq), `DelayedSend.C173_together` (pq), `DelayedSend.C173_partial` (pcq), `DelayedSend.C173_timer` (pq), `DelayedSend.C173_violated` (pq) | Code violates the property: the sender loop does not know of the flushes of onConnect (lastSendID begins with zero), so a request of a writer to send a packet that onConnect has sent already makes the loop send what is in the buffer at once; the next message, which would fit, gets a packet of its own. Proved (no fragmentation): messages accepted while no flush takes the buffer are in one packet, next to each other and in their order, or in none; messages that fit are sent in one packet when the timer expires. In the loop itself such a request is recognised (example). When the timer expires is C126. |
| C174 | A write that waits for room in the packet is not overtaken for ever | partial | `DelayedSend.C174_partial` (pcq), `DelayedSend.C174_alone` (pcq), `DelayedSend.C174_violated` (pq) | Code violates the property: waiting calls do not queue up; when a packet was taken, the call that enters the critical section first gets the room. Whatever the packet size, for two messages that do not fit into one packet there is for every number k an execution in which a call waits while k packets with messages of later calls are sent (induction on k). Proved (no fragmentation): a call that tries again is not refused, and has its message accepted at once unless messages accepted since the previous packet was taken leave no room; with nobody else writing it is accepted after one flush by the timer. |
| C175 | Nothing happens to a session that is Closed | partial | `Lifecycle.C175_partial` (pcq), `Lifecycle.C175_silent_partial` (pcq), `Lifecycle.C175_violated` (pq) | Code violates the property: Closed is set by the reader before it resets the deadline and without waiting for others. The negotiation that ends afterwards calls OnConnect; the backend closer may put the read deadline into the past, or, for a backend without deadlines, close the backend, of a session that is Closed. Proved: Closed stays, the backend is not read and none of its errors is reported, Start and Close do not succeed, OnConnect is called at most once and only if it was not before; and nothing at all happens once the reader, the backend closer and the negotiation have finished and no SetPause(true) is about to interrupt, whatever is called. Nothing is written: C61; after WaitForClosure: C125. |
| C176 | Over a whole session answers are sent and waited for as AnswersMode is documented | proved | `KX.C176_disable` (pcq), `KX.C176_wait` (pcq), `KX.C176_dont_wait` (pcq), `KX.C176_answer` (pcq) | Over whole executions; one message at a time: C41; at most one answer for each request: C129. That a late answer also counts is C138. Any number other than 0 to 3 is taken for Answer (example). |
| C177 | UDP packets of a session are not fragmented on their way | partial | `Setup.C177_partial` (pcq), `Setup.C177_probe` (pq), `Setup.C177_packets_partial` (pcq), `Setup.C177_untouched` (p), `Setup.C177_violated` (pq) | Code violates the property: setupBackend knows the type *net.UDPConn only, while IsLossyWriter also takes any type with a UDP address for UDP; for these (wrappers of a connection) the size is negotiated with datagrams that may be fragmented, so that any size is found to be good. If setting the option fails and there is no event handler, nobody is told. Proved for *net.UDPConn and all packets with messages of the user; what the operating system does with the option is not modelled. |
| C178 | Who sees the packets learns their number and sizes, but not their contents | partial | `Contents.C178_partial` (pcq), `Contents.C178_session_partial` (pcq), `Contents.C178_sizes` (pq), `Contents.C178_violated` (pq), `Contents.C178_violated_hidden` (pq), `Contents.C178_violated_ids` (pcq) | Code violates the property for what is encrypted with the key made of the PSK: its nonce is the packet ID alone, so of two packets with one ID (of two sessions, or of the two peers) each byte of one follows from that byte of the other; and packet IDs are all encrypted with one key and a nonce of zeros, so with the first packet (ID 1) every ID can be read. Proved for packets with pairwise different keys or nonces, hence for all that a session encrypts with exchanged keys. The key stream is an arbitrary function: that XChaCha20 looks like one is assumed, and side channels (timing, sizes over time) are not modelled. Without a PSK the key exchange is in plain text. |
| C179 | Each round of the negotiation tries three sizes in a shorter interval than the round before | partial | `Negotiator.C179_partial` (pcq), `Negotiator.C179_sizes` (pcq), `Negotiator.C179_second` (pcq), `Negotiator.C179_violated` (p), `Negotiator.C179_violated_sizes` (p) | Code violates the property: four sizes are sent in each round (both ends of the interval are among them). When the second greatest of them makes the round trip in a later round, the upper end is doubled, up to the limit, so with default settings on a path for 976 bytes without any loss the third interval (840 to 1392) is longer than the second (562 to 979). Proved: each interval is at most a third of the one before (and 2 more) if it reached up to the limit, which the first one does, or if what was found was not among the greatest sizes. |
| C180 | MutualConfirmationOfIdentity confirms nobody who has another PSK | proved | `Mutual.C180_call` (pcq), `Mutual.C180_net` (pcq) | The hypothesis that tags do not verify under another key is about the concrete packets of the execution; it is the usual assumption about the cipher and the MAC, which are parameters of the model. |
| C181 | GetEphemeralKeys returns the same keys on both sides | partial | `KX.C181_partial` (pcq), `KX.C181_first` (pcq), `KX.C181_violated` (pcq) | Code violates the property from the second exchange on: the second key is made of the recent local and the previous remote key, the third of the previous local and the recent remote key, so that they are interchanged on the other side. Proved: the four keys are the same up to this order, and the lists are equal after the first exchange. Overlapping updates are excluded (C35_violated). |
| C182 | A packet refused for its packet ID has no effect but on the counter | proved | `Receive.C182_no_trace` (pq), `Receive.C182_count` (pq), `Receive.C182_twice` (pcq), `Receive.C182_repeats` (pcq) | The keys and handlers at the time of each packet are arbitrary, but the same in both runs; copies that arrive later are the subject of C01 and C02. |
| C183 | What is delivered depends on the accepted packets only | partial | `Receive.C183_effects` (pq), `Receive.C183_partial` (pq), `Receive.C183_violated` (pq) | Code violates the property with the default options: DetachOnSequentialDecryptFailsCount = 0 detaches at the first undecryptable packet (C47), and nothing that comes after it is received. Proved without restriction for the packets up to the end of the loop, and that the loop does not end as long as fewer packets in a row than the option says cannot be decrypted. |
