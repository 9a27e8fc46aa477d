# Formal model of xaionaro-go/secureio

## Trusted base

* The Lean 4.33.0 kernel.
* Axioms: at most `propext`, `Classical.choice`, `Quot.sound`. Each file `lean/Verif/Props/*.lean` ends with
  `#print axioms` for its theorems, and the table below repeats the result per theorem. No own axioms, no `sorry`, no
  `native_decide`, no `bv_decide`. No Mathlib module is imported.
* The hand translation from Go to Lean. Every model definition cites file and lines in /repo; each model file begins
  with its simplifications. The code was read, not run.
* Cryptographic primitives are *parameters* (arbitrary functions): the XChaCha20 key stream, BLAKE3, SHA3, SHA-512,
  Poly1305, Ed25519, X25519. Theorems quantify over all of them. What is assumed about them is a field of the structure
  that bundles them (sizes of results; signatures verify; Diffie-Hellman commutes), and an instance shows that the
  fields can be met. No probabilistic or computational security is claimed: "nobody can make this MAC" is not a theorem,
  "what is accepted carries a right MAC under this key" is.
* Go runtime: sections protected by a mutex and operations of `sync/atomic` are atomic steps; accesses without
  synchronisation are separate steps; a channel is its buffer and its closed flag; a slice is a list; a fixed width integer
  is a `BitVec`, or a `Nat` with explicit `% 2^n`. A goroutine may be delayed at any point for any time: theorems hold
  for all interleavings. "Returns" and "ends" are proved as: it always can go on by its own steps, or within so many of them.
* Memory model: reads and writes are sequentially consistent. Go promises this only for programs without data races;
  where the code has a race, the model interleaves the accesses, which is less than what the Go memory model allows.
  (Maps read and written at the same time are a crash, as in the Go runtime.)

## Method

`Model/` has the functions of the code. `Lemmas/` has invariants and technical lemmas. `Props/` has the property theorems,
the small specifications they are stated with, and next to each theorem an `example` in which its hypotheses hold.
Names: `Cxx_…` proves the property or a part of it; `Cxx_…_partial` proves it under a restriction that the full
property does not have; `Cxx_violated…` proves that the code does not have the property, by a concrete execution (which
is checked by the kernel with `decide`) or in general.

Wrong programs: `seeded/LOG.jsonl` has one line per deliberate bug that was put into a copy of the model, with the theorems
that failed, and the theorems that were tightened when none did.

## What is modelled

| Model file | Go code |
|---|---|
| `Go.lean` | byte slices, `binary.LittleEndian`, results of calls (ok, error, panic, blocked) |
| `Headers.lean` | message.go, message_fragment_headers.go, key_seed_update_message.go, negotiation_message.go, bytes of a SessionID; limits of sizes (session.go) |
| `PacketID.lean` | packetid_storage.go, `checkAndRememberPacketID` |
| `PendingChain.lean` | pending_chain.go |
| `Packet.lean` | crypt.go, checksums, `sendMessages` (bytes), `decrypt`, `tryDecrypt` |
| `Receive.lean` | `readerLoop` decisions, `processIncomingMessages`, `processIncomingMessageFragment`, `processIncomingMessage` |
| `ReadQueue.lean` | read_item.go, `Read`, delivery to the queue, end of the queue |
| `Send.lean` | `WriteMessageAsync`, `WriteSingle`, fragmentation, one call at a time, with one payload size for the whole call |
| `DelayedSend.lean` | the delayed buffer, `sendDelayedNow`, the sender loop, `SendInfo` and its pool, `SendNow`, all threads |
| `Lifecycle.lean` | `Start`, `Close`, `CloseAndWait`, `SetPause`, the reader loop, the backend closer, clean-up, state changes |
| `StateWait.lean` | session_state.go |
| `Messenger.lean` | messenger.go, handlers, dispatch, clean-up |
| `KeyExchange.lean` | key_exchanger.go, hash.go, `setSecrets`, `GetCipherKeysWait` |
| `Negotiator.lean` | negotiator.go, one side and two connected sides |
| `SessionID.lean` | `sessionIDGetter`, bytes of a SessionID |
| `Identity.lean`, `Pem.lean` | identity.go key files; the PEM text |
| `Mutual.lean` | `MutualConfirmationOfIdentity`: receive path, packets and key exchanger of its session put together, one side and two connected sides |
| `Traffic.lean` | two sides that both send and receive over a network that does anything with packets: packet IDs taken by sending and by receiving, overlapping `sendMessages` calls |
| `Memory.lean` | pooled buffers and headers with their old contents and capacities: `Grow`, slicing and copying in `sendMessages`, `writeMessageSingle`, `writeMessageFragment`, `appendToDelayedWriteBuffer`, `tryDecrypt`, `decrypt` |
| `ByteStream.lean` | what `backend.Read` returns on stream and datagram backends, `readerLoop` on top of it |
| `Sync.lean` | programs of lock, field, channel and backend operations; goroutines that execute their runs |
| `Calls.lean` | every function of session.go, session_state.go, key_exchanger.go, negotiator.go and messenger.go with such operations, as such a program |
| `Handshake.lean` | key_exchanger.go: `loop`, `KeyUpdateSendWait`, retries, answers and `skipKeyUpdateUntil` of two connected sides that lose, delay and reorder messages |
| `Options.lean` | options and their defaults (session.go `init`, `newKeyExchanger`, `newNegotiator`), `isLossyWriter`, limits of `make` and `time.NewTicker`, variables shared with the caller |
| `StdIO.lean` | results of `Read`, `Write`, `WriteMessage`, `WriteMessageSingle`; functions of the standard library that call them (io.ReadAll, io.Copy, io.ReadFull, bytes.Buffer, bufio.Reader), written down from their documentation and source |
| `WriteBuffer.lean` | who reads the slice given to `Write` and when: one call, the goroutines of its fragments, and a caller who uses the slice again after the return |
| `Output.lean` | the INFO and DEBUG channels: options, build tag, `infof`, `debugf`, closing by the reader, a user who receives |
| `SendNow.lean` | `SendNowAndWait`, `Wait`, start and end of `delayedSenderLoop`; with and without `SendDelay` |
| `SizeChange.lean` | writes that begin before, during and after the negotiation of the payload size, which is read several times |
| `ClosedWrite.lean` | writes to a session that is Closed; the choices of the `select`s are an argument |
| `Timing.lean` | the operations done for a received packet and their cost; a search for a checksum by time; caches, scheduler and noise are left out |
| `Signature.lean` | `Sign` and `VerifySignature`; Ed25519 is a parameter, its sizes and panics are not |
| `SendCount.lean` | the `N` and `Err` that each way of sending leaves in the `SendInfo`; the backend is a function |
| `Order.lean` | the calls of one goroutine, the sender loop and the goroutines of fragments as a transition system; errors and other writers are left out |
| `Pool.lean` | all users of the pools of buffers, headers and read items at once: buffer_pool.go, message.go, message_fragment_headers.go, read_item.go, and session.go: WriteMessageSingle, WriteMessageAsync, writeMessageFragment, sendDelayedNow, sendMessages, decrypt, processIncomingMessage, read as sequences of operations on pooled objects |
| `KeyTimer.lean` | the time of key updates: key_exchanger.go: loop with its ticker, KeyUpdateSendWait, retryUntilSuccessOrTimeout with its timer, updateLocalKey, sendPublicKey with skipKeyUpdateUntil, Handle, sendSuccessNotifications, and a paused reader |
| `CloseReport.lean` | the calls of EventHandler.Error when a session is closed: session.go: Close, readerLoop, readerLoopReadError, processIncomingMessage, the error functions of initNegotiator and startKeyExchange; key_exchanger.go: Handle, loop, KeyUpdateSendWait, retryUntilSuccessOrTimeout, mustSendPublicKey; negotiator.go: pingSenderLoop |
| `Constructors.lean` | what the constructors of identity.go return to their caller, with the Go types of the errors (errors.go: newErrWrongKeyLength, newErrCannotLoadKeys) |
| `Retry.lean` | key_exchanger.go: newKeyExchanger (default values of the durations), KeyUpdateSendWait, retryUntilSuccessOrTimeout with its two timers, mustSendPublicKey, loop until its ticker is made |
| `MutualError.lean` | identity.go: MutualConfirmationOfIdentity (its results), event_handler.go: errorHandlerWrapper, session.go: readerLoopDecryptError, default of ErrorOnSequentialDecryptFailsCount |
| `Ephemeral.lean` | session.go: GetEphemeralKeys, the field currentSecrets in setSecrets |
| `Outsider.lean` | session.go: readerLoop with the errFunc of startKeyExchange (what ends a session), key_exchanger.go: errFunc in parseAndCheck |
| `Reports.lean` | session.go: calls of EventHandler.Error in processIncomingMessage(s), readerLoopDecryptError and the errFuncs; negotiator.go: errors of Handle, sendControl and failing pings |
| `Stall.lean` | session.go: readerLoop with the handlers it calls, onKeyExchangeSuccess and the negotiator (what the reader waits for) |
| `Backlog.lean` | session.go: sendMessages (backend.Write), delayedSenderLoop, interruptRead, with `Lifecycle.lean`: a backend with full buffers |
| `Setup.lean` | session.go: setupBackend, error; with `Options.lean` and `Negotiator.lean`: datagrams that may or may not be fragmented |
| `SizeGet.lean` | session.go: GetEstablishedPayloadSize, GetEstablishedPacketSize called at any time, with the steps of Start, the negotiation, SetPause and Close that they look at |
| `Errors.lean` | the sizes in `ErrTooShort` and `ErrPayloadTooBig`, function by function |
| `Names.lean` | `String` of message types, states, packet IDs and keys |
| `Closure.lean` | the goroutines of a session, `stopWaitGroup` and the callbacks; what the goroutines do otherwise is left out, so that they may do more than in Go |
| `ReadChan.lean` | `Read` and `setMessenger` for `MessageTypeReadWrite`: which channel a call waits for, session.go:508, 836-838, 1074-1101, 1309-1322, 2112-2123, 2167-2185; left out: contents and small buffers (in `ReadQueue.lean`), crashes while a map is written (in `Messenger.lean`), other types |
| `Handlers.lean` | `SetHandlerFuncs`, `handlerByFuncs`, and how its results are reported, session.go:1074-1080, 1323-1358; left out: overlapping registrations (in `Messenger.lean`), what the functions do besides returning an error |
| `SendTimer.lean` | the timer of the delayed sender with a discrete clock; goroutines run at once when they can, only `backend.Write` takes time (at most a given number of ticks); the session stays Established |
| `Reader.lean` | `readerLoop` and `readerLoopReadError` on results and errors of `backend.Read` |
@@EXTRA_MODELS@@

Not modelled: the contents of debug output and of error strings, Go memory reclamation, the operating system behind the
backend (only that `Read` and `Write` give a count and an error, and that deadlines interrupt `Read`), real time (a timer
may fire at any moment after it was set), fairness of the scheduler, the exported test helpers.

The models of different parts are separate transition systems. What one assumes about another one is written in its
header (for instance: Lifecycle assumes that the negotiator reports success once, which `C62_success_once` proves, and that
closing the messengers returns, which `C77_violated` shows to be false during a negotiation).

## Where the code and the properties disagree

The properties say what a user may expect from the documentation and the API. The following are places at which the code
does something else. Each of them is a theorem (`…_violated…`), the line numbers are in the model files.

