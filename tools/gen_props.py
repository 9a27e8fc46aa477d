import json
P=[]
def p(title,statement,quantifier,why,anchors):
    P.append(dict(id="C%02d"%(len(P)+1),title=title,statement=statement,quantifier=quantifier,why_tests_cant=why,anchors=anchors))

p("A replayed packet is never accepted twice",
  "For a session with replay protection enabled (PacketIDStorageSize >= 0), no packet ID is ever accepted twice, so no packet content is ever delivered twice.",
  "every PacketIDStorageSize, every finite history of received packet IDs (arbitrary order, duplication, gaps)",
  "The violation needs a particular relation between the window size and the gap between two accepted IDs; a test samples a few histories out of (2^64)^n.",
  ["packetid_storage.go: packetIDStorage.Push, shiftValue, setAtOffset, getAtOffset","session.go: checkAndRememberPacketID, readerLoop, SessionOptions.PacketIDStorageSize"])
p("Replay protection with a window of at most 64 IDs or in grow-only mode",
  "With PacketIDStorageSize between 1 and 64, for every history of incoming packets each packet ID is accepted at most once; with the special value 1 the sequence of accepted IDs is strictly increasing and an ID is accepted exactly when it is larger than every ID seen before.",
  "every history of received packet IDs",
  "Unbounded histories.",
  ["packetid_storage.go: newPacketIDStorage, Push","session.go: init (storageSize == 1)"])
p("A new packet inside the window is never dropped as a replay",
  "A packet whose (non-zero) ID was never received before and lies within the remembered window below the highest received ID, or above it, is always accepted.",
  "every window size and every history",
  "False drops only appear for particular bit positions and shift amounts after long histories.",
  ["packetid_storage.go: Push, shiftValue"])
p("Too old and disabled modes of the packet-ID check",
  "A packet whose ID lags the highest received one by the (64-aligned) window size or more is always dropped and counted by GetUnexpectedPacketIDCount; with a negative PacketIDStorageSize every packet is accepted; the drop counter equals the number of dropped packets.",
  "every history of packets",
  "Unbounded histories.",
  ["packetid_storage.go: Push","session.go: checkAndRememberPacketID, GetUnexpectedPacketIDCount"])
p("Message header encoding round-trips",
  "Writing a message header (type, length, flags) and reading it back yields the same header; reading accepts exactly the inputs of at least 9 bytes, writing changes only the first 9 bytes of the buffer, and every 9-byte string decodes to a header that re-encodes to it.",
  "all header values, all buffers",
  "2^72 header values.",
  ["message.go: messageHeadersData.Read/Write, messageFlags"])
p("Container header encoding round-trips",
  "Writing a packet's container header and reading it back yields the same packet ID, both checksums and length, for every value; too short buffers are rejected without a panic.",
  "all header values and buffers",
  "2^352 header values.",
  ["message.go: messagesContainerHeadersData.Read/ReadAfterIV/Write, packetID.Read/Write"])
p("Fragment header encoding round-trips",
  "Writing a fragment header and reading it back yields the same chain ID, start position and total length; buffers shorter than 24 bytes are rejected.",
  "all values and buffers",
  "2^192 values.",
  ["message_fragment_headers.go: Read, Write, Set"])
p("Key-exchange message and session ID encoding round-trips",
  "SessionID.FillFromBytes inverts SessionID.Bytes, and parsing an encoded key-exchange message yields the original session ID, identity key, ECDH key, answers mode and flags.",
  "all field values",
  "2^656 values.",
  ["session.go: SessionID.Bytes/FillFromBytes","key_seed_update_message.go","key_exchanger.go: send, parseAndCheck"])
p("Negotiation message encoding round-trips",
  "Control and ping/pong negotiation messages decode to what was encoded; a ping of any requested size at least 69 bytes is produced with exactly that size, carries a valid checksum, and its pong is accepted by the original sender with the same iteration ID and size.",
  "all iteration IDs, sizes and control values",
  "Unbounded sizes.",
  ["negotiation_message.go","negotiator.go: sendPing, sendControl, handlePingPongMessage, parseMessage"])
p("The container parser is total and delivers exactly the well-formed prefix",
  "For any decrypted byte string and any declared length the receiver terminates without a panic, delivers exactly the messages of the longest well-formed prefix in order, and reports an error exactly when a truncated header or payload follows.",
  "all byte strings (unfragmented messages), all declared lengths",
  "All inputs of all lengths.",
  ["session.go: processIncomingMessages, processIncomingMessage"])
p("Aggregated messages are split back exactly",
  "Any sequence of messages merged into one packet by the sender is split by the receiver into the same messages with the same types, in the same order, with none lost, added or altered.",
  "every list of messages, every payload content",
  "Unbounded lists.",
  ["session.go: appendToDelayedWriteBuffer, sendDelayedNowSyncFromBuffer, processIncomingMessages"])
p("Encrypt/decrypt round trip of a packet",
  "A packet produced by one side is opened by the other side to exactly the original message bytes and packet ID when the receiver's current key is the sender's key (any key material, session ID, packet ID, with or without PSK), and the packet is exactly 44 bytes longer than the messages.",
  "all keys, session IDs, packet IDs, message bytes, all stream ciphers and MACs",
  "Unbounded data and keys.",
  ["session.go: sendMessages, decrypt, tryDecrypt, fillWithRemoteIV, decryptPacketIDBytes","crypt.go"])
p("Only packets whose two checksums verify under one of the session's keys are accepted",
  "If the receiver accepts a packet then there is one single key among the current cipher keys or the PSK-derived (or absent) auxiliary key under which both the header checksum and the messages checksum verify for the packet ID carried by the packet; otherwise nothing is delivered and the packet ID memory is unchanged.",
  "all packets and receiver states",
  "All byte strings.",
  ["session.go: decrypt, tryDecrypt, checkHeadersChecksum, checkMessagesChecksum, readerLoop"])
p("Application data is only accepted under the exchanged key",
  "A message delivered to an application handler or to Read was authenticated with an exchanged cipher key.",
  "all packets an outsider can build, all receiver states after a key exchange",
  "Requires quantifying over everything an attacker can send.",
  ["session.go: decrypt (final tryDecrypt with auxCipherKey), processIncomingMessages, processIncomingMessage"])
p("Application data only leaves encrypted under the exchanged key",
  "Every application payload given to Write/WriteMessage/WriteMessageAsync/WriteMessageSingle is written to the backend only encrypted with the exchanged cipher key.",
  "all payloads and options",
  "Requires all payload sizes/options; the failing path is only visible by inspecting wire bytes.",
  ["session.go: WriteMessageAsync, writeMessageFragment, writeMessageSingle, sendMessages"])
p("No nonce is used twice with an exchanged key within a session",
  "All packets sent by one session under exchanged keys use pairwise different IVs, and packets of two sessions with different session IDs never share an IV, whatever the interleaving of senders and receiver.",
  "all interleavings of up to 2^64-1 sends and receives by any number of goroutines",
  "Schedules cannot be enumerated.",
  ["session.go: getNextPacketID, sendMessages","message.go: SetNextPacketID, AcquireMessagesContainerHeaders"])
p("No nonce is used twice with the PSK-derived key",
  "Packets encrypted with the PSK-derived auxiliary key never reuse a nonce, in particular two sessions with the same PSK do not produce related ciphertexts.",
  "all PSKs, all pairs of sessions, all messages",
  "Needs two sessions and all messages.",
  ["session.go: sendMessages (ivBuf for non-confidential), crypt.go: emptyIV"])
p("Packets never exceed the established packet size",
  "Every packet carrying application data that is written to the backend is at most GetEstablishedPacketSize() bytes long.",
  "all sequences of writes, flushes and sizes",
  "Unbounded write histories and schedules.",
  ["session.go: writeMessageAsync, sendMessages, GetEstablishedPacketSize"])
p("Oversized messages are refused when fragmentation is off",
  "With fragmentation disabled a write of an application message larger than the established payload size returns ErrPayloadTooBig and sends nothing; a message that fits is accepted for sending.",
  "all payload sizes and limits",
  "All sizes.",
  ["session.go: WriteMessageAsync"])
p("Fragmentation covers the payload exactly",
  "With fragmentation enabled and an established payload size of at least 25, an oversized message is split into consecutive fragments whose concatenation is the message, whose headers carry the right start and total length under one fresh chain ID, and each of which fits the established payload size.",
  "all payloads and payload limits",
  "All sizes.",
  ["session.go: writeMessageAsyncAsFragmented, writeMessageFragment, getNextChainID"])
p("A message is reassembled once all its fragments have arrived",
  "When all fragments of a message have been merged, in any order and with any duplication, the reassembly has completed.",
  "all fragment sets covering the message, all arrival orders",
  "All permutations of all fragmentations.",
  ["pending_chain.go: Merge, Init, setLeadingOnes64, pendingChainIsSetSet"])
p("A fragmented message is only delivered when every byte has arrived",
  "Reassembly returns a message only when each of its bytes was received in some fragment, and then the returned bytes are the bytes received.",
  "all fragment sets and arrival orders including loss",
  "All permutations and losses of all fragmentations.",
  ["pending_chain.go: Merge"])
p("A reassembled message has the announced length",
  "The message handed to the application after reassembly has exactly the announced total length.",
  "all histories of a reassembly slot",
  "Depends on the history of the slot.",
  ["pending_chain.go: Init, Merge","session.go: processIncomingMessageFragment"])
p("Fragments of different messages never mix",
  "Fragments of one message are never merged into another message, and the arrival of a fragment of a newer message does not destroy older incomplete messages that are within MaxChainIDDiff.",
  "all interleavings of fragments of several messages",
  "All interleavings.",
  ["session.go: processIncomingMessageFragment"])
p("No received bytes can crash the receiver",
  "No packet content makes the receive path index out of range or panic.",
  "all packets, all receiver states",
  "All byte strings.",
  ["session.go: processIncomingMessages, processIncomingMessageFragment, decrypt","pending_chain.go: Merge","packetid_storage.go"])
p("Reassembly memory is bounded",
  "Whatever fragments arrive, the memory kept for reassembly is at most MaxChainIDDiff buffers of at most MaxFragmentedMessageSize bytes each.",
  "all fragment sequences",
  "Unbounded histories.",
  ["session.go: processIncomingMessageFragment","pending_chain.go: Init"])
p("Closed is final",
  "Once a session is Closing it can only become Closed, and once Closed it stays Closed, whatever API calls and background events follow in any interleaving.",
  "all interleavings of API calls and internal events",
  "All schedules.",
  ["session_state.go: Set","session.go: setState call sites"])
p("The session goes through its documented phases in order",
  "The first non-initial state is KeyExchanging; Negotiating is only entered from KeyExchanging, Established only from Negotiating or by un-pausing, Paused only from Established.",
  "all interleavings",
  "All schedules.",
  ["session_state.go","session.go: startKeyExchange, onKeyExchangeSuccess, onConnect, SetPause"])
p("SetPause contract",
  "SetPause(true) succeeds exactly when the session is Established and makes it Paused, SetPause(false) succeeds exactly when it is Paused and makes it Established; otherwise an error is returned and the state is unchanged.",
  "all states and interleavings",
  "All schedules.",
  ["session.go: SetPause, waitForUnpause"])
p("SetPause returns once the reader is detached",
  "A successful SetPause(true) returns after the reader noticed the pause, for every interleaving with other SetPause calls.",
  "all interleavings",
  "Needs one particular interleaving.",
  ["session.go: SetPause, waitForUnpause"])
p("Exactly one Close succeeds",
  "Among any number of concurrent Close calls on a started session exactly one (or none if the session closed by itself) returns nil; the others return ErrAlreadyClosed; Start succeeds at most once.",
  "all interleavings of Start/Close and internal closures",
  "All schedules.",
  ["session.go: Close, Start, CloseAndWait"])
p("WaitForState never misses a state that persists",
  "A goroutine in WaitForState that has not returned is woken by every state change, so it returns if the session reaches one of the wanted states and stays there; it returns only with a wanted state or after its context ended.",
  "all interleavings of waiters and state changes",
  "All schedules; lost wake-ups are timing dependent.",
  ["session_state.go: WaitFor, Set"])
p("Unauthenticated key-exchange messages have no effect",
  "With a configured remote identity a key-exchange message that does not carry a valid signature of that identity changes no key, identity or session ID and triggers no answer.",
  "all byte strings and exchanger states",
  "All byte strings.",
  ["key_exchanger.go: Handle, parseAndCheck"])
p("The remote identity is pinned",
  "If no remote identity is configured, the identity of the first validly self-signed key-exchange message is adopted and afterwards never changes; the remote session ID is likewise set once.",
  "all sequences of received messages",
  "Unbounded histories.",
  ["key_exchanger.go: Handle, setRemoteIdentityFromPublicKey, setRemoteSessionID"])
p("Both sides derive the same key",
  "If each side holds the other's current ECDH public key and both have the same PSK, the encryption keys are equal; keys for mixed generations match crosswise.",
  "all keys, PSKs; all histories of rotations and receptions",
  "All key material and histories.",
  ["key_exchanger.go: generateSharedKeyBySecretID, generateSharedKey, updateSecrets"])
p("Different PSKs never give the same key",
  "Two sides with the same ECDH secret but PSKs with different hashes derive different keys, and the hash inputs for different PSKs or different purposes never coincide.",
  "all PSK pairs and secrets",
  "All values.",
  ["key_exchanger.go: generateSharedKey","hash.go","session.go: init (auxCipherKey)"])
p("Traffic survives a key rotation",
  "A packet encrypted with the sender's current key is decryptable by a receiver which is at most one rotation (of either ECDH key) ahead or behind.",
  "all rotation histories with skew at most one",
  "All histories.",
  ["key_exchanger.go: updateLocalKey, setNextRemotePublicKey","session.go: decrypt"])
p("No second rotation while one is in progress",
  "A new local ECDH key is only generated after the previous one was confirmed by a successful exchange, and key creation stamps strictly increase whatever the clock does.",
  "all sequences of events and clock readings",
  "All schedules and clocks.",
  ["key_exchanger.go: updateLocalKey, sendSuccessNotifications"])
p("Stale key-exchange messages are rejected",
  "A key-exchange message recorded earlier (in another session of the same peer, or before a later rotation) is not accepted as current.",
  "all recorded messages and states",
  "Requires attacker quantification.",
  ["key_exchanger.go: Handle, parseAndCheck, setNextRemotePublicKey"])
p("A key-exchange message cannot crash the process",
  "No key-exchange message makes the receiver panic.",
  "all byte strings",
  "All byte strings.",
  ["key_exchanger.go: generateSharedKey, parseAndCheck"])
p("Answers-mode mismatch and invalid keys are reported and ignored",
  "A validly signed key-exchange message with a different answers mode or with an all-zero ECDH key is reported as an error and changes no keys; the exchange counts as successful and answers are sent exactly as the answers mode prescribes.",
  "all messages and modes",
  "All byte strings x modes.",
  ["key_exchanger.go: parseAndCheck, Handle"])
p("After the first exchange a sending key is always available",
  "From the first successful key agreement on, the session's current cipher key is always present, keys are replaced as one set, and the waiters are released exactly once without a panic.",
  "all sequences of key updates",
  "All schedules.",
  ["session.go: setSecrets, GetCipherKeysWait, GetCipherKeys","key_exchanger.go: updateSecrets"])
p("Session IDs are unique and increasing",
  "Session IDs created in one process have strictly increasing CreatedAt for every behaviour of the system clock (including going backwards) below the 64-bit limit.",
  "all sequences of clock readings",
  "All clocks.",
  ["session.go: sessionIDGetterType.Get"])
p("A successful Write means the message was handed to the backend",
  "If Write/WriteMessage returns no error then the message was part of a packet that the backend's Write accepted without error.",
  "all interleavings of writes, flushes and cancellation",
  "Needs a cancellation at a particular moment.",
  ["session.go: WriteMessage, writeMessageAsync, sendDelayedNow","send_info.go: Wait"])
p("Each accepted message is sent exactly once, in order",
  "Every message accepted by WriteMessageAsync ends up in exactly one packet, the packets preserve the order of acceptance, and the returned SendInfo reports the result of exactly that packet.",
  "all interleavings of writers, timer flushes and forced flushes",
  "All schedules.",
  ["session.go: writeMessageAsync, appendToDelayedWriteBuffer, sendDelayedNow, delayedSenderLoop"])
p("SendInfo is not recycled while in use",
  "A SendInfo is returned to the pool only after its result is final and every writer that received it has released it; its reference count never becomes negative when every holder releases at most once.",
  "all interleavings of acquire, append, flush and release",
  "All schedules.",
  ["send_info.go","session.go: appendToDelayedWriteBuffer, sendDelayedNow"])
p("DetachOnSequentialDecryptFailsCount",
  "The session detaches on reaching the configured number of consecutive undecryptable packets, not earlier, and never if the option is zero.",
  "all packet sequences and option values",
  "All histories; the default value is the failing one.",
  ["session.go: readerLoopDecryptError, SessionOptions.DetachOnSequentialDecryptFailsCount"])
p("ErrorOnSequentialDecryptFailsCount",
  "An error is reported exactly for each undecryptable packet from the configured number of consecutive failures on (3 by default, never if 0), and a good packet restarts the count.",
  "all packet sequences and option values",
  "All histories.",
  ["session.go: readerLoopDecryptError, init"])
p("DetachOnMessagesCount",
  "With DetachOnMessagesCount = n > 0 exactly n non-internal messages are delivered before the session closes itself, later messages of the same packet are not delivered; 0 means never.",
  "all packet sequences",
  "All histories.",
  ["session.go: processIncomingMessages"])
p("Read returns whole messages in order",
  "Successive Read calls with large enough buffers return the received default-channel messages one by one, whole and in order.",
  "all interleavings of arrivals and reads, all sizes",
  "All schedules.",
  ["session.go: read, processIncomingMessage","read_item.go"])
p("Read never loses data",
  "A Read with a too small buffer does not lose the message.",
  "all buffer sizes",
  "All sizes.",
  ["session.go: read"])
p("Multiplexer channels are isolated",
  "Different channel IDs map to different message types, none of which is an internal or the default type, too high channel IDs are refused, and a message is only ever given to the handler registered for its type.",
  "all channel IDs",
  "2^32 values.",
  ["message.go: MessageTypeChannel, isInternal","session.go: processIncomingMessage, setMessenger"])
p("The negotiated payload size is safe",
  "The negotiated payload size is at most the largest message size proven to make a round trip in each direction and at most the configured PayloadSizeLimit.",
  "all sequences of negotiation messages",
  "All histories.",
  ["negotiator.go: finalize, handlePingPongMessage, handleControlMessage"])
p("The size probing terminates and stays in range",
  "The probing loop runs at most MaxIterations rounds, every probe is between the smallest negotiable size and the limit, and the search interval never leaves it.",
  "all limits >= 147 and all patterns of lost probes",
  "All loss patterns.",
  ["negotiator.go: pingSenderLoop"])
p("Negotiation always ends",
  "When both sides finish probing they both become Established.",
  "all path MTUs, limits and iteration limits",
  "Only particular MTUs fail.",
  ["negotiator.go: pingSenderLoop, finalizer, handleControlMessage"])
p("Negotiation messages never block the reader",
  "Handling a negotiation message never blocks the receive loop forever.",
  "all messages and negotiator states",
  "Needs state combinations of two peers.",
  ["negotiator.go: handleControlMessage, handlePingPongMessage, finalizer"])
p("The identity is stable across restarts",
  "NewIdentity on the same directory returns the same keys every time, and never overwrites an existing private key.",
  "all directory contents left by earlier calls, all key material",
  "All histories.",
  ["identity.go: NewIdentity, prepareKeys, generateAndSaveKeys, loadKeys, saveKeyToPemFile"])
p("A crash while creating the identity is survivable",
  "After a crash at any point of NewIdentity, a later NewIdentity succeeds or reports an error.",
  "all crash points",
  "Crash points.",
  ["identity.go: generateAndSaveKeys, saveKeyToPemFile, loadPrivateKeyFromFile"])
p("Keys of a wrong length are refused",
  "NewIdentityFromPrivateKey and NewRemoteIdentityFromPublicKey succeed exactly for 64-byte private and 32-byte public keys; the public key of an identity is the one embedded in its private key.",
  "all byte strings",
  "All inputs.",
  ["identity.go"])
p("Default payload limits",
  "SetPayloadSizeLimit/SetPayloadLossySizeLimit store the largest multiple of 16 not above the argument, the default packet fits the maximum datagram size, and the packet size limit is the payload limit plus 53.",
  "all 32-bit values",
  "2^32 values.",
  ["message.go: SetPayloadSizeLimit, SetPayloadLossySizeLimit, init","session.go: updatePacketSizeLimit"])
p("Nothing is written to the backend after Close",
  "A send that reaches the backend-write check after the session became Closing or Closed writes nothing and returns an error.",
  "all interleavings",
  "All schedules.",
  ["session.go: sendMessages, isDone, startClosing"])
p("OnConnect is called at most once",
  "For any sequence of key exchanges and negotiation results OnConnect is called at most once and only after a successful key exchange.",
  "all interleavings",
  "All schedules.",
  ["session.go: onKeyExchangeSuccess, onConnect","negotiator.go: Start, finalizer"])
p("Lossless in-order transport gives exact delivery",
  "Over a transport that delivers packets in order, the application messages read on one side are exactly the messages written on the other side, in order, for any batching schedule.",
  "all message sequences, all batching schedules, all packet-ID gaps",
  "Unbounded histories and schedules.",
  ["session.go: WriteMessageAsync ... readerLoop"])
p("A one-time MAC key authenticates one string",
  "The Poly1305 key of a packet is derived from the packet ID and the cipher key, so that different packets of a session use different keys, and one such key authenticates exactly one string.",
  "all keys, all packet IDs, all packets",
  "A key collision needs specific packet IDs and keys; tests look only at acceptance.",
  ["message.go: calculatePoly1305Key, CalculateHeadersChecksumTo, CalculateMessagesChecksumTo"])
p("Unread messages do not block the session",
  "If the application does not call Read, the session still handles key exchange and other message types, and Close still completes.",
  "all amounts of unread messages, all schedules",
  "Needs more than 1024 unread messages in a particular state.",
  ["session.go: processIncomingMessage, readerLoop, Close"])
p("Pausing and resuming never breaks the session",
  "SetPause(true) followed by SetPause(false) never makes the session report an error or close itself.",
  "all interleavings of SetPause with the reader",
  "The failing interleaving needs a preemption between two adjacent lines.",
  ["session.go: SetPause, interruptRead, readerLoopReadError, resetReadDeadline, waitForUnpause"])
p("CloseAndWait returns from a paused session",
  "Close on a paused session leads to the Closed state and CloseAndWait returns.",
  "all interleavings",
  "A hang is not a test result.",
  ["session.go: Close, CloseAndWait, waitForUnpause, readerLoop"])
p("Close always leads to Closed",
  "After Close the session reaches the state Closed, whatever the reader was doing, as soon as the backend honours read deadlines.",
  "all interleavings of Close with the reader",
  "A lost interrupt needs a preemption between two adjacent lines.",
  ["session.go: Close, interruptRead, isReading, readerLoop, startBackendCloser"])
p("Registering a handler while messages arrive",
  "SetHandlerFuncs, NewMessenger and SetHandler may be called while messages of that type arrive: each message goes to the queue, to the handler, or is dropped, and nothing crashes.",
  "all interleavings of registration with arrivals",
  "The failing schedule needs a preemption inside registration.",
  ["session.go: SetHandlerFuncs, NewMessenger, setMessenger, processIncomingMessage","messenger.go: SetHandler, handle"])
p("API calls in any state do not crash",
  "Every exported method may be called on a new, running, closing or closed session without a crash.",
  "all methods, all states",
  "Tests call methods in the usual order only.",
  ["session.go: Close, SetHandlerFuncs, NewMessenger, Write, Read"])
p("Message boundaries in a packet are respected",
  "The next message in a packet begins where the declared length of the previous one ends, also when that one is a fragment; payload bytes are never taken for message headers.",
  "all packets",
  "Needs a crafted combination of fragment and total size.",
  ["session.go: processIncomingMessages, processIncomingMessageFragment"])
p("Close together with writing never crashes",
  "Close, Write, WriteMessageAsync, SendNow, SendNowAndWait and Release may run at the same time in any number of goroutines without a panic.",
  "all interleavings, all numbers of writers",
  "The failing schedules need a preemption between two adjacent lines of the flush.",
  ["session.go: delayedSenderLoop, sendDelayedNow, startClosing, writeMessageAsyncAsFragmented","send_info.go: Release, SendNow"])
p("A messenger is closed exactly once",
  "Every messenger made by NewMessenger or SetHandlerFuncs is closed at most once, and is closed when another one is registered for its type or when the session ends, so that WaitForClosure returns.",
  "all interleavings of registrations, arrivals, Close calls and the end of the session",
  "The failing schedule needs the session to end inside a registration.",
  ["messenger.go: Close, WaitForClosure","session.go: NewMessenger, setMessenger, readerLoopCleanup"])
p('A session ID survives its byte form',
  'FillFromBytes(Bytes(id)) gives id back; FillFromBytes fails only on fewer than 16 bytes.',
  'all session IDs, all byte strings', 'a test encodes a few IDs; byte order and field boundaries must be right for all 2^128',
  ['session.go: SessionID.Bytes, SessionID.FillFromBytes'])

p('A successful negotiation leaves a usable payload size',
  'After a successful negotiation the established payload size is large enough for at least a message of the smallest probe size (147 bytes).',
  'all limits of at least 147, all losses', 'fails only for a few limits',
  ['negotiator.go: pingSenderLoop, finalize','session.go: setEstablishedPayloadSize'])
p('A negative ReadTimeout switches the time-out off',
  'With a negative NegotiatorOptions.ReadTimeout the negotiation never fails because of that time-out; with a positive one exactly that duration is used in every round.',
  'all time-outs, all rounds', 'tests use the default',
  ['negotiator.go: NegotiatorOptions, pingSenderLoop'])
p('Closing a session during the negotiation completes',
  'Close at any time of the negotiation lets all goroutines of the negotiator end, so that the clean-up of the session completes.',
  'all interleavings', 'depends on which branch of a select is taken',
  ['negotiator.go: Close, finalizer, pingSenderLoop','session.go: readerLoopCleanup'])
p('TotalTimeout falls back to the best size found so far',
  'When TotalTimeout is reached after at least one pong, the negotiation ends with the best settings found so far, as documented.',
  'all times of the time-out', 'the default is five minutes',
  ['negotiator.go: NegotiatorOptions, Start, finalizer'])
p('Negotiation finds more than half of what the path carries',
  'On a path that carries all messages of up to M bytes and no larger ones, 147 <= M <= PayloadSizeLimit, the negotiated size is more than M/2.',
  'all M and limits', 'tests use loopback connections, which carry everything',
  ['negotiator.go: pingSenderLoop'])
p('A malformed key file is reported as an error',
  'NewIdentity and NewRemoteIdentity return an error for a key file that contains no key of the right length; they never crash the program.',
  'all file contents', 'tests use the files the library itself has written',
  ['identity.go: loadPublicKeyFromFile, loadPrivateKeyFromFile'])
p('The public key file belongs to the identity',
  'After a successful NewIdentity, NewRemoteIdentity of the public key file in the same directory gives the public key of the identity.',
  'all histories of calls, failures and crashes', 'failures and crashes at every write',
  ['identity.go: prepareKeys, generateAndSaveKeys, saveKeyToPemFile, NewRemoteIdentity'])

p('MutualConfirmationOfIdentity confirms who is on the other side now',
  'If MutualConfirmationOfIdentity returns keys without an error, the holder of the private key of remoteIdentity took part in this very call: what was received from it cannot be a recording of an older session.',
  'all networks and attackers that see, keep, change and invent packets', 'tests have no attacker; the attack needs one recorded message of another session',
  ['identity.go: MutualConfirmationOfIdentity','key_exchanger.go: Handle, parseAndCheck','session.go: decrypt'])
p('Both sides of MutualConfirmationOfIdentity get the same first key',
  'If the call succeeds on both sides of a connection without attackers, the first ephemeral key is the same on both sides.',
  'all interleavings of the goroutines of both sides, all losses, repetitions and delays of packets', 'the failing schedule needs a preemption between two adjacent lines of updateLocalKey',
  ['identity.go: MutualConfirmationOfIdentity','key_exchanger.go: updateLocalKey, sendPublicKey','session.go: GetEphemeralKeys'])
p('MutualConfirmationOfIdentity leaves the backend to its user',
  'What the remote side writes to the backend after its own call has returned is not read by the call on this side.',
  'all interleavings, all packets', 'depends on whether the reader goroutine gets to the next packet before the session is closed',
  ['identity.go: MutualConfirmationOfIdentity','session.go: readerLoop, Read'])

p('A message is delivered at most as often as it was sent',
  'Whatever the network repeats, reorders, drops or invents, a side delivers each message at most as often as the other side has sent it, with every PacketIDStorageSize that does not switch the protection off.',
  'all networks without forgeries, all traffic in both directions, all option values', 'needs 64 packets in the other direction between two sends, and then a replay',
  ['session.go: readerLoop, decrypt, checkAndRememberPacketID, getNextPacketID','message.go: AcquireMessagesContainerHeaders','packetid_storage.go: Push'])
p('Reordering within PacketIDStorageSize packets loses nothing',
  'A packet overtaken on the network by fewer than PacketIDStorageSize packets of the same sender is still delivered.',
  'all orders of delivery, all traffic in both directions', 'tests do not reorder while traffic runs in the other direction',
  ['session.go: SessionOptions, decrypt, getNextPacketID','packetid_storage.go: Push'])
p('Nothing is lost on an ordered lossless backend',
  'On a backend that delivers every packet in the order of the Write calls, every message that was sent is delivered exactly once, with any number of concurrent writers.',
  'all interleavings of writers, all traffic in both directions, all option values', 'needs a writer to be preempted between taking its packet ID and writing',
  ['session.go: sendMessages, readerLoop, checkAndRememberPacketID','message.go: AcquireMessagesContainerHeaders'])

p('Recycled buffers change nothing on the wire or in what is received',
  'The bytes given to the backend, and the messages got from a packet, do not depend on the old contents or the capacity of the buffers and headers that the pools give out.',
  'all old contents and capacities of buffers, all packets received before, all keys', 'needs buffers with telling old contents in every place; tests mostly see fresh buffers',
  ['buffer_pool.go: Grow, Reset, AcquireBuffer','session.go: sendMessages, writeMessageSingle, writeMessageFragment, decrypt, tryDecrypt','message.go: Set, Reset'])
p('WriteMessageAsync never panics and appends exactly the message',
  'A message written with SendDelay is appended to the buffer of delayed messages as it is, refused with an error, or waits; the call does not panic, whatever payload size the negotiation has ended with.',
  'all payloads, all series of messages in the buffer, all negotiated payload sizes, all messages of the peer', 'needs a peer that negotiates a larger size than the own limit',
  ['session.go: writeMessageAsync, appendToDelayedWriteBuffer, setEstablishedPayloadSize','buffer_pool.go: newBufferPool'])

p('Messages survive a stream backend',
  'On a reliable stream backend (TCP, a Unix socket, a pipe), which may return the written bytes in pieces of any size, all messages arrive.',
  'all ways in which Read calls cut the stream, all messages and packets, all option values', 'on localhost a Read usually returns exactly one Write',
  ['session.go: readerLoop, decrypt','is_lossy_writer.go: IsLossyWriter','README.md: Encrypted io.ReadWriteCloser'])
p('What Write accepts fits in the buffer of the receiver',
  'A message accepted by Write on a datagram backend is read as a whole by the remote side, whatever PayloadSizeLimit is set there.',
  'all option values of both sides, all messages', 'tests use the same options on both sides',
  ['session.go: readerLoop, GetPacketSizeLimit, WriteMessageAsync'])

p('Locks of sessions never wait in a circle',
  'Whatever methods of a session any number of goroutines and callbacks call at the same time, goroutines never wait for locks of sessions in a circle.',
  'all interleavings of any number of goroutines, sessions, method calls and callbacks', 'deadlocks need special interleavings, or callbacks that use the session while it holds a lock',
  ['locker_mutex.go','session.go: lockDo, setMessenger, setSecrets, SetPause, writeMessageAsync, appendToDelayedWriteBuffer','key_exchanger.go: LockDo, Handle, KeyUpdateSendWait','negotiator.go: lockDo, Start, Close'])
p('No data races on the fields of a session',
  'When methods of a session are called from any goroutines, no two goroutines access one of the shared fields of the session, its key exchanger or its negotiator at the same time while one of them writes.',
  'all interleavings of any number of goroutines, sessions, method calls and callbacks; all 18 fields that are guarded by a lock somewhere', 'the race detector only sees the interleavings that happen',
  ['session.go: processIncomingMessage, setMessenger, read, GetEphemeralKeys','key_exchanger.go: sendPublicKey, updateLocalKey, sendSuccessNotifications','negotiator.go: finalize, Handle, Close'])

p('A handler can use its session',
  'Every method of a session that is called in a handler (Handle) of the session returns, and the session goes on receiving.',
  'all methods, all handlers, all interleavings of any number of goroutines and sessions', 'tests call these methods from goroutines of their own; and whether a handler runs before the session is established depends on lost or late packets',
  ['session.go: WaitForClosure, CloseAndWait, SetPause, waitForUnpause, read, processIncomingMessage, sendMessages, onConnect','negotiator.go: finalizer, Handle'])
p('Two sessions that answer each other do not block each other',
  'Two connected sessions whose handlers send a message for every received message go on, whatever the buffers of the backend hold and however much both sides send.',
  'all buffer sizes of the backend, all numbers of messages, all interleavings', 'the buffers of the kernel hold more than what tests send',
  ['session.go: readerLoop, processIncomingMessages, sendMessages'])

p('The first key exchange does not wait for KeyUpdateInterval',
  'Of two sides that have called Start, each finishes its first key exchange (its session leaves KeyExchanging) or gives up, without having to wait until an interval of KeyUpdateInterval has passed; on a backend that loses nothing this holds however goroutines and messages are scheduled.',
  'all interleavings of the loops, readers and answering goroutines of both sides, all delays and losses, all answers modes', 'needs the answer to be sent before the loop goroutine has run; then it only shows as a delay of a minute',
  ['key_exchanger.go: loop, KeyUpdateSendWait, Handle, sendPublicKey, retryUntilSuccessOrTimeout'])
p('Retries make good for lost key-exchange messages',
  'A side that has not finished its first key exchange sends its key again and again until it gives up, and finishes as soon as one of these messages and the reply of the other side get through.',
  'all states, all losses, all answers modes', 'tests do not lose messages',
  ['key_exchanger.go: retryUntilSuccessOrTimeout, Handle'])
p('Options mean what their documentation says',
  'Every option that is left at its zero value has the documented default, and every documented value has the documented effect.',
  'all combinations of options, all backends', 'tests use few combinations',
  ['session.go: SessionOptions, init','key_exchanger.go: KeyExchangerOptions, newKeyExchanger','negotiator.go: NegotiatorOptions, newNegotiator, isEnabled, Start','is_lossy_writer.go'])
p('No option value crashes the program',
  'NewSession and Start do not panic, in any goroutine, whatever the options are.',
  'all option values', 'tests use sensible values',
  ['session.go: init','packetid_storage.go: newPacketIDStorage','key_exchanger.go: loop, retryUntilSuccessOrTimeout'])
p('The packet size limit has room for the payload limit',
  'GetPacketSizeLimit, the size of the buffer that packets are read into, is PayloadSizeLimit with the size of all headers, for every PayloadSizeLimit.',
  'all values of PayloadSizeLimit', 'tests use small limits',
  ['session.go: updatePacketSizeLimit, GetPacketSizeLimit, readerLoop'])
p('A session does not change with the variables its options came from',
  'What a caller does with the options, and with the variables and slices they refer to, after NewSession (for example wiping the pre-shared key) does not change the session.',
  'all options, all later contents of the variables', 'tests do not change the options afterwards',
  ['session.go: init','key_exchanger.go: newKeyExchanger, generateSharedKey'])
p('A failed backend ends the session',
  'When every Read of the backend fails from some time on, this is reported, and the session ends.',
  'all series of results of Read, all event handlers', 'the handlers of tests return false, or end the test',
  ['session.go: readerLoop, readerLoopReadError','event_handler.go'])
p('Nothing that Read returns is dropped',
  'All bytes that the backend returns are processed, also those that it returns together with an error (as io.Reader allows).',
  'all series of results of Read', 'the backends of tests never return data together with an error',
  ['session.go: readerLoop'])
p('A pause is not an error',
  'The interruption of Read by SetPause is not reported as an error of the backend and does not close the session, on every backend with read deadlines.',
  'all backends, all event handlers', 'tests only use package net',
  ['session.go: SetPause, interruptRead, readerLoopReadError'])

p('A key update ends with a new key, or with a report',
  'When a session has begun to renew its key (after KeyUpdateInterval, or at Start), then by the time that it waits for the next interval a newer key has been agreed with the other side, or the session has reported that it gave up.',
  'all states of both sides, all interleavings, losses and delays, all behaviours of the clock, all answers modes', 'needs late notifications of earlier updates',
  ['key_exchanger.go: loop, KeyUpdateSendWait, updateLocalKey, retryUntilSuccessOrTimeout, sendSuccessNotifications'])
p('A completed key exchange does not time out',
  'A session that waits for the key exchange it has begun reports a time-out (and closes) only if no message that completes the exchange has arrived.',
  'all states of both sides, all interleavings, losses and delays, all behaviours of the clock, all answers modes', 'the message has to arrive between two statements of the other goroutine',
  ['key_exchanger.go: KeyUpdateSendWait, retryUntilSuccessOrTimeout, makeSuccessNotifyChanEmpty, sendSuccessNotifications, sendPublicKey'])
p('The key exchange is reported as done only when there is a key',
  'When the key exchange is reported as successful (the session leaves KeyExchanging; OnConnect if there is no negotiation), the session has made its own key.',
  'all states of both sides, all interleavings, losses and delays, all answers modes', 'needs a message that arrives before the own key is made',
  ['key_exchanger.go: Handle, sendSuccessNotifications, updateSecrets','session.go: onKeyExchangeSuccess'])

p("A session that has ended leaves the backend usable",
  "Let the backend have SetReadDeadline or SetDeadline. When WaitForClosure has returned, the session has not closed the backend and has left no read deadline in the past, so that the next user of the backend can read from it.",
  "all interleavings of Start, Close, SetPause, the reader, the backend closer and the key exchange; all results of backend.Read",
  "The bad order needs a packet to arrive between two instructions of the goroutine that interrupts the reader.",
  ["session.go:638-680", "session.go:799-846", "session.go:2218-2229", "identity.go:265-276"])
p("A paused session leaves the backend usable",
  "Let the backend have SetReadDeadline or SetDeadline. When SetPause(true) has returned nil, and until SetPause(false) is called, the session does not read from the backend and its read deadline is not in the past, so that the caller can read from the backend.",
  "all interleavings of SetPause calls, the reader and the backend",
  "The deadline is in the past only for the moment between two statements of the reader.",
  ["session.go:711-776", "session.go:799-809", "session.go:2218-2229"])

p("Counts are those of io.Reader and io.Writer",
  "Read, Write, WriteMessage and WriteMessageSingle return counts between 0 and the length of the slice, Read the number of bytes it has put there, and the others less than the length only with an error, as the documentation of package io demands of everything that is given to functions with an io.Reader or io.Writer.",
  "all calls, all contents of the queue, all results of sending", "Tests ignore the counts of failed calls and of WriteMessageSingle.",
  ["session.go: read, Read, write, Write, WriteMessage, WriteMessageSingle, sendMessages","messenger.go"])
p("io.ReadAll gets all that was sent",
  "io.ReadAll (Go 1.16 or newer) on a session returns all bytes of the messages that came before the end of the session, and nil.",
  "all series of messages", "Tests do not use io.ReadAll.",
  ["session.go: read, Read"])
p("io.Copy copies all that was sent",
  "io.Copy from a session writes all messages that came before the end of the session to the target, and returns nil.",
  "all series of messages", "Tests do not use io.Copy.",
  ["session.go: read, Read"])
p("A session may be read through bytes.Buffer and bufio.Reader",
  "(*bytes.Buffer).ReadFrom (also called by io.Copy to a buffer) and bufio.Reader read a session to its end without a panic.",
  "all series of messages", "Tests do not use these types.",
  ["session.go: read, Read"])
p("io.ReadFull reads the bytes asked for",
  "If enough bytes have been sent, io.ReadFull puts exactly len(buf) bytes into the buffer, returns len(buf) and nil, and the next Read goes on with the byte after these.",
  "all series of messages, all lengths of the buffer", "Tests read with buffers that are longer than the messages.",
  ["session.go: read, Read"])

p("An echo is not a peer",
  "Whoever only sends packets of a session back to it, and knows neither a private key nor the PSK, is not taken for the remote side: the key exchange does not succeed, OnConnect is not called, no cipher keys are made, and MutualConfirmationOfIdentity does not return keys.",
  "all options with and without a PSK and a remote identity, all keys, all executions in which only own packets arrive", "Tests always run two sessions.",
  ["key_exchanger.go: parseAndCheck, setRemoteIdentityFromPublicKey, Handle","session.go: decrypt, sendMessages","identity.go: MutualConfirmationOfIdentity"])
p("Own messages are not received",
  "A packet which an established session has sent and which somebody sends back to it is not accepted: no message that this side has sent is delivered to this side.",
  "all keys, session IDs, packet IDs and messages, with and without fragmentation", "Tests never send packets back.",
  ["session.go: decrypt, tryDecrypt, sendMessages, writeMessageFragment"])

p("Write does not keep the slice",
  "After Write or WriteMessage has returned, the session does not read the slice any more; everything that is sent for the call is the content of the slice at the time of the call (the contract of io.Writer).",
  "all payloads, all payload sizes, with and without fragmentation and delay, all interleavings with the end of the context and of the session", "Tests do not use a slice again while a context ends.",
  ["session.go: WriteMessage, WriteMessageAsync, writeMessageAsyncAsFragmented, writeMessageFragment, sendMessages, isDone","send_info.go: Wait"])

p("EnableInfo and EnableDebug decide what the output channels carry",
  "With EnableInfo a user who keeps up receives every INFO message from InfoOutputChan, in order, and without EnableInfo none; the same for EnableDebug (and the build tag) and DebugOutputChan.",
  "all options and build tags, all series of messages, all interleavings with the user", "Tests set EnableDebug everywhere, and EnableInfo never alone.",
  ["session.go: ifInfo, infof, InfoOutputChan, DebugOutputChan, SessionOptions","session_debug.go","session_nodebug.go"])
p("The output channels do not disturb the session",
  "Logging never blocks and never crashes, whether or not anybody receives and also after the end of the session; what is received was logged, in this order and not twice; a reader of a channel is told its end, after everything that is in it.",
  "all options, all series of messages, all interleavings of logging, closing and receiving", "Needs full channels and messages after the end.",
  ["session.go: infof, readerLoopCleanup, init","session_debug.go: debugf"])
p("OnConnect means that the session is established",
  "OnConnect is called exactly for sessions that become Established: at the call the state is Established, and no session gets Established without it.",
  "all interleavings of Start, Close, SetPause, the reader, the key exchange and the negotiation", "Needs a Close between the end of the key exchange and OnConnect.",
  ["session.go: onConnect, onKeyExchangeSuccess, Close, readerLoopCleanup","session_state.go: Set"])

p("SendNowAndWait returns",
  "A call of SendNowAndWait for a SendInfo that was returned by WriteMessageAsync returns after the message was sent, or when the context of the session has ended, and does not crash.",
  "all options, all reachable states, all interleavings with other writers and the sender loop, all answers of the backend", "A test without the delay, or with a fragmented message, hangs or crashes; the only test that calls it uses the delay and a small message.",
  ["send_info.go: SendNowAndWait, Wait, Release","session.go: delayedSenderLoop, startDelayedSender, onConnect, sendDelayedNow, WriteMessageAsync"])

p("Writing alone never crashes",
  "In a session with SendDelay, as long as nobody calls Close, calls of WriteMessageAsync and Release, together with the sender loop of the session, never crash the process with a panic that is not recovered.",
  "all sequences of writes of all sizes by any number of goroutines, all interleavings with the sender loop, all answers of the backend, all choices of the pool", "The crash needs three writers, a full buffer, and the pool handing out one particular object between two instructions of a writer.",
  ["session.go: writeMessageAsync, waitForSend, appendToDelayedWriteBuffer, delayedSenderLoop, sendDelayedNow, onConnect","send_info.go: AcquireSendInfo, Put, incRefCount, Release"])

p("Errors tell the truth about sizes",
  "The two sizes in an ErrTooShort, ErrPayloadTooBig or ErrWrongKeyLength are the size that was given and the size it was compared with: RealLength < ExpectedLength, RealSize > MaxSize, RealLength != ExpectedLength. An input of the size that the error asks for is not refused for the same reason.",
  "all inputs of all functions that return or report one of these errors", "The existing test only looks at the type of each error; a wrong number needs an input between two sizes.",
  ["errors.go: ErrTooShort, ErrPayloadTooBig, ErrWrongKeyLength","negotiator.go: parseMessage, Handle","session.go: WriteMessageAsync, WriteMessageSingle, sendMessages, writeMessageAsync, read, decrypt, processIncomingMessages","message.go, message_fragment_headers.go: Read, Write","identity.go","key_exchanger.go: parseAndCheck"])

p("Names identify what they name",
  "MessageTypeChannel(n).String() is `channel` followed by n, and two different message types, session states, packet IDs or kinds of keys have different names.",
  "all 2^32 message types, all states, all 2^64 packet IDs, all kinds of keys", "The existing test compares the names of the first 255 message types only, and does not look at the number in the name.",
  ["message.go: MessageType.String, MessageTypeChannel, packetID.String","session_state.go: SessionState.String","key_exchanger.go: secretID.String"])

p("WaitForClosure waits until everything has finished",
  "When WaitForClosure has returned, the session is Closed, and from then on it does not read from the backend and calls no handler, neither OnConnect nor Error.",
  "all interleavings of Start, Close, WaitForClosure, NewMessenger, the reader, the key exchange, the negotiation and the callbacks", "Whether a goroutine is still running when WaitForClosure returns depends on the scheduler; a test that waits sees the callback that was missed only by chance.",
  ["session.go: WaitForClosure, Start, startReader, startBackendCloser, startKeyExchange, NewMessenger, startDelayedSender, onConnect, readerLoopCleanup","key_exchanger.go: WaitForClosure, start, loop, Handle, mustSendPublicKey","negotiator.go: Start, finalize"])

p("A message is delayed by SendDelay at most",
  "A message that WriteMessageAsync has accepted is given to the backend when SendDelay has passed at the latest, apart from the time the backend needs for the packet before and for the packet of the message itself.",
  "all values of SendDelay and of the packet size, all sequences of writes at any times, all durations of backend writes, all interleavings with the timer and the sender loop", "The delay depends on when the other messages come; a test measures one pattern of traffic.",
  ["session.go: SessionOptions.SendDelay, writeMessageAsync, appendToDelayedWriteBuffer, sendDelayedNow, delayedSenderLoop, onConnect"])

p("Replaced keys are forgotten",
  "The keys a session sends and decrypts with are computed from one of the last two ECDH keys it has made and one of the last two ECDH keys its peer has made. Whoever learns an ECDH private key that was replaced twice can compute no key in use.",
  "all configurations, all received messages (also replayed ones), all numbers of key updates, all interleavings of the loop, the reader and the answering goroutines, all primitives", "A test sees that new keys work, not that old ones are out of use; the exceptions need a replayed message or a race of three goroutines.",
  ["key_exchanger.go: updateLocalKey, setNextRemotePublicKey, updateSecrets, generateSharedKeyBySecretID, Handle", "session.go: setSecrets"])

p("Close sends what was accepted before",
  "A message which Write or WriteMessageAsync accepted before Close was called, and which still waits for the send delay, is sent before Close returns, unless the backend refuses it. When Close has returned the result of every such message is known.",
  "all configurations without fragmentation, all interleavings of writers, sender loop and Close, all numbers of waiting messages, all results of the backend", "Tests write, wait for the result and close afterwards; with a message still waiting the loss is silent unless the result is looked at.",
  ["session.go: startClosing, Close, isDone, sendDelayedNow, sendMessages"])

p("Messages of the protocol do not multiply",
  "A session sends at most one answer for each key-exchange request it receives, all answers together are not longer than the requests, and an answer is not answered; everything else it sends for the key exchange is due to its own interval or to a repetition. Each pong it sends answers one received ping of the same size, it sends at most one control message for each received pong, and control messages are not answered. Two sides that answer each other come to rest.",
  "all configurations, all received messages in any number and order (also replayed ones), all interleavings of the loop, the reader and the answering goroutines, all losses and reorderings on the way", "Two sides that keep answering each other, or a message that is answered twice, show only as load.",
  ["key_exchanger.go: Handle, mustSendPublicKey, KeyUpdateSendWait, retryUntilSuccessOrTimeout", "negotiator.go: Handle, handlePingPongMessage, sendControl"])

p("A write ends when the session has ended",
  "Every call of Write, WriteMessage or WriteMessageAsync that is in progress when the session ends returns, with a result or an error, without anybody else having to do anything.",
  "all reachable states, all numbers of concurrent writers, all message sizes, all interleavings of writers, sender loop and Close", "The busy loop needs two writers waiting for room at the moment of Close; a test sees a hang only if it waits for its own writers.",
  ["session.go: writeMessageAsync, waitForSend, delayedSenderLoop, startClosing, GetEstablishedPacketSize"])

p("A message that is dropped is reported",
  "Every message of an accepted packet is handed to the handler or to the queue of its type, or Error of the event handler is called, because there is nobody else the loss could be reported to.",
  "all configurations, all handlers, all accepted packets with any messages, fragments in all orders and numbers", "The sender gets a success and the receiver gets nothing; a test that does not wait for this very message sees no failure.",
  ["session.go: processIncomingMessages, processIncomingMessageFragment, processIncomingMessage", "event_handler.go: EventHandler.Error"])

p("Read returns when the session has ended",
  "Every call of Read that is waiting when the session ends, and every later one, returns, with a message or an error, also if a messenger or handler has been registered for MessageTypeReadWrite.",
  "all numbers of concurrent calls of Read and of registrations, all interleavings with the reader goroutine and its end, all later events", "A hanging Read shows only if the registration falls between its look-up of the channel and the next message.",
  ["session.go: Read, read, NewMessenger, setMessenger, readerLoopCleanup"])

p("Registering a messenger loses no message",
  "A message that was received before a messenger or handler is registered for its type is returned by Read or given to the new handler.",
  "all numbers of messages, calls of Read and registrations, all interleavings, all later events", "Tests register their handlers before the first message arrives.",
  ["session.go: setMessenger, processIncomingMessage, Read, read"])

p("The functions given to SetHandlerFuncs are called",
  "Each message of a type with handler functions is passed to handle of the last registration for this type, exactly once and in order, and each error that handle returns is passed to onError.",
  "all functions, all sequences of registrations and messages of all types", "The only test of onError calls HandleError itself; nothing else does.",
  ["session.go: SetHandlerFuncs, handlerByFuncs.Handle, handlerByFuncs.HandleError, processIncomingMessage"])

p("Two sides with a common key agree on who they are",
  "If two sessions of different identities have a cipher key in common, the remote identity of each is the identity of the other.",
  "all pairs of sessions, all executions, all messages an attacker with an identity of their own can make", "The attack (unknown key share) needs a third party that signs somebody else's ECDH key; both honest sides see a normal session.",
  ["key_exchanger.go: sendPublicKey, send, Handle, parseAndCheck, generateSharedKey"])

p("Packets of an outsider do not keep out those of the peer",
  "Whether a packet of the peer is accepted does not depend on packets made by somebody who has none of the exchanged keys, or recorded in another session.",
  "all histories of packets, all packet IDs, all keys, all later packets in every run", "One packet with a high packet ID is enough, and its effect is silence; tests have no outsider.",
  ["session.go: readerLoop, decrypt, checkAndRememberPacketID", "packetid_storage.go: Push"])

p("A peer that begins a new session is not ignored",
  "If the peer has ended its session (or crashed) and begins a new one over the same backend of datagrams, the session that is still there receives the messages of the new one, or ends, or reports an error.",
  "all histories of the old session, all packets of the new one, all interleavings", "Tests end both sides together; with a short history the packet IDs of the new session are still within the window.",
  ["session.go: getNextPacketID, readerLoop, checkAndRememberPacketID", "packetid_storage.go: Push"])

p("A key update is over only when the peer has the new key",
  "When an update of the local key is over (the exchanger sends its public key no more and may begin the next update), the peer has received the new public key.",
  "all pairs of exchangers, all executions, all losses and delays of messages", "It needs an answer that is late by a key interval and a request that is lost; tests run over a reliable pipe.",
  ["key_exchanger.go: Handle, sendSuccessNotifications, retryUntilSuccessOrTimeout, updateLocalKey"])

p("The exchanged key is known to the two sides only",
  "If the remote identity of a session is not the attacker's, each of its exchanged keys is made of an ECDH key of this session and one of a session of the remote identity, so that nobody without one of these private keys can compute it, even with all identity keys and pre-shared keys at a later time.",
  "any number of sessions of any honest identities, all executions over a network that an attacker controls, all later knowledge of the attacker", "A statement about everything an attacker could send and compute.",
  ["key_exchanger.go: Handle, parseAndCheck, setRemoteIdentityFromPublicKey, updateSecrets, generateSharedKey, sendPublicKey"])

p("The key files of the quick start can be used",
  "With key files made by ssh-keygen -t ed25519, as README.md says, NewIdentity returns the identity with this key, and NewRemoteIdentity returns the remote identity for the public key file.",
  "all keys, all comments, encrypted and unencrypted private keys, all runs of NewIdentity on the directory", "The tests make their keys with the package itself.",
  ["README.md: Quick start", "identity.go: NewIdentity, NewRemoteIdentity, loadPublicKeyFromFile, loadPrivateKeyFromFile"])

p("With fragmentation no message is refused for its size",
  "With EnableFragmentation, a write of a message never fails with ErrPayloadTooBig on a session on which Close has not been called; a message bigger than the established payload size is sent in fragments.",
  "all payloads below 4 GiB, all limits and negotiated sizes, all interleavings of any number of writes with the negotiation and the flushes of the buffer, with and without SendDelay", "Depends on whether the write begins before or after the negotiation ends, and on a path that carries less than the limit.",
  ["session.go: WriteMessageAsync, writeMessageAsyncAsFragmented, writeMessageAsync, sendMessages, GetEstablishedPayloadSize, SessionOptions.EnableFragmentation", "negotiator.go: finalize"])

p("A write to a closed session fails with ErrAlreadyClosed",
  "A call of Write, WriteMessage or WriteMessageSingle that begins when the session is Closed returns an error, and the error is ErrAlreadyClosed (with fragmentation: every error in it).",
  "all payloads and application message types, all options, sessions that were Established before and those that were not, all choices of select statements", "Which case of a select is taken when several are ready is random; the wrong cases need a session that was Established before it was closed.",
  ["errors.go: ErrAlreadyClosed", "session.go: WriteMessage, WriteMessageSingle, WriteMessageAsync, writeMessageAsync, writeMessageAsyncAsFragmented, sendMessages, GetEstablishedPayloadSize, GetCipherKeysWait", "send_info.go: Wait"])

p("WriteMessageAsync does not wait",
  "With a SendDelay, WriteMessageAsync returns by steps of its own only: it does not wait for the other side, nor for the sending of any message.",
  "all payloads below 4 GiB, all sizes, all interleavings of any number of writes with the negotiation and the flushes of the buffer", "A statement about waiting: it needs a session that is not established, or a full buffer.",
  ["README.md: Send a message asynchronously", "session.go: WriteMessageAsync, writeMessageAsync, writeMessageAsyncAsFragmented, GetEstablishedPayloadSize, waitForSend"])

p("The channel of Done is closed in the end",
  "For each message that WriteMessageAsync has accepted, the channel of SendInfo.Done is closed in the end, also when the session is closed before the message is sent.",
  "all messages, all interleavings of any number of writers with the sender loop, Close, and the end of the context", "A wait for ever cannot be observed by a test; the message has to be written between the last flush of Close and the end of the session.",
  ["README.md: Send a message asynchronously", "send_info.go: Done", "session.go: writeMessageAsync, sendDelayedNow, delayedSenderLoop, Close, startClosing"])

p("SendID is unique",
  "Two calls of WriteMessageAsync get different SendIDs, and a SendID is never given again.",
  "all messages, all interleavings of any number of writers with the sender loop and Close, all behaviours of the pool of SendInfos", "A statement about all pairs of requests; the existing test compares a constant with itself.",
  ["send_info.go: SendID, AcquireSendInfo", "session.go: appendToDelayedWriteBuffer, sendDelayedNow"])

p("The time a packet takes says nothing about its checksums",
  "Of two packets of the same length that are refused, neither takes longer than the other on account of the checksums they carry; so measuring the time does not help to find a valid checksum.",
  "all packets, keys, ciphers and checksum functions, all costs of the operations that grow with the number of words compared, all word sizes of bytes.Compare", "Checksums have 2^128 values, and a test compares results, not times.",
  ["session.go: checkHeadersChecksum, checkMessagesChecksum, tryDecrypt, decrypt"])

p("What Sign has signed is accepted by VerifySignature",
  "After i.Sign(signature, data), VerifySignature(signature, data) succeeds for the identity i and for a remote identity with the public key of i; neither function crashes.",
  "all identities that the constructors make, all data, all lengths of the slice for the signature, all signature schemes with the sizes of Ed25519", "Only the key exchange calls it, always with a slice of the right length; there is no test for the others.",
  ["identity.go: Sign, VerifySignature, NewIdentityFromPrivateKey, NewRemoteIdentityFromPublicKey"])

p("SendInfo.N is the number of bytes written to send the message",
  "After Done, N of the SendInfo is the number of bytes that the backend has taken for the packet or packets with the message, also if there was an error.",
  "all messages, states of the buffer, options, backends, keys and ciphers", "The tests never look at N.",
  ["send_info.go: SendInfo.N", "session.go: WriteMessageAsync, writeMessageAsyncAsFragmented, sendDelayedNow, sendDelayedNowSyncFromBuffer, sendMessages"])

p("Messages of one goroutine are sent in the order of its calls",
  "If a goroutine calls WriteMessage, WriteMessageAsync and WriteMessageSingle one after the other, nothing of a later message is written to the backend before all of an earlier one.",
  "all sequences of calls, all sizes of messages, all schedules of the sender loop and of the goroutines of the fragments", "Whether a message overtakes another depends on the scheduler, and the tests do not mix the methods.",
  ["session.go: WriteMessage, WriteMessageSingle, WriteMessageAsync, writeMessageAsyncAsFragmented, sendDelayedNow, delayedSenderLoop"])

p("Messages written before the session is Established are sent when it is",
  "A write that begins before the state Established waits; when the session gets there its message is sent (README.md).",
  "all messages, payload size limits and negotiated sizes, with and without a delay and fragmentation, all orders of the calls, the negotiation and the sender loop", "The outcome depends on whether the negotiation ends before or after the size of the message was compared.",
  ["README.md: Established", "session.go: WriteMessageAsync, writeMessageAsync, writeMessageAsyncAsFragmented, sendMessages, GetEstablishedPayloadSize", "negotiator.go: finalize"])

p("Packet IDs start with zero and increase by one",
  "The packets which a session sends have the packet IDs 0, 1, 2, … in the order of sending (README.md).",
  "all sequences of sent and received packets, failed writes, all keys and ciphers", "The tests do not look at packet IDs, and the numbers depend on what is received in between.",
  ["README.md: Encryption", "session.go: getNextPacketID, sendMessages, decrypt", "message.go: AcquireMessagesContainerHeaders"])

p("GetEstablishedPayloadSize returns the result of the negotiation",
  "Each call of GetEstablishedPayloadSize that returns has returned the payload size received as the result of the negotiation (without one: the configured limit, once connected), and GetEstablishedPacketSize that size and 53 bytes of headers; before there is a result the calls wait.",
  "all limits and negotiated sizes, any number of calls at any time, all interleavings with Start, the negotiation, SetPause, Close and the end of the context", "The value returned by a call on a closed session is that of a random choice of a select.",
  ["session.go: GetEstablishedPayloadSize, GetEstablishedPacketSize, setEstablishedPayloadSize, onConnect, Start, Close, setState", "negotiator.go: finalize"])

p("WriteMessageSingle sends a message by itself",
  "A packet made by WriteMessageSingle (or Messenger.WriteSingle) contains that message only: the receiver delivers it and nothing else, also with a SendDelay; the bytes are those which WriteMessage would send without a SendDelay.",
  "all payloads below 4 GiB minus 53 bytes, all message types but that of the key exchange, all keys, sizes and ciphers, every receiver that has the key in any position", "Unbounded payloads and receivers.",
  ["session.go: WriteMessageSingle, writeMessageSingle, sendMessages", "messenger.go: WriteSingle"])

p("Concurrent calls do not share buffers",
  "However many goroutines write, flush, receive and read on one session at once, and whatever the pools return, no buffer, header or read item is used by two of them: the bytes that a call sends (or gives to the user) are made of its own data only, no delayed message and no received message is lost, mixed or altered, no `should not happened` panic of a pool occurs, and all objects are back in the pools when the calls have ended.",
  "any number of goroutines and calls of all ten kinds, all interleavings, all early returns, all choices of sync.Pool, all contents", "Reuse of pooled memory under concurrency depends on schedules; a race detector sees only those that happen.",
  ["buffer_pool.go: AcquireBuffer, Release", "message.go: messageHeadersPool, messagesContainerHeadersPool", "message_fragment_headers.go: Release", "read_item.go: AcquireReadItem, Release",
   "session.go: WriteMessageSingle, WriteMessageAsync, writeMessageFragment, writeMessageSingle, appendToDelayedWriteBuffer, sendDelayedNow, sendMessages, decrypt, processIncomingMessage, read"])

p("A pause can last as long as the user wants",
  "A session that is paused with SetPause(true), and that nobody closes, is still open when SetPause(false) is called, however long the pause was.",
  "all options, all executions before and during the pause, all lengths of the pause, all messages of the other side", "Tests pause for moments; key updates begin after a minute.",
  ["session.go: SetPause, waitForUnpause, startKeyExchange", "key_exchanger.go: loop, KeyUpdateSendWait, retryUntilSuccessOrTimeout"])

p("A peer that is gone is noticed",
  "A session whose other side has disappeared without closing the connection (nothing arrives that completes a key exchange) closes, and reports an error if nothing else has closed it, at most KeyUpdateInterval + Timeout later.",
  "all options, all answers modes, all executions on a computer that is fast enough, all moments at which the other side falls silent, all other messages that arrive", "A test sees one moment of one update; what matters is every point of the loop at which the silence can begin.",
  ["key_exchanger.go: loop, KeyUpdateSendWait, updateLocalKey, retryUntilSuccessOrTimeout, sendSuccessNotifications, sendPublicKey", "session.go: startKeyExchange"])

p("A key is not used for longer than KeyUpdateInterval",
  "As long as a session is open, it replaces its ECDH key, and with it the cipher key, at most KeyUpdateInterval (by default one minute) after it has made it.",
  "all options, all executions on a computer that is fast enough, all messages of the other side at any time", "How long a key lasts depends on when exchanges end and on which goroutine made it; a test measures single updates.",
  ["README.md: The key is updated every minute", "key_exchanger.go: KeyExchangerOptions, loop, KeyUpdateSendWait, updateLocalKey, sendPublicKey"])

p("Close returns immediately",
  "Close does not wait for anything: in whatever state the session is and whatever other goroutines do (the sender may hang in backend.Write), a successful Close returns after a bounded number of its own steps and never writes to the backend itself.",
  "all reachable states of a session with a send delay, all interleavings with any number of writers, the sender loop and the holders of SendInfos", "A test calls Close on a quiet session; whether the loop of startClosing ends depends on what others write meanwhile.",
  ["session.go: Close, startClosing, sendDelayedNow, writeMessageAsync, isDone"])

p("Closing a session is not an error",
  "After the user has called Close, EventHandler.Error is not called: what the goroutines of the session run into because it is closed (a Read that is interrupted, a write that is refused, a cancelled context) is not reported as an error.",
  "all executions of reader, key exchanger and negotiator, all moments at which Close is called, all messages that arrive", "Which goroutine is where when Close is called is a matter of timing, and the handlers of the tests accept errors of closed sessions.",
  ["event_handler.go: EventHandler", "session.go: Close, startClosing, readerLoopReadError, processIncomingMessage, initNegotiator, startKeyExchange", "key_exchanger.go: Handle, KeyUpdateSendWait, retryUntilSuccessOrTimeout, mustSendPublicKey", "negotiator.go: pingSenderLoop"])

p("Cancelling the context of Start ends the session",
  "After the context that was given to Start is cancelled, the session becomes Closing and then Closed, and its goroutines end, as after Close; Start itself returns (with or without an error) if the context is cancelled before or while it runs.",
  "all sessions, all moments at which the context is cancelled, all calls of Close and SetPause at the same time", "Tests cancel the context of a connected session or not at all.",
  ["session.go: Start, startBackendCloser, initNegotiator, startKeyExchange, NewMessenger, isDoneSlow, readerLoop", "negotiator.go: newNegotiator", "key_exchanger.go: newKeyExchanger"])

p("An identity that a constructor returns can be used",
  "What NewIdentity, NewIdentityFromPrivateKey, NewRemoteIdentity and NewRemoteIdentityFromPublicKey return is nil or can be used: a remote identity to check signatures, the identities of the first two constructors also to sign, with signatures that are accepted.",
  "all keys, all contents of the key files, all failures of the file system and of the random generator, all signature schemes with the sizes of Ed25519", "Tests look at the identity only when there was no error.",
  ["identity.go: NewIdentity, prepareKeys, generateAndSaveKeys, loadKeys, NewIdentityFromPrivateKey, NewRemoteIdentity, NewRemoteIdentityFromPublicKey, Sign, VerifySignature"])

p("Errors about keys can be recognised",
  "An error of the constructors of Identity because of a key of a wrong size is recognised by errors.As as ErrWrongKeyLength with the two sizes, and one because keys could not be read or parsed as ErrCannotLoadKeys.",
  "all keys, all contents of the key files, all failures of the file system", "Tests check that there is an error, not its type.",
  ["errors.go: ErrWrongKeyLength, newErrWrongKeyLength, ErrCannotLoadKeys, newErrCannotLoadKeys", "identity.go: NewIdentity, prepareKeys, loadPublicKeyFromFile, loadPrivateKeyFromFile, NewIdentityFromPrivateKey, NewRemoteIdentity, NewRemoteIdentityFromPublicKey"])

p("A request of a key that is not answered is repeated every RetryInterval until Timeout",
  "On a computer and with a backend that are fast enough, while the key exchanger waits it sends its request at each multiple of RetryInterval and at no other time, and gives up exactly at Timeout. However slow they are, it does not send more often than once per RetryInterval on average, and after a success it sends nothing and does not time out.",
  "all positive RetryIntervals, all Timeouts, all arrivals of answers, all choices of select", "The random choices of select and slow backends are not exercised by tests.",
  ["key_exchanger.go: KeyUpdateSendWait, retryUntilSuccessOrTimeout, mustSendPublicKey"])

p("GetRemoteIdentity returns the identity that has signed the keys of the session",
  "Each exchanged key of a session is the shared key of an own ECDH key and an ECDH public key in a received message that carries a valid signature of the identity which GetRemoteIdentity returns. If a remote identity was configured it always returns this one; if not, it returns nil exactly until a message is accepted, and not nil as soon as the key exchange counts as successful or an exchanged key is there.",
  "all executions of the key exchanger, all bytes received, all primitives", "Tests use one honest peer.",
  ["session.go: GetRemoteIdentity, setSecrets", "key_exchanger.go: Handle, parseAndCheck, setRemoteIdentityFromPublicKey, updateSecrets"])

p("The error of MutualConfirmationOfIdentity says what went wrong",
  "MutualConfirmationOfIdentity returns either four keys and no error, or an error; and if it got no keys and its handler of errors was told that a packet cannot be decrypted (as with a wrong PSK), the error is ErrCannotDecrypt.",
  "all options, all orders of packets, of errors and of the steps of the call and of the reader loop", "The test with wrong PSKs only looks for any error, and the outcome depends on the order of goroutines.",
  ["identity.go: MutualConfirmationOfIdentity", "event_handler.go: wrapErrorHandler, Error", "session.go: readerLoopDecryptError"])

p("What is received does not pile up goroutines",
  "The number of goroutines of a session that were started because a message was received is bounded, whatever is received and however slow the backend takes what is written.",
  "all sequences of received bytes, all schedules of goroutines and speeds of the backend", "It needs a backend whose Write waits while messages come in.",
  ["key_exchanger.go: Handle, mustSendPublicKey, sendPublicKey, send"])

p("GetEphemeralKeys returns the last generated shared keys",
  "GetEphemeralKeys returns nil before the first exchange of keys and later four keys, which are those packets are encrypted and decrypted with (GetCipherKeys). When no key update is under way, the first of them is the shared key of the last ECDH key this side made and the last one it accepted; so both sides get the same one as soon as each has accepted the last key of the other.",
  "all executions of the key exchanger, in particular all interleavings of the loop, Handle and the answering goroutines, all primitives", "Tests compare the keys after one exchange.",
  ["session.go: GetEphemeralKeys, setSecrets, onReceiveSecrets", "key_exchanger.go: updateSecrets, updateLocalKey, Handle"])

p("Packets of an outsider do not end a session",
  "Packets made by somebody who has neither an exchanged key nor the PSK, with messages that carry no signature of the peer, do not make the session close or detach from its backend, unless DetachOnSequentialDecryptFailsCount or DetachOnMessagesCount were set to have this effect.",
  "all byte strings received in all orders, all keys, identities and options, all primitives", "Everything anybody can send; tests have no outsider.",
  ["session.go: readerLoop, readerLoopDecryptError, processIncomingMessages, startKeyExchange, SessionOptions.DetachOnSequentialDecryptFailsCount", "key_exchanger.go: parseAndCheck"])

p("An error is reported once",
  "For every packet that is received, EventHandler.Error is called at most once for each message in it, exactly then when the message is refused, and at most once for an incomplete rest and for a packet that cannot be decrypted; a ping of the negotiation that cannot be sent is reported once.",
  "all packets, messages, keys, identities, PSKs, options and states of the reader, all results of writes and of handlers", "Tests do not count the calls; a handler that counts or logs errors sees more errors than there are.",
  ["session.go: processIncomingMessage, processIncomingMessages, readerLoopDecryptError, startKeyExchange, initNegotiator", "key_exchanger.go: parseAndCheck, Handle", "negotiator.go: pingSenderLoop, sendControl, Handle"])

p("Packets of an outsider do not stop a session",
  "Whatever packets made without any key of the session arrive, at whatever time and in whatever number, the session still gets Established, reads what the peer sends, and negotiates the payload size that it would negotiate without them.",
  "all packets, keys, IDs, options and schedules of the goroutines, all primitives", "Needs an outsider who sends a message that the library itself never sends unencrypted.",
  ["session.go: Start, readerLoop, processIncomingMessage, decrypt, initNegotiator, onKeyExchangeSuccess", "negotiator.go: handleControlMessage, Start, finalizer, finalize", "key_exchanger.go: Handle, sendSuccessNotifications"])

p("A session can be closed although its peer does not read",
  "After Close the session gets Closed, its goroutines end, and CloseAndWait, WaitForClosure and pending calls of Write return, also if the peer has stopped reading and the buffers of the backend are full.",
  "all backends, buffer sizes and schedules", "Needs full buffers on a real connection at the moment of Close.",
  ["session.go: sendMessages (backend.Write), delayedSenderLoop, startBackendCloser, interruptRead, setBackendReadDeadline, readerLoop, Close, CloseAndWait, WaitForClosure", "key_exchanger.go: loop, sendPublicKey", "negotiator.go: handlePingPongMessage"])

p("Each key exchange has ECDH key pairs of its own",
  "The README says that ECDH keypairs are generated for each key exchange: the key exchange messages of two different exchanges of a session, requests and answers, do not carry the same ECDH public key, and every one of them carries a key made in this session.",
  "all executions of the key exchanger, all peers", "Needs a look at the keys of every message in all interleavings of the loop with received requests.",
  ["README.md: Key exchanging (ECDH keypairs are generated for each key exchange)", "key_exchanger.go: updateLocalKey, getNextKeyCreatedAt, sendPublicKey, Handle, KeyUpdateSendWait, retryUntilSuccessOrTimeout"])

p("Messages written within the send delay are merged into one packet",
  "The README says that all messages collected in a send delay are merged into one, sent, and split again: messages that fit into a packet together and are accepted before the timer expires leave in one packet, in their order, unless there is no room for the next message, SendNowAndWait is called, or the session is connected or closed.",
  "all messages, schedules and numbers of writers, without fragmentation", "Depends on the interleaving of the writers with the sender loop and onConnect within microseconds.",
  ["README.md: Benchmark (merges all your messages collected in 50 microseconds into a one)", "session.go: writeMessageAsync, appendToDelayedWriteBuffer, waitForSend, sendDelayedNow, delayedSenderLoop (lastSendID), onConnect"])

p("A write that waits for room in the packet is not overtaken for ever",
  "A call of WriteMessageAsync (or Write) whose message fits into a packet but not into the one being filled waits until that packet is sent; after a bounded number of packets its message is accepted, however many other goroutines write at the same time.",
  "all messages, packet sizes, schedules and numbers of writers, without fragmentation", "Starvation needs an unbounded execution with an unlucky schedule; a test sees a finite one.",
  ["session.go: writeMessageAsync (the loop), waitForSend, delayedWriteBufLockDo, sendDelayedNow, delayedSenderLoop"])

p("Nothing happens to a session that is Closed",
  "The README says: if state Closed is reached it means the session is dead and nothing will ever happen to it anymore. Once GetState returns SessionStateClosed, no function of the EventHandler is called, the backend is neither read nor written nor closed nor given a deadline, and Start, Close and SetPause are refused.",
  "all schedules and API calls of a session, backends with and without deadlines", "The last steps of the reader, the backend closer and the negotiation race with the change to Closed.",
  ["README.md: Closing / Closed (nothing will ever happen to it anymore)", "session.go: readerLoopCleanup, startBackendCloser, interruptRead, onKeyExchangeSuccess, onConnect, SetPause, Close, Start"])

p("Over a whole session answers are sent and waited for as AnswersMode is documented",
  "In an exchanger with KeyExchangeAnswersModeDisable no message marked as an answer is ever sent. With AnswerAndWait the exchange is reported as successful at most as often as an answer was received. With the other modes it is reported once for each accepted message. With all modes but Disable each accepted message that is not an answer is answered, or the failure to do so is reported.",
  "all sequences of received messages, all interleavings of the reader, the loop and the answering goroutines, all results of the backend", "The answers are sent by goroutines that run at any time later; tests use one mode and few messages.",
  ["key_exchanger.go: KeyExchangeAnswersMode, Handle, sendSuccessNotifications, mustSendPublicKey"])

p("UDP packets of a session are not fragmented on their way",
  "The README says that traffic fragmentation is not supported and has to be disabled for UDP. NewSession tells each backend that it treats as UDP (IsLossyWriter) not to fragment, or the event handler is told that this failed; so on a path that carries datagrams of a certain size in one piece, messages of up to the negotiated size go in one piece. Other backends are left alone.",
  "all types of backends, all results of setting the option, all sizes a path can carry, all executions of the negotiation", "Tests run on the loopback interface, which carries 64 KiB in one piece.",
  ["session.go: setupBackend, init", "is_lossy_writer.go: IsLossyWriter", "negotiator.go: isEnabled", "README.md: limitations (traffic fragmentation)"])

p("Who sees the packets learns their number and sizes, but not their contents",
  "Somebody who sees all that a session hands to its backend, and has neither the PSK nor the exchanged keys, learns nothing about the messages but the sizes of the packets: for any other messages of the same sizes there is a key stream with which the same bytes would have been sent. With a PSK the packet IDs are hidden as well, as the README says.",
  "all crypto primitives with an unknown key stream, all keys, session IDs, numbers of packets below 2^64, and contents; other sessions with the same PSK included", "A test compares packets with one key stream; what an observer can conclude is a statement about all of them.",
  ["session.go: sendMessages", "crypt.go: encrypt, emptyIV", "message.go: AcquireMessagesContainerHeaders", "README.md: Encryption"])

p("Each round of the negotiation tries three sizes in a shorter interval than the round before",
  "The README says that packets of 3 different sizes are sent, that those that make a round trip are looked at, and that this is repeated in a shorter interval. So in each round of the negotiation packets of three different sizes are sent, and the interval of sizes of each round is shorter than that of the round before.",
  "all executions of two sides, with loss, reordering and duplication; all limits from 147 to 2^30; all numbers of iterations", "Tests run over transports that carry everything, where the first round is the last one.",
  ["negotiator.go: pingSenderLoop", "README.md: Negotiation"])

p("MutualConfirmationOfIdentity confirms nobody who has another PSK",
  "As long as no packet that arrives has valid tags under the key made from the PSK of this side, MutualConfirmationOfIdentity gives no keys and no confirmation, accepts no key of the key exchange, does not send its message and reads none, whoever sends the packets. So of two sides with different PSKs, neither confirms the other, unless a packet sealed under the key of one PSK happens to have valid tags under that of the other.",
  "all executions of the call, all packets without valid tags, all PSKs and the absence of one; all executions of two sides over a network that loses, repeats and reorders", "TestIdentityMutualConfirmationOfIdentityWithWrongPSK tries one pair of PSKs in one schedule.",
  ["identity.go: MutualConfirmationOfIdentity", "session.go: decrypt", "key_exchanger.go: Handle"])

p("GetEphemeralKeys returns the same keys on both sides",
  "When both sides have accepted all ECDH keys of each other and no update of the keys is under way, GetEphemeralKeys, and so MutualConfirmationOfIdentity, returns the same list of keys on both sides (the tests of MutualConfirmationOfIdentity compare the lists).",
  "all executions of both sides in which key updates of one side do not overlap, with any number of exchanges; all PSKs and ECDH keys", "The tests look at the lists after the first exchange only.",
  ["session.go: GetEphemeralKeys", "key_exchanger.go: updateSecrets", "key_exchanger.go: generateSharedKeyBySecretID", "identity_test.go"])

p("A packet refused for its packet ID has no effect but on the counter",
  "Whatever packets arrive: those refused for their packet IDs cause no delivery, no report and no end of the session, and all other packets have the same effects, and the session gets to the same state, as if the refused ones had not arrived; GetUnexpectedPacketIDCount returns exactly their number. For every non-negative PacketIDStorageSize a packet with the ID of the decrypted packet right before it is refused, so that a backend that only repeats packets does no harm.",
  "all sequences of packets, all keys and handlers at the time of each packet, all options and storage sizes", "The tests send one wrong packet and look at the counter; they cannot compare with the run without it.",
  ["session.go: readerLoop, checkAndRememberPacketID, GetUnexpectedPacketIDCount", "packetid_storage.go: Push"])

p("What is delivered depends on the accepted packets only",
  "Packets that cannot be decrypted or are refused for their IDs, wherever they arrive among the others, have no effect but reports about the decryption: without them all accepted packets have the same effects in the same order, and the reassembly, the count of messages and the known packet IDs end in the same state (DetachOnSequentialDecryptFailsCount = 0 is documented as never detaching).",
  "all sequences of packets, all keys and handlers at the time of each packet, all options", "The tests cannot compare a run with the same run without the wrong packets.",
  ["session.go: readerLoop, readerLoopDecryptError, checkAndRememberPacketID, processIncomingMessages"])

with open('/verif/properties.jsonl','w') as f:
    for x in P: f.write(json.dumps(x)+"\n")
print(len(P))
