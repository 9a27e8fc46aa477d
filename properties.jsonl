{"id": "C01", "title": "A replayed packet is never accepted twice", "statement": "For a session with replay protection enabled (PacketIDStorageSize >= 0), no packet ID is ever accepted twice, so no packet content is ever delivered twice.", "quantifier": "every PacketIDStorageSize, every finite history of received packet IDs (arbitrary order, duplication, gaps)", "why_tests_cant": "The violation needs a particular relation between the window size and the gap between two accepted IDs; a test samples a few histories out of (2^64)^n.", "anchors": ["packetid_storage.go: packetIDStorage.Push, shiftValue, setAtOffset, getAtOffset", "session.go: checkAndRememberPacketID, readerLoop, SessionOptions.PacketIDStorageSize"]}
{"id": "C02", "title": "Replay protection with a window of at most 64 IDs or in grow-only mode", "statement": "With PacketIDStorageSize between 1 and 64, for every history of incoming packets each packet ID is accepted at most once; with the special value 1 the sequence of accepted IDs is strictly increasing and an ID is accepted exactly when it is larger than every ID seen before.", "quantifier": "every history of received packet IDs", "why_tests_cant": "Unbounded histories.", "anchors": ["packetid_storage.go: newPacketIDStorage, Push", "session.go: init (storageSize == 1)"]}
{"id": "C03", "title": "A new packet inside the window is never dropped as a replay", "statement": "A packet whose (non-zero) ID was never received before and lies within the remembered window below the highest received ID, or above it, is always accepted.", "quantifier": "every window size and every history", "why_tests_cant": "False drops only appear for particular bit positions and shift amounts after long histories.", "anchors": ["packetid_storage.go: Push, shiftValue"]}
{"id": "C04", "title": "Too old and disabled modes of the packet-ID check", "statement": "A packet whose ID lags the highest received one by the (64-aligned) window size or more is always dropped and counted by GetUnexpectedPacketIDCount; with a negative PacketIDStorageSize every packet is accepted; the drop counter equals the number of dropped packets.", "quantifier": "every history of packets", "why_tests_cant": "Unbounded histories.", "anchors": ["packetid_storage.go: Push", "session.go: checkAndRememberPacketID, GetUnexpectedPacketIDCount"]}
{"id": "C05", "title": "Message header encoding round-trips", "statement": "Writing a message header (type, length, flags) and reading it back yields the same header; reading accepts exactly the inputs of at least 9 bytes, writing changes only the first 9 bytes of the buffer, and every 9-byte string decodes to a header that re-encodes to it.", "quantifier": "all header values, all buffers", "why_tests_cant": "2^72 header values.", "anchors": ["message.go: messageHeadersData.Read/Write, messageFlags"]}
{"id": "C06", "title": "Container header encoding round-trips", "statement": "Writing a packet's container header and reading it back yields the same packet ID, both checksums and length, for every value; too short buffers are rejected without a panic.", "quantifier": "all header values and buffers", "why_tests_cant": "2^352 header values.", "anchors": ["message.go: messagesContainerHeadersData.Read/ReadAfterIV/Write, packetID.Read/Write"]}
{"id": "C07", "title": "Fragment header encoding round-trips", "statement": "Writing a fragment header and reading it back yields the same chain ID, start position and total length; buffers shorter than 24 bytes are rejected.", "quantifier": "all values and buffers", "why_tests_cant": "2^192 values.", "anchors": ["message_fragment_headers.go: Read, Write, Set"]}
{"id": "C08", "title": "Key-exchange message and session ID encoding round-trips", "statement": "SessionID.FillFromBytes inverts SessionID.Bytes, and parsing an encoded key-exchange message yields the original session ID, identity key, ECDH key, answers mode and flags.", "quantifier": "all field values", "why_tests_cant": "2^656 values.", "anchors": ["session.go: SessionID.Bytes/FillFromBytes", "key_seed_update_message.go", "key_exchanger.go: send, parseAndCheck"]}
{"id": "C09", "title": "Negotiation message encoding round-trips", "statement": "Control and ping/pong negotiation messages decode to what was encoded; a ping of any requested size at least 69 bytes is produced with exactly that size, carries a valid checksum, and its pong is accepted by the original sender with the same iteration ID and size.", "quantifier": "all iteration IDs, sizes and control values", "why_tests_cant": "Unbounded sizes.", "anchors": ["negotiation_message.go", "negotiator.go: sendPing, sendControl, handlePingPongMessage, parseMessage"]}
{"id": "C10", "title": "The container parser is total and delivers exactly the well-formed prefix", "statement": "For any decrypted byte string and any declared length the receiver terminates without a panic, delivers exactly the messages of the longest well-formed prefix in order, and reports an error exactly when a truncated header or payload follows.", "quantifier": "all byte strings (unfragmented messages), all declared lengths", "why_tests_cant": "All inputs of all lengths.", "anchors": ["session.go: processIncomingMessages, processIncomingMessage"]}
{"id": "C11", "title": "Aggregated messages are split back exactly", "statement": "Any sequence of messages merged into one packet by the sender is split by the receiver into the same messages with the same types, in the same order, with none lost, added or altered.", "quantifier": "every list of messages, every payload content", "why_tests_cant": "Unbounded lists.", "anchors": ["session.go: appendToDelayedWriteBuffer, sendDelayedNowSyncFromBuffer, processIncomingMessages"]}
{"id": "C12", "title": "Encrypt/decrypt round trip of a packet", "statement": "A packet produced by one side is opened by the other side to exactly the original message bytes and packet ID when the receiver's current key is the sender's key (any key material, session ID, packet ID, with or without PSK), and the packet is exactly 44 bytes longer than the messages.", "quantifier": "all keys, session IDs, packet IDs, message bytes, all stream ciphers and MACs", "why_tests_cant": "Unbounded data and keys.", "anchors": ["session.go: sendMessages, decrypt, tryDecrypt, fillWithRemoteIV, decryptPacketIDBytes", "crypt.go"]}
{"id": "C13", "title": "Only packets whose two checksums verify under one of the session's keys are accepted", "statement": "If the receiver accepts a packet then there is one single key among the current cipher keys or the PSK-derived (or absent) auxiliary key under which both the header checksum and the messages checksum verify for the packet ID carried by the packet; otherwise nothing is delivered and the packet ID memory is unchanged.", "quantifier": "all packets and receiver states", "why_tests_cant": "All byte strings.", "anchors": ["session.go: decrypt, tryDecrypt, checkHeadersChecksum, checkMessagesChecksum, readerLoop"]}
{"id": "C14", "title": "Application data is only accepted under the exchanged key", "statement": "A message delivered to an application handler or to Read was authenticated with an exchanged cipher key.", "quantifier": "all packets an outsider can build, all receiver states after a key exchange", "why_tests_cant": "Requires quantifying over everything an attacker can send.", "anchors": ["session.go: decrypt (final tryDecrypt with auxCipherKey), processIncomingMessages, processIncomingMessage"]}
{"id": "C15", "title": "Application data only leaves encrypted under the exchanged key", "statement": "Every application payload given to Write/WriteMessage/WriteMessageAsync/WriteMessageSingle is written to the backend only encrypted with the exchanged cipher key.", "quantifier": "all payloads and options", "why_tests_cant": "Requires all payload sizes/options; the failing path is only visible by inspecting wire bytes.", "anchors": ["session.go: WriteMessageAsync, writeMessageFragment, writeMessageSingle, sendMessages"]}
{"id": "C16", "title": "No nonce is used twice with an exchanged key within a session", "statement": "All packets sent by one session under exchanged keys use pairwise different IVs, and packets of two sessions with different session IDs never share an IV, whatever the interleaving of senders and receiver.", "quantifier": "all interleavings of up to 2^64-1 sends and receives by any number of goroutines", "why_tests_cant": "Schedules cannot be enumerated.", "anchors": ["session.go: getNextPacketID, sendMessages", "message.go: SetNextPacketID, AcquireMessagesContainerHeaders"]}
{"id": "C17", "title": "No nonce is used twice with the PSK-derived key", "statement": "Packets encrypted with the PSK-derived auxiliary key never reuse a nonce, in particular two sessions with the same PSK do not produce related ciphertexts.", "quantifier": "all PSKs, all pairs of sessions, all messages", "why_tests_cant": "Needs two sessions and all messages.", "anchors": ["session.go: sendMessages (ivBuf for non-confidential), crypt.go: emptyIV"]}
{"id": "C18", "title": "Packets never exceed the established packet size", "statement": "Every packet carrying application data that is written to the backend is at most GetEstablishedPacketSize() bytes long.", "quantifier": "all sequences of writes, flushes and sizes", "why_tests_cant": "Unbounded write histories and schedules.", "anchors": ["session.go: writeMessageAsync, sendMessages, GetEstablishedPacketSize"]}
{"id": "C19", "title": "Oversized messages are refused when fragmentation is off", "statement": "With fragmentation disabled a write of an application message larger than the established payload size returns ErrPayloadTooBig and sends nothing; a message that fits is accepted for sending.", "quantifier": "all payload sizes and limits", "why_tests_cant": "All sizes.", "anchors": ["session.go: WriteMessageAsync"]}
{"id": "C20", "title": "Fragmentation covers the payload exactly", "statement": "With fragmentation enabled and an established payload size of at least 25, an oversized message is split into consecutive fragments whose concatenation is the message, whose headers carry the right start and total length under one fresh chain ID, and each of which fits the established payload size.", "quantifier": "all payloads and payload limits", "why_tests_cant": "All sizes.", "anchors": ["session.go: writeMessageAsyncAsFragmented, writeMessageFragment, getNextChainID"]}
{"id": "C21", "title": "A message is reassembled once all its fragments have arrived", "statement": "When all fragments of a message have been merged, in any order and with any duplication, the reassembly has completed.", "quantifier": "all fragment sets covering the message, all arrival orders", "why_tests_cant": "All permutations of all fragmentations.", "anchors": ["pending_chain.go: Merge, Init, setLeadingOnes64, pendingChainIsSetSet"]}
{"id": "C22", "title": "A fragmented message is only delivered when every byte has arrived", "statement": "Reassembly returns a message only when each of its bytes was received in some fragment, and then the returned bytes are the bytes received.", "quantifier": "all fragment sets and arrival orders including loss", "why_tests_cant": "All permutations and losses of all fragmentations.", "anchors": ["pending_chain.go: Merge"]}
{"id": "C23", "title": "A reassembled message has the announced length", "statement": "The message handed to the application after reassembly has exactly the announced total length.", "quantifier": "all histories of a reassembly slot", "why_tests_cant": "Depends on the history of the slot.", "anchors": ["pending_chain.go: Init, Merge", "session.go: processIncomingMessageFragment"]}
{"id": "C24", "title": "Fragments of different messages never mix", "statement": "Fragments of one message are never merged into another message, and the arrival of a fragment of a newer message does not destroy older incomplete messages that are within MaxChainIDDiff.", "quantifier": "all interleavings of fragments of several messages", "why_tests_cant": "All interleavings.", "anchors": ["session.go: processIncomingMessageFragment"]}
{"id": "C25", "title": "No received bytes can crash the receiver", "statement": "No packet content makes the receive path index out of range or panic.", "quantifier": "all packets, all receiver states", "why_tests_cant": "All byte strings.", "anchors": ["session.go: processIncomingMessages, processIncomingMessageFragment, decrypt", "pending_chain.go: Merge", "packetid_storage.go"]}
{"id": "C26", "title": "Reassembly memory is bounded", "statement": "Whatever fragments arrive, the memory kept for reassembly is at most MaxChainIDDiff buffers of at most MaxFragmentedMessageSize bytes each.", "quantifier": "all fragment sequences", "why_tests_cant": "Unbounded histories.", "anchors": ["session.go: processIncomingMessageFragment", "pending_chain.go: Init"]}
{"id": "C27", "title": "Closed is final", "statement": "Once a session is Closing it can only become Closed, and once Closed it stays Closed, whatever API calls and background events follow in any interleaving.", "quantifier": "all interleavings of API calls and internal events", "why_tests_cant": "All schedules.", "anchors": ["session_state.go: Set", "session.go: setState call sites"]}
{"id": "C28", "title": "The session goes through its documented phases in order", "statement": "The first non-initial state is KeyExchanging; Negotiating is only entered from KeyExchanging, Established only from Negotiating or by un-pausing, Paused only from Established.", "quantifier": "all interleavings", "why_tests_cant": "All schedules.", "anchors": ["session_state.go", "session.go: startKeyExchange, onKeyExchangeSuccess, onConnect, SetPause"]}
{"id": "C29", "title": "SetPause contract", "statement": "SetPause(true) succeeds exactly when the session is Established and makes it Paused, SetPause(false) succeeds exactly when it is Paused and makes it Established; otherwise an error is returned and the state is unchanged.", "quantifier": "all states and interleavings", "why_tests_cant": "All schedules.", "anchors": ["session.go: SetPause, waitForUnpause"]}
{"id": "C30", "title": "SetPause returns once the reader is detached", "statement": "A successful SetPause(true) returns after the reader noticed the pause, for every interleaving with other SetPause calls.", "quantifier": "all interleavings", "why_tests_cant": "Needs one particular interleaving.", "anchors": ["session.go: SetPause, waitForUnpause"]}
{"id": "C31", "title": "Exactly one Close succeeds", "statement": "Among any number of concurrent Close calls on a started session exactly one (or none if the session closed by itself) returns nil; the others return ErrAlreadyClosed; Start succeeds at most once.", "quantifier": "all interleavings of Start/Close and internal closures", "why_tests_cant": "All schedules.", "anchors": ["session.go: Close, Start, CloseAndWait"]}
{"id": "C32", "title": "WaitForState never misses a state that persists", "statement": "A goroutine in WaitForState that has not returned is woken by every state change, so it returns if the session reaches one of the wanted states and stays there; it returns only with a wanted state or after its context ended.", "quantifier": "all interleavings of waiters and state changes", "why_tests_cant": "All schedules; lost wake-ups are timing dependent.", "anchors": ["session_state.go: WaitFor, Set"]}
{"id": "C33", "title": "Unauthenticated key-exchange messages have no effect", "statement": "With a configured remote identity a key-exchange message that does not carry a valid signature of that identity changes no key, identity or session ID and triggers no answer.", "quantifier": "all byte strings and exchanger states", "why_tests_cant": "All byte strings.", "anchors": ["key_exchanger.go: Handle, parseAndCheck"]}
{"id": "C34", "title": "The remote identity is pinned", "statement": "If no remote identity is configured, the identity of the first validly self-signed key-exchange message is adopted and afterwards never changes; the remote session ID is likewise set once.", "quantifier": "all sequences of received messages", "why_tests_cant": "Unbounded histories.", "anchors": ["key_exchanger.go: Handle, setRemoteIdentityFromPublicKey, setRemoteSessionID"]}
{"id": "C35", "title": "Both sides derive the same key", "statement": "If each side holds the other's current ECDH public key and both have the same PSK, the encryption keys are equal; keys for mixed generations match crosswise.", "quantifier": "all keys, PSKs; all histories of rotations and receptions", "why_tests_cant": "All key material and histories.", "anchors": ["key_exchanger.go: generateSharedKeyBySecretID, generateSharedKey, updateSecrets"]}
{"id": "C36", "title": "Different PSKs never give the same key", "statement": "Two sides with the same ECDH secret but PSKs with different hashes derive different keys, and the hash inputs for different PSKs or different purposes never coincide.", "quantifier": "all PSK pairs and secrets", "why_tests_cant": "All values.", "anchors": ["key_exchanger.go: generateSharedKey", "hash.go", "session.go: init (auxCipherKey)"]}
{"id": "C37", "title": "Traffic survives a key rotation", "statement": "A packet encrypted with the sender's current key is decryptable by a receiver which is at most one rotation (of either ECDH key) ahead or behind.", "quantifier": "all rotation histories with skew at most one", "why_tests_cant": "All histories.", "anchors": ["key_exchanger.go: updateLocalKey, setNextRemotePublicKey", "session.go: decrypt"]}
{"id": "C38", "title": "No second rotation while one is in progress", "statement": "A new local ECDH key is only generated after the previous one was confirmed by a successful exchange, and key creation stamps strictly increase whatever the clock does.", "quantifier": "all sequences of events and clock readings", "why_tests_cant": "All schedules and clocks.", "anchors": ["key_exchanger.go: updateLocalKey, sendSuccessNotifications"]}
{"id": "C39", "title": "Stale key-exchange messages are rejected", "statement": "A key-exchange message recorded earlier (in another session of the same peer, or before a later rotation) is not accepted as current.", "quantifier": "all recorded messages and states", "why_tests_cant": "Requires attacker quantification.", "anchors": ["key_exchanger.go: Handle, parseAndCheck, setNextRemotePublicKey"]}
{"id": "C40", "title": "A key-exchange message cannot crash the process", "statement": "No key-exchange message makes the receiver panic.", "quantifier": "all byte strings", "why_tests_cant": "All byte strings.", "anchors": ["key_exchanger.go: generateSharedKey, parseAndCheck"]}
{"id": "C41", "title": "Answers-mode mismatch and invalid keys are reported and ignored", "statement": "A validly signed key-exchange message with a different answers mode or with an all-zero ECDH key is reported as an error and changes no keys; the exchange counts as successful and answers are sent exactly as the answers mode prescribes.", "quantifier": "all messages and modes", "why_tests_cant": "All byte strings x modes.", "anchors": ["key_exchanger.go: parseAndCheck, Handle"]}
{"id": "C42", "title": "After the first exchange a sending key is always available", "statement": "From the first successful key agreement on, the session's current cipher key is always present, keys are replaced as one set, and the waiters are released exactly once without a panic.", "quantifier": "all sequences of key updates", "why_tests_cant": "All schedules.", "anchors": ["session.go: setSecrets, GetCipherKeysWait, GetCipherKeys", "key_exchanger.go: updateSecrets"]}
{"id": "C43", "title": "Session IDs are unique and increasing", "statement": "Session IDs created in one process have strictly increasing CreatedAt for every behaviour of the system clock (including going backwards) below the 64-bit limit.", "quantifier": "all sequences of clock readings", "why_tests_cant": "All clocks.", "anchors": ["session.go: sessionIDGetterType.Get"]}
{"id": "C44", "title": "A successful Write means the message was handed to the backend", "statement": "If Write/WriteMessage returns no error then the message was part of a packet that the backend's Write accepted without error.", "quantifier": "all interleavings of writes, flushes and cancellation", "why_tests_cant": "Needs a cancellation at a particular moment.", "anchors": ["session.go: WriteMessage, writeMessageAsync, sendDelayedNow", "send_info.go: Wait"]}
{"id": "C45", "title": "Each accepted message is sent exactly once, in order", "statement": "Every message accepted by WriteMessageAsync ends up in exactly one packet, the packets preserve the order of acceptance, and the returned SendInfo reports the result of exactly that packet.", "quantifier": "all interleavings of writers, timer flushes and forced flushes", "why_tests_cant": "All schedules.", "anchors": ["session.go: writeMessageAsync, appendToDelayedWriteBuffer, sendDelayedNow, delayedSenderLoop"]}
{"id": "C46", "title": "SendInfo is not recycled while in use", "statement": "A SendInfo is returned to the pool only after its result is final and every writer that received it has released it; its reference count never becomes negative when every holder releases at most once.", "quantifier": "all interleavings of acquire, append, flush and release", "why_tests_cant": "All schedules.", "anchors": ["send_info.go", "session.go: appendToDelayedWriteBuffer, sendDelayedNow"]}
{"id": "C47", "title": "DetachOnSequentialDecryptFailsCount", "statement": "The session detaches on reaching the configured number of consecutive undecryptable packets, not earlier, and never if the option is zero.", "quantifier": "all packet sequences and option values", "why_tests_cant": "All histories; the default value is the failing one.", "anchors": ["session.go: readerLoopDecryptError, SessionOptions.DetachOnSequentialDecryptFailsCount"]}
{"id": "C48", "title": "ErrorOnSequentialDecryptFailsCount", "statement": "An error is reported exactly for each undecryptable packet from the configured number of consecutive failures on (3 by default, never if 0), and a good packet restarts the count.", "quantifier": "all packet sequences and option values", "why_tests_cant": "All histories.", "anchors": ["session.go: readerLoopDecryptError, init"]}
{"id": "C49", "title": "DetachOnMessagesCount", "statement": "With DetachOnMessagesCount = n > 0 exactly n non-internal messages are delivered before the session closes itself, later messages of the same packet are not delivered; 0 means never.", "quantifier": "all packet sequences", "why_tests_cant": "All histories.", "anchors": ["session.go: processIncomingMessages"]}
{"id": "C50", "title": "Read returns whole messages in order", "statement": "Successive Read calls with large enough buffers return the received default-channel messages one by one, whole and in order.", "quantifier": "all interleavings of arrivals and reads, all sizes", "why_tests_cant": "All schedules.", "anchors": ["session.go: read, processIncomingMessage", "read_item.go"]}
{"id": "C51", "title": "Read never loses data", "statement": "A Read with a too small buffer does not lose the message.", "quantifier": "all buffer sizes", "why_tests_cant": "All sizes.", "anchors": ["session.go: read"]}
{"id": "C52", "title": "Multiplexer channels are isolated", "statement": "Different channel IDs map to different message types, none of which is an internal or the default type, too high channel IDs are refused, and a message is only ever given to the handler registered for its type.", "quantifier": "all channel IDs", "why_tests_cant": "2^32 values.", "anchors": ["message.go: MessageTypeChannel, isInternal", "session.go: processIncomingMessage, setMessenger"]}
{"id": "C53", "title": "The negotiated payload size is safe", "statement": "The negotiated payload size is at most the largest message size proven to make a round trip in each direction and at most the configured PayloadSizeLimit.", "quantifier": "all sequences of negotiation messages", "why_tests_cant": "All histories.", "anchors": ["negotiator.go: finalize, handlePingPongMessage, handleControlMessage"]}
{"id": "C54", "title": "The size probing terminates and stays in range", "statement": "The probing loop runs at most MaxIterations rounds, every probe is between the smallest negotiable size and the limit, and the search interval never leaves it.", "quantifier": "all limits >= 147 and all patterns of lost probes", "why_tests_cant": "All loss patterns.", "anchors": ["negotiator.go: pingSenderLoop"]}
{"id": "C55", "title": "Negotiation always ends", "statement": "When both sides finish probing they both become Established.", "quantifier": "all path MTUs, limits and iteration limits", "why_tests_cant": "Only particular MTUs fail.", "anchors": ["negotiator.go: pingSenderLoop, finalizer, handleControlMessage"]}
{"id": "C56", "title": "Negotiation messages never block the reader", "statement": "Handling a negotiation message never blocks the receive loop forever.", "quantifier": "all messages and negotiator states", "why_tests_cant": "Needs state combinations of two peers.", "anchors": ["negotiator.go: handleControlMessage, handlePingPongMessage, finalizer"]}
{"id": "C57", "title": "The identity is stable across restarts", "statement": "NewIdentity on the same directory returns the same keys every time, and never overwrites an existing private key.", "quantifier": "all directory contents left by earlier calls, all key material", "why_tests_cant": "All histories.", "anchors": ["identity.go: NewIdentity, prepareKeys, generateAndSaveKeys, loadKeys, saveKeyToPemFile"]}
{"id": "C58", "title": "A crash while creating the identity is survivable", "statement": "After a crash at any point of NewIdentity, a later NewIdentity succeeds or reports an error.", "quantifier": "all crash points", "why_tests_cant": "Crash points.", "anchors": ["identity.go: generateAndSaveKeys, saveKeyToPemFile, loadPrivateKeyFromFile"]}
{"id": "C59", "title": "Keys of a wrong length are refused", "statement": "NewIdentityFromPrivateKey and NewRemoteIdentityFromPublicKey succeed exactly for 64-byte private and 32-byte public keys; the public key of an identity is the one embedded in its private key.", "quantifier": "all byte strings", "why_tests_cant": "All inputs.", "anchors": ["identity.go"]}
{"id": "C60", "title": "Default payload limits", "statement": "SetPayloadSizeLimit/SetPayloadLossySizeLimit store the largest multiple of 16 not above the argument, the default packet fits the maximum datagram size, and the packet size limit is the payload limit plus 53.", "quantifier": "all 32-bit values", "why_tests_cant": "2^32 values.", "anchors": ["message.go: SetPayloadSizeLimit, SetPayloadLossySizeLimit, init", "session.go: updatePacketSizeLimit"]}
{"id": "C61", "title": "Nothing is written to the backend after Close", "statement": "A send that reaches the backend-write check after the session became Closing or Closed writes nothing and returns an error.", "quantifier": "all interleavings", "why_tests_cant": "All schedules.", "anchors": ["session.go: sendMessages, isDone, startClosing"]}
{"id": "C62", "title": "OnConnect is called at most once", "statement": "For any sequence of key exchanges and negotiation results OnConnect is called at most once and only after a successful key exchange.", "quantifier": "all interleavings", "why_tests_cant": "All schedules.", "anchors": ["session.go: onKeyExchangeSuccess, onConnect", "negotiator.go: Start, finalizer"]}
{"id": "C63", "title": "Lossless in-order transport gives exact delivery", "statement": "Over a transport that delivers packets in order, the application messages read on one side are exactly the messages written on the other side, in order, for any batching schedule.", "quantifier": "all message sequences, all batching schedules, all packet-ID gaps", "why_tests_cant": "Unbounded histories and schedules.", "anchors": ["session.go: WriteMessageAsync ... readerLoop"]}
{"id": "C64", "title": "A one-time MAC key authenticates one string", "statement": "The Poly1305 key of a packet is derived from the packet ID and the cipher key, so that different packets of a session use different keys, and one such key authenticates exactly one string.", "quantifier": "all keys, all packet IDs, all packets", "why_tests_cant": "A key collision needs specific packet IDs and keys; tests look only at acceptance.", "anchors": ["message.go: calculatePoly1305Key, CalculateHeadersChecksumTo, CalculateMessagesChecksumTo"]}
{"id": "C65", "title": "Unread messages do not block the session", "statement": "If the application does not call Read, the session still handles key exchange and other message types, and Close still completes.", "quantifier": "all amounts of unread messages, all schedules", "why_tests_cant": "Needs more than 1024 unread messages in a particular state.", "anchors": ["session.go: processIncomingMessage, readerLoop, Close"]}
{"id": "C66", "title": "Pausing and resuming never breaks the session", "statement": "SetPause(true) followed by SetPause(false) never makes the session report an error or close itself.", "quantifier": "all interleavings of SetPause with the reader", "why_tests_cant": "The failing interleaving needs a preemption between two adjacent lines.", "anchors": ["session.go: SetPause, interruptRead, readerLoopReadError, resetReadDeadline, waitForUnpause"]}
{"id": "C67", "title": "CloseAndWait returns from a paused session", "statement": "Close on a paused session leads to the Closed state and CloseAndWait returns.", "quantifier": "all interleavings", "why_tests_cant": "A hang is not a test result.", "anchors": ["session.go: Close, CloseAndWait, waitForUnpause, readerLoop"]}
{"id": "C68", "title": "Close always leads to Closed", "statement": "After Close the session reaches the state Closed, whatever the reader was doing, as soon as the backend honours read deadlines.", "quantifier": "all interleavings of Close with the reader", "why_tests_cant": "A lost interrupt needs a preemption between two adjacent lines.", "anchors": ["session.go: Close, interruptRead, isReading, readerLoop, startBackendCloser"]}
{"id": "C69", "title": "Registering a handler while messages arrive", "statement": "SetHandlerFuncs, NewMessenger and SetHandler may be called while messages of that type arrive: each message goes to the queue, to the handler, or is dropped, and nothing crashes.", "quantifier": "all interleavings of registration with arrivals", "why_tests_cant": "The failing schedule needs a preemption inside registration.", "anchors": ["session.go: SetHandlerFuncs, NewMessenger, setMessenger, processIncomingMessage", "messenger.go: SetHandler, handle"]}
{"id": "C70", "title": "API calls in any state do not crash", "statement": "Every exported method may be called on a new, running, closing or closed session without a crash.", "quantifier": "all methods, all states", "why_tests_cant": "Tests call methods in the usual order only.", "anchors": ["session.go: Close, SetHandlerFuncs, NewMessenger, Write, Read"]}
{"id": "C71", "title": "Message boundaries in a packet are respected", "statement": "The next message in a packet begins where the declared length of the previous one ends, also when that one is a fragment; payload bytes are never taken for message headers.", "quantifier": "all packets", "why_tests_cant": "Needs a crafted combination of fragment and total size.", "anchors": ["session.go: processIncomingMessages, processIncomingMessageFragment"]}
{"id": "C72", "title": "Close together with writing never crashes", "statement": "Close, Write, WriteMessageAsync, SendNow, SendNowAndWait and Release may run at the same time in any number of goroutines without a panic.", "quantifier": "all interleavings, all numbers of writers", "why_tests_cant": "The failing schedules need a preemption between two adjacent lines of the flush.", "anchors": ["session.go: delayedSenderLoop, sendDelayedNow, startClosing, writeMessageAsyncAsFragmented", "send_info.go: Release, SendNow"]}
{"id": "C73", "title": "A messenger is closed exactly once", "statement": "Every messenger made by NewMessenger or SetHandlerFuncs is closed at most once, and is closed when another one is registered for its type or when the session ends, so that WaitForClosure returns.", "quantifier": "all interleavings of registrations, arrivals, Close calls and the end of the session", "why_tests_cant": "The failing schedule needs the session to end inside a registration.", "anchors": ["messenger.go: Close, WaitForClosure", "session.go: NewMessenger, setMessenger, readerLoopCleanup"]}
{"id": "C74", "title": "A session ID survives its byte form", "statement": "FillFromBytes(Bytes(id)) gives id back; FillFromBytes fails only on fewer than 16 bytes.", "quantifier": "all session IDs, all byte strings", "why_tests_cant": "a test encodes a few IDs; byte order and field boundaries must be right for all 2^128", "anchors": ["session.go: SessionID.Bytes, SessionID.FillFromBytes"]}
{"id": "C75", "title": "A successful negotiation leaves a usable payload size", "statement": "After a successful negotiation the established payload size is large enough for at least a message of the smallest probe size (147 bytes).", "quantifier": "all limits of at least 147, all losses", "why_tests_cant": "fails only for a few limits", "anchors": ["negotiator.go: pingSenderLoop, finalize", "session.go: setEstablishedPayloadSize"]}
{"id": "C76", "title": "A negative ReadTimeout switches the time-out off", "statement": "With a negative NegotiatorOptions.ReadTimeout the negotiation never fails because of that time-out; with a positive one exactly that duration is used in every round.", "quantifier": "all time-outs, all rounds", "why_tests_cant": "tests use the default", "anchors": ["negotiator.go: NegotiatorOptions, pingSenderLoop"]}
{"id": "C77", "title": "Closing a session during the negotiation completes", "statement": "Close at any time of the negotiation lets all goroutines of the negotiator end, so that the clean-up of the session completes.", "quantifier": "all interleavings", "why_tests_cant": "depends on which branch of a select is taken", "anchors": ["negotiator.go: Close, finalizer, pingSenderLoop", "session.go: readerLoopCleanup"]}
{"id": "C78", "title": "TotalTimeout falls back to the best size found so far", "statement": "When TotalTimeout is reached after at least one pong, the negotiation ends with the best settings found so far, as documented.", "quantifier": "all times of the time-out", "why_tests_cant": "the default is five minutes", "anchors": ["negotiator.go: NegotiatorOptions, Start, finalizer"]}
{"id": "C79", "title": "Negotiation finds more than half of what the path carries", "statement": "On a path that carries all messages of up to M bytes and no larger ones, 147 <= M <= PayloadSizeLimit, the negotiated size is more than M/2.", "quantifier": "all M and limits", "why_tests_cant": "tests use loopback connections, which carry everything", "anchors": ["negotiator.go: pingSenderLoop"]}
{"id": "C80", "title": "A malformed key file is reported as an error", "statement": "NewIdentity and NewRemoteIdentity return an error for a key file that contains no key of the right length; they never crash the program.", "quantifier": "all file contents", "why_tests_cant": "tests use the files the library itself has written", "anchors": ["identity.go: loadPublicKeyFromFile, loadPrivateKeyFromFile"]}
{"id": "C81", "title": "The public key file belongs to the identity", "statement": "After a successful NewIdentity, NewRemoteIdentity of the public key file in the same directory gives the public key of the identity.", "quantifier": "all histories of calls, failures and crashes", "why_tests_cant": "failures and crashes at every write", "anchors": ["identity.go: prepareKeys, generateAndSaveKeys, saveKeyToPemFile, NewRemoteIdentity"]}
{"id": "C82", "title": "MutualConfirmationOfIdentity confirms who is on the other side now", "statement": "If MutualConfirmationOfIdentity returns keys without an error, the holder of the private key of remoteIdentity took part in this very call: what was received from it cannot be a recording of an older session.", "quantifier": "all networks and attackers that see, keep, change and invent packets", "why_tests_cant": "tests have no attacker; the attack needs one recorded message of another session", "anchors": ["identity.go: MutualConfirmationOfIdentity", "key_exchanger.go: Handle, parseAndCheck", "session.go: decrypt"]}
{"id": "C83", "title": "Both sides of MutualConfirmationOfIdentity get the same first key", "statement": "If the call succeeds on both sides of a connection without attackers, the first ephemeral key is the same on both sides.", "quantifier": "all interleavings of the goroutines of both sides, all losses, repetitions and delays of packets", "why_tests_cant": "the failing schedule needs a preemption between two adjacent lines of updateLocalKey", "anchors": ["identity.go: MutualConfirmationOfIdentity", "key_exchanger.go: updateLocalKey, sendPublicKey", "session.go: GetEphemeralKeys"]}
{"id": "C84", "title": "MutualConfirmationOfIdentity leaves the backend to its user", "statement": "What the remote side writes to the backend after its own call has returned is not read by the call on this side.", "quantifier": "all interleavings, all packets", "why_tests_cant": "depends on whether the reader goroutine gets to the next packet before the session is closed", "anchors": ["identity.go: MutualConfirmationOfIdentity", "session.go: readerLoop, Read"]}
{"id": "C85", "title": "A message is delivered at most as often as it was sent", "statement": "Whatever the network repeats, reorders, drops or invents, a side delivers each message at most as often as the other side has sent it, with every PacketIDStorageSize that does not switch the protection off.", "quantifier": "all networks without forgeries, all traffic in both directions, all option values", "why_tests_cant": "needs 64 packets in the other direction between two sends, and then a replay", "anchors": ["session.go: readerLoop, decrypt, checkAndRememberPacketID, getNextPacketID", "message.go: AcquireMessagesContainerHeaders", "packetid_storage.go: Push"]}
{"id": "C86", "title": "Reordering within PacketIDStorageSize packets loses nothing", "statement": "A packet overtaken on the network by fewer than PacketIDStorageSize packets of the same sender is still delivered.", "quantifier": "all orders of delivery, all traffic in both directions", "why_tests_cant": "tests do not reorder while traffic runs in the other direction", "anchors": ["session.go: SessionOptions, decrypt, getNextPacketID", "packetid_storage.go: Push"]}
{"id": "C87", "title": "Nothing is lost on an ordered lossless backend", "statement": "On a backend that delivers every packet in the order of the Write calls, every message that was sent is delivered exactly once, with any number of concurrent writers.", "quantifier": "all interleavings of writers, all traffic in both directions, all option values", "why_tests_cant": "needs a writer to be preempted between taking its packet ID and writing", "anchors": ["session.go: sendMessages, readerLoop, checkAndRememberPacketID", "message.go: AcquireMessagesContainerHeaders"]}
{"id": "C88", "title": "Recycled buffers change nothing on the wire or in what is received", "statement": "The bytes given to the backend, and the messages got from a packet, do not depend on the old contents or the capacity of the buffers and headers that the pools give out.", "quantifier": "all old contents and capacities of buffers, all packets received before, all keys", "why_tests_cant": "needs buffers with telling old contents in every place; tests mostly see fresh buffers", "anchors": ["buffer_pool.go: Grow, Reset, AcquireBuffer", "session.go: sendMessages, writeMessageSingle, writeMessageFragment, decrypt, tryDecrypt", "message.go: Set, Reset"]}
{"id": "C89", "title": "WriteMessageAsync never panics and appends exactly the message", "statement": "A message written with SendDelay is appended to the buffer of delayed messages as it is, refused with an error, or waits; the call does not panic, whatever payload size the negotiation has ended with.", "quantifier": "all payloads, all series of messages in the buffer, all negotiated payload sizes, all messages of the peer", "why_tests_cant": "needs a peer that negotiates a larger size than the own limit", "anchors": ["session.go: writeMessageAsync, appendToDelayedWriteBuffer, setEstablishedPayloadSize", "buffer_pool.go: newBufferPool"]}
{"id": "C90", "title": "Messages survive a stream backend", "statement": "On a reliable stream backend (TCP, a Unix socket, a pipe), which may return the written bytes in pieces of any size, all messages arrive.", "quantifier": "all ways in which Read calls cut the stream, all messages and packets, all option values", "why_tests_cant": "on localhost a Read usually returns exactly one Write", "anchors": ["session.go: readerLoop, decrypt", "is_lossy_writer.go: IsLossyWriter", "README.md: Encrypted io.ReadWriteCloser"]}
{"id": "C91", "title": "What Write accepts fits in the buffer of the receiver", "statement": "A message accepted by Write on a datagram backend is read as a whole by the remote side, whatever PayloadSizeLimit is set there.", "quantifier": "all option values of both sides, all messages", "why_tests_cant": "tests use the same options on both sides", "anchors": ["session.go: readerLoop, GetPacketSizeLimit, WriteMessageAsync"]}
{"id": "C92", "title": "Locks of sessions never wait in a circle", "statement": "Whatever methods of a session any number of goroutines and callbacks call at the same time, goroutines never wait for locks of sessions in a circle.", "quantifier": "all interleavings of any number of goroutines, sessions, method calls and callbacks", "why_tests_cant": "deadlocks need special interleavings, or callbacks that use the session while it holds a lock", "anchors": ["locker_mutex.go", "session.go: lockDo, setMessenger, setSecrets, SetPause, writeMessageAsync, appendToDelayedWriteBuffer", "key_exchanger.go: LockDo, Handle, KeyUpdateSendWait", "negotiator.go: lockDo, Start, Close"]}
{"id": "C93", "title": "No data races on the fields of a session", "statement": "When methods of a session are called from any goroutines, no two goroutines access one of the shared fields of the session, its key exchanger or its negotiator at the same time while one of them writes.", "quantifier": "all interleavings of any number of goroutines, sessions, method calls and callbacks; all 18 fields that are guarded by a lock somewhere", "why_tests_cant": "the race detector only sees the interleavings that happen", "anchors": ["session.go: processIncomingMessage, setMessenger, read, GetEphemeralKeys", "key_exchanger.go: sendPublicKey, updateLocalKey, sendSuccessNotifications", "negotiator.go: finalize, Handle, Close"]}
{"id": "C94", "title": "A handler can use its session", "statement": "Every method of a session that is called in a handler (Handle) of the session returns, and the session goes on receiving.", "quantifier": "all methods, all handlers, all interleavings of any number of goroutines and sessions", "why_tests_cant": "tests call these methods from goroutines of their own; and whether a handler runs before the session is established depends on lost or late packets", "anchors": ["session.go: WaitForClosure, CloseAndWait, SetPause, waitForUnpause, read, processIncomingMessage, sendMessages, onConnect", "negotiator.go: finalizer, Handle"]}
{"id": "C95", "title": "Two sessions that answer each other do not block each other", "statement": "Two connected sessions whose handlers send a message for every received message go on, whatever the buffers of the backend hold and however much both sides send.", "quantifier": "all buffer sizes of the backend, all numbers of messages, all interleavings", "why_tests_cant": "the buffers of the kernel hold more than what tests send", "anchors": ["session.go: readerLoop, processIncomingMessages, sendMessages"]}
{"id": "C96", "title": "The first key exchange does not wait for KeyUpdateInterval", "statement": "Of two sides that have called Start, each finishes its first key exchange (its session leaves KeyExchanging) or gives up, without having to wait until an interval of KeyUpdateInterval has passed; on a backend that loses nothing this holds however goroutines and messages are scheduled.", "quantifier": "all interleavings of the loops, readers and answering goroutines of both sides, all delays and losses, all answers modes", "why_tests_cant": "needs the answer to be sent before the loop goroutine has run; then it only shows as a delay of a minute", "anchors": ["key_exchanger.go: loop, KeyUpdateSendWait, Handle, sendPublicKey, retryUntilSuccessOrTimeout"]}
{"id": "C97", "title": "Retries make good for lost key-exchange messages", "statement": "A side that has not finished its first key exchange sends its key again and again until it gives up, and finishes as soon as one of these messages and the reply of the other side get through.", "quantifier": "all states, all losses, all answers modes", "why_tests_cant": "tests do not lose messages", "anchors": ["key_exchanger.go: retryUntilSuccessOrTimeout, Handle"]}
{"id": "C98", "title": "Options mean what their documentation says", "statement": "Every option that is left at its zero value has the documented default, and every documented value has the documented effect.", "quantifier": "all combinations of options, all backends", "why_tests_cant": "tests use few combinations", "anchors": ["session.go: SessionOptions, init", "key_exchanger.go: KeyExchangerOptions, newKeyExchanger", "negotiator.go: NegotiatorOptions, newNegotiator, isEnabled, Start", "is_lossy_writer.go"]}
{"id": "C99", "title": "No option value crashes the program", "statement": "NewSession and Start do not panic, in any goroutine, whatever the options are.", "quantifier": "all option values", "why_tests_cant": "tests use sensible values", "anchors": ["session.go: init", "packetid_storage.go: newPacketIDStorage", "key_exchanger.go: loop, retryUntilSuccessOrTimeout"]}
{"id": "C100", "title": "The packet size limit has room for the payload limit", "statement": "GetPacketSizeLimit, the size of the buffer that packets are read into, is PayloadSizeLimit with the size of all headers, for every PayloadSizeLimit.", "quantifier": "all values of PayloadSizeLimit", "why_tests_cant": "tests use small limits", "anchors": ["session.go: updatePacketSizeLimit, GetPacketSizeLimit, readerLoop"]}
{"id": "C101", "title": "A session does not change with the variables its options came from", "statement": "What a caller does with the options, and with the variables and slices they refer to, after NewSession (for example wiping the pre-shared key) does not change the session.", "quantifier": "all options, all later contents of the variables", "why_tests_cant": "tests do not change the options afterwards", "anchors": ["session.go: init", "key_exchanger.go: newKeyExchanger, generateSharedKey"]}
{"id": "C102", "title": "A failed backend ends the session", "statement": "When every Read of the backend fails from some time on, this is reported, and the session ends.", "quantifier": "all series of results of Read, all event handlers", "why_tests_cant": "the handlers of tests return false, or end the test", "anchors": ["session.go: readerLoop, readerLoopReadError", "event_handler.go"]}
{"id": "C103", "title": "Nothing that Read returns is dropped", "statement": "All bytes that the backend returns are processed, also those that it returns together with an error (as io.Reader allows).", "quantifier": "all series of results of Read", "why_tests_cant": "the backends of tests never return data together with an error", "anchors": ["session.go: readerLoop"]}
{"id": "C104", "title": "A pause is not an error", "statement": "The interruption of Read by SetPause is not reported as an error of the backend and does not close the session, on every backend with read deadlines.", "quantifier": "all backends, all event handlers", "why_tests_cant": "tests only use package net", "anchors": ["session.go: SetPause, interruptRead, readerLoopReadError"]}
{"id": "C105", "title": "A key update ends with a new key, or with a report", "statement": "When a session has begun to renew its key (after KeyUpdateInterval, or at Start), then by the time that it waits for the next interval a newer key has been agreed with the other side, or the session has reported that it gave up.", "quantifier": "all states of both sides, all interleavings, losses and delays, all behaviours of the clock, all answers modes", "why_tests_cant": "needs late notifications of earlier updates", "anchors": ["key_exchanger.go: loop, KeyUpdateSendWait, updateLocalKey, retryUntilSuccessOrTimeout, sendSuccessNotifications"]}
{"id": "C106", "title": "A completed key exchange does not time out", "statement": "A session that waits for the key exchange it has begun reports a time-out (and closes) only if no message that completes the exchange has arrived.", "quantifier": "all states of both sides, all interleavings, losses and delays, all behaviours of the clock, all answers modes", "why_tests_cant": "the message has to arrive between two statements of the other goroutine", "anchors": ["key_exchanger.go: KeyUpdateSendWait, retryUntilSuccessOrTimeout, makeSuccessNotifyChanEmpty, sendSuccessNotifications, sendPublicKey"]}
{"id": "C107", "title": "The key exchange is reported as done only when there is a key", "statement": "When the key exchange is reported as successful (the session leaves KeyExchanging; OnConnect if there is no negotiation), the session has made its own key.", "quantifier": "all states of both sides, all interleavings, losses and delays, all answers modes", "why_tests_cant": "needs a message that arrives before the own key is made", "anchors": ["key_exchanger.go: Handle, sendSuccessNotifications, updateSecrets", "session.go: onKeyExchangeSuccess"]}
{"id": "C108", "title": "A session that has ended leaves the backend usable", "statement": "Let the backend have SetReadDeadline or SetDeadline. When WaitForClosure has returned, the session has not closed the backend and has left no read deadline in the past, so that the next user of the backend can read from it.", "quantifier": "all interleavings of Start, Close, SetPause, the reader, the backend closer and the key exchange; all results of backend.Read", "why_tests_cant": "The bad order needs a packet to arrive between two instructions of the goroutine that interrupts the reader.", "anchors": ["session.go:638-680", "session.go:799-846", "session.go:2218-2229", "identity.go:265-276"]}
{"id": "C109", "title": "A paused session leaves the backend usable", "statement": "Let the backend have SetReadDeadline or SetDeadline. When SetPause(true) has returned nil, and until SetPause(false) is called, the session does not read from the backend and its read deadline is not in the past, so that the caller can read from the backend.", "quantifier": "all interleavings of SetPause calls, the reader and the backend", "why_tests_cant": "The deadline is in the past only for the moment between two statements of the reader.", "anchors": ["session.go:711-776", "session.go:799-809", "session.go:2218-2229"]}
{"id": "C110", "title": "Counts are those of io.Reader and io.Writer", "statement": "Read, Write, WriteMessage and WriteMessageSingle return counts between 0 and the length of the slice, Read the number of bytes it has put there, and the others less than the length only with an error, as the documentation of package io demands of everything that is given to functions with an io.Reader or io.Writer.", "quantifier": "all calls, all contents of the queue, all results of sending", "why_tests_cant": "Tests ignore the counts of failed calls and of WriteMessageSingle.", "anchors": ["session.go: read, Read, write, Write, WriteMessage, WriteMessageSingle, sendMessages", "messenger.go"]}
{"id": "C111", "title": "io.ReadAll gets all that was sent", "statement": "io.ReadAll (Go 1.16 or newer) on a session returns all bytes of the messages that came before the end of the session, and nil.", "quantifier": "all series of messages", "why_tests_cant": "Tests do not use io.ReadAll.", "anchors": ["session.go: read, Read"]}
{"id": "C112", "title": "io.Copy copies all that was sent", "statement": "io.Copy from a session writes all messages that came before the end of the session to the target, and returns nil.", "quantifier": "all series of messages", "why_tests_cant": "Tests do not use io.Copy.", "anchors": ["session.go: read, Read"]}
{"id": "C113", "title": "A session may be read through bytes.Buffer and bufio.Reader", "statement": "(*bytes.Buffer).ReadFrom (also called by io.Copy to a buffer) and bufio.Reader read a session to its end without a panic.", "quantifier": "all series of messages", "why_tests_cant": "Tests do not use these types.", "anchors": ["session.go: read, Read"]}
{"id": "C114", "title": "io.ReadFull reads the bytes asked for", "statement": "If enough bytes have been sent, io.ReadFull puts exactly len(buf) bytes into the buffer, returns len(buf) and nil, and the next Read goes on with the byte after these.", "quantifier": "all series of messages, all lengths of the buffer", "why_tests_cant": "Tests read with buffers that are longer than the messages.", "anchors": ["session.go: read, Read"]}
{"id": "C115", "title": "An echo is not a peer", "statement": "Whoever only sends packets of a session back to it, and knows neither a private key nor the PSK, is not taken for the remote side: the key exchange does not succeed, OnConnect is not called, no cipher keys are made, and MutualConfirmationOfIdentity does not return keys.", "quantifier": "all options with and without a PSK and a remote identity, all keys, all executions in which only own packets arrive", "why_tests_cant": "Tests always run two sessions.", "anchors": ["key_exchanger.go: parseAndCheck, setRemoteIdentityFromPublicKey, Handle", "session.go: decrypt, sendMessages", "identity.go: MutualConfirmationOfIdentity"]}
{"id": "C116", "title": "Own messages are not received", "statement": "A packet which an established session has sent and which somebody sends back to it is not accepted: no message that this side has sent is delivered to this side.", "quantifier": "all keys, session IDs, packet IDs and messages, with and without fragmentation", "why_tests_cant": "Tests never send packets back.", "anchors": ["session.go: decrypt, tryDecrypt, sendMessages, writeMessageFragment"]}
{"id": "C117", "title": "Write does not keep the slice", "statement": "After Write or WriteMessage has returned, the session does not read the slice any more; everything that is sent for the call is the content of the slice at the time of the call (the contract of io.Writer).", "quantifier": "all payloads, all payload sizes, with and without fragmentation and delay, all interleavings with the end of the context and of the session", "why_tests_cant": "Tests do not use a slice again while a context ends.", "anchors": ["session.go: WriteMessage, WriteMessageAsync, writeMessageAsyncAsFragmented, writeMessageFragment, sendMessages, isDone", "send_info.go: Wait"]}
{"id": "C118", "title": "EnableInfo and EnableDebug decide what the output channels carry", "statement": "With EnableInfo a user who keeps up receives every INFO message from InfoOutputChan, in order, and without EnableInfo none; the same for EnableDebug (and the build tag) and DebugOutputChan.", "quantifier": "all options and build tags, all series of messages, all interleavings with the user", "why_tests_cant": "Tests set EnableDebug everywhere, and EnableInfo never alone.", "anchors": ["session.go: ifInfo, infof, InfoOutputChan, DebugOutputChan, SessionOptions", "session_debug.go", "session_nodebug.go"]}
{"id": "C119", "title": "The output channels do not disturb the session", "statement": "Logging never blocks and never crashes, whether or not anybody receives and also after the end of the session; what is received was logged, in this order and not twice; a reader of a channel is told its end, after everything that is in it.", "quantifier": "all options, all series of messages, all interleavings of logging, closing and receiving", "why_tests_cant": "Needs full channels and messages after the end.", "anchors": ["session.go: infof, readerLoopCleanup, init", "session_debug.go: debugf"]}
{"id": "C120", "title": "OnConnect means that the session is established", "statement": "OnConnect is called exactly for sessions that become Established: at the call the state is Established, and no session gets Established without it.", "quantifier": "all interleavings of Start, Close, SetPause, the reader, the key exchange and the negotiation", "why_tests_cant": "Needs a Close between the end of the key exchange and OnConnect.", "anchors": ["session.go: onConnect, onKeyExchangeSuccess, Close, readerLoopCleanup", "session_state.go: Set"]}
{"id": "C121", "title": "SendNowAndWait returns", "statement": "A call of SendNowAndWait for a SendInfo that was returned by WriteMessageAsync returns after the message was sent, or when the context of the session has ended, and does not crash.", "quantifier": "all options, all reachable states, all interleavings with other writers and the sender loop, all answers of the backend", "why_tests_cant": "A test without the delay, or with a fragmented message, hangs or crashes; the only test that calls it uses the delay and a small message.", "anchors": ["send_info.go: SendNowAndWait, Wait, Release", "session.go: delayedSenderLoop, startDelayedSender, onConnect, sendDelayedNow, WriteMessageAsync"]}
{"id": "C122", "title": "Writing alone never crashes", "statement": "In a session with SendDelay, as long as nobody calls Close, calls of WriteMessageAsync and Release, together with the sender loop of the session, never crash the process with a panic that is not recovered.", "quantifier": "all sequences of writes of all sizes by any number of goroutines, all interleavings with the sender loop, all answers of the backend, all choices of the pool", "why_tests_cant": "The crash needs three writers, a full buffer, and the pool handing out one particular object between two instructions of a writer.", "anchors": ["session.go: writeMessageAsync, waitForSend, appendToDelayedWriteBuffer, delayedSenderLoop, sendDelayedNow, onConnect", "send_info.go: AcquireSendInfo, Put, incRefCount, Release"]}
{"id": "C123", "title": "Errors tell the truth about sizes", "statement": "The two sizes in an ErrTooShort, ErrPayloadTooBig or ErrWrongKeyLength are the size that was given and the size it was compared with: RealLength < ExpectedLength, RealSize > MaxSize, RealLength != ExpectedLength. An input of the size that the error asks for is not refused for the same reason.", "quantifier": "all inputs of all functions that return or report one of these errors", "why_tests_cant": "The existing test only looks at the type of each error; a wrong number needs an input between two sizes.", "anchors": ["errors.go: ErrTooShort, ErrPayloadTooBig, ErrWrongKeyLength", "negotiator.go: parseMessage, Handle", "session.go: WriteMessageAsync, WriteMessageSingle, sendMessages, writeMessageAsync, read, decrypt, processIncomingMessages", "message.go, message_fragment_headers.go: Read, Write", "identity.go", "key_exchanger.go: parseAndCheck"]}
{"id": "C124", "title": "Names identify what they name", "statement": "MessageTypeChannel(n).String() is `channel` followed by n, and two different message types, session states, packet IDs or kinds of keys have different names.", "quantifier": "all 2^32 message types, all states, all 2^64 packet IDs, all kinds of keys", "why_tests_cant": "The existing test compares the names of the first 255 message types only, and does not look at the number in the name.", "anchors": ["message.go: MessageType.String, MessageTypeChannel, packetID.String", "session_state.go: SessionState.String", "key_exchanger.go: secretID.String"]}
{"id": "C125", "title": "WaitForClosure waits until everything has finished", "statement": "When WaitForClosure has returned, the session is Closed, and from then on it does not read from the backend and calls no handler, neither OnConnect nor Error.", "quantifier": "all interleavings of Start, Close, WaitForClosure, NewMessenger, the reader, the key exchange, the negotiation and the callbacks", "why_tests_cant": "Whether a goroutine is still running when WaitForClosure returns depends on the scheduler; a test that waits sees the callback that was missed only by chance.", "anchors": ["session.go: WaitForClosure, Start, startReader, startBackendCloser, startKeyExchange, NewMessenger, startDelayedSender, onConnect, readerLoopCleanup", "key_exchanger.go: WaitForClosure, start, loop, Handle, mustSendPublicKey", "negotiator.go: Start, finalize"]}
{"id": "C126", "title": "A message is delayed by SendDelay at most", "statement": "A message that WriteMessageAsync has accepted is given to the backend when SendDelay has passed at the latest, apart from the time the backend needs for the packet before and for the packet of the message itself.", "quantifier": "all values of SendDelay and of the packet size, all sequences of writes at any times, all durations of backend writes, all interleavings with the timer and the sender loop", "why_tests_cant": "The delay depends on when the other messages come; a test measures one pattern of traffic.", "anchors": ["session.go: SessionOptions.SendDelay, writeMessageAsync, appendToDelayedWriteBuffer, sendDelayedNow, delayedSenderLoop, onConnect"]}
{"id": "C127", "title": "Replaced keys are forgotten", "statement": "The keys a session sends and decrypts with are computed from one of the last two ECDH keys it has made and one of the last two ECDH keys its peer has made. Whoever learns an ECDH private key that was replaced twice can compute no key in use.", "quantifier": "all configurations, all received messages (also replayed ones), all numbers of key updates, all interleavings of the loop, the reader and the answering goroutines, all primitives", "why_tests_cant": "A test sees that new keys work, not that old ones are out of use; the exceptions need a replayed message or a race of three goroutines.", "anchors": ["key_exchanger.go: updateLocalKey, setNextRemotePublicKey, updateSecrets, generateSharedKeyBySecretID, Handle", "session.go: setSecrets"]}
{"id": "C128", "title": "Close sends what was accepted before", "statement": "A message which Write or WriteMessageAsync accepted before Close was called, and which still waits for the send delay, is sent before Close returns, unless the backend refuses it. When Close has returned the result of every such message is known.", "quantifier": "all configurations without fragmentation, all interleavings of writers, sender loop and Close, all numbers of waiting messages, all results of the backend", "why_tests_cant": "Tests write, wait for the result and close afterwards; with a message still waiting the loss is silent unless the result is looked at.", "anchors": ["session.go: startClosing, Close, isDone, sendDelayedNow, sendMessages"]}
{"id": "C129", "title": "Messages of the protocol do not multiply", "statement": "A session sends at most one answer for each key-exchange request it receives, all answers together are not longer than the requests, and an answer is not answered; everything else it sends for the key exchange is due to its own interval or to a repetition. Each pong it sends answers one received ping of the same size, it sends at most one control message for each received pong, and control messages are not answered. Two sides that answer each other come to rest.", "quantifier": "all configurations, all received messages in any number and order (also replayed ones), all interleavings of the loop, the reader and the answering goroutines, all losses and reorderings on the way", "why_tests_cant": "Two sides that keep answering each other, or a message that is answered twice, show only as load.", "anchors": ["key_exchanger.go: Handle, mustSendPublicKey, KeyUpdateSendWait, retryUntilSuccessOrTimeout", "negotiator.go: Handle, handlePingPongMessage, sendControl"]}
{"id": "C130", "title": "A write ends when the session has ended", "statement": "Every call of Write, WriteMessage or WriteMessageAsync that is in progress when the session ends returns, with a result or an error, without anybody else having to do anything.", "quantifier": "all reachable states, all numbers of concurrent writers, all message sizes, all interleavings of writers, sender loop and Close", "why_tests_cant": "The busy loop needs two writers waiting for room at the moment of Close; a test sees a hang only if it waits for its own writers.", "anchors": ["session.go: writeMessageAsync, waitForSend, delayedSenderLoop, startClosing, GetEstablishedPacketSize"]}
{"id": "C131", "title": "A message that is dropped is reported", "statement": "Every message of an accepted packet is handed to the handler or to the queue of its type, or Error of the event handler is called, because there is nobody else the loss could be reported to.", "quantifier": "all configurations, all handlers, all accepted packets with any messages, fragments in all orders and numbers", "why_tests_cant": "The sender gets a success and the receiver gets nothing; a test that does not wait for this very message sees no failure.", "anchors": ["session.go: processIncomingMessages, processIncomingMessageFragment, processIncomingMessage", "event_handler.go: EventHandler.Error"]}
{"id": "C132", "title": "Read returns when the session has ended", "statement": "Every call of Read that is waiting when the session ends, and every later one, returns, with a message or an error, also if a messenger or handler has been registered for MessageTypeReadWrite.", "quantifier": "all numbers of concurrent calls of Read and of registrations, all interleavings with the reader goroutine and its end, all later events", "why_tests_cant": "A hanging Read shows only if the registration falls between its look-up of the channel and the next message.", "anchors": ["session.go: Read, read, NewMessenger, setMessenger, readerLoopCleanup"]}
{"id": "C133", "title": "Registering a messenger loses no message", "statement": "A message that was received before a messenger or handler is registered for its type is returned by Read or given to the new handler.", "quantifier": "all numbers of messages, calls of Read and registrations, all interleavings, all later events", "why_tests_cant": "Tests register their handlers before the first message arrives.", "anchors": ["session.go: setMessenger, processIncomingMessage, Read, read"]}
{"id": "C134", "title": "The functions given to SetHandlerFuncs are called", "statement": "Each message of a type with handler functions is passed to handle of the last registration for this type, exactly once and in order, and each error that handle returns is passed to onError.", "quantifier": "all functions, all sequences of registrations and messages of all types", "why_tests_cant": "The only test of onError calls HandleError itself; nothing else does.", "anchors": ["session.go: SetHandlerFuncs, handlerByFuncs.Handle, handlerByFuncs.HandleError, processIncomingMessage"]}
{"id": "C135", "title": "Two sides with a common key agree on who they are", "statement": "If two sessions of different identities have a cipher key in common, the remote identity of each is the identity of the other.", "quantifier": "all pairs of sessions, all executions, all messages an attacker with an identity of their own can make", "why_tests_cant": "The attack (unknown key share) needs a third party that signs somebody else's ECDH key; both honest sides see a normal session.", "anchors": ["key_exchanger.go: sendPublicKey, send, Handle, parseAndCheck, generateSharedKey"]}
{"id": "C136", "title": "Packets of an outsider do not keep out those of the peer", "statement": "Whether a packet of the peer is accepted does not depend on packets made by somebody who has none of the exchanged keys, or recorded in another session.", "quantifier": "all histories of packets, all packet IDs, all keys, all later packets in every run", "why_tests_cant": "One packet with a high packet ID is enough, and its effect is silence; tests have no outsider.", "anchors": ["session.go: readerLoop, decrypt, checkAndRememberPacketID", "packetid_storage.go: Push"]}
{"id": "C137", "title": "A peer that begins a new session is not ignored", "statement": "If the peer has ended its session (or crashed) and begins a new one over the same backend of datagrams, the session that is still there receives the messages of the new one, or ends, or reports an error.", "quantifier": "all histories of the old session, all packets of the new one, all interleavings", "why_tests_cant": "Tests end both sides together; with a short history the packet IDs of the new session are still within the window.", "anchors": ["session.go: getNextPacketID, readerLoop, checkAndRememberPacketID", "packetid_storage.go: Push"]}
{"id": "C138", "title": "A key update is over only when the peer has the new key", "statement": "When an update of the local key is over (the exchanger sends its public key no more and may begin the next update), the peer has received the new public key.", "quantifier": "all pairs of exchangers, all executions, all losses and delays of messages", "why_tests_cant": "It needs an answer that is late by a key interval and a request that is lost; tests run over a reliable pipe.", "anchors": ["key_exchanger.go: Handle, sendSuccessNotifications, retryUntilSuccessOrTimeout, updateLocalKey"]}
{"id": "C139", "title": "The exchanged key is known to the two sides only", "statement": "If the remote identity of a session is not the attacker's, each of its exchanged keys is made of an ECDH key of this session and one of a session of the remote identity, so that nobody without one of these private keys can compute it, even with all identity keys and pre-shared keys at a later time.", "quantifier": "any number of sessions of any honest identities, all executions over a network that an attacker controls, all later knowledge of the attacker", "why_tests_cant": "A statement about everything an attacker could send and compute.", "anchors": ["key_exchanger.go: Handle, parseAndCheck, setRemoteIdentityFromPublicKey, updateSecrets, generateSharedKey, sendPublicKey"]}
{"id": "C140", "title": "The key files of the quick start can be used", "statement": "With key files made by ssh-keygen -t ed25519, as README.md says, NewIdentity returns the identity with this key, and NewRemoteIdentity returns the remote identity for the public key file.", "quantifier": "all keys, all comments, encrypted and unencrypted private keys, all runs of NewIdentity on the directory", "why_tests_cant": "The tests make their keys with the package itself.", "anchors": ["README.md: Quick start", "identity.go: NewIdentity, NewRemoteIdentity, loadPublicKeyFromFile, loadPrivateKeyFromFile"]}
{"id": "C141", "title": "With fragmentation no message is refused for its size", "statement": "With EnableFragmentation, a write of a message never fails with ErrPayloadTooBig on a session on which Close has not been called; a message bigger than the established payload size is sent in fragments.", "quantifier": "all payloads below 4 GiB, all limits and negotiated sizes, all interleavings of any number of writes with the negotiation and the flushes of the buffer, with and without SendDelay", "why_tests_cant": "Depends on whether the write begins before or after the negotiation ends, and on a path that carries less than the limit.", "anchors": ["session.go: WriteMessageAsync, writeMessageAsyncAsFragmented, writeMessageAsync, sendMessages, GetEstablishedPayloadSize, SessionOptions.EnableFragmentation", "negotiator.go: finalize"]}
{"id": "C142", "title": "A write to a closed session fails with ErrAlreadyClosed", "statement": "A call of Write, WriteMessage or WriteMessageSingle that begins when the session is Closed returns an error, and the error is ErrAlreadyClosed (with fragmentation: every error in it).", "quantifier": "all payloads and application message types, all options, sessions that were Established before and those that were not, all choices of select statements", "why_tests_cant": "Which case of a select is taken when several are ready is random; the wrong cases need a session that was Established before it was closed.", "anchors": ["errors.go: ErrAlreadyClosed", "session.go: WriteMessage, WriteMessageSingle, WriteMessageAsync, writeMessageAsync, writeMessageAsyncAsFragmented, sendMessages, GetEstablishedPayloadSize, GetCipherKeysWait", "send_info.go: Wait"]}
{"id": "C143", "title": "WriteMessageAsync does not wait", "statement": "With a SendDelay, WriteMessageAsync returns by steps of its own only: it does not wait for the other side, nor for the sending of any message.", "quantifier": "all payloads below 4 GiB, all sizes, all interleavings of any number of writes with the negotiation and the flushes of the buffer", "why_tests_cant": "A statement about waiting: it needs a session that is not established, or a full buffer.", "anchors": ["README.md: Send a message asynchronously", "session.go: WriteMessageAsync, writeMessageAsync, writeMessageAsyncAsFragmented, GetEstablishedPayloadSize, waitForSend"]}
{"id": "C144", "title": "The channel of Done is closed in the end", "statement": "For each message that WriteMessageAsync has accepted, the channel of SendInfo.Done is closed in the end, also when the session is closed before the message is sent.", "quantifier": "all messages, all interleavings of any number of writers with the sender loop, Close, and the end of the context", "why_tests_cant": "A wait for ever cannot be observed by a test; the message has to be written between the last flush of Close and the end of the session.", "anchors": ["README.md: Send a message asynchronously", "send_info.go: Done", "session.go: writeMessageAsync, sendDelayedNow, delayedSenderLoop, Close, startClosing"]}
{"id": "C145", "title": "SendID is unique", "statement": "Two calls of WriteMessageAsync get different SendIDs, and a SendID is never given again.", "quantifier": "all messages, all interleavings of any number of writers with the sender loop and Close, all behaviours of the pool of SendInfos", "why_tests_cant": "A statement about all pairs of requests; the existing test compares a constant with itself.", "anchors": ["send_info.go: SendID, AcquireSendInfo", "session.go: appendToDelayedWriteBuffer, sendDelayedNow"]}
{"id": "C146", "title": "The time a packet takes says nothing about its checksums", "statement": "Of two packets of the same length that are refused, neither takes longer than the other on account of the checksums they carry; so measuring the time does not help to find a valid checksum.", "quantifier": "all packets, keys, ciphers and checksum functions, all costs of the operations that grow with the number of words compared, all word sizes of bytes.Compare", "why_tests_cant": "Checksums have 2^128 values, and a test compares results, not times.", "anchors": ["session.go: checkHeadersChecksum, checkMessagesChecksum, tryDecrypt, decrypt"]}
{"id": "C147", "title": "What Sign has signed is accepted by VerifySignature", "statement": "After i.Sign(signature, data), VerifySignature(signature, data) succeeds for the identity i and for a remote identity with the public key of i; neither function crashes.", "quantifier": "all identities that the constructors make, all data, all lengths of the slice for the signature, all signature schemes with the sizes of Ed25519", "why_tests_cant": "Only the key exchange calls it, always with a slice of the right length; there is no test for the others.", "anchors": ["identity.go: Sign, VerifySignature, NewIdentityFromPrivateKey, NewRemoteIdentityFromPublicKey"]}
{"id": "C148", "title": "SendInfo.N is the number of bytes written to send the message", "statement": "After Done, N of the SendInfo is the number of bytes that the backend has taken for the packet or packets with the message, also if there was an error.", "quantifier": "all messages, states of the buffer, options, backends, keys and ciphers", "why_tests_cant": "The tests never look at N.", "anchors": ["send_info.go: SendInfo.N", "session.go: WriteMessageAsync, writeMessageAsyncAsFragmented, sendDelayedNow, sendDelayedNowSyncFromBuffer, sendMessages"]}
{"id": "C149", "title": "Messages of one goroutine are sent in the order of its calls", "statement": "If a goroutine calls WriteMessage, WriteMessageAsync and WriteMessageSingle one after the other, nothing of a later message is written to the backend before all of an earlier one.", "quantifier": "all sequences of calls, all sizes of messages, all schedules of the sender loop and of the goroutines of the fragments", "why_tests_cant": "Whether a message overtakes another depends on the scheduler, and the tests do not mix the methods.", "anchors": ["session.go: WriteMessage, WriteMessageSingle, WriteMessageAsync, writeMessageAsyncAsFragmented, sendDelayedNow, delayedSenderLoop"]}
{"id": "C150", "title": "Messages written before the session is Established are sent when it is", "statement": "A write that begins before the state Established waits; when the session gets there its message is sent (README.md).", "quantifier": "all messages, payload size limits and negotiated sizes, with and without a delay and fragmentation, all orders of the calls, the negotiation and the sender loop", "why_tests_cant": "The outcome depends on whether the negotiation ends before or after the size of the message was compared.", "anchors": ["README.md: Established", "session.go: WriteMessageAsync, writeMessageAsync, writeMessageAsyncAsFragmented, sendMessages, GetEstablishedPayloadSize", "negotiator.go: finalize"]}
{"id": "C151", "title": "Packet IDs start with zero and increase by one", "statement": "The packets which a session sends have the packet IDs 0, 1, 2, \u2026 in the order of sending (README.md).", "quantifier": "all sequences of sent and received packets, failed writes, all keys and ciphers", "why_tests_cant": "The tests do not look at packet IDs, and the numbers depend on what is received in between.", "anchors": ["README.md: Encryption", "session.go: getNextPacketID, sendMessages, decrypt", "message.go: AcquireMessagesContainerHeaders"]}
{"id": "C152", "title": "GetEstablishedPayloadSize returns the result of the negotiation", "statement": "Each call of GetEstablishedPayloadSize that returns has returned the payload size received as the result of the negotiation (without one: the configured limit, once connected), and GetEstablishedPacketSize that size and 53 bytes of headers; before there is a result the calls wait.", "quantifier": "all limits and negotiated sizes, any number of calls at any time, all interleavings with Start, the negotiation, SetPause, Close and the end of the context", "why_tests_cant": "The value returned by a call on a closed session is that of a random choice of a select.", "anchors": ["session.go: GetEstablishedPayloadSize, GetEstablishedPacketSize, setEstablishedPayloadSize, onConnect, Start, Close, setState", "negotiator.go: finalize"]}
{"id": "C153", "title": "WriteMessageSingle sends a message by itself", "statement": "A packet made by WriteMessageSingle (or Messenger.WriteSingle) contains that message only: the receiver delivers it and nothing else, also with a SendDelay; the bytes are those which WriteMessage would send without a SendDelay.", "quantifier": "all payloads below 4 GiB minus 53 bytes, all message types but that of the key exchange, all keys, sizes and ciphers, every receiver that has the key in any position", "why_tests_cant": "Unbounded payloads and receivers.", "anchors": ["session.go: WriteMessageSingle, writeMessageSingle, sendMessages", "messenger.go: WriteSingle"]}
{"id": "C154", "title": "Concurrent calls do not share buffers", "statement": "However many goroutines write, flush, receive and read on one session at once, and whatever the pools return, no buffer, header or read item is used by two of them: the bytes that a call sends (or gives to the user) are made of its own data only, no delayed message and no received message is lost, mixed or altered, no `should not happened` panic of a pool occurs, and all objects are back in the pools when the calls have ended.", "quantifier": "any number of goroutines and calls of all ten kinds, all interleavings, all early returns, all choices of sync.Pool, all contents", "why_tests_cant": "Reuse of pooled memory under concurrency depends on schedules; a race detector sees only those that happen.", "anchors": ["buffer_pool.go: AcquireBuffer, Release", "message.go: messageHeadersPool, messagesContainerHeadersPool", "message_fragment_headers.go: Release", "read_item.go: AcquireReadItem, Release", "session.go: WriteMessageSingle, WriteMessageAsync, writeMessageFragment, writeMessageSingle, appendToDelayedWriteBuffer, sendDelayedNow, sendMessages, decrypt, processIncomingMessage, read"]}
{"id": "C155", "title": "A pause can last as long as the user wants", "statement": "A session that is paused with SetPause(true), and that nobody closes, is still open when SetPause(false) is called, however long the pause was.", "quantifier": "all options, all executions before and during the pause, all lengths of the pause, all messages of the other side", "why_tests_cant": "Tests pause for moments; key updates begin after a minute.", "anchors": ["session.go: SetPause, waitForUnpause, startKeyExchange", "key_exchanger.go: loop, KeyUpdateSendWait, retryUntilSuccessOrTimeout"]}
{"id": "C156", "title": "A peer that is gone is noticed", "statement": "A session whose other side has disappeared without closing the connection (nothing arrives that completes a key exchange) closes, and reports an error if nothing else has closed it, at most KeyUpdateInterval + Timeout later.", "quantifier": "all options, all answers modes, all executions on a computer that is fast enough, all moments at which the other side falls silent, all other messages that arrive", "why_tests_cant": "A test sees one moment of one update; what matters is every point of the loop at which the silence can begin.", "anchors": ["key_exchanger.go: loop, KeyUpdateSendWait, updateLocalKey, retryUntilSuccessOrTimeout, sendSuccessNotifications, sendPublicKey", "session.go: startKeyExchange"]}
{"id": "C157", "title": "A key is not used for longer than KeyUpdateInterval", "statement": "As long as a session is open, it replaces its ECDH key, and with it the cipher key, at most KeyUpdateInterval (by default one minute) after it has made it.", "quantifier": "all options, all executions on a computer that is fast enough, all messages of the other side at any time", "why_tests_cant": "How long a key lasts depends on when exchanges end and on which goroutine made it; a test measures single updates.", "anchors": ["README.md: The key is updated every minute", "key_exchanger.go: KeyExchangerOptions, loop, KeyUpdateSendWait, updateLocalKey, sendPublicKey"]}
{"id": "C158", "title": "Close returns immediately", "statement": "Close does not wait for anything: in whatever state the session is and whatever other goroutines do (the sender may hang in backend.Write), a successful Close returns after a bounded number of its own steps and never writes to the backend itself.", "quantifier": "all reachable states of a session with a send delay, all interleavings with any number of writers, the sender loop and the holders of SendInfos", "why_tests_cant": "A test calls Close on a quiet session; whether the loop of startClosing ends depends on what others write meanwhile.", "anchors": ["session.go: Close, startClosing, sendDelayedNow, writeMessageAsync, isDone"]}
{"id": "C159", "title": "Closing a session is not an error", "statement": "After the user has called Close, EventHandler.Error is not called: what the goroutines of the session run into because it is closed (a Read that is interrupted, a write that is refused, a cancelled context) is not reported as an error.", "quantifier": "all executions of reader, key exchanger and negotiator, all moments at which Close is called, all messages that arrive", "why_tests_cant": "Which goroutine is where when Close is called is a matter of timing, and the handlers of the tests accept errors of closed sessions.", "anchors": ["event_handler.go: EventHandler", "session.go: Close, startClosing, readerLoopReadError, processIncomingMessage, initNegotiator, startKeyExchange", "key_exchanger.go: Handle, KeyUpdateSendWait, retryUntilSuccessOrTimeout, mustSendPublicKey", "negotiator.go: pingSenderLoop"]}
{"id": "C160", "title": "Cancelling the context of Start ends the session", "statement": "After the context that was given to Start is cancelled, the session becomes Closing and then Closed, and its goroutines end, as after Close; Start itself returns (with or without an error) if the context is cancelled before or while it runs.", "quantifier": "all sessions, all moments at which the context is cancelled, all calls of Close and SetPause at the same time", "why_tests_cant": "Tests cancel the context of a connected session or not at all.", "anchors": ["session.go: Start, startBackendCloser, initNegotiator, startKeyExchange, NewMessenger, isDoneSlow, readerLoop", "negotiator.go: newNegotiator", "key_exchanger.go: newKeyExchanger"]}
{"id": "C161", "title": "An identity that a constructor returns can be used", "statement": "What NewIdentity, NewIdentityFromPrivateKey, NewRemoteIdentity and NewRemoteIdentityFromPublicKey return is nil or can be used: a remote identity to check signatures, the identities of the first two constructors also to sign, with signatures that are accepted.", "quantifier": "all keys, all contents of the key files, all failures of the file system and of the random generator, all signature schemes with the sizes of Ed25519", "why_tests_cant": "Tests look at the identity only when there was no error.", "anchors": ["identity.go: NewIdentity, prepareKeys, generateAndSaveKeys, loadKeys, NewIdentityFromPrivateKey, NewRemoteIdentity, NewRemoteIdentityFromPublicKey, Sign, VerifySignature"]}
{"id": "C162", "title": "Errors about keys can be recognised", "statement": "An error of the constructors of Identity because of a key of a wrong size is recognised by errors.As as ErrWrongKeyLength with the two sizes, and one because keys could not be read or parsed as ErrCannotLoadKeys.", "quantifier": "all keys, all contents of the key files, all failures of the file system", "why_tests_cant": "Tests check that there is an error, not its type.", "anchors": ["errors.go: ErrWrongKeyLength, newErrWrongKeyLength, ErrCannotLoadKeys, newErrCannotLoadKeys", "identity.go: NewIdentity, prepareKeys, loadPublicKeyFromFile, loadPrivateKeyFromFile, NewIdentityFromPrivateKey, NewRemoteIdentity, NewRemoteIdentityFromPublicKey"]}
{"id": "C163", "title": "A request of a key that is not answered is repeated every RetryInterval until Timeout", "statement": "On a computer and with a backend that are fast enough, while the key exchanger waits it sends its request at each multiple of RetryInterval and at no other time, and gives up exactly at Timeout. However slow they are, it does not send more often than once per RetryInterval on average, and after a success it sends nothing and does not time out.", "quantifier": "all positive RetryIntervals, all Timeouts, all arrivals of answers, all choices of select", "why_tests_cant": "The random choices of select and slow backends are not exercised by tests.", "anchors": ["key_exchanger.go: KeyUpdateSendWait, retryUntilSuccessOrTimeout, mustSendPublicKey"]}
{"id": "C164", "title": "GetRemoteIdentity returns the identity that has signed the keys of the session", "statement": "Each exchanged key of a session is the shared key of an own ECDH key and an ECDH public key in a received message that carries a valid signature of the identity which GetRemoteIdentity returns. If a remote identity was configured it always returns this one; if not, it returns nil exactly until a message is accepted, and not nil as soon as the key exchange counts as successful or an exchanged key is there.", "quantifier": "all executions of the key exchanger, all bytes received, all primitives", "why_tests_cant": "Tests use one honest peer.", "anchors": ["session.go: GetRemoteIdentity, setSecrets", "key_exchanger.go: Handle, parseAndCheck, setRemoteIdentityFromPublicKey, updateSecrets"]}
{"id": "C165", "title": "The error of MutualConfirmationOfIdentity says what went wrong", "statement": "MutualConfirmationOfIdentity returns either four keys and no error, or an error; and if it got no keys and its handler of errors was told that a packet cannot be decrypted (as with a wrong PSK), the error is ErrCannotDecrypt.", "quantifier": "all options, all orders of packets, of errors and of the steps of the call and of the reader loop", "why_tests_cant": "The test with wrong PSKs only looks for any error, and the outcome depends on the order of goroutines.", "anchors": ["identity.go: MutualConfirmationOfIdentity", "event_handler.go: wrapErrorHandler, Error", "session.go: readerLoopDecryptError"]}
{"id": "C166", "title": "What is received does not pile up goroutines", "statement": "The number of goroutines of a session that were started because a message was received is bounded, whatever is received and however slow the backend takes what is written.", "quantifier": "all sequences of received bytes, all schedules of goroutines and speeds of the backend", "why_tests_cant": "It needs a backend whose Write waits while messages come in.", "anchors": ["key_exchanger.go: Handle, mustSendPublicKey, sendPublicKey, send"]}
{"id": "C167", "title": "GetEphemeralKeys returns the last generated shared keys", "statement": "GetEphemeralKeys returns nil before the first exchange of keys and later four keys, which are those packets are encrypted and decrypted with (GetCipherKeys). When no key update is under way, the first of them is the shared key of the last ECDH key this side made and the last one it accepted; so both sides get the same one as soon as each has accepted the last key of the other.", "quantifier": "all executions of the key exchanger, in particular all interleavings of the loop, Handle and the answering goroutines, all primitives", "why_tests_cant": "Tests compare the keys after one exchange.", "anchors": ["session.go: GetEphemeralKeys, setSecrets, onReceiveSecrets", "key_exchanger.go: updateSecrets, updateLocalKey, Handle"]}
{"id": "C168", "title": "Packets of an outsider do not end a session", "statement": "Packets made by somebody who has neither an exchanged key nor the PSK, with messages that carry no signature of the peer, do not make the session close or detach from its backend, unless DetachOnSequentialDecryptFailsCount or DetachOnMessagesCount were set to have this effect.", "quantifier": "all byte strings received in all orders, all keys, identities and options, all primitives", "why_tests_cant": "Everything anybody can send; tests have no outsider.", "anchors": ["session.go: readerLoop, readerLoopDecryptError, processIncomingMessages, startKeyExchange, SessionOptions.DetachOnSequentialDecryptFailsCount", "key_exchanger.go: parseAndCheck"]}
{"id": "C169", "title": "An error is reported once", "statement": "For every packet that is received, EventHandler.Error is called at most once for each message in it, exactly then when the message is refused, and at most once for an incomplete rest and for a packet that cannot be decrypted; a ping of the negotiation that cannot be sent is reported once.", "quantifier": "all packets, messages, keys, identities, PSKs, options and states of the reader, all results of writes and of handlers", "why_tests_cant": "Tests do not count the calls; a handler that counts or logs errors sees more errors than there are.", "anchors": ["session.go: processIncomingMessage, processIncomingMessages, readerLoopDecryptError, startKeyExchange, initNegotiator", "key_exchanger.go: parseAndCheck, Handle", "negotiator.go: pingSenderLoop, sendControl, Handle"]}
{"id": "C170", "title": "Packets of an outsider do not stop a session", "statement": "Whatever packets made without any key of the session arrive, at whatever time and in whatever number, the session still gets Established, reads what the peer sends, and negotiates the payload size that it would negotiate without them.", "quantifier": "all packets, keys, IDs, options and schedules of the goroutines, all primitives", "why_tests_cant": "Needs an outsider who sends a message that the library itself never sends unencrypted.", "anchors": ["session.go: Start, readerLoop, processIncomingMessage, decrypt, initNegotiator, onKeyExchangeSuccess", "negotiator.go: handleControlMessage, Start, finalizer, finalize", "key_exchanger.go: Handle, sendSuccessNotifications"]}
{"id": "C171", "title": "A session can be closed although its peer does not read", "statement": "After Close the session gets Closed, its goroutines end, and CloseAndWait, WaitForClosure and pending calls of Write return, also if the peer has stopped reading and the buffers of the backend are full.", "quantifier": "all backends, buffer sizes and schedules", "why_tests_cant": "Needs full buffers on a real connection at the moment of Close.", "anchors": ["session.go: sendMessages (backend.Write), delayedSenderLoop, startBackendCloser, interruptRead, setBackendReadDeadline, readerLoop, Close, CloseAndWait, WaitForClosure", "key_exchanger.go: loop, sendPublicKey", "negotiator.go: handlePingPongMessage"]}
{"id": "C172", "title": "Each key exchange has ECDH key pairs of its own", "statement": "The README says that ECDH keypairs are generated for each key exchange: the key exchange messages of two different exchanges of a session, requests and answers, do not carry the same ECDH public key, and every one of them carries a key made in this session.", "quantifier": "all executions of the key exchanger, all peers", "why_tests_cant": "Needs a look at the keys of every message in all interleavings of the loop with received requests.", "anchors": ["README.md: Key exchanging (ECDH keypairs are generated for each key exchange)", "key_exchanger.go: updateLocalKey, getNextKeyCreatedAt, sendPublicKey, Handle, KeyUpdateSendWait, retryUntilSuccessOrTimeout"]}
{"id": "C173", "title": "Messages written within the send delay are merged into one packet", "statement": "The README says that all messages collected in a send delay are merged into one, sent, and split again: messages that fit into a packet together and are accepted before the timer expires leave in one packet, in their order, unless there is no room for the next message, SendNowAndWait is called, or the session is connected or closed.", "quantifier": "all messages, schedules and numbers of writers, without fragmentation", "why_tests_cant": "Depends on the interleaving of the writers with the sender loop and onConnect within microseconds.", "anchors": ["README.md: Benchmark (merges all your messages collected in 50 microseconds into a one)", "session.go: writeMessageAsync, appendToDelayedWriteBuffer, waitForSend, sendDelayedNow, delayedSenderLoop (lastSendID), onConnect"]}
{"id": "C174", "title": "A write that waits for room in the packet is not overtaken for ever", "statement": "A call of WriteMessageAsync (or Write) whose message fits into a packet but not into the one being filled waits until that packet is sent; after a bounded number of packets its message is accepted, however many other goroutines write at the same time.", "quantifier": "all messages, packet sizes, schedules and numbers of writers, without fragmentation", "why_tests_cant": "Starvation needs an unbounded execution with an unlucky schedule; a test sees a finite one.", "anchors": ["session.go: writeMessageAsync (the loop), waitForSend, delayedWriteBufLockDo, sendDelayedNow, delayedSenderLoop"]}
{"id": "C175", "title": "Nothing happens to a session that is Closed", "statement": "The README says: if state Closed is reached it means the session is dead and nothing will ever happen to it anymore. Once GetState returns SessionStateClosed, no function of the EventHandler is called, the backend is neither read nor written nor closed nor given a deadline, and Start, Close and SetPause are refused.", "quantifier": "all schedules and API calls of a session, backends with and without deadlines", "why_tests_cant": "The last steps of the reader, the backend closer and the negotiation race with the change to Closed.", "anchors": ["README.md: Closing / Closed (nothing will ever happen to it anymore)", "session.go: readerLoopCleanup, startBackendCloser, interruptRead, onKeyExchangeSuccess, onConnect, SetPause, Close, Start"]}
{"id": "C176", "title": "Over a whole session answers are sent and waited for as AnswersMode is documented", "statement": "In an exchanger with KeyExchangeAnswersModeDisable no message marked as an answer is ever sent. With AnswerAndWait the exchange is reported as successful at most as often as an answer was received. With the other modes it is reported once for each accepted message. With all modes but Disable each accepted message that is not an answer is answered, or the failure to do so is reported.", "quantifier": "all sequences of received messages, all interleavings of the reader, the loop and the answering goroutines, all results of the backend", "why_tests_cant": "The answers are sent by goroutines that run at any time later; tests use one mode and few messages.", "anchors": ["key_exchanger.go: KeyExchangeAnswersMode, Handle, sendSuccessNotifications, mustSendPublicKey"]}
{"id": "C177", "title": "UDP packets of a session are not fragmented on their way", "statement": "The README says that traffic fragmentation is not supported and has to be disabled for UDP. NewSession tells each backend that it treats as UDP (IsLossyWriter) not to fragment, or the event handler is told that this failed; so on a path that carries datagrams of a certain size in one piece, messages of up to the negotiated size go in one piece. Other backends are left alone.", "quantifier": "all types of backends, all results of setting the option, all sizes a path can carry, all executions of the negotiation", "why_tests_cant": "Tests run on the loopback interface, which carries 64 KiB in one piece.", "anchors": ["session.go: setupBackend, init", "is_lossy_writer.go: IsLossyWriter", "negotiator.go: isEnabled", "README.md: limitations (traffic fragmentation)"]}
{"id": "C178", "title": "Who sees the packets learns their number and sizes, but not their contents", "statement": "Somebody who sees all that a session hands to its backend, and has neither the PSK nor the exchanged keys, learns nothing about the messages but the sizes of the packets: for any other messages of the same sizes there is a key stream with which the same bytes would have been sent. With a PSK the packet IDs are hidden as well, as the README says.", "quantifier": "all crypto primitives with an unknown key stream, all keys, session IDs, numbers of packets below 2^64, and contents; other sessions with the same PSK included", "why_tests_cant": "A test compares packets with one key stream; what an observer can conclude is a statement about all of them.", "anchors": ["session.go: sendMessages", "crypt.go: encrypt, emptyIV", "message.go: AcquireMessagesContainerHeaders", "README.md: Encryption"]}
{"id": "C179", "title": "Each round of the negotiation tries three sizes in a shorter interval than the round before", "statement": "The README says that packets of 3 different sizes are sent, that those that make a round trip are looked at, and that this is repeated in a shorter interval. So in each round of the negotiation packets of three different sizes are sent, and the interval of sizes of each round is shorter than that of the round before.", "quantifier": "all executions of two sides, with loss, reordering and duplication; all limits from 147 to 2^30; all numbers of iterations", "why_tests_cant": "Tests run over transports that carry everything, where the first round is the last one.", "anchors": ["negotiator.go: pingSenderLoop", "README.md: Negotiation"]}
{"id": "C180", "title": "MutualConfirmationOfIdentity confirms nobody who has another PSK", "statement": "As long as no packet that arrives has valid tags under the key made from the PSK of this side, MutualConfirmationOfIdentity gives no keys and no confirmation, accepts no key of the key exchange, does not send its message and reads none, whoever sends the packets. So of two sides with different PSKs, neither confirms the other, unless a packet sealed under the key of one PSK happens to have valid tags under that of the other.", "quantifier": "all executions of the call, all packets without valid tags, all PSKs and the absence of one; all executions of two sides over a network that loses, repeats and reorders", "why_tests_cant": "TestIdentityMutualConfirmationOfIdentityWithWrongPSK tries one pair of PSKs in one schedule.", "anchors": ["identity.go: MutualConfirmationOfIdentity", "session.go: decrypt", "key_exchanger.go: Handle"]}
{"id": "C181", "title": "GetEphemeralKeys returns the same keys on both sides", "statement": "When both sides have accepted all ECDH keys of each other and no update of the keys is under way, GetEphemeralKeys, and so MutualConfirmationOfIdentity, returns the same list of keys on both sides (the tests of MutualConfirmationOfIdentity compare the lists).", "quantifier": "all executions of both sides in which key updates of one side do not overlap, with any number of exchanges; all PSKs and ECDH keys", "why_tests_cant": "The tests look at the lists after the first exchange only.", "anchors": ["session.go: GetEphemeralKeys", "key_exchanger.go: updateSecrets", "key_exchanger.go: generateSharedKeyBySecretID", "identity_test.go"]}
{"id": "C182", "title": "A packet refused for its packet ID has no effect but on the counter", "statement": "Whatever packets arrive: those refused for their packet IDs cause no delivery, no report and no end of the session, and all other packets have the same effects, and the session gets to the same state, as if the refused ones had not arrived; GetUnexpectedPacketIDCount returns exactly their number. For every non-negative PacketIDStorageSize a packet with the ID of the decrypted packet right before it is refused, so that a backend that only repeats packets does no harm.", "quantifier": "all sequences of packets, all keys and handlers at the time of each packet, all options and storage sizes", "why_tests_cant": "The tests send one wrong packet and look at the counter; they cannot compare with the run without it.", "anchors": ["session.go: readerLoop, checkAndRememberPacketID, GetUnexpectedPacketIDCount", "packetid_storage.go: Push"]}
{"id": "C183", "title": "What is delivered depends on the accepted packets only", "statement": "Packets that cannot be decrypted or are refused for their IDs, wherever they arrive among the others, have no effect but reports about the decryption: without them all accepted packets have the same effects in the same order, and the reassembly, the count of messages and the known packet IDs end in the same state (DetachOnSequentialDecryptFailsCount = 0 is documented as never detaching).", "quantifier": "all sequences of packets, all keys and handlers at the time of each packet, all options", "why_tests_cant": "The tests cannot compare a run with the same run without the wrong packets.", "anchors": ["session.go: readerLoop, readerLoopDecryptError, checkAndRememberPacketID, processIncomingMessages"]}
