c('C01','partial','PacketID.C01_replay_partial Receive.C01_reader_partial PacketID.C01_replay_violated PacketID.C01_exact','Code violates the property: an ID jump of more than 64 clears the whole table. Proved for histories without such jumps; negation proved for the default and every size above 64; C01_exact says for every history exactly which packets pass.')
c('C02','proved','PacketID.C02_small_window_no_replay Receive.C02_reader PacketID.C02_grow_only')
c('C03','proved','PacketID.C03_fresh_accepted PacketID.C03_zero_first_refused')
c('C04','proved','PacketID.C04_too_old_dropped PacketID.C04_counter PacketID.C04_disabled PacketID.C04_refines_filter')
c('C05','proved','Headers.C05_message_header Headers.C05_flags')
c('C06','proved','Headers.C06_container_header Headers.C06_packet_id')
c('C07','proved','Headers.C07_fragment_header')
c('C08','proved','Headers.C08_session_id Headers.C08_key_exchange_message')
c('C09','proved','Headers.C09_control_message Headers.C09_ping_pong Headers.C09_bad_pong_ignored')
c('C21','proved','PendingChain.C21_completes')
c('C22','partial','PendingChain.C22_delivered_when_all_partial PendingChain.C22_violated PendingChain.C22_exact','Code violates the property for pieces shorter than 64 bytes (established payload below 88). Proved for pieces of 64 bytes and more; negation proved; exact characterisation proved for all pieces.')
c('C23','partial','PendingChain.C23_delivered_bytes_partial PendingChain.C23_violated','Code violates the property when a slot is reused by a shorter message (stale tail). Proved for slots that never held a longer message.')
c('C60','proved','Headers.C60_set_limit Headers.C60_defaults')
c('C12','proved','Packet.C12_roundtrip_confidential Packet.C12_roundtrip_aux')
c('C13','proved','Packet.C13_accept_implies_genuine Packet.C13_reject')
c('C14','partial','Packet.C14_psk_partial Packet.C14_violated Packet.C14_violated_witness','Code violates the property: without a pre-shared key packets built with no key at all are accepted. Proved: with a pre-shared key every accepted packet is genuine under that key or an exchanged one.')
c('C16','proved','Packet.C16_nonce_unique')
c('C17','partial','Packet.C17_one_session_partial Packet.C17_violated Packet.C17_violated_packet_ids','Code violates the property: two sessions with one pre-shared key reuse nonces, and encrypted packet IDs repeat the key stream. Proved inside one session.')
c('C64','partial','Packet.C64_mac_key_preimage Packet.C64_violated Packet.C64_violated_sides','Code violates the second half: header and messages are authenticated with the same one-time key, and so are the packets of the two sides with the same packet ID. Proved: preimages of the MAC key differ between packets.')
c('C10','proved','Receive.C10_parser Receive.C10_unique')
c('C11','proved','Receive.C11_aggregate')
c('C24','partial','Receive.C24_noninterference_partial Receive.C24_old_ignored Receive.C24_violated_loss Receive.C24_violated_mix','Code violates the property: a newer message destroys all incomplete ones, and chain IDs exactly MaxChainIDDiff apart share a buffer. Proved: no interference while no newer message begins and IDs are closer.')
c('C25','partial','Receive.C25_receiver_partial Receive.C25_violated Receive.C25_violated_new_session Packet.C25_decrypt_total PendingChain.C25_merge_partial PendingChain.C25_merge_panics','Code violates the property: a fragment whose start position wraps crashes the process, without PSK even when sent by an outsider. Proved: in every reachable state nothing else crashes or hangs the receive path.')
c('C26','proved','Receive.C26_memory')
c('C47','partial','Receive.C47_detach_partial Receive.C47_strict_partial Receive.C47_violated Receive.C48_violated','Code violates the property for option 0 (the default): the first undecryptable packet stops the session; and for every option from 2 on, since a packet that is decrypted but dropped because of its ID does not end a sequence of undecryptable ones (C48_violated). Proved for every option above 0 if such packets are passed over, and to the letter without them.')
c('C48','partial','Receive.C48_error Receive.C48_partial Receive.C48_no_error Receive.C48_violated','Code violates the property to the letter: a packet that is decrypted but dropped because of its ID does not restart the count, so a failure is reported that follows a good packet. Proved if such packets are passed over, and to the letter without them.')
c('C49','partial','Receive.C49_limit_partial Receive.C49_zero_never Receive.C49_violated Receive.C49_fragments_count','Code violates the property while a session waits for the answer of a key exchange, and counts fragments. Proved for all other packet sequences.')
c('C52','partial','Headers.C52_channels_isolated_partial Headers.C52_documented Headers.C52_violated Receive.C52_dispatch','Code violates the property for channel ID 2^32-1 (wraps to type 0). Proved for all other channel IDs, hence for all that the README allows (0 to 2^31); dispatch by type proved.')
c('C71','partial','Receive.C71_violated Receive.C11_aggregate','Code violates the property for fragments that are whole messages. Proved for messages that are not fragments.')
c('C50','proved','ReadQueue.C50_read_exact ReadQueue.C50_in_order ReadQueue.C50_closed_last')
c('C51','partial','ReadQueue.C51_no_loss_partial ReadQueue.C51_violated','Code violates the property: a Read with a too small buffer loses its message. Proved: nothing is lost otherwise.')
c('C65','partial','ReadQueue.C65_not_blocked_partial ReadQueue.C65_violated','Code violates the property: 1025 unread messages block the reader for ever. Proved: up to 1024 unread messages never block it.')
c('C15','partial','Send.C15_encrypted_partial Send.C15_violated','Code violates the property: fragments of a fragmented message are never encrypted with the exchanged key, and are sent in plain text without a PSK. Proved for every message that is not fragmented.')
c('C18','proved','Send.C18_packet_size Send.C18_fragment_size DelayedSend.C18_batch')
c('C19','partial','Send.C19_refused_partial Send.C19_fits Send.C19_single_refused Send.C19_violated','Code violates the property for payloads of 4 GiB and more (uint32 truncation). Proved for smaller payloads.')
c('C20','proved','Send.C20_covers Send.C20_plan Send.C20_hangs EndToEnd.plan_pieces','For an established payload size of at least 25; C20_hangs shows that 24 makes the call hang.')
c('C63','partial','EndToEnd.C63_delivery EndToEnd.plan_message EndToEnd.C63_fragmented_partial EndToEnd.C63_violated EndToEnd.C63_violated_concurrent','Code violates the property for fragmented messages: with the default options the ninth of nine messages sent one after the other is delivered with the end of the first one appended, and of two messages written at the same time the older one never arrives. Proved: exact delivery for whole messages in any batching; fragmented messages under the restrictions of C22 and C23 (pieces of at least 64 bytes, no longer message before in the slot).')
c('C44','partial','DelayedSend.C44_delivered_partial SendCount.C44_fragmented DelayedSend.C44_violated DelayedSend.C44_violated_cancel','Code violates the property: a Write after Close, or one waiting when the context is cancelled, may return no error though nothing is ever sent. Proved: whenever the wait ended by Done(), no error means exactly that the packet was written, or for a fragmented message that all fragments were.')
c('C45','partial','DelayedSend.C45_in_order_partial DelayedSend.C45_result_partial DelayedSend.C45_violated DelayedSend.close_drops','Code violates the property: a message accepted after Close is in no packet. Proved (no fragmentation): written packets contain the accepted messages once, in order, and a finished SendInfo reports the result of its packet. Close drops what is waiting.')
c('C46','partial','DelayedSend.C46_counts DelayedSend.C46_recycled_partial DelayedSend.C46_violated','Code violates the property with fragmentation: the SendInfo is recycled while the sending goroutine still uses it. Proved: counts in all cases; finality without fragmentation.')
c('C61','proved','Send.C61_no_write DelayedSend.C61_check DelayedSend.C61_nothing_after_close')
c('C72','partial','DelayedSend.C72_only_two_partial DelayedSend.C72_violated DelayedSend.C72_violated_channel DelayedSend.C72_violated_fragment','Code violates the property in three ways. Proved: without fragmentation there are only two ways to crash.')
c('C27','proved','Lifecycle.C27_final Lifecycle.C27_final_run')
c('C28','partial','Lifecycle.C28_phases_partial Lifecycle.C28_violated','Code violates the property: Close before Start makes a new session Closing. Proved: all other transitions are as documented.')
c('C29','partial','Lifecycle.C29_pause Lifecycle.C29_unpause Lifecycle.C29_proceeds Lifecycle.C29_result_partial Lifecycle.C29_violated','Code violates the property for backends without deadlines: SetPause(true) pauses the session and returns an error. Proved for backends with deadlines.')
c('C30','partial','Lifecycle.C30_detached Lifecycle.C30_returns_partial Lifecycle.C30_channel Lifecycle.C30_violated Lifecycle.C30_violated_sequential','Code violates the property: a second SetPause(true), or one that comes before the reader left the previous pause, hangs a call for ever. Proved for calls made after the reader left the previous pause and not disturbed by other SetPause or Close calls.')
c('C31','proved','Lifecycle.C31_once Lifecycle.C31_result')
c('C32','proved','StateWait.C32_result StateWait.C32_woken StateWait.C32_progress StateWait.C32_others StateWait.C32_returns')
c('C62','proved','Lifecycle.C62_once Negotiator.C62_success_once','The session part assumes that the negotiator reports success at most once, which C62_success_once proves.')
c('C66','partial','Lifecycle.C66_polite_partial Lifecycle.C66_violated','Code violates the property: with SetPause calls that do not wait for the reader a read deadline can stay in the past and is taken for a time-out, so the session closes itself. Proved for callers that wait for the reader (Polite).')
c('C67','partial','Lifecycle.C67_violated Lifecycle.C68_closes_partial','Code violates the property: Close on a paused session whose reader waits never reaches Closed. Proved (C68_closes_partial) when the reader is not waiting yet.')
c('C68','partial','Lifecycle.C68_closes_partial Lifecycle.C68_violated Lifecycle.C68_violated_pause','Code violates the property: the interrupt of Close is lost when the reader is between two reads. Proved for the remaining executions, see the hypotheses.')
c('C70','partial','Lifecycle.C70_no_crash_partial Lifecycle.C70_violated_new Lifecycle.C70_violated_start Messenger.C70_violated_handler','Code violates the property before Start, while Start runs (also when the context of Start is cancelled meanwhile, see C160), and for SetHandlerFuncs on a finished session. Proved for a session whose key exchanger exists.')
c('C69','partial','Messenger.C69_outcome Messenger.C69_destination Messenger.C69_arrival Messenger.C69_no_crash_partial Messenger.C69_calm_partial Messenger.C69_violated Messenger.C69_violated_messenger Messenger.C69_violated_map','Code violates the property: a message that arrives before SetHandler was called, or while a map is written, crashes the program. Proved: each message has exactly one outcome; there are only three ways to crash; none with careful use (Calm).')
c('C73','partial','Messenger.C73_once Messenger.C73_owner Messenger.C73_closed_partial Messenger.C73_violated','Code violates the property: a registration that overlaps the end of the session leaves a messenger open for ever. Proved when no registration is in progress as the session ends.')
c('C33','proved','KX.C33_ignored KX.C33_effect Mutual.C33_sent')
c('C34','proved','KX.C34_pinned KX.C34_adopted KX.C34_first')
c('C35','partial','KX.C35_shared KX.C35_crosswise KX.C35_sessions_partial KX.C35_prepared KX.C35_violated','Proved for the key derivation, and for sessions whose key updates do not overlap. Code violates the property otherwise: an answer sent before the first local key exists calls updateLocalKey without the lock, and stale secrets can be passed on last.')
c('C36','proved','KX.C36_keys_differ KX.C36_psk_matters KX.C36_inputs KX.C36_inputs_second KX.C36_hash KX.C36_derived')
c('C37','partial','KX.C37_ahead_partial KX.C37_violated','Proved for a receiver that is ahead by at most one key of either side. Code violates the property for a receiver that is behind: the sender uses a new local key before it has sent it.')
c('C38','partial','KX.C38_serial_partial KX.C38_count_partial KX.C38_violated','Proved for sessions whose key updates do not overlap. Code violates the property when an answering goroutine and the loop both make the first key.')
c('C39','partial','KX.C39_current_partial KX.C39_violated KX.C39_violated_witness','Code violates the property: any message signed by the peer is accepted, whatever its age or session. Proved: the current message played back changes no key.')
c('C40','partial','KX.C40_cause_partial KX.C40_honest_partial KX.C40_violated KX.C40_violated_witness KX.C40_violated_nil','Code violates the property: a public key of low order panics the receiver. Proved: this (or a failed random generator) is the only cause, and honest peers cause no panic.')
c('C41','proved','KX.C41_ignored KX.C41_handle KX.C41_unverified')
c('C42','proved','KX.C42_keys KX.C42_available KX.C42_wait KX.C42_no_double_close')
c('C43','proved','SessionID.C43_increasing SessionID.C43_unique SessionID.C43_returns SessionID.C43_is_time SessionID.C43_limit SessionID.C43_frozen','For every clock; the 64-bit limit is shown to be needed. A clock that stands still at the last value keeps Get in its loop with the lock held (C43_frozen).')
c('C74','proved','SessionID.C74_roundtrip SessionID.C74_short')
N='Negotiator.'
c('C53','partial',N+'C53_short '+N+'C53_safe_partial '+N+'C53_safe_other_partial '+N+'C53_echo '+N+'C53_checksum '+N+'C53_control '+N+'C53_violated','Proved for two sides that follow the protocol. Code violates the property for an authenticated peer that does not: an unasked-for pong larger than the limit is counted.')
c('C54','partial',N+'C54_rounds '+N+'C54_range_partial '+N+'C54_terminates '+N+'C54_goes_on '+N+'C54_violated '+N+'C54_overflow '+N+'C54_small_limit','Number of rounds and termination proved in all cases; the range for limits below 2^30 and a peer that follows the protocol. Code violates the range otherwise.')
c('C55','partial',N+'C55_violated '+N+'C55_silent '+N+'C55_silent_other '+N+'C55_ready_partial '+N+'C55_stays_partial '+N+'C55_told_partial '+N+'C55_reaches_limit','Code violates the property with default settings: a side whose search ends by MaxIterations sends no end message, so the other side waits until the total time-out. Proved: a side that is through and was told so by the other one succeeds.')
c('C56','partial',N+'C56_violated_late '+N+'C56_violated_disabled '+N+'C56_violated_timeout '+N+'C56_violated_early '+N+'C56_violated_crash '+N+'C56_causes_partial '+N+'C56_collecting_partial','Code violates the property in five ways, all between two sides that follow the protocol. Proved: there are no other places at which the reader can be blocked, and it never is while the probes of a round are collected.')
c('C75','partial',N+'C75_floor_partial '+N+'C75_violated '+N+'C75_narrow','Code violates the property for limits from 147 to 150: nothing is probed and the negotiation succeeds with size 0. Proved: 0 is the only value below 147, between sides that follow the protocol.')
c('C76','partial',N+'C76_later_partial '+N+'C76_always '+N+'C76_violated','Code violates the property in the first round. Proved for the later rounds and for positive time-outs.')
c('C77','partial',N+'C77_closes_partial '+N+'C77_violated','Code violates the property: the finalizer leaves first, the ping sender then waits for it for ever. Proved for a negotiator that has succeeded or was not enabled.')
c('C78','partial',N+'C78_violated '+N+'C78_best_partial','Code violates the property: after the time-out no result is used or reported. Proved: whatever is used is the minimum of what both sides have found.')
c('C79','partial',N+'C79_half_partial '+N+'C79_grows '+N+'C79_ends_low '+N+'C79_violated','Code violates the property for every path that carries less than about a third of the limit. Proved, round by round, for the other paths.')
I='Identity.'
c('C57','partial',I+'C57_sequential_partial '+I+'C57_stable_partial '+I+'C57_no_failure '+I+'C57_completes '+I+'C57_violated '+I+'C57_violated_mixed','Proved for calls that do not overlap until the first one has succeeded, with failures and crashes everywhere. Code violates the property for two first calls at the same time: different keys, or even a mixed key nobody has generated, because the file is opened without O_EXCL and O_TRUNC.')
c('C58','partial',I+'C58_outcomes_partial '+I+'C58_violated','Code violates the property: after a crash between creating and filling the private key file every later call panics. Proved: the complete list of what can be left.')
c('C59','proved',I+'C59_private '+I+'C59_public '+I+'C59_embedded')
c('C80','partial',I+'C80_block_partial '+I+'C80_violated','Code violates the property: a file without PEM block crashes the program (nil block dereferenced). Proved for files with a block.')
c('C81','partial',I+'C81_matches_partial '+I+'C81_violated','Code violates the property: a partly written public key file is never repaired. Proved for calls one after the other without failures.')
M='Mutual.'
c('C82','partial',M+'C82_sent '+M+'C82_once '+M+'C82_final '+M+'C82_signed_partial '+M+'C82_psk_partial '+M+'C82_by_psk_partial '+M+'C82_violated '+M+'C82_violated_witness','Code violates the property without a PSK: one unencrypted packet with a recorded answer of the remote side and an empty message makes the call succeed. Proved: a signed answer and an empty message were received, the first key belongs to a signed public key; with a PSK these came in packets sealed with the PSK or with an exchanged key.')
c('C83','partial',M+'C83_agree_partial '+M+'C83_violated','Proved for calls in which each side makes one local key and messages are authentic. Code violates the property otherwise: an answering goroutine makes a second key after the exchange, and both calls succeed with different first keys.')
c('C84','partial',M+'C84_reported '+M+'C84_bound_partial '+M+'C84_violated '+M+'C84_violated_witness','Code violates the property: the reader goes on reading until the session is closed, and drops a packet it cannot decrypt without a report. Proved: at most two such packets in a row are read.')
T='Traffic.'
c('C85','partial',T+'C85_short '+T+'C85_once_partial '+T+'C85_violated '+T+'C85_violated_witness','Code violates the property with the default window and every window above 64: every received packet takes a packet ID of the receiver, so 64 received packets between two sends (for example copies of one old packet) make the next ID jump by more than 64; the jump empties the table of received IDs, and older packets are accepted again. Proved for windows of up to 64 and for traffic without such jumps.')
c('C86','partial',T+'C86_window_partial '+T+'C86_violated '+T+'C86_violated_witness','Code violates the property: the window counts packet IDs, and received packets take IDs too; a packet overtaken by a single one is dropped if the sender received as many packets in between as the window is wide. Proved for packets whose IDs lag by less than the window.')
c('C87','partial',T+'C87_serial_partial '+T+'C87_violated '+T+'C87_violated_witness','Code violates the property: the packet ID is taken before and not under the same lock as backend.Write, so concurrent writers write out of order, and a packet can be too old on arrival; with PacketIDStorageSize = 1 two writers are enough. Proved for sends that do not overlap, with any failures and received packets in between.')
B='Mem.'
c('C88','proved',B+'C88_send '+B+'C88_message '+B+'C88_fragment '+B+'C88_receive '+B+'C88_roundtrip','For packets below 4 GiB. That there are no keys before the session ID of the peer is known is proved in Lemmas/MutualKeys.lean.')
c('C89','partial',B+'C89_contents '+B+'C89_partial '+B+'C89_iff '+B+'C89_violated','Code violates the property: the established payload size is taken from the peer without comparing it with the own limit, and the message is appended behind the capacity of the pooled buffer, so that Write panics. Proved while the established size is not more than 44 above the limit, with the exact condition.')
B='ByteStream.'
c('C90','partial',B+'C90_exact '+B+'C90_packets_partial '+B+'C90_violated '+B+'C90_violated_witness','Code violates the property: the result of one Read is taken for one packet, although the header has the length; two packets read at once, or a packet read in two parts, are lost, and with the default options the session ends. Proved: exactly the packets that were read alone and whole arrive.')
c('C91','partial',B+'C91_partial '+B+'C91_violated '+B+'C91_violated_witness','Code violates the property when the limits differ and there is no negotiation. Proved when the established size of the sender is not above the limit of the receiver.')
B='Sync.'
c('C92','partial',B+'C92_partial '+B+'C92_progress_partial '+B+'C92_violated '+B+'C92_exact','Code violates the property: setMessenger calls Close of the old handler, and EventHandler.Error, with sess.locker held; there GetRemoteIdentity, NewMessenger, SetHandlerFuncs, SetPause and Start wait for ever. Proved when these callbacks keep off those methods; handlers and OnConnect may call all.')
c('C93','partial',B+'C93_partial '+B+'C93_violated '+B+'C93_exact','Code violates the property for nine fields: sess.messenger, sess.readChan, sess.currentSecrets, kx.nextLocalPublicKey, kx.localKeyCreatedAt (written under a read lock), kx.skipKeyUpdateUntil, n.localLargestRTT, n.remoteLargestRTT, n.recvChan. Proved for the other nine, with any callbacks.')
c('C94','partial',B+'C94_partial '+B+'C94_waits_for_itself '+B+'C94_closure_waits '+B+'C94_sending_waits '+B+'C94_violated '+B+'C94_violated_write '+B+'C94_outside','Code violates the property: handlers run in the goroutine that reads. WaitForClosure, CloseAndWait, SetPause(true) and Read on an empty queue wait for that goroutine and never return; a handler that sends before the last message of the negotiation has been received waits until the session is closed. All of this is proved for all programs and executions. Proved for the methods that do not wait for the reader, in sessions that are established or closed; waiting for the goroutines of the negotiation is left open.')
c('C95','partial',B+'C95_partial '+B+'C95_both_full '+B+'C95_violated','Code violates the property for every buffer size: both readers wait in backend.Write while nobody reads. Proved when everything that is ever written fits into the buffer. Closing the backend, which makes its Write return, is not modelled.')
B='Handshake.'
c('C96','partial',B+'C96_partial '+B+'C96_violated','Code violates the property in the default mode: when the answer to the first message of the other side is sent before the own loop has started, it sets skipKeyUpdateUntil, the loop skips its first update, and nothing is sent until the ticker of KeyUpdateInterval; the session stays in KeyExchanging for a minute although nothing is lost. Proved for sides that do not skip, and for the other modes.')
c('C97','partial',B+'C97_partial '+B+'C97_violated','Code violates the property in the mode "disable": a side that has finished neither sends nor answers, so one lost message cannot be made good before KeyUpdateInterval. Proved for the modes with answers, for sides whose loop has not skipped its update (C96).')
B='Options.'
c('C98','partial',B+'C98_partial '+B+'C98_violated '+B+'C98_nil','Code violates the property for DetachOnSequentialDecryptFailsCount = 0, documented as "never": the first undecryptable packet stops the session. Proved for all other documented values (ReadTimeout below 0: C76).')
c('C99','partial',B+'C99_partial '+B+'C99_new '+B+'C99_start '+B+'C99_violated Retry.C99_update_partial Retry.C99_violated_retry Retry.C99_violated_interval Retry.C99_negative_timeout','Code violates the property: a negative KeyUpdateInterval or RetryInterval makes time.NewTicker panic in a goroutine, and large MaxChainIDDiff or PacketIDStorageSize make NewSession panic. Proved for the rest, with exact conditions; the panics that are modelled are those of make and time.NewTicker (out of memory is not). Retry has the first key update step by step; there a negative Timeout does not crash but gives up at once.')
c('C100','partial',B+'C100_partial '+B+'C100_violated','Code violates the property for the 53 largest values: the sum wraps and the buffer is shorter than the headers. Proved, as an equivalence, for all others.')
c('C101','partial',B+'C101_partial '+B+'C101_exact '+B+'C101_violated','Code violates the property: only the structure is copied. The keys of the exchange are made with what is in the PSK slice at that time (after wiping it: zeros), SendDelay and ErrorOnSequentialDecryptFailsCount are read from the variables of the caller. Proved while these do not change.')
B='Reader.'
c('C102','partial',B+'C102_partial '+B+'C102_exact '+B+'C102_any_error '+B+'C102_closed '+B+'C102_violated','Code violates the property with a handler that returns true: the reader reads the failed backend again and again without a pause. Proved for handlers that return false, with the exact number of reports.')
c('C103','partial',B+'C103_partial '+B+'C103_until_end '+B+'C103_violated','Code violates the property: data that is returned together with an error is dropped. Proved for data without an error.')
c('C104','partial',B+'C104_partial '+B+'C104_no_deadlines '+B+'C104_violated','Code violates the property on backends whose time-out error does not have the text "i/o timeout". Proved for the others.')
B='Handshake.'
c('C105','proved',B+'C105_renewed','Both sides with the same answers mode; sending does not fail.')
c('C106','partial',B+'C106_partial '+B+'C106_violated '+B+'C106_clock KeyTimer.C106_timed_partial KeyTimer.C106_timed_violated KeyTimer.C106_timed_clock','Code violates the property: a notification about an older key that gets into the channel between makeSuccessNotifyChanEmpty and updateLocalKey makes sendSuccessNotifications drop the right one, or is the only one there is; in the mode "disable" the session then times out although both sides have all keys. The same happens when the clock is set back while a goroutine that answers makes a key. Proved for updates without these two cases, and also with time (KeyTimer).')
c('C107','partial',B+'C107_partial '+B+'C107_violated','Code violates the property in the modes "answer" and "disable": the message of the other side counts as success even if this side has no key. Proved for the default mode.')
B='Lifecycle.'
c('C108','partial',B+'C108_partial '+B+'C108_open '+B+'C108_detach '+B+'C108_violated '+B+'C108_without_deadlines','Code violates the property: if a packet ends Read while Close interrupts it, the interrupt sets the deadline after the reader has finished, and nobody resets it. Proved: the backend is never closed; a session that ends by itself (DetachOn...) never touches the backend; otherwise for interrupts that come before the reader has answered them.')
c('C109','partial',B+'C109_partial '+B+'C109_violated','Code violates the property: the reader lets SetPause return before it resets the deadline. Proved for polite callers (C66): the reader does not read, and its next step, which cannot block, makes the backend usable.')
B='StdIO.'
c('C110','partial',B+'C110_partial '+B+'C110_refines '+B+'C110_violated '+B+'C110_violated_single '+B+'C110_single_failed','Code violates the property: every failed Read returns -1, and a successful WriteMessageSingle (also Messenger.WriteSingle) returns the size of the packet, 53 bytes more than the payload. Proved for successful Reads, Write and WriteMessage, and for failing WriteMessageSingle. The theorem C110_refines ties the sequential Read of this model to the one with goroutines (ReadQueue).')
c('C111','partial',B+'C111_partial '+B+'C111_exact '+B+'C111_violated','Code violates the property for every series of messages: the count -1 at the end takes away the last byte (or makes the slice expression panic if there is none), the error is not io.EOF, and a message that is longer than the room in the slice is dropped. Proved exactly what io.ReadAll returns; for up to 512 bytes it is all but the last byte.')
c('C112','partial',B+'C112_partial '+B+'C112_exact '+B+'C112_violated','Code violates the property: the end of a session is never io.EOF, so that io.Copy always fails, and a message of more than 32768 bytes ends it early. Proved: messages up to this length all get to the target.')
c('C113','partial',B+'C113_partial '+B+'C113_violated '+B+'C113_violated_bufio','Code violates the property: the count -1 makes (*bytes.Buffer).ReadFrom panic at the end of every session, and bufio.Reader too, also on a message that is longer than its buffer. Proved: the bytes that bufio.Reader returns before are a begin of the stream.')
c('C114','partial',B+'C114_partial '+B+'C114_violated','Code violates the property whenever the buffer ends inside of a message: io.ReadFull fails, reports one byte less than it has read (-1 if none), and the message is lost. Proved for buffers that end where a message ends.')
B='Mutual.'
c('C115','partial',B+'C115_partial '+B+'C115_violated '+B+'C115_violated_own','Code violates the property for an unknown remote identity, with a PSK too, and if both sides share an identity: the key exchanger never compares the received session ID, identity or ECDH key with its own, so that a session talks to itself. Proved for a known remote identity under which nothing is valid that the own identity signs.')
B='EndToEnd.'
c('C116','partial',B+'C116_partial '+B+'C116_violated '+B+'C116_violated_same_id','Code violates the property: nothing in a packet that is not confidential tells the direction, and all fragments are such packets; a fragmented message that is sent back is delivered to its sender. Confidential packets are accepted if the remote session ID is the own one (C115). Proved otherwise: acceptance means tags that are valid under another nonce than the one used.')
B='WriteBuf.'
c('C117','partial',B+'C117_partial '+B+'C117_small '+B+'C117_violated','Code violates the property for fragmented messages: Write returns when the context ends, while goroutines of fragments have not copied the slice yet; they only look at the state of the session, so they send what the caller has put there since. Proved for messages that are not fragmented, and as long as the context has not ended.')
B='Output.'
c('C118','partial',B+'C118_debug '+B+'C118_partial '+B+'C118_rest '+B+'C118_ignored '+B+'C118_violated','Code violates the property: ifInfo looks at EnableDebug instead of EnableInfo, which is used nowhere. EnableInfo alone gives nothing, EnableDebug alone gives INFO messages. Proved for the DEBUG channel, and for the INFO channel if both options are the same.')
c('C119','proved',B+'C119_total '+B+'C119_no_panic '+B+'C119_order '+B+'C119_end '+B+'C119_told','For all interleavings of any number of logging goroutines, the end of the reader, and the user. Copying the arguments (package deepcopy) is not modelled.')
B='Lifecycle.'
c('C120','partial',B+'C120_partial '+B+'C120_told '+B+'C120_violated','Code violates the property: onConnect does not look at the result of setState, so that OnConnect is also called for a session that was closed before and is never established. Proved for sessions that are not closed, and that no session gets Established without OnConnect.')
B='SendNow.'
D='DelayedSend.'
c('C121','partial',D+'C121_partial '+B+'C121_exit '+B+'C121_wait '+B+'C121_not_before '+B+'C121_violated '+B+'C121_violated_example '+B+'C121_violated_unconnected '+D+'C121_violated_crash','Code violates the property: SendNowAndWait sends to a channel without looking at the context. With SendDelay switched off nobody ever receives from it, and the call hangs for ever although the message is already sent; the same in a session that ends before it is established. For a fragmented message that is not sent yet the sender loop panics in its deferred Release. Proved for a connected session with the delay, without fragmentation, before Close: when the loop is waiting, at most seven of its own steps lead to the end of the wait, whatever other goroutines do in between, and none of them crashes.')
B='DelayedSend.'
c('C122','partial',B+'C122_partial '+B+'C122_pool_partial '+B+'C122_violated '+B+'C122_violated_later','Code violates the property: waitForSend counts a reference to a SendInfo that may already be back in the pool. When two writers wait for the same one, the panic of the first is recovered but its count stays, so the second does not notice and hands the SendInfo to the sender loop; the loop takes the very same object from the pool as the next current one and panics in its deferred Release. Proved for one writer at a time, without fragmentation, before Close: nothing crashes except SendNow after the sender loop has ended.')
B='Errors.'
c('C123','partial',' '.join(B+x for x in 'C123_headers C123_decrypt C123_receive C123_key_exchange C123_negotiation_partial C123_keys C123_write C123_packet_partial C123_delayed_partial C123_delayed_true C123_read C123_violated C123_violated_single'.split()),'Code violates the property: parseMessage of the negotiator always reports the size of a control message, so that a pong of 6 to 68 bytes is refused with an ErrTooShort which says that 6 bytes are expected. WriteMessageSingle refuses a big payload with an ErrPayloadTooBig whose sizes are those of packets: writing a payload of MaxSize bytes fails again. Proved for every other place that creates one of these errors.')
B='Names.'
c('C124','partial',' '.join(B+x for x in 'C124_channel_partial C124_distinct_partial C124_kinds_partial C124_states C124_packet_ids C124_secrets C124_violated C124_violated_distinct'.split()),'Code violates the property: MessageType.String subtracts MessageTypeReadWrite instead of MessageTypeChannel(0) and cuts the result to a byte, so that channel 0 is called channel5, no channel has its own number, and channels 0 and 256 have the same name; the type of the negotiation is unknown, like the reserved ones. Proved: the exact names, that names of channels are equal exactly modulo 256, that no channel is called like another kind of message, and the property for states, packet IDs and keys.')
B='Closure.'
c('C125','partial',' '.join(B+x for x in 'C125_finished_partial C125_after_partial C125_silent_partial C125_violated C125_violated_error C125_violated_early'.split()),'Code violates the property: the goroutine of OnConnect, those of the negotiation and those that answer key-exchange messages are not counted in stopWaitGroup, so that OnConnect and Error can be called after WaitForClosure has returned; before Start the counter is 0 and WaitForClosure returns at once. Proved: after Start the session is Closed, all counted goroutines have ended, the backend is never read and no handler is ever called again; and nothing at all happens if the goroutines that are not counted have ended.')
B='SendTimer.'
c('C126','partial',' '.join(B+x for x in 'C126_count_partial C126_quiet_partial C126_size_partial C126_clock C126_violated C126_violated_defaults'.split()),'Code violates the property: every appended message restarts the timer, so that messages that come just before the timer expires delay the first one until the buffer is full: k messages by nearly k times SendDelay, with the defaults more than 7000 times. Proved: n messages in a packet wait for n times SendDelay at most (so a message alone in its packet for SendDelay), a packet leaves within SendDelay after its last message, the number of messages is bounded by the packet size, and no expiry of the timer is ever lost.')
c('C127','partial',' '.join('KX.'+x for x in 'C127_origin_partial C127_serial_partial C127_violated C127_violated_replay C127_violated_race'.split()),'Code violates the property: any message the peer has ever signed is accepted as current, so who has an old private key of the peer plays back the message with its public key, and can compute the key the session sends with from then on. For the local keys, if two messages come before the first key is made, the loop and two answering goroutines each make a key, and the secrets of the first can be passed on last. Proved: if updates do not overlap, each key in use comes from the last two local keys and the last two remote keys accepted (equal keys in succession count once); in every run it comes from keys that were recent in this sense at some time.')
c('C128','partial',' '.join('DelayedSend.'+x for x in 'C128_one_partial C128_told_partial C128_violated C128_violated_all'.split()),'Code violates the property: Close sets the state Closing first and then flushes, and a flush in that state fails by itself (isDone), so the loop in startClosing throws away everything that waits; this happens in every state in which Close can be called. Proved: after Close at most one packet is written, the one the sender loop had already checked; when the loop of Close is over every earlier message has its final result, which says whether it was sent, except those in the packet the sender loop is just handling.')
c('C129','proved','KX.C129_answers KX.C129_bytes Handshake.C129_rest Handshake.C129_rest_from Negotiator.C129_negotiation','For all runs, stated with what goes in and what comes out. The number of goroutines that are about to answer is the number of requests not yet answered; it has no other bound.')
c('C130','partial','DelayedSend.C130_partial DelayedSend.C130_violated DelayedSend.C130_violated_all DelayedSend.C130_violated_busy','Code violates the property: waitForSend notices that the sender loop has ended, but assigns the SendInfo with the error to its own parameter, so writeMessageAsync tries again for ever. With two calls waiting for room when Close comes, the first fills the buffer that nobody empties any more, and the second runs in a busy loop, allocating a SendInfo in each round. Proved: a call that finds the buffer empty or with room for its message returns within four steps of its own.')
c('C131','partial',' '.join('Receive.'+x for x in 'C131_partial C131_violated_type C131_violated_size'.split()),'Code violates the property: a message of a type without handler and queue is dropped silently; the fragments of a message bigger than MaxFragmentedMessageSize of the receiver (64 kB by default, not checked by the sender) are dropped in every order with an entry in the optional info log only, and so are those of a message overtaken by a newer one (C24). Proved: of a packet without fragments every message whose type has a handler or a queue is handed over, and an incomplete rest is reported exactly once.')
c('C132','partial',' '.join('ReadChan.'+x for x in 'C132_partial C132_violated C132_violated_example C132_violated_late'.split()),'Code violates the property: setMessenger puts a new channel into the map, and nobody writes to or closes the old one, so that a Read waiting for it never returns in any run; the same for every Read after a registration that is completed after the end of the reader loop. Proved: otherwise every Read can return when the session has ended.')
c('C133','partial',' '.join('ReadChan.'+x for x in 'C133_once_partial C133_order_partial C133_violated C133_violated_example'.split()),'Code violates the property: messages waiting in the old channel when a messenger is registered for MessageTypeReadWrite are never delivered in any run. Proved: every message is in exactly one place in all runs, and without a registration Read returns all of them in order.')
c('C134','partial',' '.join('Handlers.'+x for x in 'C134_partial C134_violated C134_violated_example'.split()),'Code violates the property: onError is never called; HandleError, which would, is in no interface and nothing calls it. Proved: each message causes exactly one call of handle of the last registration of its type, in order, and its errors go to Error of the session.')
c('C135','partial',' '.join('KX.'+x for x in 'C135_partial C135_violated C135_violated_run'.split()),'Code violates the property: the key depends on the ECDH keys and the PSK only, and the signed message names its sender but not its receiver. A third one who is a peer of Bob (or comes first, if Bob has no remote identity configured) signs the ECDH public key of Alice; then Alice and Bob have a common key, Alice rightly believes to talk to Bob, and Bob takes what Alice sends for messages of the third one. The third one does not learn the key; with a PSK it has to have the PSK. Proved: if the believed identities sign only their own ECDH keys and shared keys do not collide, the sides agree.')
c('C136','partial',' '.join('EndToEnd.'+x for x in 'C136_partial C136_violated C136_violated_example'.split()),'Code violates the property: the storage of packet IDs is one for all keys. Without a PSK anybody can make a packet with the ID 2^64-1; it is accepted, and from then on every packet of the peer is dropped as too old, without a report. With a PSK the same is done by a packet recorded in an earlier session with this PSK, up to its ID. Proved: with a PSK only packets with right checksums under an exchanged key or the key made of the PSK have an effect on later ones.')
c('C137','partial',' '.join('EndToEnd.'+x for x in 'C137_partial C137_violated C137_violated_example'.split()),'Code violates the property: packet IDs begin with 1 in each session, and the old session drops them as too old until they get beyond the ID it has seen last minus PacketIDStorageSize, without a report. Proved: packets with higher IDs are processed, and packets that cannot be decrypted are reported as the option says.')
c('C138','partial',' '.join('KX.'+x for x in 'C138_partial C138_violated C138_violated_run'.split()),'Code violates the property: an answer does not tell which key it answers, and sendSuccessNotifications takes it for the key made last. If a request was sent twice and the second answer comes after the next key was made, the update of this key is over at once; if its request is lost, the exchanger sends with a key that the peer cannot have, until the next interval. Proved in general: any answer the peer has ever signed ends the update in progress; a run of two sides over a network that only loses and delays messages; and that in the default mode an update in progress ends only with an answer signed by the remote identity.')
c('C139','proved',' '.join('KX.'+x for x in 'C139_origin C139_secret C139_first_comer'.split()),'Assumes what the cryptography is for: who does not have an identity key cannot make its signatures during the run (Deliverable), and a shared key cannot be computed without one of the private ECDH keys (hypothesis of C139_secret). Identities are assumed to sign nothing but key-exchange messages; Identity.Sign is exported. A session without a configured remote identity takes the one that comes first, which may be that of the attacker (C139_first_comer).')
c('C140','partial',' '.join('Identity.'+x for x in 'C140_partial C140_violated_private C140_violated_public'.split()),'Code violates the property: the private key file of ssh-keygen has a PEM block with more than 64 bytes (format openssh-key-v1), which NewIdentity refuses in every run; the public key file has no PEM block, on which NewRemoteIdentity panics. Proved for files that the package has written itself. The PEM decoder is a parameter; of it is used that a block begins at the beginning of a line with -----BEGIN.')
c('C141','partial',' '.join('SizeChange.'+x for x in 'C141_partial C141_accepted C141_carried C141_reason C141_violated'.split()),'Code violates the property: the size is compared when the call begins, before the wait for Established. A message that fits the limit then, but not the size that the negotiation finds, is not fragmented any more and is refused. Proved for all calls that begin when the session is Established; C141_reason shows that there is no other reason. Sizes below 25 (C20_hangs) and payloads within 53 bytes of 4 GiB are excluded.')
c('C142','partial',' '.join('ClosedWrite.'+x for x in 'C142_partial C142_fails_partial C142_violated_success C142_violated_fragments C142_violated_size C142_violated_keys'.split()),'Code violates the property: after Close of a session that was Established both cases of the selects on the context and on isEstablished are ready. With a SendDelay every message that fits may be put into a buffer that nobody sends, and Write succeeds; so may the write of a fragmented message, since Wait returns at once. A message that fits may also be refused as too big for a packet size of 53, and without keys the error is ErrCanceled. Proved for sessions that were never Established, and, without SendDelay and fragmentation, that there is an error.')
c('C143','partial',' '.join('SizeChange.'+x for x in 'C143_partial C143_violated C143_violated_full'.split()),'Code violates the property: before the session is established the call waits for that (GetEstablishedPayloadSize), so for ever without the other side; in an established session it waits when the message does not fit beside those in the buffer. Proved for the other calls: they return after two steps.')
c('C144','partial',' '.join('DelayedSend.'+x for x in 'C144_where_partial C144_sent_partial C144_closer_partial C144_buffer_partial C144_violated C144_violated_all'.split()),'Code violates the property: a message that comes into the buffer after the last flush of Close, or when the context has ended, never gets a result, so that the example of README.md waits for ever (Wait also looks at the context, Done does not). Proved: a message without a result is in the buffer or in a packet that is being sent; such a packet gets its result by three steps of the thread that sends it, and the buffer by five of the sender loop while that waits for its timer. Without EnableFragmentation.')
c('C145','partial',' '.join('DelayedSend.'+x for x in 'C145_partial C145_packets_partial C145_later C145_bound C145_violated'.split()),'Code violates the property: messages merged into one packet share one SendInfo and its SendID. Proved for different SendInfo objects, so for messages of different packets, and that a number is not given again (before the 64-bit counter wraps).')
c('C146','partial',' '.join('Timing.'+x for x in 'C146_partial C146_violated C146_forgery C146_chosen'.split()),'Code violates the property: checksums are compared with bytes.Compare, which stops at the first word that differs. Who holds back one packet that the receiver would accept and measures the time finds a valid checksum for messages of their choice with n * 256^w packets (16 bytes as n words of w bytes: 4096 packets with w = 1, 2^65 with w = 8 as in the assembler version for amd64) instead of 256^16. Proved: a packet whose header checksum is wrong in its first word under all keys takes a time that depends on its length and the number of keys only. Times are sums of costs of the operations; noise is not modelled.')
c('C147','partial',' '.join('Signature.'+x for x in 'C147_partial C147_rest C147_violated C147_violated_panic C147_violated_empty'.split()),'Code violates the property: Sign copies the 64 bytes into whatever slice it gets; with any other length of the slice it reports nothing, and the signature is refused. With a remote identity, which has no private key, it panics. Proved for slices of 64 bytes and identities with a private key.')
c('C148','partial',' '.join('SendCount.'+x for x in 'C148_partial C148_all C148_violated C148_violated_error'.split()),'Code violates the property: for a fragmented message N is always -1, and for merged messages it is -1 when there was an error, whatever the backend has taken. Proved for messages that are not fragmented and were sent without an error or not merged.')
c('C149','partial',' '.join('Order.'+x for x in 'C149_partial C149_sync C149_buffered C149_violated'.split()),'Code violates the property: WriteMessageSingle and the fragments of a big message do not wait for the messages in the buffer, and nothing waits for the fragments of a message written by WriteMessageAsync. Proved exactly which programs are safe: a call that does not wait has to be followed by calls through the buffer only, up to one that waits. In particular programs of waiting calls only, and those where nothing is fragmented and WriteMessageSingle is not used.')
c('C150','partial',' '.join('SizeChange.'+x for x in 'C150_wait C150_waiting C150_partial C150_small_partial C150_violated'.split()),'Code violates the property: the size of a message is compared with PayloadSizeLimit before the call waits; if the negotiation finds a smaller size, a message between the two is refused, with fragmentation too. Proved: nothing is sent before Established, with fragmentation no call fails before, and afterwards every other call ends with its message sent, after three steps of the call and the sender loop at most. Sizes below 25 and payloads within 53 bytes of 4 GiB are excluded as in C141.')
c('C151','partial',' '.join('Traffic.'+x for x in 'C151_exact C151_partial C151_violated C151_violated_steps C151_violated_witness'.split()),'Code violates the property: the first ID is 1, no packet ever has the ID 0, and every received packet of 44 bytes or more and every failed write takes a number too. Proved: the exact numbers for calls that do not overlap; they are 1, 2, 3, … if nothing is received and nothing fails.')
c('C152','partial',' '.join('SizeGet.'+x for x in 'C152_partial C152_values C152_no_panic C152_returns C152_waits C152_packet C152_violated C152_violated_closed C152_violated_new'.split()),'Code violates the property: during Closing the size is returned as it is, which before the end of the negotiation is the configured limit; on a closed session both cases of the select can be ready and a call returns the size or zero (GetEstablishedPacketSize: 53); before Start the methods panic. Proved for all calls as long as the session is not closed; otherwise nothing but the result, the limit or zero is returned.')
c('C153','proved',' '.join('EndToEnd.'+x for x in 'C153_alone C153_like C153_sent'.split()),'Messages too big for a packet are refused (C19); payloads of 4 GiB and more are not covered (C19_violated).')
c('C154','partial',' '.join('Pool.'+x for x in 'C154_no_crash C154_bytes C154_received C154_appended C154_given C154_delayed C154_read C154_exclusive C154_returned_partial C154_violated'.split()),'Code violates the last part of the property: the fragment header of each fragment (session.go:1528), the container header of a packet dropped for its ID (session.go:936-943) and the read item of a message which no channel takes (session.go:1066-1068) or whose reader has a too small buffer (session.go:2171-2173) never return to their pools. Everything else is proved without restriction, and the return of the objects for all other calls.')
c('C155','partial',' '.join('KeyTimer.'+x for x in 'C155_short_partial C155_long C155_violated'.split()),'Code violates the property: the key exchanger does not know of the pause. At the next tick of KeyUpdateInterval it begins an update, nobody reads the answer, and after Timeout it closes the session and reports a time-out. No pause longer than KeyUpdateInterval + Timeout leaves the session open (C155_long). Proved: a pause that begins when no update is under way does no harm until Timeout after the next tick.')
c('C156','proved',' '.join('KeyTimer.'+x for x in 'C156_noticed C156_reported'.split()),'Time passes only when no goroutine of the exchanger has anything to do. In the default mode only answers complete an exchange, in the others every message; messages recorded before count as well (C39).')
c('C157','partial',' '.join('KeyTimer.'+x for x in 'C157_partial C157_later_partial C157_violated'.split()),'Code violates the property for the key made at the start: the ticker is made when the first exchange is over, and the first tick does not replace a key that nothing has confirmed yet. Proved: at most KeyUpdateInterval + max(KeyUpdateInterval, Timeout) for this key, max(KeyUpdateInterval, Timeout) for all others, which is KeyUpdateInterval with the default options.')
c('C158','partial',' '.join('DelayedSend.'+x for x in 'C158_never_waits C158_bound_partial C158_alone_partial C158_violated'.split()),'Code violates the property: the loop of startClosing goes on as long as it finds messages, and WriteMessageAsync accepts messages after the state is Closing, so writers can keep Close from returning for any number of rounds, and nothing they write is sent. Proved without fragmentation: Close never waits and never writes itself; it makes at most 7 steps, and 4 more for each message added after the call.')
c('C159','partial',' '.join('CloseReport.'+x for x in 'C159_read_partial C159_rest_partial C159_violated C159_negotiation'.split()),'Code violates the property: a retry, an update or an answer of the key exchange that is under way finds that it cannot write any more and reports it, a key message or a ping in the last packet is reported as not handled, and a negotiation that is collecting answers always reports that it was cancelled. Proved: interrupted Reads are never reported, and a session at rest closes silently.')
c('C160','partial',' '.join('Lifecycle.'+x for x in 'C160_noticed C160_ends_partial C160_start_partial C160_start_over C160_violated C160_start_violated C160_start_never'.split()),'Code violates the property: with a context that is cancelled before Start has made its messengers, NewMessenger returns nil and Start crashes the program; a paused session never ends, because SetPause(false) is refused once the session is Closing. Proved: the backend closer always notices, and the session ends if the reader is not at one of the unlucky places of C68.')
c('C161','partial',' '.join('Constructors.'+x for x in 'C161_identity_partial C161_others C161_unsaved C161_violated C161_same_keys C161_same_remote C161_same_calls'.split()),'Code violates the property: NewIdentity returns an identity also with an error, and if the keys could not be generated or loaded it has none, so that using it crashes. Proved: without an error it can be used; with an error it can be used or has no keys at all; the other constructors return nil with an error.')
c('C162','partial',' '.join('Constructors.'+x for x in 'C162_files_partial C162_load C162_violated C162_violated_remote'.split()),'Code violates the property: NewIdentityFromPrivateKey and NewRemoteIdentityFromPublicKey return a pointer to ErrWrongKeyLength, everything else a value, and NewRemoteIdentity never reports ErrCannotLoadKeys. Proved for keys in files, and when NewIdentity reports ErrCannotLoadKeys. How the errors library wraps errors is trusted.')
c('C163','proved',' '.join('Retry.'+x for x in 'C163_regular C163_gives_up C163_rate C163_success'.split()),'Model of the first update of an exchanger; notifications of older keys are left out (the loop drops them and waits on, see C106).')
c('C164','proved',' '.join('KX.'+x for x in 'C164_keys C164_known C164_in_time'.split()),'That the signed message is for this session and of now is not part of the property (see C39, C135).')
c('C165','partial',' '.join('MutualError.'+x for x in 'C165_no_error C165_keys_partial C165_default_silent C165_only C165_violated_why C165_violated_keys'.split()),'Code violates the property: the call overwrites the ErrCannotDecrypt of its handler by its own error of Write or Read, and with ErrorOnSequentialDecryptFailsCount 1 or 2 a packet that comes late makes it return keys and an error. With the default value nobody is told at all, because the session detaches after two failures and reports after three. Proved: no error means four keys; with other values than 1 and 2 four keys mean no error; ErrCannotDecrypt is returned only beside keys or for a packet that came after the call had failed for another reason.')
c('C166','partial',' '.join('KX.'+x for x in 'C166_count_partial C166_quick_partial C166_disabled C166_violated C166_violated_witness'.split()),'Code violates the property: Handle starts a goroutine for each request, and each waits until its answer is written. While the backend takes nothing (a peer on TCP that does not read), each copy of one signed request adds a goroutine; without a PSK anybody on the way can send such copies. Proved: never more than requests that are not yet answered, at most one if the answers are written before the next message comes, and none in the mode "disable".')
c('C167','partial',' '.join('KX.'+x for x in 'C167_in_use C167_whole C167_last_partial C167_common_partial C167_violated'.split()),'Code violates the property: updateSecrets computes the secrets and hands them over without a common lock, so if a message arrives before the first local key is there, the loop and answering goroutines can hand over older secrets after newer ones, and GetEphemeralKeys keeps returning the older. Proved: it always returns the keys in use, all or none, made of keys of this session; and it returns the last ones when key updates do not overlap.')
c('C168','partial',' '.join('Outsider.'+x for x in 'C168_packet_partial C168_run_partial C168_psk_partial C168_violated C168_violated_limit C168_violated_first'.split()),'Code violates the property: with the default options one packet that cannot be decrypted, of any content and at any time, ends the session, even with a PSK and a known peer (0 is documented as "never", see C98); and as long as the peer is not known and there is no PSK, one unencrypted message of the key exchange with another answers mode and no valid signature closes the session, because the mode is checked first. Proved: a session that knows its peer is ended only by a message with the signature of the peer or by DetachOnSequentialDecryptFailsCount undecryptable packets in a row (0 counts like 1); with a PSK each packet of others is one of the latter kind. C168_violated_limit shows that the option, if set, does what it says, also for outsiders.')
c('C169','partial',' '.join('Reports.'+x for x in 'C169_kx C169_event_partial C169_packet_partial C169_ping_partial C169_bound C169_violated C169_violated_ping'.split()),'Code violates the property: a message of the key exchange with the signature of the peer (or of anybody, while no peer is known) and another answers mode or a key of zeros is given to Error twice, by errFunc and again because Handle returns the same error (key_exchanger.go:367-376, session.go:1076-1078); a ping that cannot be sent is given to Error by sess.error and again by errFunc (negotiator.go:305-309). Proved: exactly the messages that are refused are reported by the key exchanger, those two kinds twice and all others once; everything else at most once; a packet of n bytes causes at most 2*((n-44)/9)+1 calls, whatever it contains.')
c('C170','partial',' '.join('Stall.'+x for x in 'C170_psk_partial C170_violated C170_violated_later C170_violated_size'.split()),'Code violates the property without a PSK, because messages of the negotiation are accepted in packets made without any key (C14): one packet of 59 bytes with the message that the search has ended, read before the first key exchange is completed, blocks the reader at stageChan; the one who would receive from it is started by the reader (onKeyExchangeSuccess), so the session is never Established, and since the reader never ends WaitForClosure does not return either. On a backend where the negotiation is off (TCP) or after its time-out the same packet stops the reader of an Established session. While the negotiation is running an outsider can set the size that the peer seems to have found, down to 0, and so the payload size. Proved: packets whose header tag is right neither under an exchanged key nor under the key made of the PSK make no difference to the negotiation and to the reassembly, in any run; how they can end the session is the subject of C168.')
c('C171','partial',' '.join('Backlog.'+x for x in 'C171_no_new C171_partial C171_closed C171_ends C171_violated C171_violated_handler'.split()),'Code violates the property on every backend with SetReadDeadline, such as TCP: closing only moves the deadline for reading and leaves the backend open, so a goroutine of the session that waits in backend.Write (the delayed sender or the key exchanger) waits until the peer reads, and CloseAndWait and WaitForClosure do not return. If it is the reader, in a handler that answers, the session does not even get Closed, and Read does not return. Proved: after Close no write begins, so it is enough that the peer reads as many packets as goroutines are writing at that moment; a backend without deadlines is closed if the reader is in Read, and then no write waits; each goroutine ends within two steps of its own. A backend that has only SetDeadline interrupts writes, too, but only until the reader resets the deadline (example).')
c('C172','partial',' '.join('KX.'+x for x in 'C172_between C172_update_partial C172_origin C172_violated'.split()),'Code violates the property: an answer makes a key only if there was none (sendPublicKey), so all requests of the peer between two updates of the loop are answered with one and the same key pair, although each of them is an exchange with new shared keys. Proved: every message carries a key made in this session; an update of the loop makes a key, and the request, its retries and all answers until the next update carry it and no other key; if an update was not answered, the next one sends the same key again (example).')
c('C173','partial',' '.join('DelayedSend.'+x for x in 'C173_packet C173_together C173_partial C173_timer C173_violated'.split()),'Code violates the property: the sender loop does not know of the flushes of onConnect (lastSendID begins with zero), so a request of a writer to send a packet that onConnect has sent already makes the loop send what is in the buffer at once; the next message, which would fit, gets a packet of its own. Proved (no fragmentation): messages accepted while no flush takes the buffer are in one packet, next to each other and in their order, or in none; messages that fit are sent in one packet when the timer expires. In the loop itself such a request is recognised (example). When the timer expires is C126.')
c('C174','partial',' '.join('DelayedSend.'+x for x in 'C174_partial C174_alone C174_violated'.split()),'Code violates the property: waiting calls do not queue up; when a packet was taken, the call that enters the critical section first gets the room. Whatever the packet size, for two messages that do not fit into one packet there is for every number k an execution in which a call waits while k packets with messages of later calls are sent (induction on k). Proved (no fragmentation): a call that tries again is not refused, and has its message accepted at once unless messages accepted since the previous packet was taken leave no room; with nobody else writing it is accepted after one flush by the timer.')
c('C175','partial',' '.join('Lifecycle.'+x for x in 'C175_partial C175_silent_partial C175_violated'.split()),'Code violates the property: Closed is set by the reader before it resets the deadline and without waiting for others. The negotiation that ends afterwards calls OnConnect; the backend closer may put the read deadline into the past, or, for a backend without deadlines, close the backend, of a session that is Closed. Proved: Closed stays, the backend is not read and none of its errors is reported, Start and Close do not succeed, OnConnect is called at most once and only if it was not before; and nothing at all happens once the reader, the backend closer and the negotiation have finished and no SetPause(true) is about to interrupt, whatever is called. Nothing is written: C61; after WaitForClosure: C125.')
c('C176','proved',' '.join('KX.'+x for x in 'C176_disable C176_wait C176_dont_wait C176_answer'.split()),'Over whole executions; one message at a time: C41; at most one answer for each request: C129. That a late answer also counts is C138. Any number other than 0 to 3 is taken for Answer (example).')
c('C177','partial',' '.join('Setup.'+x for x in 'C177_partial C177_probe C177_packets_partial C177_untouched C177_violated'.split()),'Code violates the property: setupBackend knows the type *net.UDPConn only, while IsLossyWriter also takes any type with a UDP address for UDP; for these (wrappers of a connection) the size is negotiated with datagrams that may be fragmented, so that any size is found to be good. If setting the option fails and there is no event handler, nobody is told. Proved for *net.UDPConn and all packets with messages of the user; what the operating system does with the option is not modelled.')
c('C178','partial',' '.join('Contents.'+x for x in 'C178_partial C178_session_partial C178_sizes C178_violated C178_violated_hidden C178_violated_ids'.split()),'Code violates the property for what is encrypted with the key made of the PSK: its nonce is the packet ID alone, so of two packets with one ID (of two sessions, or of the two peers) each byte of one follows from that byte of the other; and packet IDs are all encrypted with one key and a nonce of zeros, so with the first packet (ID 1) every ID can be read. Proved for packets with pairwise different keys or nonces, hence for all that a session encrypts with exchanged keys. The key stream is an arbitrary function: that XChaCha20 looks like one is assumed, and side channels (timing, sizes over time) are not modelled. Without a PSK the key exchange is in plain text.')
c('C179','partial',' '.join('Negotiator.'+x for x in 'C179_partial C179_sizes C179_second C179_violated C179_violated_sizes'.split()),'Code violates the property: four sizes are sent in each round (both ends of the interval are among them). When the second greatest of them makes the round trip in a later round, the upper end is doubled, up to the limit, so with default settings on a path for 976 bytes without any loss the third interval (840 to 1392) is longer than the second (562 to 979). Proved: each interval is at most a third of the one before (and 2 more) if it reached up to the limit, which the first one does, or if what was found was not among the greatest sizes.')
c('C180','proved',' '.join('Mutual.'+x for x in 'C180_call C180_net'.split()),'The hypothesis that tags do not verify under another key is about the concrete packets of the execution; it is the usual assumption about the cipher and the MAC, which are parameters of the model.')
c('C181','partial',' '.join('KX.'+x for x in 'C181_partial C181_first C181_violated'.split()),'Code violates the property from the second exchange on: the second key is made of the recent local and the previous remote key, the third of the previous local and the recent remote key, so that they are interchanged on the other side. Proved: the four keys are the same up to this order, and the lists are equal after the first exchange. Overlapping updates are excluded (C35_violated).')
c('C182','proved',' '.join('Receive.'+x for x in 'C182_no_trace C182_count C182_twice C182_repeats'.split()),'The keys and handlers at the time of each packet are arbitrary, but the same in both runs; copies that arrive later are the subject of C01 and C02.')
c('C183','partial',' '.join('Receive.'+x for x in 'C183_effects C183_partial C183_violated'.split()),'Code violates the property with the default options: DetachOnSequentialDecryptFailsCount = 0 detaches at the first undecryptable packet (C47), and nothing that comes after it is received. Proved without restriction for the packets up to the end of the loop, and that the loop does not end as long as fewer packets in a row than the option says cannot be decrypted.')
