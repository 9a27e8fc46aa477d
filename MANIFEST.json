{
 "claims": [
  {
   "property": "C01",
   "status": "partial",
   "theorems": [
    "Verif.PacketID.C01_replay_partial",
    "Verif.Receive.C01_reader_partial",
    "Verif.PacketID.C01_replay_violated",
    "Verif.PacketID.C01_exact"
   ],
   "note": "Code violates the property: an ID jump of more than 64 clears the whole table. Proved for histories without such jumps; negation proved for the default and every size above 64; C01_exact says for every history exactly which packets pass."
  },
  {
   "property": "C02",
   "status": "proved",
   "theorems": [
    "Verif.PacketID.C02_small_window_no_replay",
    "Verif.Receive.C02_reader",
    "Verif.PacketID.C02_grow_only"
   ],
   "note": ""
  },
  {
   "property": "C03",
   "status": "proved",
   "theorems": [
    "Verif.PacketID.C03_fresh_accepted",
    "Verif.PacketID.C03_zero_first_refused"
   ],
   "note": ""
  },
  {
   "property": "C04",
   "status": "proved",
   "theorems": [
    "Verif.PacketID.C04_too_old_dropped",
    "Verif.PacketID.C04_counter",
    "Verif.PacketID.C04_disabled",
    "Verif.PacketID.C04_refines_filter"
   ],
   "note": ""
  },
  {
   "property": "C05",
   "status": "proved",
   "theorems": [
    "Verif.Headers.C05_message_header",
    "Verif.Headers.C05_flags"
   ],
   "note": ""
  },
  {
   "property": "C06",
   "status": "proved",
   "theorems": [
    "Verif.Headers.C06_container_header",
    "Verif.Headers.C06_packet_id"
   ],
   "note": ""
  },
  {
   "property": "C07",
   "status": "proved",
   "theorems": [
    "Verif.Headers.C07_fragment_header"
   ],
   "note": ""
  },
  {
   "property": "C08",
   "status": "proved",
   "theorems": [
    "Verif.Headers.C08_session_id",
    "Verif.Headers.C08_key_exchange_message"
   ],
   "note": ""
  },
  {
   "property": "C09",
   "status": "proved",
   "theorems": [
    "Verif.Headers.C09_control_message",
    "Verif.Headers.C09_ping_pong",
    "Verif.Headers.C09_bad_pong_ignored"
   ],
   "note": ""
  },
  {
   "property": "C10",
   "status": "proved",
   "theorems": [
    "Verif.Receive.C10_parser",
    "Verif.Receive.C10_unique"
   ],
   "note": ""
  },
  {
   "property": "C11",
   "status": "proved",
   "theorems": [
    "Verif.Receive.C11_aggregate"
   ],
   "note": ""
  },
  {
   "property": "C12",
   "status": "proved",
   "theorems": [
    "Verif.Packet.C12_roundtrip_confidential",
    "Verif.Packet.C12_roundtrip_aux"
   ],
   "note": ""
  },
  {
   "property": "C13",
   "status": "proved",
   "theorems": [
    "Verif.Packet.C13_accept_implies_genuine",
    "Verif.Packet.C13_reject"
   ],
   "note": ""
  },
  {
   "property": "C14",
   "status": "partial",
   "theorems": [
    "Verif.Packet.C14_psk_partial",
    "Verif.Packet.C14_violated",
    "Verif.Packet.C14_violated_witness"
   ],
   "note": "Code violates the property: without a pre-shared key packets built with no key at all are accepted. Proved: with a pre-shared key every accepted packet is genuine under that key or an exchanged one."
  },
  {
   "property": "C15",
   "status": "partial",
   "theorems": [
    "Verif.Send.C15_encrypted_partial",
    "Verif.Send.C15_violated"
   ],
   "note": "Code violates the property: fragments of a fragmented message are never encrypted with the exchanged key, and are sent in plain text without a PSK. Proved for every message that is not fragmented."
  },
  {
   "property": "C16",
   "status": "proved",
   "theorems": [
    "Verif.Packet.C16_nonce_unique"
   ],
   "note": ""
  },
  {
   "property": "C17",
   "status": "partial",
   "theorems": [
    "Verif.Packet.C17_one_session_partial",
    "Verif.Packet.C17_violated",
    "Verif.Packet.C17_violated_packet_ids"
   ],
   "note": "Code violates the property: two sessions with one pre-shared key reuse nonces, and encrypted packet IDs repeat the key stream. Proved inside one session."
  },
  {
   "property": "C18",
   "status": "proved",
   "theorems": [
    "Verif.Send.C18_packet_size",
    "Verif.Send.C18_fragment_size",
    "Verif.DelayedSend.C18_batch"
   ],
   "note": ""
  },
  {
   "property": "C19",
   "status": "partial",
   "theorems": [
    "Verif.Send.C19_refused_partial",
    "Verif.Send.C19_fits",
    "Verif.Send.C19_single_refused",
    "Verif.Send.C19_violated"
   ],
   "note": "Code violates the property for payloads of 4 GiB and more (uint32 truncation). Proved for smaller payloads."
  },
  {
   "property": "C20",
   "status": "proved",
   "theorems": [
    "Verif.Send.C20_covers",
    "Verif.Send.C20_plan",
    "Verif.Send.C20_hangs",
    "Verif.EndToEnd.plan_pieces"
   ],
   "note": "For an established payload size of at least 25; C20_hangs shows that 24 makes the call hang."
  },
  {
   "property": "C21",
   "status": "proved",
   "theorems": [
    "Verif.PendingChain.C21_completes"
   ],
   "note": ""
  },
  {
   "property": "C22",
   "status": "partial",
   "theorems": [
    "Verif.PendingChain.C22_delivered_when_all_partial",
    "Verif.PendingChain.C22_violated",
    "Verif.PendingChain.C22_exact"
   ],
   "note": "Code violates the property for pieces shorter than 64 bytes (established payload below 88). Proved for pieces of 64 bytes and more; negation proved; exact characterisation proved for all pieces."
  },
  {
   "property": "C23",
   "status": "partial",
   "theorems": [
    "Verif.PendingChain.C23_delivered_bytes_partial",
    "Verif.PendingChain.C23_violated"
   ],
   "note": "Code violates the property when a slot is reused by a shorter message (stale tail). Proved for slots that never held a longer message."
  },
  {
   "property": "C24",
   "status": "partial",
   "theorems": [
    "Verif.Receive.C24_noninterference_partial",
    "Verif.Receive.C24_old_ignored",
    "Verif.Receive.C24_violated_loss",
    "Verif.Receive.C24_violated_mix"
   ],
   "note": "Code violates the property: a newer message destroys all incomplete ones, and chain IDs exactly MaxChainIDDiff apart share a buffer. Proved: no interference while no newer message begins and IDs are closer."
  },
  {
   "property": "C25",
   "status": "partial",
   "theorems": [
    "Verif.Receive.C25_receiver_partial",
    "Verif.Receive.C25_violated",
    "Verif.Receive.C25_violated_new_session",
    "Verif.Packet.C25_decrypt_total",
    "Verif.PendingChain.C25_merge_partial",
    "Verif.PendingChain.C25_merge_panics"
   ],
   "note": "Code violates the property: a fragment whose start position wraps crashes the process, without PSK even when sent by an outsider. Proved: in every reachable state nothing else crashes or hangs the receive path."
  },
  {
   "property": "C26",
   "status": "proved",
   "theorems": [
    "Verif.Receive.C26_memory"
   ],
   "note": ""
  },
  {
   "property": "C27",
   "status": "proved",
   "theorems": [
    "Verif.Lifecycle.C27_final",
    "Verif.Lifecycle.C27_final_run"
   ],
   "note": ""
  },
  {
   "property": "C28",
   "status": "partial",
   "theorems": [
    "Verif.Lifecycle.C28_phases_partial",
    "Verif.Lifecycle.C28_violated"
   ],
   "note": "Code violates the property: Close before Start makes a new session Closing. Proved: all other transitions are as documented."
  },
  {
   "property": "C29",
   "status": "partial",
   "theorems": [
    "Verif.Lifecycle.C29_pause",
    "Verif.Lifecycle.C29_unpause",
    "Verif.Lifecycle.C29_proceeds",
    "Verif.Lifecycle.C29_result_partial",
    "Verif.Lifecycle.C29_violated"
   ],
   "note": "Code violates the property for backends without deadlines: SetPause(true) pauses the session and returns an error. Proved for backends with deadlines."
  },
  {
   "property": "C30",
   "status": "partial",
   "theorems": [
    "Verif.Lifecycle.C30_detached",
    "Verif.Lifecycle.C30_returns_partial",
    "Verif.Lifecycle.C30_channel",
    "Verif.Lifecycle.C30_violated",
    "Verif.Lifecycle.C30_violated_sequential"
   ],
   "note": "Code violates the property: a second SetPause(true), or one that comes before the reader left the previous pause, hangs a call for ever. Proved for calls made after the reader left the previous pause and not disturbed by other SetPause or Close calls."
  },
  {
   "property": "C31",
   "status": "proved",
   "theorems": [
    "Verif.Lifecycle.C31_once",
    "Verif.Lifecycle.C31_result"
   ],
   "note": ""
  },
  {
   "property": "C32",
   "status": "proved",
   "theorems": [
    "Verif.StateWait.C32_result",
    "Verif.StateWait.C32_woken",
    "Verif.StateWait.C32_progress",
    "Verif.StateWait.C32_others",
    "Verif.StateWait.C32_returns"
   ],
   "note": ""
  },
  {
   "property": "C33",
   "status": "proved",
   "theorems": [
    "Verif.KX.C33_ignored",
    "Verif.KX.C33_effect",
    "Verif.Mutual.C33_sent"
   ],
   "note": ""
  },
  {
   "property": "C34",
   "status": "proved",
   "theorems": [
    "Verif.KX.C34_pinned",
    "Verif.KX.C34_adopted",
    "Verif.KX.C34_first"
   ],
   "note": ""
  },
  {
   "property": "C35",
   "status": "partial",
   "theorems": [
    "Verif.KX.C35_shared",
    "Verif.KX.C35_crosswise",
    "Verif.KX.C35_sessions_partial",
    "Verif.KX.C35_prepared",
    "Verif.KX.C35_violated"
   ],
   "note": "Proved for the key derivation, and for sessions whose key updates do not overlap. Code violates the property otherwise: an answer sent before the first local key exists calls updateLocalKey without the lock, and stale secrets can be passed on last."
  },
  {
   "property": "C36",
   "status": "proved",
   "theorems": [
    "Verif.KX.C36_keys_differ",
    "Verif.KX.C36_psk_matters",
    "Verif.KX.C36_inputs",
    "Verif.KX.C36_inputs_second",
    "Verif.KX.C36_hash",
    "Verif.KX.C36_derived"
   ],
   "note": ""
  },
  {
   "property": "C37",
   "status": "partial",
   "theorems": [
    "Verif.KX.C37_ahead_partial",
    "Verif.KX.C37_violated"
   ],
   "note": "Proved for a receiver that is ahead by at most one key of either side. Code violates the property for a receiver that is behind: the sender uses a new local key before it has sent it."
  },
  {
   "property": "C38",
   "status": "partial",
   "theorems": [
    "Verif.KX.C38_serial_partial",
    "Verif.KX.C38_count_partial",
    "Verif.KX.C38_violated"
   ],
   "note": "Proved for sessions whose key updates do not overlap. Code violates the property when an answering goroutine and the loop both make the first key."
  },
  {
   "property": "C39",
   "status": "partial",
   "theorems": [
    "Verif.KX.C39_current_partial",
    "Verif.KX.C39_violated",
    "Verif.KX.C39_violated_witness"
   ],
   "note": "Code violates the property: any message signed by the peer is accepted, whatever its age or session. Proved: the current message played back changes no key."
  },
  {
   "property": "C40",
   "status": "partial",
   "theorems": [
    "Verif.KX.C40_cause_partial",
    "Verif.KX.C40_honest_partial",
    "Verif.KX.C40_violated",
    "Verif.KX.C40_violated_witness",
    "Verif.KX.C40_violated_nil"
   ],
   "note": "Code violates the property: a public key of low order panics the receiver. Proved: this (or a failed random generator) is the only cause, and honest peers cause no panic."
  },
  {
   "property": "C41",
   "status": "proved",
   "theorems": [
    "Verif.KX.C41_ignored",
    "Verif.KX.C41_handle",
    "Verif.KX.C41_unverified"
   ],
   "note": ""
  },
  {
   "property": "C42",
   "status": "proved",
   "theorems": [
    "Verif.KX.C42_keys",
    "Verif.KX.C42_available",
    "Verif.KX.C42_wait",
    "Verif.KX.C42_no_double_close"
   ],
   "note": ""
  },
  {
   "property": "C43",
   "status": "proved",
   "theorems": [
    "Verif.SessionID.C43_increasing",
    "Verif.SessionID.C43_unique",
    "Verif.SessionID.C43_returns",
    "Verif.SessionID.C43_is_time",
    "Verif.SessionID.C43_limit",
    "Verif.SessionID.C43_frozen"
   ],
   "note": "For every clock; the 64-bit limit is shown to be needed. A clock that stands still at the last value keeps Get in its loop with the lock held (C43_frozen)."
  },
  {
   "property": "C44",
   "status": "partial",
   "theorems": [
    "Verif.DelayedSend.C44_delivered_partial",
    "Verif.SendCount.C44_fragmented",
    "Verif.DelayedSend.C44_violated",
    "Verif.DelayedSend.C44_violated_cancel"
   ],
   "note": "Code violates the property: a Write after Close, or one waiting when the context is cancelled, may return no error though nothing is ever sent. Proved: whenever the wait ended by Done(), no error means exactly that the packet was written, or for a fragmented message that all fragments were."
  },
  {
   "property": "C45",
   "status": "partial",
   "theorems": [
    "Verif.DelayedSend.C45_in_order_partial",
    "Verif.DelayedSend.C45_result_partial",
    "Verif.DelayedSend.C45_violated",
    "Verif.DelayedSend.close_drops"
   ],
   "note": "Code violates the property: a message accepted after Close is in no packet. Proved (no fragmentation): written packets contain the accepted messages once, in order, and a finished SendInfo reports the result of its packet. Close drops what is waiting."
  },
  {
   "property": "C46",
   "status": "partial",
   "theorems": [
    "Verif.DelayedSend.C46_counts",
    "Verif.DelayedSend.C46_recycled_partial",
    "Verif.DelayedSend.C46_violated"
   ],
   "note": "Code violates the property with fragmentation: the SendInfo is recycled while the sending goroutine still uses it. Proved: counts in all cases; finality without fragmentation."
  },
  {
   "property": "C47",
   "status": "partial",
   "theorems": [
    "Verif.Receive.C47_detach_partial",
    "Verif.Receive.C47_strict_partial",
    "Verif.Receive.C47_violated",
    "Verif.Receive.C48_violated"
   ],
   "note": "Code violates the property for option 0 (the default): the first undecryptable packet stops the session; and for every option from 2 on, since a packet that is decrypted but dropped because of its ID does not end a sequence of undecryptable ones (C48_violated). Proved for every option above 0 if such packets are passed over, and to the letter without them."
  },
  {
   "property": "C48",
   "status": "partial",
   "theorems": [
    "Verif.Receive.C48_error",
    "Verif.Receive.C48_partial",
    "Verif.Receive.C48_no_error",
    "Verif.Receive.C48_violated"
   ],
   "note": "Code violates the property to the letter: a packet that is decrypted but dropped because of its ID does not restart the count, so a failure is reported that follows a good packet. Proved if such packets are passed over, and to the letter without them."
  },
  {
   "property": "C49",
   "status": "partial",
   "theorems": [
    "Verif.Receive.C49_limit_partial",
    "Verif.Receive.C49_zero_never",
    "Verif.Receive.C49_violated",
    "Verif.Receive.C49_fragments_count"
   ],
   "note": "Code violates the property while a session waits for the answer of a key exchange, and counts fragments. Proved for all other packet sequences."
  },
  {
   "property": "C50",
   "status": "proved",
   "theorems": [
    "Verif.ReadQueue.C50_read_exact",
    "Verif.ReadQueue.C50_in_order",
    "Verif.ReadQueue.C50_closed_last"
   ],
   "note": ""
  },
  {
   "property": "C51",
   "status": "partial",
   "theorems": [
    "Verif.ReadQueue.C51_no_loss_partial",
    "Verif.ReadQueue.C51_violated"
   ],
   "note": "Code violates the property: a Read with a too small buffer loses its message. Proved: nothing is lost otherwise."
  },
  {
   "property": "C52",
   "status": "partial",
   "theorems": [
    "Verif.Headers.C52_channels_isolated_partial",
    "Verif.Headers.C52_documented",
    "Verif.Headers.C52_violated",
    "Verif.Receive.C52_dispatch"
   ],
   "note": "Code violates the property for channel ID 2^32-1 (wraps to type 0). Proved for all other channel IDs, hence for all that the README allows (0 to 2^31); dispatch by type proved."
  },
  {
   "property": "C53",
   "status": "partial",
   "theorems": [
    "Verif.Negotiator.C53_short",
    "Verif.Negotiator.C53_safe_partial",
    "Verif.Negotiator.C53_safe_other_partial",
    "Verif.Negotiator.C53_echo",
    "Verif.Negotiator.C53_checksum",
    "Verif.Negotiator.C53_control",
    "Verif.Negotiator.C53_violated"
   ],
   "note": "Proved for two sides that follow the protocol. Code violates the property for an authenticated peer that does not: an unasked-for pong larger than the limit is counted."
  },
  {
   "property": "C54",
   "status": "partial",
   "theorems": [
    "Verif.Negotiator.C54_rounds",
    "Verif.Negotiator.C54_range_partial",
    "Verif.Negotiator.C54_terminates",
    "Verif.Negotiator.C54_goes_on",
    "Verif.Negotiator.C54_violated",
    "Verif.Negotiator.C54_overflow",
    "Verif.Negotiator.C54_small_limit"
   ],
   "note": "Number of rounds and termination proved in all cases; the range for limits below 2^30 and a peer that follows the protocol. Code violates the range otherwise."
  },
  {
   "property": "C55",
   "status": "partial",
   "theorems": [
    "Verif.Negotiator.C55_violated",
    "Verif.Negotiator.C55_silent",
    "Verif.Negotiator.C55_silent_other",
    "Verif.Negotiator.C55_ready_partial",
    "Verif.Negotiator.C55_stays_partial",
    "Verif.Negotiator.C55_told_partial",
    "Verif.Negotiator.C55_reaches_limit"
   ],
   "note": "Code violates the property with default settings: a side whose search ends by MaxIterations sends no end message, so the other side waits until the total time-out. Proved: a side that is through and was told so by the other one succeeds."
  },
  {
   "property": "C56",
   "status": "partial",
   "theorems": [
    "Verif.Negotiator.C56_violated_late",
    "Verif.Negotiator.C56_violated_disabled",
    "Verif.Negotiator.C56_violated_timeout",
    "Verif.Negotiator.C56_violated_early",
    "Verif.Negotiator.C56_violated_crash",
    "Verif.Negotiator.C56_causes_partial",
    "Verif.Negotiator.C56_collecting_partial"
   ],
   "note": "Code violates the property in five ways, all between two sides that follow the protocol. Proved: there are no other places at which the reader can be blocked, and it never is while the probes of a round are collected."
  },
  {
   "property": "C57",
   "status": "partial",
   "theorems": [
    "Verif.Identity.C57_sequential_partial",
    "Verif.Identity.C57_stable_partial",
    "Verif.Identity.C57_no_failure",
    "Verif.Identity.C57_completes",
    "Verif.Identity.C57_violated",
    "Verif.Identity.C57_violated_mixed"
   ],
   "note": "Proved for calls that do not overlap until the first one has succeeded, with failures and crashes everywhere. Code violates the property for two first calls at the same time: different keys, or even a mixed key nobody has generated, because the file is opened without O_EXCL and O_TRUNC."
  },
  {
   "property": "C58",
   "status": "partial",
   "theorems": [
    "Verif.Identity.C58_outcomes_partial",
    "Verif.Identity.C58_violated"
   ],
   "note": "Code violates the property: after a crash between creating and filling the private key file every later call panics. Proved: the complete list of what can be left."
  },
  {
   "property": "C59",
   "status": "proved",
   "theorems": [
    "Verif.Identity.C59_private",
    "Verif.Identity.C59_public",
    "Verif.Identity.C59_embedded"
   ],
   "note": ""
  },
  {
   "property": "C60",
   "status": "proved",
   "theorems": [
    "Verif.Headers.C60_set_limit",
    "Verif.Headers.C60_defaults"
   ],
   "note": ""
  },
  {
   "property": "C61",
   "status": "proved",
   "theorems": [
    "Verif.Send.C61_no_write",
    "Verif.DelayedSend.C61_check",
    "Verif.DelayedSend.C61_nothing_after_close"
   ],
   "note": ""
  },
  {
   "property": "C62",
   "status": "proved",
   "theorems": [
    "Verif.Lifecycle.C62_once",
    "Verif.Negotiator.C62_success_once"
   ],
   "note": "The session part assumes that the negotiator reports success at most once, which C62_success_once proves."
  },
  {
   "property": "C63",
   "status": "partial",
   "theorems": [
    "Verif.EndToEnd.C63_delivery",
    "Verif.EndToEnd.plan_message",
    "Verif.EndToEnd.C63_fragmented_partial",
    "Verif.EndToEnd.C63_violated",
    "Verif.EndToEnd.C63_violated_concurrent"
   ],
   "note": "Code violates the property for fragmented messages: with the default options the ninth of nine messages sent one after the other is delivered with the end of the first one appended, and of two messages written at the same time the older one never arrives. Proved: exact delivery for whole messages in any batching; fragmented messages under the restrictions of C22 and C23 (pieces of at least 64 bytes, no longer message before in the slot)."
  },
  {
   "property": "C64",
   "status": "partial",
   "theorems": [
    "Verif.Packet.C64_mac_key_preimage",
    "Verif.Packet.C64_violated",
    "Verif.Packet.C64_violated_sides"
   ],
   "note": "Code violates the second half: header and messages are authenticated with the same one-time key, and so are the packets of the two sides with the same packet ID. Proved: preimages of the MAC key differ between packets."
  },
  {
   "property": "C65",
   "status": "partial",
   "theorems": [
    "Verif.ReadQueue.C65_not_blocked_partial",
    "Verif.ReadQueue.C65_violated"
   ],
   "note": "Code violates the property: 1025 unread messages block the reader for ever. Proved: up to 1024 unread messages never block it."
  },
  {
   "property": "C66",
   "status": "partial",
   "theorems": [
    "Verif.Lifecycle.C66_polite_partial",
    "Verif.Lifecycle.C66_violated"
   ],
   "note": "Code violates the property: with SetPause calls that do not wait for the reader a read deadline can stay in the past and is taken for a time-out, so the session closes itself. Proved for callers that wait for the reader (Polite)."
  },
  {
   "property": "C67",
   "status": "partial",
   "theorems": [
    "Verif.Lifecycle.C67_violated",
    "Verif.Lifecycle.C68_closes_partial"
   ],
   "note": "Code violates the property: Close on a paused session whose reader waits never reaches Closed. Proved (C68_closes_partial) when the reader is not waiting yet."
  },
  {
   "property": "C68",
   "status": "partial",
   "theorems": [
    "Verif.Lifecycle.C68_closes_partial",
    "Verif.Lifecycle.C68_violated",
    "Verif.Lifecycle.C68_violated_pause"
   ],
   "note": "Code violates the property: the interrupt of Close is lost when the reader is between two reads. Proved for the remaining executions, see the hypotheses."
  },
  {
   "property": "C69",
   "status": "partial",
   "theorems": [
    "Verif.Messenger.C69_outcome",
    "Verif.Messenger.C69_destination",
    "Verif.Messenger.C69_arrival",
    "Verif.Messenger.C69_no_crash_partial",
    "Verif.Messenger.C69_calm_partial",
    "Verif.Messenger.C69_violated",
    "Verif.Messenger.C69_violated_messenger",
    "Verif.Messenger.C69_violated_map"
   ],
   "note": "Code violates the property: a message that arrives before SetHandler was called, or while a map is written, crashes the program. Proved: each message has exactly one outcome; there are only three ways to crash; none with careful use (Calm)."
  },
  {
   "property": "C70",
   "status": "partial",
   "theorems": [
    "Verif.Lifecycle.C70_no_crash_partial",
    "Verif.Lifecycle.C70_violated_new",
    "Verif.Lifecycle.C70_violated_start",
    "Verif.Messenger.C70_violated_handler"
   ],
   "note": "Code violates the property before Start, while Start runs (also when the context of Start is cancelled meanwhile, see C160), and for SetHandlerFuncs on a finished session. Proved for a session whose key exchanger exists."
  },
  {
   "property": "C71",
   "status": "partial",
   "theorems": [
    "Verif.Receive.C71_violated",
    "Verif.Receive.C11_aggregate"
   ],
   "note": "Code violates the property for fragments that are whole messages. Proved for messages that are not fragments."
  },
  {
   "property": "C72",
   "status": "partial",
   "theorems": [
    "Verif.DelayedSend.C72_only_two_partial",
    "Verif.DelayedSend.C72_violated",
    "Verif.DelayedSend.C72_violated_channel",
    "Verif.DelayedSend.C72_violated_fragment"
   ],
   "note": "Code violates the property in three ways. Proved: without fragmentation there are only two ways to crash."
  },
  {
   "property": "C73",
   "status": "partial",
   "theorems": [
    "Verif.Messenger.C73_once",
    "Verif.Messenger.C73_owner",
    "Verif.Messenger.C73_closed_partial",
    "Verif.Messenger.C73_violated"
   ],
   "note": "Code violates the property: a registration that overlaps the end of the session leaves a messenger open for ever. Proved when no registration is in progress as the session ends."
  },
  {
   "property": "C74",
   "status": "proved",
   "theorems": [
    "Verif.SessionID.C74_roundtrip",
    "Verif.SessionID.C74_short"
   ],
   "note": ""
  },
  {
   "property": "C75",
   "status": "partial",
   "theorems": [
    "Verif.Negotiator.C75_floor_partial",
    "Verif.Negotiator.C75_violated",
    "Verif.Negotiator.C75_narrow"
   ],
   "note": "Code violates the property for limits from 147 to 150: nothing is probed and the negotiation succeeds with size 0. Proved: 0 is the only value below 147, between sides that follow the protocol."
  },
  {
   "property": "C76",
   "status": "partial",
   "theorems": [
    "Verif.Negotiator.C76_later_partial",
    "Verif.Negotiator.C76_always",
    "Verif.Negotiator.C76_violated"
   ],
   "note": "Code violates the property in the first round. Proved for the later rounds and for positive time-outs."
  },
  {
   "property": "C77",
   "status": "partial",
   "theorems": [
    "Verif.Negotiator.C77_closes_partial",
    "Verif.Negotiator.C77_violated"
   ],
   "note": "Code violates the property: the finalizer leaves first, the ping sender then waits for it for ever. Proved for a negotiator that has succeeded or was not enabled."
  },
  {
   "property": "C78",
   "status": "partial",
   "theorems": [
    "Verif.Negotiator.C78_violated",
    "Verif.Negotiator.C78_best_partial"
   ],
   "note": "Code violates the property: after the time-out no result is used or reported. Proved: whatever is used is the minimum of what both sides have found."
  },
  {
   "property": "C79",
   "status": "partial",
   "theorems": [
    "Verif.Negotiator.C79_half_partial",
    "Verif.Negotiator.C79_grows",
    "Verif.Negotiator.C79_ends_low",
    "Verif.Negotiator.C79_violated"
   ],
   "note": "Code violates the property for every path that carries less than about a third of the limit. Proved, round by round, for the other paths."
  },
  {
   "property": "C80",
   "status": "partial",
   "theorems": [
    "Verif.Identity.C80_block_partial",
    "Verif.Identity.C80_violated"
   ],
   "note": "Code violates the property: a file without PEM block crashes the program (nil block dereferenced). Proved for files with a block."
  },
  {
   "property": "C81",
   "status": "partial",
   "theorems": [
    "Verif.Identity.C81_matches_partial",
    "Verif.Identity.C81_violated"
   ],
   "note": "Code violates the property: a partly written public key file is never repaired. Proved for calls one after the other without failures."
  },
  {
   "property": "C82",
   "status": "partial",
   "theorems": [
    "Verif.Mutual.C82_sent",
    "Verif.Mutual.C82_once",
    "Verif.Mutual.C82_final",
    "Verif.Mutual.C82_signed_partial",
    "Verif.Mutual.C82_psk_partial",
    "Verif.Mutual.C82_by_psk_partial",
    "Verif.Mutual.C82_violated",
    "Verif.Mutual.C82_violated_witness"
   ],
   "note": "Code violates the property without a PSK: one unencrypted packet with a recorded answer of the remote side and an empty message makes the call succeed. Proved: a signed answer and an empty message were received, the first key belongs to a signed public key; with a PSK these came in packets sealed with the PSK or with an exchanged key."
  },
  {
   "property": "C83",
   "status": "partial",
   "theorems": [
    "Verif.Mutual.C83_agree_partial",
    "Verif.Mutual.C83_violated"
   ],
   "note": "Proved for calls in which each side makes one local key and messages are authentic. Code violates the property otherwise: an answering goroutine makes a second key after the exchange, and both calls succeed with different first keys."
  },
  {
   "property": "C84",
   "status": "partial",
   "theorems": [
    "Verif.Mutual.C84_reported",
    "Verif.Mutual.C84_bound_partial",
    "Verif.Mutual.C84_violated",
    "Verif.Mutual.C84_violated_witness"
   ],
   "note": "Code violates the property: the reader goes on reading until the session is closed, and drops a packet it cannot decrypt without a report. Proved: at most two such packets in a row are read."
  },
  {
   "property": "C85",
   "status": "partial",
   "theorems": [
    "Verif.Traffic.C85_short",
    "Verif.Traffic.C85_once_partial",
    "Verif.Traffic.C85_violated",
    "Verif.Traffic.C85_violated_witness"
   ],
   "note": "Code violates the property with the default window and every window above 64: every received packet takes a packet ID of the receiver, so 64 received packets between two sends (for example copies of one old packet) make the next ID jump by more than 64; the jump empties the table of received IDs, and older packets are accepted again. Proved for windows of up to 64 and for traffic without such jumps."
  },
  {
   "property": "C86",
   "status": "partial",
   "theorems": [
    "Verif.Traffic.C86_window_partial",
    "Verif.Traffic.C86_violated",
    "Verif.Traffic.C86_violated_witness"
   ],
   "note": "Code violates the property: the window counts packet IDs, and received packets take IDs too; a packet overtaken by a single one is dropped if the sender received as many packets in between as the window is wide. Proved for packets whose IDs lag by less than the window."
  },
  {
   "property": "C87",
   "status": "partial",
   "theorems": [
    "Verif.Traffic.C87_serial_partial",
    "Verif.Traffic.C87_violated",
    "Verif.Traffic.C87_violated_witness"
   ],
   "note": "Code violates the property: the packet ID is taken before and not under the same lock as backend.Write, so concurrent writers write out of order, and a packet can be too old on arrival; with PacketIDStorageSize = 1 two writers are enough. Proved for sends that do not overlap, with any failures and received packets in between."
  },
  {
   "property": "C88",
   "status": "proved",
   "theorems": [
    "Verif.Mem.C88_send",
    "Verif.Mem.C88_message",
    "Verif.Mem.C88_fragment",
    "Verif.Mem.C88_receive",
    "Verif.Mem.C88_roundtrip"
   ],
   "note": "For packets below 4 GiB. That there are no keys before the session ID of the peer is known is proved in Lemmas/MutualKeys.lean."
  },
  {
   "property": "C89",
   "status": "partial",
   "theorems": [
    "Verif.Mem.C89_contents",
    "Verif.Mem.C89_partial",
    "Verif.Mem.C89_iff",
    "Verif.Mem.C89_violated"
   ],
   "note": "Code violates the property: the established payload size is taken from the peer without comparing it with the own limit, and the message is appended behind the capacity of the pooled buffer, so that Write panics. Proved while the established size is not more than 44 above the limit, with the exact condition."
  },
  {
   "property": "C90",
   "status": "partial",
   "theorems": [
    "Verif.ByteStream.C90_exact",
    "Verif.ByteStream.C90_packets_partial",
    "Verif.ByteStream.C90_violated",
    "Verif.ByteStream.C90_violated_witness"
   ],
   "note": "Code violates the property: the result of one Read is taken for one packet, although the header has the length; two packets read at once, or a packet read in two parts, are lost, and with the default options the session ends. Proved: exactly the packets that were read alone and whole arrive."
  },
  {
   "property": "C91",
   "status": "partial",
   "theorems": [
    "Verif.ByteStream.C91_partial",
    "Verif.ByteStream.C91_violated",
    "Verif.ByteStream.C91_violated_witness"
   ],
   "note": "Code violates the property when the limits differ and there is no negotiation. Proved when the established size of the sender is not above the limit of the receiver."
  },
  {
   "property": "C92",
   "status": "partial",
   "theorems": [
    "Verif.Sync.C92_partial",
    "Verif.Sync.C92_progress_partial",
    "Verif.Sync.C92_violated",
    "Verif.Sync.C92_exact"
   ],
   "note": "Code violates the property: setMessenger calls Close of the old handler, and EventHandler.Error, with sess.locker held; there GetRemoteIdentity, NewMessenger, SetHandlerFuncs, SetPause and Start wait for ever. Proved when these callbacks keep off those methods; handlers and OnConnect may call all."
  },
  {
   "property": "C93",
   "status": "partial",
   "theorems": [
    "Verif.Sync.C93_partial",
    "Verif.Sync.C93_violated",
    "Verif.Sync.C93_exact"
   ],
   "note": "Code violates the property for nine fields: sess.messenger, sess.readChan, sess.currentSecrets, kx.nextLocalPublicKey, kx.localKeyCreatedAt (written under a read lock), kx.skipKeyUpdateUntil, n.localLargestRTT, n.remoteLargestRTT, n.recvChan. Proved for the other nine, with any callbacks."
  },
  {
   "property": "C94",
   "status": "partial",
   "theorems": [
    "Verif.Sync.C94_partial",
    "Verif.Sync.C94_waits_for_itself",
    "Verif.Sync.C94_closure_waits",
    "Verif.Sync.C94_sending_waits",
    "Verif.Sync.C94_violated",
    "Verif.Sync.C94_violated_write",
    "Verif.Sync.C94_outside"
   ],
   "note": "Code violates the property: handlers run in the goroutine that reads. WaitForClosure, CloseAndWait, SetPause(true) and Read on an empty queue wait for that goroutine and never return; a handler that sends before the last message of the negotiation has been received waits until the session is closed. All of this is proved for all programs and executions. Proved for the methods that do not wait for the reader, in sessions that are established or closed; waiting for the goroutines of the negotiation is left open."
  },
  {
   "property": "C95",
   "status": "partial",
   "theorems": [
    "Verif.Sync.C95_partial",
    "Verif.Sync.C95_both_full",
    "Verif.Sync.C95_violated"
   ],
   "note": "Code violates the property for every buffer size: both readers wait in backend.Write while nobody reads. Proved when everything that is ever written fits into the buffer. Closing the backend, which makes its Write return, is not modelled."
  },
  {
   "property": "C96",
   "status": "partial",
   "theorems": [
    "Verif.Handshake.C96_partial",
    "Verif.Handshake.C96_violated"
   ],
   "note": "Code violates the property in the default mode: when the answer to the first message of the other side is sent before the own loop has started, it sets skipKeyUpdateUntil, the loop skips its first update, and nothing is sent until the ticker of KeyUpdateInterval; the session stays in KeyExchanging for a minute although nothing is lost. Proved for sides that do not skip, and for the other modes."
  },
  {
   "property": "C97",
   "status": "partial",
   "theorems": [
    "Verif.Handshake.C97_partial",
    "Verif.Handshake.C97_violated"
   ],
   "note": "Code violates the property in the mode \"disable\": a side that has finished neither sends nor answers, so one lost message cannot be made good before KeyUpdateInterval. Proved for the modes with answers, for sides whose loop has not skipped its update (C96)."
  },
  {
   "property": "C98",
   "status": "partial",
   "theorems": [
    "Verif.Options.C98_partial",
    "Verif.Options.C98_violated",
    "Verif.Options.C98_nil"
   ],
   "note": "Code violates the property for DetachOnSequentialDecryptFailsCount = 0, documented as \"never\": the first undecryptable packet stops the session. Proved for all other documented values (ReadTimeout below 0: C76)."
  },
  {
   "property": "C99",
   "status": "partial",
   "theorems": [
    "Verif.Options.C99_partial",
    "Verif.Options.C99_new",
    "Verif.Options.C99_start",
    "Verif.Options.C99_violated",
    "Verif.Retry.C99_update_partial",
    "Verif.Retry.C99_violated_retry",
    "Verif.Retry.C99_violated_interval",
    "Verif.Retry.C99_negative_timeout"
   ],
   "note": "Code violates the property: a negative KeyUpdateInterval or RetryInterval makes time.NewTicker panic in a goroutine, and large MaxChainIDDiff or PacketIDStorageSize make NewSession panic. Proved for the rest, with exact conditions; the panics that are modelled are those of make and time.NewTicker (out of memory is not). Retry has the first key update step by step; there a negative Timeout does not crash but gives up at once."
  },
  {
   "property": "C100",
   "status": "partial",
   "theorems": [
    "Verif.Options.C100_partial",
    "Verif.Options.C100_violated"
   ],
   "note": "Code violates the property for the 53 largest values: the sum wraps and the buffer is shorter than the headers. Proved, as an equivalence, for all others."
  },
  {
   "property": "C101",
   "status": "partial",
   "theorems": [
    "Verif.Options.C101_partial",
    "Verif.Options.C101_exact",
    "Verif.Options.C101_violated"
   ],
   "note": "Code violates the property: only the structure is copied. The keys of the exchange are made with what is in the PSK slice at that time (after wiping it: zeros), SendDelay and ErrorOnSequentialDecryptFailsCount are read from the variables of the caller. Proved while these do not change."
  },
  {
   "property": "C102",
   "status": "partial",
   "theorems": [
    "Verif.Reader.C102_partial",
    "Verif.Reader.C102_exact",
    "Verif.Reader.C102_any_error",
    "Verif.Reader.C102_closed",
    "Verif.Reader.C102_violated"
   ],
   "note": "Code violates the property with a handler that returns true: the reader reads the failed backend again and again without a pause. Proved for handlers that return false, with the exact number of reports."
  },
  {
   "property": "C103",
   "status": "partial",
   "theorems": [
    "Verif.Reader.C103_partial",
    "Verif.Reader.C103_until_end",
    "Verif.Reader.C103_violated"
   ],
   "note": "Code violates the property: data that is returned together with an error is dropped. Proved for data without an error."
  },
  {
   "property": "C104",
   "status": "partial",
   "theorems": [
    "Verif.Reader.C104_partial",
    "Verif.Reader.C104_no_deadlines",
    "Verif.Reader.C104_violated"
   ],
   "note": "Code violates the property on backends whose time-out error does not have the text \"i/o timeout\". Proved for the others."
  },
  {
   "property": "C105",
   "status": "proved",
   "theorems": [
    "Verif.Handshake.C105_renewed"
   ],
   "note": "Both sides with the same answers mode; sending does not fail."
  },
  {
   "property": "C106",
   "status": "partial",
   "theorems": [
    "Verif.Handshake.C106_partial",
    "Verif.Handshake.C106_violated",
    "Verif.Handshake.C106_clock",
    "Verif.KeyTimer.C106_timed_partial",
    "Verif.KeyTimer.C106_timed_violated",
    "Verif.KeyTimer.C106_timed_clock"
   ],
   "note": "Code violates the property: a notification about an older key that gets into the channel between makeSuccessNotifyChanEmpty and updateLocalKey makes sendSuccessNotifications drop the right one, or is the only one there is; in the mode \"disable\" the session then times out although both sides have all keys. The same happens when the clock is set back while a goroutine that answers makes a key. Proved for updates without these two cases, and also with time (KeyTimer)."
  },
  {
   "property": "C107",
   "status": "partial",
   "theorems": [
    "Verif.Handshake.C107_partial",
    "Verif.Handshake.C107_violated"
   ],
   "note": "Code violates the property in the modes \"answer\" and \"disable\": the message of the other side counts as success even if this side has no key. Proved for the default mode."
  },
  {
   "property": "C108",
   "status": "partial",
   "theorems": [
    "Verif.Lifecycle.C108_partial",
    "Verif.Lifecycle.C108_open",
    "Verif.Lifecycle.C108_detach",
    "Verif.Lifecycle.C108_violated",
    "Verif.Lifecycle.C108_without_deadlines"
   ],
   "note": "Code violates the property: if a packet ends Read while Close interrupts it, the interrupt sets the deadline after the reader has finished, and nobody resets it. Proved: the backend is never closed; a session that ends by itself (DetachOn...) never touches the backend; otherwise for interrupts that come before the reader has answered them."
  },
  {
   "property": "C109",
   "status": "partial",
   "theorems": [
    "Verif.Lifecycle.C109_partial",
    "Verif.Lifecycle.C109_violated"
   ],
   "note": "Code violates the property: the reader lets SetPause return before it resets the deadline. Proved for polite callers (C66): the reader does not read, and its next step, which cannot block, makes the backend usable."
  },
  {
   "property": "C110",
   "status": "partial",
   "theorems": [
    "Verif.StdIO.C110_partial",
    "Verif.StdIO.C110_refines",
    "Verif.StdIO.C110_violated",
    "Verif.StdIO.C110_violated_single",
    "Verif.StdIO.C110_single_failed"
   ],
   "note": "Code violates the property: every failed Read returns -1, and a successful WriteMessageSingle (also Messenger.WriteSingle) returns the size of the packet, 53 bytes more than the payload. Proved for successful Reads, Write and WriteMessage, and for failing WriteMessageSingle. The theorem C110_refines ties the sequential Read of this model to the one with goroutines (ReadQueue)."
  },
  {
   "property": "C111",
   "status": "partial",
   "theorems": [
    "Verif.StdIO.C111_partial",
    "Verif.StdIO.C111_exact",
    "Verif.StdIO.C111_violated"
   ],
   "note": "Code violates the property for every series of messages: the count -1 at the end takes away the last byte (or makes the slice expression panic if there is none), the error is not io.EOF, and a message that is longer than the room in the slice is dropped. Proved exactly what io.ReadAll returns; for up to 512 bytes it is all but the last byte."
  },
  {
   "property": "C112",
   "status": "partial",
   "theorems": [
    "Verif.StdIO.C112_partial",
    "Verif.StdIO.C112_exact",
    "Verif.StdIO.C112_violated"
   ],
   "note": "Code violates the property: the end of a session is never io.EOF, so that io.Copy always fails, and a message of more than 32768 bytes ends it early. Proved: messages up to this length all get to the target."
  },
  {
   "property": "C113",
   "status": "partial",
   "theorems": [
    "Verif.StdIO.C113_partial",
    "Verif.StdIO.C113_violated",
    "Verif.StdIO.C113_violated_bufio"
   ],
   "note": "Code violates the property: the count -1 makes (*bytes.Buffer).ReadFrom panic at the end of every session, and bufio.Reader too, also on a message that is longer than its buffer. Proved: the bytes that bufio.Reader returns before are a begin of the stream."
  },
  {
   "property": "C114",
   "status": "partial",
   "theorems": [
    "Verif.StdIO.C114_partial",
    "Verif.StdIO.C114_violated"
   ],
   "note": "Code violates the property whenever the buffer ends inside of a message: io.ReadFull fails, reports one byte less than it has read (-1 if none), and the message is lost. Proved for buffers that end where a message ends."
  },
  {
   "property": "C115",
   "status": "partial",
   "theorems": [
    "Verif.Mutual.C115_partial",
    "Verif.Mutual.C115_violated",
    "Verif.Mutual.C115_violated_own"
   ],
   "note": "Code violates the property for an unknown remote identity, with a PSK too, and if both sides share an identity: the key exchanger never compares the received session ID, identity or ECDH key with its own, so that a session talks to itself. Proved for a known remote identity under which nothing is valid that the own identity signs."
  },
  {
   "property": "C116",
   "status": "partial",
   "theorems": [
    "Verif.EndToEnd.C116_partial",
    "Verif.EndToEnd.C116_violated",
    "Verif.EndToEnd.C116_violated_same_id"
   ],
   "note": "Code violates the property: nothing in a packet that is not confidential tells the direction, and all fragments are such packets; a fragmented message that is sent back is delivered to its sender. Confidential packets are accepted if the remote session ID is the own one (C115). Proved otherwise: acceptance means tags that are valid under another nonce than the one used."
  },
  {
   "property": "C117",
   "status": "partial",
   "theorems": [
    "Verif.WriteBuf.C117_partial",
    "Verif.WriteBuf.C117_small",
    "Verif.WriteBuf.C117_violated"
   ],
   "note": "Code violates the property for fragmented messages: Write returns when the context ends, while goroutines of fragments have not copied the slice yet; they only look at the state of the session, so they send what the caller has put there since. Proved for messages that are not fragmented, and as long as the context has not ended."
  },
  {
   "property": "C118",
   "status": "partial",
   "theorems": [
    "Verif.Output.C118_debug",
    "Verif.Output.C118_partial",
    "Verif.Output.C118_rest",
    "Verif.Output.C118_ignored",
    "Verif.Output.C118_violated"
   ],
   "note": "Code violates the property: ifInfo looks at EnableDebug instead of EnableInfo, which is used nowhere. EnableInfo alone gives nothing, EnableDebug alone gives INFO messages. Proved for the DEBUG channel, and for the INFO channel if both options are the same."
  },
  {
   "property": "C119",
   "status": "proved",
   "theorems": [
    "Verif.Output.C119_total",
    "Verif.Output.C119_no_panic",
    "Verif.Output.C119_order",
    "Verif.Output.C119_end",
    "Verif.Output.C119_told"
   ],
   "note": "For all interleavings of any number of logging goroutines, the end of the reader, and the user. Copying the arguments (package deepcopy) is not modelled."
  },
  {
   "property": "C120",
   "status": "partial",
   "theorems": [
    "Verif.Lifecycle.C120_partial",
    "Verif.Lifecycle.C120_told",
    "Verif.Lifecycle.C120_violated"
   ],
   "note": "Code violates the property: onConnect does not look at the result of setState, so that OnConnect is also called for a session that was closed before and is never established. Proved for sessions that are not closed, and that no session gets Established without OnConnect."
  },
  {
   "property": "C121",
   "status": "partial",
   "theorems": [
    "Verif.DelayedSend.C121_partial",
    "Verif.SendNow.C121_exit",
    "Verif.SendNow.C121_wait",
    "Verif.SendNow.C121_not_before",
    "Verif.SendNow.C121_violated",
    "Verif.SendNow.C121_violated_example",
    "Verif.SendNow.C121_violated_unconnected",
    "Verif.DelayedSend.C121_violated_crash"
   ],
   "note": "Code violates the property: SendNowAndWait sends to a channel without looking at the context. With SendDelay switched off nobody ever receives from it, and the call hangs for ever although the message is already sent; the same in a session that ends before it is established. For a fragmented message that is not sent yet the sender loop panics in its deferred Release. Proved for a connected session with the delay, without fragmentation, before Close: when the loop is waiting, at most seven of its own steps lead to the end of the wait, whatever other goroutines do in between, and none of them crashes."
  },
  {
   "property": "C122",
   "status": "partial",
   "theorems": [
    "Verif.DelayedSend.C122_partial",
    "Verif.DelayedSend.C122_pool_partial",
    "Verif.DelayedSend.C122_violated",
    "Verif.DelayedSend.C122_violated_later"
   ],
   "note": "Code violates the property: waitForSend counts a reference to a SendInfo that may already be back in the pool. When two writers wait for the same one, the panic of the first is recovered but its count stays, so the second does not notice and hands the SendInfo to the sender loop; the loop takes the very same object from the pool as the next current one and panics in its deferred Release. Proved for one writer at a time, without fragmentation, before Close: nothing crashes except SendNow after the sender loop has ended."
  },
  {
   "property": "C123",
   "status": "partial",
   "theorems": [
    "Verif.Errors.C123_headers",
    "Verif.Errors.C123_decrypt",
    "Verif.Errors.C123_receive",
    "Verif.Errors.C123_key_exchange",
    "Verif.Errors.C123_negotiation_partial",
    "Verif.Errors.C123_keys",
    "Verif.Errors.C123_write",
    "Verif.Errors.C123_packet_partial",
    "Verif.Errors.C123_delayed_partial",
    "Verif.Errors.C123_delayed_true",
    "Verif.Errors.C123_read",
    "Verif.Errors.C123_violated",
    "Verif.Errors.C123_violated_single"
   ],
   "note": "Code violates the property: parseMessage of the negotiator always reports the size of a control message, so that a pong of 6 to 68 bytes is refused with an ErrTooShort which says that 6 bytes are expected. WriteMessageSingle refuses a big payload with an ErrPayloadTooBig whose sizes are those of packets: writing a payload of MaxSize bytes fails again. Proved for every other place that creates one of these errors."
  },
  {
   "property": "C124",
   "status": "partial",
   "theorems": [
    "Verif.Names.C124_channel_partial",
    "Verif.Names.C124_distinct_partial",
    "Verif.Names.C124_kinds_partial",
    "Verif.Names.C124_states",
    "Verif.Names.C124_packet_ids",
    "Verif.Names.C124_secrets",
    "Verif.Names.C124_violated",
    "Verif.Names.C124_violated_distinct"
   ],
   "note": "Code violates the property: MessageType.String subtracts MessageTypeReadWrite instead of MessageTypeChannel(0) and cuts the result to a byte, so that channel 0 is called channel5, no channel has its own number, and channels 0 and 256 have the same name; the type of the negotiation is unknown, like the reserved ones. Proved: the exact names, that names of channels are equal exactly modulo 256, that no channel is called like another kind of message, and the property for states, packet IDs and keys."
  },
  {
   "property": "C125",
   "status": "partial",
   "theorems": [
    "Verif.Closure.C125_finished_partial",
    "Verif.Closure.C125_after_partial",
    "Verif.Closure.C125_silent_partial",
    "Verif.Closure.C125_violated",
    "Verif.Closure.C125_violated_error",
    "Verif.Closure.C125_violated_early"
   ],
   "note": "Code violates the property: the goroutine of OnConnect, those of the negotiation and those that answer key-exchange messages are not counted in stopWaitGroup, so that OnConnect and Error can be called after WaitForClosure has returned; before Start the counter is 0 and WaitForClosure returns at once. Proved: after Start the session is Closed, all counted goroutines have ended, the backend is never read and no handler is ever called again; and nothing at all happens if the goroutines that are not counted have ended."
  },
  {
   "property": "C126",
   "status": "partial",
   "theorems": [
    "Verif.SendTimer.C126_count_partial",
    "Verif.SendTimer.C126_quiet_partial",
    "Verif.SendTimer.C126_size_partial",
    "Verif.SendTimer.C126_clock",
    "Verif.SendTimer.C126_violated",
    "Verif.SendTimer.C126_violated_defaults"
   ],
   "note": "Code violates the property: every appended message restarts the timer, so that messages that come just before the timer expires delay the first one until the buffer is full: k messages by nearly k times SendDelay, with the defaults more than 7000 times. Proved: n messages in a packet wait for n times SendDelay at most (so a message alone in its packet for SendDelay), a packet leaves within SendDelay after its last message, the number of messages is bounded by the packet size, and no expiry of the timer is ever lost."
  },
  {
   "property": "C127",
   "status": "partial",
   "theorems": [
    "Verif.KX.C127_origin_partial",
    "Verif.KX.C127_serial_partial",
    "Verif.KX.C127_violated",
    "Verif.KX.C127_violated_replay",
    "Verif.KX.C127_violated_race"
   ],
   "note": "Code violates the property: any message the peer has ever signed is accepted as current, so who has an old private key of the peer plays back the message with its public key, and can compute the key the session sends with from then on. For the local keys, if two messages come before the first key is made, the loop and two answering goroutines each make a key, and the secrets of the first can be passed on last. Proved: if updates do not overlap, each key in use comes from the last two local keys and the last two remote keys accepted (equal keys in succession count once); in every run it comes from keys that were recent in this sense at some time."
  },
  {
   "property": "C128",
   "status": "partial",
   "theorems": [
    "Verif.DelayedSend.C128_one_partial",
    "Verif.DelayedSend.C128_told_partial",
    "Verif.DelayedSend.C128_violated",
    "Verif.DelayedSend.C128_violated_all"
   ],
   "note": "Code violates the property: Close sets the state Closing first and then flushes, and a flush in that state fails by itself (isDone), so the loop in startClosing throws away everything that waits; this happens in every state in which Close can be called. Proved: after Close at most one packet is written, the one the sender loop had already checked; when the loop of Close is over every earlier message has its final result, which says whether it was sent, except those in the packet the sender loop is just handling."
  },
  {
   "property": "C129",
   "status": "proved",
   "theorems": [
    "Verif.KX.C129_answers",
    "Verif.KX.C129_bytes",
    "Verif.Handshake.C129_rest",
    "Verif.Handshake.C129_rest_from",
    "Verif.Negotiator.C129_negotiation"
   ],
   "note": "For all runs, stated with what goes in and what comes out. The number of goroutines that are about to answer is the number of requests not yet answered; it has no other bound."
  },
  {
   "property": "C130",
   "status": "partial",
   "theorems": [
    "Verif.DelayedSend.C130_partial",
    "Verif.DelayedSend.C130_violated",
    "Verif.DelayedSend.C130_violated_all",
    "Verif.DelayedSend.C130_violated_busy"
   ],
   "note": "Code violates the property: waitForSend notices that the sender loop has ended, but assigns the SendInfo with the error to its own parameter, so writeMessageAsync tries again for ever. With two calls waiting for room when Close comes, the first fills the buffer that nobody empties any more, and the second runs in a busy loop, allocating a SendInfo in each round. Proved: a call that finds the buffer empty or with room for its message returns within four steps of its own."
  },
  {
   "property": "C131",
   "status": "partial",
   "theorems": [
    "Verif.Receive.C131_partial",
    "Verif.Receive.C131_violated_type",
    "Verif.Receive.C131_violated_size"
   ],
   "note": "Code violates the property: a message of a type without handler and queue is dropped silently; the fragments of a message bigger than MaxFragmentedMessageSize of the receiver (64 kB by default, not checked by the sender) are dropped in every order with an entry in the optional info log only, and so are those of a message overtaken by a newer one (C24). Proved: of a packet without fragments every message whose type has a handler or a queue is handed over, and an incomplete rest is reported exactly once."
  },
  {
   "property": "C132",
   "status": "partial",
   "theorems": [
    "Verif.ReadChan.C132_partial",
    "Verif.ReadChan.C132_violated",
    "Verif.ReadChan.C132_violated_example",
    "Verif.ReadChan.C132_violated_late"
   ],
   "note": "Code violates the property: setMessenger puts a new channel into the map, and nobody writes to or closes the old one, so that a Read waiting for it never returns in any run; the same for every Read after a registration that is completed after the end of the reader loop. Proved: otherwise every Read can return when the session has ended."
  },
  {
   "property": "C133",
   "status": "partial",
   "theorems": [
    "Verif.ReadChan.C133_once_partial",
    "Verif.ReadChan.C133_order_partial",
    "Verif.ReadChan.C133_violated",
    "Verif.ReadChan.C133_violated_example"
   ],
   "note": "Code violates the property: messages waiting in the old channel when a messenger is registered for MessageTypeReadWrite are never delivered in any run. Proved: every message is in exactly one place in all runs, and without a registration Read returns all of them in order."
  },
  {
   "property": "C134",
   "status": "partial",
   "theorems": [
    "Verif.Handlers.C134_partial",
    "Verif.Handlers.C134_violated",
    "Verif.Handlers.C134_violated_example"
   ],
   "note": "Code violates the property: onError is never called; HandleError, which would, is in no interface and nothing calls it. Proved: each message causes exactly one call of handle of the last registration of its type, in order, and its errors go to Error of the session."
  },
  {
   "property": "C135",
   "status": "partial",
   "theorems": [
    "Verif.KX.C135_partial",
    "Verif.KX.C135_violated",
    "Verif.KX.C135_violated_run"
   ],
   "note": "Code violates the property: the key depends on the ECDH keys and the PSK only, and the signed message names its sender but not its receiver. A third one who is a peer of Bob (or comes first, if Bob has no remote identity configured) signs the ECDH public key of Alice; then Alice and Bob have a common key, Alice rightly believes to talk to Bob, and Bob takes what Alice sends for messages of the third one. The third one does not learn the key; with a PSK it has to have the PSK. Proved: if the believed identities sign only their own ECDH keys and shared keys do not collide, the sides agree."
  },
  {
   "property": "C136",
   "status": "partial",
   "theorems": [
    "Verif.EndToEnd.C136_partial",
    "Verif.EndToEnd.C136_violated",
    "Verif.EndToEnd.C136_violated_example"
   ],
   "note": "Code violates the property: the storage of packet IDs is one for all keys. Without a PSK anybody can make a packet with the ID 2^64-1; it is accepted, and from then on every packet of the peer is dropped as too old, without a report. With a PSK the same is done by a packet recorded in an earlier session with this PSK, up to its ID. Proved: with a PSK only packets with right checksums under an exchanged key or the key made of the PSK have an effect on later ones."
  },
  {
   "property": "C137",
   "status": "partial",
   "theorems": [
    "Verif.EndToEnd.C137_partial",
    "Verif.EndToEnd.C137_violated",
    "Verif.EndToEnd.C137_violated_example"
   ],
   "note": "Code violates the property: packet IDs begin with 1 in each session, and the old session drops them as too old until they get beyond the ID it has seen last minus PacketIDStorageSize, without a report. Proved: packets with higher IDs are processed, and packets that cannot be decrypted are reported as the option says."
  },
  {
   "property": "C138",
   "status": "partial",
   "theorems": [
    "Verif.KX.C138_partial",
    "Verif.KX.C138_violated",
    "Verif.KX.C138_violated_run"
   ],
   "note": "Code violates the property: an answer does not tell which key it answers, and sendSuccessNotifications takes it for the key made last. If a request was sent twice and the second answer comes after the next key was made, the update of this key is over at once; if its request is lost, the exchanger sends with a key that the peer cannot have, until the next interval. Proved in general: any answer the peer has ever signed ends the update in progress; a run of two sides over a network that only loses and delays messages; and that in the default mode an update in progress ends only with an answer signed by the remote identity."
  },
  {
   "property": "C139",
   "status": "proved",
   "theorems": [
    "Verif.KX.C139_origin",
    "Verif.KX.C139_secret",
    "Verif.KX.C139_first_comer"
   ],
   "note": "Assumes what the cryptography is for: who does not have an identity key cannot make its signatures during the run (Deliverable), and a shared key cannot be computed without one of the private ECDH keys (hypothesis of C139_secret). Identities are assumed to sign nothing but key-exchange messages; Identity.Sign is exported. A session without a configured remote identity takes the one that comes first, which may be that of the attacker (C139_first_comer)."
  },
  {
   "property": "C140",
   "status": "partial",
   "theorems": [
    "Verif.Identity.C140_partial",
    "Verif.Identity.C140_violated_private",
    "Verif.Identity.C140_violated_public"
   ],
   "note": "Code violates the property: the private key file of ssh-keygen has a PEM block with more than 64 bytes (format openssh-key-v1), which NewIdentity refuses in every run; the public key file has no PEM block, on which NewRemoteIdentity panics. Proved for files that the package has written itself. The PEM decoder is a parameter; of it is used that a block begins at the beginning of a line with -----BEGIN."
  },
  {
   "property": "C141",
   "status": "partial",
   "theorems": [
    "Verif.SizeChange.C141_partial",
    "Verif.SizeChange.C141_accepted",
    "Verif.SizeChange.C141_carried",
    "Verif.SizeChange.C141_reason",
    "Verif.SizeChange.C141_violated"
   ],
   "note": "Code violates the property: the size is compared when the call begins, before the wait for Established. A message that fits the limit then, but not the size that the negotiation finds, is not fragmented any more and is refused. Proved for all calls that begin when the session is Established; C141_reason shows that there is no other reason. Sizes below 25 (C20_hangs) and payloads within 53 bytes of 4 GiB are excluded."
  },
  {
   "property": "C142",
   "status": "partial",
   "theorems": [
    "Verif.ClosedWrite.C142_partial",
    "Verif.ClosedWrite.C142_fails_partial",
    "Verif.ClosedWrite.C142_violated_success",
    "Verif.ClosedWrite.C142_violated_fragments",
    "Verif.ClosedWrite.C142_violated_size",
    "Verif.ClosedWrite.C142_violated_keys"
   ],
   "note": "Code violates the property: after Close of a session that was Established both cases of the selects on the context and on isEstablished are ready. With a SendDelay every message that fits may be put into a buffer that nobody sends, and Write succeeds; so may the write of a fragmented message, since Wait returns at once. A message that fits may also be refused as too big for a packet size of 53, and without keys the error is ErrCanceled. Proved for sessions that were never Established, and, without SendDelay and fragmentation, that there is an error."
  },
  {
   "property": "C143",
   "status": "partial",
   "theorems": [
    "Verif.SizeChange.C143_partial",
    "Verif.SizeChange.C143_violated",
    "Verif.SizeChange.C143_violated_full"
   ],
   "note": "Code violates the property: before the session is established the call waits for that (GetEstablishedPayloadSize), so for ever without the other side; in an established session it waits when the message does not fit beside those in the buffer. Proved for the other calls: they return after two steps."
  },
  {
   "property": "C144",
   "status": "partial",
   "theorems": [
    "Verif.DelayedSend.C144_where_partial",
    "Verif.DelayedSend.C144_sent_partial",
    "Verif.DelayedSend.C144_closer_partial",
    "Verif.DelayedSend.C144_buffer_partial",
    "Verif.DelayedSend.C144_violated",
    "Verif.DelayedSend.C144_violated_all"
   ],
   "note": "Code violates the property: a message that comes into the buffer after the last flush of Close, or when the context has ended, never gets a result, so that the example of README.md waits for ever (Wait also looks at the context, Done does not). Proved: a message without a result is in the buffer or in a packet that is being sent; such a packet gets its result by three steps of the thread that sends it, and the buffer by five of the sender loop while that waits for its timer. Without EnableFragmentation."
  },
  {
   "property": "C145",
   "status": "partial",
   "theorems": [
    "Verif.DelayedSend.C145_partial",
    "Verif.DelayedSend.C145_packets_partial",
    "Verif.DelayedSend.C145_later",
    "Verif.DelayedSend.C145_bound",
    "Verif.DelayedSend.C145_violated"
   ],
   "note": "Code violates the property: messages merged into one packet share one SendInfo and its SendID. Proved for different SendInfo objects, so for messages of different packets, and that a number is not given again (before the 64-bit counter wraps)."
  },
  {
   "property": "C146",
   "status": "partial",
   "theorems": [
    "Verif.Timing.C146_partial",
    "Verif.Timing.C146_violated",
    "Verif.Timing.C146_forgery",
    "Verif.Timing.C146_chosen"
   ],
   "note": "Code violates the property: checksums are compared with bytes.Compare, which stops at the first word that differs. Who holds back one packet that the receiver would accept and measures the time finds a valid checksum for messages of their choice with n * 256^w packets (16 bytes as n words of w bytes: 4096 packets with w = 1, 2^65 with w = 8 as in the assembler version for amd64) instead of 256^16. Proved: a packet whose header checksum is wrong in its first word under all keys takes a time that depends on its length and the number of keys only. Times are sums of costs of the operations; noise is not modelled."
  },
  {
   "property": "C147",
   "status": "partial",
   "theorems": [
    "Verif.Signature.C147_partial",
    "Verif.Signature.C147_rest",
    "Verif.Signature.C147_violated",
    "Verif.Signature.C147_violated_panic",
    "Verif.Signature.C147_violated_empty"
   ],
   "note": "Code violates the property: Sign copies the 64 bytes into whatever slice it gets; with any other length of the slice it reports nothing, and the signature is refused. With a remote identity, which has no private key, it panics. Proved for slices of 64 bytes and identities with a private key."
  },
  {
   "property": "C148",
   "status": "partial",
   "theorems": [
    "Verif.SendCount.C148_partial",
    "Verif.SendCount.C148_all",
    "Verif.SendCount.C148_violated",
    "Verif.SendCount.C148_violated_error"
   ],
   "note": "Code violates the property: for a fragmented message N is always -1, and for merged messages it is -1 when there was an error, whatever the backend has taken. Proved for messages that are not fragmented and were sent without an error or not merged."
  },
  {
   "property": "C149",
   "status": "partial",
   "theorems": [
    "Verif.Order.C149_partial",
    "Verif.Order.C149_sync",
    "Verif.Order.C149_buffered",
    "Verif.Order.C149_violated"
   ],
   "note": "Code violates the property: WriteMessageSingle and the fragments of a big message do not wait for the messages in the buffer, and nothing waits for the fragments of a message written by WriteMessageAsync. Proved exactly which programs are safe: a call that does not wait has to be followed by calls through the buffer only, up to one that waits. In particular programs of waiting calls only, and those where nothing is fragmented and WriteMessageSingle is not used."
  },
  {
   "property": "C150",
   "status": "partial",
   "theorems": [
    "Verif.SizeChange.C150_wait",
    "Verif.SizeChange.C150_waiting",
    "Verif.SizeChange.C150_partial",
    "Verif.SizeChange.C150_small_partial",
    "Verif.SizeChange.C150_violated"
   ],
   "note": "Code violates the property: the size of a message is compared with PayloadSizeLimit before the call waits; if the negotiation finds a smaller size, a message between the two is refused, with fragmentation too. Proved: nothing is sent before Established, with fragmentation no call fails before, and afterwards every other call ends with its message sent, after three steps of the call and the sender loop at most. Sizes below 25 and payloads within 53 bytes of 4 GiB are excluded as in C141."
  },
  {
   "property": "C151",
   "status": "partial",
   "theorems": [
    "Verif.Traffic.C151_exact",
    "Verif.Traffic.C151_partial",
    "Verif.Traffic.C151_violated",
    "Verif.Traffic.C151_violated_steps",
    "Verif.Traffic.C151_violated_witness"
   ],
   "note": "Code violates the property: the first ID is 1, no packet ever has the ID 0, and every received packet of 44 bytes or more and every failed write takes a number too. Proved: the exact numbers for calls that do not overlap; they are 1, 2, 3, \u2026 if nothing is received and nothing fails."
  },
  {
   "property": "C152",
   "status": "partial",
   "theorems": [
    "Verif.SizeGet.C152_partial",
    "Verif.SizeGet.C152_values",
    "Verif.SizeGet.C152_no_panic",
    "Verif.SizeGet.C152_returns",
    "Verif.SizeGet.C152_waits",
    "Verif.SizeGet.C152_packet",
    "Verif.SizeGet.C152_violated",
    "Verif.SizeGet.C152_violated_closed",
    "Verif.SizeGet.C152_violated_new"
   ],
   "note": "Code violates the property: during Closing the size is returned as it is, which before the end of the negotiation is the configured limit; on a closed session both cases of the select can be ready and a call returns the size or zero (GetEstablishedPacketSize: 53); before Start the methods panic. Proved for all calls as long as the session is not closed; otherwise nothing but the result, the limit or zero is returned."
  },
  {
   "property": "C153",
   "status": "proved",
   "theorems": [
    "Verif.EndToEnd.C153_alone",
    "Verif.EndToEnd.C153_like",
    "Verif.EndToEnd.C153_sent"
   ],
   "note": "Messages too big for a packet are refused (C19); payloads of 4 GiB and more are not covered (C19_violated)."
  },
  {
   "property": "C154",
   "status": "partial",
   "theorems": [
    "Verif.Pool.C154_no_crash",
    "Verif.Pool.C154_bytes",
    "Verif.Pool.C154_received",
    "Verif.Pool.C154_appended",
    "Verif.Pool.C154_given",
    "Verif.Pool.C154_delayed",
    "Verif.Pool.C154_read",
    "Verif.Pool.C154_exclusive",
    "Verif.Pool.C154_returned_partial",
    "Verif.Pool.C154_violated"
   ],
   "note": "Code violates the last part of the property: the fragment header of each fragment (session.go:1528), the container header of a packet dropped for its ID (session.go:936-943) and the read item of a message which no channel takes (session.go:1066-1068) or whose reader has a too small buffer (session.go:2171-2173) never return to their pools. Everything else is proved without restriction, and the return of the objects for all other calls."
  },
  {
   "property": "C155",
   "status": "partial",
   "theorems": [
    "Verif.KeyTimer.C155_short_partial",
    "Verif.KeyTimer.C155_long",
    "Verif.KeyTimer.C155_violated"
   ],
   "note": "Code violates the property: the key exchanger does not know of the pause. At the next tick of KeyUpdateInterval it begins an update, nobody reads the answer, and after Timeout it closes the session and reports a time-out. No pause longer than KeyUpdateInterval + Timeout leaves the session open (C155_long). Proved: a pause that begins when no update is under way does no harm until Timeout after the next tick."
  },
  {
   "property": "C156",
   "status": "proved",
   "theorems": [
    "Verif.KeyTimer.C156_noticed",
    "Verif.KeyTimer.C156_reported"
   ],
   "note": "Time passes only when no goroutine of the exchanger has anything to do. In the default mode only answers complete an exchange, in the others every message; messages recorded before count as well (C39)."
  },
  {
   "property": "C157",
   "status": "partial",
   "theorems": [
    "Verif.KeyTimer.C157_partial",
    "Verif.KeyTimer.C157_later_partial",
    "Verif.KeyTimer.C157_violated"
   ],
   "note": "Code violates the property for the key made at the start: the ticker is made when the first exchange is over, and the first tick does not replace a key that nothing has confirmed yet. Proved: at most KeyUpdateInterval + max(KeyUpdateInterval, Timeout) for this key, max(KeyUpdateInterval, Timeout) for all others, which is KeyUpdateInterval with the default options."
  },
  {
   "property": "C158",
   "status": "partial",
   "theorems": [
    "Verif.DelayedSend.C158_never_waits",
    "Verif.DelayedSend.C158_bound_partial",
    "Verif.DelayedSend.C158_alone_partial",
    "Verif.DelayedSend.C158_violated"
   ],
   "note": "Code violates the property: the loop of startClosing goes on as long as it finds messages, and WriteMessageAsync accepts messages after the state is Closing, so writers can keep Close from returning for any number of rounds, and nothing they write is sent. Proved without fragmentation: Close never waits and never writes itself; it makes at most 7 steps, and 4 more for each message added after the call."
  },
  {
   "property": "C159",
   "status": "partial",
   "theorems": [
    "Verif.CloseReport.C159_read_partial",
    "Verif.CloseReport.C159_rest_partial",
    "Verif.CloseReport.C159_violated",
    "Verif.CloseReport.C159_negotiation"
   ],
   "note": "Code violates the property: a retry, an update or an answer of the key exchange that is under way finds that it cannot write any more and reports it, a key message or a ping in the last packet is reported as not handled, and a negotiation that is collecting answers always reports that it was cancelled. Proved: interrupted Reads are never reported, and a session at rest closes silently."
  },
  {
   "property": "C160",
   "status": "partial",
   "theorems": [
    "Verif.Lifecycle.C160_noticed",
    "Verif.Lifecycle.C160_ends_partial",
    "Verif.Lifecycle.C160_start_partial",
    "Verif.Lifecycle.C160_start_over",
    "Verif.Lifecycle.C160_violated",
    "Verif.Lifecycle.C160_start_violated",
    "Verif.Lifecycle.C160_start_never"
   ],
   "note": "Code violates the property: with a context that is cancelled before Start has made its messengers, NewMessenger returns nil and Start crashes the program; a paused session never ends, because SetPause(false) is refused once the session is Closing. Proved: the backend closer always notices, and the session ends if the reader is not at one of the unlucky places of C68."
  },
  {
   "property": "C161",
   "status": "partial",
   "theorems": [
    "Verif.Constructors.C161_identity_partial",
    "Verif.Constructors.C161_others",
    "Verif.Constructors.C161_unsaved",
    "Verif.Constructors.C161_violated",
    "Verif.Constructors.C161_same_keys",
    "Verif.Constructors.C161_same_remote",
    "Verif.Constructors.C161_same_calls"
   ],
   "note": "Code violates the property: NewIdentity returns an identity also with an error, and if the keys could not be generated or loaded it has none, so that using it crashes. Proved: without an error it can be used; with an error it can be used or has no keys at all; the other constructors return nil with an error."
  },
  {
   "property": "C162",
   "status": "partial",
   "theorems": [
    "Verif.Constructors.C162_files_partial",
    "Verif.Constructors.C162_load",
    "Verif.Constructors.C162_violated",
    "Verif.Constructors.C162_violated_remote"
   ],
   "note": "Code violates the property: NewIdentityFromPrivateKey and NewRemoteIdentityFromPublicKey return a pointer to ErrWrongKeyLength, everything else a value, and NewRemoteIdentity never reports ErrCannotLoadKeys. Proved for keys in files, and when NewIdentity reports ErrCannotLoadKeys. How the errors library wraps errors is trusted."
  },
  {
   "property": "C163",
   "status": "proved",
   "theorems": [
    "Verif.Retry.C163_regular",
    "Verif.Retry.C163_gives_up",
    "Verif.Retry.C163_rate",
    "Verif.Retry.C163_success"
   ],
   "note": "Model of the first update of an exchanger; notifications of older keys are left out (the loop drops them and waits on, see C106)."
  },
  {
   "property": "C164",
   "status": "proved",
   "theorems": [
    "Verif.KX.C164_keys",
    "Verif.KX.C164_known",
    "Verif.KX.C164_in_time"
   ],
   "note": "That the signed message is for this session and of now is not part of the property (see C39, C135)."
  },
  {
   "property": "C165",
   "status": "partial",
   "theorems": [
    "Verif.MutualError.C165_no_error",
    "Verif.MutualError.C165_keys_partial",
    "Verif.MutualError.C165_default_silent",
    "Verif.MutualError.C165_only",
    "Verif.MutualError.C165_violated_why",
    "Verif.MutualError.C165_violated_keys"
   ],
   "note": "Code violates the property: the call overwrites the ErrCannotDecrypt of its handler by its own error of Write or Read, and with ErrorOnSequentialDecryptFailsCount 1 or 2 a packet that comes late makes it return keys and an error. With the default value nobody is told at all, because the session detaches after two failures and reports after three. Proved: no error means four keys; with other values than 1 and 2 four keys mean no error; ErrCannotDecrypt is returned only beside keys or for a packet that came after the call had failed for another reason."
  },
  {
   "property": "C166",
   "status": "partial",
   "theorems": [
    "Verif.KX.C166_count_partial",
    "Verif.KX.C166_quick_partial",
    "Verif.KX.C166_disabled",
    "Verif.KX.C166_violated",
    "Verif.KX.C166_violated_witness"
   ],
   "note": "Code violates the property: Handle starts a goroutine for each request, and each waits until its answer is written. While the backend takes nothing (a peer on TCP that does not read), each copy of one signed request adds a goroutine; without a PSK anybody on the way can send such copies. Proved: never more than requests that are not yet answered, at most one if the answers are written before the next message comes, and none in the mode \"disable\"."
  },
  {
   "property": "C167",
   "status": "partial",
   "theorems": [
    "Verif.KX.C167_in_use",
    "Verif.KX.C167_whole",
    "Verif.KX.C167_last_partial",
    "Verif.KX.C167_common_partial",
    "Verif.KX.C167_violated"
   ],
   "note": "Code violates the property: updateSecrets computes the secrets and hands them over without a common lock, so if a message arrives before the first local key is there, the loop and answering goroutines can hand over older secrets after newer ones, and GetEphemeralKeys keeps returning the older. Proved: it always returns the keys in use, all or none, made of keys of this session; and it returns the last ones when key updates do not overlap."
  },
  {
   "property": "C168",
   "status": "partial",
   "theorems": [
    "Verif.Outsider.C168_packet_partial",
    "Verif.Outsider.C168_run_partial",
    "Verif.Outsider.C168_psk_partial",
    "Verif.Outsider.C168_violated",
    "Verif.Outsider.C168_violated_limit",
    "Verif.Outsider.C168_violated_first"
   ],
   "note": "Code violates the property: with the default options one packet that cannot be decrypted, of any content and at any time, ends the session, even with a PSK and a known peer (0 is documented as \"never\", see C98); and as long as the peer is not known and there is no PSK, one unencrypted message of the key exchange with another answers mode and no valid signature closes the session, because the mode is checked first. Proved: a session that knows its peer is ended only by a message with the signature of the peer or by DetachOnSequentialDecryptFailsCount undecryptable packets in a row (0 counts like 1); with a PSK each packet of others is one of the latter kind. C168_violated_limit shows that the option, if set, does what it says, also for outsiders."
  },
  {
   "property": "C169",
   "status": "partial",
   "theorems": [
    "Verif.Reports.C169_kx",
    "Verif.Reports.C169_event_partial",
    "Verif.Reports.C169_packet_partial",
    "Verif.Reports.C169_ping_partial",
    "Verif.Reports.C169_bound",
    "Verif.Reports.C169_violated",
    "Verif.Reports.C169_violated_ping"
   ],
   "note": "Code violates the property: a message of the key exchange with the signature of the peer (or of anybody, while no peer is known) and another answers mode or a key of zeros is given to Error twice, by errFunc and again because Handle returns the same error (key_exchanger.go:367-376, session.go:1076-1078); a ping that cannot be sent is given to Error by sess.error and again by errFunc (negotiator.go:305-309). Proved: exactly the messages that are refused are reported by the key exchanger, those two kinds twice and all others once; everything else at most once; a packet of n bytes causes at most 2*((n-44)/9)+1 calls, whatever it contains."
  },
  {
   "property": "C170",
   "status": "partial",
   "theorems": [
    "Verif.Stall.C170_psk_partial",
    "Verif.Stall.C170_violated",
    "Verif.Stall.C170_violated_later",
    "Verif.Stall.C170_violated_size"
   ],
   "note": "Code violates the property without a PSK, because messages of the negotiation are accepted in packets made without any key (C14): one packet of 59 bytes with the message that the search has ended, read before the first key exchange is completed, blocks the reader at stageChan; the one who would receive from it is started by the reader (onKeyExchangeSuccess), so the session is never Established, and since the reader never ends WaitForClosure does not return either. On a backend where the negotiation is off (TCP) or after its time-out the same packet stops the reader of an Established session. While the negotiation is running an outsider can set the size that the peer seems to have found, down to 0, and so the payload size. Proved: packets whose header tag is right neither under an exchanged key nor under the key made of the PSK make no difference to the negotiation and to the reassembly, in any run; how they can end the session is the subject of C168."
  },
  {
   "property": "C171",
   "status": "partial",
   "theorems": [
    "Verif.Backlog.C171_no_new",
    "Verif.Backlog.C171_partial",
    "Verif.Backlog.C171_closed",
    "Verif.Backlog.C171_ends",
    "Verif.Backlog.C171_violated",
    "Verif.Backlog.C171_violated_handler"
   ],
   "note": "Code violates the property on every backend with SetReadDeadline, such as TCP: closing only moves the deadline for reading and leaves the backend open, so a goroutine of the session that waits in backend.Write (the delayed sender or the key exchanger) waits until the peer reads, and CloseAndWait and WaitForClosure do not return. If it is the reader, in a handler that answers, the session does not even get Closed, and Read does not return. Proved: after Close no write begins, so it is enough that the peer reads as many packets as goroutines are writing at that moment; a backend without deadlines is closed if the reader is in Read, and then no write waits; each goroutine ends within two steps of its own. A backend that has only SetDeadline interrupts writes, too, but only until the reader resets the deadline (example)."
  },
  {
   "property": "C172",
   "status": "partial",
   "theorems": [
    "Verif.KX.C172_between",
    "Verif.KX.C172_update_partial",
    "Verif.KX.C172_origin",
    "Verif.KX.C172_violated"
   ],
   "note": "Code violates the property: an answer makes a key only if there was none (sendPublicKey), so all requests of the peer between two updates of the loop are answered with one and the same key pair, although each of them is an exchange with new shared keys. Proved: every message carries a key made in this session; an update of the loop makes a key, and the request, its retries and all answers until the next update carry it and no other key; if an update was not answered, the next one sends the same key again (example)."
  },
  {
   "property": "C173",
   "status": "partial",
   "theorems": [
    "Verif.DelayedSend.C173_packet",
    "Verif.DelayedSend.C173_together",
    "Verif.DelayedSend.C173_partial",
    "Verif.DelayedSend.C173_timer",
    "Verif.DelayedSend.C173_violated"
   ],
   "note": "Code violates the property: the sender loop does not know of the flushes of onConnect (lastSendID begins with zero), so a request of a writer to send a packet that onConnect has sent already makes the loop send what is in the buffer at once; the next message, which would fit, gets a packet of its own. Proved (no fragmentation): messages accepted while no flush takes the buffer are in one packet, next to each other and in their order, or in none; messages that fit are sent in one packet when the timer expires. In the loop itself such a request is recognised (example). When the timer expires is C126."
  },
  {
   "property": "C174",
   "status": "partial",
   "theorems": [
    "Verif.DelayedSend.C174_partial",
    "Verif.DelayedSend.C174_alone",
    "Verif.DelayedSend.C174_violated"
   ],
   "note": "Code violates the property: waiting calls do not queue up; when a packet was taken, the call that enters the critical section first gets the room. Whatever the packet size, for two messages that do not fit into one packet there is for every number k an execution in which a call waits while k packets with messages of later calls are sent (induction on k). Proved (no fragmentation): a call that tries again is not refused, and has its message accepted at once unless messages accepted since the previous packet was taken leave no room; with nobody else writing it is accepted after one flush by the timer."
  },
  {
   "property": "C175",
   "status": "partial",
   "theorems": [
    "Verif.Lifecycle.C175_partial",
    "Verif.Lifecycle.C175_silent_partial",
    "Verif.Lifecycle.C175_violated"
   ],
   "note": "Code violates the property: Closed is set by the reader before it resets the deadline and without waiting for others. The negotiation that ends afterwards calls OnConnect; the backend closer may put the read deadline into the past, or, for a backend without deadlines, close the backend, of a session that is Closed. Proved: Closed stays, the backend is not read and none of its errors is reported, Start and Close do not succeed, OnConnect is called at most once and only if it was not before; and nothing at all happens once the reader, the backend closer and the negotiation have finished and no SetPause(true) is about to interrupt, whatever is called. Nothing is written: C61; after WaitForClosure: C125."
  },
  {
   "property": "C176",
   "status": "proved",
   "theorems": [
    "Verif.KX.C176_disable",
    "Verif.KX.C176_wait",
    "Verif.KX.C176_dont_wait",
    "Verif.KX.C176_answer"
   ],
   "note": "Over whole executions; one message at a time: C41; at most one answer for each request: C129. That a late answer also counts is C138. Any number other than 0 to 3 is taken for Answer (example)."
  },
  {
   "property": "C177",
   "status": "partial",
   "theorems": [
    "Verif.Setup.C177_partial",
    "Verif.Setup.C177_probe",
    "Verif.Setup.C177_packets_partial",
    "Verif.Setup.C177_untouched",
    "Verif.Setup.C177_violated"
   ],
   "note": "Code violates the property: setupBackend knows the type *net.UDPConn only, while IsLossyWriter also takes any type with a UDP address for UDP; for these (wrappers of a connection) the size is negotiated with datagrams that may be fragmented, so that any size is found to be good. If setting the option fails and there is no event handler, nobody is told. Proved for *net.UDPConn and all packets with messages of the user; what the operating system does with the option is not modelled."
  },
  {
   "property": "C178",
   "status": "partial",
   "theorems": [
    "Verif.Contents.C178_partial",
    "Verif.Contents.C178_session_partial",
    "Verif.Contents.C178_sizes",
    "Verif.Contents.C178_violated",
    "Verif.Contents.C178_violated_hidden",
    "Verif.Contents.C178_violated_ids"
   ],
   "note": "Code violates the property for what is encrypted with the key made of the PSK: its nonce is the packet ID alone, so of two packets with one ID (of two sessions, or of the two peers) each byte of one follows from that byte of the other; and packet IDs are all encrypted with one key and a nonce of zeros, so with the first packet (ID 1) every ID can be read. Proved for packets with pairwise different keys or nonces, hence for all that a session encrypts with exchanged keys. The key stream is an arbitrary function: that XChaCha20 looks like one is assumed, and side channels (timing, sizes over time) are not modelled. Without a PSK the key exchange is in plain text."
  },
  {
   "property": "C179",
   "status": "partial",
   "theorems": [
    "Verif.Negotiator.C179_partial",
    "Verif.Negotiator.C179_sizes",
    "Verif.Negotiator.C179_second",
    "Verif.Negotiator.C179_violated",
    "Verif.Negotiator.C179_violated_sizes"
   ],
   "note": "Code violates the property: four sizes are sent in each round (both ends of the interval are among them). When the second greatest of them makes the round trip in a later round, the upper end is doubled, up to the limit, so with default settings on a path for 976 bytes without any loss the third interval (840 to 1392) is longer than the second (562 to 979). Proved: each interval is at most a third of the one before (and 2 more) if it reached up to the limit, which the first one does, or if what was found was not among the greatest sizes."
  },
  {
   "property": "C180",
   "status": "proved",
   "theorems": [
    "Verif.Mutual.C180_call",
    "Verif.Mutual.C180_net"
   ],
   "note": "The hypothesis that tags do not verify under another key is about the concrete packets of the execution; it is the usual assumption about the cipher and the MAC, which are parameters of the model."
  },
  {
   "property": "C181",
   "status": "partial",
   "theorems": [
    "Verif.KX.C181_partial",
    "Verif.KX.C181_first",
    "Verif.KX.C181_violated"
   ],
   "note": "Code violates the property from the second exchange on: the second key is made of the recent local and the previous remote key, the third of the previous local and the recent remote key, so that they are interchanged on the other side. Proved: the four keys are the same up to this order, and the lists are equal after the first exchange. Overlapping updates are excluded (C35_violated)."
  },
  {
   "property": "C182",
   "status": "proved",
   "theorems": [
    "Verif.Receive.C182_no_trace",
    "Verif.Receive.C182_count",
    "Verif.Receive.C182_twice",
    "Verif.Receive.C182_repeats"
   ],
   "note": "The keys and handlers at the time of each packet are arbitrary, but the same in both runs; copies that arrive later are the subject of C01 and C02."
  },
  {
   "property": "C183",
   "status": "partial",
   "theorems": [
    "Verif.Receive.C183_effects",
    "Verif.Receive.C183_partial",
    "Verif.Receive.C183_violated"
   ],
   "note": "Code violates the property with the default options: DetachOnSequentialDecryptFailsCount = 0 detaches at the first undecryptable packet (C47), and nothing that comes after it is received. Proved without restriction for the packets up to the end of the loop, and that the loop does not end as long as fewer packets in a row than the option says cannot be decrypted."
  }
 ]
}