{
 "claims": [
  {
   "property": "C01",
   "status": "proved",
   "theorems": [
    "Picoquic.Props.C01_varint_roundtrip"
   ],
   "note": "Both encoder and decoder families, all integers below 2^62, all rooms and continuations."
  },
  {
   "property": "C02",
   "status": "proved",
   "theorems": [
    "Picoquic.Props.C02_varint_decoders",
    "Picoquic.Props.C02_fixed_decoders",
    "Picoquic.Props.C02_cid_decode_needs_cleared_destination"
   ],
   "note": "Exact characterisation of each basic decoder; the CID decoder requires the destination length to be cleared, as its callers do."
  },
  {
   "property": "C03",
   "status": "proved",
   "theorems": [
    "Picoquic.Props.C03_fixed_roundtrip",
    "Picoquic.Props.C03_cid_roundtrip",
    "Picoquic.Props.C03_hexa_roundtrip",
    "Picoquic.Props.C03_hexa_rejects",
    "Picoquic.Props.C03_hexa_digits"
   ],
   "note": ""
  },
  {
   "property": "C04",
   "status": "proved",
   "theorems": [
    "Picoquic.Props.C04_splay_is_ordered_collection",
    "Picoquic.Props.C04_empty_tree",
    "Picoquic.Props.C04_diff_comparator",
    "Picoquic.Props.C04_wake_comparator",
    "Picoquic.Props.C04_token_comparator"
   ],
   "note": "Histories of insert, find, find_previous, delete, delete_hint, first, last, next, previous."
  },
  {
   "property": "C05",
   "status": "proved",
   "theorems": [
    "Picoquic.Props.C05_sack_is_received_set"
   ],
   "note": ""
  },
  {
   "property": "C06",
   "status": "partial",
   "theorems": [
    "Picoquic.Props.C06_duplicate_detection_violated",
    "Picoquic.Props.C06_duplicate_detection_partial"
   ],
   "note": "The code violates the property: acknowledged ACK ranges are forgotten, so their packets would be accepted again. Negation proved on a witness, and what holds is proved."
  },
  {
   "property": "C41",
   "status": "partial",
   "theorems": [
    "Picoquic.Props.C41_varint_too_large_violated"
   ],
   "note": "Violated: every such value is encoded as its remainder modulo 2^62."
  },
  {
   "property": "C42",
   "status": "proved",
   "theorems": [
    "Picoquic.Props.C42_constant_time_memcmp"
   ],
   "note": ""
  },
  {
   "property": "C43",
   "status": "proved",
   "theorems": [
    "Picoquic.Props.C43_range_counters_exact",
    "Picoquic.Props.C43_range_counters_in_bounds"
   ],
   "note": ""
  },
  {
   "property": "C18",
   "status": "proved",
   "theorems": [
    "Picoquic.Props.C18_packet_number_recovered",
    "Picoquic.Props.C18_nearest",
    "Picoquic.Props.C18_sender_length_sufficient",
    "Picoquic.Props.C18_short_header_end_to_end"
   ],
   "note": ""
  },
  {
   "property": "C22",
   "status": "proved",
   "theorems": [
    "Picoquic.Props.C22_hash_table_is_keyed_collection"
   ],
   "note": ""
  },
  {
   "property": "C44",
   "status": "proved",
   "theorems": [
    "Picoquic.Props.C44_header_protection_roundtrip"
   ],
   "note": ""
  },
  {
   "property": "C25",
   "status": "partial",
   "theorems": [
    "Picoquic.Props.C25_rate_bound",
    "Picoquic.Props.C25_bytes_bound",
    "Picoquic.Props.C25_wait_is_enough_partial",
    "Picoquic.Props.C25_room_for_one_packet",
    "Picoquic.Props.C25_zero_rtt_blocks_violated"
   ],
   "note": "Rate bound proved in full. Progress (waiting until the announced time is enough) holds if a packet fits in the bucket; it fails when the smoothed RTT is zero, which is proved as C25_zero_rtt_blocks_violated."
  },
  {
   "property": "C26",
   "status": "proved",
   "theorems": [
    "Picoquic.Props.C26_window_at_least_minimum",
    "Picoquic.Props.C26_only_losses_decrease",
    "Picoquic.Props.C26_loss_halves",
    "Picoquic.Props.C26_one_reduction_per_round"
   ],
   "note": "Windows as natural numbers; results of the floating point window estimates are arbitrary inputs."
  },
  {
   "property": "C27",
   "status": "proved",
   "theorems": [
    "Picoquic.Props.C27_rtt_within_samples",
    "Picoquic.Props.C27_sample_bounds"
   ],
   "note": "Statistics as natural numbers."
  },
  {
   "property": "C28",
   "status": "partial",
   "theorems": [
    "Picoquic.Props.C28_backoff_monotone_partial",
    "Picoquic.Props.C28_backoff_limits",
    "Picoquic.Props.C28_backoff_decreases_violated"
   ],
   "note": "The code violates the property in two cases (proved); it holds outside of these cases. Limits proved in full."
  },
  {
   "property": "C10",
   "status": "proved",
   "theorems": [
    "Picoquic.Props.C10_delivered_bytes_were_received",
    "Picoquic.Props.C10_delivers_a_prefix",
    "Picoquic.Props.C10_never_moves_backwards",
    "Picoquic.Props.C10_delivers_up_to_first_missing"
   ],
   "note": "Callback delivery; the direct receive function is not modelled."
  },
  {
   "property": "C11",
   "status": "proved",
   "theorems": [
    "Picoquic.Props.C11_fin_at_most_once",
    "Picoquic.Props.C11_no_data_after_fin",
    "Picoquic.Props.C11_fin_exactly_when_complete"
   ],
   "note": ""
  },
  {
   "property": "C12",
   "status": "partial",
   "theorems": [
    "Picoquic.Props.C12_final_size_violated",
    "Picoquic.Props.C12_after_fin_partial",
    "Picoquic.Props.C12_after_reset_partial"
   ],
   "note": "The code violates the property in three cases (proved on witnesses); what holds after a FIN and after a RESET_STREAM is proved."
  },
  {
   "property": "C13",
   "status": "proved",
   "theorems": [
    "Picoquic.Props.C13_frame_past_stream_limit",
    "Picoquic.Props.C13_reset_past_stream_limit",
    "Picoquic.Props.C13_delivered_within_stream_limit"
   ],
   "note": "A frame that also contradicts a known final size gives FINAL_SIZE_ERROR instead."
  },
  {
   "property": "C14",
   "status": "proved",
   "theorems": [
    "Picoquic.Props.C14_total_is_sum_of_highest",
    "Picoquic.Props.C14_delivered_within_connection_limit",
    "Picoquic.Props.C14_frame_past_connection_limit"
   ],
   "note": ""
  },
  {
   "property": "C16",
   "status": "proved",
   "theorems": [
    "Picoquic.Props.C16_learned_limits",
    "Picoquic.Props.C16_announced_limits"
   ],
   "note": "Histories within stated bounds (amounts below 2^57, fewer than 2^50 events)."
  },
  {
   "property": "C33",
   "status": "partial",
   "theorems": [
    "Picoquic.Props.C33_streams_open_in_order",
    "Picoquic.Props.C33_server_stream_limit_partial",
    "Picoquic.Props.C33_client_stream_limit_partial",
    "Picoquic.Props.C33_client_stream_limit_violated",
    "Picoquic.Props.C33_zero_limit_violated",
    "Picoquic.Props.C33_unopened_local_stream_partial",
    "Picoquic.Props.C33_unopened_local_stream_violated"
   ],
   "note": "Creation in order and exactly once proved in full. The limit is right for a server; a client refuses the last stream it allows, an announced count of zero disables the limit, and the error for unopened local streams is STREAM_LIMIT_ERROR: each proved as a violation."
  },
  {
   "property": "C34",
   "status": "partial",
   "theorems": [
    "Picoquic.Props.C34_stream_count_partial",
    "Picoquic.Props.C34_count_bound",
    "Picoquic.Props.C34_zero_parameter_violated",
    "Picoquic.Props.C34_absent_parameter_violated",
    "Picoquic.Props.C34_zero_frame_violated"
   ],
   "note": "Proved for counts of at least one; the code is wrong for zero, proved as violations."
  },
  {
   "property": "C17",
   "status": "proved",
   "theorems": [
    "Picoquic.Props.C17_stream_frame_fits",
    "Picoquic.Props.C17_stream_frame_decoder",
    "Picoquic.Props.C17_stream_frame_roundtrip"
   ],
   "note": "For spaces up to 16384 bytes; packets have at most 1536. Identifiers and offsets below 2^62, as in the protocol."
  },
  {
   "property": "C15",
   "status": "proved",
   "theorems": [
    "Picoquic.Props.C15_flow_control"
   ],
   "note": "Send side of streams: every frame and the total stay within the largest limits received."
  },
  {
   "property": "C39",
   "status": "partial",
   "theorems": [
    "Picoquic.Props.C39_best_stream_partial",
    "Picoquic.Props.C39_reset_active_violated"
   ],
   "note": "Proved for uses of the API within OpOk and non-zero stream limits. Violated when a stream marked active is reset: it is chosen again after the RESET_STREAM frame."
  },
  {
   "property": "C46",
   "status": "partial",
   "theorems": [
    "Picoquic.Props.C46_fin_partial",
    "Picoquic.Props.C46_fin_without_credit_violated"
   ],
   "note": "Violated: a FIN without data waits for flow control credit. Proved with one byte of credit."
  },
  {
   "property": "C47",
   "status": "partial",
   "theorems": [
    "Picoquic.Props.C47_found_partial",
    "Picoquic.Props.C47_zero_limit_violated"
   ],
   "note": "Proved within OpOk and non-zero stream limits. Violated for a stream created while the limit is zero."
  },
  {
   "property": "C48",
   "status": "proved",
   "theorems": [
    "Picoquic.Props.C48_stream_bytes"
   ],
   "note": "For packets of up to 16384 bytes (packets have at most 1536)."
  },
  {
   "property": "C49",
   "status": "partial",
   "theorems": [
    "Picoquic.Props.C49_fin_partial",
    "Picoquic.Props.C49_write_after_fin_violated",
    "Picoquic.Props.C49_data_after_fin_violated",
    "Picoquic.Props.C49_refused_fin_violated"
   ],
   "note": "Proved if the application writes nothing after FIN and does not ask for FIN in a failing call; three violations otherwise."
  },
  {
   "property": "C50",
   "status": "partial",
   "theorems": [
    "Picoquic.Props.C50_packet_loop_ends_partial",
    "Picoquic.Props.C50_reset_active_violated",
    "Picoquic.Props.C50_discard_violated",
    "Picoquic.Props.C50_lowered_limit_violated"
   ],
   "note": "Proved under conditions that exclude the endless loops shown by the three violations."
  },
  {
   "property": "C07",
   "status": "partial",
   "theorems": [
    "Picoquic.Props.C07_ack_frame_partial",
    "Picoquic.Props.C07_multipath_ecn_violated"
   ],
   "note": "Proved for all frames but those of the multipath extension with ECN counts. There, if the counts do not fit, a corrupted type is sent, which parses as an ACK of a packet never received: proved. That a picoquic peer accepts the frame follows with C08_ack_checks_partial."
  },
  {
   "property": "C08",
   "status": "partial",
   "theorems": [
    "Picoquic.Props.C08_ack_checks_partial",
    "Picoquic.Props.C08_unsent_violated"
   ],
   "note": "Ranges below zero and numbers not yet used are rejected in all cases. Violated for skipped numbers when the largest number is not new, and for numbers below a random first number."
  },
  {
   "property": "C09",
   "status": "partial",
   "theorems": [
    "Picoquic.Props.C09_ack_removes_partial",
    "Picoquic.Props.C09_late_range_violated"
   ],
   "note": "Only named packets are removed, for all frames; all named packets are removed if the largest number is new. Violated otherwise: packets named late stay in flight."
  },
  {
   "property": "C51",
   "status": "proved",
   "theorems": [
    "Picoquic.Props.C51_bytes_in_transit"
   ],
   "note": "One packet number space on one path."
  },
  {
   "property": "C52",
   "status": "partial",
   "theorems": [
    "Picoquic.Props.C52_range_selection_partial",
    "Picoquic.Props.C52_range_selection_violated"
   ],
   "note": "Proved except when fewer than 32 ranges were reported fewer than four times; then a new range may be left out, proved as a violation."
  },
  {
   "property": "C19",
   "status": "proved",
   "theorems": [
    "Picoquic.Props.C19_skip_in_bounds",
    "Picoquic.Props.C19_skip_exact",
    "Picoquic.Props.C19_skip_sound",
    "Picoquic.Props.C19_skip_agrees_with_decoder",
    "Picoquic.Props.C19_closing_scan"
   ],
   "note": "The skipper does not check all the content of ACK and BDP frames (it accepts more than the decoder); the end of a frame is the same wherever both accept. For frames of extensions that are not negotiated the decoder refuses but goes on within the frame: see C53."
  },
  {
   "property": "C53",
   "status": "partial",
   "theorems": [
    "Picoquic.Props.C53_payload_unique",
    "Picoquic.Props.C53_decode_terminates",
    "Picoquic.Props.C53_payload_processed",
    "Picoquic.Props.C53_frames_in_order_partial",
    "Picoquic.Props.C53_frames_in_order",
    "Picoquic.Props.C53_frames_in_order_violated",
    "Picoquic.Props.C53_malformed_ack_accepted_violated"
   ],
   "note": "Proved for all payloads but for frames of extensions that are not negotiated, whose fields are then read as frames, and malformed ACKs for unknown paths: both proved as violations. In full for Initial, Handshake and 0-RTT packets."
  },
  {
   "property": "C54",
   "status": "partial",
   "theorems": [
    "Picoquic.Props.C54_inadmissible_frame_closes_partial",
    "Picoquic.Props.C54_wrong_packet_refused",
    "Picoquic.Props.C54_inadmissible_frame_closes_violated"
   ],
   "note": "Violated only for IMMEDIATE_ACK at the end of a packet, which is ignored whether negotiated or not."
  },
  {
   "property": "C55",
   "status": "partial",
   "theorems": [
    "Picoquic.Props.C55_ack_scheduled_partial",
    "Picoquic.Props.C55_ack_scheduled_violated",
    "Picoquic.Props.C55_probing_packets",
    "Picoquic.Props.C55_refused_packet"
   ],
   "note": "Probing packets in full. Violated for packets with PATH_CHALLENGE or PATH_RESPONSE only, for which no ACK is scheduled."
  },
  {
   "property": "C56",
   "status": "proved",
   "theorems": [
    "Picoquic.Props.C56_formatter_writes_frame",
    "Picoquic.Props.C56_written_frame_received",
    "Picoquic.Props.C56_crypto_frame"
   ],
   "note": "26 frame formatters and CRYPTO; STREAM is C17, ACK is C07."
  },
  {
   "property": "C57",
   "status": "partial",
   "theorems": [
    "Picoquic.Props.C57_malformed_frame_closes_partial",
    "Picoquic.Props.C57_malformed_frame_not_accepted",
    "Picoquic.Props.C57_malformed_frame_closes_violated"
   ],
   "note": "Violated for STREAM, ACK_FREQUENCY, TIME_STAMP, the ranges of ACK, and truncated frame types: the packet is dropped without an error."
  },
  {
   "property": "C21",
   "status": "partial",
   "theorems": [
    "Picoquic.Props.C21_terminates_partial",
    "Picoquic.Props.C21_outcome_partial",
    "Picoquic.Props.C21_rejected_partial",
    "Picoquic.Props.C21_legal_accepted_partial",
    "Picoquic.Props.acceptable_of_legal",
    "Picoquic.Props.C21_terminates_violated",
    "Picoquic.Props.C21_repeated_violated",
    "Picoquic.Props.C21_exponent_violated",
    "Picoquic.Props.C21_max_ack_delay_violated",
    "Picoquic.Props.C21_stream_count_violated",
    "Picoquic.Props.C21_preferred_address_violated",
    "Picoquic.Props.C21_skipped_violated"
   ],
   "note": "Proved for every extension: the outcome is a transport error, an acceptable extension, or the silent stop after version information that asks for an unreachable version. The full property is false: a server loops forever when a client of another version than 1 lists version 2; repeated types from 64 up, exponents over 20, stream counts over 2^60, a max_ack_delay of 2^14 and an empty preferred address are accepted."
  },
  {
   "property": "C20",
   "status": "partial",
   "theorems": [
    "Picoquic.Props.C20_roundtrip_partial",
    "Picoquic.Props.C20_preferred_port_violated"
   ],
   "note": "For all legal settings the peer accepts the extension and reads every value that was set. Violated for a preferred address whose two ports differ: the IPv4 port is sent twice."
  },
  {
   "property": "C58",
   "status": "partial",
   "theorems": [
    "Picoquic.Props.C58_idle_timeout_partial",
    "Picoquic.Props.C58_idle_timeout_violated"
   ],
   "note": "Proved for values below 2^64 microseconds; larger ones, which are legal, wrap."
  },
  {
   "property": "C59",
   "status": "proved",
   "theorems": [
    "Picoquic.Props.C59_options_agree"
   ],
   "note": "Both extensions are written by the model of the code from arbitrary legal settings; the packets and TLS messages that carry them are not modelled."
  },
  {
   "property": "C23",
   "status": "partial",
   "theorems": [
    "Picoquic.Props.C23_roundtrip",
    "Picoquic.Props.C23_room",
    "Picoquic.Props.C23_in_bounds",
    "Picoquic.Props.C23_file_partial",
    "Picoquic.Props.C23_file_violated",
    "Picoquic.Props.C23_file_too_large"
   ],
   "note": "Round trip and bounds in full. Files: proved for records of up to 2016 bytes; violated for records of 2017 to 2048 bytes, which are written but make the whole file unreadable."
  },
  {
   "property": "C24",
   "status": "proved",
   "theorems": [
    "Picoquic.Props.C24_get",
    "Picoquic.Props.C24_once",
    "Picoquic.Props.C24_newest"
   ],
   "note": "Histories of store, get and restart (save and load) at non-decreasing times, from an empty store, with records that a file can hold."
  },
  {
   "property": "C30",
   "status": "partial",
   "theorems": [
    "Picoquic.Props.C30_not_lost_partial",
    "Picoquic.Props.C30_same_bytes",
    "Picoquic.Props.C30_writes",
    "Picoquic.Props.C30_progress",
    "Picoquic.Props.C30_violated"
   ],
   "note": "Every position sent in a frame with data is acknowledged, in flight or queued, for all histories. False for a FIN sent in a frame without data: C30_violated gives a history in which it is dropped (frames.c 2075-2080 with 2128). Packets marked as preemptively repeated are not modelled."
  },
  {
   "property": "C35",
   "status": "partial",
   "theorems": [
    "Picoquic.Props.C35_violated",
    "Picoquic.Props.C35_urgent_waits",
    "Picoquic.Props.C35_gate_partial"
   ],
   "note": "The comparator of the queue reads the wrong fields (frames.c 1888-1916 called with packets instead of nodes): the order does not depend on priorities. Only the limit on priorities works."
  },
  {
   "property": "C31",
   "status": "partial",
   "theorems": [
    "Picoquic.Props.C31_one_to_one",
    "Picoquic.Props.C31_conflict",
    "Picoquic.Props.C31_repeat",
    "Picoquic.Props.C31_not_below_partial",
    "Picoquic.Props.C31_first_tuple_partial",
    "Picoquic.Props.C31_not_dangling_partial",
    "Picoquic.Props.C31_late_violated",
    "Picoquic.Props.C31_old_tuple_violated",
    "Picoquic.Props.C31_repeat_violated",
    "Picoquic.Props.C31_dangling_violated",
    "Picoquic.Props.C31_deleted_tuple_violated"
   ],
   "note": "One stash, without multipath. One-to-one, conflicts and repetitions of stored IDs in full. False: IDs announced after the frame that retires them and IDs on other address tuples stay in use below 'retire prior to'; a retired ID announced again is used again, and the acknowledgement of the earlier RETIRE_CONNECTION_ID frame then frees it while in use. The partial theorems hold for histories without such frames."
  },
  {
   "property": "C32",
   "status": "partial",
   "theorems": [
    "Picoquic.Props.C32_retire_partial",
    "Picoquic.Props.C32_own_partial",
    "Picoquic.Props.C32_repeat",
    "Picoquic.Props.C32_unknown_violated",
    "Picoquic.Props.C32_tuple_violated",
    "Picoquic.Props.C32_tuple_own_violated"
   ],
   "note": "Without multipath. Retirement of exactly one ID for packets on the first address tuple; repetitions in full. False: a sequence number never issued is ignored without error; on another tuple the wrong connection ID is taken for the destination of the packet (frames.c 708-714 with first_tuple)."
  },
  {
   "property": "C60",
   "status": "proved",
   "theorems": [
    "Picoquic.Props.C60_routing",
    "Picoquic.Props.C60_unique",
    "Picoquic.Props.C60_numbers"
   ],
   "note": "One list per connection (no multipath), non-empty connection IDs, the table as proved for the hash table. All histories of opening, issuing, retiring and deleting."
  },
  {
   "property": "C61",
   "status": "proved",
   "theorems": [
    "Picoquic.Props.C61_limit"
   ],
   "note": "For each NEW_CONNECTION_ID frame in every history."
  },
  {
   "property": "C62",
   "status": "partial",
   "theorems": [
    "Picoquic.Props.C62_supply_partial",
    "Picoquic.Props.C62_large_violated"
   ],
   "note": "At least min(limit, 9) known IDs when there is room and proposals are unused. False for a limit of 2^31 or more (cast to int, sender.c 2580). Not shown: that these are not yet to be retired."
  },
  {
   "property": "C37",
   "status": "partial",
   "theorems": [
    "Picoquic.Props.C37_validated",
    "Picoquic.Props.C37_verified",
    "Picoquic.Props.C37_echo",
    "Picoquic.Props.C37_answer_partial",
    "Picoquic.Props.C37_overwritten_violated",
    "Picoquic.Props.C37_failed_violated",
    "Picoquic.Props.C37_demoted_violated",
    "Picoquic.Props.C37_unsent_accepted",
    "Picoquic.Props.C37_new_address_challenged",
    "Picoquic.Props.C37_suspended_challenged_partial",
    "Picoquic.Props.C37_suspended_violated"
   ],
   "note": "Validation proved in full. Answers: proved when no ICMP message was received, the validation of the address has not failed and no other challenge replaces the first one; false otherwise, proved as violations. One path with any number of address tuples; multipath is not modelled here."
  },
  {
   "property": "C63",
   "status": "partial",
   "theorems": [
    "Picoquic.Props.C63_partial",
    "Picoquic.Props.C63_violated"
   ],
   "note": "Proved for histories without ICMP messages; false with them."
  },
  {
   "property": "C36",
   "status": "proved",
   "theorems": [
    "Picoquic.Props.C36_content_exact",
    "Picoquic.Props.C36_received",
    "Picoquic.Props.C36_queue_in_order",
    "Picoquic.Props.C36_accepted_iff",
    "Picoquic.Props.C36_too_large_rejected",
    "Picoquic.Props.C36_reported_exact"
   ],
   "note": "Histories of all queue and ready calls and packet preparations, in both encodings; receiver through the model of picoquic_decode_frames."
  },
  {
   "property": "C38",
   "status": "partial",
   "theorems": [
    "Picoquic.Props.C38_in_order",
    "Picoquic.Props.C38_in_payload",
    "Picoquic.Props.C38_placed",
    "Picoquic.Props.C38_blocked_violated"
   ],
   "note": "Order, integrity and uniqueness in full, for all histories. False for progress: a frame longer than the packets is accepted and blocks all later ones of its context. Frames for Initial and Handshake packets are dropped when the connection is ready."
  },
  {
   "property": "C64",
   "status": "partial",
   "theorems": [
    "Picoquic.Props.C64_written_partial",
    "Picoquic.Props.C64_queued_violated",
    "Picoquic.Props.C64_written_violated"
   ],
   "note": "The queue interface does not check the limit of the peer; the ready interface compares the content instead of the frame."
  },
  {
   "property": "C65",
   "status": "partial",
   "theorems": [
    "Picoquic.Props.C65_sent_partial",
    "Picoquic.Props.C65_blocked_violated"
   ],
   "note": "False for a datagram of 1200 bytes when packets have less than 1203 bytes of room."
  },
  {
   "property": "C40",
   "status": "partial",
   "theorems": [
    "Picoquic.Props.C40_ack_frequency",
    "Picoquic.Props.C40_ack_frequency_any_order",
    "Picoquic.Props.C40_no_frame",
    "Picoquic.Props.C40_accepted",
    "Picoquic.Props.C40_path_status",
    "Picoquic.Props.C40_max_path_id",
    "Picoquic.Props.C40_immediate_partial",
    "Picoquic.Props.C40_immediate_accepted",
    "Picoquic.Props.C40_immediate_pending_violated",
    "Picoquic.Props.C40_immediate_last_violated",
    "Picoquic.Props.C40_multipath_violated"
   ],
   "note": "Settings in force: proved in full for ACK_FREQUENCY, path status (without changes made locally) and MAX_PATH_ID, for all histories. IMMEDIATE_ACK: proved when no acknowledgement is pending or in multipath, and the frame is not the last of the packet; false otherwise, and in multipath it stays in effect after it was answered, proved as violations."
  },
  {
   "property": "C66",
   "status": "proved",
   "theorems": [
    "Picoquic.Props.C66_deadline",
    "Picoquic.Props.C66_gap"
   ],
   "note": "For all histories, with and without multipath; acknowledgements on the nominal path, for a fixed list of paths. The gap is at least 2, as in the code, and counts packet numbers."
  },
  {
   "property": "C29",
   "status": "partial",
   "theorems": [
    "Picoquic.Props.C29_needed_partial",
    "Picoquic.Props.C29_stream_partial",
    "Picoquic.Props.C29_only",
    "Picoquic.Props.C29_obsolete",
    "Picoquic.Props.C29_reset_violated",
    "Picoquic.Props.C29_max_path_id_violated",
    "Picoquic.Props.C29_paths_blocked_violated",
    "Picoquic.Props.C29_ack_frequency_violated"
   ],
   "note": "For all histories and all contents of the lost packet: frames still needed are queued again, in order, and only these. False for RESET_STREAM (read at the wrong place), MAX_PATH_ID and PATHS_BLOCKED (never repeated) and ACK_FREQUENCY (condition inverted), proved as violations. Histories where acknowledged packets have frames which the ack parsers misread are excluded, see C67."
  },
  {
   "property": "C67",
   "status": "partial",
   "theorems": [
    "Picoquic.Props.C67_unrelated_partial",
    "Picoquic.Props.C67_acked_partial",
    "Picoquic.Props.C67_violated"
   ],
   "note": "Proved for packets without the five frames whose acknowledgement is parsed at the wrong place (MAX_PATH_ID, PATHS_BLOCKED, PATH_CID_BLOCKED, OBSERVED_ADDRESS, PATH_RETIRE_CONNECTION_ID); false for these."
  },
  {
   "property": "C45",
   "status": "partial",
   "theorems": [
    "Picoquic.Props.C45_credit_partial",
    "Picoquic.Props.C45_announced_partial",
    "Picoquic.Props.C45_reset_violated",
    "Picoquic.Props.C45_early_violated"
   ],
   "note": "For all histories, each stream finished on both sides with all its data received is counted once, only finished streams are counted, and the announced limit stays above the completed streams by half of the initial allowance. False for a stream reset before all its data arrived (never counted), and a FIN ahead of a gap is counted early."
  },
  {
   "property": "C68",
   "status": "partial",
   "theorems": [
    "Picoquic.Props.C68_server_id",
    "Picoquic.Props.C68_servers_differ",
    "Picoquic.Props.C68_random_kept",
    "Picoquic.Props.C68_first_byte",
    "Picoquic.Props.C68_clear",
    "Picoquic.Props.C68_other_length",
    "Picoquic.Props.C68_text",
    "Picoquic.Props.C68_default_length_violated",
    "Picoquic.Props.C68_long_server_id_violated"
   ],
   "note": "Proved for every accepted configuration, with AES an arbitrary invertible function of blocks of 16 bytes. False in two places: a text that leaves out the length is accepted but can never be configured, and a server ID of 17 or more bytes with the method clear is written out of the bounds of its array."
  },
  {
   "property": "C69",
   "status": "partial",
   "theorems": [
    "Picoquic.Props.C69_datagram",
    "Picoquic.Props.C69_protect_total",
    "Picoquic.Props.C69_wire",
    "Picoquic.Props.C69_duplicate_violated"
   ],
   "note": "Proved for all datagrams of at most 1536 bytes, with arbitrary ciphers, including keys which become known while the datagram is processed. False for a packet received before: it makes the receiver drop the rest of the datagram."
  },
  {
   "property": "C70",
   "status": "partial",
   "theorems": [
    "Picoquic.Props.C70_header_in_bounds",
    "Picoquic.Props.C70_memory_partial",
    "Picoquic.Props.C70_memory_violated",
    "Picoquic.Props.C70_delivered_authentic",
    "Picoquic.Props.C70_terminates",
    "Picoquic.Props.C70_stateless_reset"
   ],
   "note": "Bounds, termination, authenticity and stateless resets proved for arbitrary datagrams and states. Memory safety proved for datagrams of at most 1536 bytes; a longer one which begins like a version negotiation packet overflows the buffer."
  },
  {
   "property": "C71",
   "status": "partial",
   "theorems": [
    "Picoquic.Props.C71_in_buffer_partial",
    "Picoquic.Props.C71_train",
    "Picoquic.Props.C71_mtu",
    "Picoquic.Props.C71_ends",
    "Picoquic.Props.C71_small_buffer_violated",
    "Picoquic.Props.C71_probe_violated"
   ],
   "note": "Model of the two loops of picoquic_prepare_packet_ex for arbitrary contents of the segments. Proved: train cutting, MTU, termination; no overrun for buffers of at least the MTU without probes in trains, or with 1-RTT packets only. Proved violated: buffers of 1200 bytes up to the MTU are accepted and are overrun by coalesced packets; and after an MTU probe in a train."
  },
  {
   "property": "C73",
   "status": "proved",
   "theorems": [
    "Picoquic.Props.C73_validated",
    "Picoquic.Props.C73_once",
    "Picoquic.Props.C73_required",
    "Picoquic.Props.C73_ports",
    "Picoquic.Props.C73_stale"
   ],
   "note": "The AEAD is an arbitrary function which recovers the text; that tokens are not forged is a hypothesis on the packets of a history. The splay tree of used tokens is a list (see C04)."
  },
  {
   "property": "C74",
   "status": "partial",
   "theorems": [
    "Picoquic.Props.C74_client",
    "Picoquic.Props.C74_protected",
    "Picoquic.Props.C74_server_partial",
    "Picoquic.Props.C74_short_cid_violated"
   ],
   "note": "Fails when the server is configured with connection IDs of less than 8 bytes: the packets that follow a Retry packet are dropped. Versions without a Retry integrity key are not modelled; all versions of the table have one."
  },
  {
   "property": "C72",
   "status": "partial",
   "theorems": [
    "Picoquic.Props.C72_limit_partial",
    "Picoquic.Props.C72_validated",
    "Picoquic.Props.C72_allowed",
    "Picoquic.Props.C72_close_violated",
    "Picoquic.Props.C72_null_cid_violated"
   ],
   "note": "Proved for all sequences of events for servers with connection IDs, without the packets sent while closing. False for packets sent while closing, which are neither checked nor counted, and for servers with connection IDs of length zero, where each Initial packet of a datagram counts the whole datagram."
  },
  {
   "property": "C75",
   "status": "partial",
   "theorems": [
    "Picoquic.Props.C75_reset",
    "Picoquic.Props.C75_reset_sent",
    "Picoquic.Props.C75_reset_rate",
    "Picoquic.Props.C75_reset_no_loop",
    "Picoquic.Props.C75_reset_understood",
    "Picoquic.Props.C75_reset_buffer_violated",
    "Picoquic.Props.C75_vn_answer",
    "Picoquic.Props.C75_vn_silent",
    "Picoquic.Props.C75_vn_bounds_partial",
    "Picoquic.Props.C75_vn_client",
    "Picoquic.Props.C75_vn_together",
    "Picoquic.Props.C75_vn_no_loop",
    "Picoquic.Props.C75_vn_overread_violated"
   ],
   "note": "Proved for all inputs, except: a host with connection IDs of length zero reads and sends back up to 510 bytes behind the end of a datagram whose second packet has an unknown version; and a datagram of more than 1537 bytes makes a stateless reset that is longer than its buffer. The queue of stateless packets is not modelled."
  },
  {
   "property": "C76",
   "status": "partial",
   "theorems": [
    "Picoquic.Props.C76_delivered_partial",
    "Picoquic.Props.C76_reordered_partial",
    "Picoquic.Props.C76_next_partial",
    "Picoquic.Props.C76_forged",
    "Picoquic.Props.C76_simultaneous_violated",
    "Picoquic.Props.C76_refused_violated",
    "Picoquic.Props.C76_multipath_violated"
   ],
   "note": "delivery, answers and late packets on one path when updates are not started by both ends at once; forged packets in every state; the code violates the property for simultaneous updates, for unequal numbers of packets and for several paths"
  },
  {
   "property": "C77",
   "status": "partial",
   "theorems": [
    "Picoquic.Props.C77_roundtrip",
    "Picoquic.Props.C77_decoded",
    "Picoquic.Props.C77_error",
    "Picoquic.Props.C77_long_violated",
    "Picoquic.Props.C77_padding_violated"
   ],
   "note": "round trip for strings that fit in the buffer, and what the decoder does on every input; the code cuts longer strings without an error and accepts padding that the RFC forbids"
  },
  {
   "property": "C78",
   "status": "partial",
   "theorems": [
    "Picoquic.Props.C78_numbers",
    "Picoquic.Props.C78_fields_partial",
    "Picoquic.Props.C78_request",
    "Picoquic.Props.C78_post",
    "Picoquic.Props.C78_connect",
    "Picoquic.Props.C78_response",
    "Picoquic.Props.C78_safe_partial",
    "Picoquic.Props.C78_static_violated",
    "Picoquic.Props.C78_status_violated",
    "Picoquic.Props.C78_range_violated",
    "Picoquic.Props.C78_long_violated"
   ],
   "note": "Proved for all lists of fields in all representations, for all frames that are created, and for all bytes without the dangerous numbers. False in general: index 99 reads behind the static table, a long status overflows an int, the range of entry 55 is lost, and long paths in Huffman codes are cut."
  },
  {
   "property": "C79",
   "status": "partial",
   "theorems": [
    "Picoquic.Props.C79_chunks",
    "Picoquic.Props.C79_message_partial",
    "Picoquic.Props.C79_prefix_partial",
    "Picoquic.Props.C79_refused_partial",
    "Picoquic.Props.C79_webtransport",
    "Picoquic.Props.C79_client_writes",
    "Picoquic.Props.C79_trailer_violated",
    "Picoquic.Props.C79_push_violated",
    "Picoquic.Props.C79_fin_server_violated",
    "Picoquic.Props.C79_fin_client_violated",
    "Picoquic.Props.C79_upgrade_violated",
    "Picoquic.Props.C79_file_violated"
   ],
   "note": "Proved: independence of the cutting; every message is delivered, and every non-message refused, except as follows. Violated: trailer fields or a final response without contents before them are refused; PUSH_PROMISE is skipped; a truncated request or response can be taken for complete; after an accepted upgrade the result depends on the cutting and the acceptance is reported again and again; a client without a file writes to it. Also outside: frames of headers that are empty or longer than 65536 bytes."
  },
  {
   "property": "C80",
   "status": "partial",
   "theorems": [
    "Picoquic.Props.C80_chunks",
    "Picoquic.Props.C80_settings_partial",
    "Picoquic.Props.C80_refused",
    "Picoquic.Props.C80_roundtrip",
    "Picoquic.Props.C80_webtransport",
    "Picoquic.Props.C80_ignored",
    "Picoquic.Props.C80_empty_violated",
    "Picoquic.Props.C80_forgotten_violated",
    "Picoquic.Props.C80_bidir_violated",
    "Picoquic.Props.C80_values_violated"
   ],
   "note": "The empty SETTINGS frame is refused (C80_empty_violated); an error on the control stream is forgotten with the next piece (C80_forgotten_violated); a web transport stream opened by a server depends on its cutting (C80_bidir_violated); reserved settings and wrong flags are accepted (C80_values_violated). A second control stream and the end of the control stream are not modelled as errors, since the code does not check them."
  },
  {
   "property": "C81",
   "status": "partial",
   "theorems": [
    "Picoquic.Props.C81_over",
    "Picoquic.Props.C81_over_violated",
    "Picoquic.Props.C81_no_return",
    "Picoquic.Props.C81_revived_violated",
    "Picoquic.Props.C81_told",
    "Picoquic.Props.C81_once_partial",
    "Picoquic.Props.C81_twice_violated",
    "Picoquic.Props.C81_ends",
    "Picoquic.Props.C81_wake",
    "Picoquic.Props.C81_lasts",
    "Picoquic.Props.C81_peer_close",
    "Picoquic.Props.C81_reset",
    "Picoquic.Props.C81_drain_violated",
    "Picoquic.Props.C81_few",
    "Picoquic.Props.C81_spaced",
    "Picoquic.Props.C81_draining_partial",
    "Picoquic.Props.C81_draining_violated",
    "Picoquic.Props.C81_reason_close",
    "Picoquic.Props.C81_reason_error",
    "Picoquic.Props.C81_reason_sent",
    "Picoquic.Props.C81_answer",
    "Picoquic.Props.C81_error_violated",
    "Picoquic.Props.C81_idle",
    "Picoquic.Props.C81_idle_off",
    "Picoquic.Props.C81_idle_restart",
    "Picoquic.Props.C81_handshake_limit",
    "Picoquic.Props.C81_failure"
   ],
   "note": "A packet with two close frames brings a connection that is over back, and the application is told twice (C81_twice_violated); a handshake failure of a server is revived by the client's last handshake message, and the request to close is lost (C81_revived_violated); after the peer's close the connection may not drain at all (C81_drain_violated); path validation goes on while draining (C81_draining_violated); errors in the state server_almost_ready are ignored (C81_error_violated); a stateless reset is reported again after the end (C81_over_violated). What the packets contain before closing is left to other properties."
  },
  {
   "property": "C82",
   "status": "partial",
   "theorems": [
    "Picoquic.Props.C82_rule",
    "Picoquic.Props.C82_timer",
    "Picoquic.Props.C82_number",
    "Picoquic.Props.C82_all",
    "Picoquic.Props.C82_right",
    "Picoquic.Props.C82_wake_partial",
    "Picoquic.Props.C82_zero_rtt_violated",
    "Picoquic.Props.C82_probe",
    "Picoquic.Props.C82_one"
   ],
   "note": "0-RTT packets that wait after the handshake set no timer: if one is lost and fewer than three later packets are acknowledged, the connection is not called to repeat it (C82_zero_rtt_violated); C82_wake_partial leaves them out. One path; what is copied to the new packet is left to other properties."
  },
  {
   "property": "C83",
   "status": "partial",
   "theorems": [
    "Picoquic.Props.C83_query",
    "Picoquic.Props.C83_string",
    "Picoquic.Props.C83_room",
    "Picoquic.Props.C83_number_right",
    "Picoquic.Props.C83_number_partial",
    "Picoquic.Props.C83_largest_violated",
    "Picoquic.Props.C83_number_error",
    "Picoquic.Props.C83_handler",
    "Picoquic.Props.C83_handler_violated",
    "Picoquic.Props.C83_version_violated",
    "Picoquic.Props.C83_baton"
   ],
   "note": "The six largest numbers of 64 bits are refused (C83_largest_violated); with HTTP/0.9 a request goes to the first handler whose path is a prefix of it (C83_handler_violated); the sample application looks for the parameter versi instead of version (C83_version_violated)."
  },
  {
   "property": "C84",
   "status": "partial",
   "theorems": [
    "Picoquic.Props.C84_inside",
    "Picoquic.Props.C84_no_folder",
    "Picoquic.Props.C84_no_overflow",
    "Picoquic.Props.C84_found",
    "Picoquic.Props.C84_index",
    "Picoquic.Props.C84_number_partial",
    "Picoquic.Props.C84_number_violated",
    "Picoquic.Props.C84_bytes",
    "Picoquic.Props.C84_clean"
   ],
   "note": "Numbers beyond 64 bits wrap: 2^64+4 gives 4 bytes (C84_number_violated). Links in the file system are not modelled; the Windows separator is not."
  },
  {
   "property": "C85",
   "status": "partial",
   "theorems": [
    "Picoquic.Props.C85_roundtrip_partial",
    "Picoquic.Props.C85_address_violated",
    "Picoquic.Props.C85_room",
    "Picoquic.Props.C85_in_bounds",
    "Picoquic.Props.C85_file_partial",
    "Picoquic.Props.C85_file_violated",
    "Picoquic.Props.C85_file_too_large",
    "Picoquic.Props.C85_expiry",
    "Picoquic.Props.C85_resume",
    "Picoquic.Props.C85_get",
    "Picoquic.Props.C85_newest",
    "Picoquic.Props.C85_replace",
    "Picoquic.Props.C85_once_partial",
    "Picoquic.Props.C85_reuse_violated",
    "Picoquic.Props.C85_unmark_violated"
   ],
   "note": "The server address of a record without client address is lost in the file (C85_address_violated). Records of 1929 to 2048 bytes are saved but make the file unreadable (C85_file_violated). Connections that resume do not mark the ticket, so it is used again (C85_reuse_violated); looking without marking clears the mark (C85_unmark_violated)."
  },
  {
   "property": "C86",
   "status": "partial",
   "theorems": [
    "Picoquic.Props.C86_sent",
    "Picoquic.Props.C86_receive",
    "Picoquic.Props.C86_end_to_end",
    "Picoquic.Props.C86_active",
    "Picoquic.Props.C86_distinct",
    "Picoquic.Props.C86_fair",
    "Picoquic.Props.C86_turn",
    "Picoquic.Props.C86_mark",
    "Picoquic.Props.C86_forgotten_violated"
   ],
   "note": "A session that is ready is forgotten, without its application being called, if the space is no more than the length of its number (C86_forgotten_violated); C86_fair has larger spaces. Sessions that are deleted are not modelled."
  },
  {
   "property": "C87",
   "status": "partial",
   "theorems": [
    "Picoquic.Props.C87_cut",
    "Picoquic.Props.C87_datagram_partial",
    "Picoquic.Props.C87_close_partial",
    "Picoquic.Props.C87_send_close",
    "Picoquic.Props.C87_end_to_end",
    "Picoquic.Props.C87_control_stream",
    "Picoquic.Props.C87_second_violated",
    "Picoquic.Props.C87_memory_partial",
    "Picoquic.Props.C87_empty_violated",
    "Picoquic.Props.C87_drain_violated",
    "Picoquic.Props.C87_unknown_violated",
    "Picoquic.Props.C87_reserve_violated"
   ],
   "note": "Proved: what arrives depends on the bytes and not on the cut; the first capsule arrives whole (datagram, close), from one end to the other; what an application can put on a control stream; exactly when memory errors occur. The code breaks the rest, also proved: any byte after a first capsule makes the receiver copy about 2^64 bytes (is_length_known and value_read are not reset), an empty capsule is refused, hence the drain message that the same code sends, unknown types are refused, and the memory reserved is what the peer announces."
  },
  {
   "property": "C88",
   "status": "partial",
   "theorems": [
    "Picoquic.Props.C88_size_partial",
    "Picoquic.Props.C88_limits_violated",
    "Picoquic.Props.C88_acked",
    "Picoquic.Props.C88_moved_violated",
    "Picoquic.Props.C88_probe",
    "Picoquic.Props.C88_memory_partial",
    "Picoquic.Props.C88_memory_violated",
    "Picoquic.Props.C88_blocked",
    "Picoquic.Props.C88_black_hole",
    "Picoquic.Props.C88_ten_losses",
    "Picoquic.Props.C88_kept",
    "Picoquic.Props.C88_second_violated",
    "Picoquic.Props.C88_rounds"
   ],
   "note": "Proved: the size of all packets and probes, growth only after an acknowledgment, when probes are sent, in-bounds writes for limits up to 1536 bytes, blocked discovery, fall back with the eleventh loss and not with ten, end of the search. The code breaks the rest, also proved: limits below the first size are ignored; if both ends call picoquic_set_mtu_max with a jumbo size the probe is written past the end of the packet; acknowledgments of packets sent to former addresses make packets to new addresses large; the count of losses is never reset by a fall back, so that one loss triggers the next."
  },
  {
   "property": "C89",
   "status": "partial",
   "theorems": [
    "Picoquic.Props.C89_first",
    "Picoquic.Props.C89_reserved_violated",
    "Picoquic.Props.C89_tampered",
    "Picoquic.Props.C89_server",
    "Picoquic.Props.C89_agree_partial",
    "Picoquic.Props.C89_incompatible_violated",
    "Picoquic.Props.C89_server_packets",
    "Picoquic.Props.C89_client_packets",
    "Picoquic.Props.C89_forged_violated",
    "Picoquic.Props.C89_forged_hang_violated",
    "Picoquic.Props.C89_downgrade_violated",
    "Picoquic.Props.C89_rejected_violated"
   ],
   "note": "Proved: the version of a new client, the choice of a server for every list, detection of another version in the packets, agreement from one end to the other, which versions a client and a server decrypt. The code breaks the rest, also proved: a preference for a version to which no change is possible makes the server refuse the connection or loop for ever; the client changes its version before it decrypts a packet, so that one forged packet separates it from its server, or suspends it for ever; the list of versions of the server is not compared with anything, so that downgrades are not detected; picoquic_set_rejected_version asks for the version instead of rejecting it; the test for reserved versions is too wide."
  },
  {
   "property": "C90",
   "status": "partial",
   "theorems": [
    "Picoquic.Props.C90_list",
    "Picoquic.Props.C90_next_wake",
    "Picoquic.Props.C90_delay",
    "Picoquic.Props.C90_delay_cnx",
    "Picoquic.Props.C90_earliest",
    "Picoquic.Props.C90_zero_violated",
    "Picoquic.Props.C90_ready",
    "Picoquic.Props.C90_served",
    "Picoquic.Props.C90_fair_partial",
    "Picoquic.Props.C90_flood_violated",
    "Picoquic.Props.C90_touched_violated",
    "Picoquic.Props.C90_alarm_partial",
    "Picoquic.Props.C90_alarm_violated",
    "Picoquic.Props.C90_callbacks",
    "Picoquic.Props.C90_packets",
    "Picoquic.Props.C90_failed_violated"
   ],
   "note": "Proved: the wake tree behaves as a plain list in turn after every history; next wake time, delays, who is served, what serving changes, a bound on the wait in number of requests, the alarm of the application, the callbacks, the queue of packets. The bound needs a connection that is left alone and nobody asking for an earlier time. The code breaks the rest, also proved: packets without connection have absolute priority and can starve all connections; a connection for which something arrives before each request goes to the end each time; at time 0 connections are served before their time; an alarm is missed after a failed preparation, after picoquic_close_immediate and when a client connection ends; a connection that cannot be created empties the wake list of all others."
  },
  {
   "property": "C91",
   "status": "partial",
   "theorems": [
    "Picoquic.Props.C91_delivered",
    "Picoquic.Props.C91_stored",
    "Picoquic.Props.C91_once",
    "Picoquic.Props.C91_authentic",
    "Picoquic.Props.C91_order_violated",
    "Picoquic.Props.C91_memory_violated",
    "Picoquic.Props.C91_copies_violated",
    "Picoquic.Props.C91_server_violated",
    "Picoquic.Props.C91_ready"
   ],
   "note": "Proved for all histories: nothing is lost (C91_delivered, by an invariant on the order of the list: the pointer written when the first element is removed never cuts off a new one), nothing is processed twice, without keys, or forged; nothing is stored once the connection is ready. Not as a user expects, also proved: kept packets are processed in the reverse of their order of arrival; the number of kept packets has no limit and forged ones are kept as well; the end of a datagram is stored once per packet before it; a server keeps no Handshake packet. Datagrams longer than 1536 bytes, empty connection IDs and failures of memory are not modelled: in these cases nothing is kept."
  },
  {
   "property": "C92",
   "status": "partial",
   "theorems": [
    "Picoquic.Props.C92_single",
    "Picoquic.Props.C92_passive_partial",
    "Picoquic.Props.C92_unique_partial",
    "Picoquic.Props.C92_reuse_violated",
    "Picoquic.Props.C92_replay_violated",
    "Picoquic.Props.C92_zero_rtt_violated",
    "Picoquic.Props.C92_null_violated",
    "Picoquic.Props.C92_safe_partial",
    "Picoquic.Props.C92_blocked_violated"
   ],
   "note": "Proved for all histories: without multipath always; with multipath as long as the application opens no path, or the peer sends no connection IDs for a path that was given up (or that it opened without sending IDs). Violations proved: after IDs for a given-up path arrive again, a new path takes its identifier and repeats all its nonces with the same key (C92_reuse_violated, C92_replay_violated); a multipath client blocked at the end of the handshake numbers 0-RTT packets from the start again (C92_zero_rtt_violated); a packet on a path for which the peer's IDs have not arrived leads to a null pointer (C92_null_violated); once path 0 is given up the application can open no path any more (C92_blocked_violated). Each stash is taken to have an unused ID."
  },
  {
   "property": "C93",
   "status": "partial",
   "theorems": [
    "Picoquic.Props.C93_origin",
    "Picoquic.Props.C93_order",
    "Picoquic.Props.C93_delivered",
    "Picoquic.Props.C93_memory",
    "Picoquic.Props.C93_honest_partial",
    "Picoquic.Props.C93_large_violated",
    "Picoquic.Props.C93_extends_violated",
    "Picoquic.Props.C93_sent",
    "Picoquic.Props.C93_frame"
   ],
   "note": "Proved for every TLS and all histories: origin and order of what TLS gets, no length below zero, delivery, memory, what is sent. A peer that keeps to the protocol is not accused if no flight is longer than 16384 bytes (C93_honest_partial). Violations proved: of a longer flight, a piece that ends beyond 16384 bytes and arrives before the first one closes the connection (C93_large_violated); data beyond the end of a level that TLS has left are not refused (C93_extends_violated)."
  },
  {
   "property": "C94",
   "status": "partial",
   "theorems": [
    "Picoquic.Props.C94_content",
    "Picoquic.Props.C94_exclusive",
    "Picoquic.Props.C94_frames",
    "Picoquic.Props.C94_safe_partial",
    "Picoquic.Props.C94_amplified_violated",
    "Picoquic.Props.C94_freed_violated"
   ],
   "note": "Proved for all histories: the data given are those that arrived, although the test for the last frame is wrong for CRYPTO frames; buffers are never shared; no frame uses a freed buffer; no use after free as long as not more pieces wait than the pool can take (C94_safe_partial). Violations proved: with 8192 pieces waiting, a packet that fills the gap and brings a CRYPTO frame makes the receiver read its buffer after it was freed (C94_freed_violated); each byte behind a gap costs a buffer of 1536 bytes (C94_amplified_violated)."
  },
  {
   "property": "C95",
   "status": "partial",
   "theorems": [
    "Picoquic.Props.C95_answered",
    "Picoquic.Props.C95_response",
    "Picoquic.Props.C95_zero_violated",
    "Picoquic.Props.C95_shrunk"
   ],
   "note": "Proved for all inputs: each request is answered, the frames and lengths of the response, and where the stream ends. Violation proved: /0 gives the default page (C95_zero_violated). Which file is read is C84. Not modelled: POST, CONNECT; the file does not change while it is sent, except for C95_shrunk."
  },
  {
   "property": "C96",
   "status": "partial",
   "theorems": [
    "Picoquic.Props.C96_choice_partial",
    "Picoquic.Props.C96_sends",
    "Picoquic.Props.C96_backup_violated",
    "Picoquic.Props.C96_oldest",
    "Picoquic.Props.C96_affinity",
    "Picoquic.Props.C96_turns",
    "Picoquic.Props.C96_ack_violated",
    "Picoquic.Props.C96_header_partial",
    "Picoquic.Props.C96_first_partial",
    "Picoquic.Props.C96_crash_violated",
    "Picoquic.Props.C96_none_left_violated",
    "Picoquic.Props.C96_clean"
   ],
   "note": "Proved for all lists and conditions: the chosen path is a best one unless all of them wait for pacing; the least recently used ready path is taken; data bound to a ready path go on it; for every sequence of packets, paths take turns; deletion removes exactly the abandoned paths whose time has come, in order; for every history, paths that were not abandoned have a connection ID, and there is a header if the first path was not abandoned. Violations proved: the peer abandons the second path and then the first: NULL pointer at the next packet, whatever the other paths (C96_crash_violated); all paths abandoned leaves none, and path[0] is used (C96_none_left_violated); a backup path is used while good ones only wait for pacing (C96_backup_violated); an acknowledgement does not go on the path with the shortest delay although it may send (C96_ack_violated). Not modelled: tuples other than the first of a path, NAT rebinding, PATH_AVAILABLE frames."
  },
  {
   "property": "C97",
   "status": "partial",
   "theorems": [
    "Picoquic.Props.C97_told_once",
    "Picoquic.Props.C97_reset_reported",
    "Picoquic.Props.C97_reset_code",
    "Picoquic.Props.C97_stop_code_violated",
    "Picoquic.Props.C97_stop_silence",
    "Picoquic.Props.C97_discard_silence",
    "Picoquic.Props.C97_reset_last",
    "Picoquic.Props.C97_stop_lost_violated",
    "Picoquic.Props.C97_discard_client_partial",
    "Picoquic.Props.C97_discard_server_violated",
    "Picoquic.Props.C97_discard_unheard_violated",
    "Picoquic.Props.C97_reset_after_end_violated",
    "Picoquic.Props.C97_reset_send_only_violated",
    "Picoquic.Props.C97_write_refused",
    "Picoquic.Props.C97_forgotten",
    "Picoquic.Props.C97_reset_frame_code",
    "Picoquic.Props.C97_stop_useful"
   ],
   "note": "Proved for all histories: callbacks at most once, every reset of the peer reported with its code, silence after stop and after discard, nothing sent after RESET_STREAM, writes refused, and the frames of a client that discards streams are allowed. Violations proved: the code of STOP_SENDING cannot be read, it is always 0 (C97_stop_code_violated); discard of a bidirectional stream never sends STOP_SENDING (C97_stop_lost_violated); a server that discards its own unidirectional stream sends STOP_SENDING, which closes the connection, and goes on sending (C97_discard_server_violated); a server that discards a unidirectional stream of the client does nothing (C97_discard_unheard_violated); the test of acknowledged data in picoquic_reset_stream is inverted (C97_reset_after_end_violated); RESET_STREAM is accepted on a stream on which only this end sends (C97_reset_send_only_violated). Not modelled: loss and repeat of the frames (C29), flow control, reassembly (C10), other streams."
  },
  {
   "property": "C98",
   "status": "partial",
   "theorems": [
    "Picoquic.Props.C98_number",
    "Picoquic.Props.C98_number_round_trip",
    "Picoquic.Props.C98_not_number",
    "Picoquic.Props.C98_overflow_violated",
    "Picoquic.Props.C98_empty_number_violated",
    "Picoquic.Props.C98_port_violated",
    "Picoquic.Props.C98_mtu_violated",
    "Picoquic.Props.C98_mtu_partial",
    "Picoquic.Props.C98_text",
    "Picoquic.Props.C98_flag",
    "Picoquic.Props.C98_version_partial",
    "Picoquic.Props.C98_version_violated",
    "Picoquic.Props.C98_not_version",
    "Picoquic.Props.C98_seed",
    "Picoquic.Props.C98_not_seed",
    "Picoquic.Props.C98_missing",
    "Picoquic.Props.C98_missing_seed_violated",
    "Picoquic.Props.C98_refused_unchanged_partial",
    "Picoquic.Props.C98_refused_changes_violated",
    "Picoquic.Props.C98_last_wins",
    "Picoquic.Props.C98_found",
    "Picoquic.Props.C98_command_line",
    "Picoquic.Props.C98_table",
    "Picoquic.Props.C98_abbreviation",
    "Picoquic.Props.C98_unknown_letter",
    "Picoquic.Props.C98_unknown_name_violated",
    "Picoquic.Props.C98_letters_partial",
    "Picoquic.Props.C98_letters_violated",
    "Picoquic.Props.C98_cipher_partial",
    "Picoquic.Props.C98_cipher_names",
    "Picoquic.Props.C98_cipher_violated",
    "Picoquic.Props.C98_algorithm",
    "Picoquic.Props.C98_algorithm_found",
    "Picoquic.Props.C98_default"
   ],
   "note": "Proved for all texts: numbers that an int holds (but for the port), texts, flags, versions of 32 bits and seeds are stored as written or refused; the other options are untouched; the last value counts; letters and names find their options. Violations proved: a number that an int does not hold is undefined behaviour (C98_overflow_violated); the empty text is the number 0 (C98_empty_number_violated); any number is accepted as a port (C98_port_violated); a packet size below 1200 is accepted though peers refuse it (C98_mtu_violated); versions of more than 32 bits are cut (C98_version_violated); a missing seed reads memory that was not set (C98_missing_seed_violated); most options are changed by a value that is refused (C98_refused_changes_violated); a misspelt long option is accepted silently (C98_unknown_name_violated); the letters for getopt are cut without error if the buffer is small (C98_letters_violated); with an unknown cipher suite the context is made without any (C98_cipher_violated). Not modelled: failure of malloc, the messages, the other settings that the context takes over."
  },
  {
   "property": "C99",
   "status": "partial",
   "theorems": [
    "Picoquic.Props.C99_early_within",
    "Picoquic.Props.C99_no_session",
    "Picoquic.Props.C99_kept_partial",
    "Picoquic.Props.C99_refused_sent_again",
    "Picoquic.Props.C99_accepted_once",
    "Picoquic.Props.C99_lowered_new_violated",
    "Picoquic.Props.C99_lowered_again_violated",
    "Picoquic.Props.C99_lowered_count_violated",
    "Picoquic.Props.C99_accepted_lowered_violated",
    "Picoquic.Props.C99_written_before_violated",
    "Picoquic.Props.C99_early_sent",
    "Picoquic.Props.C99_no_streams_violated",
    "Picoquic.Props.C99_in_order",
    "Picoquic.Props.C99_all_sent"
   ],
   "note": "Proved for all histories: early data keep to the remembered limits; if the server lowers none, everything keeps to what it allows; refused data are sent again once and in order, accepted data are not. Violations proved: if the server refuses early data and lowers its limits, as it may, new data (C99_lowered_new_violated) and refused data (C99_lowered_again_violated, C99_lowered_count_violated) go beyond them, which ends the connection; a server that accepts early data and lowers its limits is not found out (C99_accepted_lowered_violated); data written before the start of the connection are never early data (C99_written_before_violated); a number of streams of 0 is taken for no limit (C99_no_streams_violated). Not modelled: streams of one direction, loss of early data that were accepted, the window of early data, the side of the server."
  },
  {
   "property": "C100",
   "status": "partial",
   "theorems": [
    "Picoquic.Props.C100_minimum",
    "Picoquic.Props.C100_at_most_half",
    "Picoquic.Props.C100_no_congestion_no_decrease",
    "Picoquic.Props.C100_like_reno",
    "Picoquic.Props.C100_slow_start",
    "Picoquic.Props.C100_slow_start_ends",
    "Picoquic.Props.C100_all_marked",
    "Picoquic.Props.C100_once_per_round",
    "Picoquic.Props.C100_first_mark",
    "Picoquic.Props.C100_loss",
    "Picoquic.Props.C100_loss_then_marks",
    "Picoquic.Props.C100_spurious_partial",
    "Picoquic.Props.C100_unlimited_violated"
   ],
   "note": "Proved for all histories: no division by 0 and no wrap-around in the computation of the share of marks, whatever counts the peer sends; minimum, at most half, once per round, halving if all is marked, growth as New Reno without marks. Violation proved: if no threshold is set, which is so if the algorithm was reset or the clock started less than an RTT ago, a loss that was none makes the window unlimited (C100_unlimited_violated); New Reno excludes this case. The library itself never sends the notification of reset. Not modelled: multipath, the wrap-around of the window at 64 bits, the filters of the RTT."
  },
  {
   "property": "C101",
   "status": "partial",
   "theorems": [
    "Picoquic.Props.C101_minimum",
    "Picoquic.Props.C101_harmless",
    "Picoquic.Props.C101_loss",
    "Picoquic.Props.C101_delay",
    "Picoquic.Props.C101_min_follows",
    "Picoquic.Props.C101_jitter",
    "Picoquic.Props.C101_growth",
    "Picoquic.Props.C101_gain",
    "Picoquic.Props.C101_once_per_round_partial",
    "Picoquic.Props.C101_timeout_violated",
    "Picoquic.Props.C101_once_per_round_violated",
    "Picoquic.Props.C101_delay_violated",
    "Picoquic.Props.C101_no_delay_violated"
   ],
   "note": "Proved for all histories: minimum, growth by at most the bytes acknowledged, halving, at most an eighth for a delay and not before the fourth measurement. Once per round trip is proved if the time of the end of the freeze fits 64 bits (C101_once_per_round_partial). Violations proved: after the first second the smallest RTT is set to UINT64_MAX, so the freeze ends in the past and three losses of one round reduce the window to an eighth (C101_once_per_round_violated), and for a second no RTT, however long, counts as delay (C101_delay_violated); a timeout in the round trip of a loss is ignored, as the test of the kind of the last freeze is the wrong way round (C101_timeout_violated); with an RTT below 8 microseconds the threshold is 0 and the window falls without any delay (C101_no_delay_violated). Not modelled: floating point (exact products instead), pacing, the filter of the RTT and the test of losses, whose results are inputs."
  },
  {
   "property": "C102",
   "status": "partial",
   "theorems": [
    "Picoquic.Props.C102_write_within",
    "Picoquic.Props.C102_read_within",
    "Picoquic.Props.C102_fits",
    "Picoquic.Props.C102_round_trip",
    "Picoquic.Props.C102_error_kept",
    "Picoquic.Props.C102_skip",
    "Picoquic.Props.C102_number_violated"
   ],
   "note": "Proved: all of the statement, for numbers of variable length below 2^62. Violation proved: a number of 2^62 or more is written without error and read as another (C102_number_violated). Not modelled: allocation, bytestream_clear, byteshow_int8, byteread_vlen, the fields of an IPv6 address other than address and port."
  },
  {
   "property": "C103",
   "status": "partial",
   "theorems": [
    "Picoquic.Props.C103_first_key",
    "Picoquic.Props.C103_limit_partial",
    "Picoquic.Props.C103_due",
    "Picoquic.Props.C103_not_early_partial",
    "Picoquic.Props.C103_time",
    "Picoquic.Props.C103_set",
    "Picoquic.Props.C103_unequal_violated",
    "Picoquic.Props.C103_multipath_violated",
    "Picoquic.Props.C103_skipped_violated",
    "Picoquic.Props.C103_peer_violated"
   ],
   "note": "Proved: the bound for the first key in all histories; the bound for all keys, if the other end has answered and has sent enough when an update is due; the update takes place at once when it is due; no early update, without multipath and without numbers left out, if only the limit leads to updates; no update of its own before the retransmission time behind new keys of the other end; the limit that is set. Violations proved: an end that has received fewer packets than it had sent at the last update cannot update its key, so that a key is used for any number of packets (C103_unequal_violated); with multipath all keys but the first are replaced at every round trip once the limit was passed (C103_multipath_violated); numbers left out make the count negative and the keys are replaced at once (C103_skipped_violated); an update by the other end does not restart the count (C103_peer_violated). Not modelled: the choice of the numbers that are left out, the limit of the cipher."
  },
  {
   "property": "C104",
   "status": "partial",
   "theorems": [
    "Picoquic.Props.C104_one_change_partial",
    "Picoquic.Props.C104_round_trip_partial",
    "Picoquic.Props.C104_turns",
    "Picoquic.Props.C104_packet",
    "Picoquic.Props.C104_policies",
    "Picoquic.Props.C104_reserve",
    "Picoquic.Props.C104_late_violated",
    "Picoquic.Props.C104_paths_violated",
    "Picoquic.Props.C104_policy_violated"
   ],
   "note": "Proved: with one path, any losses and arrival in order there is at most one change on the whole way at any time, and the client changes its bit only when both directions have the same bit (C104_one_change_partial, C104_round_trip_partial); the bit turns; the header; the policies; the reserve of connections. Violations proved: packets that arrive late count, so that there are more changes (C104_late_violated); packets on other paths have the bit of the first path, so that it may never turn there (C104_paths_violated); picoquic_cnx_set_spinbit_policy accepts picoquic_spinbit_on, with which functions are read outside the table (C104_policy_violated). Not modelled: the change of the first path."
  },
  {
   "property": "C105",
   "status": "partial",
   "theorems": [
    "Picoquic.Props.C105_counts",
    "Picoquic.Props.C105_no_more",
    "Picoquic.Props.C105_latest",
    "Picoquic.Props.C105_any_peer",
    "Picoquic.Props.C105_square",
    "Picoquic.Props.C105_reports",
    "Picoquic.Props.C105_bits",
    "Picoquic.Props.C105_first_block_violated"
   ],
   "note": "Proved: all of the statement but the first block of the square signal, which has 63 packets, so that an observer counts a loss that did not happen (C105_first_block_violated). Not modelled: the marks that are set on packets sent, the numbers left out by the sender, the move of counts between paths. There is no code that checks the counts of the peer against the packets sent, as RFC 9000 section 13.4.2 asks."
  },
  {
   "property": "C106",
   "status": "partial",
   "theorems": [
    "Picoquic.Props.C106_compare",
    "Picoquic.Props.C106_no_address",
    "Picoquic.Props.C106_found",
    "Picoquic.Props.C106_found_by_peer_partial",
    "Picoquic.Props.C106_known_local_violated",
    "Picoquic.Props.C106_other_address",
    "Picoquic.Props.C106_named",
    "Picoquic.Props.C106_again",
    "Picoquic.Props.C106_last_path_violated"
   ],
   "note": "Proved: comparison, search by two addresses, effect on the named path alone. False in the code: the last path in use is put out of use without challenge, as the test counts the path itself (C106_last_path_violated); a report without local address finds no path whose local address is known (C106_known_local_violated). Not modelled: picoquic_set_path_challenge itself (C37), the search of the connection by its ID."
  },
  {
   "property": "C107",
   "status": "partial",
   "theorems": [
    "Picoquic.Props.C107_address",
    "Picoquic.Props.C107_protected",
    "Picoquic.Props.C107_moves",
    "Picoquic.Props.C107_none",
    "Picoquic.Props.C107_port_partial",
    "Picoquic.Props.C107_port_violated"
   ],
   "note": "Proved: all but the port. On a little-endian host the client sends to the port with its two bytes in the other order (C107_port_violated), since the value of the parameter is stored in the socket address without htons; on a big-endian host the port is right (C107_port_partial). Between two picoquic hosts of the same byte order it works if the server gives the port in network order, as the test does. Not modelled here: the probe itself (C37), the storage of the connection ID (C31). The port of IPv6 that a picoquic server sends is C20_preferred_port_violated."
  },
  {
   "property": "C108",
   "status": "partial",
   "theorems": [
    "Picoquic.Props.C108_window",
    "Picoquic.Props.C108_too_soon",
    "Picoquic.Props.C108_not_early",
    "Picoquic.Props.C108_stable",
    "Picoquic.Props.C108_found",
    "Picoquic.Props.C108_loss_bounds",
    "Picoquic.Props.C108_loss_answers",
    "Picoquic.Props.C108_loss_found",
    "Picoquic.Props.C108_loss_unused_violated"
   ],
   "note": "All of the statement; the last part for delays that are not zero. Numbers have no bounds in the model: the counter of high windows is an int in the code. The high windows that are counted need not follow each other: a window between the base and a quarter above it neither counts nor resets. Losses: the test has the properties of the statement (C108_loss_answers, C108_loss_found, with an exact quotient in place of a double), but its only use gives it an event for which the answer is always no (C108_loss_unused_violated). The other test of losses (picoquic_cc_hystart_loss_test), with floating point numbers, is not modelled."
  },
  {
   "property": "C109",
   "status": "partial",
   "theorems": [
    "Picoquic.Props.C109_one_partial",
    "Picoquic.Props.C109_kept",
    "Picoquic.Props.C109_two_violated"
   ],
   "note": "True if one path is left (C109_one_partial) and if a path that is not a backup path is left (C109_kept). False if two backup paths or more are left and no other path: the loop takes the second one for an available path, and all stay backup paths (C109_two_violated). The queueing of the PATH_AVAILABLE frame is modelled as the index of the path it is for."
  }
 ]
}