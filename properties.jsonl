{"id": "C01", "title": "Variable-length integers round-trip in their shortest form", "statement": "Every integer below 2^62 that picoquic writes as a QUIC variable-length integer occupies exactly 1, 2, 4 or 8 bytes (the smallest that fits), is read back as the same integer by every picoquic decoder, and the decoder consumes exactly the bytes the encoder wrote, whatever bytes follow. If the output buffer is too small nothing is written and failure is reported.", "quantifier": "all 64-bit integers, all output buffer sizes, all trailing bytes", "why_tests_cant": "There are 2^64 integers and unboundedly many buffer sizes/continuations; tests sample a few dozen around the thresholds.", "anchors": ["picoquic/intformat.c: picoquic_varint_encode, picoquic_encode_varint_length, picoquic_varint_decode, picoquic_varint_skip, picoquic_decode_varint_length", "picoquic/util.c: picoquic_frames_varint_encode, picoquic_frames_varint_decode, picoquic_frames_varint_skip"]}
{"id": "C02", "title": "Integer and length-prefixed decoders never read past the buffer and agree with each other", "statement": "For every byte string and every declared buffer end, each basic decoder (varint, 8/16/32/64-bit, length-prefixed data, connection ID, fixed skip) either fails or stops at a position inside the buffer; skip and decode stop at the same position; and the two varint decoder families return the same value and length.", "quantifier": "all byte strings, all buffer lengths (including zero)", "why_tests_cant": "Out-of-bounds behaviour depends on every combination of length byte and remaining length; fuzzing only samples them.", "anchors": ["picoquic/util.c: picoquic_frames_fixed_skip, picoquic_frames_varint_skip, picoquic_frames_varint_decode, picoquic_frames_varlen_decode, picoquic_frames_uint16_decode, picoquic_frames_length_data_skip, picoquic_frames_cid_decode", "picoquic/intformat.c: picoquic_varint_decode, picoquic_varint_skip"]}
{"id": "C03", "title": "Fixed-size integers, connection IDs and hexadecimal connection ID text round-trip", "statement": "A 16/32/64-bit integer, a connection ID of 0 to 20 bytes, or a length-prefixed byte string written by picoquic is read back unchanged; a connection ID of 1 to 18 bytes printed in hexadecimal is parsed back to the same ID; and malformed hexadecimal text (odd length, non-hex digit, too long) is rejected.", "quantifier": "all integers, all connection IDs, all strings", "why_tests_cant": "Unbounded input space; tests use a few literals.", "anchors": ["picoquic/intformat.c: picoformat_16, picoformat_32, picoformat_64", "picoquic/util.c: picoquic_frames_uint16_encode, picoquic_frames_uint64_encode, picoquic_frames_cid_encode, picoquic_frames_cid_decode, picoquic_print_connection_id_hexa, picoquic_parse_hexa, picoquic_parse_connection_id_hexa"]}
{"id": "C04", "title": "The splay tree behaves as an ordered collection", "statement": "After any sequence of insertions, deletions and lookups, walking the tree from first to last yields exactly the inserted-and-not-deleted elements in key order, the reported size is their number, a lookup succeeds exactly when an element with that key is present, and find_previous returns the greatest element not above the key.", "quantifier": "all operation sequences of any length over any totally preordered key type", "why_tests_cant": "Tree shapes depend on the whole operation history; tests exercise a few fixed sequences.", "anchors": ["picoquic/picosplay.c: picosplay_insert, picosplay_find, picosplay_find_previous, picosplay_delete, picosplay_delete_hint, picosplay_first, picosplay_next, picosplay_last, picosplay_previous"]}
{"id": "C05", "title": "The received-packet record is exactly the set of packets received", "statement": "As long as nothing has been pruned by an acknowledgement of an acknowledgement, for every order, duplication and grouping of received packet numbers, the duplicate check answers 'already received' exactly for the numbers that were recorded, recording reports 'duplicate' exactly when all the numbers were already there, and the stored ranges stay sorted, disjoint and non-adjacent.", "quantifier": "all sequences of recorded packet number ranges", "why_tests_cant": "Range merging depends on arbitrary arrival histories; tests replay a handful.", "anchors": ["picoquic/sacks.c: picoquic_update_sack_list, picoquic_record_pn_received, picoquic_is_pn_already_received, picoquic_check_sack_list"]}
{"id": "C06", "title": "A packet number accepted once is never accepted again", "statement": "Once a packet number has been recorded as received, the duplicate check keeps reporting it as already received, for the life of the connection, including after the peer acknowledged our acknowledgement of it.", "quantifier": "all interleavings of packet receptions and acknowledgements of acknowledgements", "why_tests_cant": "Needs an adversarial replay after a specific pruning history.", "anchors": ["picoquic/sacks.c: picoquic_process_ack_of_ack_range, picoquic_is_pn_already_received", "picoquic/packet.c: picoquic_remove_packet_protection"]}
{"id": "C07", "title": "Emitted ACK frames acknowledge only received packets and are decodable", "statement": "Every ACK frame picoquic formats fits in the space given, and when its ranges are decoded by the rules of RFC 9000 every packet number it acknowledges was received; the largest acknowledged number is the largest received; a picoquic peer parses it back to the same ranges.", "quantifier": "all sets of received packets, all buffer sizes, all repetition counters", "why_tests_cant": "Depends on all range histories and every buffer size boundary.", "anchors": ["picoquic/frames.c: picoquic_format_ack_frame_in_context, picoquic_parse_ack_header, picoquic_decode_ack_frame", "picoquic/sacks.c: picoquic_sack_select_ack_ranges"]}
{"id": "C08", "title": "Received ACK frames are checked before use", "statement": "A received ACK frame with a range reaching below packet number zero, or acknowledging a number never sent, is rejected with a connection error; decoding any ACK frame terminates after reading at most the frame bytes.", "quantifier": "all byte strings presented as ACK frames, all sender states", "why_tests_cant": "Malformed range arithmetic can only be covered by all values.", "anchors": ["picoquic/frames.c: picoquic_decode_ack_frame, picoquic_parse_ack_header, picoquic_process_ack_range"]}
{"id": "C09", "title": "Acknowledgement processing removes exactly the acknowledged packets", "statement": "Processing an acknowledged range removes from the list of packets in flight exactly those whose number is in the range, leaves the others in order, and counts each packet's bytes as acknowledged once, however ranges overlap or repeat.", "quantifier": "all lists of outstanding packets, all sequences of acknowledged ranges", "why_tests_cant": "Depends on arbitrary histories of sends and overlapping acks.", "anchors": ["picoquic/frames.c: picoquic_process_ack_range, picoquic_find_acked_packet", "picoquic/loss_recovery.c: picoquic_dequeue_retransmit_packet"]}
{"id": "C10", "title": "Stream data is delivered in order, without gap, duplication or alteration", "statement": "Whatever way the peer cuts a stream into STREAM frames and whatever order, overlap or duplication they arrive with, the concatenation of the data passed to the application callback is always a prefix of the sender's byte stream, it never moves backwards, and it extends exactly to the first byte not yet received.", "quantifier": "all byte streams, all fragmentations, all arrival orders and overlaps", "why_tests_cant": "Factorially many arrival orders and overlaps.", "anchors": ["picoquic/frames.c: picoquic_stream_network_input, picoquic_queue_network_input, picoquic_add_chunk_node, picoquic_stream_data_callback, picoquic_stream_data_chunk_callback"]}
{"id": "C11", "title": "End of stream is signalled once, exactly after all the data", "statement": "The FIN event is delivered at most once per stream, only after every byte up to the final size was delivered, and it is delivered as soon as that is true.", "quantifier": "all fragmentations and arrival orders of the stream, with the FIN bit on any frame carrying the last byte", "why_tests_cant": "Same combinatorial space as C10.", "anchors": ["picoquic/frames.c: picoquic_stream_network_input, picoquic_stream_data_chunk_callback, picoquic_stream_data_callback"]}
{"id": "C12", "title": "The final size of a stream cannot change or be contradicted", "statement": "Once a stream's final size is known (by FIN or RESET_STREAM), any frame that implies another final size, or carries data beyond it, or a final size below data already received, raises a FINAL_SIZE_ERROR.", "quantifier": "all sequences of STREAM and RESET_STREAM frames", "why_tests_cant": "Needs every order of data, FIN and reset.", "anchors": ["picoquic/frames.c: picoquic_stream_network_input, picoquic_decode_stream_reset_frame"]}
{"id": "C13", "title": "The peer cannot exceed the advertised per-stream limit", "statement": "A STREAM or RESET_STREAM frame whose data extends past the limit last advertised for the stream is rejected with a FLOW_CONTROL_ERROR and none of its data is delivered.", "quantifier": "all sequences of frames on any stream, all limits", "why_tests_cant": "Boundary depends on history of window updates.", "anchors": ["picoquic/frames.c: picoquic_flow_control_check_stream_offset, picoquic_stream_network_input, picoquic_decode_stream_reset_frame"]}
{"id": "C14", "title": "The peer cannot exceed the advertised connection limit", "statement": "The total charged against the connection limit is the sum over streams of the highest offset received on each; it never exceeds the limit last advertised without the connection being put in error.", "quantifier": "all interleavings of frames over any number of streams", "why_tests_cant": "Accounting over many streams and duplicate/out-of-order frames.", "anchors": ["picoquic/frames.c: picoquic_flow_control_check_stream_offset"]}
{"id": "C15", "title": "The sender never exceeds the peer's flow control limits", "statement": "For any sequence of application writes, packet preparations and MAX_DATA / MAX_STREAM_DATA frames in any order, no new STREAM data is sent beyond the peer's stream limit, and the total of new stream bytes never exceeds the peer's connection limit.", "quantifier": "all interleavings of writes, sends and limit updates, all packet sizes", "why_tests_cant": "Depends on interleavings of limit updates and packet sizes.", "anchors": ["picoquic/frames.c: picoquic_format_stream_frame, picoquic_encode_length_of_stream_frame, picoquic_decode_max_data_frame, picoquic_decode_max_stream_data_frame"]}
{"id": "C16", "title": "Flow control limits never decrease", "statement": "Limits advertised to the peer and limits learned from the peer never decrease: an old or reordered MAX_DATA, MAX_STREAM_DATA or MAX_STREAMS frame has no effect.", "quantifier": "all sequences of frames in any order", "why_tests_cant": "Reordering space is unbounded.", "anchors": ["picoquic/frames.c: picoquic_format_max_data_frame, picoquic_decode_max_data_frame, picoquic_format_max_stream_data_frame, picoquic_decode_max_stream_data_frame, picoquic_format_max_streams_frame_if_needed, picoquic_decode_max_streams_frame"]}
{"id": "C17", "title": "STREAM frames round-trip for every packet size", "statement": "Whatever space is left in the packet, a STREAM frame formatted by picoquic fits in that space and is parsed back to the same stream ID, offset, FIN flag and data; when the length field is omitted the frame extends exactly to the end of the packet.", "quantifier": "all stream IDs, offsets, data and remaining packet sizes", "why_tests_cant": "Corner cases where the length field just fits occur at specific size combinations.", "anchors": ["picoquic/frames.c: picoquic_format_stream_frame_header, picoquic_encode_length_of_stream_frame, picoquic_format_stream_frame, picoquic_parse_stream_header"]}
{"id": "C18", "title": "Truncated packet numbers are recovered", "statement": "If the receiver has seen every number it will be compared with up to `highest`, and the true packet number is within half the encoding window of highest+1, then the full number reconstructed from its truncated encoding equals the true number, for every encoding length; the length chosen by the sender satisfies that condition for any receiver that has not received more than what was sent and has received the packet before the oldest one still awaiting acknowledgement, or a later one, with at most 2^31 packets outstanding.", "quantifier": "all packet numbers, all received states, all encoding lengths", "why_tests_cant": "2^62 packet numbers and window boundaries.", "anchors": ["picoquic/packet.c: picoquic_get_packet_number64, picoquic_remove_header_protection_inner", "picoquic/sender.c: picoquic_create_packet_header"]}
{"id": "C19", "title": "Parsing any packet payload terminates within the payload", "statement": "For every byte string, skipping one frame consumes at least one byte and at most the remaining bytes or fails, so scanning a packet for frames always terminates and never reads outside it; for the frames both can handle, the frame skipper and the frame decoder agree on where the frame ends.", "quantifier": "all byte strings of any length", "why_tests_cant": "Fuzzing cannot cover all inputs.", "anchors": ["picoquic/frames.c: picoquic_skip_frame, picoquic_decode_closing_frames, picoquic_skip_stream_frame, picoquic_skip_ack_frame_maybe_ecn, picoquic_skip_datagram_frame, picoquic_skip_new_connection_id_frame"]}
{"id": "C20", "title": "Transport parameters are read by the peer with the values set locally", "statement": "The transport parameter extension produced from a set of local parameters is accepted by a picoquic peer, and each parameter it reads has the value that was set (rounded up to milliseconds for max_ack_delay), including both ports of the preferred address.", "quantifier": "all parameter values", "why_tests_cant": "Dozens of independent 62-bit parameters.", "anchors": ["picoquic/transport.c: picoquic_prepare_transport_extensions, picoquic_receive_transport_extensions, picoquic_encode_transport_param_prefered_address, picoquic_decode_transport_param_prefered_address"]}
{"id": "C21", "title": "Illegal transport parameters are rejected", "statement": "Parsing a transport parameter extension terminates and stays in the extension; an extension that repeats a parameter, has a truncated value, or carries an illegal value (max_ack_delay of 2^14 ms or more, ack_delay_exponent over 20, stream count over 2^60, max_udp_payload_size below 1200) is rejected with a transport error.", "quantifier": "all byte strings", "why_tests_cant": "Values that wrap around after conversion are only found by considering all 62-bit values.", "anchors": ["picoquic/transport.c: picoquic_receive_transport_extensions, picoquic_transport_param_varint_decode"]}
{"id": "C22", "title": "The hash table behaves as a keyed collection", "statement": "After any sequence of insertions and deletions, a lookup returns an element with an equal key exactly when one was inserted and not deleted, the most recent one first, and the reported count is the number of elements, for any hash function, any number of bins and any collisions.", "quantifier": "all operation sequences, all hash functions, all bin counts > 0", "why_tests_cant": "Collisions patterns are unbounded.", "anchors": ["picoquic/picohash.c: picohash_insert, picohash_retrieve, picohash_delete_item, picohash_delete_key"]}
{"id": "C23", "title": "Address-validation tokens survive serialization", "statement": "A token record that picoquic can store is serialized and parsed back to the same server name, address, token and expiry, with the same length consumed; deserializing any byte string never reads outside it; and any token file picoquic writes can be read back by picoquic.", "quantifier": "all token records, all byte strings", "why_tests_cant": "Length fields interact; only boundary sizes break.", "anchors": ["picoquic/token_store.c: picoquic_serialize_token, picoquic_deserialize_token, picoquic_save_tokens, picoquic_load_tokens"]}
{"id": "C24", "title": "Stored tokens are only handed out to the right server, unexpired and unused", "statement": "A token returned by the store was stored for the requested server name (and address, if given), has not expired, and if tokens are taken with 'mark used' it is returned at most once; storing a newer token for the same server and address replaces the older ones.", "quantifier": "all sequences of store and get operations at non-decreasing times", "why_tests_cant": "Depends on the history of stores and gets.", "anchors": ["picoquic/token_store.c: picoquic_store_token, picoquic_get_token"]}
{"id": "C25", "title": "Pacing bounds the sending rate", "statement": "For every schedule of sends authorized by the pacer, the amount sent in any time interval is at most the bucket size plus one packet plus the pacing rate times the interval; and when the pacer blocks, waiting until the time it announces is enough for one packet to be authorized.", "quantifier": "all send schedules, all times, all rates", "why_tests_cant": "Quantifies over all intervals of all schedules.", "anchors": ["picoquic/pacing.c: picoquic_is_authorized_by_pacing, picoquic_update_pacing_data_after_send, picoquic_update_pacing_bucket"]}
{"id": "C26", "title": "The New Reno congestion window never falls below the minimum", "statement": "For every sequence of congestion notifications, the New Reno window stays at least two maximum packets, is halved (or reset to the minimum on timeout) at most once per recovery period, and never decreases on acknowledgements.", "quantifier": "all sequences of notifications and parameter values", "why_tests_cant": "Unbounded notification histories.", "anchors": ["picoquic/newreno.c: picoquic_newreno_sim_notify, picoquic_newreno_sim_enter_recovery, picoquic_newreno_sim_seed_cwin, picoquic_newreno_sim_reset"]}
{"id": "C27", "title": "RTT estimates stay within the range of the measurements", "statement": "After any sequence of RTT measurements, the minimum and maximum RTT are the smallest and largest samples, the smoothed RTT lies between them, the deviation estimate is at most the larger of the spread and half the largest sample, and the retransmission timer is at least the smoothed RTT plus three deviations. A sample is never reduced below the known minimum by the acknowledgement delay claimed by the peer.", "quantifier": "all sequences of samples and acknowledgement delays", "why_tests_cant": "Unbounded histories.", "anchors": ["picoquic/timing.c: picoquic_update_path_rtt"]}
{"id": "C28", "title": "Retransmission timer backoff is monotone and bounded", "statement": "For a fixed path, the retransmission delay never decreases as the number of consecutive retransmissions grows, and stays under the documented caps.", "quantifier": "all timer values and retransmission counts", "why_tests_cant": "Shift arithmetic over all counts.", "anchors": ["picoquic/timing.c: picoquic_current_retransmit_timer"]}
{"id": "C29", "title": "Control frames lost in the network are sent again while they still matter", "statement": "When a packet carrying a RESET_STREAM, STOP_SENDING, MAX_DATA, MAX_STREAM_DATA, MAX_STREAMS, MAX_PATH_ID, NEW_CONNECTION_ID, RETIRE_CONNECTION_ID or similar frame is declared lost, the frame is queued again unless it was acknowledged or superseded.", "quantifier": "all connection states and frame contents", "why_tests_cant": "Needs the loss of every frame type in every relevant state.", "anchors": ["picoquic/frames.c: picoquic_check_frame_needs_repeat, picoquic_check_reset_stream_needs_repeat, picoquic_max_path_id_frame_needs_repeat, picoquic_paths_blocked_frame_needs_repeat, picoquic_check_max_streams_frame_needs_repeat"]}
{"id": "C30", "title": "Stream data lost in the network is sent again until acknowledged", "statement": "For any packet sizes and loss pattern, every stream byte (and the FIN) that was sent and not acknowledged is either in a packet still considered in flight or queued for retransmission; the retransmitted bytes are those originally sent at that offset.", "quantifier": "all loss and acknowledgement patterns, all packet sizes", "why_tests_cant": "Unbounded interleavings of loss, partial retransmission and acks.", "anchors": ["picoquic/frames.c: picoquic_queue_data_repeat_packet, picoquic_copy_stream_frame_for_retransmit, picoquic_format_stream_frame_for_retransmit, picoquic_check_stream_frame_already_acked, picoquic_process_ack_of_stream_frame"]}
{"id": "C31", "title": "Peer connection IDs are stored consistently", "statement": "For any sequence of NEW_CONNECTION_ID frames, the stash never holds two different IDs for one sequence number nor one ID under two sequence numbers, an ID whose sequence number is below 'retire prior to' is never used for new packets, repeated frames are harmless, and conflicting ones cause a connection error.", "quantifier": "all sequences of NEW_CONNECTION_ID frames", "why_tests_cant": "Reordering and duplication space unbounded.", "anchors": ["picoquic/frames.c: picoquic_decode_new_connection_id_frame", "picoquic/quicctx.c: picoquic_enqueue_cnxid_stash, picoquic_remove_not_before_cid"]}
{"id": "C32", "title": "Retiring a local connection ID removes just that ID", "statement": "A RETIRE_CONNECTION_ID frame for a sequence number never issued is a protocol violation, otherwise it retires exactly the ID with that sequence number, and repeating it has no further effect.", "quantifier": "all sequences of retire frames", "why_tests_cant": "Histories unbounded.", "anchors": ["picoquic/frames.c: picoquic_decode_retire_connection_id_frame", "picoquic/quicctx.c: picoquic_retire_local_cnxid"]}
{"id": "C33", "title": "Peer-opened streams respect the advertised stream count and open in order", "statement": "A frame on a peer-initiated stream above the advertised limit is a STREAM_LIMIT_ERROR and creates nothing; otherwise, all lower-numbered streams of the same type are created exactly once and closed streams are never reopened; a frame on a locally initiated stream not yet opened is a STREAM_STATE_ERROR.", "quantifier": "all sequences of stream IDs", "why_tests_cant": "Histories unbounded.", "anchors": ["picoquic/frames.c: picoquic_create_missing_streams, picoquic_find_or_create_stream"]}
{"id": "C34", "title": "The stream limit learned from the peer is the one the peer sent", "statement": "After any transport parameters and MAX_STREAMS frames, the endpoint opens at most as many streams of each type as the largest count the peer announced, including when that count is zero; a MAX_STREAMS count above 2^60 is an error, any smaller one is accepted.", "quantifier": "all counts and frame sequences", "why_tests_cant": "Boundary at zero and at 2^60 after arithmetic on 64-bit identifiers.", "anchors": ["picoquic/frames.c: picoquic_decode_max_streams_frame", "picoquic/transport.c: picoquic_receive_transport_extensions", "picoquic/picoquic_internal.h: STREAM_ID_FROM_RANK, STREAM_RANK_FROM_ID"]}
{"id": "C35", "title": "Lost data is retransmitted in priority order", "statement": "When several packets wait for data retransmission, data of the stream with the highest priority (lowest value) is sent first, then by stream and offset.", "quantifier": "all sets of queued packets", "why_tests_cant": "Comparator must be right for all pairs.", "anchors": ["picoquic/frames.c: picoquic_queue_data_repeat_compare, picoquic_queue_data_repeat_packet, picoquic_first_data_repeat_packet"]}
{"id": "C36", "title": "Datagrams are delivered whole", "statement": "A datagram accepted for sending is encoded in a frame whose decoded content is exactly the submitted bytes, in the encoding with explicit length as well as in the one that fills the packet; a datagram is never truncated, split or merged, and one larger than the local limit is rejected.", "quantifier": "all datagram contents and packet sizes", "why_tests_cant": "The no-length encoding with front padding only occurs for certain sizes.", "anchors": ["picoquic/frames.c: picoquic_format_datagram_frame, picoquic_provide_datagram_buffer_ex, picoquic_decode_datagram_frame, picoquic_decode_datagram_frame_header"]}
{"id": "C37", "title": "A path is validated only by echoing a challenge sent on it", "statement": "A PATH_RESPONSE validates an address only if it carries one of the challenge values issued for that address on that path, and a PATH_CHALLENGE from a known address is answered with the same 8 bytes.", "quantifier": "all sequences of challenges and responses", "why_tests_cant": "Adversarial responses.", "anchors": ["picoquic/frames.c: picoquic_decode_path_challenge_frame, picoquic_decode_path_response_frame, picoquic_format_path_challenge_frame, picoquic_format_path_response_frame"]}
{"id": "C38", "title": "Queued control frames leave in order, whole, exactly once", "statement": "Frames queued by picoquic_queue_misc_frame for a packet context are placed in packets in the order queued, unmodified, each exactly once, whatever the packet sizes.", "quantifier": "all queue contents and packet sizes", "why_tests_cant": "Depends on interleavings of sizes and contexts.", "anchors": ["picoquic/frames.c: picoquic_queue_misc_or_dg_frame, picoquic_format_first_misc_or_dg_frame, picoquic_format_misc_frames_in_context, picoquic_find_first_misc_frame"]}
{"id": "C39", "title": "Streams are scheduled by priority", "statement": "The stream chosen for the next frame is one that has something to send and is allowed to send it, and no other such stream has a strictly higher priority.", "quantifier": "all sets of streams and flow control states", "why_tests_cant": "Depends on all queue states.", "anchors": ["picoquic/frames.c: picoquic_find_ready_stream_path", "picoquic/quicctx.c: picoquic_insert_output_stream, picoquic_reorder_output_stream"]}
{"id": "C40", "title": "Newer ACK_FREQUENCY, PATH_AVAILABLE and MAX_PATH_ID updates win", "statement": "For any arrival order of sequence-numbered updates, the settings in force are those of the frame with the highest sequence number received (or the largest limit), and an IMMEDIATE_ACK frame triggers an immediate acknowledgement wherever it stands in the packet.", "quantifier": "all arrival orders", "why_tests_cant": "Permutations of updates.", "anchors": ["picoquic/frames.c: picoquic_decode_ack_frequency_frame, picoquic_decode_path_available_or_backup_frame, picoquic_decode_max_path_id_frame, picoquic_decode_immediate_ack_frame"]}
{"id": "C41", "title": "A 64-bit value too large for a QUIC integer is never sent as another value", "statement": "When a value of 2^62 or more is given to the variable-length integer encoders (for instance an application error code passed to picoquic_reset_stream or picoquic_close), it is refused rather than silently replaced on the wire by a different value.", "quantifier": "all 64-bit integers from 2^62 up", "why_tests_cant": "Tests use small values.", "anchors": ["picoquic/intformat.c: picoquic_varint_encode", "picoquic/util.c: picoquic_frames_varint_encode"]}
{"id": "C42", "title": "Secret comparison is exact", "statement": "The constant-time comparison used for stateless reset secrets reports equality exactly when the two strings are equal.", "quantifier": "all pairs of strings of equal length", "why_tests_cant": "A sum of differences could cancel or wrap for particular strings only.", "anchors": ["picoquic/util.c: picoquic_constant_time_memcmp"]}
{"id": "C43", "title": "ACK range repetition counters are exact", "statement": "After any history of receptions, ACKs sent and acknowledged ACKs, the counters that drive the choice of ranges to include in an ACK equal the actual number of ranges sent that many times, so they never go negative and never drift.", "quantifier": "all histories", "why_tests_cant": "Drift appears only after long particular histories.", "anchors": ["picoquic/sacks.c: picoquic_sack_insert_item, picoquic_sack_delete_item, picoquic_sack_item_record_sent, picoquic_sack_item_record_reset, picoquic_update_sack_list"]}
{"id": "C44", "title": "Header protection is undone exactly", "statement": "For every header protection key, every packet with a long or short header and every position of the packet number such that the sample lies in the packet, removing the protection applied by a picoquic sender restores the first byte, the packet number bytes and the header, and leaves the payload untouched.", "quantifier": "all ciphers, packets, positions and packet numbers", "why_tests_cant": "Any cipher output and any packet content.", "anchors": ["picoquic/sender.c: picoquic_protect_packet_header, picoquic_create_packet_header", "picoquic/packet.c: picoquic_remove_header_protection_inner"]}
{"id": "C45", "title": "Stream credit is given back when a peer stream closes", "statement": "When a stream opened by the peer is finished in both directions (all data delivered or reset, and the local side finished), the limit on the number of peer streams announced to the peer grows by one, so that the peer is never starved.", "quantifier": "all histories of stream frames, resets and local closes", "why_tests_cant": "Depends on the order of the events that close each stream.", "anchors": ["picoquic/frames.c: picoquic_delete_stream_if_closed, picoquic_is_stream_closed, picoquic_decode_stream_reset_frame"]}
{"id": "C46", "title": "The end of a stream needs no flow control credit", "statement": "When the application has asked for the end of a stream and all its data has been sent, the FIN is sent in the next packet, even if the flow control limits of the peer are exactly used up.", "quantifier": "all histories and packet sizes", "why_tests_cant": "Needs a limit that is exactly used up when the application closes the stream.", "anchors": ["picoquic/frames.c: picoquic_find_ready_stream_path, picoquic_format_stream_frame"]}
{"id": "C47", "title": "A stream that can send is found", "statement": "After any history, if some stream has a frame to send that the peer's limits allow, the sender finds a stream to serve: no stream is forgotten.", "quantifier": "all histories of stream creation, limits, writes, resets and sends", "why_tests_cant": "A stream dropped from the list of output streams is seen only in particular orders of events.", "anchors": ["picoquic/frames.c: picoquic_find_ready_stream_path", "picoquic/quicctx.c: picoquic_insert_output_stream, picoquic_add_output_streams, picoquic_remove_output_stream"]}
{"id": "C48", "title": "The bytes sent on a stream are the bytes written", "statement": "After any history, the data of the STREAM frames sent on a stream, in order of sending, is a prefix of the data the application gave for the stream; each frame carries the number of bytes sent before it as offset; a RESET_STREAM frame carries the number of bytes sent as final size and no new STREAM frame follows it.", "quantifier": "all histories, data, packet sizes and interleavings of streams", "why_tests_cant": "Depends on how data is cut into frames in all packet sizes.", "anchors": ["picoquic/frames.c: picoquic_format_stream_frame, picoquic_format_stream_reset_frame, picoquic_format_available_stream_frames", "picoquic/sender.c: picoquic_add_to_stream"]}
{"id": "C49", "title": "FIN marks the end of the data, once", "statement": "A new STREAM frame carries FIN only if the application has asked for the end of the stream in a call that succeeded; the FIN is at the end of all data accepted for the stream, and no new STREAM frame follows it.", "quantifier": "all histories of calls and packets", "why_tests_cant": "Depends on the order of calls and sends.", "anchors": ["picoquic/frames.c: picoquic_format_stream_frame", "picoquic/sender.c: picoquic_add_to_stream, picoquic_mark_active_stream"]}
{"id": "C50", "title": "Filling a packet ends", "statement": "In any state that calls of the API and frames of the peer can produce, the preparation of the stream frames of a packet ends.", "quantifier": "all histories, packet sizes and answers of the application", "why_tests_cant": "An endless loop appears only for particular combinations of flags.", "anchors": ["picoquic/frames.c: picoquic_format_available_stream_frames, picoquic_find_ready_stream_path, picoquic_format_stream_frame"]}
{"id": "C51", "title": "Bytes in transit are those of the packets in flight", "statement": "In every history of packets sent, numbers skipped, packets declared lost and ACK frames received, well formed or not, the bytes counted as in transit are the total size of the packets in flight; each acknowledged packet was sent and is counted once.", "quantifier": "all histories of sends, skipped numbers, losses and received ACK frames, all bytes of the frames", "why_tests_cant": "The congestion window is compared with this counter; drift appears only after long histories.", "anchors": ["picoquic/sender.c: picoquic_queue_for_retransmit, picoquic_dequeue_retransmit_packet, picoquic_insert_hole_in_send_sequence_if_needed", "picoquic/frames.c: picoquic_process_ack_range, picoquic_check_spurious_retransmission"]}
{"id": "C52", "title": "ACK frames report the ranges reported least", "statement": "When all ranges of received packets do not fit in the 32 further ranges of an ACK frame, no range is left out while a range reported more often is sent; ranges reported at most four times are all sent if they fit.", "quantifier": "all histories of receptions and ACK frames sent", "why_tests_cant": "Depends on the counters of many ranges.", "anchors": ["picoquic/sacks.c: picoquic_sack_select_ack_ranges, picoquic_sack_item_record_sent", "picoquic/frames.c: picoquic_format_ack_frame_in_context"]}
{"id": "C53", "title": "A packet is read as one sequence of frames, in order", "statement": "For every payload, the frames processed are those of the unique decomposition of the payload into frames of RFC 9000 and of the supported extensions, in order; processing stops at the first frame that is malformed, refused or found wrong, and nothing after it has an effect; if the whole payload is well formed and acceptable, all frames are processed.", "quantifier": "all byte strings, kinds of packets, roles, negotiated extensions and reactions of the connection to frames", "why_tests_cant": "There are unboundedly many payloads; a confusion appears only for particular sequences of bytes.", "anchors": ["picoquic/frames.c: picoquic_decode_frames and the picoquic_decode_*_frame functions"]}
{"id": "C54", "title": "Frames that are not allowed close the connection", "statement": "A frame that RFC 9000 does not allow in this kind of packet, that only a server may send, or that belongs to an extension that was not negotiated, or whose fields break a limit, is not processed and closes the connection with a transport error.", "quantifier": "all frames, kinds of packets, roles, negotiated extensions, and positions in the packet", "why_tests_cant": "The product of frames, packet kinds, roles and extensions is large, and the position in the packet matters.", "anchors": ["picoquic/frames.c: picoquic_decode_frames, picoquic_decode_immediate_ack_frame, picoquic_decode_path_abandon_frame"]}
{"id": "C55", "title": "Ack-eliciting packets are acknowledged, probes do not migrate", "statement": "After a packet is accepted, an acknowledgement is scheduled exactly if the packet has an ack-eliciting frame; the packet counts as a sign of migration exactly if it is a 1-RTT packet with a non-probing frame and has the largest number of such packets.", "quantifier": "all payloads made of frames", "why_tests_cant": "Ranges over all combinations of frames in a packet.", "anchors": ["picoquic/frames.c: picoquic_decode_frames, picoquic_skip_frame"]}
{"id": "C56", "title": "Each frame formatter writes its frame or nothing", "statement": "For every content that can be represented and every space left in the packet, each frame formatter writes exactly one frame with this content if it fits, and nothing otherwise; a receiver that accepts the frame gets the same content. A CRYPTO frame carries the next bytes of the handshake data at their offset.", "quantifier": "all frame contents and all spaces left in the packet", "why_tests_cant": "Tests use a few contents and large buffers.", "anchors": ["picoquic/frames.c: picoquic_format_*_frame"]}
{"id": "C57", "title": "A malformed frame closes the connection", "statement": "When a packet that passed decryption has a frame that does not parse, the connection is closed with a transport error.", "quantifier": "all payloads, all positions of the malformed frame", "why_tests_cant": "Ranges over all truncations and corruptions of all frames.", "anchors": ["picoquic/frames.c: picoquic_decode_frames and the picoquic_decode_*_frame functions"]}
{"id": "C58", "title": "The idle timeout is the smaller of the two advertised", "statement": "After the exchange of transport parameters, the idle timeout in use is the smaller of the two advertised values that are not zero, converted to microseconds, and there is none if both are zero.", "quantifier": "all pairs of legal settings", "why_tests_cant": "Conversions of large values only go wrong for values that no test uses.", "anchors": ["picoquic/transport.c: picoquic_receive_transport_extensions"]}
{"id": "C59", "title": "Both ends agree on the negotiated options", "statement": "After a client and a server with legal settings have exchanged their transport parameters, they agree on the options in use: same idle timeout, multipath with the same limits, ACK frequency and BDP frames in use at both or at none; what one sends (loss bits, time stamps, observed addresses) is what the other expects, and one clears the QUIC bit only if the other has advertised that it accepts it.", "quantifier": "all pairs of legal settings, all available rooms for the extensions", "why_tests_cant": "The product of all options at both ends is too large for tests.", "anchors": ["picoquic/transport.c: picoquic_prepare_transport_extensions, picoquic_receive_transport_extensions, picoquic_negotiate_multipath_option"]}
{"id": "C60", "title": "Packets are routed by the connection IDs the peers know", "statement": "After any history of connections opened and deleted and of connection IDs issued and retired, a packet is routed to a connection exactly when its destination connection ID was issued for that connection and is not retired. No connection ID is issued to two connections or twice, and the IDs of a connection are numbered 0, 1, 2, \u2026 without gaps.", "quantifier": "all histories of all connections of an endpoint", "why_tests_cant": "A stale or missing entry needs a particular interleaving of connections, retirements and packets that do not fit.", "anchors": ["picoquic/quicctx.c: picoquic_create_local_cnxid, picoquic_delete_local_cnxid_listed, picoquic_retire_local_cnxid, picoquic_register_cnx_id, picoquic_cnx_by_id", "picoquic/sender.c: picoquic_format_new_local_id_as_needed"]}
{"id": "C61", "title": "The peer is never given more connection IDs than it accepts", "statement": "Each NEW_CONNECTION_ID frame leaves the peer with at most as many connection IDs, not counting those which the frame asks it to retire, as its active_connection_id_limit.", "quantifier": "all histories, all limits, all lifetimes of connection IDs", "why_tests_cant": "The count depends on which IDs expired and which were retired in between, in every order.", "anchors": ["picoquic/sender.c: picoquic_format_new_local_id_as_needed", "picoquic/quicctx.c: picoquic_check_local_cnxid_ttl"]}
{"id": "C62", "title": "The peer is given enough connection IDs", "statement": "When packets have room, the peer is given new connection IDs until it knows as many as the smaller of its limit and nine.", "quantifier": "all histories, all limits", "why_tests_cant": "Extreme limits are not tried by tests.", "anchors": ["picoquic/sender.c: picoquic_format_new_local_id_as_needed"]}
{"id": "C63", "title": "Data are only sent to validated addresses", "statement": "The application data of an established connection are only placed in packets sent to an address pair which is valid at that time: the one of the handshake, or one for which a PATH_RESPONSE with an expected value was received, and for which the validation was not suspended since.", "quantifier": "All histories of packets from any address, probes, challenges, responses, ICMP messages and packet preparations.", "why_tests_cant": "The violating history needs two ICMP messages and three lost challenges in a row.", "anchors": ["picoquic/paths.c: picoquic_prepare_tuple_challenge_frames, picoquic_select_next_path_tuple", "picoquic/sender.c: picoquic_prepare_segment, picoquic_prepare_packet_ready", "picoquic/quicctx.c: picoquic_notify_destination_unreachable"]}
{"id": "C64", "title": "Datagrams respect the limit announced by the peer", "statement": "A DATAGRAM frame that is sent is never larger than the max_datagram_frame_size which the peer announced; if the peer announced 0 or nothing, none is sent.", "quantifier": "all limits, all datagrams, both interfaces for sending them, all packet sizes", "why_tests_cant": "Peers which announce small limits are not part of the tests, and the two interfaces check different things.", "anchors": ["picoquic/frames.c: picoquic_queue_datagram_frame, picoquic_provide_datagram_buffer_ex, picoquic_format_ready_datagram_frame"]}
{"id": "C65", "title": "A datagram accepted for sending does not block the others", "statement": "A datagram which the interface accepted is placed in a packet when the path has credit, or given up; it does not prevent later datagrams from being sent.", "quantifier": "all sizes of datagrams and packets, all histories", "why_tests_cant": "Depends on the combination of connection ID length, MTU and datagram size.", "anchors": ["picoquic/frames.c: picoquic_queue_datagram_frame, picoquic_format_first_datagram_frame", "picoquic/sender.c: picoquic_prepare_datagram_ready"]}
{"id": "C66", "title": "Acknowledgements are sent in time", "statement": "An ack-eliciting packet is acknowledged at the latest when the acknowledgement delay in force has passed since it arrived, and as soon as the number of packets set by the acknowledgement gap in force has arrived since the last acknowledgement; until then the stack asks to be woken up no later than this deadline.", "quantifier": "all histories of packets received on any path, settings changed by the peer, questions and acknowledgements sent, with and without multipath", "why_tests_cant": "Depends on the interleaving of arrivals, changes of the settings and acknowledgements; tests use few traces.", "anchors": ["picoquic/frames.c: picoquic_set_ack_needed, picoquic_is_ack_needed, picoquic_is_ack_needed_in_ctx, picoquic_format_ack_frame", "picoquic/sacks.c: picoquic_record_pn_received"]}
{"id": "C67", "title": "Acknowledging a packet acknowledges its frames and nothing else", "statement": "When a packet is acknowledged, each frame it carried that the sender tracks (limits, resets, stream and crypto data, connection IDs, status of paths, end of the handshake) is not repeated any more; nothing that was not in the packet is treated as acknowledged.", "quantifier": "all histories of frames sent, packets acknowledged and lost, all contents of packets", "why_tests_cant": "The acknowledged packet is parsed a second time by other parsers; a wrong offset shows only for certain combinations of frames.", "anchors": ["picoquic/frames.c: picoquic_process_ack_of_frames, picoquic_process_ack_of_max_path_id_frame, picoquic_process_ack_of_paths_blocked_frame, picoquic_process_ack_of_path_cid_blocked_frame, picoquic_process_ack_of_observed_address_frame"]}
{"id": "C68", "title": "Connection IDs made for a load balancer carry the server ID", "statement": "When a load balancer configuration is accepted, the server ID decoded from any connection ID that the server then creates is the configured one, whatever the random bytes, the method (clear, stream cipher, block cipher) and the key. Two servers with different server IDs never create the same connection ID, the random bytes outside of the server ID are not lost, the first byte has the rotation bits and the length as asked, a connection ID of another length is never attributed to a server, and the configuration texts which are accepted are exactly those of the documented format. No configuration makes the program write out of its buffers.", "quantifier": "All configurations, all configuration texts, all random bytes, all block ciphers.", "why_tests_cant": "A test uses a few configurations and a few random values; a wrong offset or a lost bit shows only for certain lengths, keys and random values.", "anchors": ["picoquic/picoquic_lb.c: picoquic_lb_compat_cid_config, picoquic_lb_compat_cid_generate, picoquic_lb_compat_cid_verify, picoquic_lb_compat_cid_config_parse", "picoquic/quicctx.c: picoquic_create_local_cnx_id"]}
{"id": "C69", "title": "The packets of a datagram are received as they were sent", "statement": "The packets that a connection puts in one datagram (Initial, 0-RTT, Handshake, 1-RTT, any supported version, any connection IDs, token, packet number within the window and content, greased or not) are delivered by the receiver in the same order, each with the same type, connection IDs, token, packet number and content, provided the receiver has the keys when the turn of the packet comes. Each packet is treated for itself: one that is in advance of its keys, or was received before, does not prevent the others from being received.", "quantifier": "all lists of packets, all contents, headers, ciphers and states of the receiver, including changes of the state while the packets are processed", "why_tests_cant": "The result depends on lengths, masks and the order of key installation; tests use a few datagrams of a real handshake.", "anchors": ["picoquic/sender.c: picoquic_create_packet_header, picoquic_create_long_header, picoquic_update_payload_length, picoquic_protect_packet, picoquic_pad_to_target_length", "picoquic/packet.c: picoquic_incoming_packet_ex, picoquic_parse_packet_header, picoquic_parse_header_and_decrypt, picoquic_remove_packet_protection"]}
{"id": "C70", "title": "Any datagram is processed within bounds, and only authentic content is delivered", "statement": "Whatever bytes a datagram has, its processing ends, reads and writes stay in the datagram and the buffers, the content of an encrypted packet is used only if it was authenticated with keys of a known connection under a packet number not received before, and a packet is taken for a stateless reset only if it ends with a reset secret of the peer.", "quantifier": "all datagrams of all lengths, all states of the receiver, all ciphers", "why_tests_cant": "Attackers choose the bytes; tests and fuzzers see a vanishing part of the datagrams.", "anchors": ["picoquic/packet.c: picoquic_incoming_packet_ex, picoquic_parse_long_packet_header, picoquic_parse_short_packet_header, picoquic_parse_header_and_decrypt, picoquic_remove_packet_protection"]}
{"id": "C71", "title": "The send buffer is not overrun and trains can be cut", "statement": "When the application asks for the next packets to send with a buffer of the accepted size, nothing is written behind the end of the buffer and the returned length is at most the size of the buffer; when it accepts a train of several datagrams, cutting the returned bytes every returned message size gives exactly the datagrams which were made, none larger than the MTU except for MTU probes; and the call ends.", "quantifier": "all buffer sizes, MTU values and all sequences of packets which the connection may have to send: initial, handshake, 0-RTT, 1-RTT, MTU probes, errors, in any order", "why_tests_cant": "tests use buffers of 1536 bytes or of 64K and the usual sequences of packets", "anchors": ["picoquic/sender.c: picoquic_prepare_packet_ex, picoquic_prepare_next_packet_ex"]}
{"id": "C73", "title": "Address tokens validate an address once and for a limited time", "statement": "A server takes the address of a client to be valid at its first packet only if the packet has a token which this server gave to this address at most 124 seconds (Retry) or 48 hours (NEW_TOKEN) before, and each token validates once. When tokens are required, because the application asks for it, because of the number of half-open connections, or because the port is a blocked one, no connection is created without a valid token. A stale NEW_TOKEN token never prevents a connection.", "quantifier": "all histories of tokens given out, settings changed and Initial packets received, at all times and from all addresses", "why_tests_cant": "A test uses a token once or twice; replay, expiry and use from another address must be refused in every history, whatever was issued and cleared before.", "anchors": ["picoquic/tls_api.c:picoquic_prepare_retry_token", "picoquic/tls_api.c:picoquic_verify_retry_token", "picoquic/quicctx.c:picoquic_registered_token_check_reuse", "picoquic/packet.c:picoquic_screen_initial_packet", "picoquic/port_blocking.c:picoquic_check_port_blocked"]}
{"id": "C74", "title": "A client that is sent a Retry packet connects", "statement": "The client finds the token and the new connection ID in the Retry packet of the server; it takes only a Retry packet whose tag is valid for its own first connection ID, and only one. Its next Initial packet is admitted by the server with its address validated and its first connection ID known.", "quantifier": "all connection IDs, versions, tokens, servers and clients; all Retry packets, also forged ones", "why_tests_cant": "Tests use a server with connection IDs of 8 bytes; every allowed configuration and every forged packet must be right.", "anchors": ["picoquic/packet.c:picoquic_queue_stateless_retry", "picoquic/packet.c:picoquic_incoming_retry", "picoquic/packet.c:picoquic_screen_initial_packet", "picoquic/tls_api.c:picoquic_verify_retry_protection"]}
{"id": "C72", "title": "A server does not amplify", "statement": "Until the address of the client is validated, a server has sent at most three times the bytes that it received from it; the address is validated only by a packet which only a client at this address can send, and a packet that fits in the limit is not held back.", "quantifier": "all sequences of datagrams received, packets in them, packets asked for and packets sent to close the connection, all lengths and contents", "why_tests_cant": "An attacker chooses the sequence of datagrams and how they are divided in packets; tests see a few handshakes.", "anchors": ["picoquic/packet.c: picoquic_incoming_segment, picoquic_incoming_client_initial, picoquic_incoming_client_handshake", "picoquic/sender.c: picoquic_prepare_packet_server_init, picoquic_prepare_packet_almost_ready, picoquic_prepare_packet_closing"]}
{"id": "C75", "title": "Answers to packets of no connection are safe and understood", "statement": "A stateless reset is sent only for a 1-RTT packet of an unknown connection; it is shorter than this packet, not sent more often than the configured interval, ends with the secret of the connection ID and is recognized by the peer; resets and version negotiation packets do not cause endless exchanges. A packet of an unknown version is answered by a version negotiation packet which is shorter than the datagram, has only bytes of it, and lists all supported versions; the client accepts it exactly when it echoes its connection IDs, lists a version that it knows and not the one it proposed. Blocked ports get no answer.", "quantifier": "all packets, lengths, times, random numbers, connection IDs, versions and sequences of packets", "why_tests_cant": "Lengths and random numbers are chosen by attackers or at random; tests use a few packets.", "anchors": ["picoquic/packet.c: picoquic_process_unexpected_cnxid, picoquic_prepare_version_negotiation, picoquic_incoming_version_negotiation, picoquic_incoming_segment"]}
{"id": "C76", "title": "A key update never cuts the connection", "statement": "Both ends may change the keys of the packets. After any number of key updates, a packet that an end sends is decrypted by the other end, and the other end answers with keys at least as new; packets with the keys before that arrive late are still read for a while; forged packets are not decrypted and change no keys; and once an update was answered another one can be started. (It is proved for one path when only one end starts updates or each one waits for the keys before to be used by the peer; in the code, both ends starting at the same time can cut the connection for ever, an update can be refused although all was received, and with several paths new keys on a path without packets are never accepted.)", "quantifier": "all histories of packets sent, delivered in any order, repeated, lost and forged, and of key updates started by both ends", "why_tests_cant": "the states of the two ends depend on the order of arrival of packets with three generations of keys", "anchors": ["picoquic/packet.c: picoquic_remove_packet_protection", "picoquic/tls_api.c: picoquic_compute_new_rotated_keys, picoquic_apply_rotated_keys", "picoquic/quicctx.c: picoquic_start_key_rotation"]}
{"id": "C77", "title": "Huffman-coded header strings are decoded as they were encoded", "statement": "A string in an HTTP/3 header that was Huffman-coded as RFC 7541 says is decoded as the same string, whatever its bytes. For any bytes from the peer, decoding ends, reads and writes only inside of its buffers and tables, and gives a string whose codes are the bits of the input; bits that are no code and no padding are an error. (In the code, a string that decodes to more than 256 bytes is cut there without an error, and padding of more than seven bits and the code for the end of strings are accepted, with all that follows ignored.)", "quantifier": "all strings, and all bytes that a peer may send", "why_tests_cant": "the decoder is a walk over two packed tables with a registry of 64 bits; tests try a few strings", "anchors": ["picohttp/h3zero.c: hzero_qpack_huffman_decode, h3zero_qpack_huffman_bit, h3zero_qpack_huffman_val, h3zero_parse_qpack_header_value"]}
{"id": "C78", "title": "HTTP/3 header frames give the application what the peer sent", "statement": "Whatever header fields a peer sends in a header frame, in any of the representations of QPACK without the dynamic table (by index, by a reference to a name, or with a literal name, with or without Huffman codes), the application is told the method, path, range, status, type of contents and protocol that were sent, independently of the representation; a frame in which one of them is repeated is refused. The requests and responses that the library itself creates fit in the buffer that was given and parse to the same fields. Parsing any received bytes ends and reads nothing outside the tables and the frame.", "quantifier": "all lists of header fields, all representations of each, all values; all strings given to the functions that create frames and all sizes of buffers; all received bytes", "why_tests_cant": "The number of frames has no bound, and each field can be sent in many ways; tests use the few frames that browsers produce. Index 99, one behind the end of the static table, a status of eleven digits and a path of 300 bytes in Huffman codes are not among them.", "anchors": ["picohttp/h3zero.c: h3zero_parse_qpack_header_frame, h3zero_parse_qpack_header_value, h3zero_qpack_int_encode, h3zero_qpack_int_decode, h3zero_create_request_header_frame_ex, h3zero_create_post_header_frame_ex, h3zero_create_connect_header_frame, h3zero_create_response_header_frame_ex", "picohttp/h3zero.h: h3zero_header_parts_t"]}
{"id": "C79", "title": "An HTTP/3 message arrives whole, however its stream is cut", "statement": "The frames of an HTTP/3 request or response give the application the contents of the DATA frames, in order and nothing else, and the fields of the first frame of headers as header fields and of the second one as trailer fields. The result is the same however the bytes of the stream are cut into pieces. A sequence of frames that is no message (contents before the header fields or after the trailer fields, a third frame of headers, a frame of another stream, fields that cannot be decoded) is refused. A stream that begins as a web transport stream gives all its other bytes to that session. A client writes to its file just the contents. A message that ends in the middle of a frame is not taken for complete.", "quantifier": "every list of frames, every encoding of their types and lengths, every cutting of the bytes into pieces", "why_tests_cant": "the parser keeps its place in the middle of a number, a header or the contents; a test tries a few cuttings of a few messages, not all of them", "anchors": ["picohttp/h3zero_common.c: h3zero_parse_data_stream", "picohttp/h3zero_common.c: h3zero_process_h3_client_data", "picohttp/h3zero_common.c: h3zero_process_h3_server_data", "picohttp/h3zero_common.c: h3zero_callback_data"]}
{"id": "C80", "title": "The settings of HTTP/3 arrive as they were sent, and a malformed control stream is refused", "statement": "The settings that an endpoint sends on its control stream are the settings that the other side then has, however the bytes of the stream are cut into pieces. A control stream that begins with a non-empty SETTINGS frame of at most 65536 bytes, followed by frames that may follow it, is accepted, and each setting has the last value given, or 0. A control stream that begins with another frame, whose settings are not pairs, that has a second SETTINGS frame or a frame of request streams is refused. A web transport stream of a known session gives the application exactly the bytes behind its header; that of an unknown session is refused; streams of other types are ignored.", "quantifier": "All settings, all lists of frames and all their encodings, all cuttings of the stream into pieces, all sets of web transport sessions.", "why_tests_cant": "The parser keeps partial numbers and partial frames between pieces; tests use few cuttings and few lists of frames.", "anchors": ["picohttp/h3zero_common.c: h3zero_settings_encode, h3zero_settings_components_decode, h3zero_parse_control_stream, h3zero_parse_remote_unidir_stream, h3zero_parse_remote_bidir_stream, h3zero_wt_parse_control_stream_id, h3zero_process_remote_stream", "picohttp/h3zero.c: h3zero_varint_from_stream"]}
{"id": "C81", "title": "Closing a connection: it stays closed, ends in time, sends little, gives its reason, and the application is told once", "statement": "A connection that is being closed never goes back to an earlier state; when it is over it stays over, no packet is sent and no callback made. It is over within three retransmission timeouts of the first packet asked for, and asks to be called by then. It does not leave the closing state earlier, except for the peer's close, a stateless reset, the idle timer, or the application. Meanwhile it sends at most one packet and one more for each packet received, at least a round trip apart, and nothing while draining. The packets give the reason of the first close or error, whatever happens later. The application is told of the end, once. An established connection ends exactly when nothing was received for the idle timeout or three retransmission timeouts; a handshake that does not complete ends at its timeout; one that fails ends after at most two packets.", "quantifier": "All histories of closes, errors, packets with any frames, stateless resets, TLS results, keys and requests for packets at any times, all states, timers and error codes.", "why_tests_cant": "Closing depends on twenty states, on what arrives in each of them and on several timers; tests close in a few of them and do not look at all orders of events.", "anchors": ["picoquic/sender.c: picoquic_prepare_packet_closing, picoquic_check_idle_timer, picoquic_prepare_segment, picoquic_prepare_packet_ex, picoquic_close, picoquic_close_immediate", "picoquic/quicctx.c: picoquic_connection_error_ex, picoquic_connection_disconnect", "picoquic/frames.c: picoquic_decode_connection_close_frame, picoquic_decode_application_close_frame, picoquic_decode_closing_frames, picoquic_decode_frames", "picoquic/packet.c: picoquic_incoming_1rtt, picoquic_incoming_client_handshake, picoquic_incoming_stateless_reset", "picoquic/tls_api.c: picoquic_tls_stream_process"]}
{"id": "C82", "title": "Packets are declared lost by the rules, and no lost packet is forgotten", "statement": "A packet that waits for its acknowledgement is declared lost exactly when a packet at least three numbers later was acknowledged, or a later one was and the packet has been overtaken for the reordering delay; never because of a timer alone. Its timer expires one retransmission timeout after the last packet sent, or two after its own sending if more was sent since. No packet leaves the queue without a decision: acknowledged, lost, or repeated, once. After an acknowledgement no packet overtaken by three waits. While packets wait the connection asks to be called when the timer of the last one expires at the latest; when it has expired one packet is repeated, and only one until that was sent.", "quantifier": "All queues of packets of all kinds, all times, round trip times, timeouts, acknowledgement states and connection states.", "why_tests_cant": "Whether losses are found depends on the combination of packet numbers, send times, timers, and kinds of packets; tests simulate a few loss patterns and cannot show that no packet is ever forgotten.", "anchors": ["picoquic/loss_recovery.c: picoquic_retransmit_needed, picoquic_retransmit_needed_loop, picoquic_retransmit_needed_packet, picoquic_is_packet_probably_lost, picoquic_queue_retransmit_on_ack"]}
{"id": "C83", "title": "The parameters in the query of a request are read as they were written, and the request reaches the handler of its path", "statement": "The query of a path is what follows the first question mark. A parameter is the value of the first field with its name, percent-decoded; the call succeeds exactly if the value is properly encoded and fits the buffer, which is never overrun. A numeric parameter is the decimal number written there, the default if it is absent or empty, and an error if it is no number or does not fit in 64 bits. A request is given to the first handler registered for its path without the query.", "quantifier": "All paths, queries, names without separators, values, encodings, buffer sizes, handler tables.", "why_tests_cant": "Queries come from the network; which name, encoding, position or number goes wrong depends on all the bytes, and tests use a dozen queries.", "anchors": ["picohttp/h3zero_uri.c: h3zero_query_offset, h3zero_query_parameter_position, h3zero_query_parameter_pchar, h3zero_query_parameter_string, h3zero_query_parameter_number", "picohttp/h3zero_common.c: h3zero_find_path_item", "picohttp/h3zero_server.c: picohttp_find_path_item", "picohttp/wt_baton.c: wt_baton_ctx_path_params"]}
{"id": "C84", "title": "A request reads only files below the web folder, and /N gives N bytes", "statement": "A file that is read because of a request has a name made of that of the web folder and a path of letters, digits, hyphens, underlines, dots and slashes with no segment that leads upwards: it never leaves the folder. No folder, no file. The buffer for the name is long enough. Files with plain names are found. A path that is a number and no file gives that many bytes if it is less than 2^62, and is not found otherwise; bytes are given for nothing else.", "quantifier": "All request paths, folder names and file systems.", "why_tests_cant": "Directory traversal is a matter of all strings a peer can send; tests try six bad ones.", "anchors": ["picohttp/h3zero_server.c: demo_server_is_path_sane, demo_server_try_file_path, h3zero_server_parse_path"]}
{"id": "C85", "title": "Session tickets are given to the right connections, survive the file, and replace each other", "statement": "A session ticket received from a server is given only to later connections with the same server name, protocol and version, with the parameters that came with it, until the time at which it says it expires; the most recent one is given. Tickets written to a file are read back the same, whatever follows in the file, in the same order, without those that are expired or used; reading any bytes stays inside them. A ticket marked as used is not given again.", "quantifier": "every ticket and store, every buffer size and byte sequence, every history of tickets received, connections, questions of the application and new processes", "why_tests_cant": "The result depends on the whole history of the store, on every combination of string lengths in the records, and on arbitrary bytes in the file; tests use a few tickets of fixed sizes.", "anchors": ["picoquic/ticket_store.c: picoquic_format_ticket, picoquic_serialize_ticket, picoquic_deserialize_ticket, picoquic_store_ticket, picoquic_get_stored_ticket, picoquic_get_ticket_and_version, picoquic_save_tickets, picoquic_load_tickets, picoquic_update_stored_ticket", "picoquic/tls_api.c: picoquic_client_save_ticket_call_back, picoquic_initialize_tls_stream"]}
{"id": "C86", "title": "HTTP/3 datagrams reach the session of their sender, and sessions take turns", "statement": "A datagram that a session of an HTTP/3 connection sends carries the number of its stream divided by four and the data of its application, fits the space of the packet, and the peer gives that data to its session of the same stream and to no other. After each request for a datagram the connection asks again exactly if a session is ready. A session that always has something to send sends at least once when the connection asks as many times as there are sessions, whatever the others do.", "quantifier": "every list of sessions, every state, space, number of stream and behaviour of the applications; every history of requests and of sessions that become ready", "why_tests_cant": "Fairness is about all behaviours of the other sessions over time, and the format about all stream numbers and sizes; tests have one or two sessions.", "anchors": ["picohttp/h3zero_common.c: h3zero_callback_datagram, h3zero_provide_datagram_buffer, h3zero_callback_prepare_datagram_in_context, h3zero_callback_prepare_datagram, h3zero_set_datagram_ready, h3zero_declare_stream_prefix"]}
{"id": "C87", "title": "Capsules arrive whole, and only as they were sent", "statement": "The messages and datagrams that one end of a web transport session puts in capsules on the control stream arrive at the other end, in order, whole and unchanged, however the stream is cut into pieces; capsules of unknown types are ignored; and no bytes from the peer make the receiver touch memory outside of its buffers.", "quantifier": "every sequence of bytes on the control stream, every way of cutting it into pieces, every capsule type, value, error code and message, every outcome of memory allocation", "why_tests_cant": "A test feeds one capsule in three ways; it cannot try all cuts of all streams, and no test in the repository feeds a second capsule.", "anchors": ["picohttp/h3zero_common.c: h3zero_accumulate_capsule, h3zero_receive_datagram_capsule", "picohttp/webtransport.c: picowt_receive_capsule, picowt_send_close_session_message, picowt_send_drain_session_message"]}
{"id": "C88", "title": "Path MTU discovery", "statement": "The packets that are sent on a path have at first a size that all paths of the Internet carry; the size grows only when a larger packet was acknowledged on this path; it never exceeds what the peer or this end allow; probes are written within their buffers; if the path no longer carries large packets the size falls back; and the search ends.", "quantifier": "every history of packets, probes, acknowledgments, late acknowledgments, losses, timers, abandoned packets and moves, every limit of each end, every policy, buffer and amount of data", "why_tests_cant": "Tests simulate a few links; the bounds must hold for every order of losses and acknowledgments and every pair of limits.", "anchors": ["picoquic/sender.c: picoquic_next_mtu_probe_length, picoquic_is_mtu_probe_needed, picoquic_prepare_mtu_probe", "picoquic/loss_recovery.c: picoquic_check_path_mtu_on_losses", "picoquic/quicctx.c: picoquic_reset_path_mtu, picoquic_set_mtu_max", "picoquic/frames.c: picoquic_process_ack_of_frames and the update of send_mtu"]}
{"id": "C89", "title": "Both ends use the same version, and nobody else can change it", "statement": "A client uses the version that the application asks for if it is supported, otherwise version 1. Both ends of a connection change to the version that the client prefers if a change is defined, and keep the first version otherwise. Packets and version lists made by others than the two ends do not change the version that is used: a forged version list is detected, a downgrade is detected, a forged packet has no effect.", "quantifier": "every version asked for, preferred or rejected, every version information, every sequence of versions of packets", "why_tests_cant": "Tests try version 1 and version 2; the claim is about all pairs of versions, and about packets and lists which only an attacker sends.", "anchors": ["picoquic/quicctx.c: picoquic_create_cnx, picoquic_process_version_upgrade, picoquic_set_desired_version, picoquic_set_rejected_version", "picoquic/transport.c: picoquic_encode_transport_param_version_negotiation, picoquic_process_tp_version_negotiation", "picoquic/packet.c: picoquic_parse_header_and_decrypt"]}
{"id": "C90", "title": "Connections are served in the order of their wake times, and nobody oversleeps", "statement": "A context with many connections tells the application how long it may sleep: never past the time at which a connection is to be woken up, nor past the alarm that the application has set for a connection. A request for a packet serves the connection that has waited longest among those whose time has come, so that each one is served after the others that were before it. Packets without connection leave in order, each once.", "quantifier": "every history of creations, deletions, events, alarms, queued packets and requests, at all times and with any number of connections", "why_tests_cant": "Tests run one or two connections over a simulated link; the claim is about the order of any number of connections after any history, including those in which somebody keeps others waiting.", "anchors": ["picoquic/quicctx.c: picoquic_reinsert_by_wake_time, picoquic_get_earliest_cnx_to_wake, picoquic_get_next_wake_time, picoquic_get_next_wake_delay, picoquic_get_wake_delay, picoquic_queue_stateless_packet, picoquic_set_app_wake_time, picoquic_create_cnx", "picoquic/sender.c: picoquic_prepare_next_packet_ex, picoquic_handle_app_wake_time, picoquic_program_app_wake_time"]}
{"id": "C91", "title": "Packets that arrive before their keys are kept and processed once", "statement": "When packets overtake each other during the handshake, a packet whose keys are not yet there is kept. Once the keys have come the next packet prepared processes it, wherever it was in its datagram and whatever has arrived in between. No packet is processed twice, none without its keys, and none that is forged.", "quantifier": "every history of datagrams (of any number of packets, authentic or forged, in any order) and of prepared packets, at clients and servers", "why_tests_cant": "Tests reorder a few packets of one handshake; the list of kept packets is changed while it is walked through, and whether something falls out depends on the order of all arrivals.", "anchors": ["picoquic/packet.c: picoquic_incoming_not_decrypted, picoquic_process_sooner_packets, picoquic_incoming_segment, picoquic_incoming_packet_ex", "picoquic/tls_api.c: picoquic_update_traffic_key_callback", "picoquic/sender.c: picoquic_prepare_packet_ex"]}
{"id": "C92", "title": "No two packets are encrypted with the same key and the same nonce", "statement": "Whatever happens in a connection (Retry, 0-RTT, key updates, skipped packet numbers, paths opened by either side, given up and replaced), no two packets are ever encrypted with the same key and the same nonce, and the numbering of a path never makes an invalid access to memory.", "quantifier": "every history of packets sent, Retry, handshake completion, key updates, connection IDs given and received, paths opened by the peer or the application, and paths given up; both roles, with and without multipath", "why_tests_cant": "A nonce used twice cannot be seen by an endpoint: everything decrypts. It depends on the order in which connection IDs, path openings and path abandons cross each other, of which tests run a few.", "anchors": ["picoquic/sender.c: picoquic_finalize_and_protect_packet, picoquic_protect_packet, picoquic_insert_hole_in_send_sequence_if_needed, picoquic_client_almost_ready_transition, picoquic_prepare_packet_client_init", "picoquic/quicctx.c: picoquic_init_packet_ctx, picoquic_create_path, picoquic_find_avalaible_unique_path_id, picoquic_check_new_path_allowed, picoquic_probe_new_path_ex, picoquic_demote_path, picoquic_delete_path, picoquic_reset_cnx", "picoquic/paths.c: picoquic_find_incoming_path", "picoquic/frames.c: picoquic_decode_new_connection_id_frame", "picoquic/tls_api.c: picoquic_aead_encrypt_mp"]}
{"id": "C93", "title": "The messages of the handshake reach TLS whole, in order and at their level", "statement": "Whatever the order, loss, repetition and overlap of the packets, TLS is given at each encryption level exactly the bytes of the peer's stream for this level, in order, as soon as they are there; a peer that keeps to the protocol is never accused of a violation; the data that wait are bounded; and what TLS writes at a level is sent in CRYPTO frames that carry each byte at its position.", "quantifier": "every TLS machine, and every history of CRYPTO frames at any level and offset, completed packets and packets sent with any room", "why_tests_cant": "Handshakes of tests arrive nearly in order, and their flights are short; the ways in which frames of several levels can be cut, repeated and mixed with the changes of level of TLS are unbounded.", "anchors": ["picoquic/tls_api.c: picoquic_tls_stream_process, picoquic_add_to_tls_stream, picoquic_initialize_tls_stream", "picoquic/frames.c: picoquic_decode_crypto_hs_frame, picoquic_format_crypto_hs_frame, picoquic_queue_network_input", "picoquic/picoquic.h: PICOQUIC_TRANSPORT_CRYPTO_BUFFER_EXCEEDED"]}
{"id": "C94", "title": "Received data stay what they are until they are given, and no buffer is used after it was freed", "statement": "Data that arrive before earlier data are kept without change until they are given to the application or to TLS, although the buffer of the packet is itself used to keep them and the buffers are recycled from packet to packet and from connection to connection; no buffer is ever in use twice, freed twice or used after it was freed; and the memory used is in proportion to the data that flow control allows.", "quantifier": "every history of packets, of all connections of a QUIC context, with any frames, any pieces that must wait, and any data given in between; any limit of the pool", "why_tests_cant": "Which buffer is taken, shared and recycled depends on the order of the frames in a packet, on the gaps in all streams and on what is given in between; tests see a few of these orders and never fill the pool.", "anchors": ["picoquic/quicctx.c: picoquic_stream_data_node_alloc, picoquic_stream_data_node_recycle, picoquic_stream_data_node_delete", "picoquic/frames.c: add_chunk_node, picoquic_queue_network_input, picoquic_stream_data_callback, picoquic_is_last_stream_frame, picoquic_decode_crypto_hs_frame", "picoquic/packet.c: picoquic_incoming_segment", "picoquic/tls_api.c: picoquic_tls_stream_process"]}
{"id": "C95", "title": "The response to a GET request has the body asked for, and the length it announces", "statement": "The HTTP/3 server answers a GET request with one HEADERS frame and one DATA frame, or with the headers of an error; the DATA frame carries the content of the file, the number of bytes asked for, or the default page; its announced length is exactly the number of bytes sent, however small the pieces that the sender takes, with the end of the stream exactly after them; a file that became shorter is an error, not other bytes.", "quantifier": "every path, web folder and file system, every size of the headers and of the file, and every sequence of room offered by the sender", "why_tests_cant": "Where the body is cut depends on the room in every packet; tests try a few sizes and one sequence of packet sizes.", "anchors": ["picohttp/h3zero_common.c: h3zero_process_request_frame, h3zero_prepare_to_send_buffer"]}
{"id": "C96", "title": "With several paths, data go on the best path that may be used, paths take turns, and abandoning a path is safe", "statement": "On a connection with several paths, a packet of data goes on a path that was validated and not abandoned, with the least losses, and on a backup path only if it does better than all the others; paths that could send all the time take turns; acknowledgements go on the path with the shortest delay; abandoned paths are deleted after their delay and no other is; and after every sequence of paths added, validated, changed and abandoned by either peer, the next packet has a path with a connection ID.", "quantifier": "every list of paths, all pacing, window and stream conditions, every sequence of packets, and every history of events on the paths", "why_tests_cant": "The choice depends on the order, losses, status and last use of all the paths together; tests use two paths and abandon one of them.", "anchors": ["picoquic/paths.c: picoquic_verify_path_available, picoquic_sort_available_paths, picoquic_select_next_path_tuple", "picoquic/quicctx.c: picoquic_demote_path, picoquic_delete_abandoned_paths, picoquic_abandon_path", "picoquic/frames.c: picoquic_decode_path_abandon_frame", "picoquic/sender.c: picoquic_create_packet_header, picoquic_predict_packet_header_length"]}
{"id": "C97", "title": "Ending a stream early: reset, stop-sending and discard", "statement": "A reset by the peer and a request to stop sending are each reported to the application once, with the code that the peer gave; after the application asks the peer to stop, or discards a stream, it gets no more data or callbacks; after RESET_STREAM nothing is sent on the stream and nothing is accepted; a stream can be reset until the peer has all of it; and the frames that result are ones that the role of the end on the stream allows, and reach the peer.", "quantifier": "every history of calls, frames sent and frames received on a stream, for client and server, every stream ID and every code", "why_tests_cant": "The calls and frames of both directions interleave in many orders; tests reset or stop a few bidirectional streams, at a client.", "anchors": ["picoquic/sender.c: picoquic_reset_stream, picoquic_stop_sending, picoquic_discard_stream, picoquic_add_to_stream", "picoquic/frames.c: picoquic_decode_stream_reset_frame, picoquic_decode_stop_sending_frame, picoquic_format_stream_frame, picoquic_stream_data_chunk_callback, picoquic_delete_stream_if_closed", "picoquic/quicctx.c: picoquic_get_remote_stream_error"]}
{"id": "C98", "title": "The options of the configuration are read as they were written", "statement": "A number, a version in hexadecimal, a reset seed, a text or a flag given as an option on the command line or through the API is stored as it was written if it is in the range of the option, and refused otherwise; no option changes what belongs to another, the last value counts, and a value that is refused changes nothing; every option is found by its letter and its name, and nothing else is accepted; the settings are then used, or the context is not made.", "quantifier": "every option, every text, every configuration, every sequence of options, every size of buffer", "why_tests_cant": "The texts and sequences of options are unlimited; tests set a few options to one or two values each.", "anchors": ["picoquic/config.c: config_set_option, config_atoi, config_parse_target_version, config_set_string_param, picoquic_config_set_option, picoquic_config_command_line, picoquic_config_command_line_ex, picoquic_config_option_letters, picoquic_config_get_option_name_index, picoquic_create_and_configure, picoquic_config_init", "picoquic/util.c: picoquic_parse_hexa", "picoquic/tls_api.c: picoquic_set_cipher_suite_in_ctx", "picoquic/quicctx.c: picoquic_get_congestion_algorithm, picoquic_set_mtu_max"]}
{"id": "C99", "title": "Early data keep to the remembered limits, are sent again if refused, and the limits of the server are kept then", "statement": "A client that resumes a session sends stream data before the handshake is over only within the limits remembered from that session; if the server refuses them, each is sent again, once, and not as early data; if it accepts them none is sent again for that reason; and once the parameters of the server are known, everything that is sent, new or again, is within the limits that the server gives.", "quantifier": "every remembered and every given set of limits, every sequence of writes and packets before and after the parameters of the server, every increase of the limits", "why_tests_cant": "Limits, sizes and orders of events are unlimited; tests resume a session with a server that gives the same limits.", "anchors": ["picoquic/quicctx.c: picoquic_start_client_cnx, picoquic_create_stream", "picoquic/tls_api.c: picoquic_initialize_tls_stream, picoquic_tls_stream_process", "picoquic/transport.c: picoquic_clear_transport_extensions, picoquic_receive_transport_extensions", "picoquic/frames.c: picoquic_update_stream_initial_remote, picoquic_find_ready_stream, picoquic_format_stream_frame", "picoquic/sender.c: picoquic_prepare_packet_0rtt, picoquic_add_to_stream", "picoquic/loss_recovery.c: picoquic_is_packet_probably_lost"]}
{"id": "C100", "title": "The Prague congestion window stays within its bounds and reacts to marks once in a round trip", "statement": "For every sequence of acknowledgements, counts of marks, losses, timeouts and measurements, the window of the Prague algorithm is at least two packets; it falls only on marks, losses and resets, by at most half on an acknowledgement, and for marks at most once in a round trip; if all packets of a round were marked it is halved; without marks it grows as that of New Reno; and a loss that was none gives back what it took.", "quantifier": "every sequence of events with any values, counts of marks from the peer included", "why_tests_cant": "Sequences of events are unlimited, and the counts come from the peer; tests run some simulated connections.", "anchors": ["picoquic/prague.c: picoquic_prague_notify, picoquic_prague_update_alpha, picoquic_prague_enter_recovery, picoquic_prague_reset, picoquic_prague_reset_l3s, picoquic_prague_init", "picoquic/cc_common.c: picoquic_cc_slow_start_increase_ex2, picoquic_cc_update_target_cwin_estimation", "picoquic/frames.c: picoquic_decode_ack_frame"]}
{"id": "C101", "title": "The FAST congestion window stays within its bounds and is reduced once in a round trip", "statement": "For every sequence of acknowledgements, measurements, marks, losses and timeouts, the window of the FAST algorithm is at least two packets and at most ten packets and all the bytes acknowledged; a loss or a mark halves it, a timeout reduces it to the minimum, and a delay takes an eighth, only after four measurements in a row beyond the threshold; it is reduced once in a round trip; and acknowledgements do not reduce it.", "quantifier": "every sequence of events with any values and times", "why_tests_cant": "Sequences of events and times are unlimited; tests run some simulated connections.", "anchors": ["picoquic/fastcc.c: picoquic_fastcc_notify, fastcc_notify_congestion, picoquic_fastcc_reset, picoquic_fastcc_init, picoquic_fastcc_seed_cwin, picoquic_fastcc_delay_threshold"]}
{"id": "C102", "title": "What is written to a byte stream is read from it, and neither leaves the buffer", "statement": "For every list of numbers, buffers, connection IDs, texts and addresses and every buffer: the functions that write stay within the buffer and succeed exactly if all fits; a value that does not fit makes all later writing fail; a reader that asks for the same kinds gets the same values; whatever the bytes are, the functions that read stay within the buffer and within the space of the caller; and skipping a value moves as far as reading it.", "quantifier": "every buffer, every position in it, every contents and every list of values", "why_tests_cant": "Lists, contents and lengths are unlimited, and readers get files that anyone may have written.", "anchors": ["picoquic/bytestream.c: bytewrite_vint, byteread_vint, bytewrite_int8, byteread_int8, bytewrite_int16, byteread_int16, bytewrite_int32, byteread_int32, bytewrite_int64, byteread_int64, bytewrite_buffer, byteread_buffer, bytewrite_cid, byteread_cid, bytewrite_cstr, byteread_cstr, bytewrite_addr, byteread_addr, bytestream_skip, byteread_skip_vint, byteskip_cid, byteskip_cstr, byteskip_addr, bytestream_error"]}
{"id": "C103", "title": "No key is used for more packets than the limit", "statement": "For every limit set by the application or by the cipher and every history of packets sent and received, lost and forged, and of key updates by either end: no key encrypts many more packets than the limit, because a key update is started by itself when the limit is passed; and keys are not replaced before that without a reason.", "quantifier": "every limit, every history of packets sent, received, forged or lost, with or without multipath, at any time", "why_tests_cant": "The limit is in the millions and the numbers of packets, losses and key updates are unlimited; a test sees a few updates of one transfer.", "anchors": ["picoquic/sender.c: picoquic_prepare_packet_ready, picoquic_insert_hole_in_send_sequence_if_needed, picoquic_finalize_and_protect_packet, picoquic_prepare_packet_ex", "picoquic/quicctx.c: picoquic_start_key_rotation, picoquic_set_crypto_epoch_length"]}
{"id": "C104", "title": "The spin bit turns once in a round trip, and only if the policy says so", "statement": "For every history of packets sent, lost and received: an observer of the packets sees the spin bit change once in a round trip of the path, because the client changes its bit only when the change before has gone all the way; the bit of a packet is the one that was set, whatever the rest of the header; a policy that does not use the bit never sets it, more than one connection in 16 does not use it by default, and no policy that the interface accepts leads outside the table of functions.", "quantifier": "every history of packets on every path, every order of arrival, every policy, every random value", "why_tests_cant": "The schedules of sending, loss and arrival in both directions are unlimited; tests look at one transfer over a simulated link.", "anchors": ["picoquic/spinbit.c: picoquic_spinbit_basic_incoming, picoquic_spinbit_basic_outgoing, picoquic_spin_function_table", "picoquic/sender.c: picoquic_create_packet_header", "picoquic/packet.c: picoquic_incoming_1rtt, picoquic_parse_short_packet_header", "picoquic/quicctx.c: picoquic_set_default_spinbit_policy, picoquic_set_spinbit_policy, picoquic_cnx_set_spinbit_policy, picoquic_create_cnx"]}
{"id": "C105", "title": "Marks of congestion and losses are reported as they were", "statement": "For every history of packets that arrive with and without marks and of ACK frames that arrive in any order or are lost: the counts of the receiver are the numbers of packets with each mark; the sender never knows of more, its counts never decrease, and it knows the counts of every report that has arrived; the congestion control is told once for each report of more marks of congestion, and only then. With loss bits, an observer sees a square signal that changes every 64 packets, and each loss that was found is reported once.", "quantifier": "every history of packets and marks, every order and loss of ACK frames, every report of any peer, every history of losses", "why_tests_cant": "Orders and losses of ACK frames are unlimited; tests use a few marks on one simulated link.", "anchors": ["picoquic/packet.c: picoquic_ecn_accounting, picoquic_parse_short_packet_header", "picoquic/frames.c: picoquic_format_ack_frame_in_context, picoquic_decode_ack_frame", "picoquic/sender.c: picoquic_protect_packet", "picoquic/loss_recovery.c: picoquic_retransmit_needed_packet"]}
{"id": "C106", "title": "An error of the network only concerns the path of its addresses", "statement": "For every list of paths and every pair of addresses: two addresses are equal when version of IP, IP address and port are equal, and only then; a path is found by its two addresses if there is one; an error that the application reports for a pair of addresses puts the path of these addresses out of use, and no other path; an error for addresses of no path changes nothing; the last path in use is only tested with a challenge, since the error could be forged.", "quantifier": "every list of paths, every address of IPv4 and IPv6 with any bytes in the unused fields, every report with or without local address", "why_tests_cant": "Lists of paths and addresses are unlimited; a test reports one error for one simulated address.", "anchors": ["picoquic/util.c: picoquic_compare_addr, picoquic_compare_ip_addr", "picoquic/quicctx.c: picoquic_find_path_by_address, picoquic_notify_destination_unreachable, picoquic_demote_path"]}
{"id": "C107", "title": "A client moves to the address that the server prefers", "statement": "For every value of the preferred address parameter, every address in use and hosts of both byte orders: a client that has read the parameter probes the address and the port that the server gave, of the IP version it uses now if the server gave one; it never probes a protected port (unless the protection is disabled) or the address it uses; it keeps its local address if the version is the same; without address in the parameter there is no move.", "quantifier": "every value of the parameter, every pair of addresses in use, both byte orders, protection of ports enabled or not", "why_tests_cant": "Values and addresses are unlimited; the test has a picoquic server that stores the port in the same wrong order, so that the two errors cancel.", "anchors": ["picoquic/sender.c: picoquic_prepare_server_address_migration", "picoquic/transport.c: picoquic_decode_transport_param_prefered_address", "picoquic/port_blocking.c: picoquic_check_addr_blocked"]}
{"id": "C108", "title": "Slow start is left for a lasting increase of the delay, and not for less", "statement": "For every history of measured round trip times: the test used in slow start looks at the least and the greatest of the last seven delays taken, at most one each millisecond; it says to leave slow start only after fourteen delays at least, when the last seven are all more than a quarter above the greatest of some seven successive delays; it never says so while all delays are within a quarter of each other; and it says so after thirteen successive delays that are all more than a quarter above seven successive earlier ones. The start-up phase of BBR on links of long delay is also left for losses: never without loss, and always when a sixth of the bytes or more are lost.", "quantifier": "every sequence of delays at any times, every sequence of reports of losses", "why_tests_cant": "Sequences of delays are unlimited; tests use a few simulated links with nearly constant delays.", "anchors": ["picoquic/cc_common.c: picoquic_cc_filter_rtt_min_max, picoquic_cc_hystart_test, picoquic_cc_hystart_loss_volume_test", "picoquic/bbr.c: BBRCheckStartupLongRtt"]}
{"id": "C109", "title": "When only backup paths are left, one becomes available", "statement": "For every set of paths with at least one that is being put out of use: if the paths left in use are all backup paths, one of them becomes an available path and the peer is told so; if a path that is not a backup path is left, the status of no path changes.", "quantifier": "every list of paths, each in use or not, backup or not, of any length", "why_tests_cant": "The number of paths and their states have many combinations; tests have two paths.", "anchors": ["picoquic/quicctx.c: picoquic_delete_abandoned_paths"]}
