# Formal model of picoquic in Lean 4: design and trusted base

## Approach

The C source in `/repo` is read as text and re-written, function by function, as total
computable Lean 4 functions under `lean/Verif/Model/`. Every definition carries a comment
citing the file and lines it models and any simplification. Independent specifications live
in `lean/Verif/Spec/`, helper lemmas in `lean/Verif/Proof/`, and the property theorems, with
non-vacuity examples beside them, in `lean/Verif/Props/`.

Conventions:

* **Bytes and buffers.** A `uint8_t*`/`bytes_max` pair is a `List UInt8` holding the bytes that
  remain; advancing the pointer is `drop`. A decoder returns `Option (value × rest)`; `none` is the
  C `NULL`. Encoders return `Option` of the bytes written, given the number of bytes of room.
* **Integers.** `uint64_t` values are `Nat` where the code cannot wrap, and `UInt64`/`BitVec 64`
  or explicit `% 2^64` where wrap-around is possible or matters. Signed quantities are `Int`.
* **Undefined behaviour** (out of bounds index, over-wide shift) is never totalised away: it is a
  distinct outcome or a stated precondition.
* **Loops** are structural recursion or folds over the list being walked.
* **Callbacks** to the application are recorded as a trace (list of events).
* **Mutable structures** are records threaded through a `step` function; properties over histories
  are proved by induction over the list of operations.

When the code violates a property, the negation is proved on a concrete witness (theorem
`…_violated`), and the part that does hold is proved as `…_partial`.

## Plan per property

| Id | What is modelled | How it is proved |
|----|------------------|------------------|
| C01 | both varint encoder/decoder families | round-trip law, by cases on the four lengths, arithmetic |
| C02 | all `picoquic_frames_*` basic decoders over arbitrary byte lists | output is a suffix of the input; skip/decode agreement by cases |
| C03 | fixed-width formats, CID codec, hex printing/parsing | round-trip laws, induction on lists |
| C04 | splay tree as a binary tree with rotations, insert/find/delete | in-order traversal refinement to a sorted list |
| C05 | SACK range list, merging loop | invariant (sorted, separated) + membership refinement to a set, induction over operations |
| C06 | ack-of-ack pruning | counterexample witness; partial theorem: without pruning, or above the pruned range |
| C07 | ACK frame formatting loop, RFC 9000 range semantics | soundness by induction over the emitted ranges; round trip with parser |
| C08 | ACK frame parsing arithmetic on 64-bit values | decision logic, every accepted range is within [0, largest sent] |
| C09 | packet list walk | list refinement to `filter`, induction |
| C10 | chunk list, gap filling, delivery loop | invariant relating chunks and delivered bytes to the sent stream; induction over frames |
| C11 | FIN logic of the same model | invariant on events trace |
| C12 | final size logic of STREAM and RESET_STREAM | witness of violation + partial |
| C13, C14 | flow-control check and accounting | invariant by induction over frames |
| C15 | stream frame formatting with limits | invariant by induction over operations |
| C16 | limit update functions | monotonicity by induction over frames |
| C17 | stream frame formatting/parsing | round-trip law for all spaces |
| C18 | packet number reconstruction | arithmetic on windows |
| C19 | whole frame skipper | length-decrease and suffix lemmas per frame, then composition |
| C20, C21 | transport parameter codec | round-trip, decision logic, witnesses of violations |
| C22 | chained hash table | refinement to a multimap, induction over operations |
| C23, C24 | token codec and store | round trip; history invariant |
| C25 | leaky bucket in integer nanoseconds (rate computation in `double` is not modelled) | telescoping invariant over schedules |
| C26 | New Reno window logic | invariant by induction over notifications |
| C27, C28 | RTT estimator and timer | invariants and monotonicity by induction |
| C29, C67 | "needs repeat" decisions, parsers of acknowledged packets (C67 appended) | mirror by frame, induction over histories of sending, acknowledging and losing; witnesses of violations |
| C30, C35 | data-repeat queue, loss and acknowledgement of STREAM frames | coverage invariant over all histories; measure for progress; witnesses of the dropped FIN and of the order |
| C31 | stash of the connection IDs of the peer, references of address tuples, RETIRE_CONNECTION_ID frames in flight, freed memory as an outcome | invariants by induction over all histories; witnesses of violations |
| C32 | local connection IDs and their registration | invariants by induction |
| C33, C34 | stream creation and limits | invariants; witness for zero |
| C36, C64, C65 | queue of datagrams, datagrams written by the application, preparation of packets | invariant of the packet in preparation (whole frames, or full), induction over histories; witnesses |
| C40, C66 | ACK contexts of the connection and of the paths, decoders of ACK_FREQUENCY, IMMEDIATE_ACK, path status and MAX_PATH_ID (appended) | refinement to what an observer of one packet number space sees, induction over histories; witnesses |
| C37, C63 | one path with its list of address tuples: challenges, responses, selection of the tuple for the next packet, ICMP messages | invariant by induction over histories; measure for the answers; witnesses of violations |
| C38 | queue of miscellaneous frames | FIFO refinement by induction over histories; blocked for ever when a frame does not fit |
| C39 | scheduler selection | minimality over list |
| C40 | sequence-numbered updates | induction over arrival orders; witness |
| C41 - C44 | stream input, limits (appended) | history invariants, witnesses |
| C45 | calls of `picoquic_update_max_stream_ID_local` on top of stream input, and the MAX_STREAMS decision | history invariants with a list of counted streams; witnesses |
| C46 - C50 | sending of streams: queues, flags, scheduler, packet filling loop | history invariant, loop measure, witnesses |
| C51, C52 | packets in flight, ACK range counters | history invariant |
| C53, C54, C57 | `picoquic_decode_frames` with every frame decoder's parser and checks; the effect of a frame is an arbitrary `Handler` | one step by cases on all frames, then induction over the payload; witnesses |
| C55 | `ack_needed`, `is_path_probing_packet` of the same loop | same induction |
| C56 | all frame formatters | composition of field writers, compared with the layout of each frame |
| C60 - C62 | local connection IDs of several connections and the routing table (appended) | invariants by induction over histories; witness |
| C58, C59 | exchange of two extensions through the same codec | composition of the C20 theorem in both directions |
| C68 | connection IDs for load balancers (appended) | mirror of generation, decoding and the parser of configurations, with an abstract block cipher; decoding inverts generation, grammar of texts, witnesses of violations |
| C69 | packets of a datagram (appended) | mirror of header creation, protection, parsing and the receive loop with abstract ciphers and an abstract machine for what is done with packets; induction over the packets of a datagram, witness of the violation |
| C70 | arbitrary datagrams (appended) | same model; case analysis of the parser for arbitrary bytes, induction over the turns of the loop, witness of the violation |
| C71 | Train: the two loops which fill the send buffer, for arbitrary segments | invariant by induction over the loops; cutting the bytes gives the datagrams back; counterexamples for small buffers and probes |
| C72 | Amplification: accounting of the bytes received and sent by a server before the address is validated | invariant over histories of datagrams and packets; counterexamples for closing and for empty connection IDs |
| C73 | Tokens: text, sealing with an arbitrary AEAD, verification, list of used tokens, screening of Initial packets | invariant over histories: a used token is remembered until it expires; round trip of the text of a token |
| C74 | Retry packet of the server, its parsing and acceptance by the client, admission of the next packet | composition of round trips (packet, token); violated for short connection IDs |
| C75 | Stateless: version negotiation (server, client), stateless reset with its rate limit | composition with the parser of packets, induction over sequences of packets; counterexamples for coalesced packets and long datagrams |
| C76 | KeyUpdate: the generations of keys of an end, the key phase, the window for old packets, and the start of an update; Spec/KeyUpdate: two ends and a network that reorders, repeats, loses and forges packets | invariant that relates the generations of the keys, the phases and the packets sent. |
| C77 | Huffman: the decoder with its registry and its two tables; the codes of RFC 7541 in Spec/Huffman | the registry refines a list of bits; each location of the tables is checked against the bits that lead to it; induction over iterations, unique decoding |
| C78 | `Model/Qpack`: the numbers with a prefix, the static table, the parser of header frames with its values, and the functions that create requests, posts, connects and responses; `Spec/Qpack` has the static table of RFC 9204, the representations and their bytes | the parser on the bytes of one line gives what setting its field gives (`parseLine_line`), by induction the same for frames; the created frames are shown to be the bytes of a list of lines |
| C79 | the parser of the frames of a request stream (h3zero_common.c 622-793) with its place in the middle of a type, a length or contents; the loops of servers and clients around it; the end of a stream; what a client does with the data | a measure shows that the loop needs no limit; one byte can always be split off (front of a frame: recursion byte by byte; contents: case distinction), hence any cutting; then induction over the frames of a specification with any encoding of the numbers. Differences from the specification are proved as violations |
| C80 | The encoding and decoding of settings, the parser of the control stream, the parsers of streams opened by the peer (h3zero_common.c 342-593, 851-884, 1899-1971) | Independence of the cutting by a lemma about one byte more, with an invariant of the state between pieces; then frames as a whole, by induction over the list of frames; settings as a fold over pairs; violations by computation |
| C81 | The states of a connection and all that changes them: closes, errors, close frames, packets by type and state, TLS, idle timer, packets of the closing states (sender.c 2302-2541, 3679-3790, 3866-4126; quicctx.c 4690-4740; frames.c 4135-4199, 6975-6998; packet.c 895-955, 1370-1990; tls_api.c 2530-2612) | Invariants by induction over all histories: order of states, time from which the end is counted, number and spacing of packets, reason, callbacks; violations by computation |
| C82 | Loss detection on the queue of packets waiting for an acknowledgement (loss_recovery.c 180-616, 1013-1073) | The rule by case analysis with 64-bit differences; the loops by induction over the queue; the violation by computation |
| C83 | h3zero_uri.c 120-316, the choice of handlers (h3zero_common.c 922-934, h3zero_server.c 224-235), parameters of the sample application (wt_baton.c 550-582) | The position found is that of the field of the specification, by induction over the query; decoding by induction over the encoded string; numbers with their bound |
| C84 | h3zero_server.c 50-185; the file system is a function from names to lengths | Invariant of the scan: no two dots next to each other; each segment is a piece of the path |
| C85 | ticket_store.c but the tickets issued by servers; the uses of the store in tls_api.c | Parsing: invariant of the seven steps (bytes of the fixed parts ahead). Files: induction on the store. Histories: invariants by induction on the uses, for the origin of each record, for the first record of a server, and for the count of unused records. |
| C86 | h3zero_common.c 171-214 and 1578-1769 (not the datagram capsules) | Loops as polling of the sessions in a rotated order; fairness by the number of sessions before the turn, which decreases with each datagram of another session. |
| C87 | h3zero_accumulate_capsule, picowt_receive_capsule, picowt_send_close_session_message, picowt_send_drain_session_message | one formula for the outcome of all bytes, proved by induction over the pieces; exact conditions of undefined behavior |
| C88 | picoquic_next_mtu_probe_length, picoquic_is_mtu_probe_needed, picoquic_prepare_mtu_probe, picoquic_check_path_mtu_on_losses, picoquic_reset_path_mtu, the updates on acknowledgment and loss | invariant over all histories; a rank that decreases with each lost probe |
| C89 | the version part of picoquic_create_cnx and picoquic_parse_header_and_decrypt, picoquic_set_desired_version, picoquic_set_rejected_version, version information | case analysis over the table of versions for all lists; induction over the packets |
| C90 | the wake list (quicctx.c 1347-1490), the queue of stateless packets, picoquic_set_app_wake_time, the scheduling part of picoquic_prepare_packet_ex and picoquic_prepare_next_packet_ex | refinement of the splay tree by a list, by induction over the history; rank argument for the bound on the wait |
| C91 | picoquic_incoming_not_decrypted, picoquic_process_sooner_packets, and the paths of picoquic_incoming_segment and picoquic_incoming_packet_ex that lead to them | invariant over histories: each part of a kept datagram that would be kept again is before it in the list; the flag is set whenever a kept packet can be tried |
| C92 | the numbers of packets in all contexts, the nonce, and the creation and deletion of paths and of the lists of connection IDs | invariant over histories: numbers used are below the counter of their context, identifiers of live paths differ, local IDs of a path that was given up are gone; counterexamples by computation and induction |
| C93 | the CRYPTO streams of the four levels in both directions; TLS is any machine; the list of chunks is that of C05 | invariant over histories on top of the reassembly of C05; induction on the chunks of a level and on the levels |
| C94 | the pool of buffers, the buffer of the packet, and the buffers of waiting data of all trees | invariant: pool, waiting data and the packet are disjoint; counting; induction on frames, pieces and histories; counterexamples by induction on the number of packets |
| C95 | the response buffer and the calls that send the body | induction on the calls of the sender; counterexample by evaluation |
| C96 | the choice of the path of the next packet, demotion and deletion of paths, and the events that lead to them | invariants of the loops (least losses, oldest use); induction on the packets sent and on the events; deletion by an invariant kept, deleted, rest; counterexamples by evaluation |
| C97 | one stream of one end, with the calls that end it early, the two frames, the callbacks and the deletion | conditions on the stream that last for every step; induction on the history; evaluation with variables for the violations |
| C98 | the table of options, the reading of the values, the command line, and the use of the cipher suite, the algorithm and the packet size | induction on the text; case analysis on the option; the table, which is finite, is evaluated whole |
| C99 | the limits of a client from the ticket and the parameters, the choice of what is sent, and the repeat of refused packets | invariant by induction over the history before and after the parameters; the list of early frames is followed to its end |
| C100 | the Prague algorithm with the counts of marks | invariant by induction over the events; the share of marks is bounded because it is an average of shares |
| C101 | the FAST algorithm | invariant by induction over the events |
| C102 | the buffers of the binary logs | each function that writes is shown to write a fixed string of bytes or to fail at the end of the buffer; decoding of that string; induction over the list |
| C103 | the count of packets per key and the start of key updates, on top of the model of key updates | invariants over all events: the count of packets with the present key is bounded by the packets since it was taken, and the number kept for the epoch is at most that plus what was left out |
| C104 | the bit at both ends, the packets on the way in both directions, and the choice of the policy | invariant: the cycle of bits from the client to the server and back has exactly one change |
| C105 | the counters of marks at both ends, the counts in ACK frames, the two loss bits | invariant over all events between the counters, the frames sent and the packets that arrived; induction over the packets for the loss bits |
| C106 | comparison of socket addresses, search of a path by addresses, the report of a destination that cannot be reached | induction over the list of paths; cases of the demotion of a path |
| C107 | the reading of the parameter, the choice of the address, the check of ports, byte order of the host | round-trip of the parameter; cases of the choice; arithmetic on the two bytes of a port |
| C108 | the ring of the last seven delays, the filtered minimum, the counter of high windows, the test of the volume of losses and its use | invariant over all measurements between the ring and the history; induction over the high delays |
| C109 | the loop over the paths that are left and the change of the backup flag | induction over the list of paths |

## Trusted base

* Lean 4.33.0 kernel and the standard axioms `propext`, `Classical.choice`, `Quot.sound` only.
* The faithfulness of the hand-written model to the C source (cited line by line).
* The specifications in `Verif/Spec/`, which say in a few lines what the words of the properties mean.
* No code is compiled or run; C compiler, allocator, TLS/crypto libraries are out of scope.
* No theorem uses an axiom of its own, `sorry`, `native_decide` or `bv_decide`.

<!-- generated: modelled code and axioms -->

### Parts of the code that are modelled

Collected from the citations in the model. A function counts as modelled when at least one of its lines is cited; the comment of the citing definition says what is simplified.

| File | Cited lines | Model modules |
|---|---|---|
| `bbr.c` | 2139-2152 | SlowStart |
| `bytestream.c` | 90-93, 106-115, 117-126, 128-137, 139-153, 169-178, 180-189, 201-211, 213-225, 227-237, 239-251, 253-263, 265-277, 279-289, 291-301, 305-310, 312-324, 326-332, 337-343, 345-361, 363-377, 379-392, 394-412, 414-425, 433-437 | ByteBuffer |
| `cc_common.c` | 70-97, 130-156, 158-193, 219-240, 275-288 | Prague, SlowStart, StreamLimits |
| `config.c` | 53-111, 115-146, 148-178, 190-209, 211-233, 235-451, 453-477, 510-535, 537-548, 550-561, 563-578, 580-616, 618-635, 637-652, 829-831, 862-876, 913-921 | Config |
| `democlient.c` | 473-502 | H3Data |
| `fastcc.c` | 39-43, 45-63, 65-72, 74-83, 85-92, 94-118, 126-161, 169-307 | FastCc |
| `frames.c` | 56-149, 155-179, 181-192, 197-221, 228-322, 324-377, 392-404, 411-450, 452-522, 534-550, 560-600, 607-624, 650-664, 672-784, 802-816, 839-859, 876-901, 904-950, 955-981, 993-1049, 1051-1072, 1074-1089, 1091-1126, 1129-1300, 1302-1308, 1310-1342, 1344-1416, 1426-1443, 1445-1464, 1466-1504, 1562-1590, 1592-1616, 1618-1630, 1632-1822, 1829-1863, 1888-1916, 1950-1998, 2000-2013, 2024-2141, 2157-2204, 2206-2245, 2269-2281, 2285-2319, 2358-2362, 2368-2396, 2398-2450, 2456-2499, 2501-2580, 2582-2606, 2974-3111, 3117-3154, 3156-3414, 3416-3445, 3450-3591, 3593-3659, 3661-3956, 3959-4006, 4008-4113, 4117-4134, 4136-4199, 4211-4228, 4230-4243, 4251-4253, 4271-4292, 4294-4325, 4334-4340, 4355-4380, 4384-4420, 4422-4442, 4444-4481, 4492-4502, 4506-4541, 4547-4600, 4606-4783, 4850-4865, 4867-4874, 4881-4903, 4905-4912, 4919-4942, 4944-4960, 4962-4986, 5003-5058, 5060-5203, 5207-5216, 5218-5229, 5231-5270, 5287-5292, 5329-5346, 5348-5356, 5375-5396, 5399-5411, 5440-5455, 5466-5471, 5508-5522, 5545-5558, 5609-5650, 5652-5677, 5680-5690, 5722-5768, 5779-5783, 5795-5806, 5857-5877, 5889-5893, 5905-5917, 5919-5935, 6000-6033, 6044-6051, 6064-6085, 6148-6172, 6239-6267, 6269-6314, 6354-6360, 6376-6973, 6975-6998 | AckFormat, AckProcess, AckSchedule, Buffers, Closing, DataRepeat, Datagram, DecodeFrames, EarlyData, Frames, LocalCids, LostFrames, Mtu, MultiPath, PathMarks, PathValidation, PeerCids, Prague, Sack, StreamCredit, StreamEnd, StreamFrame, StreamInput, StreamLimits, StreamSend, TlsStream |
| `h3zero.c` | 52-55, 57-77, 103-130, 132-166, 172-272, 334-347, 349-364, 366-382, 406-506, 508-538, 540-674, 704-718, 720-736, 755-797, 799-822, 824-857, 859-891, 900-929, 938-963, 1036-1062, 1140-1205, 1207-1720, 1722-1787 | H3Control, H3Data, Huffman, Qpack |
| `h3zero_common.c` | 171-214, 402-411, 413-488, 490-519, 521-544, 546-593, 622-793, 922-934, 995, 1003-1004, 1006-1028, 1098-1160, 1217-1283, 1291-1299, 1316-1361, 1364-1387, 1390-1472, 1477-1518, 1578-1769, 1899-1907, 1909-1940, 1942-1971, 2009-2087 | Capsule, H3Control, H3Data, H3Datagram, Uri, WebServer |
| `h3zero_server.c` | 50-185, 224-235 | Uri |
| `h3zero_uri.c` | 120-130, 133-143, 145-175, 188-226, 228-252, 254-316 | Uri |
| `intformat.c` | 27-31, 33-38, 40-46, 48-58, 68-83, 85-88, 90-126, 128-134, 136-162, 164-167 | IntFormat |
| `loss_recovery.c` | 180-616, 693-700, 712-780, 786-870, 874-894, 911, 957-993, 1013-1073 | AckProcess, DataRepeat, Datagram, EarlyData, LossDetect, LostFrames, Mtu, PathMarks |
| `newreno.c` | 36-43, 47-72, 76-86, 91-173, 184-189, 212-289 | NewReno |
| `pacing.c` | 28-35, 39-52, 57-60, 69-105, 155-175, 187-233, 238-245 | Pacing |
| `packet.c` | 38-83, 85-198, 201-386, 388-466, 468-487, 491-514, 519-605, 609-634, 640-741, 743-876, 889-1047, 1066-1171, 1384-1970, 1973, 1996-2044, 2048-2396, 2416-2480 | AckProcess, AckSchedule, Admission, Amplification, Buffers, Closing, KeyUpdate, PacketHeader, PacketNumber, PathMarks, Sack, Sooner, SpinBit, Stateless, VersionChoice |
| `paths.c` | 32-150, 239-259, 263-288, 294-326, 328-375, 384-393, 397-450, 456-487, 504-558, 655-719 | LocalCids, MultiPath, PathValidation, PeerCids |
| `picohash.c` | 30-59, 68-83, 85-110, 112-143, 145-155 | Hash |
| `picoquic_lb.c` | 42-52, 54-59, 61-73, 84-101, 113-121, 126-148, 150-205, 236-387, 389-495 | LoadBalancer |
| `picosplay.c` | 40-57, 67-70, 75-78, 81-88, 102-138, 141-162, 165-186, 189-192, 195-222, 224-231, 233-235, 237-243, 250-256, 258-260, 289-305, 320-327, 329-336 | DataRepeat, Splay |
| `port_blocking.c` | 109-128, 132-144, 146-160 | Admission, PreferredMove |
| `prague.c` | 101-114, 116-122, 156-165, 168-172, 177-203, 205-277, 281-391 | Prague |
| `quicctx.c` | 115, 121-239, 520-544, 560-587, 589-602, 810-821, 823-835, 910-914, 1108-1118, 1143-1157, 1284, 1355-1361, 1363-1366, 1376-1380, 1382-1385, 1387-1390, 1392-1397, 1399-1408, 1410-1427, 1429-1454, 1456-1503, 1505-1524, 1526-1550, 1566-1570, 1575-1700, 1803-1952, 1957-1972, 1975-1989, 1991-2038, 2041-2053, 2056-2080, 2100-2118, 2266-2296, 2409-2451, 2670-2678, 2681-2691, 2693-2709, 2713-3157, 3170-3213, 3223-3227, 3299-3313, 3317-3375, 3377-3398, 3405-3417, 3425-3449, 3455-3508, 3510-3513, 3577-3842, 3853, 3866-3949, 3955-3966, 3989-4008, 4027-4034, 4074, 4164-4174, 4278-4281, 4449-4453, 4504-4590, 4693-4728, 4730-4738, 4740-4761, 4815, 4888-4894, 4897-4901, 4903-4907, 4910-4932, 5004-5021, 5199-5207, 5241-5267 | AckProcess, AckSchedule, Admission, BackupPath, Buffers, Closing, Config, Datagram, EarlyData, KeyLimit, KeyUpdate, LoadBalancer, LocalCids, LossDetect, LostFrames, Mtu, MultiPath, Nonce, PacketHeader, PathValidation, PeerCids, SpinBit, Splay, StreamCredit, StreamEnd, StreamInput, StreamLimits, StreamSend, Timing, TransportParams, Unreachable, VersionChoice, Wake |
| `sacks.c` | 47-53, 112-116, 123-126, 158-168, 175-189, 197-295, 301-321, 328-340, 347-380, 384-403, 408-412, 416-420, 432-437, 471-474, 476-485, 487-496, 498-501 | AckFormat, AckSchedule, KeyUpdate, Sack, Splay, StreamEnd |
| `sender.c` | 49-75, 131-160, 209-275, 284-318, 324-351, 366-394, 396-424, 430-438, 511-518, 520-573, 575-643, 645-725, 746-760, 806-928, 934-1030, 1067-1100, 1109-1194, 1467-1506, 1509-1549, 1552-1568, 1573-1664, 1788-1850, 2189-2196, 2293-2296, 2300-2541, 2563, 2578-2600, 2645-2720, 2724-2748, 2829-2879, 2932, 2940-2945, 3143-3146, 3152, 3223-3227, 3239-3580, 3684-3704, 3724-3787, 3841-3852, 3854-3863, 3865-4081, 4091-4111, 4113-4126, 4134-4210 | AckProcess, AckSchedule, Amplification, Closing, DataRepeat, Datagram, EarlyData, KeyLimit, KeyUpdate, LocalCids, LostFrames, Mtu, MultiPath, Nonce, PacketHeader, PacketNumber, PathMarks, PathValidation, PeerCids, PreferredMove, Sooner, SpinBit, StreamEnd, StreamLimits, StreamSend, Train, VersionChoice, Wake |
| `spinbit.c` | 32-35, 37-42, 46-51, 53-57, 63-68, 70-74, 80-84 | SpinBit |
| `ticket_store.c` | 29-99, 101-158, 160-257, 259-326, 336-346, 354-383, 398-431, 433-498, 526-568 | TicketStore |
| `timing.c` | 42-88, 179-319 | Timing |
| `tls_api.c` | 308-365, 879, 918-921, 1130-1132, 1299-1311, 1516-1575, 1579-1599, 2054-2092, 2158-2176, 2208-2215, 2381-2395, 2425-2625, 2715-2749, 2751-2787, 2789-2825, 2827-2891 | Admission, Buffers, Closing, Config, EarlyData, KeyUpdate, Nonce, Sooner, TicketStore, TlsStream, TransportParams |
| `token_store.c` | 61-98, 100-155, 157-202, 204-244, 246-280, 282-346 | TokenStore |
| `transport.c` | 31-57, 59-66, 68-75, 77-85, 87-96, 98-128, 130-160, 180-224, 226-281, 283-304, 306-497, 499-984 | EarlyData, LostFrames, StreamLimits, StreamSend, TransportParams, VersionChoice |
| `util.c` | 253-268, 270-284, 286-307, 309-319, 321-331, 333-343, 353-365, 473-495, 504-512, 516, 724-728, 731-740, 744-763, 765-771, 773-782, 785-795, 797-807, 809-819, 821-828, 830-845, 871-920, 927-937, 939-949, 951-962, 964-976, 978-995, 997-1009, 1011-1014, 1037-1047 | Config, IntFormat, Unreachable |
| `webtransport.c` | 287-334, 343-361, 371-416 | Capsule |
| `wt_baton.c` | 345-346, 550-582 | Capsule, Uri |
| `bytestream.h` | 33-37 | ByteBuffer |
| `cc_common.h` | 29, 61-74 | SlowStart |
| `h3zero.h` | 212-220, 260-283 | H3Control, H3Data |
| `h3zero_common.h` | 144-156, 169-176 | Capsule, H3Datagram |
| `picohash.h` | 36-40, 42-50 | Hash |
| `picoquic.h` | 77-78, 123-126, 129, 133, 143-149, 164-185, 199-204, 239, 241-244, 289-297, 308-332, 775 | Closing, IntFormat, LocalCids, Mtu, PacketHeader, PeerCids, TlsStream, TransportParams |
| `picoquic_config.h` | 33-79, 81-138 | Config |
| `picoquic_internal.h` | 39, 41-42, 44, 47, 51-52, 67-68, 70, 117, 126-168, 171-177, 212, 214, 220-222, 226, 265-274, 281-309, 350, 367, 386-429, 466-482, 507-517, 761-767, 769-857, 870-877, 951-960, 962-973, 976-988, 990-996, 1031-1065, 1179-1180, 1213, 1710-1713 | AckFormat, AckProcess, Admission, Buffers, DataRepeat, Datagram, EarlyData, IntFormat, LocalCids, LostFrames, Mtu, PacketHeader, PathValidation, PeerCids, Sack, StreamEnd, StreamLimits, TicketStore, TokenStore, Train, TransportParams, VersionChoice |
| `picoquic_lb.h` | 41-45, 47-56, 63-74 | LoadBalancer |
| `picoquic_utils.h` | 173-174 | IntFormat |

### Parts of the code that are not modelled

Functions with no cited line, in the files of `picoquic/` and `picohttp/` (`h3zero*.c`) that are modelled in part:

* `bbr.c` (1 of 120 functions modelled). Not modelled: `update_windowed_max_filter`, `start_windowed_max_filter_period`, `update_windowed_min_filter`, `BBRInitRandom`, `BBRInitFullPipe`, `BBRSetOptions`, `BBROnInit`, `picoquic_bbr_reset`, `picoquic_bbr_init`, `picoquic_bbr_delete`, `BBRModulateCwndForRecovery`, `BBRBoundCwndForModel`, `BBRProbeRTTCwnd`, `BBRBoundCwndForProbeRTT`, `BBRSetCwnd`, `BBRSaveCwnd`, `BBRRestoreCwnd`, `BBROnEnterFastRecovery`, `BBREnterLostFeedback`, `BBRExitLostFeedback`, `BBROnEnterRTO`, `BBROnExitRecovery`, `BBROnSpuriousLoss`, `InLossRecovery`, `BBRCheckRecovery`, `BBRBDPMultipleWithBw`, `BBRBDPMultiple`, `BBRUpdateOffloadBudget`, `BBRQuantizationBudget`, `BBRInflightWithBw`, `BBRInflight`, `BBRUpdateMaxInflight`, `BBRInitPacingRate`, `BBRSetPacingRateWithGain`, `BBRSetPacingRate`, `BBRSetSendQuantum`, `BBRUpdateLatestDeliverySignals`, `BBRAdvanceLatestDeliverySignals`, `BBRResetCongestionSignals`, `BBRInitLowerBounds`, `BBRLossLowerBounds`, `BBRAdaptLowerBoundsFromCongestion`, `BBRUpdateCongestionSignals`, `BBRResetLowerBounds`, `BBRBoundBWForModel`, `BBRUpdateMaxBw`, `BBRAdvanceMaxBwFilter`, `BBRUpdateACKAggregation`, `IsInflightTooHigh`, `BBRHandleInflightTooHigh`, `CheckInflightTooHigh`, `BBRInitRoundCounting`, `BBRStartRound`, `BBRUpdateRound`, `BBRHandleRestartFromIdle`, `MarkConnectionAppLimited`, `BBROnTransmit`, `BBRAdaptMinRttMargin`, `BBRUpdateRTTJitterBuffer`, `BBRResetRTTJitterBuffer`, `BBRUpdateMinRTT`, `IsRTTTooHigh`, `BBRUpdateMinRTT`, `BBRExitProbeRTT`, `BBRCheckProbeRTTDone`, `BBRHandleProbeRTT`, `BBREnterProbeRTT`, `BBRCheckProbeRTT`, `IsInAProbeBWState`, `BBRIsProbingBW`, `BBRInflightWithHeadroom`, `BBRRaiseInflightHiSlope`, `BBRProbeInflightHiUpward`, `BBRAdaptUpperBounds`, `BBRCheckTimeToCruise`, `BBRRandomIntBetween`, `BBRRandomFloatBetween`, `BBRPickProbeWait`, `BBRPickProbeWaitEarly`, `BBRTargetInflight`, `BBRCheckPathSaturated`, `BBRCheckAppLimitedEnded`, `BBRIsRenoCoexistenceProbeTime`, `BBRHasElapsedInPhase`, `BBRCheckTimeToProbeBW`, `BBRStartProbeBW_DOWN`, `BBRStartProbeBW_CRUISE`, `BBRStartProbeBW_REFILL`, `BBRStartProbeBW_UP`, `BBRUpdateProbeBWCyclePhase`, `BBREnterProbeBW`, `BBREnterDrain`, `BBRCheckDrain`, `BBRCheckStartupFullBandwidthGeneric`, `BBREnterStartupResume`, `BBRCheckStartupResume`, `BBRCheckStartupHighLoss`, `BBRCheckStartupFullBandwidth`, `BBRCheckStartupDone`, `BBREnterStartup`, `BBRReEnterStartup`, `BBREnterStartupLongRTT`, `BBRExitStartupLongRtt`, `BBRUpdateStartupLongRtt`, `BBRSetBdpSeed`, `BBRInflightHiFromLostPacket`, `BBRUpdateRecoveryOnLoss`, `BBRHandleLostPacket`, `BBRUpdateOnLoss`, `BBRAccessEcnPacketContext`, `BBRComputeEcnFrac`, `BBRAdvanceEcnFrac`, `BBRUpdateModelAndState`, `BBRUpdateControlParameters`, `BBRUpdateOnACK`, `BBRSetRsFromAckState`, `picoquic_bbr_notify_ack`, `picoquic_bbr_notify`, `picoquic_bbr_observe`.
* `bytestream.c` (30 of 39 functions modelled). Not modelled: `bytestream_ref_init`, `bytestream_buf_init`, `bytestream_alloc`, `bytestream_delete`, `bytestream_data`, `bytestream_ptr`, `bytestream_size`, `bytestream_reset`, `bytestream_vint_len`.
* `cc_common.c` (6 of 13 functions modelled). Not modelled: `picoquic_cc_get_sequence_number`, `picoquic_cc_get_ack_number`, `picoquic_cc_get_ack_sent_time`, `picoquic_cc_slow_start_increase`, `picoquic_cc_slow_start_increase_ex`, `picoquic_cc_update_target_cwin_estimation`, `picoquic_cc_update_cwin_for_long_rtt`.
* `config.c` (17 of 20 functions modelled). Not modelled: `picoquic_config_usage_file`, `picoquic_config_file`, `picoquic_config_clear`.
* `democlient.c` (1 of 25 functions modelled). Not modelled: `picoquic_demo_client_set_alpn_list`, `picoquic_parse_alpn`, `picoquic_parse_alpn_nz`, `picoquic_demo_client_get_alpn_and_version_from_tickets`, `picoquic_demo_client_find_stream`, `h09_demo_client_prepare_stream_open_command`, `picoquic_demo_client_open_stream`, `picoquic_demo_client_close_stream`, `picoquic_demo_client_start_streams`, `picoquic_demo_client_open_stream_file`, `picoquic_demo_client_initialize_context`, `picoquic_demo_client_delete_stream_context`, `picoquic_demo_client_delete_context`, `demo_client_parse_stream_spaces`, `demo_client_parse_stream_repeat`, `demo_client_parse_stream_number`, `demo_client_parse_stream_previous`, `demo_client_parse_stream_path`, `demo_client_parse_post_size`, `demo_client_parse_range`, `demo_client_parse_stream_desc`, `demo_client_delete_scenario_desc`, `demo_client_parse_nb_stream`, `demo_client_parse_scenario_desc`.
* `fastcc.c` (6 of 8 functions modelled). Not modelled: `picoquic_fastcc_delete`, `picoquic_fastcc_observe`.
* `frames.c` (157 of 205 functions modelled). Not modelled: `picoquic_queue_retire_connection_id_frame`, `picoquic_queue_new_token_frame`, `picoquic_skip_new_token_frame`, `picoquic_is_stream_frame_unlimited`, `picoquic_find_ready_stream`, `picoquic_format_blocked_frames`, `picoquic_queue_data_repeat_node_create`, `picoquic_queue_data_repeat_node_value`, `picoquic_queue_data_repeat_delete`, `picoquic_queue_data_repeat_init`, `picoquic_dequeue_data_repeat_packet`, `picoquic_first_data_repeat_packet`, `picoquic_is_tls_stream_ready`, `picoquic_crypto_stream_from_ptype`, `picoquic_estimate_path_bandwidth`, `picoquic_estimate_max_path_bandwidth`, `picoquic_compute_packets_in_window`, `picoquic_compute_ack_gap`, `picoquic_compute_ack_delay_max`, `picoquic_compute_ack_gap_and_delay`, `picoquic_record_ack_packet_data`, `picoquic_should_repeat_path_response_frame`, `picoquic_decode_blocked_frame`, `picoquic_decode_stream_blocked_frame`, `picoquic_skip_immediate_ack_frame`, `picoquic_skip_time_stamp_frame`, `picoquic_parse_time_stamp_frame`, `picoquic_encode_time_stamp_length`, `picoquic_skip_path_abandon_frame`, `picoquic_parse_path_abandon_frame`, `picoquic_queue_path_abandon_frame`, `picoquic_queue_path_available_or_backup_frame`, `picoquic_skip_path_available_or_backup_frame`, `picoquic_parse_path_available_or_backup_frame`, `picoquic_queue_max_path_id_frame`, `picoquic_skip_max_path_id_frame`, `picoquic_parse_max_path_id_frame`, `picoquic_queue_paths_blocked_frame`, `picoquic_skip_paths_blocked_frame`, `picoquic_parse_paths_blocked_frame`, `picoquic_decode_paths_blocked_frame`, `picoquic_queue_path_cid_blocked_frame`, `picoquic_skip_path_cid_blocked_frame`, `picoquic_parse_path_cid_blocked_frame`, `picoquic_decode_path_cid_blocked_frame`, `picoquic_prepare_observed_address_frame`, `picoquic_decode_observed_address_frame`, `picoquic_process_ack_of_observed_address_frame`.
* `h3zero.c` (21 of 32 functions modelled). Not modelled: `h3zero_parse_qpack_header_value_string`, `h3zero_create_post_header_frame`, `h3zero_create_request_header_frame`, `h3zero_create_response_header_frame`, `h3zero_create_error_frame`, `h3zero_create_not_found_header_frame_ex`, `h3zero_create_not_found_header_frame`, `h3zero_create_bad_method_header_frame_ex`, `h3zero_create_bad_method_header_frame`, `h3zero_release_header_parts`, `h3zero_delete_data_stream_state`.
* `h3zero_common.c` (25 of 54 functions modelled). Not modelled: `picohttp_stream_node_compare`, `picohttp_stream_node_create`, `picohttp_stream_node_value`, `picohttp_clear_stream_ctx`, `picohttp_stream_node_delete`, `h3zero_delete_stream`, `h3zero_find_stream`, `h3zero_find_or_create_stream`, `h3zero_init_stream_tree`, `h3zero_delete_stream_prefix`, `h3zero_delete_all_stream_prefixes`, `h3zero_parse_stream_prefix`, `h3zero_protocol_init`, `h3zero_load_frame_content`, `h3zero_skip_frame_content`, `h3zero_callback_create_context`, `h3zero_callback_delete_context`, `h3zero_post_data_or_fin`, `h3zero_process_remote_stream`, `h3zero_forget_stream`, `h3zero_get_content_type_by_path`, `h3zero_client_open_stream_file`, `h3zero_client_close_stream`, `h3zero_prepare_to_send`, `h3zero_callback_prepare_to_send`, `h3zero_callback`, `h3zero_settings_decode`, `h3zero_release_capsule`, `h3zero_prepare_and_send_data`.
* `h3zero_server.c` (4 of 5 functions modelled). Not modelled: `h3zero_server_prepare_to_send`.
* `h3zero_uri.c` (9 of 9 functions modelled). Not modelled: none.
* `intformat.c` (10 of 10 functions modelled). Not modelled: none.
* `loss_recovery.c` (12 of 13 functions modelled). Not modelled: `picoquic_set_wake_up_from_packet_retransmit`.
* `newreno.c` (7 of 9 functions modelled). Not modelled: `picoquic_newreno_delete`, `picoquic_newreno_observe`.
* `pacing.c` (7 of 12 functions modelled). Not modelled: `picoquic_report_pacing_update`, `picoquic_update_pacing_after_send`, `picoquic_is_sending_authorized_by_pacing`, `picoquic_update_pacing_rate`, `picoquic_update_pacing_data`.
* `packet.c` (24 of 29 functions modelled). Not modelled: `picoquic_queue_retry_packet`, `picoquic_queue_busy_packet`, `picoquic_queue_immediate_close`, `picoquic_ignore_incoming_handshake`, `picoquic_incoming_packet`.
* `paths.c` (9 of 10 functions modelled). Not modelled: `picoquic_prepare_path_control_packet`.
* `picohash.c` (6 of 9 functions modelled). Not modelled: `picohash_create`, `picohash_bytes`, `picohash_siphash`.
* `picoquic_lb.c` (11 of 13 functions modelled). Not modelled: `picoquic_lb_compat_cid_verify`, `picoquic_lb_compat_cid_config_free`.
* `picosplay.c` (17 of 22 functions modelled). Not modelled: `zig`, `picosplay_new_tree`, `picosplay_contents`, `store`, `mark_gp`.
* `port_blocking.c` (2 of 3 functions modelled). Not modelled: `picoquic_disable_port_blocking`.
* `prague.c` (6 of 10 functions modelled). Not modelled: `picoquic_prague_init`, `picoquic_prague_get_pkt_ctx`, `picoquic_prague_delete`, `picoquic_prague_observe`.
* `quicctx.c` (103 of 289 functions modelled). Not modelled: `picoquic_local_cnxid_hash`, `picoquic_local_cnxid_compare`, `picoquic_local_cnxid_to_item`, `picoquic_net_id_hash`, `picoquic_local_netid_to_item`, `picoquic_net_id_compare`, `picoquic_net_icid_hash`, `picoquic_net_icid_compare`, `picoquic_net_icid_to_item`, `picoquic_net_secret_hash`, `picoquic_net_secret_compare`, `picoquic_net_secret_to_item`, `picoquic_context_from_epoch`, `picoquic_issued_ticket_hash`, `picoquic_issued_ticket_compare`, `picoquic_issued_ticket_key_to_item`, `picoquic_retrieve_issued_ticket`, `picoquic_update_issued_ticket`, `picoquic_delete_issued_ticket`, `picoquic_remember_issued_ticket`, `picoquic_registered_token_value`, `picoquic_registered_token_delete`, `picoquic_adjust_max_connections`, `picoquic_current_number_connections`, `picoquic_load_token_file`, `picoquic_set_default_tp`, `picoquic_get_default_tp`, `picoquic_set_default_padding`, `picoquic_set_default_lossbit_policy`, `picoquic_set_default_multipath_option`, `picoquic_set_default_address_discovery_mode`, `picoquic_set_cwin_max`, `picoquic_set_max_data_control`, `picoquic_set_default_idle_timeout`, `picoquic_set_default_handshake_timeout`, `picoquic_set_default_crypto_epoch_length`, `picoquic_get_default_crypto_epoch_length`, `picoquic_get_crypto_epoch_length`, `picoquic_get_local_cid_length`, `picoquic_is_local_cid`, `picoquic_set_max_simultaneous_logs`, `picoquic_get_max_simultaneous_logs`, `picoquic_set_default_bdp_frame_option`, `picoquic_free`, `picoquic_set_low_memory_mode`, `picoquic_set_null_verifier`, `picoquic_set_cookie_mode`, `picoquic_set_max_half_open_retry_threshold`, `picoquic_get_max_half_open_retry_threshold`, `picoquic_create_stateless_packet`, `picoquic_delete_stateless_packet`, `picoquic_dequeue_stateless_packet`, `picoquic_cnx_is_still_logging`, `picoquic_unregister_net_id`, `picoquic_register_net_id`, `picoquic_register_net_icid`, `picoquic_unregister_net_icid`, `picoquic_unregister_net_secret`, `picoquic_register_net_secret`, `picoquic_get_quic_ctx`, `picoquic_get_first_cnx`, `picoquic_get_next_cnx`, `picoquic_insert_cnx_in_list`, `picoquic_remove_cnx_from_list`, `picoquic_wake_list_node_value`, `picoquic_wake_list_delete_node`, `picoquic_get_sequence_number`, `picoquic_get_ack_number`, `picoquic_register_path`, `picoquic_clear_path_data`, `picoquic_delete_path`, `picoquic_notify_destination_unreachable_by_cnxid`, `picoquic_check_cid_for_new_tuple`, `picoquic_check_new_path_allowed`, `picoquic_subscribe_new_path_allowed`, `picoquic_test_and_signal_new_path_allowed`, `picoquic_probe_new_path_ex`, `picoquic_enable_path_callbacks`, `picoquic_enable_path_callbacks_default`, `picoquic_get_path_id_from_unique`, `picoquic_set_app_path_ctx`, `picoquic_probe_new_path`, `picoquic_demote_local_cnxid_list`, `picoquic_refresh_path_quality_thresholds`, `picoquic_issue_path_quality_update`, `picoquic_get_path_quality_from_context`, `picoquic_get_path_quality`, `picoquic_get_default_path_quality`, `picoquic_subscribe_to_quality_update_per_path_context`, `picoquic_subscribe_to_quality_update_per_path`, `picoquic_subscribe_to_quality_update`, `picoquic_default_quality_update`, `picoquic_refresh_path_connection_id`, `picoquic_set_stream_path_affinity`, `picoquic_set_path_status`, `picoquic_get_path_addr`, `picoquic_update_peer_addr`, `picoquic_stream_data_node_create`, `picoquic_stream_data_node_value`, `picoquic_stream_node_create`, `picoquic_stream_node_value`, `picoquic_clear_stream`, `picoquic_stream_node_delete`, `picoquic_stream_from_node`, `picoquic_first_stream`, `picoquic_last_stream`, `picoquic_next_stream`, `picoquic_mark_direct_receive_stream`, `picoquic_create_client_cnx`, `picoquic_set_transport_parameters`, `picoquic_get_transport_parameters`, `picoquic_get_peer_addr`, `picoquic_get_local_addr`, `picoquic_get_local_if_index`, `picoquic_get_local_cnxid`, `picoquic_get_remote_cnxid`, `picoquic_get_initial_cnxid`, `picoquic_get_client_cnxid`, `picoquic_get_server_cnxid`, `picoquic_get_logging_cnxid`, `picoquic_get_cnx_start_time`, `picoquic_get_cnx_state`, `picoquic_is_0rtt_available`, `picoquic_cnx_set_padding_policy`, `picoquic_cnx_get_padding_policy`, `picoquic_seed_bandwidth`, `picoquic_set_default_pmtud_policy`, `picoquic_cnx_set_pmtud_policy`, `picoquic_cnx_set_pmtud_required`, `picoquic_current_time`, `picoquic_get_quic_time`, `picoquic_set_fuzz`, `picoquic_set_log_level`, `picoquic_use_unique_log_names`, `picoquic_enable_sslkeylog`, `picoquic_is_sslkeylog_enabled`, `picoquic_set_random_initial`, `picoquic_set_packet_train_mode`, `picoquic_set_padding_policy`, `picoquic_set_default_connection_id_length`, `picoquic_set_default_connection_id_ttl`, `picoquic_get_default_connection_id_ttl`, `picoquic_set_alpn_select_fn`, `picoquic_set_default_callback`, `picoquic_set_default_stateless_reset_min_interval`, `picoquic_set_callback`, `picoquic_get_default_callback_function`, `picoquic_get_default_callback_context`, `picoquic_get_callback_function`, `picoquic_get_callback_context`, `picoquic_reset_ack_context`, `picoquic_reset_packet_context`, `picoquic_delete_sooner_packets`, `picoquic_is_handshake_error`, `picoquic_get_close_reasons`, `picoquic_cnx_by_net`, `picoquic_cnx_by_icid`, `picoquic_cnx_by_secret`, `picoquic_register_congestion_control_algorithms`, `picoquic_set_default_congestion_algorithm_ex`, `picoquic_set_default_congestion_algorithm`, `picoquic_set_default_congestion_algorithm_by_name`, `picoquic_set_optimistic_ack_policy`, `picoquic_set_preemptive_repeat_policy`, `picoquic_set_preemptive_repeat_per_cnx`, `picoquic_set_congestion_algorithm_ex`, `picoquic_set_congestion_algorithm`, `picoquic_set_priority_limit_for_bypass`, `picoquic_set_feedback_loss_notification`, `picoquic_request_forced_probe_up`, `picoquic_subscribe_pacing_rate_updates`, `picoquic_get_pacing_rate`, `picoquic_get_cwin`, `picoquic_get_rtt`, `picoquic_set_local_addr`, `picoquic_enable_keep_alive`, `picoquic_disable_keep_alive`, `picoquic_is_client`, `picoquic_get_local_error`, `picoquic_get_remote_error`, `picoquic_get_application_error`, `picoquic_get_data_sent`, `picoquic_get_data_received`, `picoquic_set_client_authentication`, `picoquic_enforce_client_only`, `picoquic_uniform_random`.
* `sacks.c` (18 of 34 functions modelled). Not modelled: `picoquic_sack_node_value`, `picoquic_sack_item_value`, `picoquic_sack_node_create`, `picoquic_sack_node_delete`, `picoquic_sack_first_item`, `picoquic_sack_last_item`, `picoquic_sack_next_item`, `picoquic_sack_previous_item`, `picoquic_sack_insert_item`, `picoquic_ack_ctx_from_cnx_context`, `picoquic_sack_list_from_cnx_context`, `picoquic_sack_list_first_range`, `picoquic_sack_list_reset`, `picoquic_sack_list_free`, `picoquic_sack_item_range_start`, `picoquic_sack_item_range_end`.
* `sender.c` (44 of 70 functions modelled). Not modelled: `picoquic_set_app_stream_ctx`, `picoquic_unlink_app_stream_ctx`, `picoquic_mark_datagram_ready`, `picoquic_set_default_datagram_priority`, `picoquic_set_datagram_priority`, `picoquic_set_default_priority`, `picoquic_set_stream_priority`, `picoquic_get_next_local_stream_id`, `picoquic_pad_to_policy`, `picoquic_create_packet`, `picoquic_recycle_packet`, `picoquic_dequeue_retransmitted_packet`, `picoquic_is_pkt_ctx_backlog_empty`, `picoquic_is_cnx_backlog_empty`, `picoquic_preemptive_retransmit_packet`, `picoquic_preemptive_retransmit_as_needed`, `picoquic_packet_type_from_epoch`, `picoquic_prepare_packet_old_context`, `picoquic_implicit_handshake_ack`, `picoquic_prepare_packet_client_init`, `picoquic_false_start_transition`, `picoquic_client_almost_ready_transition`, `picoquic_set_path_addresses_from_tuple`, `picoquic_check_cc_feedback_timer`, `picoquic_prepare_packet`, `picoquic_prepare_next_packet`.
* `spinbit.c` (6 of 6 functions modelled). Not modelled: none.
* `ticket_store.c` (9 of 15 functions modelled). Not modelled: `picoquic_get_ticket`, `picoquic_free_tickets`, `picoquic_save_session_tickets`, `picoquic_load_retry_tokens`, `picoquic_save_retry_tokens`, `picoquic_seed_ticket`.
* `timing.c` (2 of 4 functions modelled). Not modelled: `picoquic_validate_bdp_seed`, `picoquic_update_path_rtt_one_way`.
* `tls_api.c` (16 of 131 functions modelled). Not modelled: `picoquic_tls_api_init_providers`, `picoquic_tls_api_zero`, `picoquic_tls_api_init`, `picoquic_tls_api_unload`, `picoquic_tls_api_reset`, `picoquic_register_ciphersuite`, `picoquic_register_key_exchange_algorithm`, `picoquic_register_tls_key_provider_fn`, `picoquic_register_verify_certificate_fn`, `picoquic_register_explain_crypto_error_fn`, `picoquic_register_crypto_random_provider_fn`, `picoquic_set_cipher_suite`, `picoquic_get_cipher_suite_by_id`, `picoquic_get_ecb_cipher_by_id`, `picoquic_ecb_create_by_name`, `picoquic_aes128_ecb_create`, `picoquic_get_hash_algorithm_by_name`, `picoquic_get_sha256`, `picoquic_hash_create`, `picoquic_hash_get_length`, `picoquic_set_key_exchange_in_ctx`, `picoquic_set_key_exchange`, `picoquic_set_random_provider_in_ctx`, `set_private_key_from_file`, `picoquic_set_private_key_from_file`, `picoquic_dispose_sign_certificate`, `picoquic_get_certs_from_file`, `picoquic_get_certificate_verifier`, `picoquic_dispose_certificate_verifier`, `picoquic_set_tls_root_certificates`, `picoquic_explain_crypto_error`, `picoquic_clear_crypto_errors`, `picoquic_get_aes128gcm_sha256`, `picoquic_get_aes128gcm_sha256_v`, `picoquic_get_aes128gcm_v`, `picoquic_get_cipher_suite_by_id_v`, `picoquic_hash_update`, `picoquic_hash_finalize`, `picoquic_log_crypto_errors`, `picoquic_crypto_random`, `picoquic_crypto_uniform_random`, `picoquic_public_random_step`, `picoquic_public_random_64`, `picoquic_public_random_seed_64`, `picoquic_public_random_seed`, `picoquic_public_random`, `picoquic_public_uniform_random`, `picoquic_tls_get_quic_extension_id`, `picoquic_tls_collect_extensions_cb`, `picoquic_client_hello_call_back`, `picoquic_server_encrypt_ticket_call_back`, `picoquic_get_simulated_time_cb`, `picoquic_enable_custom_verify_certificate_callback`, `picoquic_dispose_verify_certificate_callback`, `picoquic_tls_set_verify_certificate_callback`, `picoquic_set_aead_from_secret`, `picoquic_set_pn_enc_from_secret`, `picoquic_aes128_ecb_free`, `picoquic_aes128_ecb_encrypt`, `picoquic_set_key_from_secret`, `picoquic_set_update_traffic_key_callback`, `picoquic_setup_initial_master_secret`, `picoquic_setup_initial_secrets`, `picoquic_compute_initial_secrets`, `picoquic_setup_initial_traffic_keys`, `picoquic_get_initial_aead_context`, `picoquic_rotate_app_secret`, `picoquic_get_app_secret`, `picoquic_get_app_secret_size`, `picoquic_crypto_context_free`, `picoquic_master_tlscontext`, `free_certificates_list`, `picoquic_master_tlscontext_free`, `picoquic_get_tls_time`, `picoquic_tlscontext_create`, `picoquic_log_event_call_back`, `picoquic_free_log_event`, `picoquic_set_key_log_file`, `picoquic_tlscontext_remove_ticket`, `picoquic_tlscontext_free`, `picoquic_tlscontext_trim_after_handshake`, `picoquic_tls_get_negotiated_alpn`, `picoquic_tls_get_sni`, `picoquic_tls_is_psk_handshake`, `picoquic_add_proposed_alpn`, `picoquic_pn_enc_create_for_test`, `picoquic_pn_iv_size`, `picoquic_pn_encrypt`, `picoquic_aead_free`, `picoquic_cipher_free`, `picoquic_aead_get_checksum_length`, `picoquic_setup_test_aead_context`, `picoquic_server_setup_ticket_aead_contexts`, `picoquic_aead_integrity_limit`, `picoquic_aead_confidentiality_limit`, `picoquic_aead_decrypt_generic`, `picoquic_aead_encrypt_generic`, `picoquic_aead_decrypt_mp`, `picoquic_setup_cleartext_aead_salt`, `picoquic_is_tls_complete`, `picoquic_create_cnxid_reset_secret`, `picoquic_set_tls_certificate_chain`, `picoquic_tls_set_client_authentication`, `picoquic_tls_client_authentication_activated`, `picoquic_cid_free_under_mask_ctx`, `picoquic_cid_get_under_mask_ctx`, `picoquic_cid_encrypt_under_mask`, `picoquic_cid_decrypt_under_mask`, `picoquic_create_retry_protection_context`, `picoquic_find_retry_protection_context`, `picoquic_delete_one_retry_protection_context`, `picoquic_delete_retry_protection_contexts`, `picoquic_format_retry_protection_pseudo_packet`, `picoquic_encode_retry_protection`, `picoquic_verify_retry_protection`.
* `token_store.c` (6 of 8 functions modelled). Not modelled: `picoquic_format_token`, `picoquic_free_tokens`.
* `transport.c` (14 of 14 functions modelled). Not modelled: none.
* `util.c` (29 of 83 functions modelled). Not modelled: `picoquic_string_create`, `picoquic_string_duplicate`, `picoquic_string_free`, `debug_set_stream`, `get_debug_out`, `get_debug_suspended`, `debug_set_callback`, `debug_printf`, `debug_dump`, `debug_printf_push_stream`, `debug_printf_pop_stream`, `debug_printf_suspend`, `debug_printf_resume`, `debug_printf_reset`, `picoquic_sprintf`, `picoquic_is_connection_id_null`, `picoquic_connection_id_hash`, `picoquic_val64_connection_id`, `picoquic_hash_addr_bytes`, `picoquic_hash_addr`, `picoquic_compare_addr`, `picoquic_get_addr_port`, `picoquic_addr_length`, `picoquic_store_addr`, `picoquic_get_ip_addr`, `picoquic_store_text_addr`, `picoquic_addr_text`, `picoquic_store_loopback_addr`, `picoquic_set_solution_dir`, `picoquic_get_input_path`, `picoquic_file_open_ex`, `picoquic_file_open`, `picoquic_file_close`, `picoquic_file_delete`, `picoquic_frames_varint_encode_length`, `picoquic_frames_varlen_encode`, `picoquic_frames_charz_encode`, `picoquic_set_abs_delay`, `picoquic_create_thread`, `picoquic_wait_thread`, `picoquic_delete_thread`, `picoquic_create_mutex`, `picoquic_delete_mutex`, `picoquic_lock_mutex`, `picoquic_unlock_mutex`, `picoquic_create_event`, `picoquic_delete_event`, `picoquic_signal_event`, `picoquic_wait_for_event`, `picoquic_test_random`, `picoquic_test_random_bytes`, `picoquic_test_uniform_random`, `picoquic_test_gauss_random`, `picoquic_uint8_to_str`.
* `webtransport.c` (3 of 12 functions modelled). Not modelled: `picowt_set_transport_parameters_values`, `picowt_set_transport_parameters`, `picowt_create_stream_ctx`, `picowt_create_local_stream`, `picowt_set_control_stream`, `picowt_prepare_client_cnx`, `picowt_connect`, `picowt_release_capsule`, `picowt_deregister`.
* `wt_baton.c` (3 of 19 functions modelled). Not modelled: `wt_baton_close_session`, `wt_baton_connecting`, `wt_baton_set_receive_ready`, `wt_baton_relay`, `wt_baton_check`, `wt_baton_incoming_data`, `wt_baton_provide_data`, `wt_baton_stream_reset`, `wt_baton_unlink_context`, `wt_baton_receive_datagram`, `wt_baton_provide_datagram`, `wt_baton_callback`, `wt_baton_find_stream`, `wt_baton_ctx_init`, `wt_baton_process_remote_stream`, `wt_baton_prepare_context`.

Files of `picoquic/` of which nothing is modelled: `bbr1.c`, `cubic.c`, `logger.c`, `logwriter.c`, `memory_log.c`, `performance_log.c`, `picoquic_mbedtls.c`, `picoquic_ptls_fusion.c`, `picoquic_ptls_minicrypto.c`, `picoquic_ptls_openssl.c`, `picosocks.c`, `register_all_cc_algorithms.c`, `sim_link.c`, `siphash.c`, `sockloop.c`, `unified_log.c`, `winsockloop.c`; of `picohttp/`: `demoserver.c`, `h3zero_client.c`, `quicperf.c`. The other directories (`loglib`, `picolog`, `picoquicfirst`, `sample`, `baton_app`, `quicwind`, `picoquictest`, `picoquic_t` and so on) hold applications, logs and tests, and are not modelled.

### Axioms of each theorem

From `#print axioms`, for the 668 theorems of `MANIFEST.json`:

* no axiom: C28_backoff_decreases_violated, C34_absent_parameter_violated, C55_refused_packet, C83_handler_violated, C84_number_violated, C98_table, C98_letters_violated, C98_cipher_names, C99_accepted_lowered_violated, C101_timeout_violated, C101_once_per_round_violated, C103_multipath_violated, C103_skipped_violated, C103_peer_violated, C104_policy_violated, C108_loss_unused_violated.

* `propext`: C33_unopened_local_stream_violated, acceptable_of_legal, C23_file_too_large, C31_late_violated, C31_old_tuple_violated, C31_dangling_violated, C38_in_payload, C40_no_frame, C40_immediate_accepted, C40_immediate_pending_violated, C40_immediate_last_violated, C40_multipath_violated, C72_validated, C76_multipath_violated, C81_over_violated, C81_revived_violated, C81_twice_violated, C81_peer_close, C81_reset, C81_drain_violated, C81_draining_violated, C81_error_violated, C81_handshake_limit, C82_zero_rtt_violated, C84_index, C85_file_too_large, C85_reuse_violated, C85_unmark_violated, C88_moved_violated, C93_large_violated, C93_extends_violated, C96_none_left_violated, C97_stop_code_violated, C97_reset_send_only_violated, C98_missing_seed_violated, C98_found, C98_command_line, C99_lowered_new_violated, C99_lowered_count_violated, C99_no_streams_violated, C100_first_mark, C101_harmless, C101_no_delay_violated, C104_late_violated, C106_compare, C106_no_address.

* `Quot.sound`: C76_forged.

* `Quot.sound`, `propext`: C02_cid_decode_needs_cleared_destination, C03_fixed_roundtrip, C03_hexa_roundtrip, C03_hexa_rejects, C04_diff_comparator, C06_duplicate_detection_violated, C43_range_counters_in_bounds, C25_room_for_one_packet, C10_never_moves_backwards, C12_final_size_violated, C34_count_bound, C34_zero_parameter_violated, C34_zero_frame_violated, C39_reset_active_violated, C46_fin_without_credit_violated, C47_zero_limit_violated, C49_write_after_fin_violated, C49_data_after_fin_violated, C49_refused_fin_violated, C50_reset_active_violated, C50_discard_violated, C50_lowered_limit_violated, C07_multipath_ecn_violated, C08_unsent_violated, C09_late_range_violated, C56_formatter_writes_frame, C21_repeated_violated, C21_exponent_violated, C21_max_ack_delay_violated, C21_stream_count_violated, C21_preferred_address_violated, C23_roundtrip, C23_room, C23_file_partial, C23_file_violated, C35_violated, C35_urgent_waits, C35_gate_partial, C31_one_to_one, C31_conflict, C31_repeat, C31_repeat_violated, C31_deleted_tuple_violated, C32_tuple_violated, C32_tuple_own_violated, C60_numbers, C37_validated, C37_verified, C37_echo, C37_answer_partial, C37_overwritten_violated, C37_failed_violated, C37_demoted_violated, C37_unsent_accepted, C37_new_address_challenged, C37_suspended_challenged_partial, C37_suspended_violated, C63_partial, C63_violated, C36_accepted_iff, C38_in_order, C38_placed, C38_blocked_violated, C64_written_violated, C65_sent_partial, C65_blocked_violated, C40_accepted, C40_max_path_id, C45_reset_violated, C45_early_violated, C68_other_length, C68_long_server_id_violated, C70_memory_violated, C70_terminates, C73_required, C74_short_cid_violated, C72_allowed, C72_close_violated, C72_null_cid_violated, C75_reset_sent, C75_reset_rate, C75_reset_buffer_violated, C75_vn_answer, C75_vn_silent, C75_vn_bounds_partial, C75_vn_client, C75_vn_together, C75_vn_no_loop, C75_vn_overread_violated, C76_reordered_partial, C76_next_partial, C76_simultaneous_violated, C76_refused_violated, C78_safe_partial, C78_static_violated, C78_range_violated, C79_client_writes, C79_trailer_violated, C79_push_violated, C79_fin_server_violated, C79_fin_client_violated, C79_upgrade_violated, C79_file_violated, C80_chunks, C80_empty_violated, C80_forgotten_violated, C80_bidir_violated, C80_values_violated, C81_over, C81_no_return, C81_told, C81_once_partial, C81_ends, C81_wake, C81_lasts, C81_reason_close, C81_reason_error, C81_reason_sent, C81_answer, C81_idle, C81_idle_off, C81_idle_restart, C81_failure, C82_rule, C82_timer, C82_number, C82_all, C82_right, C82_wake_partial, C82_probe, C82_one, C83_query, C83_room, C83_largest_violated, C83_version_violated, C84_inside, C84_no_folder, C84_no_overflow, C84_found, C84_number_partial, C85_roundtrip_partial, C85_address_violated, C85_room, C85_file_partial, C85_file_violated, C85_expiry, C86_sent, C86_active, C86_distinct, C86_turn, C86_forgotten_violated, C88_limits_violated, C88_blocked, C88_black_hole, C88_ten_losses, C88_kept, C88_second_violated, C89_first, C89_reserved_violated, C89_tampered, C89_downgrade_violated, C89_rejected_violated, C90_delay_cnx, C90_failed_violated, C91_delivered, C91_stored, C91_once, C91_authentic, C91_order_violated, C91_memory_violated, C91_copies_violated, C91_server_violated, C91_ready, C92_reuse_violated, C92_replay_violated, C92_zero_rtt_violated, C92_null_violated, C92_blocked_violated, C93_sent, C94_amplified_violated, C95_answered, C95_response, C95_shrunk, C96_backup_violated, C96_ack_violated, C96_clean, C97_discard_server_violated, C97_discard_unheard_violated, C97_reset_after_end_violated, C98_overflow_violated, C98_empty_number_violated, C98_text, C98_flag, C98_seed, C98_missing, C98_refused_unchanged_partial, C98_refused_changes_violated, C98_last_wins, C98_unknown_letter, C98_unknown_name_violated, C98_letters_partial, C99_no_session, C99_refused_sent_again, C99_accepted_once, C99_lowered_again_violated, C99_written_before_violated, C99_early_sent, C100_loss, C100_unlimited_violated, C101_minimum, C101_delay, C101_min_follows, C101_growth, C101_gain, C101_delay_violated, C102_write_within, C102_read_within, C102_fits, C102_error_kept, C102_skip, C103_time, C104_one_change_partial, C104_round_trip_partial, C104_turns, C104_packet, C104_policies, C104_paths_violated, C107_address, C107_none, C107_port_partial, C107_port_violated, C108_window, C108_too_soon, C108_not_early, C108_stable, C108_found, C108_loss_answers, C109_one_partial, C109_kept, C109_two_violated.

* `Classical.choice`, `Quot.sound`, `propext`: C01_varint_roundtrip, C02_varint_decoders, C02_fixed_decoders, C03_cid_roundtrip, C03_hexa_digits, C04_splay_is_ordered_collection, C04_empty_tree, C04_wake_comparator, C04_token_comparator, C05_sack_is_received_set, C06_duplicate_detection_partial, C41_varint_too_large_violated, C42_constant_time_memcmp, C43_range_counters_exact, C18_packet_number_recovered, C18_nearest, C18_sender_length_sufficient, C18_short_header_end_to_end, C22_hash_table_is_keyed_collection, C44_header_protection_roundtrip, C25_rate_bound, C25_bytes_bound, C25_wait_is_enough_partial, C25_zero_rtt_blocks_violated, C26_window_at_least_minimum, C26_only_losses_decrease, C26_loss_halves, C26_one_reduction_per_round, C27_rtt_within_samples, C27_sample_bounds, C28_backoff_monotone_partial, C28_backoff_limits, C10_delivered_bytes_were_received, C10_delivers_a_prefix, C10_delivers_up_to_first_missing, C11_fin_at_most_once, C11_no_data_after_fin, C11_fin_exactly_when_complete, C12_after_fin_partial, C12_after_reset_partial, C13_frame_past_stream_limit, C13_reset_past_stream_limit, C13_delivered_within_stream_limit, C14_total_is_sum_of_highest, C14_delivered_within_connection_limit, C14_frame_past_connection_limit, C16_learned_limits, C16_announced_limits, C33_streams_open_in_order, C33_server_stream_limit_partial, C33_client_stream_limit_partial, C33_client_stream_limit_violated, C33_zero_limit_violated, C33_unopened_local_stream_partial, C34_stream_count_partial, C17_stream_frame_fits, C17_stream_frame_decoder, C17_stream_frame_roundtrip, C15_flow_control, C39_best_stream_partial, C46_fin_partial, C47_found_partial, C48_stream_bytes, C49_fin_partial, C50_packet_loop_ends_partial, C07_ack_frame_partial, C08_ack_checks_partial, C09_ack_removes_partial, C51_bytes_in_transit, C52_range_selection_partial, C52_range_selection_violated, C19_skip_in_bounds, C19_skip_exact, C19_skip_sound, C19_skip_agrees_with_decoder, C19_closing_scan, C53_payload_unique, C53_decode_terminates, C53_payload_processed, C53_frames_in_order_partial, C53_frames_in_order, C53_frames_in_order_violated, C53_malformed_ack_accepted_violated, C54_inadmissible_frame_closes_partial, C54_wrong_packet_refused, C54_inadmissible_frame_closes_violated, C55_ack_scheduled_partial, C55_ack_scheduled_violated, C55_probing_packets, C56_written_frame_received, C56_crypto_frame, C57_malformed_frame_closes_partial, C57_malformed_frame_not_accepted, C57_malformed_frame_closes_violated, C21_terminates_partial, C21_outcome_partial, C21_rejected_partial, C21_legal_accepted_partial, C21_terminates_violated, C21_skipped_violated, C20_roundtrip_partial, C20_preferred_port_violated, C58_idle_timeout_partial, C58_idle_timeout_violated, C59_options_agree, C23_in_bounds, C24_get, C24_once, C24_newest, C30_not_lost_partial, C30_same_bytes, C30_writes, C30_progress, C30_violated, C31_not_below_partial, C31_first_tuple_partial, C31_not_dangling_partial, C32_retire_partial, C32_own_partial, C32_repeat, C32_unknown_violated, C60_routing, C60_unique, C61_limit, C62_supply_partial, C62_large_violated, C36_content_exact, C36_received, C36_queue_in_order, C36_too_large_rejected, C36_reported_exact, C64_written_partial, C64_queued_violated, C40_ack_frequency, C40_ack_frequency_any_order, C40_path_status, C40_immediate_partial, C66_deadline, C66_gap, C29_needed_partial, C29_stream_partial, C29_only, C29_obsolete, C29_reset_violated, C29_max_path_id_violated, C29_paths_blocked_violated, C29_ack_frequency_violated, C67_unrelated_partial, C67_acked_partial, C67_violated, C45_credit_partial, C45_announced_partial, C68_server_id, C68_servers_differ, C68_random_kept, C68_first_byte, C68_clear, C68_text, C68_default_length_violated, C69_datagram, C69_protect_total, C69_wire, C69_duplicate_violated, C70_header_in_bounds, C70_memory_partial, C70_delivered_authentic, C70_stateless_reset, C71_in_buffer_partial, C71_train, C71_mtu, C71_ends, C71_small_buffer_violated, C71_probe_violated, C73_validated, C73_once, C73_ports, C73_stale, C74_client, C74_protected, C74_server_partial, C72_limit_partial, C75_reset, C75_reset_no_loop, C75_reset_understood, C76_delivered_partial, C77_roundtrip, C77_decoded, C77_error, C77_long_violated, C77_padding_violated, C78_numbers, C78_fields_partial, C78_request, C78_post, C78_connect, C78_response, C78_status_violated, C78_long_violated, C79_chunks, C79_message_partial, C79_prefix_partial, C79_refused_partial, C79_webtransport, C80_settings_partial, C80_refused, C80_roundtrip, C80_webtransport, C80_ignored, C81_few, C81_spaced, C81_draining_partial, C83_string, C83_number_right, C83_number_partial, C83_number_error, C83_handler, C83_baton, C84_bytes, C84_clean, C85_in_bounds, C85_resume, C85_get, C85_newest, C85_replace, C85_once_partial, C86_receive, C86_end_to_end, C86_fair, C86_mark, C87_cut, C87_datagram_partial, C87_close_partial, C87_send_close, C87_end_to_end, C87_control_stream, C87_second_violated, C87_memory_partial, C87_empty_violated, C87_drain_violated, C87_unknown_violated, C87_reserve_violated, C88_size_partial, C88_acked, C88_probe, C88_memory_partial, C88_memory_violated, C88_rounds, C89_server, C89_agree_partial, C89_incompatible_violated, C89_server_packets, C89_client_packets, C89_forged_violated, C89_forged_hang_violated, C90_list, C90_next_wake, C90_delay, C90_earliest, C90_zero_violated, C90_ready, C90_served, C90_fair_partial, C90_flood_violated, C90_touched_violated, C90_alarm_partial, C90_alarm_violated, C90_callbacks, C90_packets, C92_single, C92_passive_partial, C92_unique_partial, C92_safe_partial, C93_origin, C93_order, C93_delivered, C93_memory, C93_honest_partial, C93_frame, C94_content, C94_exclusive, C94_frames, C94_safe_partial, C94_freed_violated, C95_zero_violated, C96_choice_partial, C96_sends, C96_oldest, C96_affinity, C96_turns, C96_header_partial, C96_first_partial, C96_crash_violated, C97_told_once, C97_reset_reported, C97_reset_code, C97_stop_silence, C97_discard_silence, C97_reset_last, C97_stop_lost_violated, C97_discard_client_partial, C97_write_refused, C97_forgotten, C97_reset_frame_code, C97_stop_useful, C98_number, C98_number_round_trip, C98_not_number, C98_port_violated, C98_mtu_violated, C98_mtu_partial, C98_version_partial, C98_version_violated, C98_not_version, C98_not_seed, C98_abbreviation, C98_cipher_partial, C98_cipher_violated, C98_algorithm, C98_algorithm_found, C98_default, C99_early_within, C99_kept_partial, C99_in_order, C99_all_sent, C100_minimum, C100_at_most_half, C100_no_congestion_no_decrease, C100_like_reno, C100_slow_start, C100_slow_start_ends, C100_all_marked, C100_once_per_round, C100_loss_then_marks, C100_spurious_partial, C101_loss, C101_jitter, C101_once_per_round_partial, C102_round_trip, C102_number_violated, C103_first_key, C103_limit_partial, C103_due, C103_not_early_partial, C103_set, C103_unequal_violated, C104_reserve, C105_counts, C105_no_more, C105_latest, C105_any_peer, C105_square, C105_reports, C105_bits, C105_first_block_violated, C106_found, C106_found_by_peer_partial, C106_known_local_violated, C106_other_address, C106_named, C106_again, C106_last_path_violated, C107_protected, C107_moves, C108_loss_bounds, C108_loss_found.

### Properties that the code does not have

Each is the negation of a property, or of a part of it, proved of the model. The text is the comment of the theorem.

* `C07_multipath_ecn_violated`: C07 (violated). With the multipath extension, when the ECN counts do not fit, the type is rewritten wrongly: the first byte of the four-byte type becomes 2, the type of a plain ACK frame. Here only packet 10 was received, on path 1. The bytes sent are a complete ACK frame for packet 34, which was never received, followed by other frames.
* `C08_unsent_violated`: C08 (violated). A frame that acknowledges a number never sent is not always rejected: a skipped number goes unnoticed when the largest number was acknowledged before; so does a number below the first one, when the first is chosen at random.
* `C09_late_range_violated`: C09 (violated). Packets 0 to 4 are sent. An ACK frame acknowledges packet 4; then an ACK frame acknowledges 4 and 2, because packet 2 arrived late. It is accepted, but packet 2 stays in flight.
* `C52_range_selection_violated`: C52 (violated). A range never reported is left out while 32 ranges already reported four times are sent: 33 isolated packets are received and all but the last range are reported four times, then packet 0 arrives.
* `C40_immediate_pending_violated`: C40 is violated: without multipath the frame has no effect when an acknowledgement is pending. An ack-eliciting packet arrives, then a packet which has IMMEDIATE_ACK; 2 microseconds later no acknowledgement is sent, and the next attempt is 25 milliseconds after the first packet.
* `C40_immediate_last_violated`: C40 is violated: the frame has no effect when it is the last one of the packet.
* `C40_multipath_violated`: C40 is violated: in multipath, once an IMMEDIATE_ACK frame was answered, all ack-eliciting packets are acknowledged at once, although the settings in force ask for one acknowledgement per 10 packets or 25 milliseconds, because the request remains recorded for the connection.
* `C74_short_cid_violated`: C74, violation. A server may be configured with connection IDs of less than 8 bytes. Every client to which such a server sends a Retry packet is then lost: all its next packets, with the connection ID of the Retry packet, are dropped.
* `C72_close_violated`: C72, violation. The packets by which a connection is closed are sent when the limit is reached.
* `C72_null_cid_violated`: C72, violation. A server without connection IDs counts a datagram once for each Initial packet in it: after a datagram with 20 Initial packets, it sends up to 60 times what it received.
* `C109_two_violated`: When two backup paths or more are left and no other path, none of them becomes an available one and the peer is told nothing: the loop takes the second one for a path that is not a backup path.
* `C94_amplified_violated`: C94 is violated in memory: a peer that sends single bytes behind gaps makes the receiver keep 1536 bytes of buffer, and more, for each byte of data; flow control counts one.
* `C94_freed_violated`: C94 is violated: after 8192 packets with one byte each behind a gap, a packet that fills the gap and brings the next message of TLS makes the receiver read its buffer after it was freed.
* `C102_number_violated`: Violated: what is written is read. A number of 2^62 or more is written without error and read as another.
* `C87_second_violated`: Any byte that follows the first capsule of a session, in the same piece or in another, makes the receiver copy almost 2^64 bytes: the length and the type of the capsule are forgotten, but the number of bytes that were read is not.
* `C87_empty_violated`: A capsule with no value is refused, though an empty datagram is one.
* `C87_drain_violated`: The message that asks to drain a session is refused by the receiver of the same code, however the control stream is cut and whatever follows.
* `C87_unknown_violated`: A capsule of a type that is not known is refused: it should be ignored.
* `C87_reserve_violated`: The front of a capsule is enough for the receiver to reserve as many bytes as it announces, however many.
* `C81_over_violated`: C81. The stateless reset of a connection that is over is reported again.
* `C81_revived_violated`: C81. A connection that fails during the handshake can come back: a server application closes, then the client's last handshake message arrives, and the connection is established. The request to close is lost.
* `C81_twice_violated`: C81. A packet with two CONNECTION_CLOSE frames makes a connection that is over come back: the client that completes its handshake is told of the end, sends a packet, and is told of the end again.
* `C81_drain_violated`: C81. A connection closed by the peer need not stay in the draining state at all: the time is counted from the last packet with data, not from the close. Here that is 10 seconds ago, and the connection is over at the time the close arrives.
* `C81_draining_violated`: C81. Path validation goes on in the draining state.
* `C81_error_violated`: C81. Before the end of the handshake there is an error that is ignored: in the state `server_almost_ready`, in which 0-RTT packets are accepted, a forbidden frame does not end the connection.
* `C41_varint_too_large_violated`: C41 (violated). Integers of 2^62 and more are not refused: every such 64-bit integer is written by both encoders as the 8-byte encoding of a *different* integer, `n mod 2^62`.
* `C98_overflow_violated`: For every option that takes a number, a number that an `int` does not hold is undefined behaviour instead of an error.
* `C98_empty_number_violated`: No number at all, the empty text, is read as 0 where 0 is allowed.
* `C98_port_violated`: A port is stored as written, and every number that an `int` holds is accepted, also if no port has that number.
* `C98_mtu_violated`: A limit of the packet size below 1200 is accepted, though it is then announced, and no peer allows it.
* `C98_version_violated`: A number of more than 32 bits is no version, but is taken as one: only its last 32 bits count.
* `C98_missing_seed_violated`: `picoquic_config_set_option` with the reset seed and no value is undefined behaviour.
* `C98_refused_changes_violated`: The other options are changed by a value that is refused: a number that is none becomes -1, a text is lost, and a seed is said to be there.
* `C98_unknown_name_violated`: A misspelt name is accepted: no error is returned, and nothing is set.
* `C98_letters_violated`: With less room letters are missing, so that these options are unknown, yet no error is returned.
* `C98_cipher_violated`: With a number that is no cipher suite the context is made all the same, with no cipher suite at all.
* `C30_violated`: The end of a stream is lost for ever: it was sent, it was not acknowledged, the stream exists and was not reset, but it is neither in flight nor queued. In the example the packet in which the data of another stream is repeated has three bytes left, just the header of the frame: nothing is written, but since there is no data to send, the frame is taken as sent.
* `C35_violated`: The order of the queue does not depend on the priorities, nor on the streams: of two packets the one that was sent when fewer bytes were in flight is repeated first, whichever was queued first.
* `C38_blocked_violated`: C38, no progress: a frame longer than the packets is accepted, and then no frame queued behind it for the same context is ever placed in a packet, whatever happens.
* `C64_queued_violated`: C64 is violated: when the peer does not accept datagrams (it announced 0), one is accepted for sending and is sent.
* `C64_written_violated`: C64 is violated for the datagrams written by the application, by the type and length of the frame (RFC 9221 section 3 counts them): the peer accepts frames of 20 bytes, one of 22 is sent.
* `C65_blocked_violated`: C65 is violated: a datagram of 1200 bytes is accepted; if the packets have room for 1202 bytes (as on a path with the minimum MTU), no datagram is ever sent, neither this one, nor one queued or written later.
* `C99_lowered_new_violated`: A server that refuses early data may lower its limits. The client then sends new data beyond the limit of the stream: the limits of streams are only raised.
* `C99_lowered_again_violated`: It sends the refused data again beyond the limit of the stream, for every such server and length.
* `C99_lowered_count_violated`: And it sends the refused data of streams that it may not open any more.
* `C99_accepted_lowered_violated`: A server that accepts early data and lowers its limits breaks the rules; the client goes on.
* `C99_written_before_violated`: Data written before the connection is started are never early data: the stream was made with a limit of 0, and the remembered limit is not given to it.
* `C99_no_streams_violated`: A remembered number of streams of 0 is taken for no limit.
* `C101_timeout_violated`: Violated: a timeout reduces the window to the minimum. In the round trip of a loss the timeout is ignored, although a second timeout after a timeout is not: the test of the kind of the last freeze is the wrong way round.
* `C101_once_per_round_violated`: Violated: the window is reduced once per round trip. At the end of the first second the smallest RTT is set to the largest number there is, and the time of the end of a freeze wraps around to the past: three losses of one round trip, at the same time, reduce the window to an eighth.
* `C101_delay_violated`: Violated: delays reduce the window. In the second after the first one any RTT counts as no delay: whatever its length, the window grows with each measurement.
* `C101_no_delay_violated`: Violated: without delay, loss and mark the window is not reduced. On a path with an RTT below 8 microseconds the threshold becomes 0 when the second second ends, and four measurements of that RTT, never a different one, reduce the window.
* `C53_frames_in_order_violated`: C53 is violated: the packet starts with the frame PATH_ABANDON 1 1, of an extension that is not negotiated; an error is raised, then the fields of this frame are processed as if they were two PING frames. No sequence of frames starts with the frames processed.
* `C53_malformed_ack_accepted_violated`: C53 is violated: a packet with a PATH_ACK frame for a path that is not known, the ranges of which are not valid (packets 0 to 5 below), is accepted, although it is not a sequence of frames.
* `C54_inadmissible_frame_closes_violated`: C54 is violated: an IMMEDIATE_ACK frame, at the end of a packet, when the extension is not negotiated.
* `C55_ack_scheduled_violated`: C55 is violated: no ACK is scheduled for a packet with a PATH_CHALLENGE only.
* `C57_malformed_frame_closes_violated`: C57 is violated: a packet with a truncated STREAM frame is dropped, and nothing is reported, whatever the handler does.
* `C80_empty_violated`: C80, violated. Settings without any pair are allowed, and mean that all have their initial values; the control stream is refused.
* `C80_forgotten_violated`: C80, violated. An error on the control stream should end the connection. The peer is only asked to stop; the next piece of the same stream is read as if the frame had been in order, and the settings that it contains are accepted.
* `C80_bidir_violated`: C80, violated. A web transport stream opened by a server, with a known session, is accepted when the two bytes of its type arrive together, and refused when they do not.
* `C80_values_violated`: C80, violated. The settings 2 to 5, those of HTTP/2, are errors of the settings; and a flag must be 0 or 1. They are accepted, and the flag with value 2 is not set.
* `C79_trailer_violated`: C79, violated. Header fields and trailer fields without contents between them are a message, but the program refuses it, as it does an interim response before the final one.
* `C79_push_violated`: C79, violated. A frame PUSH_PROMISE is skipped, though nothing can be pushed: no number for it was allowed.
* `C79_fin_server_violated`: C79, violated. A request that ends in the middle of its contents is processed by a server as if it were complete: two of the five bytes of the only frame of contents arrived.
* `C79_fin_client_violated`: C79, violated. A client takes a response that ends in the middle of a frame for a complete one, if that is before the contents of the frame.
* `C79_upgrade_violated`: C79, violated. Once a request for an upgrade is accepted, what the application gets of the bytes that follow depends on how they are cut into pieces.
* `C79_file_violated`: C79, violated. A client without a file writes the contents of a response to a file that is not there: undefined behavior.
* `C86_forgotten_violated`: C86, negation of the claim that a session that is ready to send is asked until it says otherwise: if the space is no more than the length of the number of its stream, a session that is ready is no longer ready although its application was not called; if it is the only session, the connection does not ask again.
* `C77_long_violated`: C77, violation. The encoding of a string that is longer than the room, which is 256 bytes for all header fields, is decoded without an error as the beginning of the string.
* `C77_padding_violated`: C77, violation. Padding of more than seven bits and the code for the end of strings, both of which RFC 7541 wants to be errors, are accepted, and everything behind them is ignored.
* `C103_unequal_violated`: C103, violation. One end sends, and the other one sends one packet for each packet. All packets arrive, and the other end has answered the last update. For every limit and every number: that many packets are encrypted with the same key, and the key cannot be updated.
* `C103_multipath_violated`: C103, violation. With multipath, once more packets than the limit were sent the keys are updated whenever the other end has answered: with a limit of 3, one packet per key.
* `C103_skipped_violated`: C103, violation. When more numbers were left out than packets were sent before the handshake was complete, the count is below zero: a key is replaced after one packet with a limit of 1000.
* `C103_peer_violated`: C103, violation. An update started by the other end is not taken into account: a key is replaced after one packet, with a limit of 3.
* `C76_simultaneous_violated`: C76, violation. When both ends start a key update at the same time, one of them may start a second one before the first one has reached the other end: the check compares a number of a packet sent with a number of a packet received. If the packets with the keys in between are lost, no packet of this end is ever decrypted again, whatever both ends do.
* `C76_refused_violated`: C76, violation. A key update is refused although all packets were received and both ends use the same keys: after 1000 packets, the end which started the last update cannot start another one before it has received 1000 packets.
* `C76_multipath_violated`: C76, violation. With several paths and only one end that starts key updates, each one after the other end has answered with the current keys: the first packet with new keys is not decrypted, at any time, if it is sent on a path on which no packet with the keys before was received.
* `C68_default_length_violated`: C68, default length (violated). The length may be left out of the text. Such a text is accepted, but then no configuration read from such a text can be set, whatever the length of the connection IDs of the server: it counts as zero.
* `C68_long_server_id_violated`: C68, long server IDs (violated). With the method clear and connection IDs of 18 to 20 bytes, a server ID of 17 bytes or more is not refused: the array of 16 bytes is written out of bounds.
* `C62_large_violated`: C62 is false for a large limit. A peer which accepts 2^31 connection IDs or more (up to 2^32 - 1) is never given any in a NEW_CONNECTION_ID frame.
* `C32_unknown_violated`: C32 is false for numbers never issued. The protocol asks for the error PROTOCOL_VIOLATION; the frame is ignored, in every state and for every such number.
* `C32_tuple_violated`: C32 is false on another tuple. The peer uses connection ID number 1 from a second address, and there retires number 0, which it used on the first one. It is accused of a protocol violation.
* `C32_tuple_own_violated`: C32 is false on another tuple. The frame in a packet with connection ID number 1 from a second address asks to retire number 1. The protocol forbids that, and it is accepted.
* `C82_zero_rtt_violated`: C82. A 0-RTT packet that waits for its acknowledgement after the handshake sets no timer: if no other packet waits, the connection asks for no call because of it, whatever the time asked for otherwise. Here packet 1 was acknowledged and packet 0 was not; it will be lost at 158, but the connection is not called then.
* `C29_reset_violated`: RESET_STREAM: unless stream 4 was opened, no lost RESET_STREAM is ever sent again.
* `C29_max_path_id_violated`: MAX_PATH_ID: the newest one, when lost, is never sent again.
* `C29_paths_blocked_violated`: PATHS_BLOCKED: it states the limit of the peer, and when lost is never sent again.
* `C29_ack_frequency_violated`: ACK_FREQUENCY: the newest one, when lost, is never sent again.
* `C67_violated`: The acknowledgement of a packet with MAX_PATH_ID and RESET_STREAM of stream 0 is taken for the acknowledgement of data of stream 4: that data, lost, was to be repeated before, and is not repeated after.
* `C88_limits_violated`: The limits that are below the first size are ignored: a peer that accepts packets of 1200 bytes only, or a local limit of 1200 bytes, do not prevent packets of the first size.
* `C88_moved_violated`: When the path moves to other addresses its size is the first one. But an acknowledgment of a large packet that was sent to the former addresses makes it large again, though no large packet was ever sent to the new ones.
* `C88_memory_violated`: If both ends set a limit of more than 1536 bytes, as for jumbo frames, and the buffer of the caller is large, as it is when packets are sent in trains, the first probe is written outside of the buffer of its packet.
* `C88_second_violated`: The count of losses is not reset when the size falls back, nor when it grows. Hence, after a path fell back and a new probe was acknowledged, the loss of one packet of the new size is enough for a second fall back, although ten in a row are accepted on a new path.
* `C96_backup_violated`: Not satisfied: when the two paths that are not for backup wait for pacing, the packet goes on the backup path, although none of the paths has had a loss.
* `C96_ack_violated`: Not satisfied: an acknowledgement is needed, and the path with the shortest delay may send, but the other path is chosen: that the first one may send is only noticed if it was used less recently than the paths before it. In the other order of the paths, the right one is chosen.
* `C96_crash_violated`: Not satisfied: the peer abandons the second path and then the first. Whatever the other paths are, and whatever is to be sent, the next packet uses the connection ID of a path that has none: a NULL pointer.
* `C96_none_left_violated`: Not satisfied: if the peer abandons all the paths, all of them are deleted after some time, and the first path of an empty list is used.
* `C92_reuse_violated`: C92, violated. A path is given up, the peer sends connection IDs for it again, the application asks for a new path: the path comes back with the same identifier, its numbering starts again, and the next packet has the key and the nonce of another packet. The code has a comment that the IDs of such a path must stay deleted, but the frame creates them again.
* `C92_replay_violated`: In detail: the nonce of every packet sent on the path is used again. For each number of packets `n` sent on the path before it is given up, the first `n` packets after it is opened again have the same nonces.
* `C92_zero_rtt_violated`: C92, violated. A client with multipath that has sent 0-RTT packets, and that completes the handshake while the congestion window stops its last TLS message, starts the numbering of 0-RTT packets again while it still sends them with the same key.
* `C92_null_violated`: C92, violated: invalid memory access. The peer opens a path before its connection IDs for this path arrive: the path has none, and the next packet sent on it, which the opening of the path requires, reads through a null pointer.
* `C92_blocked_violated`: C92, violated: no new path. Once path 0 is given up, the application can never open a new path, with whatever connection IDs for other paths, in any further history in which the peer does not send IDs for path 0 again.
* `C25_zero_rtt_blocks_violated`: C25, progress fails. If the smoothed round trip time is 0 when the window is updated, as happens when the first acknowledgement is processed in the same microsecond as the send, then the bucket is set to 0 and the packet time to 1: every request is refused, at any time, until the parameters are updated again.
* `C69_duplicate_violated`: C69, duplicates (violated). Packets in a datagram are to be treated one by one. But when the first packet was received before, all others of the datagram are dropped, whatever they are.
* `C70_memory_violated`: C70, memory (violated). Every datagram of more than 1536 bytes which begins like a version negotiation packet is copied to a buffer of 1536 bytes, in every state of the receiver.
* `C105_first_block_violated`: C105, violation. The first block of the square signal of a path has 63 packets, all others 64: an observer counts the loss of a packet that was not sent.
* `C37_suspended_violated`: C37, a defect. An address whose validation failed can still be validated by a late response, and keeps its failure mark. If it is then suspended, it is not challenged again, in any number of packets, and no data are sent any more. Here B is the main address.
* `C37_overwritten_violated`: C37, a defect. When a second challenge comes from the same address before the answer to the first one, the first is never answered: whatever happens after, as long as its value does not come again, no response with this value is sent.
* `C37_failed_violated`: C37, a defect. The challenges from a known address are not answered, in any number of packets, when the validation of this address failed: here B did not answer three challenges, and then challenges this endpoint.
* `C37_demoted_violated`: C37, a defect. After one ICMP message for the main address, the challenges from the other addresses are not answered, and these addresses are not challenged, in any number of packets.
* `C63_violated`: C63, a defect. Two ICMP messages for the main address B, then three challenges without answer: in the packet where the validation of B fails, the list of addresses rotates, so that the packet, which goes to B, is filled with data because A, now the first address, is verified.
* `C31_late_violated`: C31, late frames. A connection ID announced after the frame which asks to retire it comes into use.
* `C31_old_tuple_violated`: C31, other tuples. An address tuple which is not the first one goes on using the connection ID which the peer asked to retire.
* `C31_repeat_violated`: C31, repetitions after retirement. The repetition of a frame makes the connection use again a connection ID which it had retired, and the peer had acknowledged it.
* `C31_dangling_violated`: C31, use of freed memory. A connection ID retired, announced again and used again is freed by the acknowledgement of the first RETIRE_CONNECTION_ID frame: the next packet reads freed memory.
* `C31_deleted_tuple_violated`: C31, deleted tuples. The connection ID of an address tuple which was deleted is never retired, although nothing uses it and the peer asked to retire it.
* `C100_unlimited_violated`: If there is no threshold, because no loss was acted upon and the clock started less than an RTT ago, or because the algorithm was reset, a loss that was none makes the window unlimited.
* `C107_port_violated`: On a little-endian host the packets go to the port with the two bytes in the other order, so to another port than the one that the server gave whenever its two bytes differ: the value read from the parameter is stored in the socket address without `htons`.
* `C78_static_violated`: C78, index 99 is false. The static table has the entries 0 to 98. A peer that sends a header field with index 99, with whatever follows, makes the code read behind the end of the table.
* `C78_status_violated`: C78, long status is false. A status code of digits whose value is not below 2^31 overflows: any peer can cause it.
* `C78_range_violated`: C78, ranges by index is false. The entry 55 of the static table is a range. Sent by its index it is not reported; any other way, the same field is.
* `C78_long_violated`: C78, long paths is false. A path with a Huffman code and more than 256 bytes is cut to its first 256 bytes, and the request is accepted.
* `C06_duplicate_detection_violated`: C06 (violated). A packet number that was received is *not* always recognised as a duplicate later: once the peer acknowledged our ACK frame, its range is forgotten. Here packets 0, 1, 2 are received, an ACK of [0, 2] is sent and acknowledged, and packets 0 and 1 would be accepted again.
* `C108_loss_unused_violated`: The only use of the test of losses, in the start-up phase of BBR on links of long delay, gives it an event for which the answer is always no: whatever is lost, the phase is left for the delay or for marks only.
* `C91_order_violated`: The packets that came early are processed in the order opposite to that of their arrival.
* `C91_memory_violated`: What is stored has no limit, and it need not come from the peer: `n` forged datagrams make `n` entries that stay until the handshake gives the keys.
* `C91_copies_violated`: A datagram of `k` Handshake packets is stored by a client as `k` datagrams, which have `k·(k+1)/2` packets in all.
* `C91_server_violated`: A server keeps no Handshake packet that comes before its keys: it is dropped, and the client has to send it again.
* `C104_late_violated`: C104, violation. RFC 9000 section 17.4 asks that only packets with the highest number so far count. A packet that is late makes two more changes: three on the way.
* `C104_paths_violated`: C104, violation. Packets on other paths have the bit of the first path: when all packets are sent on other paths, the bit never changes, after any number of round trips.
* `C104_policy_violated`: C104, violation. `picoquic_cnx_set_spinbit_policy` accepts all values of its type: with `picoquic_spinbit_on` the next packet reads outside the table of functions.
* `C75_reset_buffer_violated`: C75, stateless reset, violation. A datagram of 1538 bytes or more makes the host write behind the end of the buffer, which has 1536 bytes.
* `C75_vn_overread_violated`: C75, version negotiation, violation. A host that uses connection IDs of length zero reads behind the end of a datagram: it sends back up to 510 bytes which are not in the datagram, as connection IDs of a version negotiation packet.
* `C12_final_size_violated`: C12 does not hold: a FIN that sets the final size below data already received is accepted, and so is a RESET_STREAM, and so is data past the final size announced by a RESET_STREAM. Each of these is a FINAL_SIZE_ERROR in the specification of the protocol.
* `C45_reset_violated`: C45 does not hold when the peer resets a stream before all its data was received: the stream is finished on both sides, and deleted, and the credit is never given, whatever follows on the stream.
* `C45_early_violated`: The credit may be given before any data is received: a FIN that arrives first, ahead of the data, is enough.
* `C97_stop_code_violated`: Not satisfied for STOP_SENDING: whatever the code in the frame of the peer, the application reads 0.
* `C97_stop_lost_violated`: Not satisfied: `picoquic_discard_stream` on a stream on which both ends send asks the peer to stop, but after the RESET_STREAM frame the STOP_SENDING frame is never sent, whatever happens.
* `C97_discard_server_violated`: Not satisfied: a server discards a stream that it opened and on which only it sends. It asks the client to stop sending, which closes the connection, and goes on sending the data of the stream.
* `C97_discard_unheard_violated`: Not satisfied: a server discards a stream of the client on which only the client sends. The call succeeds, but the client is not told.
* `C97_reset_after_end_violated`: Not satisfied: a stream can be reset until the peer has received all of it. But while the end that was sent is not acknowledged, `picoquic_reset_stream` says that the stream is closed, and when everything was acknowledged it accepts the reset.
* `C97_reset_send_only_violated`: Not satisfied: RESET_STREAM for a stream on which only this end sends is not refused, it is reported.
* `C33_client_stream_limit_violated`: C33, the limit of a client is wrong: whatever count the client announced (here or later), the last stream this count allows to the server is refused with STREAM_LIMIT_ERROR.
* `C33_zero_limit_violated`: C33 with an announced count of zero: the peer may open any stream, and all the lower ones are created (up to 2^60 of them from a single frame).
* `C33_unopened_local_stream_violated`: C33, locally initiated streams: the error is not STREAM_STATE_ERROR.
* `C34_zero_parameter_violated`: C34 at zero, transport parameter: with `initial_max_streams` present and equal to zero, or to 0xFFFFFFFF, data may be sent on every stream.
* `C34_absent_parameter_violated`: C34 at zero, absent parameter: with no `initial_max_streams_bidi` parameter, a client may send on its first bidirectional stream.
* `C34_zero_frame_violated`: C34 at zero, MAX_STREAMS: a frame with a count of zero, which has no effect in the protocol, closes the connection with STREAM_LIMIT_ERROR.
* `C49_write_after_fin_violated`: C49 violated, data lost: data written after the FIN was sent is accepted and never sent, whatever packets are prepared.
* `C49_data_after_fin_violated`: C49 violated, data behind the end: if the application then calls `picoquic_stop_sending`, the data is sent at an offset above the final size of the first FIN.
* `C49_refused_fin_violated`: C49 violated, truncated stream: a call that asks for the end of the stream and fails, because the peer has sent STOP_SENDING, nevertheless ends the stream, without the data of the call.
* `C46_fin_without_credit_violated`: C46 violated: when all the data allowed by the peer has been sent, a FIN without data is not sent, although it needs no credit, whatever packets are prepared.
* `C39_reset_active_violated`: C39 violated: a stream that was marked active and then reset is chosen after the RESET_STREAM frame was sent, although nothing can be sent on it any more, while another stream of the same priority has data.
* `C47_zero_limit_violated`: C47 violated: a stream of a server created while the peer's limit is zero is never served, even when the limit has been raised: no packet carries its data.
* `C50_reset_active_violated`: C50 violated: after a stream that was marked active is reset, the RESET_STREAM frame is sent, and then the loop that fills the next packet never ends.
* `C50_discard_violated`: C50 violated: `picoquic_discard_stream` on a bidirectional stream resets it and asks the peer to stop. The RESET_STREAM frame is sent, and then the loop never ends.
* `C50_lowered_limit_violated`: C50 violated: data was sent on the second stream in 0-RTT, and the transport parameters of the server then allow one stream only. The loop never ends.
* `C85_address_violated`: C85, negation: of a ticket that has the address of the server, but no address of the client, all is parsed back but the address of the server.
* `C85_file_violated`: C85, negation of the part about files: whatever follows in the store, if its first record takes between 1929 and 2048 bytes, it is written to the file, but loading the file fails, and nothing is loaded of it.
* `C85_reuse_violated`: C85, negation: connections do not use a ticket up. Whatever the store, two connections one after the other get the same ticket. (Tickets should be used once, or an observer can link the connections, RFC 8446 C.4.)
* `C85_unmark_violated`: C85, negation: a ticket that was marked is given again to be marked, after the application looked at it without marking it.
* `C28_backoff_decreases_violated`: C28, negation. The delay does not always grow with the number of retransmissions. First case: with a 2 second idle timeout, the delay of the first retransmission (400 ms) is longer than that of the next ones, since the limit of one sixteenth of the idle timeout only applies to these. Second case: on a path with a long minimum round trip time, the delay drops from 1.2 s to 0.975 s, since delays above 2 s are replaced by one and a half round trip times.
* `C93_large_violated`: C93 is violated for longer flights: if the flight of the peer is longer than 16384 bytes, then any piece of it that ends beyond this and arrives before the first byte closes the connection with CRYPTO_BUFFER_EXCEEDED.
* `C93_extends_violated`: C93 is violated: data beyond the end of the flight of a level that TLS has left are not refused (RFC 9001, 4.1.3, asks for PROTOCOL_VIOLATION).
* `C23_file_violated`: C23, negation of the part about files: whatever follows in the store, if its first record takes between 2017 and 2048 bytes, it is written to the file, but loading the file fails, and nothing is loaded of it. (The function that loads adds to the size the offset of a field, as if the record was stored in memory as in the file.)
* `C71_small_buffer_violated`: C71, small buffers (violated). A buffer of 1200 bytes is accepted. But for every buffer smaller than the MTU there are packets which keep to their room, and which are written behind the end of the buffer: with and without trains.
* `C71_probe_violated`: C71, probes (violated). With a train, a buffer which is larger than the MTU does not help when the first datagram is an MTU probe behind which less than the MTU is left: two packets with long headers are written behind the end.
* `C21_terminates_violated`: A server whose client chose another version than version 1 never returns from the parsing of version information that lists version 2.
* `C21_repeated_violated`: A repeated parameter is accepted when its type is 64 or more (loss bits, here).
* `C21_exponent_violated`: An ACK delay exponent of 21 is accepted. One of 256 + 3 is read as 3.
* `C21_max_ack_delay_violated`: A maximum ACK delay of 2^14 ms is accepted. One of 2^32 ms is read as zero.
* `C21_stream_count_violated`: A count of 2^60 + 1 streams is accepted, for both kinds of streams.
* `C21_preferred_address_violated`: An empty preferred address is accepted.
* `C21_skipped_violated`: After version information that lists draft 29, the rest of the extension is not read and no error is raised: a repeated parameter, a truncated value and the absence of the connection ID go unnoticed.
* `C20_preferred_port_violated`: The port for IPv6 of a preferred address is replaced by the port for IPv4: the client never reads the one that was set.
* `C58_idle_timeout_violated`: An end that advertises 2^61 + 1 ms, to a peer without a timeout of its own: the peer uses 1 ms.
* `C106_known_local_violated`: The code does not find a path by the address of the peer alone once the local address of the path is known: a notification without local address has no effect.
* `C106_last_path_violated`: The comment in the code ("Caution here: ICMP packets could be forged") asks that the last path is only tested with a challenge. It is not so: the test counts the path itself. An error for the only path in use puts it out of use, without challenge, so that no path in use is left.
* `C83_largest_violated`: C83. The largest number of 64 bits, 18446744073709551615, is refused.
* `C83_handler_violated`: C83. With HTTP/0.9 it is the first one that the path begins with: `/bb` is given to the handler for `/b`, although there is one for `/bb`.
* `C83_version_violated`: C83. The sample application with batons, which speaks version 0, accepts requests for version 1: it looks for a parameter called `versi`.
* `C89_reserved_violated`: The test for reserved versions is too wide: other versions that are not supported are proposed too, and the packet is protected with keys of version 1.
* `C89_incompatible_violated`: A client that prefers a version which the server supports, but to which no change is possible, does not stay with the first version, although both support it: the server refuses the parameters, or never returns.
* `C89_forged_violated`: A client changes its version before it decrypts the packet. Hence one forged packet, of any type and content, with the version that the client prefers, changes the version of the client for ever: none of the packets of a server that kept the first version is decrypted any more.
* `C89_forged_hang_violated`: One forged packet also suspends for ever a client that does not use version 1 and prefers version 2.
* `C89_downgrade_violated`: A client that connects again after it was told, by a packet that anybody can send, that the server does not support its first choice, does not detect that the server supports it: it takes the version information of the server whatever versions it lists. RFC 9368 section 4 requires the client to compare them.
* `C89_rejected_violated`: The version that an application rejects is the one that the client asks for: the function that rejects a version is the same as the one that expresses a preference.
* `C90_zero_violated`: C90, at time 0. The statement of `C90_earliest` fails at time 0: a connection is served although its wake time has not come, whatever this time is.
* `C90_flood_violated`: C90, starved by packets without connection. The wait is not bounded when such packets keep coming: if one is queued before each request (a peer that sends packets with an unknown version is enough), no connection is ever served, whatever the number of requests and however late the connections are.
* `C90_touched_violated`: C90, starved by its own packets. Nor when something happens to the connection before each request, as when packets arrive for it: each time it goes to the end of those whose wake time has come. Here connection 1 always has something to send, and connection 2 is never served.
* `C90_alarm_violated`: C90, alarms missed. After a preparation that fails (for instance because the buffer is shorter than 1200 bytes), after `picoquic_close_immediate`, and when a client connection has ended, the alarm is still set but the connection sleeps past it: at any time from the alarm to the other time, a request is answered by "nobody to wake up".
* `C90_failed_violated`: C90, a creation that fails. When a connection cannot be created, all the others are lost from the wake list: the context asks never to be woken up, and a request at any time is answered by "nobody to wake up", whatever the connections were waiting for.
* `C84_number_violated`: C84. The number 18446744073709551620, which is 4 more than 2⁶⁴, gives 4 bytes.
* `C95_zero_violated`: Zero bytes. `/0` is not answered with zero bytes, but with the default page.