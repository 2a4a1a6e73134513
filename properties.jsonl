{"id": "C01", "title": "RTMP input does not depend on TCP segmentation", "statement": "The sequence of messages (type, stream ids, timestamp, payload) a server extracts from a connection, and the error it ends with if any, depends only on the concatenation of the bytes received, not on how recv() splits them.", "quantifier": "every byte string, every way of splitting it into reads, every receiver state", "why_tests_cant": "the number of ways to split a byte string is exponential and splits inside a header or an extended timestamp are the ones that break", "anchors": ["modules/nginx-rtmp-module/ngx_rtmp_handler.c:ngx_rtmp_recv"]}
{"id": "C02", "title": "RTMP chunk serialise/parse round trip", "statement": "Any sequence of messages the server serialises onto a connection is parsed by the same protocol implementation, using the same chunk size, into exactly the same sequence: same message type, chunk stream, message stream, 32-bit timestamp and payload, nothing added, lost, merged or reordered.", "quantifier": "every list of messages, every payload, every chunk size >= 1, every chunk stream id below the stream limit, every 32-bit timestamp", "why_tests_cant": "needs all payload lengths relative to the chunk size, all timestamps around 0xffffff, and all histories of the per-stream state", "anchors": ["modules/nginx-rtmp-module/ngx_rtmp_handler.c:ngx_rtmp_prepare_out_chain", "modules/nginx-rtmp-module/ngx_rtmp_handler.c:ngx_rtmp_recv", "modules/nginx-rtmp-module/ngx_rtmp_shared_module.c:ngx_rtmp_shared_append_chain"]}
{"id": "C03", "title": "Interleaved chunk streams are reassembled independently", "statement": "When a peer interleaves chunks of messages of several chunk streams in any order the protocol allows, the server delivers each stream's messages complete and uncorrupted, in completion order.", "quantifier": "every interleaving of the chunk sequences of any number of chunk streams", "why_tests_cant": "the interleavings are unbounded in number", "anchors": ["modules/nginx-rtmp-module/ngx_rtmp_handler.c:ngx_rtmp_recv"]}
{"id": "C04", "title": "A message larger than max_message is never accumulated or delivered", "statement": "The server never buffers more than max_message payload bytes for one incoming message and never delivers a message longer than max_message; a header announcing more terminates the session.", "quantifier": "every byte string a hostile peer can send", "why_tests_cant": "hostile chunk sequences (header changes in the middle of a message) are not enumerable", "anchors": ["modules/nginx-rtmp-module/ngx_rtmp_handler.c:ngx_rtmp_recv"]}
{"id": "C05", "title": "Changing the incoming chunk size loses nothing", "statement": "When the peer changes its chunk size, partially received messages of all chunk streams and bytes already read past the current message survive the switch: what is delivered afterwards is what the peer sent.", "quantifier": "every pair of old and new chunk sizes, every set of partially received messages, every amount of read-ahead", "why_tests_cant": "depends on the exact sizes of half received messages relative to both chunk sizes", "anchors": ["modules/nginx-rtmp-module/ngx_rtmp_handler.c:ngx_rtmp_set_chunk_size", "modules/nginx-rtmp-module/ngx_rtmp_handler.c:ngx_rtmp_finalize_set_chunk_size", "modules/nginx-rtmp-module/ngx_rtmp_handler.c:ngx_rtmp_recv"]}
{"id": "C06", "title": "The RTMP receive path never writes outside its buffers", "statement": "Whatever the peer sends, the bytes copied or received into an input buffer never exceed that buffer's capacity.", "quantifier": "every byte string, every segmentation, every sequence of chunk size changes", "why_tests_cant": "a memory-safety claim over all hostile inputs", "anchors": ["modules/nginx-rtmp-module/ngx_rtmp_handler.c:ngx_rtmp_recv", "modules/nginx-rtmp-module/ngx_rtmp_handler.c:ngx_rtmp_alloc_in_buf"]}
{"id": "C07", "title": "Acknowledgement window", "statement": "With an acknowledgement window w announced by the peer, the server acknowledges after any read that leaves at least w bytes unacknowledged, the acknowledged sequence number is the current byte counter, and at no quiescent point are w or more bytes unacknowledged.", "quantifier": "every sequence of read sizes, every window, including wrap of the 32-bit counter", "why_tests_cant": "the counter wrap needs gigabytes of traffic", "anchors": ["modules/nginx-rtmp-module/ngx_rtmp_handler.c:ngx_rtmp_recv"]}
{"id": "C08", "title": "Outgoing queue: bounded, FIFO, priority based drops", "statement": "The per-session output queue never overwrites an unsent message and keeps them in the order accepted; a message of priority p is dropped exactly when the number of queued messages has reached the documented fraction of the queue, so higher-priority messages are accepted whenever lower-priority ones are; a dropped message leaves the queue untouched.", "quantifier": "every sequence of enqueue and send operations, every queue size and priority", "why_tests_cant": "needs all wrap-around positions and histories", "anchors": ["modules/nginx-rtmp-module/ngx_rtmp_handler.c:ngx_rtmp_send_message", "modules/nginx-rtmp-module/ngx_rtmp_handler.c:ngx_rtmp_send"]}
{"id": "C09", "title": "Shared frames: exact reference counting", "statement": "A shared frame goes back to the pool exactly when the last holder releases it: never while somebody still holds it, never twice; the allocated/free counters always account for every frame.", "quantifier": "every sequence of allocate, acquire, release by any number of holders", "why_tests_cant": "needs all histories of sharing between publisher cache and players", "anchors": ["modules/nginx-rtmp-module/ngx_rtmp_shared_module.c:ngx_rtmp_shared_alloc_frame", "modules/nginx-rtmp-module/ngx_rtmp_shared_module.c:ngx_rtmp_shared_free_frame", "modules/nginx-rtmp-module/ngx_rtmp.h:ngx_rtmp_shared_acquire_frame"]}
{"id": "C10", "title": "Repacking payload preserves the bytes", "statement": "Copying an incoming payload into outgoing buffers preserves the byte sequence, and every outgoing buffer except possibly the last holds exactly one output chunk's worth of bytes, none is empty; copies can be appended in several steps with the same result.", "quantifier": "every input chain (any segmentation, empty buffers included), every chunk size >= 1, every starting fill of the destination", "why_tests_cant": "boundary alignments between input and output buffers are unbounded", "anchors": ["modules/nginx-rtmp-module/ngx_rtmp_shared_module.c:ngx_rtmp_shared_append_chain"]}
{"id": "C11", "title": "Batched sending preserves the stream", "statement": "Whatever the merge limit and however the socket accepts partial writes, the bytes put on the wire are the concatenation of the serialised queued messages in order, each exactly once, and every sent message is released exactly once.", "quantifier": "every queue content, merge limit, and pattern of partial writes and blocked sockets", "why_tests_cant": "partial-write schedules are unbounded", "anchors": ["modules/nginx-rtmp-module/ngx_rtmp_shared_module.c:ngx_rtmp_prepare_merge_frame", "modules/nginx-rtmp-module/ngx_rtmp_handler.c:ngx_rtmp_send"]}
{"id": "C12", "title": "AMF0 encode/decode round trip", "statement": "A value (numbers, booleans, strings, nulls, nested objects, arrays) written with the AMF encoder and read back with the AMF decoder using a matching element description yields the same value.", "quantifier": "every value of the supported types, any nesting depth, any string up to 65535 bytes", "why_tests_cant": "the value space is infinite and nesting unbounded", "anchors": ["modules/nginx-rtmp-module/ngx_rtmp_amf.c:ngx_rtmp_amf_write", "modules/nginx-rtmp-module/ngx_rtmp_amf.c:ngx_rtmp_amf_read"]}
{"id": "C13", "title": "AMF decoding does not depend on buffer boundaries", "statement": "The result of decoding AMF data depends only on the concatenated bytes, not on how they are spread over chained buffers; encoding likewise produces the same byte string whatever the output buffer size.", "quantifier": "every byte string and every split into buffers (including empty ones), every output buffer size", "why_tests_cant": "values straddling buffer boundaries can do so at any offset", "anchors": ["modules/nginx-rtmp-module/ngx_rtmp_amf.c:ngx_rtmp_amf_get", "modules/nginx-rtmp-module/ngx_rtmp_amf.c:ngx_rtmp_amf_put"]}
{"id": "C14", "title": "AMF strings never overflow their destination", "statement": "Reading an AMF string into a destination of n >= 1 bytes writes at most n bytes, always NUL-terminates, stores the longest prefix that fits, and leaves the decoder positioned after the whole string.", "quantifier": "every string length 0..65535, every destination size >= 1", "why_tests_cant": "off-by-one at every length/size combination", "anchors": ["modules/nginx-rtmp-module/ngx_rtmp_amf.c:ngx_rtmp_amf_read"]}
{"id": "C15", "title": "AMF decoding of hostile input is safe", "statement": "On arbitrary bytes the decoder terminates, never reads outside the supplied buffers and never dereferences a missing element description; it either fills the requested fields or reports an error.", "quantifier": "every byte string and element description", "why_tests_cant": "adversarial nesting and truncation", "anchors": ["modules/nginx-rtmp-module/ngx_rtmp_amf.c:ngx_rtmp_amf_read", "modules/nginx-rtmp-module/ngx_rtmp_amf.c:ngx_rtmp_amf_read_object", "modules/nginx-rtmp-module/ngx_rtmp_amf.c:ngx_rtmp_amf_read_array"]}
{"id": "C16", "title": "Protocol control messages encode what the API says", "statement": "Each control-message constructor (set chunk size, abort, acknowledgement, window size, bandwidth, stream begin/eof/dry, buffer length, recorded, ping request/response) produces a message which the receiving side of the same implementation decodes as that kind of message with the same arguments.", "quantifier": "every argument value (all 32-bit integers)", "why_tests_cant": "all 2^32 argument values and the cross-check of encoder against decoder for each kind", "anchors": ["modules/nginx-rtmp-module/ngx_rtmp_send.c", "modules/nginx-rtmp-module/ngx_rtmp_receive.c:ngx_rtmp_protocol_message_handler", "modules/nginx-rtmp-module/ngx_rtmp_receive.c:ngx_rtmp_user_message_handler"]}
{"id": "C17", "title": "Outgoing AMF commands are complete", "statement": "An AMF command or metadata message built by the server carries the encoding of all its elements, whatever its length.", "quantifier": "every list of elements, every output chunk size", "why_tests_cant": "breaks only beyond one output buffer, with any content", "anchors": ["modules/nginx-rtmp-module/ngx_rtmp_send.c:ngx_rtmp_create_amf", "modules/nginx-rtmp-module/ngx_rtmp_send.c:ngx_rtmp_append_amf"]}
{"id": "C18", "title": "Aggregate messages are unpacked exactly", "statement": "An aggregate message is delivered as exactly its sub-messages in order, with their types, payloads and timestamps shifted so that the first one gets the aggregate's timestamp; truncated aggregates are rejected at the truncation point.", "quantifier": "every list of sub-messages, every segmentation of the aggregate over buffers", "why_tests_cant": "all lengths and buffer boundaries", "anchors": ["modules/nginx-rtmp-module/ngx_rtmp_receive.c:ngx_rtmp_aggregate_message_handler", "modules/nginx-rtmp-module/ngx_rtmp_receive.c:ngx_rtmp_fetch"]}
{"id": "C19", "title": "MPEG-TS packetiser output is decodable to the same elementary stream", "statement": "Every frame is written as a whole number of 188-byte packets starting with sync byte 0x47 and carrying the frame's PID; payload_unit_start is set exactly on the first; the continuity counter advances by one modulo 16 per packet; concatenating packet payloads per the TS standard gives one PES packet whose payload is the frame's bytes.", "quantifier": "every payload length and content, every pts/dts, pid, stream id, key flag and counter start", "why_tests_cant": "stuffing arithmetic has a special case for each residual length", "anchors": ["modules/nginx-rtmp-module/hls/ngx_rtmp_mpegts.c:ngx_rtmp_mpegts_write_frame", "modules/nginx-rtmp-module/mpegts/ngx_mpegts_live_module.c"]}
{"id": "C20", "title": "Timestamps survive PES and PCR encoding", "statement": "The 33-bit PTS/DTS and PCR base fields written in PES and adaptation headers decode, per ISO 13818-1, to the given timestamp (plus the fixed 700 ms delay) modulo 2^33, with all marker bits set.", "quantifier": "every 64-bit timestamp", "why_tests_cant": "2^33 values times bit positions", "anchors": ["modules/nginx-rtmp-module/hls/ngx_rtmp_mpegts.c:ngx_rtmp_mpegts_write_pts", "modules/nginx-rtmp-module/hls/ngx_rtmp_mpegts.c:ngx_rtmp_mpegts_write_pcr"]}
{"id": "C21", "title": "PSI tables carry a correct CRC", "statement": "The CRC routine is the CRC-32/MPEG-2 polynomial division for every input, and the PAT and every PMT variant emitted has a valid CRC and section length.", "quantifier": "every byte string for the routine; every codec combination for the tables", "why_tests_cant": "all inputs of the CRC", "anchors": ["modules/nginx-rtmp-module/hls/ngx_rtmp_mpegts.c:ngx_rtmp_mpegts_crc32", "modules/nginx-rtmp-module/hls/ngx_rtmp_mpegts.c:ngx_rtmp_mpegts_gen_pmt"]}
{"id": "C22", "title": "Encrypted TS file does not depend on write sizes", "statement": "With AES-128 encryption the bytes written to the segment are the block encryption of exactly the plain bytes followed by PKCS#7 padding, independent of the sizes in which they were written; nothing is lost, duplicated or reordered and the file is a multiple of 16 bytes.", "quantifier": "every sequence of write sizes and contents", "why_tests_cant": "all alignments modulo 16 across calls and internal buffer wraps", "anchors": ["modules/nginx-rtmp-module/hls/ngx_rtmp_mpegts.c:ngx_rtmp_mpegts_write_file", "modules/nginx-rtmp-module/hls/ngx_rtmp_mpegts.c:ngx_rtmp_mpegts_close_file"]}
{"id": "C23", "title": "ngx_map is a finite map with ordered iteration", "statement": "Insert, delete and find behave as a finite map keyed by the user key even when hashes collide; covered insertion replaces, uncovered insertion keeps; iteration from begin visits every entry exactly once in order and backwards likewise.", "quantifier": "every sequence of operations, every hash function and total comparison", "why_tests_cant": "histories with colliding hashes and rebalancing", "anchors": ["modules/nginx-toolkit-module/ngx_map.c"]}
{"id": "C24", "title": "Stream ownership is exclusive across worker processes", "statement": "For each stream name at most one worker is owner; inserting a name returns the current owner if there is one and otherwise makes the caller owner; a delete by a non-owner changes nothing; names at or over the length limit or beyond capacity are refused.", "quantifier": "every interleaving of operations by any number of workers, every set of names, colliding buckets included", "why_tests_cant": "inter-process histories", "anchors": ["modules/nginx-multiport-module/ngx_stream_zone_module.c:ngx_stream_zone_insert_stream", "modules/nginx-multiport-module/ngx_stream_zone_module.c:ngx_stream_zone_delete_stream"]}
{"id": "C25", "title": "Stream zone never leaks or double-allocates slots", "statement": "At all times each of the configured stream slots is either free or holds exactly one registered name; the counters equal the true numbers; the zone accepts a new name exactly when fewer than the configured number are registered.", "quantifier": "every history of inserts, deletes and worker restarts", "why_tests_cant": "free-list corruption only shows in long histories", "anchors": ["modules/nginx-multiport-module/ngx_stream_zone_module.c:ngx_stream_zone_get_node", "modules/nginx-multiport-module/ngx_stream_zone_module.c:ngx_stream_zone_put_node"]}
{"id": "C26", "title": "Worker crash recovery clears exactly the crashed worker's streams", "statement": "When a worker slot is (re)started after a crash at any point between operations, exactly the names owned by that slot disappear and all others keep their owner.", "quantifier": "every registry content, every slot, every crash point between zone operations", "why_tests_cant": "crash points times registry contents", "anchors": ["modules/nginx-multiport-module/ngx_stream_zone_module.c:ngx_stream_zone_clear"]}
{"id": "C27", "title": "Live server/stream registry is a two-level map", "statement": "After creating a server or stream it can be fetched and is distinct from all others; after deleting it, it cannot; a server deleted while it has streams goes away with its last stream.", "quantifier": "every history of create, fetch and delete with any names, including hash collisions and recycled nodes", "why_tests_cant": "recycled nodes in colliding buckets need particular histories", "anchors": ["modules/nginx-rtmp-module/ngx_live.c"]}
{"id": "C28", "title": "Access rules: first match decides", "statement": "A connection is admitted to publish/play according to the first rule, in configuration order with inner-scope rules before outer ones, whose flags include the operation and whose network contains the address; with no matching rule it is admitted.", "quantifier": "every rule list, address and operation", "why_tests_cant": "rule lists and 2^128 addresses", "anchors": ["modules/nginx-rtmp-module/ngx_rtmp_access_module.c"]}
{"id": "C29", "title": "Connection limit is never exceeded", "statement": "With max_connections n, at most n sessions are past the connect stage at any time, and the shared counter returns to zero when all sessions have ended.", "quantifier": "every interleaving of connects and disconnects over all workers", "why_tests_cant": "interleavings", "anchors": ["modules/nginx-rtmp-module/ngx_rtmp_limit_module.c"]}
{"id": "C30", "title": "Bit reader is exact and safe", "statement": "Reading k bits returns the next k bits of the buffer as a big-endian number and advances by k; reading past the end sets the error flag, never reads outside the buffer, and stays in error; Exp-Golomb reads invert Exp-Golomb coding.", "quantifier": "every buffer, every sequence of read sizes, every code value", "why_tests_cant": "all bit alignments", "anchors": ["modules/nginx-rtmp-module/ngx_rtmp_bitop.c", "modules/nginx-rtmp-module/ngx_rtmp_bitop.h"]}
{"id": "C31", "title": "URL parser splits exactly", "statement": "Parsing scheme://[user@]host[:port]/path[?args][#fragment] returns components that, put together with their separators, give back the input; strings without the mandatory parts are refused; the port helper returns exactly the decimal port in 1..65535, the scheme default, or 0.", "quantifier": "every byte string", "why_tests_cant": "string space", "anchors": ["modules/nginx-toolkit-module/ngx_toolkit_misc.c:ngx_parse_request_url", "modules/nginx-toolkit-module/ngx_toolkit_misc.c:ngx_request_port"]}
{"id": "C32", "title": "Variable expansion", "statement": "Expanding a template yields the literal text with each $name and ${name} replaced by the variable's value, unknown names by nothing and backslash-escaped characters literally; output is not limited by the initial buffer.", "quantifier": "every template and every variable table", "why_tests_cant": "template space", "anchors": ["modules/nginx-rtmp-module/ngx_rtmp_eval.c:ngx_rtmp_eval"]}
{"id": "C33", "title": "Ping keep-alive", "statement": "A session that gets traffic between pings is never dropped by the ping timer; one that sends nothing for a full ping interval is sent exactly one ping request, and is dropped if still silent when the ping timeout expires; timers are re-armed with the proper interval.", "quantifier": "every sequence of timer expirations and received data", "why_tests_cant": "timer/data schedules", "anchors": ["modules/nginx-rtmp-module/ngx_rtmp_handler.c:ngx_rtmp_ping", "modules/nginx-rtmp-module/ngx_rtmp_handler.c:ngx_rtmp_reset_ping"]}
{"id": "C34", "title": "GOP cache", "statement": "The publisher's cache keeps a contiguous suffix of the published frames in order, never overfills its ring, releases each frame it drops exactly once, and after trimming starts at a key frame while keeping at least the configured duration when available.", "quantifier": "every sequence of published frames", "why_tests_cant": "frame histories and ring positions", "anchors": ["modules/nginx-rtmp-module/ngx_rtmp_gop_module.c"]}
{"id": "C35", "title": "Handshake digest agreement", "statement": "A challenge created by this implementation as client is recognised by it as server and vice versa, for any random fill; digest positions always lie inside the 1536-byte packet; the response digest verifies with the key derived from the peer's digest.", "quantifier": "every random fill, every hash function", "why_tests_cant": "1536 random bytes decide the position", "anchors": ["modules/nginx-rtmp-module/ngx_rtmp_handshake.c"]}
{"id": "C36", "title": "Bandwidth estimation", "statement": "The reported rate for an interval equals the bytes counted in that interval divided by its length, byte totals never lose an update, and after an idle interval the rate becomes zero.", "quantifier": "every sequence of updates and clock values", "why_tests_cant": "clock/update schedules", "anchors": ["modules/nginx-rtmp-module/ngx_rtmp_bandwidth.c"]}
{"id": "C37", "title": "Event handlers run in order and stop at the first refusal", "statement": "Message handlers for a type run in registration order; the first error ends processing with an error, the first 'done' ends it successfully, unknown types are ignored.", "quantifier": "every handler list and outcome pattern", "why_tests_cant": "handler outcome patterns", "anchors": ["modules/nginx-rtmp-module/ngx_rtmp_handler.c:ngx_rtmp_receive_message", "modules/nginx-rtmp-module/ngx_rtmp.c:ngx_rtmp_fire_event"]}
{"id": "C38", "title": "Recycled buffers are exclusive and of the requested size", "statement": "A buffer obtained from the recycler has the requested capacity and is not handed to anybody else until it is put back; putting back makes it available again and the counters account for every buffer.", "quantifier": "every sequence of gets and puts of any sizes", "why_tests_cant": "histories", "anchors": ["modules/nginx-toolkit-module/ngx_rbuf.c"]}
{"id": "C39", "title": "Pool registry detects double destruction", "statement": "Destroying a pool that is not (or no longer) registered is refused, and every live pool is listed exactly once.", "quantifier": "every history of create and destroy", "why_tests_cant": "histories with reused addresses", "anchors": ["modules/nginx-toolkit-module/ngx_poold.c"]}
{"id": "C40", "title": "Per-session output byte counter equals bytes on the wire", "statement": "The output byte counter reported for a session equals the number of bytes accepted by its socket for media and control messages.", "quantifier": "every queueing history and every pattern of partial socket writes", "why_tests_cant": "partial write patterns depend on socket buffer state", "anchors": ["modules/nginx-rtmp-module/ngx_rtmp_handler.c:ngx_rtmp_send"]}
{"id": "C41", "title": "Control messages do not depend on earlier traffic", "statement": "A control message created by the server carries timestamp 0 and message stream 0 whatever frames were sent and recycled before.", "quantifier": "for all histories of the frame pool", "why_tests_cant": "Depends on which recycled frame is handed out after arbitrary traffic.", "anchors": ["modules/nginx-rtmp-module/ngx_rtmp_send.c:NGX_RTMP_USER_START", "modules/nginx-rtmp-module/ngx_rtmp_shared_module.c:ngx_rtmp_shared_alloc_frame"]}
{"id": "C42", "title": "Message processing uses bounded stack", "statement": "The recursion depth of message processing is bounded by a constant independent of what the peer sends.", "quantifier": "for all message payloads", "why_tests_cant": "Needs arbitrarily deeply nested input; a test has a fixed depth.", "anchors": ["modules/nginx-rtmp-module/ngx_rtmp_receive.c:ngx_rtmp_aggregate_message_handler"]}
{"id": "C43", "title": "PCR PID of the PMT is a carried stream", "statement": "Whenever a program map table is emitted, the PID it names as clock reference carrier is the PID of one of the streams it lists.", "quantifier": "all codec combinations", "why_tests_cant": "The table is built from codec numbers chosen at run time; only listed combinations can be sampled and the audio-only case is the one that differs.", "anchors": ["modules/nginx-rtmp-module/hls/ngx_rtmp_mpegts.c:141-211"]}
{"id": "C44", "title": "PES length field is zero only for video", "statement": "The PES packet length is the true number of following bytes, or zero only for video streams as ISO 13818-1 2.4.3.7 requires.", "quantifier": "all frames of any size", "why_tests_cant": "Needs audio batches above 64 KiB, which depend on bitrate and the aggregation delay.", "anchors": ["modules/nginx-rtmp-module/hls/ngx_rtmp_mpegts.c:412-430", "modules/nginx-rtmp-module/mpegts/ngx_mpegts_live_module.c:300-320"]}
{"id": "C45", "title": "Session lists of a live stream", "statement": "A stream's publisher and player lists hold exactly the sessions that publish or play it at the moment, each once; the stream is registered exactly while it has such a session; a session whose memory was released is on no list.", "quantifier": "every history of connects, publish, play, play2, closeStream/deleteStream commands, relay attachments and disconnects of any number of sessions, in any order", "why_tests_cant": "needs unusual command orders across sessions and leaves dangling pointers that only show later", "anchors": ["modules/nginx-rtmp-module/ngx_rtmp_cmd_module.c:ngx_rtmp_close_stream_filter", "modules/nginx-rtmp-module/ngx_live.c:ngx_live_create_ctx", "modules/nginx-rtmp-module/ngx_live.c:ngx_live_delete_ctx"]}
{"id": "C46", "title": "Handshake on the wire", "statement": "Whatever way the connection cuts up the bytes, either side of the handshake reads exactly 3073 bytes (leaving the chunk data behind them unread), writes exactly 3073 bytes that depend only on the peer's packets, the epoch and the random fill, never accesses memory outside its buffer, and never gets stuck before it is done.", "quantifier": "every segmentation, every peer packet, every former content of the recycled buffer, every hash function", "why_tests_cant": "the number of ways to cut 3073 bytes in both directions", "anchors": ["modules/nginx-rtmp-module/ngx_rtmp_handshake.c"]}
{"id": "C47", "title": "HTTP-FLV response is a well-formed FLV stream of the queued frames", "statement": "Whatever frames are queued for an HTTP-FLV player and however its socket accepts data, the response body is empty or one FLV file header followed by the FLV tags of exactly the accepted audio, video and metadata frames, in order, with nothing lost, repeated or torn; frames of other types are skipped; every accepted frame is released exactly once and no media frame is released before all its bytes are on the wire; when the client reads everything, everything is delivered; the header announces the kinds of tags that follow.", "quantifier": "for all histories of queueing (any priorities) and write events with arbitrary partial writes, any queue size, merge setting and payload cut into any buffers", "why_tests_cant": "The state space is the product of queue contents, partial write positions and frame batches; a misplaced byte makes the player lose sync only under particular backpressure.", "anchors": ["http/ngx_http_flv_live_module.c:102-421", "ngx_rtmp_shared_module.c:86-164"]}
{"id": "C48", "title": "FLV parser of the pull relay is exact for every segmentation", "statement": "The parser of an HTTP-FLV pull relay delivers exactly the tags of the stream, in order and once, with type, 32-bit timestamp, stream id and payload, however the body is cut into buffers and whatever the chunk size; a tag is delivered as soon as its payload is complete; a truncated stream is no error; the outcome depends on the bytes only; what is not rejected is the beginning of an FLV stream; the receive loop always terminates.", "quantifier": "for all tag sequences, all header flags and offsets, all cuttings of the body into buffers, all positive chunk sizes, all handlers", "why_tests_cant": "The parser resumes at any byte in one of 25 states; the number of ways to cut a stream is exponential.", "anchors": ["ngx_live_relay_httpflv.c:30-419"]}
{"id": "C49", "title": "Relaying over HTTP-FLV preserves the stream", "statement": "An edge server pulling a stream over HTTP-FLV from an origin delivers the frames queued at the origin (audio, video, AMF0 metadata) with the same type, timestamp and payload in the same order, whatever the segmentation and however much has arrived so far, and all of them once everything has been sent.", "quantifier": "for all histories at the origin, all amounts received, all segmentations, all chunk sizes of the edge", "why_tests_cant": "The property composes two independently written encoders and decoders over an arbitrary byte pipe.", "anchors": ["http/ngx_http_flv_live_module.c:205-299", "ngx_live_relay_httpflv.c:30-419"]}
{"id": "C50", "title": "A recording holds the published stream", "statement": "The FLV file written for a published stream has a header announcing exactly the kinds of tags in it, at most one AAC and one AVC header, each before the first message that needs it, no video before a key frame, only messages the configuration asks for, unchanged and in order, all of them from the first key frame on once the codec headers are known, with times counted from the first message (streams shorter than 24.8 days). No other file is touched.", "quantifier": "for all recorder settings without limits and intervals, all sequences of audio and video messages, however they are cut into buffers, automatic or manual start", "why_tests_cant": "The order of headers, key frames, messages and start of recording is unbounded; a test records a few fixed streams.", "anchors": ["ngx_rtmp_record_module.c:870-1182", "ngx_rtmp_record_module.c:433-585", "ngx_rtmp_record_module.c:783-849"]}
{"id": "C51", "title": "Appending to a recording continues it", "statement": "With record_append an existing FLV file keeps all its tags; the new ones follow them with times counted from the time of the last tag; an empty file or a bare header is started afresh. The header flags announce all kinds of tags in the file.", "quantifier": "for all existing FLV files and all sequences of messages", "why_tests_cant": "Depends on every byte of the last tag of an arbitrary existing file.", "anchors": ["ngx_rtmp_record_module.c:504-577", "ngx_rtmp_record_module.c:783-815"]}
{"id": "C52", "title": "Recorded files are whole, whatever happens", "statement": "Whatever the configuration and the history of publishing, stopping, control requests, failing opens, reached limits and elapsed intervals, every recorded file not being written is a whole FLV file with right flags, no longer than record_max_size plus one tag, with no more than record_max_frames messages; the file being written is complete between any two messages; no descriptor is used after it was closed.", "quantifier": "for all configurations, all histories", "why_tests_cant": "Histories mix reopening, limits and codec headers in unboundedly many ways, and files can be cut at any moment.", "anchors": ["ngx_rtmp_record_module.c:433-585", "ngx_rtmp_record_module.c:783-849", "ngx_rtmp_record_module.c:870-978", "ngx_rtmp_record_module.c:1018-1182"]}
{"id": "C53", "title": "Cutting a recording by time loses nothing", "statement": "With record_interval and distinct file names the published messages are cut into consecutive pieces, exactly at the first message where cutting is allowed (a key frame, or anything without video) more than the interval after the current file was opened; each file is the recording of its piece, with its own headers, flags and times.", "quantifier": "for all intervals, clocks and sequences of messages", "why_tests_cant": "The cutting points depend on the clock and on key frames for streams of any length.", "anchors": ["ngx_rtmp_record_module.c:1035-1063", "ngx_rtmp_record_module.c:870-1182"]}
{"id": "C54", "title": "H.264 messages become Annex B access units", "statement": "A video message of length-prefixed NAL units, however it is cut into buffers, becomes one Annex B access unit in HLS, MPEG-TS and recorded output: splitting it at its start codes gives the NAL units of the message in order (without its own delimiters and parameter sets), one delimiter first, all parameter sets of the codec header in front of an IDR slice; dts and pts are the RTMP time and that plus the composition time on the 90 kHz clock. No message, whatever its bytes, makes the code store outside the frame buffer, loop or follow NULL.", "quantifier": "all messages and codec headers, all ways to cut them into buffers, all lengths of the length field, all buffer sizes", "why_tests_cant": "The buffers a message is cut into depend on chunk sizes and the network, NAL contents are arbitrary; tests see a few encoders", "anchors": ["modules/nginx-rtmp-module/hls/ngx_rtmp_hls_module.c:616-664", "modules/nginx-rtmp-module/hls/ngx_rtmp_hls_module.c:811-935", "modules/nginx-rtmp-module/hls/ngx_rtmp_hls_module.c:2021-2300", "modules/nginx-rtmp-module/mpegts/ngx_mpegts_live_module.c:1160-1450", "modules/nginx-rtmp-module/ngx_live_record.c:868-1108"]}
{"id": "C55", "title": "AAC frames in HLS, MPEG-TS and recorded output", "statement": "Every AAC frame of a stream is put out exactly once, in order, unchanged, behind an ADTS header with its length and the profile, sample rate and channels of the codec header; a player that follows the ADTS headers of a PES packet finds exactly these frames; the time of a packet is that of its first frame, at most hls_sync away. No message makes the code store outside its buffers.", "quantifier": "all sequences of audio and video messages, fragments opened and closed at any time, all cuts of messages into buffers, all configurations of buffer, delay and sync", "why_tests_cant": "Which frames share a packet depends on times, buffer sizes and key frames; an error shows up only in a player", "anchors": ["modules/nginx-rtmp-module/hls/ngx_rtmp_hls_module.c:1646-1703", "modules/nginx-rtmp-module/hls/ngx_rtmp_hls_module.c:1768-2019", "modules/nginx-rtmp-module/mpegts/ngx_mpegts_live_module.c:639-686", "modules/nginx-rtmp-module/mpegts/ngx_mpegts_live_module.c:1453-1612", "modules/nginx-rtmp-module/ngx_live_record.c:716-865"]}
{"id": "C56", "title": "HLS playlists show the window of the last fragments", "statement": "After every finished fragment the playlist lists the last playlen/fraglen finished fragments in order, also those of an earlier publisher if the stream is continued; its media sequence number is that of its first entry and grows by one for each entry removed; the target duration covers every entry and does not change; a file the playlist lists is not written again.", "quantifier": "all sequences of frames, times, disk failures and configurations, new and continued streams", "why_tests_cant": "The ring of fragments wraps around after 2*window+1 fragments, and an error shows up only for a player that polls at the right time", "anchors": ["modules/nginx-rtmp-module/hls/ngx_rtmp_hls_module.c:346-373", "modules/nginx-rtmp-module/hls/ngx_rtmp_hls_module.c:482-613", "modules/nginx-rtmp-module/hls/ngx_rtmp_hls_module.c:937-983", "modules/nginx-rtmp-module/hls/ngx_rtmp_hls_module.c:986-1116", "modules/nginx-rtmp-module/hls/ngx_rtmp_hls_module.c:1271-1303"]}
{"id": "C57", "title": "HLS fragments join up in time and hold every frame once", "statement": "Every video frame from the first key frame on is in exactly one fragment, in order; a fragment begins with a key frame; without a discontinuity tag a fragment starts where the previous one ends according to its duration, which is at least hls_fragment (plain slicing) or crosses a multiple of it (aligned slicing) and at most hls_max_fragment.", "quantifier": "all sequences of frames and audio messages with any times, all configurations", "why_tests_cant": "Cutting depends on time differences in 64 bits, forced cuts and disk failures in any combination", "anchors": ["modules/nginx-rtmp-module/hls/ngx_rtmp_hls_module.c:1706-1775", "modules/nginx-rtmp-module/hls/ngx_rtmp_hls_module.c:961-983", "modules/nginx-rtmp-module/hls/ngx_rtmp_hls_module.c:986-1116", "modules/nginx-rtmp-module/hls/ngx_rtmp_hls_module.c:2273-2298", "modules/nginx-rtmp-module/hls/ngx_rtmp_hls_module.c:1901"]}
{"id": "C58", "title": "Encrypted HLS fragments can be decrypted", "statement": "For every finished fragment the key file its playlist names holds the key the fragment was encrypted with; this key is random; it is used for at most hls_fragments_per_key fragments; key files that earlier fragments need are not overwritten.", "quantifier": "all sequences of frames, failures to open fragment files, all rotation lengths", "why_tests_cant": "Needs failures of the disk or the random number generator at the moment a key is changed", "anchors": ["modules/nginx-rtmp-module/hls/ngx_rtmp_hls_module.c:1024-1071", "modules/nginx-rtmp-module/hls/ngx_rtmp_hls_module.c:1097-1109"]}
{"id": "C59", "title": "A continued HLS stream goes on where its playlist ends", "statement": "With hls_continuous a new publisher of a stream reads the playlist the last one left: the media sequence number, and for every entry its file, key, duration to a millisecond and discontinuity. Its own fragments get the following numbers, and the playlist goes on with the old entries before the new ones.", "quantifier": "all playlists the server can write, of any length, with and without keys, all later runs", "why_tests_cant": "The reader works on a 4096 byte buffer with pointer arithmetic backwards from line ends; errors depend on where lines fall in the buffer", "anchors": ["modules/nginx-rtmp-module/hls/ngx_rtmp_hls_module.c:482-613", "modules/nginx-rtmp-module/hls/ngx_rtmp_hls_module.c:1119-1311"]}
{"id": "C60", "title": "HLS cleanup removes old files and nothing else", "statement": "The cleanup deletes exactly the .ts, .m3u8 and .key files past their age and the directories left empty, and keeps hidden files, links, other names and whatever it cannot read. A file that a playlist in use names, and that playlist, is not past its age.", "quantifier": "all directory trees of any depth, all failures of system calls, all times; all runs of a stream", "why_tests_cant": "The tree is unbounded and deletion depends on wall clock and other processes; the race with a running stream shows only with long fragments or keys", "anchors": ["modules/nginx-rtmp-module/hls/ngx_rtmp_hls_module.c:2322-2465", "modules/nginx-rtmp-module/hls/ngx_rtmp_hls_module.c:2588-2606"]}
{"id": "C61", "title": "Live fan-out: who gets which messages", "statement": "A subscriber of a live stream gets messages that were published, unchanged, in order and none twice; it gets audio and video only after a codec header of that kind, and its first video message is a key frame. Only the publisher with the highest priority is heard, and to a subscriber that takes all messages everything from that publisher gets through from the first key frame on. A publisher that is not heard has no effect on subscribers.", "quantifier": "all runs of publishers and subscribers that join, leave, pause, are put on hold and send, all refusals of messages, all configurations (delivery: without interleave and wait_video)", "why_tests_cant": "The outcome depends on the order of independent sessions and on which queues happen to be full", "anchors": ["modules/nginx-rtmp-module/ngx_rtmp_live_module.c:222-380", "modules/nginx-rtmp-module/ngx_rtmp_live_module.c:426-598", "modules/nginx-rtmp-module/ngx_rtmp_live_module.c:646-981", "modules/nginx-rtmp-module/ngx_rtmp_cmd_module.c:186-262"]}
{"id": "C62", "title": "GOP cache: what a player that joins gets", "statement": "A player of a live stream with GOP cache gets the codec headers and then the cached frames and the live ones, in order and none twice; every inter frame follows the video frame before it and every frame comes with its codec headers; a player that has caught up gets every further frame as long as its queue takes them. What is queued is what is sent, time stamps of a smooth stream are kept, and no frame is used after the cache has given it back.", "quantifier": "all runs of one publisher and any number of players that join, pause, go on and are sent to at any pace, all queue sizes, metadata changes, ring sizes from 3 on; regular streams whose frames the cache takes (the other cases are violations)", "why_tests_cant": "Whether a player falls behind the ring, meets a wrap or a trimmed slot depends on the interleaving of publisher and sender and on the position in the ring", "anchors": ["modules/nginx-rtmp-module/ngx_rtmp_gop_module.c:161-237", "modules/nginx-rtmp-module/ngx_rtmp_gop_module.c:478-688", "modules/nginx-rtmp-module/ngx_rtmp_live_module.c:818-853"]}
{"id": "C63", "title": "HTTP client: the reader of a response gets its body", "statement": "Whoever reads the body of an HTTP response through the client gets exactly the data of the body, in order and nothing else, however the bytes are cut into reads; with chunked coding the chunk lines, extensions and trailers are left out and the end of the last chunk is reported as the end of the body; with Content-Length the end is reported when that many bytes were given; without either, everything up to the end of the connection is given.", "quantifier": "all chunked bodies with any chunk sizes up to the largest off_t, extensions and trailers, all cuts of the bytes into calls and reads, all data; all lengths", "why_tests_cant": "The parser keeps its state between calls and splits buffers in place: faults depend on where the bytes are cut, and the cuts are chosen by the network", "anchors": ["modules/nginx-client-module/ngx_http_client.c:1174-1211", "modules/nginx-client-module/ngx_http_client.c:1214-1322", "modules/nginx-client-module/ngx_http_client.c:1716-1827"]}
{"id": "C64", "title": "HTTP client: the request says what was asked for", "statement": "The request the client sends for a URL has the method, the path and arguments of the URL, version HTTP/1.1 and every header that was set exactly once with the value set last (none if that is empty), defaults included, in the order of first use; a server that reads it gets these parts back; the buffer is exactly as large as the text.", "quantifier": "all valid URLs, all 15 methods, all lists of headers with at most 64 names (beyond that a violation), all values; reading back for parts without line ends", "why_tests_cant": "The size is computed in one loop and the text written in another; the header table moves when it grows while a map points into it", "anchors": ["modules/nginx-client-module/ngx_http_client.c:983-1028", "modules/nginx-client-module/ngx_http_client.c:1031-1125", "modules/nginx-client-module/ngx_http_client.c:1327-1439", "modules/nginx-client-module/ngx_http_client.c:1485-1498"]}
{"id": "C65", "title": "Callbacks: a publisher or player is admitted by the answer, once", "statement": "With on_publish or on_play configured a command goes on to the rest of the chain at most once, with the name it came with, and only at the moment an answer between 200 and 300 to its call comes in (or the call fails and failures are to be ignored); any other answer refuses it and finalizes the session; when no answer comes the timeout decides; a session that is closed gets its done call if configured and nothing happens for it later; no context is used after it was freed. The URL of a call goes to the configured host and path and says exactly the configured parameters, the kind of call, its stage, domain, app, name, number of the client, group and arguments.", "quantifier": "all configurations, all sequences of commands, answers, failures, timers, closes and ends of sessions; all URLs and texts", "why_tests_cant": "Calls, timers and the end of the session interleave in any order the network chooses; contexts are destroyed later by a timer", "anchors": ["modules/nginx-rtmp-module/ngx_rtmp_notify_module.c:1091-1295", "modules/nginx-rtmp-module/ngx_rtmp_notify_module.c:1388-1445", "modules/nginx-rtmp-module/ngx_rtmp_notify_module.c:2170-2236", "modules/nginx-rtmp-module/ngx_netcall.c:11-195", "modules/nginx-rtmp-module/ngx_rtmp_cmd_module.c:224-286"]}
{"id": "C66", "title": "Handler chains: nothing is done for a command before it is admitted", "statement": "The handlers of publish and play are called in the reverse order of their registration; before the callback of a command admits it and the rules of access let it pass, nothing is done for it: no stream is joined, nothing is sent or recorded, no program, relay or file is started; a command that is refused is never accepted; one that nobody refuses joins its stream and is accepted after the answers to its calls.", "quantifier": "all lists of modules registered once; all configurations, kinds of sessions and players, all answers to the calls, all failures of handlers", "why_tests_cant": "The order is nowhere written down: it follows from the order of modules in the build configuration and pointers that each module keeps", "anchors": ["modules/nginx-rtmp-module/config:4-31", "modules/nginx-rtmp-module/ngx_rtmp.c:306-319", "modules/nginx-rtmp-module/ngx_rtmp_access_module.c:444-482", "modules/nginx-rtmp-module/ngx_rtmp_live_module.c:984-1065", "modules/nginx-rtmp-module/ngx_rtmp_notify_module.c:2170-2222", "modules/nginx-rtmp-module/ngx_rtmp_cmd_module.c:224-260", "modules/nginx-rtmp-module/ngx_rtmp_record_module.c:701-746", "modules/nginx-rtmp-module/ngx_live_record.c:1220-1246"]}
{"id": "C67", "title": "DASH segments: a player gets back the frames of a fragment", "statement": "The file written for a fragment is a row of well formed MP4 boxes (styp, sidx, moof, mdat); a reader that follows ISO 14496-12 finds in it every frame of the fragment once, in order, with its bytes, its decoding time, its key flag and composition offset; the index covers the rest of the file; the segment lasts until the next one; the initialization segments have the time scale and track of the fragments, the picture size and the configuration of the decoder; closing a fragment ends; other handlers get the message unchanged.", "quantifier": "all lists of frames of any sizes, times and flags; both kinds of track; all contents of the static buffer; all codec headers; all results of writes", "why_tests_cant": "The data offset, sizes and table depend on the number of samples and the flags together; tests with a few frames miss limits of 1024 samples and 1 MiB, and no test plays a file against a strict reader", "anchors": ["modules/nginx-rtmp-module/dash/ngx_rtmp_mp4.c:9-156", "modules/nginx-rtmp-module/dash/ngx_rtmp_mp4.c:185-948", "modules/nginx-rtmp-module/dash/ngx_rtmp_mp4.c:951-1167", "modules/nginx-rtmp-module/dash/ngx_rtmp_dash_module.c:448-521", "modules/nginx-rtmp-module/dash/ngx_rtmp_dash_module.c:524-627", "modules/nginx-rtmp-module/dash/ngx_rtmp_dash_module.c:657-702", "modules/nginx-rtmp-module/dash/ngx_rtmp_dash_module.c:1044-1208"]}
{"id": "C68", "title": "DASH: the stream is cut into fragments that hold every frame once, and the playlist lists the last ones", "statement": "Every frame of a published stream is in exactly one fragment, in order; each fragment has one file for each track, named by the time the playlist lists for it; the playlist lists the last fragments of the window, whose times join without gap or overlap; the files of all listed fragments are there and a player reads the frames of that stretch of the stream from them; fragments start with key frames and are between one and two fragment lengths long.", "quantifier": "all streams of audio and video frames of any sizes, times and key flags; all fragment lengths and windows; all earlier contents of the ring", "why_tests_cant": "Where the stream is cut depends on times, key frames, tracks seen and sizes of everything before; the ring wraps after twice the window; tests see short streams with regular key frames", "anchors": ["modules/nginx-rtmp-module/dash/ngx_rtmp_dash_module.c:31-73", "modules/nginx-rtmp-module/dash/ngx_rtmp_dash_module.c:173-199", "modules/nginx-rtmp-module/dash/ngx_rtmp_dash_module.c:216-445", "modules/nginx-rtmp-module/dash/ngx_rtmp_dash_module.c:524-654", "modules/nginx-rtmp-module/dash/ngx_rtmp_dash_module.c:657-725", "modules/nginx-rtmp-module/dash/ngx_rtmp_dash_module.c:981-1041", "modules/nginx-rtmp-module/dash/ngx_rtmp_dash_module.c:1044-1223"]}
{"id": "C69", "title": "TS ingest: a transport stream sent to the server is taken apart as ISO/IEC 13818-1 says, however it is cut", "statement": "Whatever the input, and however it is cut into buffers, the reader gives the same result and never reads outside of a packet or a value that was not set; the heads of packets, the PAT and the PMTs are read as the standard says; once the tables are known, handlers get of every elementary stream exactly its access units, in order, with stream id, PTS, DTS, random access indicator and data, however packets of different PIDs are mixed, and the clock that goes with a unit is the last PCR on the PID of the clock.", "quantifier": "all byte sequences and all ways to cut them (safety, independence of cuts); all sequences of valid packets with any interleaving, any adaptation fields, any optional PES headers, tables in any number of packets (content)", "why_tests_cant": "The reader keeps state for every PID between packets that come in any order and any pieces; a test has one recording cut in one way", "anchors": ["modules/nginx-ts-module/src/ngx_ts_stream.c:16-29", "modules/nginx-ts-module/src/ngx_ts_stream.c:148-170", "modules/nginx-ts-module/src/ngx_ts_stream.c:173-232", "modules/nginx-ts-module/src/ngx_ts_stream.c:235-351", "modules/nginx-ts-module/src/ngx_ts_stream.c:354-444", "modules/nginx-ts-module/src/ngx_ts_stream.c:447-554", "modules/nginx-ts-module/src/ngx_ts_stream.c:557-707", "modules/nginx-ts-module/src/ngx_ts_stream.c:710-933", "modules/nginx-ts-module/src/ngx_ts_stream.c:1367-1443"]}
{"id": "C70", "title": "TS output: tables and access units are written as transport packets from which any reader gets them back", "statement": "Every access unit of a stream is written as whole 188 byte packets of its PID with nothing in them but headers, stuffing and the unit: only the first starts a unit, it alone has the random access indicator and, on the clock PID, the PCR; the continuity counters of a PID go up by one from packet to packet over all units; the bytes are one PES packet with the stream id, PTS, DTS and data; PAT and PMT name the programs and streams, with a CRC that checks. What was written for one program is read back by the reader of C69, however it is cut. Writing ends.", "quantifier": "all units (any data in any chain of buffers, any 33 bit times, any PCR, any counter), any sequence of units of any streams, all PATs and PMTs of at most 1021 bytes, all ways to cut the result", "why_tests_cant": "Where a unit ends in its last packet depends on its length, its header, the PCR and how its buffers are cut; tests have a few recordings", "anchors": ["modules/nginx-ts-module/src/ngx_ts_stream.c:59-124", "modules/nginx-ts-module/src/ngx_ts_stream.c:936-1017", "modules/nginx-ts-module/src/ngx_ts_stream.c:1020-1109", "modules/nginx-ts-module/src/ngx_ts_stream.c:1112-1231", "modules/nginx-ts-module/src/ngx_ts_stream.c:1234-1364", "modules/nginx-ts-module/src/ngx_ts_stream.c:1446-1459"]}
{"id": "C71", "title": "HLS from TS: every unit is in one segment file that plays alone, and playlists list the last segments as RFC 8216 wants", "statement": "Every unit with times is written to exactly one segment file, in order; every file is a PAT with the one program, its PMT and whole units, and counters go on from file to file. A file ends before a unit only if it has the size limit, or is long enough and the unit is a random access picture (or there is no video), or is too long; it has no unit after the first at which it could have ended. After each segment the playlist says the sequence number of its first segment, the target duration, and of the last segments the time from start to start and the name; no rounded time exceeds the target duration if units come close enough; at the end the last segment is added and the list ends. The master playlist has every program with its mean bandwidth. Programs do not influence each other, no two files have one name, texts fit in the memory taken, and no segment is deleted while it is listed.", "quantifier": "all sequences of units of any programs with any data and times, all segment, size and list limits, all numbers of rounds of the file manager", "why_tests_cant": "Segment borders depend on times, sizes and key frames of all streams over hours; tests play a few seconds of one file", "anchors": ["modules/nginx-ts-module/src/ngx_ts_hls.c:79-127", "modules/nginx-ts-module/src/ngx_ts_hls.c:149-275", "modules/nginx-ts-module/src/ngx_ts_hls.c:278-333", "modules/nginx-ts-module/src/ngx_ts_hls.c:335-364", "modules/nginx-ts-module/src/ngx_ts_hls.c:367-427", "modules/nginx-ts-module/src/ngx_ts_hls.c:430-518", "modules/nginx-ts-module/src/ngx_ts_hls.c:521-579", "modules/nginx-ts-module/src/ngx_ts_hls.c:634-715", "modules/nginx-ts-module/src/ngx_ts_hls.c:743-781"]}
{"id": "C72", "title": "Codec headers: size, profile, level and sound format told of a stream are those its AVC and AAC headers code", "statement": "From an AVC decoder configuration record over RTMP the server takes profile, compatibility, level, size of NAL lengths, number of reference frames and the size of the picture as the sequence parameter set codes them, keeps the whole message as the header and leaves the rest alone; from an AudioSpecificConfig the object type, output rate, channels, SBR and PS. Messages that are no headers change none of it. In a transport stream parameters are made exactly of NAL units that begin with a complete set without scaling lists, and tell of that set; the ADTS header gives object type, rate and channels. Reading headers takes time in proportion to their length and never reads what is not there.", "quantifier": "all parameter sets (any profile, picture order count, cropping, following data), all ways to cut a message into buffers, all audio configurations, all byte strings for the transport stream readers", "why_tests_cant": "Sets are variable-length codes with optional parts that depend on earlier ones; tests have the sets of a few encoders", "anchors": ["modules/nginx-rtmp-module/ngx_rtmp_codec_module.c:204-297", "modules/nginx-rtmp-module/ngx_rtmp_codec_module.c:300-383", "modules/nginx-rtmp-module/ngx_rtmp_codec_module.c:791-968", "modules/nginx-rtmp-module/ngx_rtmp.h:1001-1005", "modules/nginx-ts-module/src/ngx_ts_avc.c:40-298", "modules/nginx-ts-module/src/ngx_ts_aac.c:13-69"]}
{"id": "C73", "title": "HEVC headers: the size told of a stream is that of its last sequence parameter set, and nothing outside the message is touched", "statement": "From an HEVC decoder configuration record the server takes the size of NAL lengths and, with emulation prevention bytes removed, the size of the picture as the last sequence parameter set codes it (with its sub-layers and its conformance window); without a set the size stays. The whole message is kept as the header, and whatever bytes come, the rest of what is known of the stream stays. Reading stays within the message and within its own buffer, and takes time in proportion to the message.", "quantifier": "all records (any arrays of units, any sets with up to 6 sub-layers, chroma formats and windows), and for what stays: all byte strings in any buffers", "why_tests_cant": "The set is a variable-length code inside an escaped unit inside nested counted lists; tests have the headers of a few encoders, which put the picture parameter set last", "anchors": ["modules/nginx-rtmp-module/ngx_rtmp_codec_module.c:386-474", "modules/nginx-rtmp-module/ngx_rtmp_codec_module.c:476-566", "modules/nginx-rtmp-module/ngx_rtmp_codec_module.c:571-693", "modules/nginx-rtmp-module/ngx_rtmp_codec_module.c:695-788", "modules/nginx-rtmp-module/ngx_rtmp_codec_module.h:35", "modules/nginx-rtmp-module/ngx_rtmp.h:160"]}
{"id": "C74", "title": "HLS out of memory: every frame is in one fragment, playlists tell the fragments and their durations, and what was listed can be fetched", "statement": "The frames of a session are cut into fragments, each frame once and in order, before the first frame that may start one after hls2_fragment, or where the time jumps, and nowhere else. A playlist is given as soon as there are minfrags closed fragments; it reads (RFC 8216) as the last winfrags of them with their durations and numbers and a target that no duration exceeds. A player that asks for a listed name gets the tables and frames of just that fragment, with the right length, until 2*winfrags more have been closed, whatever comes in the meantime. Frames wait only as long as the first of them may not start a fragment.", "quantifier": "all sequences of frames (times below 2^63) in any portions with any codecs known at the time, all configurations with plain slicing, all names, all paths that end in a listed name", "why_tests_cant": "Fragments live in a ring that is overwritten while players still ask for them; whether the slot that a name leads to still has that fragment depends on how many were closed in between, and whether a frame starts a fragment on what was known of the codecs", "anchors": ["modules/nginx-rtmp-module/mpegts/ngx_hls_live_module.c:202-229", "modules/nginx-rtmp-module/mpegts/ngx_hls_live_module.c:232-321", "modules/nginx-rtmp-module/mpegts/ngx_hls_live_module.c:403-522", "modules/nginx-rtmp-module/mpegts/ngx_hls_live_module.c:576-635", "modules/nginx-rtmp-module/mpegts/ngx_hls_live_module.c:683-692", "modules/nginx-rtmp-module/mpegts/ngx_hls_live_module.c:823-1006", "modules/nginx-rtmp-module/mpegts/ngx_hls_http_module.c:831-876", "modules/nginx-rtmp-module/mpegts/ngx_hls_http_module.c:952-1006", "modules/nginx-rtmp-module/mpegts/ngx_hls_live_module.h:36-83"]}
{"id": "C75", "title": "HLS out of memory: fragments that are sent stay what they were, and their memory is counted right", "statement": "Fragments are objects with reference counts that are shared by the rings of sessions and by responses, and reused through one free list for all streams. However sessions come and go, whatever they are fed, and however slowly players read: no object is used after it was freed; sessions serve what they would serve alone (C74); a response tells the length the fragment had when it was asked for and sends just its bytes in order, all of them if it is sent from often enough; an object is counted as often as it is referred to, is free exactly if nothing refers to it, and no object is in two slots; when all is closed all objects are free; there are never more objects than slots and responses there were at once.", "quantifier": "all sequences of steps (sessions made, fed and closed, fragments and playlists asked for, sent from, finished) that are orderly: queues of one size, no request for the fragment being written, headers that can be sent at once, and no request going on that the session has forgotten when it is closed", "why_tests_cant": "Whether an object is still the fragment a response was made for depends on all that other streams and players did in the meantime; a count that is wrong once shows as bytes of another stream much later", "anchors": ["modules/nginx-rtmp-module/mpegts/ngx_hls_live_module.c:324-328", "modules/nginx-rtmp-module/mpegts/ngx_hls_live_module.c:525-635", "modules/nginx-rtmp-module/mpegts/ngx_hls_live_module.c:780-820", "modules/nginx-rtmp-module/mpegts/ngx_hls_live_module.c:823-963", "modules/nginx-rtmp-module/mpegts/ngx_hls_http_module.c:526-564", "modules/nginx-rtmp-module/mpegts/ngx_hls_http_module.c:878-1079", "modules/nginx-rtmp-module/mpegts/ngx_hls_http_module.c:1211-1239", "modules/nginx-rtmp-module/mpegts/ngx_hls_live_module.h:36-49"]}
{"id": "C76", "title": "GOP cache for transport streams and HLS: what sessions get from it can be decoded, and its references are exact", "statement": "The publisher keeps frames in a ring with a list of its key frames; HLS sessions and players of MPEG-TS over HTTP each follow the ring with a position of their own. Whatever frames come, whoever comes and goes, and however slow they are: no null pointer or frame that was given back is used; the ring has a run of the cached frames without gaps, with a reference for each and for no other, its key frames are listed in order, and each frame of it that needs others comes after a key frame; frames leave only when they are old enough or the ring is about to be full; each session gets frames so that each that needs others comes after a key frame and all frames between; unless the cache refused frames (or the queue of an HLS session was full) it gets each next frame, or continues with one that was the first in the cache; what it gets first starts at the key frame that is configured and ends at the first frame late enough; HLS sessions make fragments (C74) of just these frames; when the publisher closes its stream all references are given back.", "quantifier": "all sequences of frames, sessions of both kinds that join, leave and drain, and publishers that follow one another; all sizes of the ring and of queues, all times below 2^63; a cache time other than 0", "why_tests_cant": "Positions are compared by way of null slots in a ring that is trimmed at the same time; whether a session that is behind finds its next frame, an empty slot, or a frame a whole round later depends on the lengths of all GOPs and on how the sessions were slow", "anchors": ["modules/nginx-rtmp-module/mpegts/ngx_mpegts_gop_module.c:185-214", "modules/nginx-rtmp-module/mpegts/ngx_mpegts_gop_module.c:217-286", "modules/nginx-rtmp-module/mpegts/ngx_mpegts_gop_module.c:326-386", "modules/nginx-rtmp-module/mpegts/ngx_mpegts_gop_module.c:390-533", "modules/nginx-rtmp-module/mpegts/ngx_mpegts_gop_module.c:536-675", "modules/nginx-rtmp-module/mpegts/ngx_mpegts_gop_module.c:678-700", "modules/nginx-rtmp-module/mpegts/ngx_hls_live_module.c:966-1006", "modules/nginx-rtmp-module/mpegts/ngx_mpegts_live_module.c:1689-1704"]}
{"id": "C77", "title": "DASH segments of transport streams: a player reads exactly what the stream carries", "statement": "The units (PES packets) of an elementary stream, cut into network buffers in any way, become DASH segments. Segments are cut where the settings say and nowhere else; every unit is in exactly one; each segment is a file named after its time, which a reader of ISO/IEC 14496-12 reads as just the samples of its units: for H.264 the units without start codes and parameter sets, for AAC the frames without headers, 1024 sounds each, else the units; with decode times, durations up to the next sample, composition offsets, sync flags, and an index that says when the segment is shown, how long it lasts and where the fragment is. As long as times do not go back the files follow each other without gaps. The ring knows start and duration of the last segments; the parameter sets kept for the initialization segment are the first of the stream. Whatever bytes come, nothing outside of a buffer is read or written and no loop is endless.", "quantifier": "all sequences of units of all lengths, in all cuts into buffers, with all times of 64 bits (also for bytes that are no stream at all); all settings with analyze > 0 and segments > 0; segments of less than 2 GB", "why_tests_cant": "Fields of the table of samples are written through pointers into a chain of 1 KB buffers when the next sample comes, sizes of boxes are corrected at the end of the segment; whether they are right depends on how many samples fall into which buffer and on where buffers of the network end within start codes and headers", "anchors": ["modules/nginx-ts-module/src/ngx_ts_dash.c:296-355", "modules/nginx-ts-module/src/ngx_ts_dash.c:358-387", "modules/nginx-ts-module/src/ngx_ts_dash.c:390-551", "modules/nginx-ts-module/src/ngx_ts_dash.c:554-657", "modules/nginx-ts-module/src/ngx_ts_dash.c:660-677", "modules/nginx-ts-module/src/ngx_ts_dash.c:680-791", "modules/nginx-ts-module/src/ngx_ts_dash.c:1120-1139", "modules/nginx-ts-module/src/ngx_ts_dash_mp4.c:97-292", "modules/nginx-ts-module/src/ngx_ts_dash_mp4.c:1138-1246", "modules/nginx-ts-module/src/ngx_ts_dash_mp4.c:1249-1296", "modules/nginx-ts-module/src/ngx_ts_dash_mp4.c:1357-1449"]}
{"id": "C78", "title": "Initialization segments of transport streams say what the stream is", "statement": "Once the bandwidth of a representation is known, its initialization segment can be read by a reader of ISO/IEC 14496-12: one track with number 1, the same in the table of fragments, a timescale of 90000, of the kind (picture or sound) of the elementary stream. For H.264 the sample entry has the size of the picture that the first SPS of the stream codes, and a decoder configuration with just the first SPS and PPS of the stream, their profile and level, and lengths of 4 bytes; for AAC an elementary stream descriptor whose AudioSpecificConfig has object type, frequency and channels of the first ADTS header; for other types the object type that ISO/IEC 14496-1 has for them, and the bandwidth. Whatever the size of the buffer is at first, it becomes large enough and the file does not depend on it.", "quantifier": "all streams in the sense of C77, of all lengths and in all cuts into buffers; all sizes of the buffer > 0; parameter sets of less than 65536 bytes", "why_tests_cant": "Sizes of boxes and descriptors are written back after their contents, and everything is first written into a buffer that may be too small, beyond whose end bytes are only counted; whether the second attempt is right depends on lengths of parameter sets", "anchors": ["modules/nginx-ts-module/src/ngx_ts_dash.c:1054-1117", "modules/nginx-ts-module/src/ngx_ts_dash_mp4.c:89-94", "modules/nginx-ts-module/src/ngx_ts_dash_mp4.c:295-930", "modules/nginx-ts-module/src/ngx_ts_dash_mp4.c:998-1135", "modules/nginx-ts-module/src/ngx_ts_stream.c:1462-1496"]}
{"id": "C79", "title": "The DASH playlist of a transport stream can be played", "statement": "Whatever the units of the elementary streams of a program are, in whatever order and at whatever times they come: the playlist, as soon as there is one, is well-formed XML that a player reads as a live MPD with one adaptation set for video and one for sound, with one representation for each elementary stream. For each representation the initialization segment is on disk under the name that the MPD gives, and it and the codecs attribute say what the first units of the stream said; the bandwidth is the average rate of the stream over a first time of at least the time to analyze; exactly the last segments that ended are listed (without gaps, but for those that last no time), and under the name that the MPD gives for each there is a file with just the samples of that segment, that begins and lasts as the MPD says. Once there is a playlist there always is one, with the same start of availability; and there is one as soon as all rates are known and something is written.", "quantifier": "all lists of elementary streams with different numbers, all interleavings of their units of all lengths in the sense of C77, all clocks; all numbers of segments > 0; times of a stream do not go back", "why_tests_cant": "The text of the playlist is written into a buffer that may be too small, from a ring of segments of each stream that other streams' segments trigger at any time; whether names and times in it match files on disk depends on the interleaving of streams, and initialization segments are rewritten at moments when other streams are in the middle of a segment", "anchors": ["modules/nginx-ts-module/src/ngx_ts_dash.c:162-387", "modules/nginx-ts-module/src/ngx_ts_dash.c:680-957", "modules/nginx-ts-module/src/ngx_ts_dash.c:1013-1117"]}
{"id": "C80", "title": "What is printed as JSON stays in its buffer and reads back", "statement": "Printing any tree of values as JSON never writes or reads a byte outside of the buffer, however often it grows and whatever memory held before. If the text stays below 2 GB printing succeeds, and the text is JSON (RFC 8259): a reader gets just the value that was printed, with all names and strings (quotation marks, backslashes and control bytes escaped), numbers, and their order. The text does not depend on what was in memory, has no zero in it, and is UTF-8 if all strings are.", "quantifier": "all values: objects and arrays of any depth and size, all strings without zeros, whole numbers of up to fifteen digits (any numbers for safety); formatted and not; all contents of memory", "why_tests_cant": "Each part of the printer asks for room, writes, and leaves the end of the text to strlen; whether every place is inside of the buffer after growth depends on lengths, depth and escapes all over the tree, and whether a reader gets the value back on every byte of every string", "anchors": ["modules/nginx-rtmp-module/json/cJSON.c:423-606", "modules/nginx-rtmp-module/json/cJSON.c:896-1015", "modules/nginx-rtmp-module/json/cJSON.c:1181-1243", "modules/nginx-rtmp-module/json/cJSON.c:1361-1432", "modules/nginx-rtmp-module/json/cJSON.c:1533-1592", "modules/nginx-rtmp-module/json/cJSON.c:1708-1819"]}
{"id": "C81", "title": "The statistics list every session and count who watches", "statement": "The body that the statistics of a worker answer is JSON, in which the names of the members of each object are different. It lists each live server of the worker, each stream of a server and each session in the list of a stream once and in order, each with its addresses, times, rates, and whether it publishes, is a relay, and by which protocol it came; the codecs are those of the publisher. For each stream and each server it says how many watch, in all and by each protocol: just those sessions that do not publish and do not hand the stream on to another server or worker; the numbers of all protocols add up to that of all, and those of streams to those of the server.", "quantifier": "all states: any number of servers, streams and sessions in tables of any number of buckets, all strings that clients sent; numbers of fifteen digits at most; answers below 2 GB", "why_tests_cant": "Numbers are summed over three nested lists with early exits for publishers and relays, texts come from clients, and the answer has to stay valid JSON whatever they sent", "anchors": ["modules/nginx-rtmp-module/ngx_live_stat.c:16-341", "modules/nginx-rtmp-module/ngx_rtmp_sys_stat_module.c:164-206", "modules/nginx-rtmp-module/ngx_rtmp_live_module.c:1021-1043", "modules/nginx-rtmp-module/mpegts/ngx_mpegts_live_module.c:1805-1818", "modules/nginx-rtmp-module/mpegts/ngx_hls_live_module.c:727-745"]}
{"id": "C82", "title": "PROXY protocol: a client behind a proxy is who the line in front of its bytes says", "statement": "On a port with proxy_protocol, when the line of the PROXY protocol (version 1) arrives whole, alone or with bytes behind it, the connection gets the source address of the line (or keeps its own with UNKNOWN), exactly the line is taken, and the handshake begins with the byte behind it. Otherwise the connection is closed, and nothing outside of the buffer is read whatever arrives. Access rules, logs and statistics go by the address of the line; what does not begin with the word PROXY is refused.", "quantifier": "all lines up to 107 bytes, all bytes behind them, all sequences of events, all previous content of the buffer, all readers of addresses", "why_tests_cant": "The line is looked at in a buffer that may hold less or more than it and whose rest is not initialised; who is admitted depends on the address that comes of it", "anchors": ["modules/nginx-rtmp-module/ngx_rtmp_proxy_protocol.c:16-197", "modules/nginx-rtmp-module/ngx_rtmp_init.c:187-213", "modules/nginx-rtmp-module/ngx_rtmp_access_module.c:287-296", "modules/nginx-rtmp-module/ngx_rtmp_log_module.c:225-237"]}
{"id": "C83", "title": "Statistics as XML are a well-formed document that tells the truth about a worker", "statement": "Whatever servers, streams and sessions a worker has and whatever texts clients have sent, the answer of the statistics page is written inside of its buffers, Content-Length is the number of bytes sent and the last buffer is marked; it is a well-formed XML document in which a reader finds versions, times, rates and counters of the worker, one element for each server, stream and session in order, the codecs of the publisher, and the texts of clients as they are with bytes that are no ASCII text as spaces.", "quantifier": "all workers with any number of servers, streams and sessions; all texts of clients; with or without a list of sessions and a style sheet", "why_tests_cant": "Texts come from clients, numbers have any number of digits and are printed in fixed buffers, and pieces land anywhere in a chain of buffers of different sizes", "anchors": ["modules/nginx-rtmp-module/ngx_rtmp_stat_module.c:128-709", "modules/nginx-rtmp-module/ngx_rtmp_cmd_module.c:150-183", "modules/nginx-rtmp-module/ngx_live.c:117-155"]}
{"id": "C84", "title": "Control requests act on the sessions they ask for and on no others", "statement": "A request to the control module acts only where its section is enabled; it drops, pauses, resumes, redirects or records exactly the sessions of this process that fit server, application, stream, address, number and role, each once, and answers how many they are; every other request changes nothing. Frames of a paused publisher are held back, and after resuming go on from the first key frame; a redirected session changes to the stream of the new name.", "quantifier": "all processes with any number of servers, streams and sessions in any hash buckets; all request paths and arguments; all sequences of frames", "why_tests_cant": "An operator drops live sessions with these requests: one that hits too many or too few cannot be undone, and tests see a handful of streams, no collisions of hashes and no combination of arguments", "anchors": ["modules/nginx-rtmp-module/ngx_rtmp_control_module.c:112-882", "modules/nginx-rtmp-module/ngx_live.c:90-110", "modules/nginx-rtmp-module/ngx_live.c:166-186", "modules/nginx-rtmp-module/ngx_rtmp_cmd_module.c:185-287", "modules/nginx-rtmp-module/ngx_rtmp_live_module.c:672-688"]}
{"id": "C85", "title": "A player can read the DASH playlist and finds the files it names", "statement": "The MPD that the RTMP module writes for a stream is a well-formed document from which a player gets, for each track there is, type, codec, picture size or sampling rate, bandwidth, and start and duration of every fragment in the window in order; the names it makes of the templates, taken from where the playlist is, are the names of the segments and initialization segments that were written, and in the segment so found are the frames of that part of the stream.", "quantifier": "all streams of frames, all codec parameters, all names and paths with and without directories of their own, all windows of fragments, all dates", "why_tests_cant": "A playlist is valid or not as a whole: one name, one number or one fragment too many makes all of it unreadable, and tests have one stream with a plain name and a short window", "anchors": ["modules/nginx-rtmp-module/dash/ngx_rtmp_dash_module.c:216-445", "modules/nginx-rtmp-module/dash/ngx_rtmp_dash_module.c:448-522", "modules/nginx-rtmp-module/dash/ngx_rtmp_dash_module.c:570-571", "modules/nginx-rtmp-module/dash/ngx_rtmp_dash_module.c:883-941"]}
{"id": "C86", "title": "The table of domain names calls everyone once and gives the addresses of the right name", "statement": "Everyone who asks the dynamic resolver for the address of a domain name is called exactly once, at the latest when the questions under way are answered; the address given, and the one found by a look-up, is one of those last answered for this name in whatever letters it is written, and a name that was removed is not found.", "quantifier": "all sequences of entering, removing, asking, refreshing and answering, with any number of questions under way at once and answered in any order, all names, all answers, all random numbers", "why_tests_cant": "Records and lists of callers are reused, and answers arrive late: mistakes need a removal, a second name and an answer in a certain order, or a certain random number", "anchors": ["modules/nginx-toolkit-module/ngx_dynamic_resolver.c:194-234", "modules/nginx-toolkit-module/ngx_dynamic_resolver.c:237-293", "modules/nginx-toolkit-module/ngx_dynamic_resolver.c:295-323", "modules/nginx-toolkit-module/ngx_dynamic_resolver.c:341-410", "modules/nginx-toolkit-module/ngx_dynamic_resolver.c:412-482", "modules/nginx-toolkit-module/ngx_dynamic_resolver.c:484-592", "modules/nginx-toolkit-module/ngx_dynamic_resolver.c:594-660"]}
{"id": "C87", "title": "Timers of the toolkit are called once, and a number stands for one timer", "statement": "A job for which a timer was given is called exactly once with its argument unless it is deleted, and never after; a timer is refused only when all worker_timers are in use; deleting by number deletes the job it was given for and no other; a handler may set its own timer again.", "quantifier": "all numbers of timers, all sequences of setting, deleting and expiring, including what handlers do while they are called", "why_tests_cant": "The list of free timers is threaded through the field that holds the argument: a mistake shows only after a certain order of setting, expiring and deleting, or when the last timer is taken", "anchors": ["modules/nginx-toolkit-module/ngx_event_timer_module.c:101-141", "modules/nginx-toolkit-module/ngx_event_timer_module.c:143-162", "modules/nginx-toolkit-module/ngx_event_timer_module.c:164-174", "modules/nginx-toolkit-module/ngx_event_timer_module.c:176-188", "modules/nginx-toolkit-module/ngx_event_timer_module.c:190-217", "modules/nginx-toolkit-module/ngx_event_timer_module.c:219-237"]}
{"id": "C88", "title": "Every worker has an address of its own, made from the one configured", "statement": "The address at which a worker listens, and at which the others reach it, is the configured one with the number of its slot added to the port or appended to the path; the host is the same, no two workers share an address, addresses configured 128 ports apart do not meet, the text fits into its buffer, and all slots from 0 to 127 can be used up to port 65408.", "quantifier": "all configured texts, all slots", "why_tests_cant": "A port may gain up to two digits, hosts may contain colons and brackets, and the bound concerns the last of 128 workers: a test tries a few addresses and slots", "anchors": ["modules/nginx-multiport-module/ngx_multiport_misc.c:5-29", "modules/nginx-multiport-module/ngx_multiport_misc.c:31-85", "modules/nginx-multiport-module/ngx_multiport_misc.c:87-138", "modules/nginx-multiport-module/ngx_multiport_misc.c:140-165"]}
{"id": "C89", "title": "The static pulls are those of the last configuration", "statement": "Whatever dynamic configurations a worker reads and whatever sessions end in between, afterwards there is exactly one session for each stream of the last configuration and none for any other; reading a configuration leaves the sessions of streams that stay alone and gives up just those that were removed; a configuration with a duplicate is refused and changes nothing; each stream belongs to exactly one worker; no wrong pointer is followed.", "quantifier": "all sequences of readings and ended sessions, all configurations, all numbers of workers", "why_tests_cant": "Records are moved between two maps, a list of kept ones and a list of free ones that use the same pointer: what one reading leaves behind matters only in a later one, so a test of one reload cannot see it", "anchors": ["modules/nginx-rtmp-module/ngx_live_relay_static.c:163-256", "modules/nginx-rtmp-module/ngx_live_relay_static.c:260-279", "modules/nginx-rtmp-module/ngx_live_relay_static.c:282-314", "modules/nginx-rtmp-module/ngx_live_relay_static.c:373-492"]}
{"id": "C90", "title": "A broadcast request gives one list with the items of all workers", "statement": "A request is passed on to every worker once and in order. When each worker writes a separator before each of its items, the client gets one well-formed list with the items of all workers that answer with 200, in whatever buffers the answers arrive; without a text to replace it gets the answers as they are; the last buffer is sent after all answers and only then.", "quantifier": "all numbers of workers, all answers and ways to cut them into buffers, all configured bytes", "why_tests_cant": "How answers are cut into buffers depends on the network, and the result depends on which worker is the first to have an item: a test sees a few of these cases", "anchors": ["modules/nginx-multiport-module/ngx_http_broadcast_module.c:112-125", "modules/nginx-multiport-module/ngx_http_broadcast_module.c:219-315"]}
