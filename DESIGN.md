# Formal model of pingos (pingostack) — design

## Trusted base

* Lean 4.33.0's kernel. Every property theorem is audited with `#print axioms`; the only
  axioms allowed are `propext`, `Classical.choice` and `Quot.sound` (Lean's standard ones).
  No `sorry`, no own axioms, no `native_decide`/`bv_decide`.
* The hand translation from C to Lean. Every definition of a `Model` file cites the file and
  lines it models and says where it simplifies. Nothing mechanical ties the model to the C text.
* Not modelled anywhere: nginx core (event loop, pools, red-black rebalancing, `ngx_hash_t`), the
  kernel socket layer, OpenSSL primitives (HMAC and AES are arbitrary functions in the model),
  memory exhaustion unless a definition says so, logging, compiler behaviour outside the C standard.

## Conventions

* Bytes are `UInt8`; byte strings `List UInt8`. C integers are `Nat`/`Int` with explicit
  `% 2^32` etc. where the C type wraps and the wrap is reachable.
* Undefined behaviour (out-of-bounds copy, NULL dereference, over-wide shift) is a distinct
  outcome of the model, never a default value.
* Each area has a `Model` file (the code), possibly `Lemmas`, and a `Props` file which has the
  independent specification and the property theorems, each followed by an `example` showing that a
  concrete non-trivial instance meets its hypotheses.
* When the code does not satisfy an English property, the file proves the negation on a concrete
  witness (`..._violation`) and a `..._partial` theorem with the missing precondition explicit.

## Plan per property

| id | model | proof |
|----|-------|-------|
| C01 | chunk parser state machine of `ngx_rtmp_recv` over buffers | simulation with a byte-at-a-time/whole-string parser; result depends on concatenation |
| C02 | `prepare_out_chain` + `append_chain` + `recv` | round trip by induction over messages and chunks |
| C03 | same parser | spec of conforming interleaved chunk traces; invariant per stream |
| C04 | same parser | invariant for conforming peers (`_partial`), witness of the mid-message header violation |
| C05 | `set_chunk_size`, `finalize_set_chunk_size` | copy lemma for the fitting case (`_partial`); witness for data loss |
| C06 | capacity-checked copy with UB outcome | invariant under non-shrinking sizes (`_partial`); witness for the overflow |
| C07 | byte counters of `recv` | invariant over reads |
| C08 | ring queue of `send_message`/`send` | refinement to a list queue |
| C09 | frame table with refcount and free list | invariant over operations, refinement to multiset of holders |
| C10 | `append_chain` | fold invariant |
| C11 | `prepare_merge_frame` + `send` with arbitrary partial writes | refinement to byte stream |
| C12 | `amf_write`, `amf_read` | structural induction on values |
| C13 | `amf_get`, `amf_put` over chains | equality with flat read/write |
| C14 | string case of `amf_read` | functional spec of destination memory |
| C15 | `amf_read` with NULL-dereference outcome | termination by construction, `_partial` + witness for the NULL element |
| C16 | constructors and handlers | round trip per kind; witness for abort |
| C17 | `create_amf`/`append_amf` chain pointers | `_partial` for one buffer; witness beyond |
| C18 | `aggregate_message_handler` over flattened input + `fetch` over chains | round trip with spec encoder, segmentation independence |
| C19 | `write_frame` | demultiplexer spec applied to output gives input |
| C20 | `write_pts`, `write_pcr` | decode of encode, all n |
| C21 | table-driven CRC | equality with bitwise polynomial division for all inputs; tables by full evaluation |
| C22 | `write_file` + `close_file` | refinement to chunk-independent stream encryption |
| C23 | BST part of ngx_map (rebalancing abstracted to any tree with the same in-order list) | refinement to sorted association list |
| C24–C26 | shared-memory arrays, buckets and free list | invariant, refinement to name→slot map |
| C27 | server/stream tables with free lists | refinement for histories without recycled server nodes (`_partial`), witness |
| C28 | rule evaluation for v4/v6/unix, config merge | equality with first-match spec |
| C29 | counter protocol | invariant; witness if the disconnect accounting differs |
| C30 | `bit_read`, `bit_read_golomb` | equality with bit-list spec; Exp-Golomb round trip; UB precondition |
| C31 | URL scanner, port helper | reconstruction theorem |
| C32 | eval state machine | equality with a grammar-based expansion |
| C33 | ping state machine | trace theorem |
| C34 | cache ring and key frame list | invariant and refinement |
| C35 | digest find/write with an arbitrary MAC | round trip for all fills |
| C36 | update_bandwidth | invariant over updates |
| C37 | handler loops | equality with first-stop spec |
| C38 | recycler | exclusivity invariant; witness for double put |
| C39 | pool registry | invariant |
| C40 | output counter of `send` | trace theorem; witness for the undercount |
| C41 | control message constructors on recycled frames | witness for stale headers |
| C42 | recursion depth of aggregates and AMF objects | witness of depth n for every n |
| C43, C44 | PMT and PES header of mpegts | `_partial` plus witness |
| C45 | session lists of `ngx_live.c` | refinement under the life cycle callers should follow (`_partial`), witnesses |
| C46 | handshake state machines of both sides over a byte stream | trace theorem for all fills |
| C47 | HTTP-FLV output on top of the queue: header, tags, merge, partial writes, release | invariant over histories; `_partial` plus witness for the header flags |
| C48 | FLV parser of the pull relay | simulation by a byte-at-a-time machine, which is then run on the format |
| C49 | C47 composed with C48 | round trip; witness for payloads of 2^24 bytes |
| C50 | FLV recorder, one session in one file | plan machine on items; bytes follow the plan; `Recording` by induction over messages |
| C51 | recorder with `append` | as C50 with an existing file; witness for the flags |
| C52 | recorder, any configuration and history | invariant over operations; witnesses for write errors, truncation, and a recorder that stops for good |
| C53 | recorder with `interval` | induction over pieces, C50 for each |
| C54 | H.264 messages to Annex B (three copies of the code) | induction over NAL units with a planned unit list; decoder of start codes as specification; safety over all bytes; witnesses |
| C55 | AAC to ADTS, collected in PES packets | invariant over events (frames written or waiting); ADTS decoder as specification; bounds over all messages; witnesses |
| C56 | window of the HLS playlist | ring refines list of all fragments; invariant over runs; witnesses |
| C57 | cutting of HLS fragments | invariants over runs: joins, bounds, partition of the frames; witnesses |
| C58 | keys of HLS fragments | invariant over runs on key files; witnesses |
| C59 | continuing an HLS playlist | round trip of writer and reader with the 4096 byte buffer; runs after it; witnesses |
| C60 | HLS cleanup | exact effect on a directory tree; ages of listed files over runs; witnesses |
| C61 | live fan-out | invariants over all runs; delivery by induction over messages; witnesses |
| C62 | GOP cache, sending side | invariant over all runs of publisher and players on top of C34; induction along the ring; witnesses |
| C63 | HTTP client, body of a response | one-byte machine equivalent to the buffer parser; invariant along all cuts; grammar of chunked bodies as spec; witnesses |
| C64 | HTTP client, head of a request | induction over the headers set; exact buffer size; reading back with a spec parser; composition with C31; witnesses |
| C65 | callbacks on_publish and on_play | refinement of a specification machine by simulation; consequences proved of the specification; URL read back with C31; witnesses |
| C66 | order of the handler chains | induction over registrations; invariant over calls and answers; witnesses |
| C67 | DASH segments and initialization segments | writers append (Hoare style), reader of ISO 14496-12 as specification, round trip by induction over samples; witnesses |
| C68 | DASH: cutting the stream, the ring of fragments, what the playlist lists | ghost list of parts, the files written are a function of it (simulation), order invariants by induction over frames; readers of C67 composed with it; witnesses |
| C69 | TS ingest: packets, tables, PES packets of mixed streams | reading from chains reduced to reading from flat bytes; functional reader of ISO 13818-1 as specification; unit by unit for one PID, then projection of mixed packets to PIDs; safety for all input; witnesses |
| C70 | TS output: packets, tables, PES packets; read back by the reader of C69 | exact packet reader as specification; induction over the packets of a chain; CRC table shown to be the reflected polynomial; counters by range arithmetic; composition with C69; non-termination for all chains with an empty end |
| C71 | HLS from TS: segment files, playlists, master playlist, file manager | invariant over units with the list of segments as ghost state; ring buffer refined to a list; m3u8 reader after RFC 8216 as specification; files read with the exact packet reader of C70; projection to one program |
| C72 | Codec headers of AVC and AAC: RTMP and TS | syntax of 14496-10, 14496-15, 14496-3 as specification; a logic of readers that take exactly given bits, and its converse (what was taken was such bits); size as an equivalence; calls counted for time |
| C73 | Headers of HEVC over RTMP | syntax of H.265 7.3.1, 7.3.2.2, 7.3.3 and 14496-15 8.3.3 as specification; unescaping inverts escaping; readers that take exactly given bytes; what fails stated for all records |
| C74 | HLS out of memory | where fragments have to be cut, a reader of playlists and what a player asks for as specification; invariant of the ring relating slots to the list of all fragments, by induction over frames; fragments that are closed never change while feeding goes on |
| C75 | memory of HLS fragments | specification without memory: a session is what was fed to it, a response is a copy and how often it was sent from; simulation by induction over steps, with counts equal to the references in rings and responses; bound on the number of objects from the moment one is allocated |
| C76 | GOP cache for transport streams | invariant: all frames ever cached are a list, the ring is the part from index `gone` on, positions are indexes modulo the size; a session is at an index that is not a round behind, and its log ends there or one may start there; decodability and order as small predicates on the log (GopSpec.lean); what comes first against a function on lists; joined to C74 for the fragments |
| C77 | DASH segments of transport streams | a reader of media segments and of their index (TsDash/Spec.lean, on the box reader of C50) and rules where segments end, as predicates on lists of units; the chain of buffers as a table of rows whose last one has no duration yet (Build.lean); search for start codes and reading of ADTS over buffers against the concatenation of the buffers (Copy.lean); invariant over units (Run.lean); safety for arbitrary bytes with a weaker invariant (Safe.lean) |
| C78 | initialization segments of transport streams | readers of AVCDecoderConfigurationRecord, of descriptors with sizes of 1 to 4 bytes, of AudioSpecificConfig (TsDash/InitSpec.lean) on the box reader of C50; the text of the file as a function without buffer (InitText.lean), and that every writer writes as much of it as there is room for and counts all of it; what runs know about AAC (InitHeard.lean) |
| C79 | the DASH playlist of transport streams | a reader of XML 1.0 (Xml/Spec.lean) and one of MPDs on it (Xml/MpdSpec.lean): templates of names, codecs, timelines; what a list of units makes a playlist list (TsDash/MpdWant.lean). An invariant over all interleavings: each representation is the outcome of C77 on its own units, files on disk are those of C77 by name, the playlist was written from representations that differ only in what units since then told (MpdRun.lean) |
| C80 | printing of JSON | a reader of RFC 8259 (Json/Spec.lean); printing into a growing buffer in memory, out of bounds is a distinct outcome; induction over values: what has been written is the text so far (Json/Mem.lean), and the reader reads the text (Json/Text.lean) |
| C81 | the statistics as JSON | what a reader finds under which names (Json/StatSpec.lean), against the tree the code builds, printed and read by C80; loops as sums over lists |
| C82 | PROXY protocol | lines of the protocol (Proxy/Spec.lean) against the code that looks for them in a buffer with a rest that is anything; exactly which lines are taken, as an equivalence |
| C83 | Statistics as XML | a reader of XML 1.0 that knows nothing of the program (StatXml/Spec.lean) applied to all bytes of the chain of buffers; what it finds, for all workers |
| C84 | Control requests | the sessions asked for as a filter over all sessions of the process (Operate/Spec.lean), against the walk over hash buckets and the handlers; the gate for frames of paused sessions; redirecting over the lists of C45 |
| C85 | Text of the RTMP module's MPD | a reader of XML and MPD and of references (Xml/Spec.lean, DashMpd/Spec.lean) that knows nothing of the writer, against the formats and the buffer; composed with the player of C68 |
| C86 | Dynamic resolver | a table of names and last answers, fed by what an observer sees (Resolver/Spec.lean, Resolver/Trace.lean), against records, buckets, free list, callers and questions under way; counting of calls by an invariant over all runs |
| C87 | Event timers | counting of jobs accepted, called, deleted and set (Timer/Spec.lean) against slots and a free list threaded through `data`; invariant: the list, the timers that are set and the one being called are disjoint and everything |
| C88 | Addresses of workers | how an address is written (Multiport/Spec.lean: host without colon or in brackets, decimal port, Unix path), one reading per text; the result reads as the same host and the port moved by the slot |
| C89 | Static pulls | the streams of the last configuration; exactly one session for each (Pulls/Spec.lean `wanted`, `Serves`); which sessions go on and which are given up |
| C90 | Joined answers of workers | how a list is written (Broadcast/Spec.lean `listText`), for all ways to cut the answers into buffers |

Further properties are appended to `properties.jsonl` as the model grows.

## What is modelled

Paths are relative to `/repo/modules`. Everything not listed here is not modelled.

| Lean | code |
|------|------|
| Rtmp/Chunk* | nginx-rtmp-module/ngx_rtmp_handler.c: `recv`, `alloc_in_buf`, `set_chunk_size`, `finalize_set_chunk_size` |
| Rtmp/Queue*, Send* | ngx_rtmp_handler.c: `send_message`, `send`, `prepare_out_chain`; ngx_rtmp_shared_module.c: `append_chain`, `prepare_merge_frame` |
| Rtmp/Ack*, Ping*, Bandwidth* | ngx_rtmp_handler.c: acknowledgement, ping; ngx_rtmp_bandwidth.c |
| Rtmp/Frame* | ngx_rtmp_shared_module.c: frame pool with reference counts |
| Rtmp/Control*, Aggregate* | ngx_rtmp_send.c constructors, ngx_rtmp_receive.c handlers |
| Rtmp/Dispatch* | `receive_message` and `fire_event` handler loops |
| Rtmp/Amf* | ngx_rtmp_amf.c, command constructors of ngx_rtmp_send.c |
| Rtmp/Access*, Limit* | ngx_rtmp_access_module.c, ngx_rtmp_limit_module.c |
| Rtmp/BitOp* | ngx_rtmp_bitop.c |
| Rtmp/Eval* | ngx_rtmp_eval.c |
| Rtmp/Gop* | ngx_rtmp_gop_module.c: caching side |
| Rtmp/Handshake* | ngx_rtmp_handshake.c; HMAC-SHA256 is an arbitrary 32-byte function |
| Rtmp/LiveReg*, LiveCtx* | ngx_live.c: server/stream tables, session lists |
| Rtmp/Flv* | http/ngx_http_flv_live_module.c: tags, header, write handler; ngx_live_relay_httpflv.c: parser and receive loop |
| Rtmp/Rec* | ngx_rtmp_record_module.c: open, close, append, tags, message handler, limits, intervals; paths are inputs, a disk may fail at any write |
| Ts/* | hls/ngx_rtmp_mpegts.c: tables, packets, PES, file writing; AES is an arbitrary block function |
| Zone/* | nginx-multiport-module/ngx_stream_zone_module.c, arbitrary interleavings of processes at lock granularity |
| Toolkit/Map* | nginx-toolkit-module/ngx_map.c |
| Toolkit/Rbuf, Poold, Url* | ngx_rbuf.c, ngx_poold.c, URL parser of ngx_toolkit_misc.c |
| Hls/Frag* | hls/ngx_rtmp_hls_module.c: get_frag, next_frag, write_playlist (what it lists), get_fragment_id, close_fragment, open_fragment, update_fragment, effects of restore_stream on the ring | durations as exact numbers of ticks instead of `double`; the fragment counter does not reach 2^64; writing a playlist does not fail; a failed write of a key file leaves the file as it was; audio frames in fragments are in Hls/Adts*; variant playlists not modelled |
| Hls/Restore* | hls/ngx_rtmp_hls_module.c: write_playlist (the text), restore_stream | `%uL`, `%XL`, `%.3f` of ngx_slprintf (nginx core, not in the repository) as documented; `strtod` on digits, a point and digits only, exactly; reads and writes do not fail; comparisons reading past a short line inside the buffer are taken to fail; variant playlists not modelled |
| Hls/Clean* | hls/ngx_rtmp_hls_module.c: cleanup_dir | readdir returns every entry once and does not fail half way; nobody else changes the tree meanwhile; `ngx_de_is_dir` and `ngx_de_is_file` (nginx core) by the type of the entry, so links are neither |
| Live/Fan* | ngx_rtmp_live_module.c: set_status, live_start, live_stop, join, close_stream, pause, av, publish, play; ngx_rtmp_cmd_module.c: stream_init, the filters | one stream, cache_time 0 (the default), idle_streams on; whether a message is accepted is an input; messages of a leaving session to itself, idle timers and bandwidth counters left out; the map of publishers as a list (C23) |
| Live/GopSend* | ngx_rtmp_gop_module.c:161-237, 478-688 (link_frame, send_meta, send_gop, send), latest headers 434-449; ngx_rtmp_live_module.c:818-853, 1058-1061 | one publisher; the queue is a list (ring: C08); frames are numbers; use of a frame given back is an error outcome; not modelled: failing allocations, wake-ups of the sender, reuse of the address of a latest header |
| Client/Body* | ngx_http_client.c:1174-1211 (body_length), 1214-1322 (body_chunked), 1716-1827 (read_body); nginx core ngx_http_parse_chunked as published (text not in the repository) | a call gives the bytes of its reads and how it ends; buffers are byte lists, the caller takes a number of bytes between calls; memory and the connection itself left out |
| Client/Request* | ngx_http_client.c:120-144, 241-248, 451-496 (tables, default headers), 942-980, 983-1028 (add_header), 1031-1125 (request buffer), 1327-1439 (create), 1485-1498 | map of names is C23, moved arrays as a count of stale elements; failing allocations left out; date and agent are parameters |
| Rtmp/Notify*, Rtmp/NotifyUrl* | ngx_rtmp_notify_module.c:83-117, 1091-1295, 1388-1445, 2170-2236; ngx_netcall.c:11-195; ngx_rtmp_cmd_module.c:224-286 | one session with the contexts of its calls; names are numbers in the state machine and bytes in the URL; a detached request calls nobody; reading memory that is gone is the outcome `uaf`; HTTP players, meta, stream, record and relay callbacks left out |
| Rtmp/Hook* | config:4-31, ngx_rtmp.c:306-319 and the publish and play handlers of 13 modules (listed in the file with their lines) | what a handler does is a mark, that it fails a Boolean; the callbacks are the answers to the calls of one command; access rules (C28) are a Boolean |
| Dash/Mp4*, Dash/Init* | dash/ngx_rtmp_mp4.c (all of it); dash/ngx_rtmp_dash_module.c:448-521, 524-627, 657-702, 1044-1208 | the buffer is a list of bytes with a limit; the head of a message is in one buffer; the new file takes every write; opening files does not fail; `update_fragments` is not part of it (one fragment at a time) |
| Dash/Cut* | dash/ngx_rtmp_dash_module.c:31-73, 173-199, 524-725 (order of files), 956-1223 | every file can be opened and takes every write; counters do not overflow; the playlist is its list of times and tracks; one publishing at a time |
| TsIn/Read*, TsIn/*Lemmas | nginx-ts-module/src/ngx_ts_stream.c:16-29, 148-444, 447-933, 1367-1443, ngx_ts_stream.h:40-79 | allocations succeed; handlers succeed and do not change the stream; the list of free buffers is left out (a freed buffer is never looked at again) |
| TsIn/Write*, TsIn/CrcLemmas, TsIn/PacketizeLemmas | nginx-ts-module/src/ngx_ts_stream.c:59-124, 936-1364, 1446-1459 | allocations succeed; the loop over packets has fuel, theorems are about all large enough amounts |
| TsIn/Hls* | nginx-ts-module/src/ngx_ts_hls.c:79-715, 743-781 | files and memory can be had; durations printed with exact arithmetic; counters of segments and bytes do not overflow; one process, one stream of each name |
| Codec/* | ngx_rtmp_codec_module.c:204-383, 791-968, ngx_rtmp.h:1001-1005, ngx_rtmp_bitop.c, nginx-ts-module/src/ngx_ts_avc.c:40-298, ngx_ts_aac.c | memory can be had; `ngx_uint_t` has 64 bits; the HEVC reader is a parameter; the copy of the message kept as the header is exact; debug dump left out |
| Codec/Hevc* | ngx_rtmp_codec_module.c:386-788 | memory behind the first buffer of the message counts as not there; the 4096 bytes of `buf` are all there is of it; lines written to the log are not modelled |
| Hls2/* | mpegts/ngx_hls_live_module.c:202-321, 403-522, 576-635, 683-692, 823-1006, mpegts/ngx_hls_http_module.c:831-876, 952-1006 | fragments are values; durations are exact (the code has `double`); frames are put into the queue by the mpegts gop module, which is not modelled here; sending is what is sent if the fragment does not change |
| Hls2/Heap* | mpegts/ngx_hls_live_module.c:324-328, 525-635, 780-820, 823-963, mpegts/ngx_hls_http_module.c:526-564, 878-1079, 1211-1239 | an address is the number of an object; objects are never returned to the system (as in the code); using a freed object, or one beyond its slots, is `none`; one `send` is one turn of the loop of the write handler; playlists are answered at once |
| Hls2/Gop* | mpegts/ngx_mpegts_gop_module.c:185-214, 217-286, 326-700, mpegts/ngx_hls_live_module.c:966-1006, mpegts/ngx_mpegts_live_module.c:1689-1704 | one publisher at a time; a frame is a number and stays alive for the cache while the cache has its reference; queues of sessions are lists, sent from at any time (`drain`); `ss->roll_back` is 0 for players over HTTP, as it is never set; HLS sessions see a frame before the cache does, other players after (order of the handlers); endless loops and null pointers are `none`; allocation does not fail; references of sessions are not counted |
| TsDash/* | nginx-ts-module src/ngx_ts_dash.c:296-791, 1120-1139, src/ngx_ts_dash_mp4.c:97-292, 1138-1449 | one representation; the chain of the table is a list of 1 KB buffers with pointers into it, that of the data is its bytes; files can be written (a list of name and content); pools are not counted; the playlist and initialization segments are not in this part; which units have times is C69; `none` is a null pointer, an access outside of a buffer, a division by 0, an undefined shift or an endless loop |
| TsDash/Init* | nginx-ts-module src/ngx_ts_dash.c:1054-1117, src/ngx_ts_dash_mp4.c:89-94, 295-930, 998-1135, src/ngx_ts_stream.c:1462-1496 | the buffer is its size and what has been written; the file can be written; time is a parameter; the loop that doubles the buffer has a number of rounds, `none` is that they are not enough |
| TsDash/Mpd*, Xml/* | nginx-ts-module src/ngx_ts_dash.c:162-387, 680-957, 1013-1117 | all files can be written, and writes are atomic; old segments are not deleted; texts of dates are a parameter; the loop that doubles the buffer has a number of rounds |
| Json/Model | nginx-rtmp-module json/cJSON.c: printbuffer, ensure, update_offset, print_number, print_string_ptr, print, print_value, print_array, print_object | memory can be had; numbers are whole, `%1.15g` of less than 16 digits is decimal, other texts are a parameter; raw items are not used |
| Json/Stat* | nginx-rtmp-module ngx_live_stat.c; the handler of ngx_rtmp_sys_stat_module.c; which list of a stream sessions join | members are added to objects in order; memory can be had; texts of fractions and names of codecs are given; update of rates is that of C36 |
| Proxy/* | nginx-rtmp-module ngx_rtmp_proxy_protocol.c; what a session keeps of the address of its peer (ngx_rtmp_init.c:187-213) | reading and printing addresses is nginx core, a parameter; an event says what was found at the socket; reading outside of the buffer is a distinct outcome |
| StatXml/* | nginx-rtmp-module ngx_rtmp_stat_module.c (output chain, escaping, all elements) | ngx_escape_html and ngx_snprintf are nginx core, written down from their documentation; texts of fractions are given; memory can be had; `NGX_RTMP_POOL_DEBUG` off |
| Operate/* | nginx-rtmp-module ngx_rtmp_control_module.c (handler, sections, walk, handlers), ngx_live.c lookups, the gate for paused sessions of ngx_rtmp_live_module.c:672-688, 831 | arguments of the request, `ngx_hash_key` are parameters; recorders and failures of publish or play are parameters; memory can be had; buckets hold what C27 proves of them (`WF`); players that paused themselves are left out of `deliver` |
| DashMpd/* | nginx-rtmp-module dash/ngx_rtmp_dash_module.c:216-445 (text of the playlist), 448-522, 570-571, 883-941 (names of files) | the text of dates is a parameter; writes are complete, the playlist is renamed at once; profile, compatibility and level have 8 bits; `ngx_slprintf` (nginx core) stops at the end of the buffer |
| Resolver/* | nginx-toolkit-module ngx_dynamic_resolver.c:194-323, 341-660 | nginx's resolver is the environment: it answers each question once, at any time, with anything (an answer at once is one that is next); `ngx_sock_pton` is a parameter; a callback does not call the resolver again; memory suffices; `ngx_hash_strlow` and `ngx_tolower` (nginx core) as documented; counters of ngx_dynamic_resolver_state and an exiting worker are left out |
| Timer/* | nginx-toolkit-module ngx_event_timer_module.c:101-237 | when a timer expires is left open: any timer that is set may be next; nginx clears `timer_set` before it calls the handler; handlers are called one at a time, what they do lies between `expire` and `finish`; `ngx_event_timer_state` and memory that does not suffice are left out |
| Multiport/* | nginx-multiport-module ngx_multiport_misc.c | `ngx_snprintf`, `ngx_atoi`, `ngx_strlchr`, `ngx_strncasecmp` (nginx core) as documented; memory suffices; parsing of the result by `ngx_parse_url` is left out |
| Pulls/* | ngx_live_relay_static.c:32-60, 163-314, 373-492 | the maps (ngx_map, modelled in Toolkit/Map*) are lists of records; names are numbers; memory suffices; connecting and the times of reconnecting are left out |
| Broadcast/* | nginx-multiport-module ngx_http_broadcast_module.c:12-24, 112-125, 219-315 | one buffer per call of the filter; nginx calls the filter again after each answer (nginx core); headers and subrequests are left out |
| Hls/Adts* | hls/ngx_rtmp_hls_module.c, mpegts/ngx_mpegts_live_module.c: AAC (and MP3) handlers, `flush_audio`, audio alignment; ngx_live_record.c: AAC handler |
| Hls/Annex* | hls/ngx_rtmp_hls_module.c, mpegts/ngx_mpegts_live_module.c, ngx_live_record.c: `copy`, `append_aud`, `append_sps_pps`, H.264 part of the video handlers |

Assumptions specific to one area:

* C23: nginx core's `ngx_rbtree_insert`/`delete` are not in the repository. The model takes the tree after an operation to be *any*
  binary tree with the in-order sequence that insertion by the module's own comparison / deletion gives; balancing is irrelevant
  to the theorems, the red-black invariants are not claimed.
* C24–C26: processes interleave at the granularity of the spin lock; a process that dies inside an operation (and so leaves the lock or a node
  behind) is not modelled. Deadlock freedom means: no operation waits for a lock held by itself.
* C35/C46: the MAC is an arbitrary function with 32-byte results. Theorems about *recognising* a digest are exact; "no false recognition" is
  cryptographic and not claimed.

## Testing against wrong programs

`tools/mutate.py` applies one textual edit to a model file in a scratch copy, rebuilds, and records which modules stop building.
`caught: true` in `seeded/LOG.jsonl` means: a proof that mentions the edited definition broke. For edits which turn out to be harmless (the
English claim still holds) the entry says so by hand. Entries with `tightened` name the theorems that were added or
strengthened because the edit had escaped.

## Findings

Places where the code at the pinned commit does not do what a user would expect. Those with a theorem name are proved on a concrete witness.

Chunk layer (ngx_rtmp_handler.c)
* A chunk size change while a message is incomplete loses bytes: the partial-copy branch (942-948) never advances `bo->last` (C05_pending_data_lost_violation, C01_segmentation_violation).
* A smaller chunk size announced while bytes of the next chunk are buffered overruns the new buffer (249-250) (C06_shrink_violation).
* A header inside an unfinished message may announce a smaller length: `fsize` underflows and accumulation exceeds max_message (C04_accumulation_violation).
* Chunk size 0 and huge chunk sizes are accepted (C16_tiny_buffer_violation and neighbours).
* Only the first buffer of a protocol message is looked at (C16_small_chunk_violation); abort messages go out with the type of set-chunk-size (C16_abort_violation).
* `out_bytes` counts only the last write of a flush (C40); the server's own ping counts as traffic, so a silent peer may never be dropped (C33_silent_peer_violation).
* The acknowledgement counter reset at 0xf0000000 loses an acknowledgement and reports a wrong sequence number (C07_reset_violation); windows above it are never acknowledged (C07_huge_window_violation).
* Type 3 after type 0 uses delta 0; senders that omit the extended timestamp on type 3 are misparsed.

Messages
* Recycled frames keep header and flags of their previous use (C41_stale_header_violation).
* Nested aggregates and nested AMF objects recurse to a depth chosen by the peer (C42).
* AMF decoding into a table dereferences NULL `elts` (ngx_rtmp_amf.c:331) (C15_null_violation).
* `create_amf` and the codec module's `append_amf` (ngx_rtmp_send.c:432, ngx_rtmp_codec_module.c:1108) lose all but the last buffer of a command that exceeds one chunk (C17_truncated_violation).

Access, limits
* RTMP sessions keep 16 of 28 bytes of an IPv6 address; rules read out of bounds (C28_ipv6_session_violation). HTTP-FLV players bypass the rules (C28_bypass). The keyword check compares `value[1]` instead of `value[n]` (ngx_rtmp_access_module.c:353,361).
* NGX_RTMP_CONNECT is never fired, so max_connections is not enforced and the counter wraps (C29).

GOP cache (ngx_rtmp_gop_module.c)
* A GOP of at least out_queue-1 frames fills the ring; afterwards every frame is refused for ever (C34_stuck_violation).
* Stripped headers leave their pointer in the slot: double free when only headers are published (C34_double_free_violation). Silent PCM looks like a header (only `pos[1] == 0` is checked).
* `gop_send` dereferences `sctx->cache[prev(gop_last)]` (619-621), NULL for a player in state 3 when a new publisher's first frame is an inter frame.
* `link_frame` rewrites the timestamp of shared cached frames per player.

Handshake: neither side verifies the second packet; the old-style client echoes S2 instead of S1; allocation failures unchecked.

Registry and sessions (ngx_live.c, ngx_rtmp_cmd_module.c)
* A recycled server node keeps its stale `next` (C27_recycled_violation); long names are counted but not created (C27_long_name_violation); names with NUL are never found again (C27_nul_violation).
* A name `server/app/stream` of more than 511 bytes leads to a NULL `live_stream` that is dereferenced.
* publish + play on one session, or close before publish, leaves a freed session on a stream's list (C45 violations).
* `reset_vhost` (ngx_rtmp_cmd_module.c:118-147) writes `tc_url[256]` when the application name has 249 or more bytes.

Toolkit
* ngx_rbuf: double put hands the same buffer out twice (C38_double_put_violation). ngx_poold: a stale pointer whose address was reused destroys the new pool (C39_reused_address_violation); a failed pool creation registers NULL (C39_null_pool_violation).
* ngx_map: signed keys are hashed as unsigned: negative keys sort last (C23_int_order_violation).
* URL parser: empty scheme or host accepted, fragment without arguments stays in the path, IPv6 literals are cut at the first colon (C31 violations).

MPEG-TS
* PMT of an audio-only stream names the video PID as PCR PID (C43); audio PES beyond 65527 bytes gets length 0 (C44); short writes are ignored (C22_short_write_violation).
* PAT/PMT continuity counter is always 0. Negative FLV composition times are treated as unsigned.
* The H.265 handler of mpegts/ngx_mpegts_live_module.c (1010-1040) may write up to 7 bytes beyond its 1 MiB buffer; `p -= 3`/`p - 4` step back across chain buffers.

Stream zone: names with NUL have two owners (C24_nul_violation); a process dying inside an operation leaks a node or the lock.

HTTP-FLV
* The header flags follow the configuration, tags are not filtered: `audio=1 video=0` announces audio only and sends video (C47_flags_violation).
* The size field of a tag is cut to 24 bits; a payload of 2^24 bytes desynchronises the reader (C49_oversize_violation).
* The relay parser ignores DataOffset, accepts any stream id, has no `max_message` limit (16 MiB per tag) and refuses type 15 although the sender would write it.
* ngx_http_flv_live_module.c copies a stream name of exactly NGX_RTMP_MAX_NAME bytes without a terminating NUL; `ngx_strnstr(p + 1, "/", end - p)` may read one byte past the URI.

Recorder (ngx_rtmp_record_module.c)
* When a tag header cannot be written (disk full), the descriptor is closed but stays in the structure: the next message writes through it and the end of the stream closes it again, whatever file it belongs to by then (C52_violation_closed). When a payload cannot be written, recording goes on behind half a tag (C52_violation_torn).
* When `record_max_size`/`record_max_frames` is reached, the file is opened again at the next key frame; without `record_unique` it is truncated and everything recorded so far is lost (C52_violation_truncated).
* When the size limit is reached by a codec header, the next header goes to an invalid descriptor, `failed` is set and the recorder stays idle for the rest of the publication (C52_violation_dead).
* `record_append` overwrites the flags of the file with those of the last session (C51_violation_flags); a file whose last back pointer is damaged is overwritten from its start without truncation, or appended to, depending on the value.
* 2^31 ms after the first message the times of all tags become 0 (C50_time_wraps).
* The type of an empty video message is read from beyond its buffer; the AAC sequence header is recorded twice at the start (once from the codec context, once as a message).

HLS, MPEG-TS and record output
* An H.264 message whose last NAL unit has one byte (end of sequence) or is cut short makes the HLS worker follow a NULL pointer in a log statement (C54_violation_end, C54_violation_cut); MPEG-TS and record output lose the picture.
* Negative composition times (24-bit two's complement) are read as unsigned: the picture is to be shown 4.6 hours later (C54_violation_negative).
* ngx_live_record.c computes pts in 32 bits: after 13 h 15 min it is 2^32 ticks behind dts (C54_violation_record).
* The access unit delimiter is not the first NAL unit when the message starts with a type other than 1, 5, 6 (C54_violation_first).
* AAC: a frame of 8185 bytes or more gets a wrong length (C55_violation_long); channel configurations above 7 lose a bit (C55_violation_channels); with object type 31 or an explicit sample rate, five bytes of unwritten memory and the raw message are put out for every frame (C55_violation_junk); a buffer that gets full before the first key frame ends with a cut frame (C55_violation_full); a codec header whose first chunk has one byte is taken for a frame (C55_violation_header).
* ngx_live_record.c copies AAC messages into a static buffer of 10 MB without a check (C55_violation_record, reachable with `max_message` above that). MP3: a frame that fills the buffer exactly loses a byte (C55_violation_mp3).
* HLS playlists: `#EXT-X-TARGETDURATION` changes while a stream runs, which RFC 8216 forbids (C56_target_violation). With `hls_fragment_naming_granularity`, which makes fragments share a name, and with timestamps as names and `hls_continuous`, a file is truncated while it is listed (C56_granularity_violation, C56_timestamp_violation).
* HLS durations: audio less than a second before the key frame that started a fragment makes its duration wrap to about 2^64 ticks; if the stream ends there, the playlist says so (C57_back_violation). `hls_fragment 0` with aligned slicing divides by zero (C57_zero_violation).
* HLS keys: key_frags and key_id are set before the key file is written, so a failure loses the key for the next fragments (C58_lost_key_violation). RAND_bytes reports failure with 0, the code checks for < 0: the key stays as it was, zeros at first (C58_random_violation).
* HLS playlists: with hls_type event entries are dropped from the playlist all the same (C56_event_violation). An entry longer than 1024 bytes is cut without its newline and not found again (C59_long_violation). Newlines in a stream name put lines of the publisher's choice into the playlist (C59_injection_violation).
* HLS cleanup: ages are fixed multiples of hls_playlist_length. With key frames more than about 10 s apart (defaults) fragments are deleted while they are listed (C60_listed_violation), with more than 30 s the playlist too (C60_playlist_violation). A key file is deleted after 60 s although hls_fragments_per_key makes it needed for longer (C60_key_violation).
* MPEG-TS output keeps the codec headers of the first publisher for ever (`init_aac_codec`, `init_avc_codec`); not modelled.

* Live fan-out: a codec header that is accepted makes the channel of a subscriber active even if the key frame behind it is refused, so the first frame can be an inter frame (`C61_key_violation`). When a publisher with a higher priority joins, its frames follow from the middle of a group and without its codec header (`C61_takeover_violation`). A publisher nobody hears that sent first and leaves tells all subscribers the end of the stream and makes them wait for a key frame (`C61_eof_violation`); with an unpause command before, no stream begin follows at all (`C61_end_violation`). With a codec without header a channel never becomes active, so with `wait_key` only key frames get through (`C61_plain_violation`). A session that plays and then publishes takes the publisher with priority 0 off the map when it leaves: nobody hears that publisher any more (`C61_deaf_violation`). A session that publishes and then plays stays on the map: a dangling node, and its priority is taken for good (`C61_stale_violation`).
* GOP cache, sending side (`C62_*_violation`): `gop_last` of a player is never set, so the first burst stops at slot 0 of the ring (nothing at all when the cache begins there) and the player stays behind for good; a frame that the cache refuses still gives every player a turn, which moves past the end of the ring and sends old frames again; three AAC headers in a row in an audio stream make a player use a header that was given back; a publisher that comes back with an inter frame makes `ngx_rtmp_gop_send` read through NULL for players in state 3; after a pause, or when the queue is full while new metadata is due, the ring overtakes the player and it goes on with an inter frame; low latency mode drops the queue without releasing the references, and a codec header dropped with it is never sent again; the AAC header is sent twice when the AVC header behind it is refused; time stamps are rewritten in the message all players share.
* HTTP client, body (C63): a chunked response whose header arrives without a byte of the body makes the client use a NULL buffer (`C63_crash_violation`); bytes that arrive in the call that also sees the end of the connection are lost (`C63_close_violation`); a buffer not read completely before the next call is dropped (`C63_unread_violation`); `Content-Length: 0` never ends (`C63_empty_violation`); bytes beyond the length are delivered (`C63_excess_violation`).
* HTTP client, request (C64): the `Host` header has no port (`C64_host_violation`); names are compared with their case, so a header may be there twice (`C64_case_violation`); line ends in values are passed on (`C64_inject_violation`); after the 65th header the earlier ones cannot be changed (`C64_moved_violation`).
* Callbacks (C65): in a session that publishes and plays the answer for publishing runs the play chain and publishing never starts (`C65_mixed_violation`), and the answer to the first call may find the session freed (`C65_forgotten_violation`), as does the call of a session that publishes after closing its stream (`C65_reopened_violation`); when the HTTP client gives no request the command is neither carried out nor refused (`C65_lost_violation`); a refused publisher is told about playing (`C65_told_violation`). URL: nothing is escaped, so a name with `&` adds parameters (`C65_inject_violation`), one with `#` removes them (`C65_hash_violation`); a configured URL without path or with a fragment loses all of them (`C65_nopath_violation`, `C65_fragment_violation`).
* Handler chains (C66): the recorder, HLS and DASH act on a publisher before `on_publish` is answered (`C66_early_violation`), MPEG-TS and HLS players join before `on_play` is answered (`C66_player_violation`); `allow`/`deny` rules are checked last, so a denied player has joined and got the cached GOP, a denied publisher has started pushes and programs (`C66_denied_player_violation`, `C66_denied_publisher_violation`, `C66_denied_joined_violation`).
* DASH segments (C67): frames after the 1024th of a fragment are dropped and frames are cut after 1 MiB, without a word (`C67_dropped_violation`, `C67_segment`); the last sample of every segment has length 0 (`C67_last_violation`); `sidx` has the length in milliseconds as first offset (`C67_index_violation`); negative composition times become 4.6 hours (`C67_negative_violation`); a short write makes `close_fragment` loop for ever (`C67_short_write_violation`); the handlers advance `in->buf->pos` of the shared message, so the record and MPEG-TS modules find it without its head (`C67_consumed_violation`); `mp4a` says 1000 Hz (`C67_rate_violation`); long AAC configurations give unreadable descriptors (`C67_config_violation`); a stream without video crashes in `write_avcc` (`C67_audio_only_violation`).
* DASH cutting (C68): a segment can begin with any frame although `startWithSAP="1"` is written (`C68_keyless_violation`); the duration of a fragment with one frame is what the ring slot had before, or the absolute time of the frame (`C68_single_violation`); the last frame of a stream is not counted in (`C68_last_violation`); when time stamps go back the files of listed fragments are overwritten and a time is listed twice (`C68_back_violation`); a fragment without audio has an audio file with time 0 (`C68_silent_violation`); `dash_fragment` longer than `dash_playlist_length` gives a window of 0 and an empty playlist for ever (`C68_window_violation`).
* TS ingest (C69): a PES packet without length goes to the handlers with the PCR of the *next* unit, since the packet that starts it is looked at first (`C69_clock_violation`); the CRC, the table id and `current_next_indicator` of PAT and PMT are ignored and later tables are dropped, so one wrong bit in the first PAT makes the stream empty for ever (`C69_crc_violation`); `es->rand` stays after a unit whose end was lost (`C69_rand_violation`); a PES packet without length is kept until the next start, without a bound, and parsed again with every packet (`C69_memory_violation`). The last unit without length is lost when the request ends; continuity counters, duplicate packets, transport errors and scrambling are not looked at.
* TS output (C70): `ngx_ts_packetize` never ends for a chain whose last buffer is empty: the stuffing takes all of the packet, so the loop over data is not entered and `in` stays (`C70_ends`). The reader makes such a chain of a packet that has only an adaptation field, which is valid and common for PCR: with `ts_hls` any publisher stops a worker this way and takes all memory (`C70_endless_violation`). Reserved bits of PCR, PAT and PMT are 0 (`C70_reserved_violation`); a unit without PTS is written with the times of the last one (`C70_times_violation`, "XXX ptsf" in the source; HLS drops such units). The tables are allocated from the pool of the request for every segment and freed only at its end; their counters always start at 0.
* HLS from TS (C71): nothing handles the wrap of 33 bit times. Without `max_size` a segment that is open then gets all units of the next 26.5 hours and no playlist is written (`C71_wrap_violation`); with it, the negative difference is printed as unsigned, about 2.05e14 s (`C71_wrap_size_violation`). A segment closed by size within one DTS has duration 0, which is the mark of an unused slot: it is left out, and the others are listed with wrong sequence numbers (`C71_zero_violation`). TARGETDURATION is `max_seg` whatever the durations are; the maximum is computed (`maxd`) and not used (`C71_target_violation`). The last segment is left out if it has one unit (`C71_tail_violation`). `segment=0` and `segments=0` are accepted and divide by zero (`C71_analyze_violation`, `C71_segments_violation`). `vars` of an empty PAT is not NULL, so later PATs are ignored and every unit is an error (`C71_pat_violation`). One silent program of several keeps the master playlist from being written (`C71_silent_violation`). The file manager compares three bytes with `.tmp` and deletes everything it does not know at once (`C71_foreign_violation`).
* Codec headers (C72): a header of 34 bytes with `num_ref_frames_in_pic_order_cnt_cycle` of 2^62 - 1 makes the RTMP module (and, the same way, the TS module) read at the end of the data that often: any publisher can stop the worker (`C72_time_violation`). Sixty-four zero bits make both shift by 64 or more, and `1 << (log2 + 4)` in the TS module shifts an int by anything (`C72_shift_violation`). The RTMP module never looks at the error of its reader: a set that is cut, or not in the first buffer of the message, gives 16x32 (`C72_cut_violation`). Crop units are always 2: 1080i is 1920x1084, 4:4:4 is wrong too (`C72_interlaced_violation`, `C72_444_violation`). Scaling lists are skipped as flags only (`C72_lists_violation`), five profiles (TS: one) are missing in the list of those with a chroma format (`C72_profile_violation`), emulation prevention bytes are read as data (`C72_escape_violation`). `aac_sbr` and `aac_ps` are never reset (`C72_sbr_violation`). The first byte of a video message is read before its length is checked (`C72_empty_violation`).
* HEVC headers (C73): `nal_to_rbsp` copies the unit into `u_char buf[4096]` without a check; a header with a unit of more than 4096 bytes writes behind it on the stack, with bytes the publisher chooses (`C73_memory_violation`). It takes as many bytes as the unit has although it has already taken the two of the unit header, so two bytes behind the unit are used, and with the set as last unit these are behind the message. Lengths and numbers of units are believed: up to 64 KiB behind the message are read (`C73_length_violation`), and 31 bytes cost 131076 reads, half of them with a line in the error log (`C73_rounds_violation`). A conformance window makes width and height one too small, as for every 1080p stream (`C73_window_violation`). Profile and level are not taken, so those of an earlier AVC header stay.
* HLS out of memory (C74): a frame of video may start a fragment only if `ctx->aframe` is set or there is no AAC header, and `aframe` is set nowhere; so streams with AVC and AAC are cut only after `max_fraglen` (50 s) or where the time jumps, at any frame (`C74_av_violation`). A stream with an AVC header whose first frame is audio never gets a fragment: the frame stays first in the queue (`C74_stuck_violation`). With aligned slicing nothing is ever opened (`C74_aligned_violation`), and with `hls2_fragment 0` the process divides by zero. `find_frag` compares with `>`: the name of the fragment just overwritten gives the one being written (`C74_old_violation`). A fragment with out_queue frames wraps around and is sent empty though its length is told (`C74_wrap_violation`). Where the time jumps no EXT-X-DISCONTINUITY is written, since `discont` is cleared whenever a fragment was open (`C74_jump_violation`); a frame a little before the start gives a duration of 2^64 ticks (`C74_back_violation`); EXTINF:5.500 with TARGETDURATION 5 and TARGETDURATION 0 (`C74_target_violation`, `C74_short_violation`).
* Memory of HLS (C75): a session knows one request (`s->request`), which every request overwrites and every request that ends clears. Whoever is not known when the session is closed goes on with freed memory: a player that fetches two fragments at once, or a playlist during a fragment (`C75_close_violation`, `C75_forget_violation`, `C75_playlist_violation`). `ctx->frag` is set before the header is sent and the reference is taken after it: if the header is not sent at once (`NGX_AGAIN` too) cleanup gives back a reference that was never taken, and the object is in a slot and in the free list (`C75_fail_violation`: players of one stream get another; `C75_twice_violation`). Freed objects are reused for sessions with longer queues and cleared beyond their end (`C75_queue_violation`). The fragment being written can be asked for, and more is sent than Content-Length tells (`C75_open_violation`). Seen but not modelled: cleanup tests `out_chain == NULL` where it means the opposite, so the chain of an aborted response leaks (:540); `ngx_memcpy` of session and name into fixed arrays without a bound (:637, 644); of two playlists that wait only the last is answered.
* GOP cache for transport streams (C76): the ring is checked for room before it is trimmed, and is trimmed only if it has two key frames. One GOP longer than `out_queue` (e.g. a stream with one key frame) fills it, and from then on no frame is ever cached again (`C76_jam`); sessions then find an empty slot with each frame, go back to the start of the cache and get the same frames again and again (`C76_jam_violation`; the same happens to sound before the first key frame, `C76_early_violation`). `mpegts_cache_time` is 0 by default, with which HLS and MPEG-TS over HTTP send nothing at all (`C76_off`). An HLS session whose queue is too small for what it gets first gets that again with each frame and never anything else (`C76_restart_violation`). `ngx_mpegts_gop_close_stream` neither clears the slots nor the list of key frames: a session that publishes again after closeStream uses freed frames (`C76_again_violation`). Differences of times are unsigned: a frame out of order (B frames) drops a GOP that is not old (`C76_wrap_violation`). `ss->roll_back` is read (:432) but nothing sets it, so `mpegts_roll_back` has no effect on where players start. Frames that wait in the queue of an HLS session are not given back when it is closed (ngx_rtmp_init.c:307-317 frees those of `out` only).
* DASH of nginx-ts-module (C77): only the first SPS and PPS of a stream are ever used; others are taken out of samples and dropped, so a stream that changes its size cannot be decoded any more (`C77_changed_violation`). An AAC frame that continues in the next PES packet, or a damaged picture, is an error that ends the whole ingest, and the last segment is then written with sizes larger than the file, or with bytes behind the last box (`C77_split_violation`, `C77_rest_violation`). Times are compared without regard to their wrap at 2^33: from then on no segment ends before `max_size` is reached, and its duration is printed as 2^64 - x (`C77_wrap_violation`). When a stream ends, its last unit has duration 0 (`C77_last_violation`). The ADTS sync word is not looked at (`C77_sync_violation`). `segment=0` and `segments=0` are accepted and divide by 0 (`C77_analyze_violation`, `C77_segments_violation`). A malformed SPS is an undefined shift (`C77_crash_violation`). The buffer of the playlist is never freed when it was written (ngx_ts_dash.c:843-957), one leak for each segment. `bandwidth` stays 0 as long as times go back, and until then no playlist is written. The file manager (:1142-1205) removes every file it does not know in the directory, whatever its age.
* Initialization segments of nginx-ts-module (C78): the sample entry of sound always has 2 channels and 90000 where a 16.16 number has to be, so it says 1.4 Hz (`C78_rate_violation`). If a parameter set has not come when the bandwidth is known, a sample entry for H.264 without configuration is written; it is replaced only with the next segment (`C78_unknown_violation`). High profiles lack the fields for chroma format and depths (`C78_high_violation`). `next_track_ID` is the number of the track there is (`C78_next_violation`). The reserved bit behind the stream type of the decoder configuration is 0, it has to be 1. All initialization segments are written again for each segment.
* DASH playlists of nginx-ts-module (C79): the playlist is not written as long as the bandwidth of any stream of the PMT is unknown, so a stream that is announced and silent keeps the whole program from being played (`C79_silent_violation`). There is no `presentationTimeOffset` and the period starts at `PT0S`, so a player takes the times of the transport stream, which start anywhere, as times since `availabilityStartTime`, when the first segment ended: a strict player asks for the segments of a stream whose clock has run for 10 hours 10 hours later (`C79_offset_violation`). H.264 whose parameter sets have not come is listed as `mp4v.21` (`C79_unknown_violation`). `segmentAlignment="true"` is always said, although each stream is cut for itself (`C79_aligned_violation`). Besides, the buffer with the text is not freed when the playlist has been written (:943-957): each segment leaks it.
* JSON (C80): strings are not checked for UTF-8: one byte in a name that a client chose makes the whole text of the statistics invalid (`C80_utf8_violation`). `cJSON_Print` is NULL beyond 2 GB, and the handler takes `strlen` of it (`C80_large_violation`). The tree is never deleted (ngx_rtmp_sys_stat_module.c:164-206): each request leaks it.
* Statistics (C81): whoever watches by HLS or by a transport stream over HTTP is in a list of the stream that ngx_live_stat.c does not look at: they are not listed, and `hls_clients` and `ts_clients` are always 0 (`C81_missing_violation`). `avsync` is a difference of unsigned numbers, some four billion when sound is behind the picture (`C81_avsync_violation`). Strings are cut after 1023 bytes in the middle of a character (`C81_cut_violation`). The answer has no Content-Type, and the header is sent before the body is known.
* PROXY protocol (C82): `n <= 8 && ngx_strncmp(p, "PROXY ", 6) != 0` has `&&` for `||`, so any six bytes do for the word (`C82_other_violation`). The session copies the address of the connection before the line is read, and access rules, logs and statistics use the copy: behind a proxy, `deny` and `allow` see the proxy only (`C82_access_violation`, `C82_denied_violation`, `C82_log_violation`). A line that arrives in two segments is refused (`C82_whole`), which the protocol allows.
* Statistics as XML (C83): `serverid` is written without escaping (ngx_rtmp_stat_module.c:690); unless configured it is the host of the `tcUrl` of any client, so `rtmp://a<b/l` makes the page ill-formed for everybody (`C83_serverid_violation`). `timestamp` is printed with `%D` and is negative after 24 days (`C83_timestamp_violation`). Streams are named by what is behind the last slash, without application (`C83_name_violation`).
* Control requests (C84): `name` without `app` is ignored, so `drop/client?srv=s&name=x` drops everybody on the server (ngx_rtmp_control_module.c:365-376, `C84_name_violation`). `srv/app/` is compared over its own length with arrays of 512 bytes (`C84_bound_violation`). A paused player still gets every frame, for only the publisher's `pause` is looked at (`C84_subscriber_violation`). A redirected session is taken off its stream, and the publish or play that should follow returns at once because the session has `published` or `played` (ngx_rtmp_cmd_module.c:227, 247): it ends on no stream and is counted as redirected (`C84_redirect_violation`).
* DASH playlist of the RTMP module (C85): the name of a stream is printed into attributes as it is, so `a&b`, `a"b` or `a<b` makes the playlist unreadable (ngx_rtmp_dash_module.c:376-389, `C85_name_violation`); without `dash_nested` a name with `/` refers to files in the wrong directory (`C85_slash_violation`) and one with `$` to none (`C85_dollar_violation`). The text of a track is made in a buffer of 1 MiB that is cut off silently; from 34953 fragments on (somewhat above 21000 for large times) the playlist is never readable (`C85_full_violation`). `AudioChannelConfiguration` is always 1 (`C85_channels_violation`). The namespace of `xsi` is misprinted (2011 for 2001; not modelled as an error). `availabilityStartTime` is when publishing began, while times in the list are those of the publisher: they fit only if the publisher counts from zero (not proved).
* Dynamic resolver (C86): the callers who wait are served inside the loop that copies the addresses, after the first one was copied (ngx_dynamic_resolver.c:269-292). With m addresses only one caller in m is given an address, the others an empty one, which they take for a failure (`C86_share`, `C86_first_violation`). A record that is removed goes to the free list although questions with a pointer to it are under way; when it is taken for another name, the late answer is stored for that name (`C86_reuse_violation`; the check `domain == NULL` at 247-251 cannot notice it). Addresses are copied by their length into a `struct sockaddr` of 16 bytes: one of version 6 (28 bytes) overwrites what follows, in the last place the list of callers; a Unix path (110 bytes) overwrites the stack (`C86_long_violation`). `ngx_dynamic_resolver_start_resolver` returns without calling the callback if the name is empty (`C86_empty_violation`). `dynamic_domain_buckets 0` divides by zero. `ngx_event_resolver_start_resolver` leaks its context if `ngx_resolve_name` fails (ngx_event_resolver.c:231-246, condition inverted; not modelled).
* Event timers (C87): a timer is freed only after its handler has returned (ngx_event_timer_module.c:183-187), so a handler that sets itself again needs a second timer. If all others are in use it gets none, and the callers do not look at the result (ngx_dynamic_resolver.c:321, ngx_dynamic_conf.c:858 and 907): refreshing stops for good although a timer becomes free at once; with `worker_timers 1` nothing is ever repeated (`C87_again_violation`). Numbers are reused: deleting a timer that has expired deletes whoever has the number now (`C87_stale_violation`; nobody in this repository deletes). A number outside of the array, such as the NGX_ERROR that setting a timer may return, is not checked (`C87_range_violation`).
* Addresses of workers (C88): the bound 65408 leaves room for 127 slots, but it is compared with port plus slot instead of the port (ngx_multiport_misc.c:62-67, 116-121). With a port from 65282 to 65408 the workers in low slots listen and those in high slots do not, although their ports would be valid (`C88_limit_violation`). The sum is computed before it is compared: with the largest integer as a port it overflows (`C88_overflow_violation`).
* Static pulls (C89): while a configuration is read, the records of streams that stay are linked through `next` (ngx_live_relay_static.c:432-433). If the configuration is then refused as a duplicate, the links stay (479-491). In the next reading a removed stream is taken for one that stays, and its session goes on for ever without a record (`C89_stale_violation`), or a record is freed twice (`C89_twice_violation`). A stream for which no session could be made keeps a null pointer, or a pointer to the session that ended, and the next reading follows it (453, 469; `C89_null_violation`).
* Joined answers (C90): when no worker has an item the client gets `]` alone (`C90_empty_violation`). The new prefix is written over the buffer, so with another length the answer is damaged (ngx_http_broadcast_module.c:265-266, `C90_length_violation`). Every buffer is compared until one matches, so an answer may be altered in the middle (`C90_middle_violation`). `new_prefix` is not inherited because line 121 merges it into `prefix` (`C90_inherit_violation`).

Other
* `ngx_rtmp_eval` drops an unterminated `${` silently; notify URLs append arguments after a fragment.
