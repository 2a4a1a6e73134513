{
 "C28": {
  "note": "IPv4 claim holds for real sessions. For IPv6 the rule evaluation is right on a full address (_partial theorems), but RTMP sessions keep only 16 of the 28 bytes of the address, so evaluation reads out of bounds (violation theorem)."
 },
 "C30": {
  "note": "Reading is exact and safe. Exp-Golomb reading is exact for every code that fits 64 bits; with 64 or more leading zeros the C code shifts by >= 64 (undefined), shown by the violation theorem."
 },
 "C01": {
  "note": "Proved for every segmentation as long as no chunk size change arrives with a message in progress (any handler), and for handlers that never shrink the size; in general false because set_chunk_size loses carried-over bytes (violation)."
 },
 "C04": {
  "note": "Bound proved for peers that never re-announce a smaller length inside a message; the violation shows accumulation beyond max_message otherwise."
 },
 "C05": {
  "note": "Change between messages and changes where the pending data fits are exact; pending data that does not fit one new buffer is lost (violation)."
 },
 "C06": {
  "note": "No overrun for sizes that never shrink; a shrinking size overruns (violation)."
 },
 "C07": {
  "note": "Exact below the counter reset at 0xf0000000; the reset loses an acknowledgement (violation)."
 },
 "C10": {
  "note": "Repacking is exact for non-empty appends; an empty append makes an empty buffer (violation)."
 },
 "C15": {
  "note": "Terminates on every input and never overflows; NULL tables are dereferenced (violations), excluded in the partial theorems."
 },
 "C16": {
  "note": "Round trip for every control message with a chunk size of at least its length, except abort which is sent with the wrong type."
 },
 "C17": {
  "note": "Exact for commands that fit one buffer; longer ones lose their head."
 },
 "C22": {
  "note": "Exact if every write is complete; short writes are ignored by the code (violation)."
 },
 "C23": {
  "note": "Finite map with ordered iteration; the signed key type orders negative keys last (violation). Balancing of nginx core's rbtree is assumed to preserve the in-order sequence."
 },
 "C24": {
  "note": "Exclusive ownership for NUL-free names; names with NUL bytes are not found again (violation)."
 },
 "C27": {
  "note": "Holds for histories in which no server node is recycled and names are short and NUL-free; each excluded case has a violation."
 },
 "C29": {
  "note": "The limit is not enforced for RTMP because NGX_RTMP_CONNECT is never fired; the partial theorems describe the protocol as designed."
 },
 "C31": {
  "note": "Complete and sound for the accepted grammar; accepts empty mandatory parts, fragments inside paths and cuts IPv6 literals (violations)."
 },
 "C33": {
  "note": "Traffic keeps a session alive and at most one ping per window; a silent peer may be kept because the own ping counts as traffic (violation)."
 },
 "C34": {
  "note": "Refinement for legal histories (ring not full, at least one non-header frame before close); stuck ring and double free otherwise."
 },
 "C38": {
  "note": "Exclusive under the get/put discipline; a double put breaks it (violation)."
 },
 "C39": {
  "note": "Registry exact for live pools; reused addresses and failed creations break it (violations)."
 },
 "C40": {
  "note": "Counter exact when each flush is a single write; otherwise too low (violation)."
 },
 "C41": {
  "note": "Header members set by the constructor are exact; the others keep values of the frame's previous use (violation)."
 },
 "C42": {
  "note": "Depth is bounded by the length of the message, but not by a constant (violations)."
 },
 "C43": {
  "note": "Right for streams with video; audio-only streams name an absent PID."
 },
 "C44": {
  "note": "Right up to 65527 bytes of audio; longer audio gets length 0."
 },
 "C45": {
  "note": "Refinement under the life cycle join once, leave once; three other orders leave dangling entries (violations)."
 },
 "C47": {
  "note": "Stream, release and delivery are proved in full; the header announces what follows only with the default configuration (violation otherwise)."
 },
 "C49": {
  "note": "Proved for payloads below 2^24 bytes and types 8, 9, 18; a payload of 2^24 bytes breaks the stream (violation)."
 },
 "C51": {
  "note": "Tags, order and times are proved for all existing FLV files; the flags of the header describe the last session only (violation)."
 },
 "C52": {
  "note": "Proved for disks without write errors. Violations: write errors leave a closed descriptor in use or a torn tag; a reached limit truncates the file at reopening; a limit reached by a codec header stops the recorder."
 },
 "C54": {
  "note": "Proved for all messages and buffer cuts when the last NAL unit has more than one byte and composition times are not negative; safety (no overflow, termination) over all bytes, NULL dereference excluded for MPEG-TS and record only. Violations: NULL dereference in HLS, negative composition times, 32-bit pts in record output, delimiter not first."
 },
 "C55": {
  "note": "Proved for frames below 8 KB, configurations ADTS can express, and a buffer that does not get full while no fragment is open; bounds for HLS/MPEG-TS over all messages. Violations: 13-bit length, channel configurations above 7, unwritten memory put out when the codec header is not understood, cut frames while no fragment is open, codec header cut after one byte, unchecked static buffer in the recorder, MP3 off by one."
 },
 "C56": {
  "note": "Window, numbers and target duration for every run, also with disk failures; names for sequential naming without granularity. Violations: the target duration changes; granularity and timestamps with hls_continuous give a listed file a second time. An EVENT playlist drops entries too (C56_event_violation)."
 },
 "C57": {
  "note": "Partition of the frames, key frame at the start, places of cuts and discontinuities proved; exact joins and limits for times that do not go back. Violations: a message less than a second before the start of its fragment gives a duration of 2^64 ticks; aligned slicing with hls_fragment 0 divides by zero."
 },
 "C58": {
  "note": "Proved for sequential naming without granularity while key files can be written and RAND_bytes works. Violations: a key whose file could not be written is used all the same; RAND_bytes returning 0 is taken as success, so the key is zeros; granularity replaces key files that are needed."
 },
 "C59": {
  "note": "Proved for names without newlines and lines that fit (predicate Fits): reading a written playlist gives its context with durations to the millisecond, and a second publisher goes on from there, for sequential names without granularity. False otherwise: entries over 1024 bytes are cut (C59_long_violation), newlines in a stream name put lines into the playlist (C59_injection_violation)."
 },
 "C60": {
  "note": "What the cleanup deletes is exact for all trees and failures of system calls. That it leaves what a playlist in use names is proved if fragments are short (win + 1 of them within twice the length of the playlist, 2 s to spare). False otherwise: the defaults allow fragments of 50 s (C60_listed_violation, C60_playlist_violation), and a key for many fragments is deleted while it is needed (C60_key_violation)."
 },
 "C61": {
  "note": "Order, headers before frames and only the highest publisher over all runs; headers if the codec module knows them, key frame first if everything is accepted, one role per session. Complete delivery without interleave and wait_video. The violations: refused key frame, takeover, end of stream by a publisher nobody hears, codecs without header, sessions with both roles."
 },
 "C62": {
  "note": "Proved over all runs: safety and order (any queue behaviour, pauses, metadata, low latency) for regular streams whose frames are all taken and players that begin once; decodability and codec headers for streams with headers first, no low latency, no pause of that player and no metadata change while it plays; completeness for a player that has caught up and is not refused; the first turn is exactly headers plus frames up to slot 0 of the ring; queue conservation without hypotheses on the stream; metadata in order, none twice, newest before the next live frame; distances of time stamps kept. Violations with witnesses: cache at slot 0 or wrapping (burst incomplete), frame not taken (duplicates), repeated audio headers (freed frame used), publisher coming back with an inter frame (NULL), pause and metadata change (inter frame without predecessor), low latency (header lost, references leaked), header sent twice, shared time stamps rewritten."
 },
 "C63": {
  "note": "Proved for every cut of the input: chunked bodies (data complete and in order, end reported exactly at the end, no crash) if body bytes come with the header or the body begins with a later call that has bytes, buffers are read before the next call and the connection does not end in the same call; every parser run on arbitrary bytes stays in bounds; bodies with a positive Content-Length; bodies up to the end of the connection. Violations with witnesses: chunked response whose header arrives alone (NULL dereference), bytes read in the call that sees the end are lost, unread buffers dropped, Content-Length 0 never ends, bytes beyond the length delivered. The core parser ngx_http_parse_chunked is modelled as published with nginx, its text is not in the repository."
 },
 "C64": {
  "note": "Full for at most 64 header names (C64_moved_violation: after the 65th name earlier headers cannot be changed). Reading back needs parts without line ends (C64_inject_violation). Further violations: Host without the port, names compared with their case."
 },
 "C65": {
  "note": "The model refines a specification machine for sessions that send one kind of command and none after closing (C65_follows_partial and its consequences); C65_gate (nothing runs on without an admitting answer) and C65_timeout hold for all executions. Violations with witnesses for sessions that publish and play, reopen after closing, and for refused publishers (told Play.Forbidden). URL: buffer never overrun for all inputs; exact parameters for texts without & and #, configured URLs with a path and without fragment, and 2048 bytes; violations for each of these except the length. Meta, stream, record and relay callbacks are not modelled."
 },
 "C66": {
  "note": "Order of calls proved for every list of modules. For the callback: no joining, sending, live recording, program or relay before an admitting answer (C66_admitted_partial). Violations: file recording, HLS, DASH, linking to the stream and MPEG-TS/HLS players come before the callback; the rules of access come after everything else, so a denied player has got the cached GOP (C66_denied_joined_violation in general). A denied command is never accepted, an admitted one is (full)."
 },
 "C67": {
  "note": "Read back proved for every list of frames: exactly the first 1024, cut after 1 MiB, each at its time (C67_segment, C67_times: full characterisation). Partial: frames up to those limits. Violations: later frames dropped, the last sample has no length, the index points past the end of the file, negative composition times are read as hours, one short write makes closing loop for ever, later handlers find the message without its head, sample entry says 1000 Hz, configurations of 105 bytes are unreadable, audio without video crashes."
 },
 "C68": {
  "note": "C68_files holds of every stream. Partial: frames in order of time for less than 24 days; fewer than 10 MiB in two fragments (C68_player_partial); key frames less than a fragment apart (C68_keys_partial). Violations: without key frames a segment starts with another frame although the playlist says startWithSAP; a fragment of one frame is listed with a length left over in the ring; the last frame has no time; times that go back overwrite a listed file; a fragment without audio gets a file with time 0; a window of 0 lists nothing for ever."
 },
 "C69": {
  "note": "C69_parts, C69_safe, C69_header hold of all input; C69_cut: bytes after the end of a PES packet whose length is given are left out; C69_pat and C69_pmt of all valid first tables. Partial: C69_demux_partial and C69_stream_partial keep a last unit without length back (it is lost at the end of the request), and want all units of known PIDs to be valid; C69_clock_partial says the clock is that of the packet that completes a unit. Violations: a unit without length goes with the clock of the next one; the CRC of tables is not checked and the first table stays for ever; the random access indicator of a unit whose end was lost stays for the next; memory for a unit without length has no bound."
 },
 "C70": {
  "note": "C70_pes, C70_units, C70_pat, C70_pmt, C70_roundtrip for everything in range whose last buffer is not empty; C70_ends says that this condition is needed: else ngx_ts_packetize never ends. Violations: C70_endless_violation shows a valid stream for which the reader hands on such a chain, so HLS writing loops and takes memory until there is none; C70_reserved_violation: reserved bits are 0 (the exact reader used here does not look at them); C70_times_violation: a unit without times is written with those of the unit before. Not said: PAT and PMT counters start from 0 in every table, so counters of those PIDs do not go on."
 },
 "C71": {
  "note": "C71_output (files, cuts, sizes, counters, playlist), C71_end, C71_programs, C71_master, C71_masters, C71_bandwidth, C71_names, C71_room, C71_keep, C71_keep_list without conditions on times; C71_total if nsegs and analyze are not 0; C71_sequence if no file has the size limit or times rise; C71_target if units come at most 0.4995 s apart. Violations: C71_wrap_violation and C71_wrap_size_violation (33 bit time starts again: no more segments, or a segment of six million years), C71_zero_violation (segment of no time shifts the sequence numbers), C71_target_violation, C71_tail_violation (last segment with one unit is not listed), C71_first_violation, C71_analyze_violation and C71_segments_violation (division by zero by configuration), C71_pat_violation, C71_silent_violation (no master playlist while a program is silent), C71_timeless_violation, C71_foreign_violation. Not modelled: failures of files and memory, PMT that changes (PAT and PMT of the first segment are kept), rounding of doubles, two streams of one name."
 },
 "C72": {
  "note": "C72_ts_avc is exact in both directions (completeness and soundness of the reader for transport streams), C72_ts_size tells when the size is right (an equivalence), C72_ts_aac, C72_keep, C72_other, C72_sound_safe for all inputs. C72_avc_partial: set in the first buffer, no emulation prevention byte in it, no scaling list, not one of five profiles; the size is right exactly when the crop units are 2. C72_aac_partial: aac_sbr and aac_ps are or-ed to what was set before. Violations: C72_interlaced_violation, C72_444_violation, C72_profile_violation, C72_lists_violation, C72_escape_violation, C72_cut_violation, C72_time_violation (34 bytes keep the process busy for years), C72_shift_violation (undefined shifts), C72_sbr_violation, C72_empty_violation. HEVC headers are a parameter here."
 },
 "C73": {
  "note": "C73_hevc_partial: one buffer, sets in units of at most 4096 bytes with another array behind the last; the size is right exactly when the set has no conformance window and one less in both ways when it has one (stated for all sets). C73_only: for all byte strings. C73_memory_violation is general: for every record that is otherwise right, a set as the last unit makes two bytes behind the message be used, and a unit of more than 4096 bytes writes behind a buffer on the stack. C73_window_violation, C73_length_violation (lengths are believed), C73_shift_violation, C73_cut_violation, C73_rounds_violation (31 bytes cost 131076 reads). C73_refuse: a unit with two zeros and a byte below 3 changes nothing. Missing: headers in several buffers."
 },
 "C74": {
  "note": "C74_serve_partial: plain slicing, fragments as values, frames already in the queue of the session; fragments with fewer frames than out_queue. Durations modulo 2^64 ticks, so exact for any times; C74_fetch: a listed name at any later time; C74_start. Negations: C74_av_violation (with AVC and AAC every cut is forced, for all runs) and C74_av_playlist_violation, C74_stuck_violation (audio first: nothing for ever), C74_aligned_violation (aligned slicing never gives anything), C74_aligned_zero_violation, C74_old_violation (name of a fragment that is gone gives the open one), C74_wrap_violation (length told, nothing sent), C74_jump_violation, C74_back_violation, C74_target_violation, C74_short_violation. Missing: how frames get into the queue (mpegts gop module), fragments that are sent while they are open."
 },
 "C75": {
  "note": "C75_refine_partial, C75_no_leak_partial, C75_memory_partial, C75_response_partial: for orderly runs, by simulation with sessions as values and responses from copies. Negations where steps are not orderly: C75_close_violation (two requests of a session, only the last is known when it is closed: use after free), C75_forget_violation and C75_playlist_violation (any request of the session that ends makes it forget the one going on), C75_fail_violation (header not sent at once: a reference that was not taken is given back, and players of one stream get another one) and C75_twice_violation, C75_queue_violation (object of a shorter queue reused: written beyond its end), C75_open_violation (more is sent than told). Missing: playlists that wait, frames of a fragment as objects of their own (they are freed with it), the session objects."
 },
 "C76": {
  "note": "C76_cache, C76_take, C76_close, C76_decodable, C76_first hold of all runs but those with close on a session that publishes again, with a cache time other than 0 and times below 2^63. C76_safe_partial: missing a session that publishes again after closeStream (C76_again_violation). C76_steady_partial: missing frames that the cache refuses (C76_jam_violation, C76_early_violation) and HLS sessions whose queue was full (C76_restart_violation). C76_hls_partial joins it to C74 (plain settings). C76_jam: a ring that is full stays full for ever. C76_off: with the default cache time nobody gets anything. C76_wrap_violation: times out of order drop a GOP early."
 },
 "C77": {
  "note": "C77_segments, C77_params, C77_units, C77_gapless hold for streams whose units carry what their type says (H.264 byte streams with parameter sets that the decoder of C72 takes, whole ADTS frames, anything else). C77_safe_partial is for any bytes; missing: parameter sets that make the decoder shift too far (C77_crash_violation), and settings that are 0 (C77_analyze_violation, C77_segments_violation). Violations: parameter sets that change, frames of sound over two packets, errors within a unit, times that wrap, the last unit, no sync word."
 },
 "C78": {
  "note": "C78_init is for any representation, C78_picture, C78_sound_partial and C78_other for what runs of the segmenter know. C78_sound is partial: the configuration of the decoder is right, but the sample entry always says 2 channels and a rate of 90000 that is not shifted (C78_rate_violation). Further violations: a sample entry without configuration (C78_unknown_violation), a record without chroma format for high profiles (C78_high_violation), next_track_ID in use (C78_next_violation). Sizes of pictures are modulo 2^16."
 },
 "C79": {
  "note": "C79_player (what a player finds), C79_stays, C79_gapless and C79_appears are for all interleavings. Violations: a stream of the PMT that is silent keeps the playlist of all from appearing (C79_silent_violation, for all runs); times of the stream are taken as times since availabilityStartTime, so that for a clock that does not start at 0 segments are said to be available hours after they are written (C79_offset_violation); H.264 without parameter sets is listed as mp4v.21 (C79_unknown_violation); segments are said to be aligned and are not (C79_aligned_violation). Times that go back (wrap of 33 bits) are C77_wrap_violation. Not modelled: deletion of old segments (:1142-1205), errors of the file system, the text of dates (a parameter)."
 },
 "C80": {
  "note": "C80_safe, C80_prints, C80_reads, C80_clean, C80_length and C80_utf8 are for all values. Violations: strings that are not UTF-8 are copied as they are (C80_utf8_violation); a text of 2 GB is NULL, which the handler passes to strlen (C80_large_violation). realloc never fails in the model; the text of numbers with more than fifteen digits (floating point) is a parameter of at most 25 bytes; parsing of JSON, which nothing uses, is not modelled."
 },
 "C81": {
  "note": "C81_says, C81_answers and C81_adds are for all states. Violations: sessions that watch by HLS or by transport streams over HTTP are in other lists of the stream, so they are never listed and hls_clients and ts_clients are always 0 (C81_missing_violation, for all sequences of sessions that come and go); avsync is unsigned (C81_avsync_violation); strings are cut after 1023 bytes, in the middle of a character (C81_cut_violation). With several publishers the codecs are those of the one that came first, not of the one that is played; texts of frame rates and levels (floating point) and names of codecs are given."
 },
 "C82": {
  "note": "C82_header, C82_exact, C82_safe and C82_whole are for all inputs. Violations: the word PROXY is not looked at as soon as more than eight bytes have arrived (&& for ||), destination and ports may be missing (C82_other_violation); access rules are applied to the copy of the address taken at accept, that of the proxy (C82_access_violation for all runs, C82_denied_violation with rules and a line), and so are logs and statistics (C82_log_violation). ngx_parse_addr and ngx_sock_ntop are parameters; timers and registration of events are not modelled."
 },
 "C83": {
  "note": "C83_answer holds for all workers; C83_says for all whose numbers are in range and whose unescaped texts (versions, fractions, ids of servers) are plain. Violations: the id of a server is not escaped and is the host of the tcUrl of a client unless configured, so a client can make the page ill-formed (C83_serverid_violation); timestamps from 2^31 ms on are negative (C83_timestamp_violation); streams of different applications have the same name (C83_name_violation). Texts of %f and %.1f, ngx_escape_html and ngx_snprintf are modelled from nginx core or given."
 },
 "C84": {
  "note": "The theorems _partial hold for requests that give an application where they give a name, and whose text srv/app/ fits the array of a name. Violations: a name without an application is ignored and everybody on the server is hit (C84_name_violation); a longer application is compared beyond the end of the names (C84_bound_violation); pausing players changes nothing of what they get (C84_subscriber_violation); whoever is redirected leaves the stream and joins no other one, in every reachable state, and is counted (C84_redirect_violation). ngx_http_arg, ngx_atoi and ngx_hash_key are nginx core; what recorders do is not part of this."
 },
 "C85": {
  "note": "C85_reads_partial and C85_player_partial hold for names without quote, < and &, and windows of up to 21000 fragments; the latter also for the streams of C68_player_partial and, without directories for each stream, names that a template or a reference does not take for something else. Violations: names are not escaped (C85_name_violation), names with a slash (C85_slash_violation) or a dollar (C85_dollar_violation), windows that do not fit the buffer of 1 MiB (C85_full_violation, for all lists of at least 34953 fragments), audio is always said to have one channel (C85_channels_violation). The text of dates is a parameter; codecs and contents of initialization segments are C67."
 },
 "C86": {
  "note": "C86_once and C86_landed hold for all runs; C86_numeric: an address written in numbers is given at once. C86_lookup_partial, C86_direct_partial and C86_own_partial need that no name is removed while a question for it is under way; otherwise addresses of one name are given for another (C86_reuse_violation). C86_share says exactly who is given an address when the first answer arrives: with m addresses only one in m, the others are given an empty one (C86_first_violation); C86_single_partial: all of them if there is one address. C86_defined_partial needs addresses of at most 16 bytes; version 6 and Unix paths overrun (C86_long_violation). Who asks for the empty name is never called (C86_empty_violation). Not modelled: callbacks that call the resolver again from within, running out of memory."
 },
 "C87": {
  "note": "C87_once, C87_places and C87_self hold for all runs that are defined; C87_defined_partial: all that delete only numbers below worker_timers (C87_range_violation otherwise). C87_number_partial: the number stands for the job until it expires or is deleted; afterwards it may be another one's (C87_stale_violation). A handler cannot set its timer again when all others are in use, since its own is freed only when it returns (C87_again_violation). Not modelled: times; event fields other than timer_set."
 },
 "C88": {
  "note": "C88_port, C88_only, C88_unix, C88_distinct and C88_apart hold for all texts and slots. C88_all_partial: all slots up to port 65281; from 65282 to 65408 the bound is compared with the sum and the higher slots are refused (C88_limit_violation). C88_defined_partial needs a port that is not among the largest integers (C88_overflow_violation). Not modelled: whether nginx accepts the host when it listens or connects."
 },
 "C89": {
  "note": "C89_worker holds for all configurations. C89_rejected is about the first refused configuration after any accepted ones. C89_sessions_partial and C89_kept_partial need that no configuration was refused before (C89_stale_violation, C89_twice_violation) and that every session could be made (C89_null_violation). Not modelled: connecting and its times, the lifetime of the memory of an old configuration, exhausted memory."
 },
 "C90": {
  "note": "C90_all and C90_plain hold for all answers. C90_list_partial: single bytes as configured texts (C90_length_violation shows what happens with others), and at least one item (C90_empty_violation). C90_middle_violation: answers that do not begin with the text may be altered in the middle. C90_inherit_violation: an inner location inherits only half of the directive. Not modelled: headers, the subrequests, chains of several buffers in one call. No wrong programs were tried against this claim."
 }
}