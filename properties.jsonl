{"id": "C01", "title": "Per-object output buffer is a bounded FIFO that keeps the newest data", "statement": "Whatever sequence of writes (each shorter than the buffer) and partial flushes an object's output buffer goes through, the bytes still waiting are exactly the most recent bytes accepted and not yet sent, in order, at most 16383 of them; each flush to the descriptor hands over a prefix of exactly those waiting bytes.", "quantifier": "every sequence of write_obj_data / write_to_obj calls, every data content and length below OBJ_BUF_SIZE, every short-write count returned by writev", "why_tests_cant": "wrap-around, overwrite and partial-drain positions combine into unboundedly many pointer configurations; tests only sample a few", "anchors": ["src/server-obj.c:write_obj_data", "src/server-obj.c:write_to_obj", "src/server-obj.c:num_bytes_buffered", "src/common.h:OBJ_BUF_SIZE"]}
{"id": "C02", "title": "No byte lost, duplicated or reordered while the buffer does not overflow", "statement": "If the backlog of an object never exceeds 16383 bytes, the bytes sent to its descriptor followed by the bytes still buffered are exactly the concatenation of everything accepted, in order.", "quantifier": "every history of writes and flushes in which no write exceeds the free space", "why_tests_cant": "requires all histories and all short-write schedules", "anchors": ["src/server-obj.c:write_obj_data", "src/server-obj.c:write_to_obj"]}
{"id": "C03", "title": "Output buffer pointers and copies never leave the buffer", "statement": "Every copy into and every iovec read from an object's buffer lies inside the buffer, and both pointers are inside the buffer after every operation.", "quantifier": "every sequence of writes, flushes, shutdowns of an object", "why_tests_cant": "a one-byte overrun occurs only at particular pointer alignments", "anchors": ["src/server-obj.c:write_obj_data", "src/server-obj.c:write_to_obj", "src/server-obj.c:shutdown_obj"]}
{"id": "C04", "title": "Log replay shows the most recent log output", "statement": "A log replay request sends the client, between the begin and end messages, exactly the most recent min(4096, available) bytes written to the console's log since it was opened, in order, and nothing else.", "quantifier": "every write history of the log object, every console name length, every wrap position", "why_tests_cant": "the replay window is assembled backwards across the wrap point; its correctness depends on the whole write history", "anchors": ["src/server-esc.c:perform_log_replay", "src/common.h:LOG_REPLAY_LEN"]}
{"id": "C05", "title": "An object that reached EOF takes no more data and is closed only once drained", "statement": "Once an object is marked end-of-file no later write changes its pending data; it is shut down by the flush that sends its last pending byte (or at once when nothing is pending), and not before unless a descriptor error occurs.", "quantifier": "every history of reads, writes and flushes after EOF", "why_tests_cant": "depends on interleaving of EOF with partially flushed data", "anchors": ["src/server-obj.c:read_from_obj", "src/server-obj.c:write_obj_data", "src/server-obj.c:write_to_obj", "src/server-obj.c:shutdown_obj"]}
{"id": "C06", "title": "Console output reaches every attached reader exactly once and nobody else", "statement": "Data read from an object is appended, once, to the pending data of each object linked as its reader, in order; objects not linked are unaffected.", "quantifier": "every link graph, every datum, every number of readers", "why_tests_cant": "needs all link graphs and buffer states", "anchors": ["src/server-obj.c:read_from_obj"]}
{"id": "C07", "title": "Escape protocol transparency between client and server", "statement": "For every keystroke stream, the data bytes the server forwards to the console are exactly the bytes the user typed outside of client escape sequences (including bytes equal to the protocol escape 0xFF), in order, and the server acts on exactly the escape commands the client transmitted.", "quantifier": "every keystroke byte stream, every chunking of the socket stream, every client session state", "why_tests_cant": "escape state is carried across read boundaries; all byte values and splits matter", "anchors": ["src/client-tty.c:read_from_stdin", "src/client-tty.c:send_esc_seq", "src/server-esc.c:process_client_escapes"]}
{"id": "C08", "title": "Server escape processing does not depend on how the stream is split", "statement": "Feeding a client byte stream to the server in any split into reads yields the same forwarded bytes and the same sequence of escape actions as feeding it in one piece, and never enlarges the data.", "quantifier": "every byte stream and every partition of it into reads", "why_tests_cant": "exponentially many partitions", "anchors": ["src/server-esc.c:process_client_escapes"]}
{"id": "C09", "title": "Reader/writer links are always symmetric and duplicate-free", "statement": "At every moment, A lists B as a reader exactly when B lists A as a writer, each at most once.", "quantifier": "every history of connect, monitor, broadcast, join, force, escape and disconnect operations over any number of clients and consoles", "why_tests_cant": "invariant over unbounded histories with nested unlink during iteration", "anchors": ["src/server-obj.c:link_objs", "src/server-obj.c:unlink_objs", "src/server-obj.c:unlink_obj", "src/server-obj.c:validate_obj_links"]}
{"id": "C10", "title": "Forced connect takes the console away from all previous writers", "statement": "After a client connects to a console with force, it is the only client able to write to that console; every previous writer has lost all of its links, is marked EOF, and was told who took the console unless it asked for quiet.", "quantifier": "every prior link graph with any number of writers", "why_tests_cant": "writers are removed while the writer list is being iterated; any number and order of writers", "anchors": ["src/server-obj.c:link_objs", "src/server-obj.c:unlink_obj", "src/list.c:list_node_destroy"]}
{"id": "C11", "title": "Exclusive write access without join or force", "statement": "A client that asks for neither join nor force never obtains write access to a console that already has a writer.", "quantifier": "every history of requests and in-session escape commands, every interleaving of client-handling threads", "why_tests_cant": "check and link happen at different times; needs all schedules", "anchors": ["src/server-sock.c:check_busy_consoles", "src/server-sock.c:perform_connect", "src/server-esc.c:perform_console_writer_linkage"]}
{"id": "C12", "title": "Monitoring clients cannot write to the console", "statement": "Bytes sent by a client whose session is read-only are never delivered to any console.", "quantifier": "every byte stream of a read-only client and every link graph", "why_tests_cant": "negative property over all inputs", "anchors": ["src/server-obj.c:read_from_obj", "src/server-sock.c:perform_monitor", "src/server-esc.c:process_client_escapes"]}
{"id": "C13", "title": "Client and server agree on the session mode", "statement": "For every sequence of user escape commands typed at the client, the client's idea of being in read-write or read-only mode equals the server's link state for that client as long as the session is not taken away.", "quantifier": "every sequence of escape commands and data", "why_tests_cant": "two state machines toggled by independent gating conditions; needs all sequences", "anchors": ["src/client-tty.c:perform_join_esc", "src/client-tty.c:perform_monitor_esc", "src/client-tty.c:perform_force_esc", "src/server-esc.c:perform_console_writer_linkage"]}
{"id": "C14", "title": "Lexer consumes every input without leaving the buffer", "statement": "On every NUL-terminated input the lexer returns a finite token stream ending in EOF; each call but the last makes progress, and no call reads past the terminator.", "quantifier": "every input string, every token table", "why_tests_cant": "quadratic state/byte combinations, e.g. quotes and continuations at the end of the buffer", "anchors": ["src/lex.c:lex_next"]}
{"id": "C15", "title": "Lexer line numbers are right", "statement": "The line number reported with each token equals one plus the number of newline sequences before the token's start.", "quantifier": "every input string", "why_tests_cant": "line counting is deferred across EOL and backslash continuations", "anchors": ["src/lex.c:lex_next", "src/lex.c:lex_line"]}
{"id": "C16", "title": "Lexical encoding of strings round-trips through a quoted string", "statement": "For every 7-bit string of up to 1023 characters without line breaks, encoding it, placing it in double quotes in a message, lexing the message and decoding yields the original string, and the quoting cannot be broken out of.", "quantifier": "every 7-bit string without CR/LF, every context", "why_tests_cant": "must hold for all strings incl. quotes and escapes", "anchors": ["src/lex.c:lex_encode", "src/lex.c:lex_decode", "src/lex.c:lex_next"]}
{"id": "C17", "title": "Keyword lookup is exact", "statement": "An identifier is classified as keyword k exactly when it equals keyword k ignoring ASCII case, for every identifier and every sorted keyword table; all keyword tables used by the programs are sorted.", "quantifier": "every identifier, every sorted table", "why_tests_cant": "binary search boundary errors only show for particular table sizes/positions", "anchors": ["src/lex.c:lookup_token", "src/lex.c:validate_sorted_tokens", "src/common.c:proto_strs", "src/server-conf.c:server_conf_strs"]}
{"id": "C18", "title": "Request messages round-trip from client to server", "statement": "Every request the client can send (user, tty, command, options, console list) is reconstructed by the server with the same content.", "quantifier": "every user, tty, option combination and list of console names within the line limit and alphabet", "why_tests_cant": "all field contents, list lengths and option combinations", "anchors": ["src/client-sock.c:send_greeting", "src/client-sock.c:send_req", "src/server-sock.c:recv_greeting", "src/server-sock.c:recv_req", "src/server-sock.c:parse_cmd_opts"]}
{"id": "C19", "title": "Response messages round-trip from server to client", "statement": "Every OK/ERROR response the server sends is reconstructed by the client with the same console list, options, error code and message.", "quantifier": "every response content", "why_tests_cant": "all contents and list lengths", "anchors": ["src/server-sock.c:send_rsp", "src/client-sock.c:recv_rsp", "src/client-sock.c:parse_rsp_ok", "src/client-sock.c:parse_rsp_err"]}
{"id": "C20", "title": "Bounded string building reports truncation reliably", "statement": "Building a message piece by piece in a fixed buffer never writes beyond the buffer, always leaves it terminated, and reports failure exactly when the full text did not fit; once truncated it stays truncated.", "quantifier": "every buffer size, prior content and appended text", "why_tests_cant": "off-by-one at the exact fit length", "anchors": ["src/util-str.c:append_format_string"]}
{"id": "C21", "title": "Template substitution is correct and bounded", "statement": "Replacing a marker character in a template yields the template with every occurrence replaced, or a failure when the result does not fit; the output is always terminated inside the buffer.", "quantifier": "every template, replacement, marker and buffer size", "why_tests_cant": "boundary fits", "anchors": ["src/util-str.c:substitute_string"]}
{"id": "C22", "title": "Quoted word splitting", "statement": "Splitting a command string into words yields the words separated by blanks, with quoted words kept intact, and an unterminated quote is rejected.", "quantifier": "every string", "why_tests_cant": "quotes/blank combinations", "anchors": ["src/util-str.c:parse_string"]}
{"id": "C23", "title": "Bounded string copy and concatenation", "statement": "Copy and concatenation never write more than the given size, always terminate when the size is positive, hold the longest prefix that fits, and return the length that would have been needed so truncation is detectable.", "quantifier": "every source, destination and size", "why_tests_cant": "all sizes incl. 0 and exact fit", "anchors": ["portable/strlcpy.c", "portable/strlcat.c"]}
{"id": "C24", "title": "Directory part of a path", "statement": "The directory name computed for a path equals the POSIX dirname up to the documented handling of slashes, and fails exactly when the buffer is too small.", "quantifier": "every path and buffer size", "why_tests_cant": "all combinations of repeated and trailing slashes", "anchors": ["src/util-file.c:get_dir_name"]}
{"id": "C25", "title": "Full reads and writes under interruptions", "statement": "Reading or writing n bytes transfers exactly the stream's next bytes in order despite interruptions and short transfers, stopping early only at end-of-file or error.", "quantifier": "every data, every schedule of short transfers, EINTR and errors", "why_tests_cant": "schedules are unbounded", "anchors": ["src/util-file.c:read_n", "src/util-file.c:write_n"]}
{"id": "C26", "title": "Line reads return exactly one line", "statement": "Reading a line returns the bytes of the stream through the first newline, the buffer limit or the end of the stream, whichever comes first, stored with a terminator; what lies beyond the limit stays for the next read; result 0 means end of the stream; nothing is stored outside the buffer.", "quantifier": "every stream content, buffer size and interruption schedule", "why_tests_cant": "boundary lengths and schedules", "anchors": ["src/util-file.c:read_line"]}
{"id": "C27", "title": "Elapsed time text denotes the elapsed time", "statement": "The elapsed-time text shown for a busy console, read back, denotes the number of seconds elapsed, in canonical mixed-radix form.", "quantifier": "every pair of start/current times", "why_tests_cant": "carry boundaries at 60 s, 60 min, 24 h, 7 d, 52 w", "anchors": ["src/util-str.c:create_time_delta_string"]}
{"id": "C28", "title": "List iterators survive modification", "statement": "While a list is modified through any of its operations, an existing iterator still visits, in list order, every item that stays in the list after its position exactly once, and never a removed one; remove and insert through an iterator affect the item last returned.", "quantifier": "every list, every number of iterators, every sequence of operations", "why_tests_cant": "iterator fix-ups on node creation/deletion interact; need all interleavings of operations", "anchors": ["src/list.c:list_next", "src/list.c:list_insert", "src/list.c:list_remove", "src/list.c:list_node_create", "src/list.c:list_node_destroy"]}
{"id": "C29", "title": "List behaves as a sequence; push/pop is a stack, enqueue/dequeue a queue", "statement": "Append, prepend, push, pop, peek, enqueue, dequeue, find, delete-all and count behave as on a mathematical sequence.", "quantifier": "every sequence of operations", "why_tests_cant": "tail pointer maintenance depends on history", "anchors": ["src/list.c:list_append", "src/list.c:list_prepend", "src/list.c:list_delete_all", "src/list.c:list_node_create", "src/list.c:list_node_destroy"]}
{"id": "C30", "title": "List sort is a stable sort", "statement": "Sorting a list yields a permutation in ascending order, with equal items in their original order, for every comparison that is a total preorder.", "quantifier": "every list, every total preorder", "why_tests_cant": "all inputs", "anchors": ["src/list.c:list_sort"]}
{"id": "C31", "title": "Console names sort consistently in natural numeric order", "statement": "The ordering used to list consoles is a consistent order in which names differing only in a trailing number sort numerically.", "quantifier": "every set of console names", "why_tests_cant": "consistency (transitivity) quantifies over triples of names", "anchors": ["src/server-obj.c:compare_objs", "src/server-obj.c:find_trailing_int_str", "src/list.c:list_sort"]}
{"id": "C32", "title": "Poll interest table reflects set/clear history", "statement": "After any sequence of set and clear calls, the events polled for a descriptor are exactly those set and not cleared since; other descriptors are unaffected; the table grows without losing interests.", "quantifier": "every sequence of set/clear/zero with any descriptor numbers", "why_tests_cant": "growth and max-descriptor shrinking depend on history", "anchors": ["src/tpoll.c:tpoll_set", "src/tpoll.c:tpoll_clear", "src/tpoll.c:tpoll_is_set", "src/tpoll.c:tpoll_zero", "src/tpoll.c:_tpoll_grow"]}
{"id": "C33", "title": "Timers fire in deadline order, first-in-first-out, each at most once, never early, never after cancel", "statement": "For every schedule of timer creations, cancellations and polls, due timers are dispatched in non-decreasing deadline order (ties in creation order), each exactly once if not cancelled, none before its deadline, none after being cancelled.", "quantifier": "every history incl. callbacks that create or cancel timers", "why_tests_cant": "re-entrant histories", "anchors": ["src/tpoll.c:tpoll_timeout_absolute", "src/tpoll.c:tpoll_timeout_cancel", "src/tpoll.c:tpoll"]}
{"id": "C34", "title": "Poll timeout never oversleeps a timer and does not spin", "statement": "The poll wait computed for the next timer is at least the remaining time and exceeds it by less than one millisecond, for every pair of times.", "quantifier": "every current time and deadline", "why_tests_cant": "rounding and carry over microseconds for all values", "anchors": ["src/tpoll.c:_tpoll_diff_timeval", "src/tpoll.c:_tpoll_get_timeval", "src/tpoll.c:tpoll"]}
{"id": "C35", "title": "Telnet stream decoding", "statement": "Application data received from a telnet console is exactly the stream with all telnet commands removed and doubled 0xFF undone, independent of how the stream is split.", "quantifier": "every byte stream and split", "why_tests_cant": "state across reads; all byte values", "anchors": ["src/server-telnet.c:process_telnet_escapes"]}
{"id": "C36", "title": "Telnet negotiation cannot loop and refuses unknown options", "statement": "Every DO/WILL for an unsupported option is refused exactly once; WONT/DONT are never answered; hence two such endpoints never exchange option replies forever.", "quantifier": "every received command stream", "why_tests_cant": "negotiation loops are infinite behaviours", "anchors": ["src/server-telnet.c:process_telnet_cmd", "src/server-telnet.c:send_telnet_cmd"]}
{"id": "C37", "title": "Reconnect delay stays within its bounds and grows monotonically", "statement": "For every history of failures and successes the delay before each reconnect attempt lies between the documented minimum and maximum, doubles up to the maximum while failures continue, and returns to the minimum after a stable connection.", "quantifier": "every history of connect/disconnect/reset events", "why_tests_cant": "unbounded histories", "anchors": ["src/server-telnet.c:disconnect_telnet_obj", "src/server-process.c:open_process_obj", "src/server-unixsock.c:disconnect_unixsock_obj", "src/server-ipmi.c:disconnect_ipmi_obj"]}
{"id": "C38", "title": "Sanitised logs contain only printable text", "statement": "A sanitised console log never contains control or 8-bit bytes other than CR LF line ends, and each original byte is recoverable from its rendering except for line-end normalisation.", "quantifier": "every console byte stream and split", "why_tests_cant": "all byte values and states", "anchors": ["src/server-logfile.c:write_log_data"]}
{"id": "C39", "title": "Log line structure", "statement": "In a processed log every line end is CR LF, each line begins with exactly one timestamp when timestamping is enabled, and text content is preserved, independent of how the console stream is split into reads.", "quantifier": "every console byte stream and split", "why_tests_cant": "line state is carried across reads", "anchors": ["src/server-logfile.c:write_log_data"]}
{"id": "C40", "title": "Log processing never overruns its scratch buffer", "statement": "Processing any console data for the log writes only inside the scratch buffer.", "quantifier": "every data length, content, state and option combination", "why_tests_cant": "expansion ratio depends on content", "anchors": ["src/server-logfile.c:write_log_data"]}
{"id": "C41", "title": "Conversion specifier expansion is bounded", "statement": "Expanding a format with conversion specifiers never writes outside the destination or reads outside the format, terminates the result and reports failure exactly when the result does not fit.", "quantifier": "every format, object and buffer size", "why_tests_cant": "a specifier at the end or an expansion that exactly fits", "anchors": ["src/server-obj.c:format_obj_string"]}
{"id": "C42", "title": "Console and device names expanded into file names cannot introduce path components", "statement": "Text substituted for a console name or device in a log file name contains only graphic characters and no slash.", "quantifier": "every console name and device string", "why_tests_cant": "all byte values", "anchors": ["src/server-obj.c:sanitize_file_string", "src/server-obj.c:format_obj_string"]}
{"id": "C43", "title": "Serial speed rounding", "statement": "The serial speed selected is the largest supported speed not above the requested one; a request below the lowest supported speed is refused and changes nothing.", "quantifier": "every requested speed", "why_tests_cant": "all integers", "anchors": ["src/server-serial.c:int_to_bps"]}
{"id": "C44", "title": "Option strings are accepted or rejected as a whole", "statement": "Parsing device/log option strings either accepts and applies all options as written or rejects without changing the current settings.", "quantifier": "every option string", "why_tests_cant": "all strings", "anchors": ["src/server-logfile.c:parse_logfile_opts", "src/server-serial.c:parse_serial_opts", "src/server-test.c:parse_test_opts", "src/server-ipmi.c:parse_ipmi_opts"]}
{"id": "C45", "title": "IPMI key parsing", "statement": "A K_g key given in hexadecimal or as text is decoded to the intended bytes, never exceeding the maximum length, and anything else is rejected.", "quantifier": "every key string", "why_tests_cant": "all strings and lengths", "anchors": ["src/server-ipmi.c:parse_key"]}
{"id": "C46", "title": "Test console output is the configured pattern", "statement": "A test console emits the fixed cyclic printable pattern in bursts whose sizes and intervals lie in the configured range, with no byte skipped or repeated between bursts.", "quantifier": "every configuration and number of bursts", "why_tests_cant": "unbounded runs", "anchors": ["src/server-test.c:read_test_obj"]}
{"id": "C47", "title": "Command execution environment is whitelisted", "statement": "The environment the daemon keeps contains only the whitelisted variables, with their original values.", "quantifier": "every environment", "why_tests_cant": "all environments", "anchors": ["src/server.c:get_sane_env"]}
{"id": "C48", "title": "Request validation decides as documented", "statement": "A request is refused with the documented error when it matches no console, matches more than one console without broadcast or query, or needs a busy console without join or force; otherwise it is granted.", "quantifier": "every request, console set and link graph", "why_tests_cant": "all combinations", "anchors": ["src/server-sock.c:validate_req", "src/server-sock.c:check_too_many_consoles", "src/server-sock.c:check_busy_consoles"]}
{"id": "C49", "title": "Informational messages are bounded and line-terminated", "statement": "Every notification sent to clients and logs fits its buffer and ends in the message suffix (at least CR LF) even when truncated, and is delivered once to each attached object not in quiet mode.", "quantifier": "every message text and link graph", "why_tests_cant": "truncation boundary", "anchors": ["src/server-obj.c:write_notify_msg", "src/server-obj.c:notify_console_objs", "src/server-obj.c:link_objs"]}
{"id": "C50", "title": "Quiet clients receive no informational messages and lose no data", "statement": "While quiet mode is on no informational message is added to the client's pending data, and console data is delivered as without quiet mode.", "quantifier": "every interleaving of data, messages and toggles", "why_tests_cant": "all interleavings", "anchors": ["src/server-obj.c:write_obj_data", "src/server-esc.c:perform_quiet_toggle"]}
{"id": "C51", "title": "Suspended client output", "statement": "While a client is suspended its descriptor is not polled for writing; after resume pending data is flushed in order; only data exceeding the buffer is lost, oldest first.", "quantifier": "every interleaving of suspend/resume, data and flushes", "why_tests_cant": "all interleavings", "anchors": ["src/server-esc.c:perform_suspend", "src/server-obj.c:write_obj_data", "src/server.c:mux_io"]}
{"id": "C52", "title": "At most one reset command per console", "statement": "At any time at most one reset command runs per console, and each is terminated when its time limit passes.", "quantifier": "every history of reset requests, child exits and timer expirations", "why_tests_cant": "histories", "anchors": ["src/server-esc.c:perform_reset", "src/server-esc.c:kill_reset_cmd"]}
{"id": "C53", "title": "Periodic log timestamps are aligned and never stop", "statement": "Each periodic timestamp is scheduled strictly in the future and at most one interval away, aligned to the interval when the interval divides the containing unit.", "quantifier": "every current time and interval", "why_tests_cant": "all times", "anchors": ["src/server.c:schedule_timestamp", "src/server.c:timestamp_logfiles"]}
{"id": "C54", "title": "Configuration lines are independent", "statement": "A server directive on one line has its effect irrespective of other lines, a malformed line is reported and skipped without affecting the lines after it, and command-line settings take precedence over the file only.", "quantifier": "every configuration text", "why_tests_cant": "all texts", "anchors": ["src/server-conf.c:process_config", "src/server-conf.c:parse_server_directive"]}
{"id": "C55", "title": "Host entry copy fits its buffer", "statement": "Copying a resolver result into a caller buffer never writes outside the buffer and yields the same names and addresses, or fails with a range error.", "quantifier": "every resolver result and buffer size", "why_tests_cant": "alignment and size boundaries", "anchors": ["src/util-net.c:copy_hostent"]}
{"id": "C56", "title": "Error responses carry the right error", "statement": "The error number transmitted for a refused request is received by the client with the same number and message text.", "quantifier": "every error and message", "why_tests_cant": "all texts", "anchors": ["src/server-sock.c:send_rsp", "src/client-sock.c:parse_rsp_err"]}
{"id": "C57", "title": "Telnet device strings", "statement": "A device string is taken as telnet exactly when it has the form host:port documented, with the host and port as written; the connection is made to that port.", "quantifier": "every device string", "why_tests_cant": "all strings", "anchors": ["src/server-telnet.c:is_telnet_dev"]}
{"id": "C58", "title": "Syslog facility and priority names", "statement": "A syslog facility or priority name in the configuration is accepted exactly when it is a known name, ignoring case and leading white space, and yields the value of that name.", "quantifier": "every string", "why_tests_cant": "all strings", "anchors": ["src/server-conf.c:lookup_syslog_priority"]}
{"id": "C59", "title": "File watch bookkeeping", "statement": "Every registered path is watched through its parent directory as long as at least one path in that directory is registered, and an event is dispatched to exactly the callback registered for that path.", "quantifier": "every sequence of add/remove/event", "why_tests_cant": "histories", "anchors": ["src/inevent.c:inevent_add", "src/inevent.c:inevent_remove", "src/inevent.c:inevent_process"]}
{"id": "C60", "title": "Commands take effect at their position in the typed stream", "statement": "A break, delete, reset or mode command typed between two pieces of text takes effect after the text typed before it and before the text typed after it, however the network delivers the stream.", "quantifier": "every keystroke stream and every split of it into reads", "why_tests_cant": "whether a command and text share a read depends on timing; all splits must be considered", "anchors": ["src/server-obj.c: read_from_obj", "src/server-esc.c: process_client_escapes"]}
{"id": "C61", "title": "A disconnected console is always retried", "statement": "Once opened, a telnet, process, unix socket or IPMI console that is not connected has a connect attempt under way or scheduled, after every history of failures, disconnects, timer expirations, client connects and file-system events; it never waits longer than half an hour. A client that connects to such a console makes the daemon try at once, and leaves a connection alone that there is.", "quantifier": "every history of events and results of connect attempts", "why_tests_cant": "the histories are unbounded and the failing interleavings rare", "anchors": ["src/server-telnet.c: connect_telnet_obj, disconnect_telnet_obj", "src/server-process.c: open_process_obj", "src/server-unixsock.c: connect_unixsock_obj", "src/server-ipmi.c: connect_ipmi_obj", "src/server-sock.c: check_console_state"]}
{"id": "C62", "title": "No client input can crash the daemon", "statement": "Whatever bytes connected clients send, in whatever order relative to the other events, the daemon does not dereference a missing object.", "quantifier": "every history of requests, keystrokes, disconnects, console output and timers", "why_tests_cant": "only particular interleavings (a session taken over while its owner is typing) reach the failing state", "anchors": ["src/server-esc.c: perform_console_writer_linkage", "src/server-obj.c: unlink_obj, read_from_obj"]}
{"id": "C63", "title": "Links only join existing objects of matching kinds", "statement": "Every link joins two existing objects, from a client to a console or from a console to a client or its log; an object that is gone has no links and occurs in no list.", "quantifier": "every reachable state of the daemon", "why_tests_cant": "a dangling link would only be followed under a rare interleaving", "anchors": ["src/server-obj.c: link_objs, unlink_objs, shutdown_obj, destroy_obj"]}
{"id": "C64", "title": "A request selects exactly the consoles matching one of its patterns", "statement": "The consoles a request refers to are exactly the configured consoles whose name matches at least one of its patterns, each once.", "quantifier": "every list of consoles, every list of patterns and every matching relation", "why_tests_cant": "the pattern and console lists are unbounded and patterns overlap", "anchors": ["src/server-sock.c: query_consoles, query_consoles_via_globbing, query_consoles_via_regex"]}
{"id": "C65", "title": "A session delivers the console's output faithfully end to end", "statement": "For a client that stays attached to one console with messages off and whose backlog never overflows, the bytes sent to it followed by the bytes still pending are its initially pending bytes followed by everything read from the console since, in order.", "quantifier": "every history during which the client stays attached", "why_tests_cant": "all interleavings of the two streams with every other event", "anchors": ["src/server-obj.c: read_from_obj, write_obj_data, write_to_obj", "src/server.c: mux_io"]}
{"id": "C66", "title": "Missing directories are created from the top down", "statement": "Creating the directory of a log file asks for exactly the directories on the way to it and itself, each once, parents before children, whatever slashes the name has, and stops at the first that can be neither made nor found.", "quantifier": "every directory name, every behaviour of the file system", "why_tests_cant": "all combinations of repeated and trailing slashes and failures", "anchors": ["src/util-file.c:create_dirs"]}
{"id": "C67", "title": "Message parsers survive every input", "statement": "Whatever bytes a peer sends as a greeting, request or response, parsing them comes to an end without reading outside the receive buffer, and every console name taken from a request is 7-bit and at most 1023 bytes long.", "quantifier": "every NUL-terminated buffer contents", "why_tests_cant": "the input is chosen by the peer and unbounded in structure", "anchors": ["src/server-sock.c:recv_greeting", "src/server-sock.c:parse_greeting", "src/server-sock.c:recv_req", "src/server-sock.c:parse_cmd_opts", "src/client-sock.c:recv_rsp", "src/client-sock.c:parse_rsp_ok", "src/client-sock.c:parse_rsp_err"]}
{"id": "C68", "title": "Session commands act on the session's own consoles, in the manner of their type", "statement": "A break, delete, quiet or reset command typed by a client acts exactly once on each console that client writes to (a break as bytes for programs and connected telnet consoles, as a line break for serial and IPMI consoles) or on that client's own mode, and on no other object; a reset starts the configured program only if none is running.", "quantifier": "every reachable daemon state, every client, every console type", "why_tests_cant": "must hold in every state of links, connections and running resets", "anchors": ["src/server-esc.c:perform_serial_break", "src/server-esc.c:perform_del_char_seq", "src/server-esc.c:perform_quiet_toggle", "src/server-esc.c:perform_reset"]}
{"id": "C69", "title": "No two consoles log to the same file", "statement": "Of the log files accepted by the configuration no two are opened by the same name, so that output of different consoles is never mixed in one file.", "quantifier": "every list of consoles with log file names", "why_tests_cant": "every combination of names with and without conversion specifiers", "anchors": ["src/server-logfile.c:create_logfile_obj", "src/server-logfile.c:open_logfile_obj"]}
{"id": "C70", "title": "Device strings have one meaning", "statement": "The kind of a console is decided by the documented order of forms: unix:path, host:port, a character device, an executable file (looked up in the configured path if its name has no slash, the first directory that has it wins), ipmi:host, test:; anything else is refused. Relative names are relative to the directory the daemon was started in.", "quantifier": "every device string, working directory, search path and file system", "why_tests_cant": "all strings and file systems", "anchors": ["src/server-conf.c:process_console", "src/server-process.c:is_process_dev", "src/server-process.c:search_exec_path", "src/server-unixsock.c:is_unixsock_dev", "src/server-ipmi.c:is_ipmi_dev", "src/server-test.c:is_test_dev", "src/server-serial.c:is_serial_dev"]}
{"id": "C71", "title": "Console and global directives do what is written", "statement": "A CONSOLE line adds exactly the console it describes: its name, the device its dev string stands for, its options (those written on the line, the global ones of lines before it otherwise) and its log file (its own, the global one with %N or %D otherwise, none if blank). A line whose name or device is taken, missing or meaningless adds nothing and is reported once; a line that goes wrong later never leaves a half-configured console with a log file. Names of consoles are unique, and so are serial devices, sockets and BMCs. A GLOBAL line changes exactly the defaults written in it.", "quantifier": "every configuration text, every line, every file system and every set of earlier consoles", "why_tests_cant": "all texts and combinations of options, defaults and earlier consoles", "anchors": ["src/server-conf.c:parse_console_directive", "src/server-conf.c:process_console", "src/server-conf.c:parse_global_directive", "src/server-logfile.c:create_logfile_obj", "src/server-serial.c:create_serial_obj", "src/server-unixsock.c:create_unixsock_obj"]}
{"id": "C72", "title": "One daemon per configuration", "statement": "At no time do two daemons run with the same configuration file, whatever processes are started, killed or stopped and however the steps of their start-up interleave; and a daemon starts if nobody else has the file locked.", "quantifier": "every history of processes being started, making a step of their start-up, being killed at any point, being stopped, and of other programs locking files", "why_tests_cant": "all interleavings of start-up steps and all crash points of any number of processes", "anchors": ["src/server-conf.c:process_config", "src/util-file.c:get_read_lock", "src/util-file.c:is_write_lock_blocked"]}
{"id": "C73", "title": "Control commands reach the running daemon", "statement": "conmand -k, -r and -q act on the process that runs with the configuration and on no other. The pid file holds the id of the running daemon from the end of its start-up until it stops.", "quantifier": "every history of daemons as in C72, every point of time", "why_tests_cant": "all interleavings and crash points", "anchors": ["src/server-conf.c:signal_daemon", "src/server-conf.c:read_pidfile", "src/server-conf.c:write_pidfile", "src/server-conf.c:destroy_server_conf"]}
{"id": "C74", "title": "Open logs stay locked", "statement": "From the time a log is opened until it is closed no other process can get a lock of it: console logs with the lock option, and the log of the daemon, also after they are reopened by SIGHUP.", "quantifier": "every sequence of openings and reopenings, with every choice of the files the names stand for at that time, and of other processes locking files", "why_tests_cant": "all histories; locks of the process are lost when any descriptor of the file is closed", "anchors": ["src/server-logfile.c:open_logfile_obj", "src/server.c:open_daemon_logfile", "src/util-file.c:get_write_lock"]}
{"id": "C75", "title": "Signals are acted upon", "statement": "SIGTERM and SIGINT end the daemon, and SIGHUP reopens every log after the signal was sent, at whatever point of the main loop the signal comes.", "quantifier": "every sequence of steps of the main loop, signals and descriptors getting ready, any number of logs", "why_tests_cant": "signals between any two steps of the loop; all schedules", "anchors": ["src/server.c:mux_io", "src/server.c:sig_hup_handler", "src/server.c:exit_handler", "src/server.c:reopen_logfiles"]}
{"id": "C76", "title": "Every object that is ready is served in each round", "statement": "In each round of the main loop every console, log and client of which poll has reported something is served, once, in the order of the list; none can be kept from it by others that are busy.", "quantifier": "every list of objects, every result of poll, every behaviour of the functions that serve an object (provided they make no other descriptor ready)", "why_tests_cant": "all numbers of objects and combinations of readiness", "anchors": ["src/server.c:mux_io", "src/tpoll.c:tpoll_is_set", "src/tpoll.c:tpoll"]}
{"id": "C77", "title": "Clients that connect cannot stop the daemon", "statement": "Whatever clients connect and hang up, in any number, the daemon goes on.", "quantifier": "every sequence of results of accept, every limit of descriptors and every sequence of connections", "why_tests_cant": "every limit and every history of connections", "anchors": ["src/server.c:accept_client", "src/server-sock.c:process_client", "src/server-sock.c:recv_greeting"]}
{"id": "C78", "title": "The command that starts the daemon says whether it runs", "statement": "The command that starts the daemon in the background returns 0 only if the daemon runs; otherwise it returns 1 and shows on the terminal why the daemon gave up, wherever the daemon already logs to.", "quantifier": "every part of the start that can fail, every message, every destination of the log, every death of one of the processes", "why_tests_cant": "three processes and a pipe; every point of failure and every message has to be covered", "anchors": ["src/server.c:main", "src/server.c:begin_daemonize", "src/server.c:end_daemonize", "src/server.c:setup_nofile_limit", "src/log.c:log_err"]}
{"id": "C79", "title": "Messages of the daemon: complete, bounded, one line each", "statement": "Each message of the daemon that is important enough is written to its log as one line with time and priority, in order, cut only if longer than a line may be, and without touching memory outside the array.", "quantifier": "every message, every priority and level, every contents of the array, every history of messages and failing writes", "why_tests_cant": "every length of text and error at the boundary of the array; every history", "anchors": ["src/log.c:log_aux", "src/log.c:log_msg", "src/log.c:log_prefix", "src/log.c:log_set_file", "src/server-sock.c:perform_query_cmd", "src/server-esc.c:process_client_escapes"]}
{"id": "C80", "title": "The client asks for what its command line and environment say", "statement": "The client takes its command line as documented (joined options, arguments attached or separate, operands anywhere, `--`), the last of contradictory options counts, options win over the environment and that over defaults, and the daemon receives exactly this request; anything else is refused.", "quantifier": "every command line, environment and set of files of names", "why_tests_cant": "all sequences of words, options and files", "anchors": ["src/client-conf.c:process_client_cmd_line", "src/client-conf.c:process_client_env_vars", "src/client-conf.c:read_consoles_from_file", "src/client-sock.c:connect_to_server"]}
{"id": "C81", "title": "The client leaves the terminal as it found it and passes on every key", "statement": "While connected, every byte typed reaches the client unchanged and at once, and output is shown unchanged; when the client ends or is suspended the terminal has the modes it had when the client was started; echo is on exactly if the client says so.", "quantifier": "every terminal (all values of its modes), every history of keys, data, signals, suspensions and failing calls", "why_tests_cant": "all initial modes of the terminal and all histories", "anchors": ["src/common.c:get_tty_raw", "src/common.c:set_tty_mode", "src/client-tty.c:connect_console", "src/client-tty.c:perform_echo_esc", "src/client-tty.c:perform_suspend_esc"]}
{"id": "C82", "title": "Serial lines are set to what the configuration says, and restored", "statement": "An open serial device has the speed, data bits, parity and stop bits of its options, passes every byte unchanged, and has its former modes again when it is closed.", "quantifier": "every former setting of the device, every options, every history of opening, failing to open and closing", "why_tests_cant": "all former modes; all histories", "anchors": ["src/server-serial.c:set_serial_opts", "src/server-serial.c:open_serial_obj", "src/server-obj.c:destroy_obj", "src/common.c:get_tty_raw"]}
{"id": "C83", "title": "The client shows and logs everything that is received, once and in order", "statement": "In a session everything received from the server is written to the terminal, and to the log if there is one, once and in order; texts of the client itself come between, are never logged, and can be told from the data. The log gets lines with the times, and the text of an error. A session ends only when the server or the terminal is gone, the client is told to, or a key is typed after the user closed it.", "quantifier": "every history of keys, data and signals; every answers of the server and failures; every names of consoles", "why_tests_cant": "all interleavings of keys and data", "anchors": ["src/client-tty.c:connect_console", "src/client-tty.c:read_from_stdin", "src/client-tty.c:write_to_stdout", "src/client-tty.c:locally_display_status", "src/client-conf.c:open_client_log", "src/client-conf.c:close_client_log"]}
{"id": "C84", "title": "The help of the client lists what can be typed", "statement": "The help is complete, lists exactly the commands that do something in the current mode, and says what they do; messages about the session are one line of their own, whatever the names of consoles.", "quantifier": "every state of a session, every escape character, every names of consoles", "why_tests_cant": "all modes, escape characters and names", "anchors": ["src/client-tty.c:perform_help_esc", "src/client-tty.c:write_esc_char", "src/client-tty.c:locally_echo_esc", "src/client-tty.c:locally_display_status", "src/client-tty.c:perform_info_esc"]}
{"id": "C85", "title": "Exit status, messages and listings of the client", "statement": "The exit status is 0 only if the server accepted the request, and then nothing is written to standard error; it is 2 only if it did not, and then the reason is on standard error and nothing on standard output. A query lists the names the server answers with, one per line. A refusal shows the message of the server, what it sends after it, and advice. The request is sent only after the greeting was accepted. If the server cannot be reached, the message names the host and the reason.", "quantifier": "every configuration, every answers of the server, every failures", "why_tests_cant": "all answers and failures", "anchors": ["src/client.c:main", "src/client-sock.c:connect_to_server", "src/client-sock.c:send_greeting", "src/client-sock.c:send_req", "src/client-sock.c:recv_rsp", "src/client-sock.c:display_error", "src/client-sock.c:display_data", "src/client-sock.c:display_consoles"]}
{"id": "C86", "title": "A request from the command line to the consoles of the server and back", "statement": "`conman -q` writes the names of exactly the configured consoles that the patterns select, in order, and exits with 0. A request that selects nothing, is not a valid regular expression, selects several consoles without broadcast, or selects consoles that others use without force or join, is refused: nothing is written to standard output, the reason (with the consoles, and who uses them) to standard error, and the exit status is 2. Otherwise a session begins on the server with exactly the selected consoles, and the client says so. All this holds however the messages are cut on their way, and every request gets to its end.", "quantifier": "every configured consoles, users of them, patterns, kinds of requests, behaviour of fnmatch and regexec, cuts and interrupts of reads", "why_tests_cant": "all configurations, requests and cuts; two programs at once", "anchors": ["src/server-sock.c:process_client", "src/server-sock.c:recv_greeting", "src/server-sock.c:recv_req", "src/server-sock.c:query_consoles", "src/server-sock.c:validate_req", "src/server-sock.c:check_too_many_consoles", "src/server-sock.c:check_busy_consoles", "src/server-sock.c:send_rsp", "src/server-sock.c:perform_query_cmd", "src/client-sock.c:recv_rsp", "src/client-sock.c:display_error", "src/client.c:main"]}
{"id": "C87", "title": "The daemon does what its command line says", "statement": "Options of conmand may be joined, with arguments attached or separate, between operands and up to `--`; the last of an option counts. `-h`, `-L` and `-V` print and end the program at once, whatever follows; an unknown option, a missing argument or a negative port ends it with a message; nothing else happens then. A daemon that comes up listens on the port of `-p` and writes the pid file of `-P`, whatever the configuration says; otherwise on the port 7890 if the configuration has no PORT; and on the loopback address only, unless the configuration has LOOPBACK. Every other setting is the default unless its keyword is in the configuration. `-q`, `-r` and `-k` print the id of the running daemon, send it SIGHUP, or SIGTERM; signals go only to a process with a lock of the configuration file or to that of the pid file; if there is none nothing is sent. The help lists exactly the options that exist.", "quantifier": "every command line, text of the configuration, state of locks and history of daemons", "why_tests_cant": "all command lines and configurations; what a keyword cannot do is a statement about all texts without it", "anchors": ["src/server-conf.c:process_cmdline", "src/server-conf.c:display_server_help", "src/server-conf.c:signal_daemon", "src/server-conf.c:process_config", "src/server.c:create_listen_socket", "src/server.c:main"]}
{"id": "C88", "title": "Log files over openings, rotation, SIGHUP and -z", "statement": "Without `-z` a file holds what it held when the daemon started, followed by everything written to it since, in order, whatever is renamed, removed, locked or opened again. With `-z` only the first opening of each log empties a file, and only the one that it opens; SIGHUP never loses what is in a file. What a log has written to all its files together is, in order and without repetition, part of what was meant for it; all of it if no write or opening failed, the daemon was not stopped, and never more than 16383 bytes had to wait. A log writes to the file that its last opening found by its name: after a rename and SIGHUP this is a new file, and the renamed one is not changed any more. After an error of writing nothing is written to a log until it is opened again.", "quantifier": "every sequence of data, partial writes, errors, openings, SIGHUPs, renames, removals, locks and writes of others, for any number of logs", "why_tests_cant": "all interleavings of rotation with output and signals; what a file holds depends on the whole history", "anchors": ["src/server-logfile.c:open_logfile_obj", "src/server.c:open_daemon_logfile", "src/server.c:reopen_logfiles", "src/server-obj.c:write_obj_data", "src/server-obj.c:write_to_obj", "src/server-obj.c:shutdown_obj", "src/server-obj.c:destroy_obj", "src/log.c:log_msg"]}
{"id": "C89", "title": "The threads of the daemon never deadlock", "statement": "Whatever the main thread, the threads of any number of clients and those of the IPMI engine do, in any order: they never block each other for ever. If none of them can go on by itself, each has finished, or waits for a client, a console, a timer or the name service, or for the answer of the name service that another one awaits. A thread that wants a mutex (other than that of the resolver) gets it after a bounded number of steps, however the threads are scheduled, without anything having to come from outside. A thread that waits for a client or console holds no mutex; one that awaits the name service holds only that of the resolver; one that has finished holds none. No two threads are at the same guarded data at once.", "quantifier": "every number of clients, consoles and engine threads, every path through the code of each, every interleaving", "why_tests_cant": "deadlocks show only in rare interleavings of locks over several files; a test sees a few schedules", "anchors": ["src/list.c:list_destroy", "src/list.c:list_delete", "src/tpoll.c:tpoll", "src/server-obj.c:write_obj_data", "src/server-obj.c:write_to_obj", "src/server-obj.c:unlink_objs", "src/server-ipmi.c:connect_ipmi_obj", "src/server-ipmi.c:disconnect_ipmi_obj", "src/server-sock.c:process_client", "src/server-sock.c:check_busy_consoles", "src/util-net.c:get_host_by_addr", "src/server.c:mux_io"]}
{"id": "C90", "title": "Sessions that are set up and closed at the same time do not disturb each other", "statement": "The threads of any number of clients set up sessions while the main thread passes on data, gives notices and closes clients. In whatever order they take turns, no thread uses an object after its memory was given back, no object refers to such memory, and once all is quiet both ends of every connection agree. A client whose request was accepted stays connected to all the consoles it asked for until it is closed or loses them to a forced request. Consoles and logs are never given back.", "quantifier": "every number of clients and consoles, every mixture of requests (read-only, read-write, broadcast; forced, joining or neither), every interleaving of the operations on lists", "why_tests_cant": "the outcome depends on the interleaving of list operations of several threads; a test sees a few schedules and not the ones that matter", "anchors": ["src/server-sock.c:process_client", "src/server-sock.c:check_busy_consoles", "src/server-sock.c:perform_connect_cmd", "src/server-sock.c:perform_monitor_cmd", "src/server-sock.c:check_console_state", "src/server-obj.c:create_client_obj", "src/server-obj.c:notify_console_objs", "src/server-obj.c:link_objs", "src/server-obj.c:unlink_objs", "src/server-obj.c:unlink_obj", "src/server-obj.c:shutdown_obj", "src/server-esc.c:perform_console_writer_linkage", "src/server.c:mux_io", "src/list.c:list_node_destroy"]}
{"id": "C91", "title": "What is typed reaches the console, complete and in order", "statement": "What the clients connected to a console type (text with 0xFF undoubled, DEL and break commands) is sent to the console, nothing lost, added, repeated or reordered; the text of one client keeps its order also when others type; it is sent as soon as the console can take it.", "quantifier": "every reachable state, every history of any length, every number of clients and consoles, every way reads and writes cut the stream", "why_tests_cant": "the claim is about all histories: all cuts of reads and writes, all interleavings of clients, consoles and reconnections", "anchors": ["src/server-obj.c:read_from_obj", "src/server-obj.c:write_obj_data", "src/server-obj.c:write_to_obj", "src/server-esc.c:process_client_escapes", "src/server-esc.c:perform_del_char_seq", "src/server-esc.c:perform_serial_break", "src/server-telnet.c:open_telnet_obj", "src/server-process.c:open_process_obj"]}
{"id": "C92", "title": "The log of a console holds everything the console says, and nothing else", "statement": "The log of a console holds all that the console has said since the daemon was started, laid out in lines, stamped and sanitised as configured, with the notices of the daemon in between; nothing of another console, nothing twice, nothing out of order; a sanitised log never holds anything but printable characters and line ends.", "quantifier": "every configuration, every history of any length from the start of the daemon on, every way reads and writes cut the stream, every options of the log", "why_tests_cant": "the claim is about all histories: all output, all cuts of reads and writes, all interleavings with clients, reopenings and failures", "anchors": ["src/server-logfile.c:write_log_data", "src/server-logfile.c:open_logfile_obj", "src/server-obj.c:read_from_obj", "src/server-obj.c:write_obj_data", "src/server-obj.c:write_to_obj", "src/server-obj.c:shutdown_obj", "src/server-conf.c:process_console"]}
{"id": "C93", "title": "A client is shown the output of its consoles and messages of the daemon, nothing else", "statement": "All bytes a client is sent are output of the consoles it is attached to, in order and without gaps, messages of the daemon, or the replay of a log the client asked for; messages and replays stand between pieces of output and never cut into or replace it.", "quantifier": "every history of any length, every client of any kind (reading, writing, broadcasting, quiet or not), every command it sends, every way reads and writes cut the streams", "why_tests_cant": "the claim is about all histories and interleavings of consoles, clients, messages and commands", "anchors": ["src/server-obj.c:write_obj_data", "src/server-obj.c:read_from_obj", "src/server-obj.c:write_to_obj", "src/server-obj.c:notify_console_objs", "src/server-esc.c:perform_log_replay", "src/server-esc.c:perform_quiet_toggle"]}
{"id": "C94", "title": "A session carries keys to the console and output to the terminal, end to end", "statement": "What a user types at the terminal of the client reaches the device of the console unchanged and in order, and what the device says is shown on the terminal and in the log of the client, unchanged and in order, with nothing but messages of the daemon and the client in between.", "quantifier": "every session, every sequence of keys with text and commands in it, every output of the console, every way the connection cuts the streams, every interleaving with other clients and consoles", "why_tests_cant": "client, connection and daemon are put together, for all keys, all outputs and all interleavings", "anchors": ["src/client-tty.c:read_from_stdin", "src/client-tty.c:write_to_stdout", "src/client-tty.c:connect_console", "src/server-esc.c:process_client_escapes", "src/server-obj.c:read_from_obj", "src/server-obj.c:write_obj_data", "src/server-obj.c:write_to_obj"]}
{"id": "C95", "title": "Output that waits is not forgotten", "statement": "Whenever bytes wait to be sent to a client, a log or a console that is open, the daemon asks whether it can be written to (unless it is a client that suspended its output), so that they are sent as soon as the other side accepts bytes; a client that is to be closed is gone once it has accepted what was left for it.", "quantifier": "every reachable state of the daemon, every history of steps of all clients, consoles, logs and timers, every number of bytes accepted each time", "why_tests_cant": "the flag that asks for writability is set and cleared in many functions; that no order of them leaves it clear with bytes waiting is about all states", "anchors": ["src/server-obj.c:write_obj_data", "src/server-obj.c:write_to_obj", "src/server-obj.c:shutdown_obj", "src/server-esc.c:perform_suspend", "src/server-logfile.c:open_logfile_obj", "src/server-telnet.c:connect_telnet_obj", "src/server.c:mux_io"]}
{"id": "C96", "title": "From the configuration file to the console and back", "statement": "Whatever the configuration file says and whatever has happened since the daemon was started: the consoles are those of the file, with different names, each as the kind of device and with the log configured for it; a client program that asks for consoles and is accepted is connected to exactly the consoles whose names its patterns select, by name to that console and no other; without -f and -j nobody was connected to them to type when the request was looked at, with -f nobody else is any more; what is then typed at its terminal reaches those consoles, and what they put out reaches the terminal.", "quantifier": "every configuration text, every history of the daemon before, between and after the steps, every client (any bytes for acceptance, the client program for the rest), every command line, every way in which messages are cut, all keys of text and of commands that send nothing to the console", "why_tests_cant": "the claim goes through the parser of the configuration, the line protocol, the threads and the main loop; each combination of file, request and history would be a test", "anchors": ["src/server-conf.c:process_config", "src/server-sock.c:process_client", "src/server-sock.c:query_consoles", "src/server-sock.c:validate_req", "src/server-sock.c:perform_connect_cmd", "src/server-sock.c:perform_monitor_cmd", "src/server-obj.c:create_client_obj", "src/server-obj.c:link_objs", "src/client.c:main", "src/client-tty.c:connect_console"]}
{"id": "C97", "title": "The daemon kills what it started and nothing else", "statement": "When a reset command exceeds its time, the processes of this command are killed, all of them, and no others; when a process console is closed its program is killed, and no other process; when the daemon ends, the programs of its consoles are told to end. The daemon never kills itself.", "quantifier": "every history of resets, consoles opened and closed, timers, the end of the daemon, and of processes that fork, change their group, end, and of others that start and end; every choice of process numbers by the kernel", "why_tests_cant": "what a process number stands for depends on the order in which processes end and numbers are given out again, which no test controls", "anchors": ["src/server-esc.c:perform_reset", "src/server-esc.c:kill_reset_cmd", "src/server-process.c:connect_process_obj", "src/server-process.c:disconnect_process_obj", "src/server.c:main", "src/server.c:sig_chld_handler"]}
{"id": "C98", "title": "The peer of a telnet console receives what was typed", "statement": "What the daemon sends to the terminal server of a telnet console is a well-formed telnet stream: the negotiation, refusals and breaks are whole and never cut into by text, and the data a telnet decoder finds in it, however the stream is cut into reads, are exactly the text that clients typed for this console, in order.", "quantifier": "every reachable state, every history of connections, reads, writes, replies of the peer and requests for breaks, every text without 0xFF, every division of the stream into reads", "why_tests_cant": "negotiation, breaks and typed text are interleaved by schedule; the property is about every interleaving and every division into reads and writes", "anchors": ["src/server-telnet.c:process_telnet_escapes", "src/server-telnet.c:process_telnet_cmd", "src/server-telnet.c:send_telnet_cmd", "src/server-telnet.c:connect_telnet_obj", "src/server-esc.c:perform_serial_break", "src/server-obj.c:write_obj_data", "src/server-obj.c:write_to_obj"]}
{"id": "C99", "title": "Log and users get the data of a telnet console, and nothing of its protocol", "statement": "Whatever the terminal server of a telnet console sends, in whatever pieces and whatever else happens meanwhile: what the log of that console holds and what the terminal of a user watching it shows is the data of its telnet stream, in order, with the notices of the daemon in between; no byte of the telnet protocol is among it and no byte of data is lost.", "quantifier": "every configuration, every history of connections, reads, writes and requests, every telnet stream, every division of it into reads, every session of the client program", "why_tests_cant": "the decoder keeps its state between reads while consoles, logs and clients are served in any order; the property is about every division and every interleaving", "anchors": ["src/server-telnet.c:process_telnet_escapes", "src/server-telnet.c:process_telnet_cmd", "src/server-telnet.c:connect_telnet_obj", "src/server-obj.c:read_from_obj", "src/server-logfile.c:write_log_data", "src/server-conf.c:process_console", "src/client-sock.c:connect_console"]}
{"id": "C100", "title": "From the configuration to the log file on disk", "statement": "Whatever the configuration file says and whatever happens: the file named for the log of a console holds what it held before the daemon was started (nothing with -z) followed by the output of that console, laid out as configured, with notices in between; output of other consoles does not get into it, files not named as logs are not touched, and SIGHUP, other openings and locks change nothing of that.", "quantifier": "every configuration file, every history of openings, writes, failures, locks and operations of other processes on files, every content of the files at the start", "why_tests_cant": "the contents of a file depend on the whole history of openings and writes of all consoles and on the names the configuration leads to", "anchors": ["src/server-logfile.c:open_logfile_obj", "src/server-logfile.c:create_logfile_obj", "src/server-logfile.c:write_log_data", "src/server-obj.c:write_to_obj", "src/server-obj.c:shutdown_obj", "src/server-obj.c:format_obj_string", "src/server-conf.c:process_console", "src/server.c:reopen_logfiles"]}
{"id": "C101", "title": "What the notices of the daemon say", "statement": "Every notice the daemon writes to users and logs is one line of its own, \"<ConMan> \" followed by a sentence that names the console, the client and the time and by a full stop; however long names are, it is cut to fit and still ends its line; and nothing but printable characters gets into a sanitised log.", "quantifier": "every notice, every name of a console, device, program, client, host and terminal, every greeting a client sends", "why_tests_cant": "names come from the configuration and from clients, in any length and with any characters; the buffers are filled by formatting functions whose truncation depends on the lengths", "anchors": ["src/server-obj.c:write_notify_msg", "src/server-obj.c:notify_console_objs", "src/server-obj.c:link_objs", "src/server-obj.c:create_client_obj", "src/server-logfile.c:open_logfile_obj", "src/server-sock.c:recv_greeting", "src/server-process.c:connect_process_obj", "src/server-process.c:check_process_prog", "src/server-process.c:disconnect_process_obj", "src/server-telnet.c:connect_telnet_obj", "src/server.c:timestamp_logfiles", "src/util-str.c:create_format_string"]}
{"id": "C102", "title": "A replay shows the end of the log, in the running daemon", "statement": "When a user of a console types the escape sequence for a log replay, the daemon sends them, after what already waits for them, the begin message, the last 4096 bytes of what was logged for this console (what is in the log file and what still waits to be written) and the end message; without an open log it says so. It shows no byte that was not written to this log, and it changes nothing else.", "quantifier": "every configuration, every history of the daemon (consoles, clients, errors, log openings), every console with and without a log, every content of the memory of buffers when they were allocated", "why_tests_cant": "what the buffer of a log still holds depends on all that was ever written to it, on how it was cut into writes, on when it wrapped around, on what was sent to the file and on errors and reopenings in between", "anchors": ["src/server-esc.c:perform_log_replay", "src/server-logfile.c:get_console_logfile_obj", "src/server-obj.c:write_obj_data", "src/server-obj.c:shutdown_obj", "src/server-obj.c:write_to_obj"]}
{"id": "C103", "title": "Rotation of log files loses nothing", "statement": "However often the log file of a console is renamed (and its older parts renamed further) and the daemon told by SIGHUP to open its logs again: the parts, oldest first, followed by the log file hold what the file held at the start followed by everything written to the log, each byte once and in order, whatever was said between the renaming and the opening; once the log was opened again the parts do not change any more.", "quantifier": "every configuration, every history of openings, writes, failures, locks and SIGHUPs, any number of rotations with any names not in use, at any time between other events", "why_tests_cant": "a rotation can come between any two steps of the daemon, with output waiting, partly written or arriving, and before or after the signal is noticed", "anchors": ["src/server.c:reopen_logfiles", "src/server.c:mux_io", "src/server-logfile.c:open_logfile_obj", "src/server-obj.c:write_to_obj"]}
{"id": "C104", "title": "What a program started by the daemon gets from it", "statement": "The program of a console begins with its socket as stdin, stdout and stderr, a reset command with /dev/null (or none of them if that cannot be opened); of the other descriptors of the daemon - consoles, log files, clients, listening socket, configuration - it gets none, except those passed on by whoever started the daemon and connections of clients that are just being set up; a connection gets into a program exactly if one is started while it is being set up. Signals that the daemon handles are back to default, SIGPIPE stays ignored, all others are as the daemon found them; the mask of a daemon is 0.", "quantifier": "every table of descriptors at the start, every choice of numbers by the kernel, foreground or daemon, every history of openings, accepted and admitted clients, closings, programs and resets; every initial set of signal dispositions", "why_tests_cant": "which descriptors are open, under which numbers, when a program is started depends on the history and on the thread of a client", "anchors": ["src/server-process.c:connect_process_obj", "src/server-esc.c:perform_reset", "src/server.c:begin_daemonize", "src/server.c:end_daemonize", "src/server.c:setup_signals", "src/server.c:accept_client", "src/server-obj.c:create_client_obj", "src/util-file.c:set_fd_closed_on_exec"]}
{"id": "C105", "title": "Lists share their memory and do not disturb each other", "statement": "Lists, their nodes and their iterators come from stocks that all lists share. After any history of calls every call that uses existing lists and iterators of them is defined, acts on its own list exactly as on a sequence and on no other; a new list or iterator has an address that is not in use; a call fails only if the stock is empty and there is no memory. No node or iterator is in two lists, or in one and free; none is ever lost; and the memory for nodes is bounded by the largest number of items at any one time.", "quantifier": "every number of lists and iterators, every history of calls on them, every answer of malloc", "why_tests_cant": "which node is handed out depends on everything that all lists did before", "anchors": ["src/list.c:list_alloc", "src/list.c:list_node_alloc", "src/list.c:list_iterator_alloc", "src/list.c:list_free", "src/list.c:list_node_free", "src/list.c:list_iterator_free", "src/list.c:list_create", "src/list.c:list_destroy", "src/list.c:list_iterator_create"]}
{"id": "C106", "title": "Opening and closing a console leaves nothing behind and touches nothing of others", "statement": "However consoles and logs are opened, lost, closed and opened again, and whatever the system answers on the way: when no call on a console is being executed, the descriptor it notes is open and is the only one it has; a program that runs for it is the one it notes; an armed timer is the one it notes; no call closes a descriptor of a client or of another console; and the daemon goes on.", "quantifier": "every number of consoles and logs of every kind, every interleaving of calls by the main thread, by the threads of clients and by the engine of libipmiconsole, every answer of the system, every timer", "why_tests_cant": "what is left behind depends on how calls of several threads interleave with each other and with failures", "anchors": ["src/server-sock.c:check_console_state", "src/server-obj.c:shutdown_obj", "src/server-obj.c:reopen_obj", "src/server-process.c:open_process_obj", "src/server-process.c:connect_process_obj", "src/server-telnet.c:connect_telnet_obj", "src/server-telnet.c:disconnect_telnet_obj", "src/server-unixsock.c:connect_unixsock_obj", "src/server-serial.c:open_serial_obj", "src/server-test.c:open_test_obj", "src/server-logfile.c:open_logfile_obj", "src/server-ipmi.c:connect_ipmi_obj"]}
{"id": "C107", "title": "The end of the daemon loses nothing", "statement": "Whatever happened before SIGTERM or SIGINT: at the end the pid file is removed and the daemon stops listening before consoles are closed; everything that is open is closed once; every client is reported as disconnected once; the settings of serial lines are restored before they are closed; all that consoles said is in their log files, and what is not is reported with its length; programs started by the daemon are told to end.", "quantifier": "every configuration, every history before the end, every moment of the signal", "why_tests_cant": "what is lost depends on what waits when the signal arrives, so on all that came before", "anchors": ["src/server.c:main", "src/server.c:mux_io", "src/server-conf.c:destroy_server_conf", "src/server-obj.c:destroy_obj", "src/server-obj.c:num_bytes_buffered", "src/server-esc.c:perform_reset"]}
{"id": "C108", "title": "What the daemon displays with -v is what it does", "statement": "For every configuration: the text displayed consists of the name of the configuration file, the options that are set (each of them displayed if and only if it is set, \"None\" if and only if there is none), and the number of consoles; configurations displayed alike agree in all of these; and the log file and the system log are displayed if and only if messages go there.", "quantifier": "every configuration and command line", "why_tests_cant": "there are 512 combinations of options, any interval between timestamps and any number of consoles", "anchors": ["src/server.c:display_configuration", "src/server.c:main"]}
{"id": "C109", "title": "Cores of a daemon that fails", "statement": "If the daemon is ended by a signal that stands for an error: that signal is what kills it, and it is told in a message; a core is written only if that is configured, and readable by its owner only; it is written in the configured directory, which the message names, and if the daemon cannot go there it says so; without a configured directory the core is in the directory the daemon was started in, or in \"/\" if the daemon runs in the background. The daemon refuses to start only if cores are wanted and cannot be had.", "quantifier": "every configuration, starting directory, limit, signal, and outcome of changing directories", "why_tests_cant": "depends on limits and privileges of the process and on what becomes of directories while it runs", "anchors": ["src/server.c:setup_coredump", "src/server.c:coredump_handler", "src/server.c:end_daemonize"]}
{"id": "C110", "title": "The log of the daemon tells who is connected to what", "statement": "At any time the clients that are connected are exactly those the log of the daemon says are connected: their session was told to begin and not yet to end. Beginnings and ends of the sessions of a client alternate in the log. A client reads from and writes to no console other than the one the log names for it; one that broadcasts reads from none and writes to at most as many as the log says. A client whose session the log calls read-only cannot write to a console. When the daemon ends, all sessions are told to have ended.", "quantifier": "every configuration, history of the daemon (connections, input, output, failures, clients that come and go in any order) and time in it", "why_tests_cant": "ranges over unbounded histories with any number of clients, including those displaced by others, cut off, or still connected at the end", "anchors": ["src/server-sock.c:perform_monitor_cmd", "src/server-sock.c:perform_connect_cmd", "src/server-obj.c:destroy_obj", "src/server.c:mux_io"]}
{"id": "C111", "title": "Output that is lost is told", "statement": "The warnings in the log of the daemon account for all output that is lost: whatever is written to a console, logfile or client, and whatever happens to it, the number of bytes written is the number sent, plus those that wait, plus those the messages say are overwritten, refused after end of file, or flushed; once it is destroyed nothing else waits. If there is no message, what was sent followed by what waits is what was written, in order. A message about a write comes if and only if that write makes bytes be lost, and these are the oldest, exactly as many as it says. (Loss of the output of a client while it is suspended is not told.)", "quantifier": "every initial content of the buffer, every history of writes, partial flushes, ends of file and shutdowns of an object, for writes of every length below 16384", "why_tests_cant": "ranges over all interleavings of writes and partial flushes around a circular buffer that wraps at any place; an account that is off by one needs the exact boundary", "anchors": ["src/server-obj.c:write_obj_data", "src/server-obj.c:write_to_obj", "src/server-obj.c:shutdown_obj", "src/server-obj.c:destroy_obj", "src/server-obj.c:num_bytes_buffered"]}
{"id": "C112", "title": "A connected client can always be left, and does not leave by itself", "statement": "SIGTERM ends a connected client wherever it is in its work, without anything else having to happen. After the closing command (escape character and dot) it ends when the server ends the connection, whatever is still to be displayed or typed meanwhile, or at the next key. Other than that it ends only if its input or the connection ends.", "quantifier": "every history of keys, output of the server, signals, suspensions and blocked writes, and every place of the loop", "why_tests_cant": "signals can come between any two instructions; tests cannot place one between a check and the wait that follows it", "anchors": ["src/client-tty.c:connect_console", "src/client-tty.c:exit_handler", "src/client-tty.c:read_from_stdin", "src/client-tty.c:write_to_stdout", "src/client-tty.c:perform_close_esc", "src/client-tty.c:perform_suspend_esc"]}
{"id": "C113", "title": "Consoles that share no client do not influence each other", "statement": "If the consoles are divided in two groups and every client has consoles of one group only, then whatever clients and consoles of the other group do, everything on this group (state of the consoles, logs and clients, what is sent to them and when) is the same as if nothing had happened on the other group.", "quantifier": "every configuration, every division of its consoles, every history of requests, input, output, failures, resets and timers on both groups in any order", "why_tests_cant": "a relation between two histories of the daemon (with and without the events of the others), for all ways of mixing them", "anchors": ["src/server-obj.c:notify_console_objs", "src/server-obj.c:link_objs", "src/server-obj.c:unlink_obj", "src/server-obj.c:read_from_obj", "src/server-obj.c:write_to_obj", "src/server-obj.c:shutdown_obj", "src/server-esc.c:process_client_escapes", "src/server-sock.c:validate_req"]}
{"id": "C114", "title": "A client that does not read its output does not hold up or change anything for others", "statement": "How fast a connected client reads what is sent to it, or whether it reads at all (a stopped terminal, a suspended session, a dead network), makes no difference to anybody else: the consoles, the logs, the other clients, what is sent to each of them and in which order, the requests that are granted or refused and the resets are the same. The client itself stays connected in both cases, and only the output that waits for it differs.", "quantifier": "every reachable state, every connected client, every two histories that differ only in when and how much of its output this client takes", "why_tests_cant": "a relation between two histories of the daemon, for all interleavings and all amounts taken", "anchors": ["src/server-obj.c:write_to_obj", "src/server-obj.c:write_obj_data", "src/server-obj.c:read_from_obj", "src/server-obj.c:shutdown_obj", "src/server-obj.c:notify_console_objs", "src/server.c:mux_io"]}
{"id": "C115", "title": "Someone who only watches is not noticed", "statement": "A client that monitors a console changes nothing for anybody else: neither its arrival, nor anything it types or any command it uses (except the three commands to become a writer), nor whether it reads its output, nor how and when it leaves. The consoles, the logs, the other clients, what is sent to each of them and in which order, which requests are granted or refused, the resets, breaks and kills, and whether the daemon survives, are as they would be without it.", "quantifier": "every reachable state, every monitoring client, every history in which this client does not ask to write", "why_tests_cant": "a relation between two histories of the daemon, one with and one without the client, for all interleavings and everything the client may send", "anchors": ["src/server-sock.c:perform_monitor_cmd", "src/server-obj.c:link_objs", "src/server-obj.c:unlink_objs", "src/server-obj.c:notify_console_objs", "src/server-esc.c:process_client_escapes", "src/server-obj.c:shutdown_obj", "src/server-sock.c:check_busy_consoles"]}
{"id": "C116", "title": "A session goes on until its client ends it or its console is taken by force", "statement": "Once connected, a client keeps all its links to consoles, and is not marked to be dropped, as long as it does not end the session itself: a console may lose its connection and get it back any number of times, other clients may arrive, join, watch, type, be slow, leave or die, logs may be reopened. The only way to lose a session otherwise is that somebody takes a console it writes to by force, with a forced connect request for that console or the command to take it. A client that only watches cannot lose its session by what others do at all.", "quantifier": "every reachable state, every client, every step that is not an input or output of this client; every history of such steps", "why_tests_cant": "all histories, any number of clients and consoles; the claim is about what never happens", "anchors": ["src/server-obj.c:shutdown_obj", "src/server-obj.c:reopen_obj", "src/server-obj.c:link_objs", "src/server-obj.c:unlink_obj", "src/server-obj.c:unlink_objs", "src/server-esc.c:perform_console_writer_linkage", "src/server-sock.c:perform_connect_cmd"]}
{"id": "C117", "title": "When a console can be reset", "statement": "A request to reset a console that has a reset command starts it, unless its line is too long, no process can be made, or an earlier one was started and the daemon has not yet found its minute to be over. Between two starts for the same console lies a look of the daemon at its timers, a minute or more after the first; each is ended the first time the daemon looks a minute after its start; a failed attempt does not keep the next one from succeeding; and a minute after the last request a console can always be reset again.", "quantifier": "every history of requests and looks at the timers, every time of each, every combination of failing calls", "why_tests_cant": "all histories, with times, and failures of calls at any of them", "anchors": ["src/server-esc.c:perform_reset", "src/server-esc.c:kill_reset_cmd", "src/tpoll.c:tpoll_timeout_relative", "src/tpoll.c:tpoll_timeout_absolute", "src/tpoll.c:tpoll"]}
{"id": "C118", "title": "The daemon is configured by what its file has", "statement": "The configuration the daemon starts with is that of the whole text of its file, whatever its length, in however many parts the system hands it out, with whatever interruptions, and whatever is in memory; it is never configured by anything that is not in the file.", "quantifier": "every contents of the file, every division and interruption of reads, every contents of fresh memory, every change of the file between the calls", "why_tests_cant": "all contents, schedules of reads and contents of memory; a change of the file between two system calls cannot be arranged reliably", "anchors": ["src/server-conf.c:process_config", "src/util-file.c:read_n", "src/lex.c:lex_create"]}
