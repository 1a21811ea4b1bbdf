# Formal model of dun/conman in Lean 4

The properties are in `properties.jsonl`, the status of each in `MANIFEST.json`,
the mutation log in `seeded/LOG.jsonl`.

## Layout

* `lean/Verif/Model/*.lean`  the model: small total functions that follow the C
  code function by function. Every definition cites file and lines in `/repo`
  and states its simplifications.
* `lean/Verif/Spec/*.lean`  specifications that do not mention the model.
* `lean/Verif/Lemma/*.lean`  helper lemmas (not part of the claims).
* `lean/Verif/Props/*.lean`  the property theorems, with non-vacuity examples.

## Modelling conventions

* A byte is a `Nat` below 256 or a `UInt8`; the file says which. A C string is the list of its bytes
  before the NUL; where reading past the NUL is possible, the NUL is explicit
  and an out-of-bounds access is a distinct outcome (`none` / `.ub`).
* Buffers of fixed size are lists with a length invariant (or explicit bounds
  in the result); a copy outside the buffer is a distinct outcome.
* Pointers into a buffer are offsets. `int` arithmetic is unbounded unless the
  property is about overflow; overflow is then a distinct outcome.
* The operating system (read, write, writev, poll, clock) is an input: the
  theorems quantify over every result the call may return.
* The default build defines NDEBUG (`m4/x_ac_enable_debug.m4`), so `assert` is
  not executed. An assert that can fail is modelled by what the code after it
  does, and the failing case is reported as a finding.
* The daemon's main loop is one thread; `process_client` runs one thread per
  connecting client. Objects are modelled at the granularity of the functions
  named; the concurrency model is stated for each property that needs it.

## Plan for each property

| id | model | proof |
|---|---|---|
| C01-C03 | ring buffer with byte array and in/out offsets (`server-obj.c`) | refinement to a bounded queue, invariant by induction on operations |
| C04 | replay window over the same ring | history invariant: ring holds the last bytes written; refutation witness for the stale wrap flag and the empty log |
| C05, C06, C50, C51 | object state with ring, EOF, suspend, quiet flags, readers | induction on operations; per-operation frame theorems |
| C07, C08 | client keystroke automaton, server unescape automaton | round-trip by induction on the stream; fold-append law for splits |
| C09, C10, C12 | link graph with readers/writers lists per object | invariant by induction on operations; termination of unlink |
| C11 | busy check followed by link; interleaving semantics for threads | sequential theorem; refutation witnesses for the thread race and the in-session `M` escape |
| C13 | product of client command state and server link state | simulation relation by induction on user actions |
| C14, C15 | `lex_next` on a list with explicit NUL | well-founded progress; line count invariant |
| C16-C19, C56 | lex_encode/decode, lookup_token, message writers and parsers | round-trip through the lexer model |
| C20-C24 | `util-str.c`, `util-file.c`, `portable/` | direct proofs over lists with explicit buffer size |
| C25, C26 | read/write loops against a scheduler of results | induction on the schedule |
| C27 | mixed radix digits | arithmetic |
| C28-C30 | list nodes with identity, iterators as (pos, prev) pairs | refinement of pointer structure to a sequence with cursor positions |
| C31 | compare_objs on byte strings | refutation witness for transitivity; order laws on the well-behaved subset |
| C32-C34 | fd table and timer list of `tpoll.c` | refinement to finite map; sortedness invariant; arithmetic |
| C35, C36 | telnet transducer | fold-append law, reference decoder, reply discipline |
| C37 | delay state machines of the four console types | invariant by induction on events |
| C38-C40 | write_log_data transducer | fold laws, output alphabet, bound on scratch use |
| C41, C42 | format_obj_string over fmt with explicit NUL | induction; refutation witness for trailing percent |
| C43-C47 | option parsers, int_to_bps, parse_key, read_test_obj, get_sane_env | direct |
| C48 | validate_req decision logic | direct |
| C49 | message assembly with bound | direct |
| C52 | reset state machine | invariant by induction |
| C53 | schedule arithmetic | arithmetic |
| C54 | server directive parser over the token stream | refutation witnesses and a partial theorem |
| C55 | copy_hostent allocation arithmetic | induction |
| C57, C58 | is_telnet_dev, lookup_syslog_priority | direct |
| C59 | inevent list | refinement to a map |
| C60 | one client read in `World.read` | refutation witnesses; ordering theorem for reads that do not mix text before commands |
| C61 | connection state machines (`Backoff.lean`) | invariant by induction on events |
| C62 | `World.step` with `none` for a NULL dereference | refutation witness; characterisation of every crashing step |
| C63 | link graph | invariant by induction on steps |
| C64 | `query_consoles` over an arbitrary matching relation | direct |
| C65 | `World.run` with the trace of data read | invariant by induction on the history |
| C66 | `create_dirs` with a trace of `mkdir` calls | induction on the name |
| C67 | message parsers with `none` for a read outside the buffer | progress of the lexer, induction on the length of the rest |
| C68 | single-command reads of `World.step` | case analysis on the command, fold over the readers |
| C69 | creation of log objects with the duplicate check, and the names opened | invariant over the creations; refutation witness for expanded names |
| C70 | the `is_*_dev` recognisers and `search_exec_path` over an abstract file system | a reading relation with a rank; the model returns the reading of least rank |
| C71 | CONSOLE and GLOBAL parsers and `process_console` over the token stream | the set of words written against the fields set; invariant over all lines |
| C72 | locks of processes and files as in fcntl(2), the steps of `process_config` before and after each system call, kills at any point | invariant: who is past the check has a lock and is alone; witnesses for what is false |
| C73 | `signal_daemon`, `read_pidfile`, `write_pidfile`, removal of the pid file, on top of C72 | invariant: every lock is that of a daemon, the pid file is that of the running one |
| C74 | opening and reopening of logs with locks that are lost when a descriptor is closed | invariant: every open log is locked |
| C75 | the points of `mux_io` as a machine with signals between any two steps | measure on the points of the loop; invariant on logs not yet reopened; witnesses for lost signals |
| C76 | the loop over the objects with its counter, for arbitrary functions that serve them | equal to a loop without counter; counting argument for what poll returns |
| C77 | `accept_client` and a limit of descriptors | induction over connections; negation for every limit |
| C78 | the three processes of a start, the pipe, `log_err`, and the parent | first failing part; arrays of messages exact; negations for death and late failures |
| C79 | `log_aux` on its array, byte by byte; histories of calls | exact contents of the array; induction over histories; a greeting that forges any line; the messages about unknown escape codes, with the bytes that break them |
| C80 | `getopt` with the options of the client, environment, files read by `fgets` | a grammar of command lines and refinement; fold over options equals "last wins"; composition with the request of C18 |
| C81 | flag words of `struct termios`, a specification of what a terminal does with bytes, sessions of the client | words bit by bit; invariant over histories; negations for failing calls and modes left alone |
| C82 | `set_serial_opts` on flag words, opening and closing of a device | words bit by bit; invariant over histories; composition with the parser of C44 |
| C83 | output of the client as pieces, sessions as lists of events, the program from its log to its end | induction over events; cases of the program |
| C84 | the texts with their arrays | lengths, cases of commands and modes against the model of keys (C04) |
| C85 | `main` of the client as a function of what it meets | cases; composition with the messages of the server (C18) |
| C86 | the thread of the server for one client, from its greeting to its session, and the client of C85, joined by their connection | composition of the messages (C18), lines (C26), selection (C64), order (C31) and the client (C83-C85); existence of runs |
| C87 | getopt with any table of options, the loop over options, control by signals, and main up to the socket | induction over words and options; a frame for every keyword through the parser of the configuration; composition with C54, C73 |
| C88 | names and contents of files, descriptors, waiting bytes and flags of logs; a step for each event | invariants by induction over histories; a trace of all writes as a ghost |
| C89 | each function as the set of all its sequences of locking, unlocking, waiting and touching guarded data; threads interleave freely | an order of the mutexes that every function keeps, checked function by function; invariant over interleavings; a thread that wants the highest wanted mutex can go on |
| C90 | threads as stacks of atomic steps on shared lists, with iterators that are moved by removals; use of memory that was given back is an outcome of its own | an invariant over all threads: what is linked, about to be linked and about to be cut; preserved by every step of every thread as long as closing and setting up, and forced and broadcast requests, are kept apart; histories that crash for the rest |
| C91 | the input of a step is a function of the state before it: commands, then text, of a client; replies of the telnet protocol | per-step lemma for all kinds of steps (sent part, waiting part, buffer limit), then induction on the history; the text of a client followed through its own reads; witnesses for what is lost |
| C92 | the entries of a log are pieces of output and notices; the text of a page of entries is defined on normalised lines (C39), independent of the byte loop | each step adds entries (by the kind of step), the log stays linked to its console only, then induction on the history; the byte loop equals the page; witnesses and a general theorem for what is lost |
| C93 | entries (output, message, replay) as the vocabulary; the entries of a step by its kind | each step adds entries to what waits for the client or takes bytes from its front; induction on the history |
| C94 | the models of the client program (C83) and of the daemon (World) are put together; the connection: what one side has read is a prefix of what the other has sent | what a session sends is what its keys stand for (C07), by induction on its events; the text among it reaches the input of the console (C91); what the client is sent (C93, C65) is what it shows (C83) |
| C95 | `awake`: open and bytes waiting, so POLLOUT or suspended; `acceptCount`: how often the other side accepts bytes | `awake` is kept by every change of an object (induction on the relations `Passive`, `Ext`, `COwn` and cases on the step); each poll that accepts sends a byte if one waits, so by induction on the history min(waiting, accepted) bytes are sent |
| C96 | `SConf.world`: the objects made of a configuration; `World.view`: what a thread finds in them; `SrvSession.req`: the request as the main loop gets it; `Joined`: client program, thread and main loop, one after the other | composition: C71 (names differ), C86 (client and thread), C48 (what a granted request is linked to), C92 (logs), C94 (keys and output); the consoles selected by the thread are turned into numbers of consoles by their names, which differ; `check_admitted` shows that what the thread finds in order is in order for the objects |
| C97 | `Procs`: the table of processes with their groups, the process numbers noted by consoles; `kill_reset_cmd`, `disconnect_process_obj`, the end of `main`; any other process may start, fork and end | invariant: processes that have a noted number, or are in the group called so, belong to the command it was noted for; negations by witnesses |
| C98 | the world of C91 with its telnet consoles; the grammar of telnet streams of C36 and its decoder | what each step adds is a list of whole elements with the text as data (induction over the history), joined with the faithfulness of C91, the client program of C94 and the configuration of C96; negation for 0xFF by witness |
| C99 | the world of C92 with its telnet consoles, the decoder of C35, the configuration of C96 | induction over the history: the decoder state of a console is changed by its reads only, and reads compose; joined with C92, C94 and the configuration; negation for a connection that ends inside a command by witness |
| C100 | the world of C92 together with the files of C88: which file a log has open, what is appended to it; names by C69 and C71 | invariant over the history: the file belongs to one log only, its contents are the old ones and what was written; names without specifiers by C71, names with %N by the uniqueness of names of consoles; joined with C92; negation for names that differ only in replaced characters by witness |
| C101 | the formats of all notices and the three ways they are put into buffers (C49), with the names of the configuration and of clients; a step of the world of C92 for programs that cannot be started | the text by the lemmas on the buffers, the sentence given separately; names of clients by an invariant over the parsing of a greeting, any name by a greeting that yields it; composed with C100 for sanitised log files; negations by witness |
| C102 | the objects of C92 with the pointer from a console to its log and, for each buffer, the bytes written to it; the replay computed from them by the ring of C04 | the bytes written, sent and waiting of a log by an invariant over all steps; the part of a ring a replay reads does not depend on the cutting into writes; membership invariant of ring bytes; composed with C100 for the file |
| C103 | the objects and files of C100; the names of the parts are computed from what others do | invariant: the parts and the log file, in order, hold what was at the start and what was sent; the file open is the last of them that exists |
| C104 | a table of descriptors with FD_CLOEXEC, changed by the calls of start, accept, open, close, fork and exec; dispositions and mask likewise | invariant by induction on events: every descriptor above 2 has FD_CLOEXEC, was given, or belongs to a client being set up |
| C105 | three stocks with their chains of free items and blocks of ten; all lists of a process over them, with the answers of malloc as inputs | invariant by induction on calls: the free chain and what lists use are together a permutation of the blocks; refinement to one sequence per list |
| C106 | calls as sequences of small steps on the fields of an object and the table of descriptors; any number of calls being executed at once | for calls on one object that do not overlap: every call, from every good state and for all answers, ends in a good state, and an invariant over all interleavings of calls on different objects; witness runs with overlapping calls for the negations, with invariants for what holds ever after |
| C107 | the list of things done at the end, as a function of the state of all objects; the files of the logs at that moment | no object is in the list twice in any reachable state (induction over histories); counting over the list; the contents of log files from C100; what is sent only leaves by a write (induction) |
| C108 | the text displayed as a function of settings and command line | membership of each word in the list of words, and that texts of words separated by blanks and lines can be cut in one way only |
| C109 | what setup_coredump stores, and the messages, directory, mask and limit at the end | cases over the settings |
| C110 | the messages of every step of a history of the world of consoles and clients (C02) and of its end (C107) | an invariant between the world and the messages so far, by induction over histories |
| C111 | the circular buffer of C01 with the flags of its object and the messages | an account kept by every step, on top of the refinement of the buffer to a queue; by induction over histories |
| C112 | the loop of the client in small steps, with select(), the writes that can block and the process being stopped, on top of the keys of C17 | an invariant of the places of the loop; a bound on the steps to the end; a measure for the output still to be displayed |
| C113 | the objects and links of Model/World.lean, with all steps | every operation on objects of one side commutes with taking that side of the world and leaves the other side as it is (compositional over the operations); then a simulation of the history by one in which nothing happens on the other side |
| C114 | the objects, links and steps of Model/World.lean | every operation maps worlds that are equal but for the output of one client to such worlds (compositional over the operations); a history is compared with the one in which this client takes nothing |
| C115 | the objects, links and steps of Model/World.lean | every operation on other objects commutes with removing the client from the world, every operation on the client itself leaves the world without it as it is (compositional over the operations) |
| C116 | the objects, links and steps of Model/World.lean | each operation keeps the links and the mark of a client it is not about, except the forced part of link_objs; induction over the commands of a read, the consoles of a request and the history |
| C117 | the reset fields of one console and its timer, with results of format, fork and malloc as inputs | an invariant that ties the fields to what was observed so far; the last claim is false without memory for a timer (negation for every history) |
| C118 | `process_config` from `fstat` to the end of the parser, with the memory of `malloc` as input, on top of the models of `read_n` (C25) and of the parser (C54) | composition with the theorems about reads and the lexer; negations for pipes, NUL bytes and files that change |

Every property can be expressed for the logic part; behaviour outside the model
is named in the sections below. The plan rows were written before the proofs;
where the result differs, `MANIFEST.json` and the section "Findings" say so.

## Trusted base

* Lean 4.33.0, its kernel. No axioms of our own, no `sorry`, no `native_decide`,
  no `bv_decide`. The axioms every claimed theorem depends on are listed in
  `AXIOMS.md`: none, or some of `propext`, `Quot.sound`, `Classical.choice`.
* The definitions in `lean/Verif/Spec` and the theorem statements in
  `lean/Verif/Props`: that they say what `properties.jsonl` says in English.
* The reading of the C sources into `lean/Verif/Model` (file and lines are cited
  at every definition, simplifications are named there).
* libc, the kernel and the IPMI library, as far as they appear in the model:
  as arguments over which theorems quantify, or by the assumptions below.

### Assumptions

* Platform: Linux with glibc on x86-64: `char` signed, `int` of 32 bits, `long`
  of 64 bits, conversions of larger numbers to `int` keep the low bits (gcc).
  The C locale is in force (no call of `setlocale`): no byte of 128 or more is a
  letter, digit or space.
* The default build: NDEBUG is defined, so assertions are not executed.
* Memory allocation succeeds, except where the model has a failing case
  (list.c). `snprintf` never fails. `strftime` gives non-empty texts.
* Descriptors are below 2^30. In `World` process ids are not reused; C97 is about what happens if they are.
* tpoll: every operation is one critical section of its mutex; the creation of
  timers does not fail; `timers_next_id` wraps at INT_MAX.
* Threads: the steps of `World` are atomic. Each `process_client` thread has a
  step for the check of a request and one for carrying it out.
* Time zone offset constant (C53), `mktime` does not fail.
* Configuration: `conf->cwd` is known; files do not change while the
  configuration is read; `stat("")` fails; numbers beyond `int` in `sscanf` are
  undefined; all optional IPMI workarounds are compiled in; syslog.h values of
  Linux; `errno` before test options is an input.
* inotify: the event queue has no limit, watch descriptors are not used again.
* get_sane_env: the size of the environment fits an `int`.

## What is modelled

A function is listed as modelled if a definition in `lean/Verif/Model` cites
lines of it; the comment there says which parts are left out (mostly error
messages, debug output, assertions and freeing of memory). `portable/strlcpy.c`
and `portable/strlcat.c` are modelled in CStr. Not modelled at all: the lib/
scripts, the build system, the man pages, and these functions:

<!-- coverage begin -->
| source | model files | functions modelled | functions not modelled |
|---|---|---|---|
| client-conf.c | ClientArgs, ClientOut | create_client_conf, process_client_env_vars, process_client_cmd_line, read_consoles_from_file, open_client_log, close_client_log | destroy_client_conf, display_client_help |
| client-sock.c | CStr, ClientArgs, ClientOut, Proto | connect_to_server, send_greeting, send_req, recv_rsp, parse_rsp_ok, parse_rsp_err, display_error, display_data, display_consoles | - |
| client-tty.c | CliLoop, ClientOut, Esc, Tty | connect_console, exit_handler, read_from_stdin, write_to_stdout, send_esc_seq, perform_break_esc, perform_close_esc, perform_del_esc, perform_echo_esc, perform_force_esc, perform_help_esc, perform_info_esc, perform_join_esc, perform_log_replay_esc, perform_monitor_esc, perform_quiet_esc, perform_reset_esc, perform_suspend_esc, locally_echo_esc, write_esc_char, locally_display_status | - |
| client.c | ClientArgs, ClientOut | main | - |
| common.c | Mutexes, Tty | create_req, destroy_req, get_tty_raw | get_tty_mode, set_tty_mode |
| inevent.c | Child, Inevent, Mutexes | inevent_add, inevent_remove, inevent_process, _inevent_init, _inevent_fini, _inevent_create | inevent_get_fd, _inevent_destroy, _list_find_by_path, _list_find_by_wd, _list_find_by_event |
| lex.c | Lex | lex_create, lex_next, lookup_token, lex_encode, lex_decode | lex_destroy, lex_prev, lex_line, lex_text, lex_tok_to_str, xstrcasecmp, validate_sorted_tokens, lex_parse_test |
| list.c | List, Mutexes, Pool, Races | list_create, list_destroy, list_is_empty, list_count, list_append, list_prepend, list_find_first, list_delete_all, list_sort, list_pop, list_peek, list_iterator_create, list_iterator_reset, list_iterator_destroy, list_next, list_insert, list_find, list_remove, list_delete, list_node_create, list_node_destroy, list_alloc, list_node_alloc, list_iterator_alloc, list_free, list_node_free, list_iterator_free | list_push, list_enqueue, list_dequeue |
| log.c | LogFiles, LogMsg, Mutexes, Startup | log_set_file, log_err, log_msg, log_aux, log_prefix | debug_printf, log_set_syslog, log_set_err_pipe |
| server-conf.c | Audit, CStr, Child, Conf, ConfLoad, Device, Disk, Locks, LogFiles, Mutexes, ServerArgs, Stop, Syslog, Whole, World | create_server_conf, destroy_server_conf, process_cmdline, process_config, display_server_help, signal_daemon, parse_console_directive, process_console, parse_global_directive, parse_server_directive, read_pidfile, write_pidfile, lookup_syslog_priority, lookup_syslog_facility | - |
| server-esc.c | Child, Esc, EscLog, Mutexes, NoticeText, Procs, Races, Replay, ReplayHist, ResetTime, Ring, Stop, World | process_client_escapes, perform_serial_break, perform_del_char_seq, perform_console_writer_linkage, perform_log_replay, perform_quiet_toggle, perform_reset, kill_reset_cmd, perform_suspend | - |
| server-ipmi.c | Backoff, Child, Conf, Device, Ipmi, Mutexes, NoticeText, Opening | ipmi_init, ipmi_fini, is_ipmi_dev, parse_ipmi_opts, parse_ipmi_opts_v1, process_ipmi_opt, is_ipmi_opt_tag, process_ipmi_opt_username, process_ipmi_opt_password, process_ipmi_opt_k_g, process_ipmi_opt_privilege, process_ipmi_opt_cipher, process_ipmi_opt_workaround, parse_key, create_ipmi_obj, open_ipmi_obj, disconnect_ipmi_obj, connect_ipmi_obj, initiate_ipmi_connect, create_ipmi_ctx, complete_ipmi_connect, fail_ipmi_connect, reset_ipmi_delay, send_ipmi_break | init_ipmi_opts |
| server-logfile.c | Child, Disk, Format, Locks, Log, LogFiles, Mutexes, NoticeText, Opening, Opts, ReplayHist, World | parse_logfile_opts, create_logfile_obj, open_logfile_obj, get_console_logfile_obj, write_log_data | - |
| server-obj.c | Audit, CStr, Child, Conf, Disk, Esc, Format, LogFiles, Loss, Mutexes, Name, NoticeText, Opening, Races, ReplayHist, Ring, Serve, Stop, Telnet, Tty, Whole, World | create_obj, create_client_obj, destroy_obj, reopen_obj, format_obj_string, sanitize_file_string, compare_objs, find_trailing_int_str, write_notify_msg, notify_console_objs, link_objs, unlink_objs, unlink_obj, shutdown_obj, read_from_obj, write_obj_data, write_to_obj, num_bytes_buffered | find_obj, validate_obj_links |
| server-process.c | Backoff, Child, Conf, Device, Mutexes, NoticeText, Opening, Procs, World | is_process_dev, search_exec_path, create_process_obj, open_process_obj, disconnect_process_obj, connect_process_obj, check_process_prog, reset_process_delay | - |
| server-serial.c | Child, Conf, Device, Mutexes, NoticeText, Opening, Opts, Tty, World | is_serial_dev, parse_serial_opts, int_to_bps, set_serial_opts, create_serial_obj, open_serial_obj | bps_to_int, parity_to_str |
| server-sock.c | Audit, Backoff, Mutexes, Mux, NoticeText, Opening, Proto, Races, Request, Serve, Whole, World | process_client, resolve_addr, recv_greeting, parse_greeting, recv_req, parse_cmd_opts, query_consoles, query_consoles_via_globbing, query_consoles_via_regex, validate_req, check_too_many_consoles, check_busy_consoles, send_rsp, perform_query_cmd, perform_monitor_cmd, perform_connect_cmd, check_console_state | - |
| server-telnet.c | Backoff, Child, Conf, Device, Mutexes, NoticeText, Opening, Telnet | is_telnet_dev, create_telnet_obj, open_telnet_obj, connect_telnet_obj, disconnect_telnet_obj, reset_telnet_delay, process_telnet_escapes, send_telnet_cmd, process_telnet_cmd | opt2str |
| server-test.c | Child, Conf, Device, Mutexes, Opening, Opts, TestCon | is_test_dev, parse_test_opts, process_test_opt, create_test_obj, open_test_obj, read_test_obj | init_test_opts |
| server-unixsock.c | Backoff, Child, Conf, Device, Mutexes, NoticeText, Opening | is_unixsock_dev, create_unixsock_obj, open_unixsock_obj, open_unixsock_obj_via_inotify, connect_unixsock_obj, disconnect_unixsock_obj, reset_unixsock_delay | max_unixsock_dev_strlen |
| server.c | Audit, Child, Core, Display, Env, Locks, LogFiles, Mutexes, Mux, NoticeText, Opening, Procs, Races, ServerArgs, Stamp, Startup, Stop, Syslog, Whole, World | main, begin_daemonize, end_daemonize, setup_coredump, setup_signals, sig_chld_handler, sig_hup_handler, exit_handler, coredump_handler, get_sane_env, display_configuration, schedule_timestamp, timestamp_logfiles, create_listen_socket, setup_nofile_limit, open_objs, mux_io, open_daemon_logfile, reopen_logfiles, accept_client | - |
| tpoll.c | Child, Mutexes, Mux, Poll, ResetTime, World | tpoll_create, tpoll_destroy, tpoll_zero, tpoll_clear, tpoll_is_set, tpoll_set, tpoll_timeout_absolute, tpoll_timeout_relative, tpoll_timeout_cancel, tpoll, _tpoll_init, _tpoll_signal_send, _tpoll_signal_recv, _tpoll_grow, _tpoll_get_timeval, _tpoll_diff_timeval | - |
| util-file.c | File, Locks, Mux | get_read_lock, get_readw_lock, get_write_lock, get_writew_lock, release_lock, is_read_lock_blocked, is_write_lock_blocked, get_file_lock, test_file_lock, read_n, write_n, read_line, get_dir_name, create_dirs | set_fd_closed_on_exec, set_fd_blocking, set_fd_nonblocking |
| util-net.c | HostEnt, Mutexes | get_host_by_name, get_host_by_addr, host_strerror, host_name_to_addr4, host_addr4_to_name, host_name_to_cname, copy_hostent | validate_hostent_copy, inet_pton, inet_ntop |
| util-str.c | CStr, Conf, Ipmi, Log, Mutexes, NoticeText, Stamp, Time | create_string, create_format_string, parse_string, append_format_string, substitute_string, create_long_time_string, create_short_time_string, create_time_delta_string, write_time_string, get_localtime, toint | replace_string, destroy_string, is_empty_string, strcasecmp, strncasecmp |
| util.c | Child | posix_signal | out_of_memory |
<!-- coverage end -->

## Findings

Where the code does not have a property in full, the failing case is a theorem.
The claim is then `partial`, unless the property is about the other cases only.

| theorem | what happens |
|---|---|
| C01_long_write | A single write longer than the buffer keeps its head, not its tail. |
| C04_replay_stale_after_shutdown | After a log was shut down and reopened, a replay sends bytes from before. |
| C05_idle_not_closed | A quiet client whose console was taken and for which nothing waits is not closed. |
| C05_suspended_stuck | A suspended client at end of file is never drained or closed. |
| C07_high_escape_char_dead | Escape characters of 128 and more are never recognised. |
| C11_check_then_link_race | Two requests checked before either is carried out both get write access. |
| C11_monitor_command_joins | A monitoring client gets write access with the command M. |
| C12_bytes_before_join_leak | Bytes sent before a join command in the same read reach the console. |
| C16_newline_breaks_out | lex_encode does not protect line breaks. |
| C20_empty_append_on_full, C20_unterminated_overread | append_format_string at the boundary. |
| C22_lone_quote_accepted | A quote as last character of a reset command is accepted. |
| C26_one_byte_buffer | read_line with one byte: 0 does not mean end of file. |
| C27_clock_set_back | Elapsed times are wrong after the clock was set back. |
| C28_forgets | An iterator forgets its item if the item after it is removed by another one. |
| C31_not_transitive, C31_listing_depends_on_order | The order of names is not transitive. |
| C32_moved_while_polling | Growth of the table while a thread is in poll(): results go to freed memory. |
| C34_far_spins | Deadlines further away than 2147483 s make polling spin. |
| C35_iac_in_subnegotiation_leaks, C35_decoder_stale_after_reconnect | Telnet data lost or leaked. |
| C38_rendering_ambiguous | The sanitized log of different data can be the same. |
| C41_lone_percent | A format ending in a single % makes the function read behind the terminator. |
| C42_dots | A console called ".." is used as it is in file names. |
| C44_serial_garbage, C44_log_unknown, C44_test_stale, C44_ipmi_wraps | Option strings accepted or refused by mistake. |
| C45_password_cut, C45_odd_digits | Hexadecimal keys cut at a zero byte; odd number of digits accepted. |
| C46_interval_overflow | Accepted settings of a test console make the pause overflow. |
| C52_ended_blocks | A reset command that has ended blocks the next one until its timer expires. |
| C53_clock_changed | The next timestamp is wrong after the clock was changed. |
| C54_bare_stamp, C54_byte_ff, C54_second_port, C54_logfile_comma, C54_unit_resets, C54_stamp_overflow, C54_long_name | Reading of SERVER lines. |
| C55_cname_long | host_name_to_cname does not check the length of the address. |
| C57_port_wraps, C57_port_overflow, C57_empty_host | Telnet devices. |
| C58_kern_ignored | Facility kern is accepted but does not turn on syslog. |
| C59_two_spellings, C59_recreated | File watches. |
| C60_command_overtakes_text, C60_break_overtakes_text | Commands overtake text typed before. |
| C61_inotify_drops_connection | A file event drops a working connection. |
| C62_stolen_client_crashes | Bytes of a client whose console was taken crash the daemon. |
| C67_client_overflow | The client passes any error number to atoi. |
| C69_same_file | Two consoles can log to the same file. |
| C70_ipmi_number, C70_directory_hides | Devices misread. |
| C71_log_refused, C71_telnet_shared | CONSOLE lines. |
| C72_ofd, C72_replaced, C72_both_refused | Two daemons can run, or two that start at the same time both exit. |
| C73_starter, C73_stale, C73_lock_holder, C73_replaced | Control commands signal the wrong process, in one case process -1; an old daemon removes the pid file of a new one. |
| C74_daemon_reopened, C74_shared_file | Locks of logs are lost by reopening. |
| C75_lost_wakeup, C75_hup_lost | Signals at certain points of the main loop have no effect, or none until something else happens. |
| C77_exhausted | Clients that connect and send nothing end the daemon, whatever the limit of descriptors. |
| C78_killed, C78_late | The command that starts the daemon reports success although the daemon was killed on the way, or gives up afterwards: `nofile` above the hard limit without privilege ends the daemon after the command has returned 0. |
| C78_parent | If a call fails in the command itself it reports failure although the daemon runs (the FIXME in the source). |
| C79_forged | Names of users are written to the log as received; a client can send a newline as byte 0x8A and so add any line to the log of the daemon. |
| C79_joined | An escape code that is not known is put into the message as it is. The code NUL cuts the message and its newline off, so that the next message of the daemon, about anything, goes on in the same line. |
| C79_split | The code newline ends the line of the message early; the rest is a line without time and priority. |
| C79_history | After one failing write nothing more is written to the log until it is reopened. |
| C80_long_line | Lines of a file of names (`-F`) longer than 1023 bytes are split: the rest of a long comment is taken for the name of a console. |
| C80_port_wraps, C80_port_ignored | A port above 65535 is not refused but taken modulo 65536; a port that is no number is silently ignored. |
| C81_left_raw | If a call fails (a connection that is reset, for example) the client ends without restoring the terminal: it stays in raw mode without echo. |
| C81_not_raw, C82_not_clean | `get_tty_raw` does not clear IGNCR, INLCR and PARMRK: with them carriage returns are lost, newlines changed, bytes 0xFF doubled, on the terminal of the client and on serial lines. |
| C81_echo_after_stop, C81_changes_lost | After a suspension the terminal does not echo although the client believes it does, and the next `&E` does the reverse of what the help says; modes changed while suspended are lost at the end. |
| C83_blames_server | When the client is told to terminate or its own input ends, it says that the connection was "terminated by server". |
| C84_self_otherwise | The help says that typing the escape character twice sends it: not in a session that only monitors, nor when it is the letter of a command (`-e D`): then the command is run. |
| C84_not_ascii | An escape character that is not ASCII never starts a command, so the session cannot be closed by one, and is shown as another character. |
| C85_long_name | A console whose name has 1023 bytes makes `conman -q` fail: neither it nor the names after it are listed. |
| C85_no_terminal | Whether there is a terminal is checked only after the request was accepted: `conman -f` in a pipe takes the console from another user, and then fails. |
| C86_too_long | An answer of more than 131071 bytes is never sent: with many consoles `conman -q`, or a broadcast to them, only reports "Connection terminated", although the request is good. |
| C86_busy, busyLine_eq | A line about who uses a console is cut after 1022 bytes; one of exactly 1022 bytes, which is complete, gets a second newline. |
| C87_port_cut | A port above 65535 is accepted, and cut to 16 bits: with 70000 the daemon says that it listens on port 70000, but does on 4464. |
| C87_port_text | A port that is no number is taken for 0, so that the daemon listens on any port. |
| C87_long_pidfile | The name of a pid file relative to the working directory is cut after 1023 bytes. |
| C87_pidfile_ignored, C87_inactive | Control commands signal before they read the configuration, so that the pid file of the directive PIDFILE is never used by -k, -q or -r; conmand(8) says otherwise in its notes. Only -P on the line of the control command helps. |
| C88_zero_locked, C88_zero_locked_daemon | With -z, files are emptied by the opening, before their lock is tried: a second daemon with -z empties a log that a running one has locked, and then refuses to use it. |
| C88_zero_used | -z counts for the first attempt to open a log, also if this fails. |
| C88_late | Data that came before SIGHUP but waits is written to the new file, before the message that this was opened. |
| C88_stop, C88_stop_loses | On SIGTERM data that waits for logs is dropped. |
| C88_write_error | After one error of writing (a full disk, say) a console is not logged any more until SIGHUP; what waited is dropped. |
| C89_lookup_stalls | The name of a client is looked up under a mutex that the main thread needs to connect a telnet console by name: while the name service does not answer, that connection attempt stops all consoles. |
| C89_poll_race | poll() is called on the table of descriptors without its mutex, while the thread of a client may enlarge the table (realloc) under it: poll then writes to memory that was given back. |
| C90_hangup_crashes, C90_hangup_dangles | A client is put on the master list before it is connected to its consoles. If it hangs up at once, the main thread gives its object back while its own thread goes on to use it. |
| C90_refusal_crashes | The refusal of a console in use names the clients that use it; one of them may be given back by the main thread between being found and being read. |
| C90_forced_crashes | A forced request unlinks another client in the thread of the new one, while the main thread may be closing that same client. |
| C90_mixed_crashes | A forced request that meets a broadcast request being set up leaves a connection of which only the console knows. Nothing is wrong until the client leaves; then the console keeps a reference to it, and the next notice uses it. |
| C90_both_connect | Whether a console is in use is looked up before, and not together with, connecting to it: two clients that ask at the same time, neither with force nor to join, both get to write. |
| C91_not_sent_after_reconnect | Text typed while a console is down is kept, but a new connection of a process, UNIX socket, IPMI or serial console is polled for reading only: the text is not sent when the console is back, but all at once with the next key that somebody types. |
| C91_lost_when_closed | Text typed after the end of file of a console is dropped without a word to the client; what waits when a console is closed is lost. |
| C91_telnet_command | A byte 0xFF typed to a telnet console is sent as a single 0xFF (IAC): with the byte after it, it is a telnet command. |
| C92_lost_on_error, C92_stays_closed | One failed write (disk full for a moment) drops what waits for the log and closes it; nothing is logged any more until the daemon is told to reconfigure (SIGHUP), though the console goes on. |
| C92_burst_lost | A single read of 800 or more line ends makes more stamped log text than the buffer of the log holds, even if it was empty: the excess is lost. |
| C93_nothing_else | Nothing is ever made up: holds for all clients, also ones that send commands. |
| C94_keys_reach_console_partial, C94_output_reaches_terminal | Put together, client and daemon neither change, double nor reorder text or output. |
| C95_forgotten | A console (other than telnet) that comes up with bytes waiting, typed while it was down, is not asked for: they stay until something else is typed. |
| C97_reused, C97_wrong_console | The process number of a reset command stays noted for up to 60 seconds after the command has ended and was collected; if the kernel gives it to another process meanwhile, that process and its group are killed when the timer expires. Likewise the program of a console, when the console is closed after the program has ended (which is the usual reason for closing it). |
| C97_left_behind | When the first process of a reset command has ended, processes it left in the background are not killed after 60 seconds: the test `kill(pid, 0)` fails although the group exists. |
| C97_child_left, C97_outlives | Children of a console program survive the closing of the console; reset commands survive the end of the daemon. |
| C98_break_as_data | A byte 0xFF typed to a telnet console swallows what the daemon itself sends next: a break asked for after it reaches the peer as two bytes of data. |
| C99_old_connection | The decoder of a telnet console is not reset when its connection is lost: if it was lost inside a command, output at the start of the next connection is swallowed, for the log and for all users. |
| C100_shared_file | With GLOBAL log="%N.log" consoles named "a b" and "a_b" share one log file without an error: names of log files are compared before conversion specifiers are expanded, and characters of names are replaced. |
| C101_forged, C101_any_user, C101_sanitized_escape | The daemon does not check the user and terminal names that a client sends, and the escape for characters in strings of the protocol gives every 7-bit character. A client can call itself by a name that contains a line end and any text: everybody at the console and its log then get a line that looks like a notice of the daemon. Escape sequences in such a name get into logs with the option sanitize, too. |
| C101_two_lines | A notice of link_objs whose sentence has 1007 or 1008 characters has two line ends: the test for truncation takes a message that just fits for a truncated one. |
| C101_opened_cut | The notice at the opening of a log is cut without a line end if the name of the console is long, so that the output of the console continues its line. |
| C102_stale, C102_stale_reached | shutdown_obj empties the buffer of a log but leaves gotBufWrap set (C04): in the running daemon, a replay after a failed write and a SIGHUP mixes what was logged since with older bytes, in the wrong order. |
| C103_compressed | The example etc/conman.logrotate has compress and nodelaycompress: the renamed file is compressed and removed as soon as SIGHUP was sent. The daemon notices the signal at its next round (src/server.c:771) and can write to the old file after it was read; these bytes are lost. With delaycompress they are not (C103_parts). |
| C104_held, C104_connection | FD_CLOEXEC is set for a client only by create_client_obj (src/server-obj.c:118), in the thread of the client, and never for queries or refused requests. A program or reset command started by the main thread between accept (src/server.c:975) and that holds the connection; a query client, which reads to end-of-file, hangs until the program ends. |
| C104_stdin_closed | Started as a daemon with stdin closed, the pipe of the poll table gets number 0 and end_daemonize replaces its read end by /dev/null: every poll returns at once, and the first signal from another thread reads end-of-file, at which the daemon exits (src/tpoll.c:797-808). Not so with stdin, stdout and stderr open (C104_poll_pipe). |
| C104_signals, C104_mask | SIGPIPE stays ignored in the programs of consoles and reset commands (src/server.c:358), and their mask is 0 when started by a daemon (src/server.c:199): files they create are writable by everybody. Descriptors above 2 that the daemon inherited are passed on (C104_program). Both ends of the socket pair are non-blocking (src/server-process.c:323-324), so a program has a non-blocking stdin. |
| C105_memory | Memory of lists is never handed back to malloc (src/list.c:711-718), so the daemon keeps the memory of its busiest moment; it does not grow with the number of clients that came and went. |
| C106_leak, C106_program, C106_ends, C106_foreign | `check_console_state` (src/server-sock.c:919-977) opens consoles in the thread of a client, without a lock; so do two clients that ask for the same console, and the main thread. A descriptor can be lost for good; a program can run twice, one of them never to be killed by the daemon; the daemon ends if a telnet console is found to be connected in `connect_telnet_obj` (src/server-telnet.c:262; the message there also lacks an argument); and a descriptor can be closed twice, the second time that of a third client. |
| C107_last, C107_lost | When the daemon is stopped, what consoles said since the last write to their logs is thrown away: `destroy_obj` (src/server-obj.c:153-158) reports the number of bytes but does not write them, although the log file is open. What is read in the last round of `mux_io` needs another round to be written, so this is what happens to all of it. |
| C107_reset_left | At the end SIGTERM is sent to the process group of the daemon (src/server.c:165-170), but reset commands have groups of their own (src/server-esc.c:471,492) and the timer that would kill them ends with the daemon, so that one that hangs stays for ever. In the foreground no program is told at all. |
| C108_kern | With `SERVER syslog=kern` the daemon displays the option SysLog (src/server.c:534 tests >= 0) but does not log to it (src/server.c:131 tests > 0). |
| C109_background | conman.conf(5) says that without `coredumpdir` the core of a daemon in the background is written in "/". But `setup_coredump` (src/server.c:111) asks for the working directory before `end_daemonize` leaves it (src/server.c:148), and `coredump_handler` goes back there (src/server.c:407). |
| C110_mode | the log tells `(read-only)` of a session when it begins, but not when the client switches to read-write with `&F` or `&J`, nor when a client with write access loses it (`process_client_escapes` and `perform_console_writer_linkage`, src/server-esc.c:81-105, 224-259); the log cannot be used to find out who typed something. |
| C111_suspended | while a client has suspended its output (`&Z`), what it loses beyond 16383 bytes is told neither in the log nor to the client when it resumes. |
| C112_lost_wakeup | `while (!done) { ... select() }` (src/client-tty.c:105-110): SIGTERM between the test and select() is lost until the next key or output; pselect() would avoid it. |
| C112_stuck | while the server does not read, the client is in a write() that is repeated after signals; SIGINT, SIGQUIT, SIGHUP are ignored and SIGTERM only sets a flag, so that only SIGKILL ends it, which leaves the terminal raw. |
| C113_crash | the only influence across consoles in the model is the crash of C62: a stolen client can end the sessions on all other consoles. |
| C114_ended | a client that has ended its side of the connection but does not take its output keeps its consoles busy for as long as it likes. |
| C115_joins | not a fault: the excluded commands are noticed by others, so the exception is needed. |
| C116_taken | not a fault: shows that the exception is needed. |
| C117_forever | If there is no memory for the timer of a reset command (src/server-esc.c:503, only a message is written), the command is never ended, and the console can never be reset again while the daemon runs, even after the command has ended. |
| C118_nul | Text after a NUL byte in the configuration is ignored without a message. |
| C118_pipe | A configuration given as a pipe or device has the length 0 and is not read at all; the daemon then complains that there are no consoles. |
| C118_shrunk | If the file becomes shorter between fstat and read, the number of bytes read is checked by an assertion only (src/server-conf.c:432), which is compiled out: the rest of the text is whatever the memory had. |
| C37_hint_late | The mark of an attempt caused by the directory of a unix socket is also set while the console is up; it then stays set, and a later attempt of the timer sets the delay back although nothing happened. |
