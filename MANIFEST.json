{
 "claims": [
  {
   "property": "C01",
   "status": "proved",
   "theorems": [
    "Conman.C01_buffer_refines_queue",
    "Conman.C01_long_write",
    "Conman.C01_world_buffer"
   ],
   "note": "Single writes longer than the buffer keep their head, not their tail (C01_long_write); the property is about writes shorter than the buffer."
  },
  {
   "property": "C02",
   "status": "proved",
   "theorems": [
    "Conman.C02_no_loss_without_overflow"
   ],
   "note": ""
  },
  {
   "property": "C03",
   "status": "proved",
   "theorems": [
    "Conman.C03_buffer_memory_safe"
   ],
   "note": ""
  },
  {
   "property": "C04",
   "status": "partial",
   "theorems": [
    "Conman.C04_replay_partial",
    "Conman.C04_replay_no_log",
    "Conman.C04_replay_stale_after_shutdown"
   ],
   "note": "Holds until the log object is shut down and reopened; after that the wrap flag is stale and bytes from before are replayed (C04_replay_stale_after_shutdown is the witness)."
  },
  {
   "property": "C05",
   "status": "partial",
   "theorems": [
    "Conman.C05_no_more_data_partial",
    "Conman.C05_closed_only_when_drained",
    "Conman.C05_last_byte_closes",
    "Conman.C05_draining_polled",
    "Conman.C05_idle_not_closed",
    "Conman.C05_suspended_stuck"
   ],
   "note": "An orphaned quiet client with nothing pending is not closed (C05_idle_not_closed); a suspended client at end-of-file is never drained (C05_suspended_stuck)."
  },
  {
   "property": "C06",
   "status": "proved",
   "theorems": [
    "Conman.C06_console_output",
    "Conman.C06_telnet_output",
    "Conman.C06_client_input"
   ],
   "note": ""
  },
  {
   "property": "C07",
   "status": "proved",
   "theorems": [
    "Conman.C07_escape_transparency",
    "Conman.C07_high_escape_char_dead"
   ],
   "note": "A client escape character of 128 or more can never be recognised (C07_high_escape_char_dead)."
  },
  {
   "property": "C08",
   "status": "proved",
   "theorems": [
    "Conman.C08_split_independent",
    "Conman.C08_no_growth"
   ],
   "note": ""
  },
  {
   "property": "C09",
   "status": "proved",
   "theorems": [
    "Conman.C09_links_symmetric"
   ],
   "note": ""
  },
  {
   "property": "C10",
   "status": "proved",
   "theorems": [
    "Conman.C10_forced_connect",
    "Conman.C10_forced_by_escape"
   ],
   "note": ""
  },
  {
   "property": "C100",
   "status": "partial",
   "theorems": [
    "Conman.C100_file",
    "Conman.C100_zero",
    "Conman.C100_other_files",
    "Conman.C100_names_plain",
    "Conman.C100_names_global",
    "Conman.C100_nothing_invented",
    "Conman.C100_nothing_invented_raw",
    "Conman.C100_complete_partial",
    "Conman.C100_complete_raw_partial",
    "Conman.C100_sanitized",
    "Conman.C100_shared_file"
   ],
   "note": "The file is proved to be exactly what was written to it, whatever happens. Partial: completeness as in C92 (write errors and bursts lose output); two consoles can have one file (C100_shared_file, C69_same_file)."
  },
  {
   "property": "C101",
   "status": "partial",
   "theorems": [
    "Conman.C101_text",
    "Conman.C101_bounds",
    "Conman.C101_ends",
    "Conman.C101_one_line_partial",
    "Conman.C101_printable",
    "Conman.C101_env",
    "Conman.C101_names_received",
    "Conman.C101_any_user",
    "Conman.C101_forged",
    "Conman.C101_sanitized_file_partial",
    "Conman.C101_sanitized_escape",
    "Conman.C101_opened_cut",
    "Conman.C101_two_lines"
   ],
   "note": "The exact text is proved for sentences of at most 1006 characters, prefix, bound and end of line for any. Partial because a client can put line ends and escape sequences into its own name (C101_forged, C101_sanitized_escape), and because of two wrong truncations (C101_two_lines, C101_opened_cut)."
  },
  {
   "property": "C102",
   "status": "partial",
   "theorems": [
    "Conman.C102_replay_partial",
    "Conman.C102_not_logged",
    "Conman.C102_own_bytes",
    "Conman.C102_reopened",
    "Conman.C102_file",
    "Conman.C102_fits",
    "Conman.C102_chunks",
    "Conman.C102_stale",
    "Conman.C102_stale_reached"
   ],
   "note": "Exact for logs that were not shut down by an error; after a shutdown exact if the buffer had not wrapped before (C102_reopened). Otherwise a replay shows bytes from before the error (C102_stale, C102_stale_reached), but never bytes that were not written to this log (C102_own_bytes)."
  },
  {
   "property": "C103",
   "status": "partial",
   "theorems": [
    "Conman.C103_parts",
    "Conman.C103_complete_partial",
    "Conman.C103_complete_raw_partial",
    "Conman.C103_done",
    "Conman.C103_compressed"
   ],
   "note": "The parts and the log file together are proved to be exactly what was written to the log. Partial: completeness as in C92; false for parts that are removed, once read, before the daemon has opened the log again (C103_compressed), which is what etc/conman.logrotate does."
  },
  {
   "property": "C104",
   "status": "proved",
   "theorems": [
    "Conman.C104_start",
    "Conman.C104_poll_pipe",
    "Conman.C104_program",
    "Conman.C104_reset",
    "Conman.C104_clean",
    "Conman.C104_connection",
    "Conman.C104_signals",
    "Conman.C104_mask",
    "Conman.C104_held",
    "Conman.C104_stdin_closed"
   ],
   "note": "All descriptors, exactly. C104_held: a connection closed by the daemon can stay open in a program. C104_stdin_closed: what happens if the daemon is started with stdin closed."
  },
  {
   "property": "C105",
   "status": "proved",
   "theorems": [
    "Conman.C105_lists",
    "Conman.C105_others",
    "Conman.C105_apart",
    "Conman.C105_iterators",
    "Conman.C105_nothing_lost",
    "Conman.C105_memory",
    "Conman.C105_twice"
   ],
   "note": "Calls on one list are serialised by its lock, taking from and giving to a stock by that of the stock (C89). This discharges what C28 and C29 assume about new nodes. C105_twice: an item given back twice would be handed out twice, unnoticed."
  },
  {
   "property": "C106",
   "status": "partial",
   "theorems": [
    "Conman.C106_calm_partial",
    "Conman.C106_one_thread",
    "Conman.C106_leak",
    "Conman.C106_program",
    "Conman.C106_ends",
    "Conman.C106_foreign"
   ],
   "note": "Proved for histories in which calls on one object do not overlap (calls on different objects may). Without that it is false, and the code does not ensure it: C106_leak, C106_program, C106_ends, C106_foreign."
  },
  {
   "property": "C107",
   "status": "partial",
   "theorems": [
    "Conman.C107_closed",
    "Conman.C107_left",
    "Conman.C107_unwritten",
    "Conman.C107_serial",
    "Conman.C107_order",
    "Conman.C107_log_partial",
    "Conman.C107_log_raw_partial",
    "Conman.C107_last",
    "Conman.C107_reset_left",
    "Conman.C107_lost"
   ],
   "note": "That log files are complete at the end is false: what waits for a log is not written, only its length is reported (C107_last, C107_lost). Reset commands that run are not told to end (C107_reset_left). The rest is proved. Threads of clients that still run are not modelled."
  },
  {
   "property": "C108",
   "status": "partial",
   "theorems": [
    "Conman.C108_display",
    "Conman.C108_apart",
    "Conman.C108_targets_partial",
    "Conman.C108_foreground",
    "Conman.C108_kern"
   ],
   "note": "The last clause is false: in the foreground LogFile and SysLog are displayed although messages go to neither (C108_foreground), and SysLog is displayed for the facility kern, which is not used (C108_kern). The rest is proved. Configuration file names with a line feed are excluded from C108_apart."
  },
  {
   "property": "C109",
   "status": "partial",
   "theorems": [
    "Conman.C109_start",
    "Conman.C109_core",
    "Conman.C109_dir",
    "Conman.C109_off",
    "Conman.C109_default_partial",
    "Conman.C109_background"
   ],
   "note": "In the background, without coredumpdir, the core is not in \"/\" but in the directory the daemon was started in (C109_background). The rest is proved; C109_dir assumes that the name of the directory has less than 4096 bytes. What the operating system does with cores, and handlers interrupted by further signals, are not modelled."
  },
  {
   "property": "C11",
   "status": "partial",
   "theorems": [
    "Conman.C11_access_sources_partial",
    "Conman.C11_exclusive_partial",
    "Conman.C11_check_then_link_race",
    "Conman.C11_monitor_command_joins"
   ],
   "note": "The claim is false: the busy check and the linking are separate steps (C11_check_then_link_race), and the monitor command joins (C11_monitor_command_joins). Proved: the only ways write access is obtained."
  },
  {
   "property": "C110",
   "status": "partial",
   "theorems": [
    "Conman.C110_sessions",
    "Conman.C110_turns",
    "Conman.C110_consoles",
    "Conman.C110_end",
    "Conman.C110_mode_partial",
    "Conman.C110_mode"
   ],
   "note": "Proved except for modes: a client on record as read-only may have switched to read-write with &F or &J, and one on record as read-write may have lost the right to write; neither is told (C110_mode). Proved for clients that do not switch (C110_mode_partial). The message is taken to be written together with the links it tells of; in the code they are made by a thread of the client one after the other (the races are those of C90). What messages look like and how they are written is C79."
  },
  {
   "property": "C111",
   "status": "partial",
   "theorems": [
    "Conman.C111_account_partial",
    "Conman.C111_silence_partial",
    "Conman.C111_write",
    "Conman.C111_suspended"
   ],
   "note": "Missing in the account: clients that suspend their output, for which the loss is real and not told (C111_suspended), and informational messages that a client in quiet mode asked not to see. Writes of 16384 bytes or more, which the callers never make, would be cut without a message."
  },
  {
   "property": "C112",
   "status": "partial",
   "theorems": [
    "Conman.C112_term_partial",
    "Conman.C112_term_key",
    "Conman.C112_lost_wakeup",
    "Conman.C112_stuck",
    "Conman.C112_only",
    "Conman.C112_close",
    "Conman.C112_close_key",
    "Conman.C112_close_monitor"
   ],
   "note": "Missing, because false: SIGTERM between the test of `done` and select() is noticed only with the next key or output (C112_lost_wakeup, C112_term_key), and not while a write blocks because the server does not read (C112_stuck). After the closing command a client that monitors does not end by ordinary keys (C112_close_monitor). Messages of the client itself are taken not to block."
  },
  {
   "property": "C113",
   "status": "partial",
   "theorems": [
    "Conman.C113_frame",
    "Conman.C113_apart_partial",
    "Conman.C113_crash"
   ],
   "note": "Missing, because false: that the daemon still runs; a client of another console can crash it (C113_crash, see C62). Time of the daemon, the clock and the number of descriptors are not resources that are used up in the model; delays of one poll round by another console are not part of it."
  },
  {
   "property": "C114",
   "status": "proved",
   "theorems": [
    "Conman.C114_slow",
    "Conman.C114_ended"
   ],
   "note": "The client must not end its side of the connection: then the connection is closed only after it has taken its output, and its consoles stay busy until then (C114_ended, a finding). Time that the daemon needs for a write is not part of the model."
  },
  {
   "property": "C115",
   "status": "proved",
   "theorems": [
    "Conman.C115_unseen",
    "Conman.C115_watching",
    "Conman.C115_joins"
   ],
   "note": "The three commands to write (F, J, M) are excluded, and C115_joins shows that they do show. A read of the client may begin after an escape byte, so a read that begins with one of these letters is excluded too. The query command is not part of this model."
  },
  {
   "property": "C116",
   "status": "proved",
   "theorems": [
    "Conman.C116_kept",
    "Conman.C116_watcher",
    "Conman.C116_history",
    "Conman.C116_taken"
   ],
   "note": "The steps of the client itself are excluded: an error or end of its connection, its own commands, and the write that follows an end-of-file. The history form excludes forced requests and the byte F in what other clients send, which is more than the one-step form needs."
  },
  {
   "property": "C117",
   "status": "partial",
   "theorems": [
    "Conman.C117_starts",
    "Conman.C117_limit",
    "Conman.C117_apart",
    "Conman.C117_again_partial",
    "Conman.C117_forever"
   ],
   "note": "Missing: being able to reset again when there was no memory for a timer, which is false (C117_forever). How a request finds its consoles is C68, who is killed is C97, when the daemon looks at its timers is C34."
  },
  {
   "property": "C118",
   "status": "partial",
   "theorems": [
    "Conman.C118_file_partial",
    "Conman.C118_nul",
    "Conman.C118_grown",
    "Conman.C118_pipe",
    "Conman.C118_shrunk"
   ],
   "note": "Missing, because false: text after a NUL byte (C118_nul), pipes and devices, whose length is 0 (C118_pipe), files that grow (C118_grown) or shrink (C118_shrunk) between fstat and read. The memory is modelled with one contents; reading it is undefined in C."
  },
  {
   "property": "C12",
   "status": "partial",
   "theorems": [
    "Conman.C12_read_only_partial",
    "Conman.C12_bytes_before_join_leak"
   ],
   "note": "Bytes sharing a read with a later join command are delivered (C12_bytes_before_join_leak). Proved for reads without such a command."
  },
  {
   "property": "C13",
   "status": "proved",
   "theorems": [
    "Conman.C13_modes_agree"
   ],
   "note": ""
  },
  {
   "property": "C14",
   "status": "proved",
   "theorems": [
    "Conman.C14_stream",
    "Conman.C14_step",
    "Conman.C14_unambiguous",
    "Conman.C14_complete"
   ],
   "note": "The token table must be sorted and its entries shorter than 1023 bytes, as all tables of the programs are (C17_tables)."
  },
  {
   "property": "C15",
   "status": "proved",
   "theorems": [
    "Conman.C15_line_numbers",
    "Conman.C15_lines"
   ],
   "note": ""
  },
  {
   "property": "C16",
   "status": "proved",
   "theorems": [
    "Conman.C16_round_trip",
    "Conman.C16_decode_iff",
    "Conman.C16_newline_breaks_out"
   ],
   "note": "Line breaks are outside the property; C16_newline_breaks_out shows they are not protected by the encoding."
  },
  {
   "property": "C17",
   "status": "proved",
   "theorems": [
    "Conman.C17_lookup_exact",
    "Conman.C17_tables"
   ],
   "note": ""
  },
  {
   "property": "C18",
   "status": "proved",
   "theorems": [
    "Conman.C18_request",
    "Conman.C18_greeting",
    "Conman.C18_empty_names_dropped",
    "Conman.C18_newline_cuts",
    "Conman.C18_cr_injects"
   ],
   "note": "For 7-bit names without NUL or line breaks of at most 1023 bytes. Empty names are dropped; line breaks in names are not carried (witnesses)."
  },
  {
   "property": "C19",
   "status": "proved",
   "theorems": [
    "Conman.C19_ok",
    "Conman.C56_error",
    "Conman.C19_overlong",
    "Conman.C56_overlong",
    "Conman.C56_whole"
   ],
   "note": ""
  },
  {
   "property": "C20",
   "status": "partial",
   "theorems": [
    "Conman.C20_append_partial",
    "Conman.C20_pieces_partial",
    "Conman.C20_empty_append_on_full",
    "Conman.C20_unterminated_overread"
   ],
   "note": "Appending nothing to an exactly full buffer reports truncation (C20_empty_append_on_full); on an unterminated buffer the byte after it is read (C20_unterminated_overread)."
  },
  {
   "property": "C21",
   "status": "proved",
   "theorems": [
    "Conman.C21_substitute"
   ],
   "note": ""
  },
  {
   "property": "C22",
   "status": "partial",
   "theorems": [
    "Conman.C22_words",
    "Conman.C22_unmatched_partial",
    "Conman.C22_cases",
    "Conman.C22_lone_quote_accepted"
   ],
   "note": "A quote that is the last character of the string is not rejected (C22_lone_quote_accepted)."
  },
  {
   "property": "C23",
   "status": "proved",
   "theorems": [
    "Conman.C23_strlcpy",
    "Conman.C23_strlcpy_short",
    "Conman.C23_strlcat",
    "Conman.C23_strlcat_full"
   ],
   "note": ""
  },
  {
   "property": "C24",
   "status": "proved",
   "theorems": [
    "Conman.C24_dir_name",
    "Conman.C24_dir_unique"
   ],
   "note": ""
  },
  {
   "property": "C25",
   "status": "proved",
   "theorems": [
    "Conman.C25_read",
    "Conman.C25_write"
   ],
   "note": "A write that keeps transferring 0 bytes is repeated for ever."
  },
  {
   "property": "C26",
   "status": "proved",
   "theorems": [
    "Conman.C26_read_line",
    "Conman.C26_one_byte_buffer"
   ],
   "note": "For buffers of at least 2 bytes; with one byte, 0 does not mean the end of the stream (C26_one_byte_buffer)."
  },
  {
   "property": "C27",
   "status": "partial",
   "theorems": [
    "Conman.C27_reads_back_partial",
    "Conman.C27_canonical_partial",
    "Conman.C27_clock_set_back",
    "Conman.C27_year_overflow",
    "Conman.C27_year_of_364_days"
   ],
   "note": "Proved for all elapsed times of 0 or more seconds whose years fit an int. Not covered because false: a clock that was set back is shown as a negative, wrong text (C27_clock_set_back)."
  },
  {
   "property": "C28",
   "status": "partial",
   "theorems": [
    "Conman.C28_visits",
    "Conman.C28_next",
    "Conman.C28_acts_on_last",
    "Conman.C28_remembers_partial",
    "Conman.C28_forgets",
    "Conman.C28_end_is_final"
   ],
   "note": "Visiting is proved in full. Removal and insertion act on the item last returned as long as neither that item nor the one after it was taken out by somebody else meanwhile; in the latter case the iterator forgets its item although it is still in the list (C28_forgets)."
  },
  {
   "property": "C29",
   "status": "proved",
   "theorems": [
    "Conman.C29_run",
    "Conman.C29_destroy"
   ],
   "note": "Results of every sequence of operations are those on a sequence (Spec/List.lean)."
  },
  {
   "property": "C30",
   "status": "proved",
   "theorems": [
    "Conman.C30_stable_sort",
    "Conman.C30_any_order"
   ],
   "note": ""
  },
  {
   "property": "C31",
   "status": "partial",
   "theorems": [
    "Conman.C31_antisymmetric",
    "Conman.C31_numeric",
    "Conman.C31_first_difference",
    "Conman.C31_prefix_first",
    "Conman.C31_consistent_partial",
    "Conman.C31_ties_partial",
    "Conman.C31_listing_partial",
    "Conman.C31_same_listing_partial",
    "Conman.C31_not_transitive",
    "Conman.C31_listing_depends_on_order",
    "Conman.C31_number_too_big"
   ],
   "note": "Proved for any two names, and a consistent order for sets of names in which no name has digits in common with another's number part (Orderly). False in general: the comparison is not transitive (C31_not_transitive), so the listing can depend on the order of the configuration (C31_listing_depends_on_order); numbers above INT_MAX overflow."
  },
  {
   "property": "C32",
   "status": "partial",
   "theorems": [
    "Conman.C32_interests",
    "Conman.C32_pipe_watched",
    "Conman.C32_calls_defined",
    "Conman.C32_change_wakes",
    "Conman.C32_reports",
    "Conman.C32_counts",
    "Conman.C32_used",
    "Conman.C32_others_kept",
    "Conman.C32_poll_in_table_partial",
    "Conman.C32_moved_while_polling",
    "Conman.C32_small_table"
   ],
   "note": "The interests are proved exact for every sequence of calls, with descriptors below 2^30. Not covered because false: if the table grows while another thread is inside poll() the results are written to freed memory (C32_moved_while_polling)."
  },
  {
   "property": "C33",
   "status": "proved",
   "theorems": [
    "Conman.C33_order",
    "Conman.C33_all_due",
    "Conman.C33_cancel",
    "Conman.C33_never_after_cancel",
    "Conman.C33_not_again",
    "Conman.C33_ids",
    "Conman.C33_once",
    "Conman.C33_wakes_in_time"
   ],
   "note": "For every interleaving of calls and steps of the polling thread; up to 2147483646 timers created (then the ids wrap)."
  },
  {
   "property": "C34",
   "status": "partial",
   "theorems": [
    "Conman.C34_wait_partial",
    "Conman.C34_past",
    "Conman.C34_relative",
    "Conman.C34_full_millisecond",
    "Conman.C34_far_spins",
    "Conman.C34_full_timeout",
    "Conman.C34_unlimited"
   ],
   "note": "The wait handed to poll() never ends before the deadline and is at most 1 ms longer; proved for deadlines less than 2147483 s away. Beyond that the computation overflows and polling spins (C34_far_spins)."
  },
  {
   "property": "C35",
   "status": "partial",
   "theorems": [
    "Conman.C35_telnet_decode_partial",
    "Conman.C35_split_independent",
    "Conman.C35_never_fatal",
    "Conman.C35_no_growth",
    "Conman.C35_iac_in_subnegotiation_leaks",
    "Conman.C35_decoder_stale_after_reconnect"
   ],
   "note": "Full statement fails for IAC IAC inside a subnegotiation and after a reconnect in the middle of a command; both are proved as findings."
  },
  {
   "property": "C36",
   "status": "proved",
   "theorems": [
    "Conman.C36_replies",
    "Conman.C36_replies_end_negotiation",
    "Conman.C36_hello"
   ],
   "note": ""
  },
  {
   "property": "C37",
   "status": "proved",
   "theorems": [
    "Conman.C37_backoff_rule",
    "Conman.C37_delay_range",
    "Conman.C37_reset_only_when_stable",
    "Conman.C37_hints",
    "Conman.C37_hint_soon",
    "Conman.C37_hint_late"
   ],
   "note": "The retry after a failed name lookup (fixed 1800 s) does not take part in the doubling."
  },
  {
   "property": "C38",
   "status": "partial",
   "theorems": [
    "Conman.C38_sanitized_alphabet",
    "Conman.C38_recover_partial",
    "Conman.C38_rendering_ambiguous"
   ],
   "note": "The alphabet part is proved in full; recovery fails for inputs that contain text looking like a rendering (C38_rendering_ambiguous)."
  },
  {
   "property": "C39",
   "status": "proved",
   "theorems": [
    "Conman.C39_log_layout",
    "Conman.C39_split_independent",
    "Conman.C39_line_ends",
    "Conman.C39_text_preserved"
   ],
   "note": ""
  },
  {
   "property": "C40",
   "status": "proved",
   "theorems": [
    "Conman.C40_log_scratch_bounds"
   ],
   "note": ""
  },
  {
   "property": "C41",
   "status": "partial",
   "theorems": [
    "Conman.C41_expansion_partial",
    "Conman.C41_lone_percent"
   ],
   "note": "For every format that does not end in a single %, every object and buffer size. False for the others: the function reads behind the terminator (C41_lone_percent). strftime is assumed to give a non-empty text."
  },
  {
   "property": "C42",
   "status": "proved",
   "theorems": [
    "Conman.C42_only_from_format",
    "Conman.C42_name",
    "Conman.C42_device",
    "Conman.C42_dots"
   ],
   "note": "C42_dots records that a console called \"..\" is used as it is."
  },
  {
   "property": "C43",
   "status": "proved",
   "theorems": [
    "Conman.C43_floor"
   ],
   "note": "Speeds below the lowest are refused."
  },
  {
   "property": "C44",
   "status": "partial",
   "theorems": [
    "Conman.C44_serial_partial",
    "Conman.C44_serial_all_or_none",
    "Conman.C44_serial_garbage",
    "Conman.C44_log_partial",
    "Conman.C44_words",
    "Conman.C44_log_unknown",
    "Conman.C44_test_partial",
    "Conman.C44_test_refused",
    "Conman.C44_test_stale",
    "Conman.C44_ipmi",
    "Conman.C44_ipmi_wraps"
   ],
   "note": "Proved in full for IPMI options. Refusal never changes the settings, for all four kinds. Not covered because false: text that is no serial option is accepted (C44_serial_garbage), unknown log options are ignored (C44_log_unknown), test options are refused after an earlier ERANGE (C44_test_stale)."
  },
  {
   "property": "C45",
   "status": "proved",
   "theorems": [
    "Conman.C45_key",
    "Conman.C45_ipmi_values",
    "Conman.C45_password_cut",
    "Conman.C45_odd_digits"
   ],
   "note": "Findings: hexadecimal passwords are cut at a zero byte; an odd number of digits is accepted."
  },
  {
   "property": "C46",
   "status": "partial",
   "theorems": [
    "Conman.C46_pattern",
    "Conman.C46_bursts",
    "Conman.C46_gap_full",
    "Conman.C46_defined_partial",
    "Conman.C46_interval_overflow"
   ],
   "note": "Pattern, burst sizes and pauses are proved for every run that is defined; with the accepted intervals 0 and 2147483647 the computation of the pause overflows (C46_interval_overflow)."
  },
  {
   "property": "C47",
   "status": "proved",
   "theorems": [
    "Conman.C47_strings",
    "Conman.C47_lookup"
   ],
   "note": ""
  },
  {
   "property": "C48",
   "status": "proved",
   "theorems": [
    "Conman.C48_request_validation",
    "Conman.C48_check_step",
    "Conman.C48_request_granted"
   ],
   "note": ""
  },
  {
   "property": "C49",
   "status": "proved",
   "theorems": [
    "Conman.C49_notify_text",
    "Conman.C49_link_text",
    "Conman.C49_notify_once",
    "Conman.C49_connected_once"
   ],
   "note": ""
  },
  {
   "property": "C50",
   "status": "proved",
   "theorems": [
    "Conman.C50_quiet_data_only",
    "Conman.C50_data_delivered"
   ],
   "note": ""
  },
  {
   "property": "C51",
   "status": "proved",
   "theorems": [
    "Conman.C51_suspended_silent",
    "Conman.C51_suspend_by_command",
    "Conman.C51_suspended_history",
    "Conman.C51_toggle",
    "Conman.C51_flush_in_order"
   ],
   "note": ""
  },
  {
   "property": "C52",
   "status": "proved",
   "theorems": [
    "Conman.C52_one_per_console",
    "Conman.C52_timer_set",
    "Conman.C52_timeout_kills",
    "Conman.C52_ended_blocks"
   ],
   "note": "C52_ended_blocks is a finding: a reset command that has ended still blocks the next one until its timer expires."
  },
  {
   "property": "C53",
   "status": "partial",
   "theorems": [
    "Conman.C53_first",
    "Conman.C53_next",
    "Conman.C53_schedule",
    "Conman.C53_aligned",
    "Conman.C53_messages",
    "Conman.C53_future_partial",
    "Conman.C53_clock_changed"
   ],
   "note": "Constant offset of the time zone. False after the clock was changed (C53_clock_changed)."
  },
  {
   "property": "C54",
   "status": "partial",
   "theorems": [
    "Conman.C54_lines_partial",
    "Conman.C54_tokens",
    "Conman.C54_defaults",
    "Conman.C54_keywords",
    "Conman.C54_server",
    "Conman.C54_malformed",
    "Conman.C54_cmdline",
    "Conman.C54_report",
    "Conman.C54_bare_stamp",
    "Conman.C54_byte_ff",
    "Conman.C54_second_port",
    "Conman.C54_logfile_comma",
    "Conman.C54_unit_resets",
    "Conman.C54_stamp_overflow",
    "Conman.C54_long_name"
   ],
   "note": "Independence of lines is proved for all texts without a byte 0xFF outside strings and without a line ending in TIMESTAMP = number; these two break it (C54_byte_ff, C54_bare_stamp). A second SERVER line for the port or the pid file is ignored (C54_second_port). Further findings: C54_logfile_comma, C54_unit_resets, C54_stamp_overflow, C54_long_name."
  },
  {
   "property": "C55",
   "status": "proved",
   "theorems": [
    "Conman.C55_copy",
    "Conman.C55_addr4",
    "Conman.C55_name",
    "Conman.C55_cname",
    "Conman.C55_cname_long"
   ],
   "note": "For entries and buffers below 2^31 bytes, and the layout of struct hostent of x86-64. Finding: host_name_to_cname does not check the length of the address (C55_cname_long)."
  },
  {
   "property": "C56",
   "status": "proved",
   "theorems": [
    "Conman.C56_error",
    "Conman.C56_overlong",
    "Conman.C56_whole"
   ],
   "note": ""
  },
  {
   "property": "C57",
   "status": "partial",
   "theorems": [
    "Conman.C57_telnet",
    "Conman.C57_port_partial",
    "Conman.C57_port_wraps",
    "Conman.C57_empty_host",
    "Conman.C57_port_overflow"
   ],
   "note": "The form is proved exactly. Not covered because false: ports above 65535 are accepted and taken modulo 65536 (C57_port_wraps), larger ones overflow (C57_port_overflow), the host may be empty (C57_empty_host)."
  },
  {
   "property": "C58",
   "status": "proved",
   "theorems": [
    "Conman.C58_priority",
    "Conman.C58_facility",
    "Conman.C58_used_partial",
    "Conman.C58_kern_ignored"
   ],
   "note": "Finding: \"kern\" is accepted but does not turn on syslog."
  },
  {
   "property": "C59",
   "status": "proved",
   "theorems": [
    "Conman.C59_watches",
    "Conman.C59_only",
    "Conman.C59_count",
    "Conman.C59_add",
    "Conman.C59_relative",
    "Conman.C59_called",
    "Conman.C59_two_spellings",
    "Conman.C59_recreated"
   ],
   "note": "Against a model of inotify with an unlimited queue. C59_called is for paths that are not also registered in another spelling; otherwise only the first callback is called (finding C59_two_spellings). Finding: paths are forgotten when their directory is removed (C59_recreated)."
  },
  {
   "property": "C60",
   "status": "partial",
   "theorems": [
    "Conman.C60_commands_then_text_partial",
    "Conman.C60_cut_partial",
    "Conman.C60_command_overtakes_text",
    "Conman.C60_break_overtakes_text"
   ],
   "note": "Refuted for text followed by a command in one read and for serial breaks; proved for commands followed by text."
  },
  {
   "property": "C61",
   "status": "proved",
   "theorems": [
    "Conman.C61_reconnect_scheduled",
    "Conman.C61_wait",
    "Conman.C61_client_up",
    "Conman.C61_client_down",
    "Conman.C61_inotify_drops_connection"
   ],
   "note": ""
  },
  {
   "property": "C62",
   "status": "partial",
   "theorems": [
    "Conman.C62_crash_iff_partial",
    "Conman.C62_attached_clients_safe",
    "Conman.C62_stolen_client_crashes"
   ],
   "note": "Refuted by C62_stolen_client_crashes; C62_crash_iff_partial shows that this is the only crash."
  },
  {
   "property": "C63",
   "status": "proved",
   "theorems": [
    "Conman.C63_links_live",
    "Conman.C63_gone_unlinked",
    "Conman.C63_client_shape"
   ],
   "note": ""
  },
  {
   "property": "C64",
   "status": "proved",
   "theorems": [
    "Conman.C64_selection"
   ],
   "note": ""
  },
  {
   "property": "C65",
   "status": "proved",
   "theorems": [
    "Conman.C65_output_faithful"
   ],
   "note": ""
  },
  {
   "property": "C66",
   "status": "proved",
   "theorems": [
    "Conman.C66_create_dirs",
    "Conman.C66_stops_at_failure"
   ],
   "note": ""
  },
  {
   "property": "C67",
   "status": "partial",
   "theorems": [
    "Conman.C67_server_total",
    "Conman.C67_client_total_partial",
    "Conman.C67_client_overflow",
    "Conman.C67_client_outcome"
   ],
   "note": "The client passes any error number of the server to atoi; numbers beyond int are undefined (C67_client_overflow). The server side is proved in full."
  },
  {
   "property": "C68",
   "status": "proved",
   "theorems": [
    "Conman.C68_break",
    "Conman.C68_delete",
    "Conman.C68_quiet",
    "Conman.C68_reset",
    "Conman.C68_reset_all"
   ],
   "note": "One command per read; C60 says which reads have the effect of their bytes one at a time."
  },
  {
   "property": "C69",
   "status": "partial",
   "theorems": [
    "Conman.C69_distinct_partial",
    "Conman.C69_same_file"
   ],
   "note": "False in general: names of existing log objects are compared unexpanded (C69_same_file)."
  },
  {
   "property": "C70",
   "status": "proved",
   "theorems": [
    "Conman.C70_first_reading",
    "Conman.C70_reading_unique",
    "Conman.C70_total",
    "Conman.C70_ipmi_number",
    "Conman.C70_directory_hides"
   ],
   "note": "Findings: an IPMI host that is a number is taken as a telnet port; a directory hides programs of the same name."
  },
  {
   "property": "C71",
   "status": "partial",
   "theorems": [
    "Conman.C71_global",
    "Conman.C71_global_malformed",
    "Conman.C71_console",
    "Conman.C71_refused",
    "Conman.C71_malformed",
    "Conman.C71_log_refused",
    "Conman.C71_unique",
    "Conman.C71_logs_partial",
    "Conman.C71_one",
    "Conman.C71_telnet_shared"
   ],
   "note": "Missing: distinct log files when the first of the two is given with conversion specifiers (false, C69_same_file). Findings: a console whose log file is refused is reported as an error but kept without log (C71_log_refused); two consoles may share a terminal server port (C71_telnet_shared)."
  },
  {
   "property": "C72",
   "status": "partial",
   "theorems": [
    "Conman.C72_exclusive_partial",
    "Conman.C72_one",
    "Conman.C72_starts",
    "Conman.C72_ofd",
    "Conman.C72_replaced",
    "Conman.C72_both_refused"
   ],
   "note": "Missing: exclusion when another program locks the file with an open file description (false, C72_ofd), for names whose file is replaced (false, C72_replaced), and progress of daemons that start at the same time (false, C72_both_refused)."
  },
  {
   "property": "C73",
   "status": "partial",
   "theorems": [
    "Conman.C73_control_partial",
    "Conman.C73_started",
    "Conman.C73_pidfile",
    "Conman.C73_starter",
    "Conman.C73_stale",
    "Conman.C73_lock_holder",
    "Conman.C73_replaced"
   ],
   "note": "Missing: control while another daemon starts (false, C73_starter), after a daemon was killed (false, C73_stale), with locks of other programs (false, C73_lock_holder; process -1 is signalled), after the file was replaced (false, C73_replaced)."
  },
  {
   "property": "C74",
   "status": "partial",
   "theorems": [
    "Conman.C74_locked_partial",
    "Conman.C74_console_reopened",
    "Conman.C74_daemon_reopened",
    "Conman.C74_shared_file"
   ],
   "note": "Missing: the log of the daemon when it is reopened as the file it is (false, C74_daemon_reopened) and logs that share a file (false, C74_shared_file)."
  },
  {
   "property": "C75",
   "status": "partial",
   "theorems": [
    "Conman.C75_kept",
    "Conman.C75_term_partial",
    "Conman.C75_term_waiting",
    "Conman.C75_lost_wakeup",
    "Conman.C75_hup_partial",
    "Conman.C75_hup_lost"
   ],
   "note": "Missing: an effect without further events when the signal comes between the test of the flag and the wait (false, C75_lost_wakeup), and a second SIGHUP during the reopening of logs (false, C75_hup_lost)."
  },
  {
   "property": "C76",
   "status": "proved",
   "theorems": [
    "Conman.C76_all",
    "Conman.C76_count",
    "Conman.C76_each"
   ],
   "note": "For any functions that serve the objects, provided they do not make other descriptors ready."
  },
  {
   "property": "C77",
   "status": "partial",
   "theorems": [
    "Conman.C77_accept",
    "Conman.C77_up_partial",
    "Conman.C77_exhausted"
   ],
   "note": "Missing: more connections than descriptors (false, C77_exhausted)."
  },
  {
   "property": "C78",
   "status": "partial",
   "theorems": [
    "Conman.C78_failed",
    "Conman.C78_message",
    "Conman.C78_ok",
    "Conman.C78_status_partial",
    "Conman.C78_killed",
    "Conman.C78_late",
    "Conman.C78_parent",
    "Conman.C78_nofile"
   ],
   "note": "Missing: processes that are killed (false, C78_killed), parts of the start that come after the command has returned (false, C78_late), and failing calls of the command itself (false, C78_parent)."
  },
  {
   "property": "C79",
   "status": "partial",
   "theorems": [
    "Conman.C79_line",
    "Conman.C79_history",
    "Conman.C79_shape",
    "Conman.C79_one_partial",
    "Conman.C79_forged",
    "Conman.C79_joined",
    "Conman.C79_split",
    "Conman.C79_code_partial"
   ],
   "note": "Missing: one line per message for texts with newlines (false, C79_forged, C79_split) and for texts with a NUL byte (false, C79_joined)."
  },
  {
   "property": "C80",
   "status": "partial",
   "theorems": [
    "Conman.C80_getopt",
    "Conman.C80_comma",
    "Conman.C80_file_partial",
    "Conman.C80_conf_partial",
    "Conman.C80_refused",
    "Conman.C80_exit",
    "Conman.C80_always",
    "Conman.C80_arrives",
    "Conman.C80_long_line",
    "Conman.C80_port_wraps",
    "Conman.C80_port_ignored"
   ],
   "note": "Missing: files of names with lines over 1022 bytes (false, C80_long_line) or NUL bytes, and numbers that do not fit an int (undefined in C). The GNU getopt that reorders words is modelled."
  },
  {
   "property": "C81",
   "status": "partial",
   "theorems": [
    "Conman.C81_raw_partial",
    "Conman.C81_not_raw",
    "Conman.C81_restored_partial",
    "Conman.C81_running_partial",
    "Conman.C81_ends",
    "Conman.C81_left_raw",
    "Conman.C81_changes_lost",
    "Conman.C81_echo_partial",
    "Conman.C81_echo_after_stop"
   ],
   "note": "Missing: terminals with IGNCR, INLCR or PARMRK (false, C81_not_raw), failing calls (false, C81_left_raw), echo after a suspension (false, C81_echo_after_stop)."
  },
  {
   "property": "C82",
   "status": "partial",
   "theorems": [
    "Conman.C82_line",
    "Conman.C82_clean_partial",
    "Conman.C82_not_clean",
    "Conman.C82_restored",
    "Conman.C82_configured"
   ],
   "note": "Missing: devices with IGNCR, INLCR or PARMRK (false, C82_not_clean). CREAD is left as it is (stated in C82_line)."
  },
  {
   "property": "C83",
   "status": "proved",
   "theorems": [
    "Conman.C83_session",
    "Conman.C83_log",
    "Conman.C83_no_log",
    "Conman.C83_blames_server"
   ],
   "note": "Writes to the terminal that fail are an event that ends the session."
  },
  {
   "property": "C84",
   "status": "partial",
   "theorems": [
    "Conman.C84_help",
    "Conman.C84_self_partial",
    "Conman.C84_self_otherwise",
    "Conman.C84_not_ascii",
    "Conman.C84_status",
    "Conman.C84_status_text"
   ],
   "note": "Missing: the line for the escape character itself, which is false in the cases of C84_self_otherwise and C84_not_ascii."
  },
  {
   "property": "C85",
   "status": "partial",
   "theorems": [
    "Conman.C85_status",
    "Conman.C85_query_partial",
    "Conman.C85_query_end_to_end",
    "Conman.C85_long_name",
    "Conman.C85_refused",
    "Conman.C85_no_terminal",
    "Conman.C85_greeting_first",
    "Conman.C85_total_partial",
    "Conman.C85_unreachable"
   ],
   "note": "Missing: names of 1023 bytes (false, C85_long_name); answers with huge numbers and names that the protocol does not carry."
  },
  {
   "property": "C86",
   "status": "partial",
   "theorems": [
    "Conman.C86_runs",
    "Conman.C86_query_partial",
    "Conman.C86_no_match",
    "Conman.C86_bad_regex",
    "Conman.C86_too_many",
    "Conman.C86_busy",
    "Conman.C86_session_partial",
    "Conman.C86_too_long",
    "Conman.C86_kept_out"
   ],
   "note": "Missing: answers of more than 131071 bytes, for which it is false (C86_too_long). Names of users, terminals, patterns and consoles are those that the protocol carries (Plain, C18), no system call fails, and the request fits a line."
  },
  {
   "property": "C87",
   "status": "partial",
   "theorems": [
    "Conman.C87_words",
    "Conman.C87_args_partial",
    "Conman.C87_exits",
    "Conman.C87_refused",
    "Conman.C87_bad_port",
    "Conman.C87_defined",
    "Conman.C87_long_pidfile",
    "Conman.C87_listen_partial",
    "Conman.C87_port_cut",
    "Conman.C87_port_text",
    "Conman.C87_alone",
    "Conman.C87_keywords",
    "Conman.C87_control_partial",
    "Conman.C87_target",
    "Conman.C87_inactive",
    "Conman.C87_pidfile_ignored",
    "Conman.C87_help"
   ],
   "note": "Missing, since it is false: ports above 65535 (C87_port_cut), texts that are no numbers (C87_port_text), names of pid files longer than 1023 bytes (C87_long_pidfile), control by the pid file of a configuration (C87_pidfile_ignored); undefined: ports that do not fit an int (C87_defined says that this is all). Control is of a daemon that runs while no other one starts (C73)."
  },
  {
   "property": "C88",
   "status": "proved",
   "theorems": [
    "Conman.C88_contents",
    "Conman.C88_grows",
    "Conman.C88_hup_keeps",
    "Conman.C88_order",
    "Conman.C88_complete",
    "Conman.C88_current",
    "Conman.C88_rotate",
    "Conman.C88_left",
    "Conman.C88_rename_only",
    "Conman.C88_late",
    "Conman.C88_zero",
    "Conman.C88_zero_locked",
    "Conman.C88_zero_locked_daemon",
    "Conman.C88_zero_used",
    "Conman.C88_write_error",
    "Conman.C88_stop",
    "Conman.C88_stop_loses"
   ],
   "note": "Whether a file can be opened and how much a write takes is decided by events. Directories, modes and disk space are not modelled."
  },
  {
   "property": "C89",
   "status": "partial",
   "theorems": [
    "Conman.C89_progress",
    "Conman.C89_wait_free",
    "Conman.C89_released",
    "Conman.C89_exclusive",
    "Conman.C89_served",
    "Conman.C89_settles",
    "Conman.C89_lookup_stalls",
    "Conman.C89_poll_race"
   ],
   "note": "Partial: the mutexes inside the C library and libipmiconsole, signal handlers and forked children are not modelled. Branches are choices, loops any number of rounds, so the model has every sequence of the code and more. The resolver is the exception that the statement names (C89_lookup_stalls), and poll uses the table of descriptors without its mutex (C89_poll_race)."
  },
  {
   "property": "C90",
   "status": "partial",
   "theorems": [
    "Conman.C90_calm_partial",
    "Conman.C90_served",
    "Conman.C90_kept",
    "Conman.C90_hangup_crashes",
    "Conman.C90_hangup_dangles",
    "Conman.C90_refusal_crashes",
    "Conman.C90_forced_crashes",
    "Conman.C90_mixed_crashes",
    "Conman.C90_both_connect"
   ],
   "note": "Partial: the full statement is false. It is proved (C90_calm_partial, C90_served) for all interleavings in which no client is closed, or changed between read-only and read-write, while a request is being served, and no forced request is served together with a broadcast one; C90_kept holds without this. The other theorems are histories outside of it that use memory that was given back, or give one console to two clients. Buffers and texts are left out; the end of the daemon, which gives back everything while threads of clients may run, is not modelled."
  },
  {
   "property": "C91",
   "status": "partial",
   "theorems": [
    "Conman.C91_nothing_invented",
    "Conman.C91_input_faithful_partial",
    "Conman.C91_text_arrives_partial",
    "Conman.C91_each_in_order",
    "Conman.C91_wakes_console",
    "Conman.C91_sent_in_order",
    "Conman.C91_telnet_plain",
    "Conman.C91_not_sent_after_reconnect",
    "Conman.C91_lost_when_closed",
    "Conman.C91_telnet_command"
   ],
   "note": "Partial: the full statement is false. Nothing is ever added, repeated or reordered (C91_nothing_invented), and nothing is lost while the console is open, not at its end of file, and its buffer does not overflow (C91_input_faithful_partial); the rest is refuted by C91_lost_when_closed, C91_not_sent_after_reconnect, C91_telnet_command. In one read commands come before text (C60)."
  },
  {
   "property": "C92",
   "status": "partial",
   "theorems": [
    "Conman.C92_own_log",
    "Conman.C92_nothing_invented",
    "Conman.C92_nothing_invented_raw",
    "Conman.C92_log_complete_partial",
    "Conman.C92_log_complete_raw_partial",
    "Conman.C92_output_kept_partial",
    "Conman.C92_sanitized",
    "Conman.C92_stays_closed",
    "Conman.C92_lost_on_error",
    "Conman.C92_burst_lost"
   ],
   "note": "Partial: the full statement is false. Nothing is ever added, doubled or reordered and a sanitised log stays printable, in all histories; it is complete while the log was not shut down and its buffer never full (C92_log_complete_partial); the rest is refuted by C92_lost_on_error, C92_burst_lost."
  },
  {
   "property": "C93",
   "status": "partial",
   "theorems": [
    "Conman.C93_nothing_else",
    "Conman.C93_all_of_it_partial"
   ],
   "note": "Partial: \"without gaps\" holds for a client that keeps up (C93_all_of_it_partial); a slow or suspended one loses the oldest bytes that wait (C01, C51_suspended_history), which is what the buffer is meant to do. That nothing else is ever sent, in all histories, is C93_nothing_else."
  },
  {
   "property": "C94",
   "status": "partial",
   "theorems": [
    "Conman.C94_keys_reach_console_partial",
    "Conman.C94_among_others",
    "Conman.C94_output_reaches_terminal",
    "Conman.C94_quiet_terminal"
   ],
   "note": "Partial: for keys with commands that write to the console or change the mode the full statement is false (C60_command_overtakes_text); text can be lost when the console is closed (C91_lost_when_closed) or its buffer overflows, output when the client does not keep up (C51)."
  },
  {
   "property": "C95",
   "status": "partial",
   "theorems": [
    "Conman.C95_polled",
    "Conman.C95_console_polled_partial",
    "Conman.C95_leaves",
    "Conman.C95_leaves_in_order",
    "Conman.C95_console_leaves",
    "Conman.C95_closed",
    "Conman.C95_forgotten"
   ],
   "note": "Partial: false for consoles other than telnet when bytes waited while they were down (C95_forgotten)."
  },
  {
   "property": "C96",
   "status": "partial",
   "theorems": [
    "Conman.C96_consoles",
    "Conman.C96_admitted",
    "Conman.C96_accepted",
    "Conman.C96_connected",
    "Conman.C96_by_name",
    "Conman.C96_unused",
    "Conman.C96_forced",
    "Conman.C96_typed_partial",
    "Conman.C96_shown",
    "Conman.C96_joins"
   ],
   "note": "Partial: keys with commands that write to the console or change the mode, telnet consoles (C94, C60); a thread takes what it finds as of one moment: C48 shows that the state can have changed until the request is carried out."
  },
  {
   "property": "C97",
   "status": "partial",
   "theorems": [
    "Conman.C97_kills_own_partial",
    "Conman.C97_daemon_stays_partial",
    "Conman.C97_timer",
    "Conman.C97_one_reset",
    "Conman.C97_all_gone_partial",
    "Conman.C97_close",
    "Conman.C97_stop_partial",
    "Conman.C97_reused",
    "Conman.C97_wrong_console",
    "Conman.C97_left_behind",
    "Conman.C97_child_left",
    "Conman.C97_outlives"
   ],
   "note": "Partial: false when the kernel gives a noted number to another process (C97_reused, C97_wrong_console); what a reset command left in the background is not killed when its first process has ended (C97_left_behind), nor are children of a program when its console is closed (C97_child_left); reset commands outlive the daemon, and in the foreground so do programs as far as signals go (C97_outlives)."
  },
  {
   "property": "C98",
   "status": "partial",
   "theorems": [
    "Conman.C98_stream_partial",
    "Conman.C98_peer_partial",
    "Conman.C98_text_arrives_partial",
    "Conman.C98_keys_partial",
    "Conman.C98_typed_partial",
    "Conman.C98_break_as_data"
   ],
   "note": "Partial: false for text that contains 0xFF, which the daemon does not double (C91_telnet_command, C98_break_as_data), and, as C91, for a console that is closed or whose buffer overflows meanwhile. Closes the gap for telnet consoles that C91_text_arrives_partial, C94_keys_reach_console_partial and C96_typed_partial leave."
  },
  {
   "property": "C99",
   "status": "partial",
   "theorems": [
    "Conman.C99_decoded",
    "Conman.C99_said_partial",
    "Conman.C99_logged_partial",
    "Conman.C99_log_clean_partial",
    "Conman.C99_shown_partial",
    "Conman.C99_quiet_partial",
    "Conman.C99_old_connection"
   ],
   "note": "C99_decoded holds for every history without restriction. Partial: false after a connection that ended inside a command (C99_old_connection) and for subnegotiations containing 0xFF (C35_iac_in_subnegotiation_leaks); completeness of the log as in C92, of the terminal as in C93 and C94."
  }
 ]
}