# Axioms of the claimed theorems

Output of `#print axioms` for every theorem named in `MANIFEST.json` (namespace `Conman`), grouped.

### No axioms (9)

C104_stdin_closed, C28_forgets, C28_end_is_final, C34_full_millisecond, C34_far_spins, C59_relative, C74_daemon_reopened, C74_shared_file, C75_term_waiting

### `propext` (21)

C105_twice, C112_only, C112_close_monitor, C15_lines, C26_one_byte_buffer, C37_hint_soon, C37_hint_late, C61_inotify_drops_connection, C72_ofd, C73_lock_holder, C74_console_reopened, C75_kept, C77_accept, C84_self_partial, C84_self_otherwise, C84_not_ascii, C91_telnet_plain, C97_reused, C97_wrong_console, C97_left_behind, C97_child_left

### `Quot.sound`, `propext` (141)

C01_long_write, C05_idle_not_closed, C08_split_independent, C08_no_growth, C102_stale_reached, C104_start, C104_poll_pipe, C104_signals, C104_mask, C106_one_thread, C106_ends, C106_foreign, C107_unwritten, C107_order, C107_reset_left, C109_start, C11_check_then_link_race, C11_monitor_command_joins, C110_mode, C112_term_partial, C112_term_key, C112_lost_wakeup, C112_stuck, C112_close_key, C113_crash, C114_ended, C115_joins, C116_taken, C117_starts, C117_limit, C117_again_partial, C117_forever, C12_bytes_before_join_leak, C16_decode_iff, C20_append_partial, C20_pieces_partial, C20_empty_append_on_full, C20_unterminated_overread, C23_strlcat, C23_strlcat_full, C25_write, C31_antisymmetric, C31_first_difference, C31_prefix_first, C32_moved_while_polling, C32_small_table, C35_telnet_decode_partial, C35_split_independent, C35_never_fatal, C35_no_growth, C35_iac_in_subnegotiation_leaks, C35_decoder_stale_after_reconnect, C36_replies, C36_replies_end_negotiation, C36_hello, C37_hints, C38_sanitized_alphabet, C38_rendering_ambiguous, C39_split_independent, C40_log_scratch_bounds, C41_lone_percent, C44_serial_all_or_none, C44_words, C44_test_partial, C44_test_stale, C46_pattern, C46_gap_full, C46_interval_overflow, C48_check_step, C49_link_text, C52_ended_blocks, C53_next, C53_future_partial, C53_clock_changed, C57_port_partial, C57_port_wraps, C59_add, C60_command_overtakes_text, C60_break_overtakes_text, C62_stolen_client_crashes, C64_selection, C66_stops_at_failure, C69_distinct_partial, C72_replaced, C72_both_refused, C73_starter, C73_stale, C73_replaced, C74_locked_partial, C75_term_partial, C75_lost_wakeup, C75_hup_partial, C75_hup_lost, C76_all, C76_each, C77_up_partial, C77_exhausted, C78_nofile, C80_comma, C80_file_partial, C80_long_line, C81_restored_partial, C81_ends, C81_changes_lost, C82_restored, C88_contents, C88_grows, C88_hup_keeps, C88_order, C88_complete, C88_current, C88_rotate, C88_left, C88_zero, C88_write_error, C88_stop, C89_wait_free, C89_released, C89_exclusive, C89_lookup_stalls, C89_poll_race, C90_hangup_crashes, C90_hangup_dangles, C90_refusal_crashes, C90_forced_crashes, C90_mixed_crashes, C90_both_connect, C91_lost_when_closed, C91_telnet_command, C92_lost_on_error, C95_forgotten, C97_kills_own_partial, C97_daemon_stays_partial, C97_timer, C97_one_reset, C97_all_gone_partial, C97_close, C97_stop_partial, C97_outlives, C98_break_as_data, C99_old_connection

### `Classical.choice`, `Quot.sound`, `propext` (453)

C01_buffer_refines_queue, C01_world_buffer, C02_no_loss_without_overflow, C03_buffer_memory_safe, C04_replay_partial, C04_replay_no_log, C04_replay_stale_after_shutdown, C05_no_more_data_partial, C05_closed_only_when_drained, C05_last_byte_closes, C05_draining_polled, C05_suspended_stuck, C06_console_output, C06_telnet_output, C06_client_input, C07_escape_transparency, C07_high_escape_char_dead, C09_links_symmetric, C10_forced_connect, C10_forced_by_escape, C100_file, C100_zero, C100_other_files, C100_names_plain, C100_names_global, C100_nothing_invented, C100_nothing_invented_raw, C100_complete_partial, C100_complete_raw_partial, C100_sanitized, C100_shared_file, C101_text, C101_bounds, C101_ends, C101_one_line_partial, C101_printable, C101_env, C101_names_received, C101_any_user, C101_forged, C101_sanitized_file_partial, C101_sanitized_escape, C101_opened_cut, C101_two_lines, C102_replay_partial, C102_not_logged, C102_own_bytes, C102_reopened, C102_file, C102_fits, C102_chunks, C102_stale, C103_parts, C103_complete_partial, C103_complete_raw_partial, C103_done, C103_compressed, C104_program, C104_reset, C104_clean, C104_connection, C104_held, C105_lists, C105_others, C105_apart, C105_iterators, C105_nothing_lost, C105_memory, C106_calm_partial, C106_leak, C106_program, C107_closed, C107_left, C107_serial, C107_log_partial, C107_log_raw_partial, C107_last, C107_lost, C108_display, C108_apart, C108_targets_partial, C108_foreground, C108_kern, C109_core, C109_dir, C109_off, C109_default_partial, C109_background, C11_access_sources_partial, C11_exclusive_partial, C110_sessions, C110_turns, C110_consoles, C110_end, C110_mode_partial, C111_account_partial, C111_silence_partial, C111_write, C111_suspended, C112_close, C113_frame, C113_apart_partial, C114_slow, C115_unseen, C115_watching, C116_kept, C116_watcher, C116_history, C117_apart, C118_file_partial, C118_nul, C118_grown, C118_pipe, C118_shrunk, C12_read_only_partial, C13_modes_agree, C14_stream, C14_step, C14_unambiguous, C14_complete, C15_line_numbers, C16_round_trip, C16_newline_breaks_out, C17_lookup_exact, C17_tables, C18_request, C18_greeting, C18_empty_names_dropped, C18_newline_cuts, C18_cr_injects, C19_ok, C56_error, C19_overlong, C56_overlong, C56_whole, C21_substitute, C22_words, C22_unmatched_partial, C22_cases, C22_lone_quote_accepted, C23_strlcpy, C23_strlcpy_short, C24_dir_name, C24_dir_unique, C25_read, C26_read_line, C27_reads_back_partial, C27_canonical_partial, C27_clock_set_back, C27_year_overflow, C27_year_of_364_days, C28_visits, C28_next, C28_acts_on_last, C28_remembers_partial, C29_run, C29_destroy, C30_stable_sort, C30_any_order, C31_numeric, C31_consistent_partial, C31_ties_partial, C31_listing_partial, C31_same_listing_partial, C31_not_transitive, C31_listing_depends_on_order, C31_number_too_big, C32_interests, C32_pipe_watched, C32_calls_defined, C32_change_wakes, C32_reports, C32_counts, C32_used, C32_others_kept, C32_poll_in_table_partial, C33_order, C33_all_due, C33_cancel, C33_never_after_cancel, C33_not_again, C33_ids, C33_once, C33_wakes_in_time, C34_wait_partial, C34_past, C34_relative, C34_full_timeout, C34_unlimited, C37_backoff_rule, C37_delay_range, C37_reset_only_when_stable, C38_recover_partial, C39_log_layout, C39_line_ends, C39_text_preserved, C41_expansion_partial, C42_only_from_format, C42_name, C42_device, C42_dots, C43_floor, C44_serial_partial, C44_serial_garbage, C44_log_partial, C44_log_unknown, C44_test_refused, C44_ipmi, C44_ipmi_wraps, C45_key, C45_ipmi_values, C45_password_cut, C45_odd_digits, C46_bursts, C46_defined_partial, C47_strings, C47_lookup, C48_request_validation, C48_request_granted, C49_notify_text, C49_notify_once, C49_connected_once, C50_quiet_data_only, C50_data_delivered, C51_suspended_silent, C51_suspend_by_command, C51_suspended_history, C51_toggle, C51_flush_in_order, C52_one_per_console, C52_timer_set, C52_timeout_kills, C53_first, C53_schedule, C53_aligned, C53_messages, C54_lines_partial, C54_tokens, C54_defaults, C54_keywords, C54_server, C54_malformed, C54_cmdline, C54_report, C54_bare_stamp, C54_byte_ff, C54_second_port, C54_logfile_comma, C54_unit_resets, C54_stamp_overflow, C54_long_name, C55_copy, C55_addr4, C55_name, C55_cname, C55_cname_long, C56_error, C56_overlong, C56_whole, C57_telnet, C57_empty_host, C57_port_overflow, C58_priority, C58_facility, C58_used_partial, C58_kern_ignored, C59_watches, C59_only, C59_count, C59_called, C59_two_spellings, C59_recreated, C60_commands_then_text_partial, C60_cut_partial, C61_reconnect_scheduled, C61_wait, C61_client_up, C61_client_down, C62_crash_iff_partial, C62_attached_clients_safe, C63_links_live, C63_gone_unlinked, C63_client_shape, C65_output_faithful, C66_create_dirs, C67_server_total, C67_client_total_partial, C67_client_overflow, C67_client_outcome, C68_break, C68_delete, C68_quiet, C68_reset, C68_reset_all, C69_same_file, C70_first_reading, C70_reading_unique, C70_total, C70_ipmi_number, C70_directory_hides, C71_global, C71_global_malformed, C71_console, C71_refused, C71_malformed, C71_log_refused, C71_unique, C71_logs_partial, C71_one, C71_telnet_shared, C72_exclusive_partial, C72_one, C72_starts, C73_control_partial, C73_started, C73_pidfile, C76_count, C78_failed, C78_message, C78_ok, C78_status_partial, C78_killed, C78_late, C78_parent, C79_line, C79_history, C79_shape, C79_one_partial, C79_forged, C79_joined, C79_split, C79_code_partial, C80_getopt, C80_conf_partial, C80_refused, C80_exit, C80_always, C80_arrives, C80_port_wraps, C80_port_ignored, C81_raw_partial, C81_not_raw, C81_running_partial, C81_left_raw, C81_echo_partial, C81_echo_after_stop, C82_line, C82_clean_partial, C82_not_clean, C82_configured, C83_session, C83_log, C83_no_log, C83_blames_server, C84_help, C84_status, C84_status_text, C85_status, C85_query_partial, C85_query_end_to_end, C85_long_name, C85_refused, C85_no_terminal, C85_greeting_first, C85_total_partial, C85_unreachable, C86_runs, C86_query_partial, C86_no_match, C86_bad_regex, C86_too_many, C86_busy, C86_session_partial, C86_too_long, C86_kept_out, C87_words, C87_args_partial, C87_exits, C87_refused, C87_bad_port, C87_defined, C87_long_pidfile, C87_listen_partial, C87_port_cut, C87_port_text, C87_alone, C87_keywords, C87_control_partial, C87_target, C87_inactive, C87_pidfile_ignored, C87_help, C88_rename_only, C88_late, C88_zero_locked, C88_zero_locked_daemon, C88_zero_used, C88_stop_loses, C89_progress, C89_served, C89_settles, C90_calm_partial, C90_served, C90_kept, C91_nothing_invented, C91_input_faithful_partial, C91_text_arrives_partial, C91_each_in_order, C91_wakes_console, C91_sent_in_order, C91_not_sent_after_reconnect, C92_own_log, C92_nothing_invented, C92_nothing_invented_raw, C92_log_complete_partial, C92_log_complete_raw_partial, C92_output_kept_partial, C92_sanitized, C92_stays_closed, C92_burst_lost, C93_nothing_else, C93_all_of_it_partial, C94_keys_reach_console_partial, C94_among_others, C94_output_reaches_terminal, C94_quiet_terminal, C95_polled, C95_console_polled_partial, C95_leaves, C95_leaves_in_order, C95_console_leaves, C95_closed, C96_consoles, C96_admitted, C96_accepted, C96_connected, C96_by_name, C96_unused, C96_forced, C96_typed_partial, C96_shown, C96_joins, C98_stream_partial, C98_peer_partial, C98_text_arrives_partial, C98_keys_partial, C98_typed_partial, C99_decoded, C99_said_partial, C99_logged_partial, C99_log_clean_partial, C99_shown_partial, C99_quiet_partial
