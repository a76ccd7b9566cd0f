# Axioms of the property theorems

Output of `#print axioms` for every theorem named in MANIFEST.json, grouped.

## none

`PDJ.C73_push_can_duplicate`, `PDJ.C88_all_free`, `PDJ.C97_get_set`

## propext

`PDJ.C05_unknown_preserved`, `PDJ.C05_decode_injective`, `PDJ.C05_echoed_code_is_received_code`, `PDJ.C05_own_code_roundtrip`, `PDJ.C05_types_without_code_collide`, `PDJ.C07_greeting_echoed`, `PDJ.C25_no_text_no_tempo`, `PDJ.C56_sizes`, `PDJ.C58_keepalive_codes`, `PDJ.C58_subkind_byte_preserved`, `PDJ.C58_status_codes`, `PDJ.C58_status_bytes_preserved`, `PDJ.C61_one_connection_per_listener`, `PDJ.C61_failed_accept`, `PDJ.C75_export_empty`, `PDJ.C76_refusals_only_drop`, `PDJ.C86_large_file_wrong`, `PDJ.C87_root_name_matters`, `PDJ.C87_link_to_no_folder`, `PDJ.C95_encode_appends`, `PDJ.C95_nothing_iff_empty`, `PDJ.C96_argument_partial`, `PDJ.C120_start`, `PDJ.C121_start`

## propext, Quot.sound

`PDJ.C01_field_roundtrip_partial`, `PDJ.C01_long_text_never_roundtrips`, `PDJ.C01_blob_never_roundtrips`, `PDJ.C01_roundtrip_iff`, `PDJ.C02_request_parsed`, `PDJ.C02_message_roundtrip`, `PDJ.C03_item_announces_text_length`, `PDJ.C09_title_menu_unreadable`, `PDJ.C13_handlers_isolated`, `PDJ.C13_only_own_events_matter`, `PDJ.C13_main_connections_isolated`, `PDJ.C15_wrong_magic_rejected`, `PDJ.C16_segmentation_matters`, `PDJ.C16_merged_requests_dropped_partial`, `PDJ.C16_merged_segments`, `PDJ.C25_tempo_partial`, `PDJ.C26_mnt_even_rejected`, `PDJ.C26_accepted_form`, `PDJ.C26_auth_null_rejected`, `PDJ.C26_machine_name_rejected`, `PDJ.C29_panics_exactly_on_replies_partial`, `PDJ.C32_refused_stops`, `PDJ.C32_stopped_for_good`, `PDJ.C33_address_text`, `PDJ.C37_handle_identifies_inode`, `PDJ.C37_handles_distinct`, `PDJ.C37_big_endian_reversed`, `PDJ.C37_request_handles_safe`, `PDJ.C41_attributes`, `PDJ.C41_getattr`, `PDJ.C41_lookup`, `PDJ.C41_read`, `PDJ.C42_reply_kills`, `PDJ.C45_never_panics`, `PDJ.C46_name_padded`, `PDJ.C46_long_name_panics`, `PDJ.C56_answers_unique`, `PDJ.C59_capacity`, `PDJ.C59_reply_name`, `PDJ.C60_library_survives_partial`, `PDJ.C60_handlers_cannot_stop_services`, `PDJ.C60_reply_stops_library`, `PDJ.C61_port_announced`, `PDJ.C61_ports_in_order`, `PDJ.C61_fresh_session`, `PDJ.C61_announced_port_serves`, `PDJ.C65_slot_lost`, `PDJ.C69_render_window_ignored`, `PDJ.C73_entry`, `PDJ.C73_order`, `PDJ.C73_iteration`, `PDJ.C73_index`, `PDJ.C74_u16`, `PDJ.C74_u32`, `PDJ.C74_u64`, `PDJ.C74_utf8`, `PDJ.C74_utf16`, `PDJ.C75_verifier`, `PDJ.C75_export_single`, `PDJ.C75_export_two`, `PDJ.C76_refused_once_is_delayed`, `PDJ.C77_application_undisturbed`, `PDJ.C77_status_undisturbed`, `PDJ.C77_library_undisturbed`, `PDJ.C79_end_is_silence`, `PDJ.C81_call_fields`, `PDJ.C88_needed`, `PDJ.C88_library_port_taken`, `PDJ.C88_portmap_port_taken_partial`, `PDJ.C88_portmap_port_silences_library`, `PDJ.C90_capacity_partial`, `PDJ.C90_falls_behind`, `PDJ.C91_silence_partial`, `PDJ.C92_late_main_links_twice`, `PDJ.C94_kept_forever`, `PDJ.C94_exhausted`, `PDJ.C95_one_message_per_chunk_partial`, `PDJ.C95_segmentation_matters`, `PDJ.C95_roundtrip`, `PDJ.C96_argument_wire`, `PDJ.C97_address`, `PDJ.C97_discovery_ignored`, `PDJ.C98_capacity`, `PDJ.C98_overload`, `PDJ.C98_refines`, `PDJ.C101_menu_amid_traffic`, `PDJ.C103_starved`, `PDJ.C103_released`, `PDJ.C103_exclusive`, `PDJ.C104_refines`, `PDJ.C104_capacity`, `PDJ.C104_overload`, `PDJ.C104_behind`, `PDJ.C106_silenced`, `PDJ.C106_announced_iff`, `PDJ.C109_only_replies`, `PDJ.C109_all_replies`, `PDJ.C109_final_errors`, `PDJ.C109_stream_read`, `PDJ.C109_lost_after_panic`, `PDJ.C109_lost_after_titles`, `PDJ.C116_threads_go_on`, `PDJ.C116_taken_iff`, `PDJ.C117_end_is_silence`, `PDJ.C118_nothing_lost`, `PDJ.C118_goes_on`, `PDJ.C119_main_runs`, `PDJ.C119_stays`, `PDJ.C119_left`, `PDJ.C119_threads_go_on`, `PDJ.C119_last_pipe`, `PDJ.C119_silent`, `PDJ.C119_no_backlog`, `PDJ.C120_written_partial`, `PDJ.C120_step`, `PDJ.C120_quiet`, `PDJ.C120_first_line_lost`, `PDJ.C121_broadcaster`, `PDJ.C121_negotiation`, `PDJ.C121_connections`, `PDJ.C121_ports`, `PDJ.C121_errors_only_logged`, `PDJ.C122_no_worker`, `PDJ.C122_writers`, `PDJ.C122_read_partial`, `PDJ.C122_goes_on`, `PDJ.C122_last_line`, `PDJ.C123_bounded_partial`, `PDJ.C123_never_rests`, `PDJ.C124_recovers`, `PDJ.C125_boot`, `PDJ.C125_after`, `PDJ.C125_heard`, `PDJ.C125_library_moment`, `PDJ.C125_library_closed`, `PDJ.C126_all`, `PDJ.C127_one_by_one`, `PDJ.C127_finishes`, `PDJ.C127_every_order`, `PDJ.C127_ended`, `PDJ.C128_library`, `PDJ.C128_status`, `PDJ.C128_menu`, `PDJ.C130_possible`

## propext, Classical.choice, Quot.sound

`PDJ.C03_player_reads_lengths`, `PDJ.C04_reply_readable_partial`, `PDJ.C04_long_text_never_recovered`, `PDJ.C04_readable_iff_texts_short`, `PDJ.C06_parser_panics_iff_partial`, `PDJ.C06_parser_can_panic`, `PDJ.C06_wellformed_never_panics`, `PDJ.C08_transaction_id_echoed`, `PDJ.C09_announced_count_rendered_partial`, `PDJ.C09_root_menu_count_wrong`, `PDJ.C09_album_menu_count_wrong`, `PDJ.C09_right_iff`, `PDJ.C09_announced_count_after_other_requests_partial`, `PDJ.C10_render_reply_framed`, `PDJ.C11_render_shows_latest_menu`, `PDJ.C11_request_recognised`, `PDJ.C11_last_menu_unique`, `PDJ.C12_render_repeatable`, `PDJ.C14_unsupported_request_acknowledged`, `PDJ.C14_unsupported_chunk_acknowledged`, `PDJ.C15_undecodable_chunk`, `PDJ.C16_cut_request`, `PDJ.C16_cut_request_unanswered`, `PDJ.C17_metadata_of_track`, `PDJ.C17_mount_info_of_track`, `PDJ.C17_metadata_crashes_iff`, `PDJ.C17_mount_info_crashes_iff`, `PDJ.C18_artist_menu`, `PDJ.C18_titles_of_listed_artist`, `PDJ.C19_artists_deduplicated`, `PDJ.C20_tracks_retrievable`, `PDJ.C21_titles_partition_library`, `PDJ.C22_ids_dense_and_stable`, `PDJ.C23_no_id_reuse_below_capacity_partial`, `PDJ.C23_debug_panics_exactly_beyond_capacity`, `PDJ.C23_release_overwrites_beyond_capacity`, `PDJ.C24_scan_selects_wanted_files`, `PDJ.C24_scan_checked_build`, `PDJ.C24_selected_iff`, `PDJ.C25_decimal_representation`, `PDJ.C25_large_tempo_wrong`, `PDJ.C26_understood_iff`, `PDJ.C26_player_calls_understood_partial`, `PDJ.C27_reply_header`, `PDJ.C27_reply_read`, `PDJ.C28_aligned`, `PDJ.C29_reply_panics`, `PDJ.C30_getport_nfs`, `PDJ.C30_getport_mount`, `PDJ.C30_announced_port_serves_nfs`, `PDJ.C30_announced_port_serves_mount`, `PDJ.C31_dead_port_announced`, `PDJ.C31_getport_has_listener_partial`, `PDJ.C31_listener_iff`, `PDJ.C31_own_port_is_mount`, `PDJ.C32_mnt`, `PDJ.C32_export`, `PDJ.C32_garbage_ignored`, `PDJ.C32_stops_exactly`, `PDJ.C32_history`, `PDJ.C33_export_reply`, `PDJ.C34_path_walk`, `PDJ.C35_missing_name_partial`, `PDJ.C35_unopenable_stays`, `PDJ.C35_back_iff`, `PDJ.C35_unopenable_breaks_next`, `PDJ.C36_directory_handle_ignored`, `PDJ.C36_interleaved_walks_mixed_up`, `PDJ.C36_relative_to_current_directory_partial`, `PDJ.C36_absolute_name_escapes`, `PDJ.C38_read_from_same_file`, `PDJ.C38_getattr_from_same_file`, `PDJ.C38_same_inode_confused`, `PDJ.C39_read_reply`, `PDJ.C39_read_in_range`, `PDJ.C39_read_past_end`, `PDJ.C40_answered_iff`, `PDJ.C40_stale_refused`, `PDJ.C41_read_recovered`, `PDJ.C42_still_serves_partial`, `PDJ.C42_recovers`, `PDJ.C42_garbage_dropped`, `PDJ.C42_undated_kills`, `PDJ.C42_oversize_read_wedges`, `PDJ.C42_ends_iff`, `PDJ.C42_history_ends_iff`, `PDJ.C43_only_named_files_partial`, `PDJ.C43_any_readable_file_is_served`, `PDJ.C43_only_openable_files_partial`, `PDJ.C44_round_trip_partial`, `PDJ.C44_status_last_byte`, `PDJ.C44_ip_packet`, `PDJ.C44_ip_packet_not_recovered`, `PDJ.C44_round_trip_iff`, `PDJ.C45_content_agrees`, `PDJ.C46_name_decoded`, `PDJ.C46_name_round_trip`, `PDJ.C47_own_datagram_ignored`, `PDJ.C47_own_broadcasts_ignored`, `PDJ.C48_never_dropped`, `PDJ.C48_one_entry_per_address`, `PDJ.C49_heard`, `PDJ.C49_registry`, `PDJ.C49_frozen`, `PDJ.C50_events_of_announcement`, `PDJ.C50_one_event_per_player`, `PDJ.C50_no_other_events`, `PDJ.C51_not_reinitiated`, `PDJ.C51_marks`, `PDJ.C51_repeated_negotiation`, `PDJ.C52_network`, `PDJ.C52_initially_none`, `PDJ.C53_negotiation`, `PDJ.C53_failed_negotiation`, `PDJ.C53_announcement`, `PDJ.C54_ends_exactly`, `PDJ.C54_receiver_ends_exactly`, `PDJ.C54_foreign_announcement_kills`, `PDJ.C54_mac_missing_kills`, `PDJ.C54_survives_partial`, `PDJ.C55_mask`, `PDJ.C55_contains`, `PDJ.C55_broadcast`, `PDJ.C55_first_match`, `PDJ.C55_no_match`, `PDJ.C55_panics_exactly`, `PDJ.C55_total`, `PDJ.C56_hello`, `PDJ.C56_link_query`, `PDJ.C56_silent`, `PDJ.C56_history`, `PDJ.C57_stops_exactly`, `PDJ.C57_survives_exactly`, `PDJ.C57_own_reply_stops`, `PDJ.C57_robust_partial`, `PDJ.C59_round_trip`, `PDJ.C60_portmapper_stops_iff`, `PDJ.C62_utf16_round_trip`, `PDJ.C62_utf16_accepts_exactly`, `PDJ.C62_lone_high_surrogate_rejected`, `PDJ.C62_lone_low_surrogate_rejected`, `PDJ.C62_utf8_round_trip`, `PDJ.C62_utf8_accepts_exactly`, `PDJ.C63_download`, `PDJ.C63_walk_and_download`, `PDJ.C64_status_layout`, `PDJ.C65_body_round_trip_partial`, `PDJ.C66_file_reachable`, `PDJ.C66_only_files_listed`, `PDJ.C67_shown_path_downloads`, `PDJ.C68_setup_reply`, `PDJ.C68_load_track_reply`, `PDJ.C68_waveform_reply`, `PDJ.C69_window_exceeded`, `PDJ.C70_request_ends_connection_iff`, `PDJ.C70_polite_player_always_answered`, `PDJ.C71_traffic_bounded`, `PDJ.C71_destinations`, `PDJ.C71_silent_until_heard`, `PDJ.C72_request_is_carried_out`, `PDJ.C72_linking_happens`, `PDJ.C76_nfs_answers_the_asker`, `PDJ.C76_mount_answers_the_asker`, `PDJ.C76_portmap_answers_the_asker`, `PDJ.C77_nfs_undisturbed`, `PDJ.C77_mount_undisturbed`, `PDJ.C78_export_names_network`, `PDJ.C78_export_before_players`, `PDJ.C79_ends_exactly`, `PDJ.C79_foreign_announcement_silences`, `PDJ.C79_survives_partial`, `PDJ.C80_announces_1051_tracks`, `PDJ.C80_count_right_iff_partial`, `PDJ.C81_call_iff`, `PDJ.C81_call_unique`, `PDJ.C81_rejected_iff`, `PDJ.C81_form_is_irrelevant`, `PDJ.C82_status_packets`, `PDJ.C83_keepalive_packets`, `PDJ.C84_waveform_partial`, `PDJ.C84_not_the_tracks_waveform`, `PDJ.C85_shown_path`, `PDJ.C85_relative_root`, `PDJ.C85_scanned_file_downloads`, `PDJ.C85_program_fits`, `PDJ.C86_size_partial`, `PDJ.C87_hidden_root`, `PDJ.C87_root_name_partial`, `PDJ.C87_link_followed`, `PDJ.C87_name_of_path`, `PDJ.C87_parent_visible`, `PDJ.C87_hidden_path`, `PDJ.C87_dots_hidden`, `PDJ.C87_program_folder`, `PDJ.C88_serves_iff`, `PDJ.C89_rate_of_both`, `PDJ.C89_attained`, `PDJ.C89_timed_is_untimed`, `PDJ.C89_rate`, `PDJ.C90_attained`, `PDJ.C91_late_broadcaster_silent`, `PDJ.C91_gap_exact`, `PDJ.C91_bound_exact`, `PDJ.C91_gap_partial`, `PDJ.C91_rate_partial`, `PDJ.C91_rate_attained`, `PDJ.C91_deaf`, `PDJ.C92_once`, `PDJ.C92_linked_once`, `PDJ.C92_exact`, `PDJ.C93_capacity_partial`, `PDJ.C93_exhausted`, `PDJ.C93_one_too_many`, `PDJ.C93_answered_iff`, `PDJ.C94_capacity_partial`, `PDJ.C94_answered_iff`, `PDJ.C94_one_too_many`, `PDJ.C95_split_rejected`, `PDJ.C96_binary_differs`, `PDJ.C97_suppressed`, `PDJ.C97_permitted`, `PDJ.C98_overloaded`, `PDJ.C98_exact`, `PDJ.C98_delay_attained`, `PDJ.C98_two_players`, `PDJ.C98_answered_partial`, `PDJ.C99_in_the_process`, `PDJ.C99_accounted`, `PDJ.C100_nothing_unasked`, `PDJ.C100_no_amplification`, `PDJ.C101_file_amid_traffic`, `PDJ.C102_read_in_one_way`, `PDJ.C102_chunk_ends_connection_iff`, `PDJ.C102_answer_depends_on_code_and_ids`, `PDJ.C102_requests_are_messages`, `PDJ.C103_starvable`, `PDJ.C103_export_waits`, `PDJ.C103_served_partial`, `PDJ.C103_in_order`, `PDJ.C103_only_negotiations`, `PDJ.C104_noticed_partial`, `PDJ.C104_known_partial`, `PDJ.C104_linked_partial`, `PDJ.C104_crowded`, `PDJ.C104_overloaded`, `PDJ.C104_exact`, `PDJ.C105_never_closed`, `PDJ.C105_open_exactly`, `PDJ.C105_served_partial`, `PDJ.C105_exhausted`, `PDJ.C105_one_too_many`, `PDJ.C106_bound`, `PDJ.C106_given_back`, `PDJ.C106_up_partial`, `PDJ.C106_getports`, `PDJ.C106_connections`, `PDJ.C107_download_partial`, `PDJ.C107_in_the_process`, `PDJ.C107_getattr_again`, `PDJ.C107_directory_again`, `PDJ.C107_wrong_file`, `PDJ.C107_file_again`, `PDJ.C107_alike_iff`, `PDJ.C107_absolute_again_partial`, `PDJ.C107_begin_again`, `PDJ.C108_unchanged_folder_partial`, `PDJ.C108_only_unchanged`, `PDJ.C108_number_is_place`, `PDJ.C108_numbers_kept_iff`, `PDJ.C108_later_files`, `PDJ.C108_earlier_file`, `PDJ.C108_other_order`, `PDJ.C109_reply_lost`, `PDJ.C109_session_partial`, `PDJ.C109_read_until_titles`, `PDJ.C110_bytes_partial`, `PDJ.C110_read_multiplies`, `PDJ.C111_unknown_at_new_port`, `PDJ.C111_usable_iff`, `PDJ.C111_looked_up_again_partial`, `PDJ.C112_foreign_announcement_silences`, `PDJ.C112_announcement_moves`, `PDJ.C112_follows_the_latest`, `PDJ.C112_stays_partial`, `PDJ.C112_export_silenced`, `PDJ.C113_number_fixed`, `PDJ.C113_taken_number`, `PDJ.C113_objections_unheard`, `PDJ.C113_number_own_partial`, `PDJ.C113_number_own_iff`, `PDJ.C114_request_without_network`, `PDJ.C114_foreign_announcement`, `PDJ.C114_past_it`, `PDJ.C114_can_end_iff`, `PDJ.C114_everything_ends`, `PDJ.C115_events_do_not_pile_up`, `PDJ.C115_no_bound_of_its_own`, `PDJ.C115_exact`, `PDJ.C116_stopped`, `PDJ.C116_stoppable`, `PDJ.C116_served_partial`, `PDJ.C116_lookup_waits`, `PDJ.C116_in_order`, `PDJ.C116_at_most_workers`, `PDJ.C116_waits_iff`, `PDJ.C117_ends_iff`, `PDJ.C117_short_call_ends`, `PDJ.C117_one_datagram_ends`, `PDJ.C117_served_partial`, `PDJ.C117_whole_calls_served_partial`, `PDJ.C118_reply_bounded`, `PDJ.C118_buffer_bounded`, `PDJ.C118_slow_is_stream`, `PDJ.C118_kept_bounded`, `PDJ.C118_in_the_process`, `PDJ.C119_gone_iff_partial`, `PDJ.C119_outlives`, `PDJ.C120_garbled_ends`, `PDJ.C120_first_player_ends`, `PDJ.C120_mute_process`, `PDJ.C120_log_matters`, `PDJ.C121_receiver`, `PDJ.C121_status`, `PDJ.C121_portmapper`, `PDJ.C121_handlers`, `PDJ.C121_calls`, `PDJ.C121_answered_or_logged`, `PDJ.C121_library`, `PDJ.C121_one_line_per_player`, `PDJ.C122_waits`, `PDJ.C122_starvable`, `PDJ.C122_broadcaster`, `PDJ.C122_exports`, `PDJ.C122_never_links`, `PDJ.C122_in_order`, `PDJ.C122_others_partial`, `PDJ.C122_all_go_on`, `PDJ.C122_exclusive`, `PDJ.C123_unbounded`, `PDJ.C124_in_order`, `PDJ.C124_lost_line`, `PDJ.C125_before_partial`, `PDJ.C126_same`, `PDJ.C128_nothing_unasked`, `PDJ.C128_no_amplification`, `PDJ.C128_bytes`, `PDJ.C128_nfs`, `PDJ.C128_file`, `PDJ.C129_broadcast_true`, `PDJ.C129_exclusive`, `PDJ.C129_at_some_moment`, `PDJ.C129_export`, `PDJ.C130_finished`, `PDJ.C130_answered`, `PDJ.C130_noticed`, `PDJ.C130_passed_over`, `PDJ.C131_negotiates`, `PDJ.C131_links`, `PDJ.C131_passed_over`, `PDJ.C132_round`, `PDJ.C132_announced`, `PDJ.C132_passed_over`, `PDJ.C133_limited`, `PDJ.C133_in_turn`, `PDJ.C133_announced`, `PDJ.C133_links`, `PDJ.C133_no_limit`
