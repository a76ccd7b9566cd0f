{
 "claims": [
  {
   "property": "C01",
   "status": "partial",
   "theorems": [
    "PDJ.C01_field_roundtrip_partial",
    "PDJ.C01_long_text_never_roundtrips",
    "PDJ.C01_blob_never_roundtrips",
    "PDJ.C01_roundtrip_iff"
   ],
   "note": "Round trip proved for numbers and texts of at most 127 UTF-16 units. Full claim is false: proved that every longer text and every non-empty blob fails. C01_roundtrip_iff: exactly which values survive."
  },
  {
   "property": "C02",
   "status": "proved",
   "theorems": [
    "PDJ.C02_request_parsed",
    "PDJ.C02_message_roundtrip"
   ],
   "note": ""
  },
  {
   "property": "C03",
   "status": "proved",
   "theorems": [
    "PDJ.C03_item_announces_text_length",
    "PDJ.C03_player_reads_lengths"
   ],
   "note": "texts below 2^31-1 units"
  },
  {
   "property": "C04",
   "status": "partial",
   "theorems": [
    "PDJ.C04_reply_readable_partial",
    "PDJ.C04_long_text_never_recovered",
    "PDJ.C04_readable_iff_texts_short"
   ],
   "note": "Proved: the reply is recovered exactly when every text has at most 127 UTF-16 units, so the claim for all texts is false."
  },
  {
   "property": "C05",
   "status": "proved",
   "theorems": [
    "PDJ.C05_unknown_preserved",
    "PDJ.C05_decode_injective",
    "PDJ.C05_echoed_code_is_received_code",
    "PDJ.C05_own_code_roundtrip",
    "PDJ.C05_types_without_code_collide"
   ],
   "note": "includes the collision of all types without their own code"
  },
  {
   "property": "C06",
   "status": "partial",
   "theorems": [
    "PDJ.C06_parser_panics_iff_partial",
    "PDJ.C06_parser_can_panic",
    "PDJ.C06_wellformed_never_panics"
   ],
   "note": "Full claim is false (witness proved). Proved: exact set of crashing chunks, and a safe sufficient condition."
  },
  {
   "property": "C07",
   "status": "proved",
   "theorems": [
    "PDJ.C07_greeting_echoed"
   ],
   "note": ""
  },
  {
   "property": "C08",
   "status": "proved",
   "theorems": [
    "PDJ.C08_transaction_id_echoed"
   ],
   "note": ""
  },
  {
   "property": "C09",
   "status": "partial",
   "theorems": [
    "PDJ.C09_announced_count_rendered_partial",
    "PDJ.C09_root_menu_count_wrong",
    "PDJ.C09_album_menu_count_wrong",
    "PDJ.C09_title_menu_unreadable",
    "PDJ.C09_right_iff",
    "PDJ.C09_announced_count_after_other_requests_partial"
   ],
   "note": "Proved for artist list, titles of an artist, metadata and mount info in every library. Full claim is false for the root, album and title menus (witnesses proved)."
  },
  {
   "property": "C10",
   "status": "proved",
   "theorems": [
    "PDJ.C10_render_reply_framed"
   ],
   "note": ""
  },
  {
   "property": "C11",
   "status": "proved",
   "theorems": [
    "PDJ.C11_render_shows_latest_menu",
    "PDJ.C11_request_recognised",
    "PDJ.C11_last_menu_unique"
   ],
   "note": ""
  },
  {
   "property": "C12",
   "status": "proved",
   "theorems": [
    "PDJ.C12_render_repeatable"
   ],
   "note": ""
  },
  {
   "property": "C13",
   "status": "proved",
   "theorems": [
    "PDJ.C13_handlers_isolated",
    "PDJ.C13_only_own_events_matter",
    "PDJ.C13_main_connections_isolated"
   ],
   "note": ""
  },
  {
   "property": "C14",
   "status": "proved",
   "theorems": [
    "PDJ.C14_unsupported_request_acknowledged",
    "PDJ.C14_unsupported_chunk_acknowledged"
   ],
   "note": ""
  },
  {
   "property": "C15",
   "status": "proved",
   "theorems": [
    "PDJ.C15_undecodable_chunk",
    "PDJ.C15_wrong_magic_rejected"
   ],
   "note": ""
  },
  {
   "property": "C16",
   "status": "partial",
   "theorems": [
    "PDJ.C16_segmentation_matters",
    "PDJ.C16_merged_requests_dropped_partial",
    "PDJ.C16_cut_request",
    "PDJ.C16_cut_request_unanswered",
    "PDJ.C16_merged_segments"
   ],
   "note": "Full claim is false (proved for every request and every cut). Proved: one chunk is handled as one request, the rest is dropped; what happens to a request that is cut."
  },
  {
   "property": "C17",
   "status": "proved",
   "theorems": [
    "PDJ.C17_metadata_of_track",
    "PDJ.C17_mount_info_of_track",
    "PDJ.C17_metadata_crashes_iff",
    "PDJ.C17_mount_info_crashes_iff"
   ],
   "note": ""
  },
  {
   "property": "C18",
   "status": "proved",
   "theorems": [
    "PDJ.C18_artist_menu",
    "PDJ.C18_titles_of_listed_artist"
   ],
   "note": ""
  },
  {
   "property": "C19",
   "status": "proved",
   "theorems": [
    "PDJ.C19_artists_deduplicated"
   ],
   "note": ""
  },
  {
   "property": "C20",
   "status": "proved",
   "theorems": [
    "PDJ.C20_tracks_retrievable"
   ],
   "note": ""
  },
  {
   "property": "C21",
   "status": "proved",
   "theorems": [
    "PDJ.C21_titles_partition_library"
   ],
   "note": ""
  },
  {
   "property": "C22",
   "status": "proved",
   "theorems": [
    "PDJ.C22_ids_dense_and_stable"
   ],
   "note": ""
  },
  {
   "property": "C23",
   "status": "partial",
   "theorems": [
    "PDJ.C23_no_id_reuse_below_capacity_partial",
    "PDJ.C23_debug_panics_exactly_beyond_capacity",
    "PDJ.C23_release_overwrites_beyond_capacity"
   ],
   "note": "Full claim is false without overflow checks. Proved: no reuse below capacity, panic exactly beyond capacity in a checked build, overwrite in an unchecked build."
  },
  {
   "property": "C24",
   "status": "proved",
   "theorems": [
    "PDJ.C24_scan_selects_wanted_files",
    "PDJ.C24_scan_checked_build",
    "PDJ.C24_selected_iff"
   ],
   "note": ""
  },
  {
   "property": "C25",
   "status": "partial",
   "theorems": [
    "PDJ.C25_tempo_partial",
    "PDJ.C25_no_text_no_tempo",
    "PDJ.C25_decimal_representation",
    "PDJ.C25_large_tempo_wrong"
   ],
   "note": "The full claim is false above 42949672: the stored value wraps (release) or the scan panics (debug); witness C25_large_tempo_wrong. Proved: the exact stored value for every tag text."
  },
  {
   "property": "C26",
   "status": "partial",
   "theorems": [
    "PDJ.C26_understood_iff",
    "PDJ.C26_player_calls_understood_partial",
    "PDJ.C26_mnt_even_rejected",
    "PDJ.C26_accepted_form",
    "PDJ.C26_auth_null_rejected",
    "PDJ.C26_machine_name_rejected"
   ],
   "note": "Proved for every implemented procedure; MNT only for paths of an odd number of UTF-16 units (or with extra bytes). Full claim is false: even paths, AUTH_NULL with short arguments and short machine names are rejected (proved)."
  },
  {
   "property": "C27",
   "status": "proved",
   "theorems": [
    "PDJ.C27_reply_header",
    "PDJ.C27_reply_read"
   ],
   "note": ""
  },
  {
   "property": "C28",
   "status": "proved",
   "theorems": [
    "PDJ.C28_aligned"
   ],
   "note": ""
  },
  {
   "property": "C29",
   "status": "partial",
   "theorems": [
    "PDJ.C29_panics_exactly_on_replies_partial",
    "PDJ.C29_reply_panics"
   ],
   "note": "Full claim is false. Proved: exact set of crashing datagrams."
  },
  {
   "property": "C30",
   "status": "proved",
   "theorems": [
    "PDJ.C30_getport_nfs",
    "PDJ.C30_getport_mount",
    "PDJ.C30_announced_port_serves_nfs",
    "PDJ.C30_announced_port_serves_mount"
   ],
   "note": "for a port on which no older handler still listens (the OS does not hand out a bound port)"
  },
  {
   "property": "C31",
   "status": "partial",
   "theorems": [
    "PDJ.C31_dead_port_announced",
    "PDJ.C31_getport_has_listener_partial",
    "PDJ.C31_listener_iff",
    "PDJ.C31_own_port_is_mount"
   ],
   "note": "Full claim is false: proved that every other decodable call announces a dead port. Proved: a GETPORT answer always has a listener."
  },
  {
   "property": "C32",
   "status": "proved",
   "theorems": [
    "PDJ.C32_mnt",
    "PDJ.C32_export",
    "PDJ.C32_garbage_ignored",
    "PDJ.C32_stops_exactly",
    "PDJ.C32_refused_stops",
    "PDJ.C32_stopped_for_good",
    "PDJ.C32_history"
   ],
   "note": "given that the OS accepts every reply"
  },
  {
   "property": "C33",
   "status": "proved",
   "theorems": [
    "PDJ.C33_address_text",
    "PDJ.C33_export_reply"
   ],
   "note": ""
  },
  {
   "property": "C34",
   "status": "proved",
   "theorems": [
    "PDJ.C34_path_walk"
   ],
   "note": ""
  },
  {
   "property": "C35",
   "status": "partial",
   "theorems": [
    "PDJ.C35_missing_name_partial",
    "PDJ.C35_unopenable_stays",
    "PDJ.C35_back_iff",
    "PDJ.C35_unopenable_breaks_next"
   ],
   "note": "Proved for missing names in every state. Full claim is false for entries that exist but cannot be opened (proved, with consequence)."
  },
  {
   "property": "C36",
   "status": "partial",
   "theorems": [
    "PDJ.C36_directory_handle_ignored",
    "PDJ.C36_interleaved_walks_mixed_up",
    "PDJ.C36_relative_to_current_directory_partial",
    "PDJ.C36_absolute_name_escapes"
   ],
   "note": "Full claim is false: the directory handle has no influence (proved), interleaved walks are mixed up (witness). Proved: relative to the handler's own current directory the lookup is right."
  },
  {
   "property": "C37",
   "status": "proved",
   "theorems": [
    "PDJ.C37_handle_identifies_inode",
    "PDJ.C37_handles_distinct",
    "PDJ.C37_big_endian_reversed",
    "PDJ.C37_request_handles_safe"
   ],
   "note": "little-endian hosts; the big-endian behaviour is a separate theorem"
  },
  {
   "property": "C38",
   "status": "proved",
   "theorems": [
    "PDJ.C38_read_from_same_file",
    "PDJ.C38_getattr_from_same_file",
    "PDJ.C38_same_inode_confused"
   ],
   "note": "with the proviso of the statement; the proviso is shown necessary"
  },
  {
   "property": "C39",
   "status": "proved",
   "theorems": [
    "PDJ.C39_read_reply",
    "PDJ.C39_read_in_range",
    "PDJ.C39_read_past_end"
   ],
   "note": "including the zero-filled tail at end of file"
  },
  {
   "property": "C40",
   "status": "proved",
   "theorems": [
    "PDJ.C40_answered_iff",
    "PDJ.C40_stale_refused"
   ],
   "note": ""
  },
  {
   "property": "C41",
   "status": "proved",
   "theorems": [
    "PDJ.C41_attributes",
    "PDJ.C41_getattr",
    "PDJ.C41_lookup",
    "PDJ.C41_read",
    "PDJ.C41_read_recovered"
   ],
   "note": ""
  },
  {
   "property": "C42",
   "status": "partial",
   "theorems": [
    "PDJ.C42_still_serves_partial",
    "PDJ.C42_recovers",
    "PDJ.C42_garbage_dropped",
    "PDJ.C42_reply_kills",
    "PDJ.C42_undated_kills",
    "PDJ.C42_oversize_read_wedges",
    "PDJ.C42_ends_iff",
    "PDJ.C42_history_ends_iff"
   ],
   "note": "Proved for all datagrams except RPC replies, on dated file systems, as long as the OS accepts the replies. Full claim is false: replies, undated files and READ counts above 65404 stop the service (proved). C42_ends_iff, C42_history_ends_iff: exactly what ends the handler."
  },
  {
   "property": "C43",
   "status": "partial",
   "theorems": [
    "PDJ.C43_only_named_files_partial",
    "PDJ.C43_any_readable_file_is_served",
    "PDJ.C43_only_openable_files_partial"
   ],
   "note": "Full claim is false: any readable file is served (C43_any_readable_file_is_served). Proved: everything sent is about a file at a path made of names looked up at that handler, and data only of files opened as regular files."
  },
  {
   "property": "C44",
   "status": "partial",
   "theorems": [
    "PDJ.C44_round_trip_partial",
    "PDJ.C44_status_last_byte",
    "PDJ.C44_ip_packet",
    "PDJ.C44_ip_packet_not_recovered",
    "PDJ.C44_round_trip_iff"
   ],
   "note": "Proved for hello, mac, number and change packets, and for status packets whose trailing bytes have the values the encoder writes. Full claim is false: ip packets are not recovered (proved, except one byte pair) and the last status byte is always written as 8. C44_round_trip_iff: exactly which packets survive."
  },
  {
   "property": "C45",
   "status": "proved",
   "theorems": [
    "PDJ.C45_never_panics",
    "PDJ.C45_content_agrees"
   ],
   "note": ""
  },
  {
   "property": "C46",
   "status": "proved",
   "theorems": [
    "PDJ.C46_name_padded",
    "PDJ.C46_long_name_panics",
    "PDJ.C46_name_decoded",
    "PDJ.C46_name_round_trip"
   ],
   "note": ""
  },
  {
   "property": "C47",
   "status": "proved",
   "theorems": [
    "PDJ.C47_own_datagram_ignored",
    "PDJ.C47_own_broadcasts_ignored"
   ],
   "note": ""
  },
  {
   "property": "C48",
   "status": "proved",
   "theorems": [
    "PDJ.C48_never_dropped",
    "PDJ.C48_one_entry_per_address"
   ],
   "note": ""
  },
  {
   "property": "C49",
   "status": "proved",
   "theorems": [
    "PDJ.C49_heard",
    "PDJ.C49_registry",
    "PDJ.C49_frozen"
   ],
   "note": "While process, receiver and lock are usable; once one is lost the registry is proved frozen."
  },
  {
   "property": "C50",
   "status": "proved",
   "theorems": [
    "PDJ.C50_events_of_announcement",
    "PDJ.C50_one_event_per_player",
    "PDJ.C50_no_other_events"
   ],
   "note": ""
  },
  {
   "property": "C51",
   "status": "proved",
   "theorems": [
    "PDJ.C51_not_reinitiated",
    "PDJ.C51_marks",
    "PDJ.C51_repeated_negotiation"
   ],
   "note": "Includes the theorem that k+1 announcements before the application acts lead to k+1 negotiations."
  },
  {
   "property": "C52",
   "status": "proved",
   "theorems": [
    "PDJ.C52_network",
    "PDJ.C52_initially_none"
   ],
   "note": "While process, receiver and lock are usable; frozen afterwards (C49_frozen)."
  },
  {
   "property": "C53",
   "status": "proved",
   "theorems": [
    "PDJ.C53_negotiation",
    "PDJ.C53_failed_negotiation",
    "PDJ.C53_announcement"
   ],
   "note": ""
  },
  {
   "property": "C54",
   "status": "partial",
   "theorems": [
    "PDJ.C54_ends_exactly",
    "PDJ.C54_receiver_ends_exactly",
    "PDJ.C54_foreign_announcement_kills",
    "PDJ.C54_mac_missing_kills",
    "PDJ.C54_survives_partial"
   ],
   "note": "Full claim is false (two killing schedules proved). Proved: the exact conditions for the end of the process and of the receiver, and survival if every announcement matches a local network and sockets work."
  },
  {
   "property": "C55",
   "status": "proved",
   "theorems": [
    "PDJ.C55_mask",
    "PDJ.C55_contains",
    "PDJ.C55_broadcast",
    "PDJ.C55_first_match",
    "PDJ.C55_no_match",
    "PDJ.C55_panics_exactly",
    "PDJ.C55_total"
   ],
   "note": "also proved: the exact tables on which the search panics (interface with IPv4 but no MAC reached before a match)"
  },
  {
   "property": "C56",
   "status": "proved",
   "theorems": [
    "PDJ.C56_sizes",
    "PDJ.C56_hello",
    "PDJ.C56_link_query",
    "PDJ.C56_silent",
    "PDJ.C56_history",
    "PDJ.C56_answers_unique"
   ],
   "note": ""
  },
  {
   "property": "C57",
   "status": "partial",
   "theorems": [
    "PDJ.C57_stops_exactly",
    "PDJ.C57_survives_exactly",
    "PDJ.C57_own_reply_stops",
    "PDJ.C57_robust_partial"
   ],
   "note": "Full claim is false (witness: the program's own hello reply). Proved: exactly which datagrams stop the server, over all histories."
  },
  {
   "property": "C58",
   "status": "proved",
   "theorems": [
    "PDJ.C58_keepalive_codes",
    "PDJ.C58_subkind_byte_preserved",
    "PDJ.C58_status_codes",
    "PDJ.C58_status_bytes_preserved"
   ],
   "note": ""
  },
  {
   "property": "C59",
   "status": "proved",
   "theorems": [
    "PDJ.C59_round_trip",
    "PDJ.C59_capacity",
    "PDJ.C59_reply_name"
   ],
   "note": "recovery of the text for even capacities (all capacities used are even); exact length and panic condition for all"
  },
  {
   "property": "C60",
   "status": "partial",
   "theorems": [
    "PDJ.C60_library_survives_partial",
    "PDJ.C60_portmapper_stops_iff",
    "PDJ.C60_handlers_cannot_stop_services",
    "PDJ.C60_reply_stops_library"
   ],
   "note": "Full claim is false (proved: one reply datagram at the portmapper ends the library service). Proved: the exact condition."
  },
  {
   "property": "C61",
   "status": "proved",
   "theorems": [
    "PDJ.C61_port_announced",
    "PDJ.C61_ports_in_order",
    "PDJ.C61_one_connection_per_listener",
    "PDJ.C61_failed_accept",
    "PDJ.C61_fresh_session",
    "PDJ.C61_announced_port_serves"
   ],
   "note": ""
  },
  {
   "property": "C62",
   "status": "proved",
   "theorems": [
    "PDJ.C62_utf16_round_trip",
    "PDJ.C62_utf16_accepts_exactly",
    "PDJ.C62_lone_high_surrogate_rejected",
    "PDJ.C62_lone_low_surrogate_rejected",
    "PDJ.C62_utf8_round_trip",
    "PDJ.C62_utf8_accepts_exactly"
   ],
   "note": ""
  },
  {
   "property": "C63",
   "status": "proved",
   "theorems": [
    "PDJ.C63_download",
    "PDJ.C63_walk_and_download"
   ],
   "note": ""
  },
  {
   "property": "C64",
   "status": "proved",
   "theorems": [
    "PDJ.C64_status_layout"
   ],
   "note": ""
  },
  {
   "property": "C65",
   "status": "partial",
   "theorems": [
    "PDJ.C65_slot_lost",
    "PDJ.C65_body_round_trip_partial"
   ],
   "note": "Full claim is false: slot always read as empty (proved for all replies). Proved: round trip of the body without the nine header bytes."
  },
  {
   "property": "C66",
   "status": "proved",
   "theorems": [
    "PDJ.C66_file_reachable",
    "PDJ.C66_only_files_listed"
   ],
   "note": ""
  },
  {
   "property": "C67",
   "status": "proved",
   "theorems": [
    "PDJ.C67_shown_path_downloads"
   ],
   "note": ""
  },
  {
   "property": "C68",
   "status": "proved",
   "theorems": [
    "PDJ.C68_setup_reply",
    "PDJ.C68_load_track_reply",
    "PDJ.C68_waveform_reply"
   ],
   "note": ""
  },
  {
   "property": "C69",
   "status": "proved",
   "theorems": [
    "PDJ.C69_render_window_ignored",
    "PDJ.C69_window_exceeded"
   ],
   "note": ""
  },
  {
   "property": "C70",
   "status": "proved",
   "theorems": [
    "PDJ.C70_request_ends_connection_iff",
    "PDJ.C70_polite_player_always_answered"
   ],
   "note": ""
  },
  {
   "property": "C71",
   "status": "proved",
   "theorems": [
    "PDJ.C71_traffic_bounded",
    "PDJ.C71_destinations",
    "PDJ.C71_silent_until_heard"
   ],
   "note": ""
  },
  {
   "property": "C72",
   "status": "proved",
   "theorems": [
    "PDJ.C72_request_is_carried_out",
    "PDJ.C72_linking_happens"
   ],
   "note": ""
  },
  {
   "property": "C73",
   "status": "proved",
   "theorems": [
    "PDJ.C73_entry",
    "PDJ.C73_order",
    "PDJ.C73_iteration",
    "PDJ.C73_index",
    "PDJ.C73_push_can_duplicate"
   ],
   "note": ""
  },
  {
   "property": "C74",
   "status": "proved",
   "theorems": [
    "PDJ.C74_u16",
    "PDJ.C74_u32",
    "PDJ.C74_u64",
    "PDJ.C74_utf8",
    "PDJ.C74_utf16"
   ],
   "note": ""
  },
  {
   "property": "C75",
   "status": "proved",
   "theorems": [
    "PDJ.C75_verifier",
    "PDJ.C75_export_empty",
    "PDJ.C75_export_single",
    "PDJ.C75_export_two"
   ],
   "note": ""
  },
  {
   "property": "C76",
   "status": "proved",
   "theorems": [
    "PDJ.C76_refusals_only_drop",
    "PDJ.C76_refused_once_is_delayed",
    "PDJ.C76_nfs_answers_the_asker",
    "PDJ.C76_mount_answers_the_asker",
    "PDJ.C76_portmap_answers_the_asker"
   ],
   "note": ""
  },
  {
   "property": "C77",
   "status": "proved",
   "theorems": [
    "PDJ.C77_application_undisturbed",
    "PDJ.C77_status_undisturbed",
    "PDJ.C77_library_undisturbed",
    "PDJ.C77_nfs_undisturbed",
    "PDJ.C77_mount_undisturbed"
   ],
   "note": ""
  },
  {
   "property": "C78",
   "status": "proved",
   "theorems": [
    "PDJ.C78_export_names_network",
    "PDJ.C78_export_before_players"
   ],
   "note": "Given that the OS accepts the reply for sending."
  },
  {
   "property": "C79",
   "status": "partial",
   "theorems": [
    "PDJ.C79_ends_exactly",
    "PDJ.C79_end_is_silence",
    "PDJ.C79_foreign_announcement_silences",
    "PDJ.C79_survives_partial"
   ],
   "note": "Full claim is false (proved: one foreign announcement silences everything). Proved: the exact condition for the end of the process, and survival of all services otherwise."
  },
  {
   "property": "C80",
   "status": "partial",
   "theorems": [
    "PDJ.C80_announces_1051_tracks",
    "PDJ.C80_count_right_iff_partial"
   ],
   "note": "Full claim is false: the announced numbers are constants (proved). Proved: right exactly for 1051 tracks."
  },
  {
   "property": "C81",
   "status": "proved",
   "theorems": [
    "PDJ.C81_call_iff",
    "PDJ.C81_call_unique",
    "PDJ.C81_call_fields",
    "PDJ.C81_rejected_iff",
    "PDJ.C81_form_is_irrelevant"
   ],
   "note": ""
  },
  {
   "property": "C82",
   "status": "proved",
   "theorems": [
    "PDJ.C82_status_packets"
   ],
   "note": ""
  },
  {
   "property": "C83",
   "status": "proved",
   "theorems": [
    "PDJ.C83_keepalive_packets"
   ],
   "note": ""
  },
  {
   "property": "C84",
   "status": "partial",
   "theorems": [
    "PDJ.C84_waveform_partial",
    "PDJ.C84_not_the_tracks_waveform"
   ],
   "note": "Full claim is false: one recorded waveform for all tracks (proved). Proved: the waveform is well formed and the same in every reply."
  },
  {
   "property": "C85",
   "status": "proved",
   "theorems": [
    "PDJ.C85_shown_path",
    "PDJ.C85_relative_root",
    "PDJ.C85_scanned_file_downloads",
    "PDJ.C85_program_fits"
   ],
   "note": "Files whose shown path fits a menu line (at most 127 UTF-16 units), are below 4 GiB and unchanged since the scan."
  },
  {
   "property": "C86",
   "status": "partial",
   "theorems": [
    "PDJ.C86_size_partial",
    "PDJ.C86_large_file_wrong"
   ],
   "note": "Full claim is false from 4 GiB on (witness C86_large_file_wrong). Proved: the size modulo 2^32, right exactly below 4 GiB."
  },
  {
   "property": "C87",
   "status": "partial",
   "theorems": [
    "PDJ.C87_hidden_root",
    "PDJ.C87_root_name_partial",
    "PDJ.C87_root_name_matters",
    "PDJ.C87_link_followed",
    "PDJ.C87_link_to_no_folder",
    "PDJ.C87_name_of_path",
    "PDJ.C87_parent_visible",
    "PDJ.C87_hidden_path",
    "PDJ.C87_dots_hidden",
    "PDJ.C87_program_folder"
   ],
   "note": "Full claim is false for names that start with a dot (witness C87_root_name_matters). Proved: the exact exception, and equality for all other names."
  },
  {
   "property": "C88",
   "status": "partial",
   "theorems": [
    "PDJ.C88_all_free",
    "PDJ.C88_needed",
    "PDJ.C88_library_port_taken",
    "PDJ.C88_portmap_port_taken_partial",
    "PDJ.C88_portmap_port_silences_library",
    "PDJ.C88_serves_iff"
   ],
   "note": "Full claim is false for the portmapper's port (proved C88_portmap_port_silences_library) and for the keep-alive and status ports, whose absence ends the process (C88_needed). Proved: the claim for the library's port; for the portmapper's port, for all services but the library."
  },
  {
   "property": "C89",
   "status": "proved",
   "theorems": [
    "PDJ.C89_rate_of_both",
    "PDJ.C89_attained",
    "PDJ.C89_timed_is_untimed",
    "PDJ.C89_rate"
   ],
   "note": ""
  },
  {
   "property": "C90",
   "status": "partial",
   "theorems": [
    "PDJ.C90_attained",
    "PDJ.C90_capacity_partial",
    "PDJ.C90_falls_behind"
   ],
   "note": "Full claim is false (proved C90_falls_behind). Proved: the exact capacity of the receiver (C90_attained)."
  },
  {
   "property": "C91",
   "status": "partial",
   "theorems": [
    "PDJ.C91_late_broadcaster_silent",
    "PDJ.C91_gap_exact",
    "PDJ.C91_bound_exact",
    "PDJ.C91_gap_partial",
    "PDJ.C91_rate_partial",
    "PDJ.C91_rate_attained",
    "PDJ.C91_silence_partial",
    "PDJ.C91_deaf"
   ],
   "note": "Full claim is false during a negotiation (proved). Proved: the length of the gap is at least 3950 ms; and, for a broadcaster of bounded lateness, the rate outside of negotiations and the longest gap, both exact, and the lateness from which on there is no bound."
  },
  {
   "property": "C92",
   "status": "proved",
   "theorems": [
    "PDJ.C92_once",
    "PDJ.C92_linked_once",
    "PDJ.C92_late_main_links_twice",
    "PDJ.C92_exact"
   ],
   "note": "The bound on the lateness of the main thread is a hypothesis; the other threads are arbitrary."
  },
  {
   "property": "C93",
   "status": "partial",
   "theorems": [
    "PDJ.C93_capacity_partial",
    "PDJ.C93_exhausted",
    "PDJ.C93_one_too_many",
    "PDJ.C93_answered_iff"
   ],
   "note": "Full claim is false (proved C93_exhausted; C93_one_too_many for every pool of ports). Proved: the bound on the number of calls served."
  },
  {
   "property": "C94",
   "status": "partial",
   "theorems": [
    "PDJ.C94_capacity_partial",
    "PDJ.C94_answered_iff",
    "PDJ.C94_kept_forever",
    "PDJ.C94_exhausted",
    "PDJ.C94_one_too_many"
   ],
   "note": "Full claim is false (proved C94_exhausted, C94_kept_forever; C94_one_too_many for every pool of ports). Proved: the bound on the number of ports announced."
  },
  {
   "property": "C95",
   "status": "partial",
   "theorems": [
    "PDJ.C95_one_message_per_chunk_partial",
    "PDJ.C95_segmentation_matters",
    "PDJ.C95_split_rejected",
    "PDJ.C95_roundtrip",
    "PDJ.C95_encode_appends",
    "PDJ.C95_nothing_iff_empty"
   ],
   "note": "Full claim is false (proved C95_segmentation_matters, C95_split_rejected). The codec is not used by the running program."
  },
  {
   "property": "C96",
   "status": "partial",
   "theorems": [
    "PDJ.C96_argument_partial",
    "PDJ.C96_argument_wire",
    "PDJ.C96_binary_differs"
   ],
   "note": "Full claim is false for binary arguments (proved C96_binary_differs). The writer is not used by the running program."
  },
  {
   "property": "C97",
   "status": "proved",
   "theorems": [
    "PDJ.C97_get_set",
    "PDJ.C97_suppressed",
    "PDJ.C97_permitted",
    "PDJ.C97_address",
    "PDJ.C97_discovery_ignored"
   ],
   "note": "The setters are public but not called by the running program; they are interleaved with its threads here."
  },
  {
   "property": "C98",
   "status": "partial",
   "theorems": [
    "PDJ.C98_overloaded",
    "PDJ.C98_exact",
    "PDJ.C98_delay_attained",
    "PDJ.C98_capacity",
    "PDJ.C98_overload",
    "PDJ.C98_two_players",
    "PDJ.C98_answered_partial",
    "PDJ.C98_refines"
   ],
   "note": "Full claim is false (proved C98_two_players, C98_overload, C98_overloaded). Proved: the capacity of the server, and the claim for arrivals in bursts of any size with the rate the server can bear; that these conditions are exact (C98_exact) and the delay is attained (C98_delay_attained)."
  },
  {
   "property": "C99",
   "status": "proved",
   "theorems": [
    "PDJ.C99_in_the_process",
    "PDJ.C99_accounted"
   ],
   "note": ""
  },
  {
   "property": "C100",
   "status": "proved",
   "theorems": [
    "PDJ.C100_nothing_unasked",
    "PDJ.C100_no_amplification"
   ],
   "note": ""
  },
  {
   "property": "C101",
   "status": "proved",
   "theorems": [
    "PDJ.C101_menu_amid_traffic",
    "PDJ.C101_file_amid_traffic"
   ],
   "note": ""
  },
  {
   "property": "C102",
   "status": "proved",
   "theorems": [
    "PDJ.C102_read_in_one_way",
    "PDJ.C102_chunk_ends_connection_iff",
    "PDJ.C102_answer_depends_on_code_and_ids",
    "PDJ.C102_requests_are_messages"
   ],
   "note": ""
  },
  {
   "property": "C103",
   "status": "partial",
   "theorems": [
    "PDJ.C103_starved",
    "PDJ.C103_starvable",
    "PDJ.C103_export_waits",
    "PDJ.C103_served_partial",
    "PDJ.C103_in_order",
    "PDJ.C103_released",
    "PDJ.C103_exclusive",
    "PDJ.C103_only_negotiations"
   ],
   "note": "The full claim is false of the code: an EXPORT call waits for the lock on a worker thread, so as many of them as there are workers stop all services during a negotiation (C103_starved, C103_starvable). Whether a free worker turns to a given request at once is up to tokio and not claimed."
  },
  {
   "property": "C104",
   "status": "partial",
   "theorems": [
    "PDJ.C104_refines",
    "PDJ.C104_noticed_partial",
    "PDJ.C104_known_partial",
    "PDJ.C104_linked_partial",
    "PDJ.C104_capacity",
    "PDJ.C104_overload",
    "PDJ.C104_behind",
    "PDJ.C104_crowded",
    "PDJ.C104_overloaded",
    "PDJ.C104_exact"
   ],
   "note": "Full claim is false under load (C104_overload, C104_behind, C104_crowded, C104_overloaded). Proved: the capacity of the receiver, that the socket only leaves datagrams out, and the claim for arrivals in bursts of any size with the rate the receiver can bear; without negotiations these conditions are exact (C104_exact)."
  },
  {
   "property": "C105",
   "status": "partial",
   "theorems": [
    "PDJ.C105_never_closed",
    "PDJ.C105_open_exactly",
    "PDJ.C105_served_partial",
    "PDJ.C105_exhausted",
    "PDJ.C105_one_too_many"
   ],
   "note": "False of the code: C105_exhausted and C105_one_too_many are the negation, C105_never_closed says why. C105_served_partial is what holds. The limit is what the OS leaves to this one handler; descriptors of other handlers and sockets of the process only lower it. C105_open_exactly says which files a handler has open."
  },
  {
   "property": "C106",
   "status": "partial",
   "theorems": [
    "PDJ.C106_bound",
    "PDJ.C106_given_back",
    "PDJ.C106_up_partial",
    "PDJ.C106_silenced",
    "PDJ.C106_announced_iff",
    "PDJ.C106_getports",
    "PDJ.C106_connections"
   ],
   "note": "False of the code: C106_silenced, C106_getports and C106_connections are the negation. C106_bound, C106_given_back and C106_up_partial are what holds. Not counted are the sockets bound at start-up: the limit is what the OS leaves besides these. Sockets and files that are closed in the step that opened them are not counted either."
  },
  {
   "property": "C107",
   "status": "partial",
   "theorems": [
    "PDJ.C107_download_partial",
    "PDJ.C107_in_the_process",
    "PDJ.C107_getattr_again",
    "PDJ.C107_directory_again",
    "PDJ.C107_wrong_file",
    "PDJ.C107_file_again",
    "PDJ.C107_alike_iff",
    "PDJ.C107_absolute_again_partial",
    "PDJ.C107_begin_again"
   ],
   "note": "False of the code for LOOKUP: C107_directory_again, C107_wrong_file and C107_file_again. The remaining theorems are what holds. That each READ call that arrives is answered is C38_read_from_same_file."
  },
  {
   "property": "C108",
   "status": "partial",
   "theorems": [
    "PDJ.C108_unchanged_folder_partial",
    "PDJ.C108_only_unchanged",
    "PDJ.C108_number_is_place",
    "PDJ.C108_numbers_kept_iff",
    "PDJ.C108_later_files",
    "PDJ.C108_earlier_file",
    "PDJ.C108_other_order"
   ],
   "note": "False of the code when the folder changes: C108_earlier_file and C108_other_order. C108_numbers_kept_iff is the exact condition. The remaining theorems are what else holds."
  },
  {
   "property": "C109",
   "status": "partial",
   "theorems": [
    "PDJ.C109_only_replies",
    "PDJ.C109_all_replies",
    "PDJ.C109_final_errors",
    "PDJ.C109_reply_lost",
    "PDJ.C109_stream_read",
    "PDJ.C109_lost_after_panic",
    "PDJ.C109_lost_after_titles",
    "PDJ.C109_session_partial",
    "PDJ.C109_read_until_titles"
   ],
   "note": "False of the code behind title requests and behind bytes that are not a message (C109_lost_after_titles, C109_lost_after_panic), and C109_reply_lost when the OS takes bytes again after an error. C109_session_partial holds for all other sessions on libraries whose texts fit in 127 units. C109_read_until_titles says exactly what is read of a session with title requests."
  },
  {
   "property": "C110",
   "status": "partial",
   "theorems": [
    "PDJ.C110_bytes_partial",
    "PDJ.C110_read_multiplies"
   ],
   "note": "False of the code for READ calls, whose answers have as many bytes as the call asks for, whoever sends it and however long the file is (C110_read_multiplies). C110_bytes_partial bounds everything sent in answer, in every history, with the counts of the READ calls added."
  },
  {
   "property": "C111",
   "status": "partial",
   "theorems": [
    "PDJ.C111_unknown_at_new_port",
    "PDJ.C111_usable_iff",
    "PDJ.C111_looked_up_again_partial"
   ],
   "note": "False of the code (C111_unknown_at_new_port). C111_looked_up_again_partial is what holds."
  },
  {
   "property": "C112",
   "status": "partial",
   "theorems": [
    "PDJ.C112_foreign_announcement_silences",
    "PDJ.C112_announcement_moves",
    "PDJ.C112_follows_the_latest",
    "PDJ.C112_stays_partial",
    "PDJ.C112_export_silenced"
   ],
   "note": "False of the code: C112_foreign_announcement_silences, C112_announcement_moves and C112_export_silenced are the negation, in every healthy state. C112_follows_the_latest and C112_stays_partial are what holds."
  },
  {
   "property": "C113",
   "status": "partial",
   "theorems": [
    "PDJ.C113_number_fixed",
    "PDJ.C113_taken_number",
    "PDJ.C113_objections_unheard",
    "PDJ.C113_number_own_partial",
    "PDJ.C113_number_own_iff"
   ],
   "note": "False of the code: C113_taken_number and C113_objections_unheard. C113_number_fixed and C113_number_own_partial are what holds."
  },
  {
   "property": "C114",
   "status": "proved",
   "theorems": [
    "PDJ.C114_request_without_network",
    "PDJ.C114_foreign_announcement",
    "PDJ.C114_past_it",
    "PDJ.C114_can_end_iff",
    "PDJ.C114_everything_ends"
   ],
   "note": ""
  },
  {
   "property": "C115",
   "status": "proved",
   "theorems": [
    "PDJ.C115_events_do_not_pile_up",
    "PDJ.C115_no_bound_of_its_own",
    "PDJ.C115_exact"
   ],
   "note": "The bound on the lateness of the main thread is a hypothesis; C115_no_bound_of_its_own shows that it is needed."
  },
  {
   "property": "C116",
   "status": "partial",
   "theorems": [
    "PDJ.C116_stopped",
    "PDJ.C116_stoppable",
    "PDJ.C116_served_partial",
    "PDJ.C116_threads_go_on",
    "PDJ.C116_lookup_waits",
    "PDJ.C116_in_order",
    "PDJ.C116_at_most_workers",
    "PDJ.C116_taken_iff",
    "PDJ.C116_waits_iff"
   ],
   "note": "The full claim is false of the code: opening a named pipe blocks a worker thread of the runtime, so as many LOOKUP calls of a pipe as there are workers stop the services for good (C116_stopped, C116_stoppable). Which task a free worker runs next is up to tokio and not claimed."
  },
  {
   "property": "C117",
   "status": "partial",
   "theorems": [
    "PDJ.C117_ends_iff",
    "PDJ.C117_end_is_silence",
    "PDJ.C117_short_call_ends",
    "PDJ.C117_one_datagram_ends",
    "PDJ.C117_served_partial",
    "PDJ.C117_whole_calls_served_partial"
   ],
   "note": "False of the code: C117_short_call_ends and C117_one_datagram_ends are the negation, C117_ends_iff says exactly when. C117_served_partial and C117_whole_calls_served_partial are what holds. Only the buffers of READ and of the texts of MNT and LOOKUP are counted; what the operating system grants is a parameter of every step. That nom's count reserves in advance is from memory."
  },
  {
   "property": "C118",
   "status": "proved",
   "theorems": [
    "PDJ.C118_reply_bounded",
    "PDJ.C118_buffer_bounded",
    "PDJ.C118_slow_is_stream",
    "PDJ.C118_kept_bounded",
    "PDJ.C118_nothing_lost",
    "PDJ.C118_goes_on",
    "PDJ.C118_in_the_process"
   ],
   "note": ""
  },
  {
   "property": "C119",
   "status": "partial",
   "theorems": [
    "PDJ.C119_main_runs",
    "PDJ.C119_gone_iff_partial",
    "PDJ.C119_stays",
    "PDJ.C119_left",
    "PDJ.C119_threads_go_on",
    "PDJ.C119_last_pipe",
    "PDJ.C119_silent",
    "PDJ.C119_outlives",
    "PDJ.C119_no_backlog"
   ],
   "note": "False of the code: C119_outlives is the negation, C119_stays says what is left. C119_gone_iff_partial says exactly when the process is gone. That dropping a tokio runtime waits for its workers without limit is from memory of its documentation."
  },
  {
   "property": "C120",
   "status": "partial",
   "theorems": [
    "PDJ.C120_written_partial",
    "PDJ.C120_step",
    "PDJ.C120_quiet",
    "PDJ.C120_first_line_lost",
    "PDJ.C120_garbled_ends",
    "PDJ.C120_first_player_ends",
    "PDJ.C120_mute_process",
    "PDJ.C120_start",
    "PDJ.C120_log_matters"
   ],
   "note": "False of the code: C120_log_matters is the negation, C120_start, C120_first_player_ends and C120_garbled_ends say how, C120_step says exactly what a lost line does. C120_written_partial is what holds. That eprintln!, dbg! and println! panic when a line cannot be written is from their documentation, from memory."
  },
  {
   "property": "C121",
   "status": "proved",
   "theorems": [
    "PDJ.C121_receiver",
    "PDJ.C121_broadcaster",
    "PDJ.C121_negotiation",
    "PDJ.C121_status",
    "PDJ.C121_portmapper",
    "PDJ.C121_handlers",
    "PDJ.C121_calls",
    "PDJ.C121_answered_or_logged",
    "PDJ.C121_library",
    "PDJ.C121_connections",
    "PDJ.C121_ports",
    "PDJ.C121_errors_only_logged",
    "PDJ.C121_one_line_per_player",
    "PDJ.C121_start"
   ],
   "note": ""
  },
  {
   "property": "C122",
   "status": "partial",
   "theorems": [
    "PDJ.C122_waits",
    "PDJ.C122_no_worker",
    "PDJ.C122_starvable",
    "PDJ.C122_broadcaster",
    "PDJ.C122_exports",
    "PDJ.C122_writers",
    "PDJ.C122_never_links",
    "PDJ.C122_in_order",
    "PDJ.C122_read_partial",
    "PDJ.C122_others_partial",
    "PDJ.C122_goes_on",
    "PDJ.C122_last_line",
    "PDJ.C122_all_go_on",
    "PDJ.C122_exclusive"
   ],
   "note": "False of the code: C122_no_worker, C122_starvable, C122_broadcaster, C122_exports, C122_writers, C122_never_links. C122_in_order, C122_read_partial, C122_others_partial, C122_goes_on, C122_last_line, C122_all_go_on and C122_exclusive are what holds. Which of the waiting steps goes on next is left open."
  },
  {
   "property": "C123",
   "status": "partial",
   "theorems": [
    "PDJ.C123_bounded_partial",
    "PDJ.C123_never_rests",
    "PDJ.C123_unbounded"
   ],
   "note": "False of the code: C123_unbounded and C123_never_rests. C123_bounded_partial is what holds. That accept leaves the connection in the queue when there is no descriptor, and that tokio tries again at once, is in the trusted base."
  },
  {
   "property": "C124",
   "status": "proved",
   "theorems": [
    "PDJ.C124_in_order",
    "PDJ.C124_recovers",
    "PDJ.C124_lost_line"
   ],
   "note": "A connection that the OS refuses before it is in the queue is not an event. C124_in_order assumes that the lines about errors can be written; C124_lost_line says what happens otherwise."
  },
  {
   "property": "C125",
   "status": "partial",
   "theorems": [
    "PDJ.C125_boot",
    "PDJ.C125_before_partial",
    "PDJ.C125_after",
    "PDJ.C125_heard",
    "PDJ.C125_library_moment",
    "PDJ.C125_library_closed"
   ],
   "note": "Full claim is false (proved C125_heard). Proved: what is sent before a failing step (C125_before_partial), nothing after it (C125_after), and the library's moment when the portmapper's port is taken (C125_library_moment, C125_library_closed)."
  },
  {
   "property": "C126",
   "status": "proved",
   "theorems": [
    "PDJ.C126_same",
    "PDJ.C126_all"
   ],
   "note": "C126_same: the events of the second history are among those of the first, in the same order, but connections to the library may be accepted earlier in it."
  },
  {
   "property": "C127",
   "status": "proved",
   "theorems": [
    "PDJ.C127_one_by_one",
    "PDJ.C127_finishes",
    "PDJ.C127_every_order",
    "PDJ.C127_ended"
   ],
   "note": ""
  },
  {
   "property": "C128",
   "status": "proved",
   "theorems": [
    "PDJ.C128_nothing_unasked",
    "PDJ.C128_no_amplification",
    "PDJ.C128_bytes",
    "PDJ.C128_library",
    "PDJ.C128_nfs",
    "PDJ.C128_status",
    "PDJ.C128_menu",
    "PDJ.C128_file"
   ],
   "note": ""
  },
  {
   "property": "C129",
   "status": "proved",
   "theorems": [
    "PDJ.C129_broadcast_true",
    "PDJ.C129_exclusive",
    "PDJ.C129_at_some_moment",
    "PDJ.C129_export"
   ],
   "note": ""
  },
  {
   "property": "C130",
   "status": "proved",
   "theorems": [
    "PDJ.C130_finished",
    "PDJ.C130_answered",
    "PDJ.C130_noticed",
    "PDJ.C130_possible",
    "PDJ.C130_passed_over"
   ],
   "note": ""
  },
  {
   "property": "C131",
   "status": "proved",
   "theorems": [
    "PDJ.C131_negotiates",
    "PDJ.C131_links",
    "PDJ.C131_passed_over"
   ],
   "note": ""
  },
  {
   "property": "C132",
   "status": "proved",
   "theorems": [
    "PDJ.C132_round",
    "PDJ.C132_announced",
    "PDJ.C132_passed_over"
   ],
   "note": ""
  },
  {
   "property": "C133",
   "status": "proved",
   "theorems": [
    "PDJ.C133_limited",
    "PDJ.C133_in_turn",
    "PDJ.C133_announced",
    "PDJ.C133_links",
    "PDJ.C133_no_limit"
   ],
   "note": ""
  }
 ]
}