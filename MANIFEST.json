{"claims": [
 {"property": "C01", "status": "proved", "theorems": ["Saratoga.C01_received_exactly"], "note": ""},
 {"property": "C02", "status": "proved", "theorems": ["Saratoga.C02_canonical"], "note": ""},
 {"property": "C03", "status": "proved", "theorems": ["Saratoga.C03_history_independent", "Saratoga.C03_permutation"], "note": ""},
 {"property": "C04", "status": "proved", "theorems": ["Saratoga.C04_holes_exact", "Saratoga.C04_nothing_received", "Saratoga.C04_lenholes"], "note": ""},
 {"property": "C05", "status": "proved", "theorems": ["Saratoga.C05_complete_iff", "Saratoga.C05_complete_no_holes"], "note": ""},
 {"property": "C06", "status": "partial", "theorems": ["Saratoga.C06_refines", "Saratoga.C06_kept_partial", "Saratoga.C06_kept_iff", "Saratoga.C06_front_shows", "Saratoga.C06_counterexample"], "note": "The code contradicts the full statement (C06_counterexample): `Add` writes into the array behind the slice it was called on whenever there is spare capacity, so a second holder of that slice sees other ranges. What holds: C06_kept_partial, with what is missing in the comment of each; DESIGN.md section 5."},
 {"property": "C07", "status": "proved", "theorems": ["Saratoga.C07_get_number", "Saratoga.C07_get_after_set", "Saratoga.C07_getStr_iff", "Saratoga.C07_getStr_fatal_iff", "Saratoga.C07_set_fatal_iff", "Saratoga.C07_value", "Saratoga.C07_valid_iff", "Saratoga.C07_setD_fatal_iff", "Saratoga.C07_unlisted", "Saratoga.C07_getD_after_setD", "Saratoga.C07_getD_number", "Saratoga.C07_getT_after_setT", "Saratoga.C07_getT_number"], "note": ""},
 {"property": "C08", "status": "proved", "theorems": ["Saratoga.C08_set_outside", "Saratoga.C08_set_other_field", "Saratoga.C08_setD_other_field", "Saratoga.C08_setD_outside", "Saratoga.C08_setT_outside"], "note": ""},
 {"property": "C09", "status": "proved", "theorems": ["Saratoga.C09_flags_wf", "Saratoga.C09_dirent_wf", "Saratoga.C09_ts_wf", "Saratoga.C09_keys_distinct", "Saratoga.C09_frame_fields_disjoint", "Saratoga.C09_dirent_fields_disjoint", "Saratoga.C09_fields_listed", "Saratoga.C09_fileordir_missing", "Saratoga.C09_shipped_set_get"], "note": ""},
 {"property": "C10", "status": "proved", "theorems": ["Saratoga.C10_getStr_order", "Saratoga.C10_getDStr_order", "Saratoga.C10_getTStr_order", "Saratoga.C10_setFlags_order"], "note": ""},
 {"property": "C11", "status": "partial", "theorems": ["Saratoga.C11_fresh_data", "Saratoga.C11_fresh_status", "Saratoga.C11_fresh_request", "Saratoga.C11_fresh_metadata", "Saratoga.C11_fresh_beacon", "Saratoga.C11_data_partial", "Saratoga.C11_status", "Saratoga.C11_request", "Saratoga.C11_metadata", "Saratoga.C11_beacon_partial", "Saratoga.C11_shipped_separated", "Saratoga.C11_counterexample", "Saratoga.C11_beacon_counterexample", "Saratoga.C11_beacon_exact"], "note": "The code contradicts the full statement (C11_counterexample, C11_beacon_counterexample): data frames ignore the values of `transfer`; beacons compute `freespaced` themselves. What holds: C11_data_partial, C11_beacon_partial, with what is missing in the comment of each; DESIGN.md section 5."},
 {"property": "C12", "status": "partial", "theorems": ["Saratoga.C12_data_partial", "Saratoga.C12_status_partial", "Saratoga.C12_request_partial", "Saratoga.C12_metadata_partial", "Saratoga.C12_beacon_partial", "Saratoga.C12_shipped_basic", "Saratoga.C12_counterexample", "Saratoga.C12_beacon_iff"], "note": "The code contradicts the full statement (C12_counterexample): an unknown option or `fileordir` ends the process, a name without `=` panics, empty text panics for request and beacon. What holds: C12_data_partial, C12_status_partial, C12_request_partial, C12_metadata_partial, C12_beacon_partial, with what is missing in the comment of each; DESIGN.md section 5."},
 {"property": "C13", "status": "proved", "theorems": ["Saratoga.C13_addFlag_appends", "Saratoga.C13_addFlag_invalid", "Saratoga.C13_flagValue", "Saratoga.C13_flagValue_after_replace", "Saratoga.C13_replace_text", "Saratoga.C13_replace_twice", "Saratoga.C13_flagValue_after_replaceD", "Saratoga.C13_replace_empty_panics"], "note": ""},
 {"property": "C14", "status": "proved", "theorems": ["Saratoga.C14_text", "Saratoga.C14_order", "Saratoga.C14_data", "Saratoga.C14_status", "Saratoga.C14_request", "Saratoga.C14_beacon", "Saratoga.C14_shipped_defaults", "Saratoga.C14_metadata"], "note": ""},
 {"property": "C15", "status": "partial", "theorems": ["Saratoga.C15_valid", "Saratoga.C15_error_iff", "Saratoga.C15_order_partial", "Saratoga.C15_counterexample", "Saratoga.C15_refusal"], "note": "The code contradicts the full statement (C15_counterexample): which error is reported depends on map order. What holds: C15_order_partial, with what is missing in the comment of each; DESIGN.md section 5."},
 {"property": "C16", "status": "partial", "theorems": ["Saratoga.C16_copied_partial", "Saratoga.C16_wrong_fields", "Saratoga.C16_fails_iff", "Saratoga.C16_separate", "Saratoga.C16_counterexample", "Saratoga.C16_equal_iff"], "note": "The code contradicts the full statement (C16_counterexample): `CopyCliflags` copies `v4multicast` into `v6multicast` and drops `bcount`. What holds: C16_copied_partial, with what is missing in the comment of each; DESIGN.md section 5."},
 {"property": "C17", "status": "partial", "theorems": ["Saratoga.C17_survives_iff", "Saratoga.C17_new_survives_iff", "Saratoga.C17_wire_partial", "Saratoga.C17_counterexample", "Saratoga.C17_seconds", "Saratoga.C17_nanoseconds", "Saratoga.C17_epoch2000"], "note": "The code contradicts the full statement (C17_counterexample): in the last second before 1970 `posix32_32` is accepted with a wrong value. What holds: C17_wire_partial, with what is missing in the comment of each; DESIGN.md section 5."},
 {"property": "C18", "status": "partial", "theorems": ["Saratoga.C18_posix32", "Saratoga.C18_epoch2000", "Saratoga.C18_posix32_32_partial", "Saratoga.C18_counterexample"], "note": "The code contradicts the full statement (C18_counterexample): in the last second before 1970 `posix32_32` is accepted with a wrong value. What holds: C18_posix32_32_partial, with what is missing in the comment of each; DESIGN.md section 5."},
 {"property": "C19", "status": "partial", "theorems": ["Saratoga.C19_readable_iff", "Saratoga.C19_readable_partial", "Saratoga.C19_counterexample", "Saratoga.C19_bytes_needed"], "note": "The code contradicts the full statement (C19_counterexample): `localinterp` can be written and not read. What holds: C19_readable_partial, with what is missing in the comment of each; DESIGN.md section 5."},
 {"property": "C20", "status": "partial", "theorems": ["Saratoga.C20_round_trip_partial", "Saratoga.C20_empty_refused", "Saratoga.C20_counterexample", "Saratoga.C20_unstamped", "Saratoga.C20_survives_iff"], "note": "The code contradicts the full statement (C20_counterexample): a d16 data frame with a timestamp and no payload is refused by the decoder. What holds: C20_round_trip_partial, with what is missing in the comment of each; DESIGN.md section 5."},
 {"property": "C21", "status": "partial", "theorems": ["Saratoga.C21_exact", "Saratoga.C21_round_trip_partial", "Saratoga.C21_counterexample", "Saratoga.C21_survives_iff", "Saratoga.C21_fresh_iff"], "note": "The code contradicts the full statement (C21_counterexample): non ASCII names come back changed or panic. What holds: C21_round_trip_partial, with what is missing in the comment of each; DESIGN.md section 5."},
 {"property": "C22", "status": "partial", "theorems": ["Saratoga.C22_encodable_iff", "Saratoga.C22_exact", "Saratoga.C22_round_trip_partial", "Saratoga.C22_counterexample", "Saratoga.C22_survives_iff"], "note": "The code contradicts the full statement (C22_counterexample): non ASCII names come back changed or panic. d64 refuses sizes above 2^32-1. What holds: C22_round_trip_partial, with what is missing in the comment of each; DESIGN.md section 5."},
 {"property": "C23", "status": "proved", "theorems": ["Saratoga.C23_round_trip", "Saratoga.C23_round_trip_whole", "Saratoga.C23_survives_iff"], "note": ""},
 {"property": "C24", "status": "partial", "theorems": ["Saratoga.C24_exact", "Saratoga.C24_dropped_partial", "Saratoga.C24_counterexample"], "note": "The code contradicts the full statement (C24_counterexample): a directory entry that cannot be encoded is left out silently, so files of 2^32 bytes and more are announced without an entry. What holds: C24_dropped_partial, with what is missing in the comment of each; DESIGN.md section 5."},
 {"property": "C25", "status": "partial", "theorems": ["Saratoga.C25_round_trip_partial", "Saratoga.C25_stamped_refused", "Saratoga.C25_counterexample", "Saratoga.C25_stamped_never", "Saratoga.C25_survives_iff"], "note": "The code contradicts the full statement (C25_counterexample): a status with a timestamp has 16 zero bytes at its end where the decoder looks at offset 8. What holds: C25_round_trip_partial, with what is missing in the comment of each; DESIGN.md section 5."},
 {"property": "C26", "status": "proved", "theorems": ["Saratoga.C26_round_trip", "Saratoga.C26_round_trip_nospace", "Saratoga.C26_d128_refused", "Saratoga.C26_survives_iff"], "note": ""},
 {"property": "C27", "status": "partial", "theorems": ["Saratoga.C27_beacon_exact_partial", "Saratoga.C27_beacon_counterexample", "Saratoga.C27_data_exact_partial", "Saratoga.C27_data_counterexample", "Saratoga.C27_dirent_size_partial", "Saratoga.C27_dirent_counterexample", "Saratoga.C27_status_exact_partial", "Saratoga.C27_status_counterexample"], "note": "The code contradicts the full statement (C27_beacon_counterexample, C27_data_counterexample, C27_dirent_counterexample, C27_status_counterexample): numbers are cut to the field. What holds: C27_beacon_exact_partial, C27_data_exact_partial, C27_dirent_size_partial, C27_status_exact_partial, with what is missing in the comment of each; DESIGN.md section 5."},
 {"property": "C28", "status": "partial", "theorems": ["Saratoga.C28_decode_returns_iff_partial", "Saratoga.C28_counterexample"], "note": "The code contradicts the full statement (C28_counterexample): short or odd frames panic the decoders. What holds: C28_decode_returns_iff_partial, with what is missing in the comment of each; DESIGN.md section 5."},
 {"property": "C29", "status": "partial", "theorems": ["Saratoga.C29_decode_returns_iff_partial", "Saratoga.C29_never_fatal", "Saratoga.C29_counterexample"], "note": "The code contradicts the full statement (C29_counterexample): short or odd frames panic the decoders. What holds: C29_decode_returns_iff_partial, with what is missing in the comment of each; DESIGN.md section 5."},
 {"property": "C30", "status": "partial", "theorems": ["Saratoga.C30_dirent_returns_iff_partial", "Saratoga.C30_dirent_counterexample", "Saratoga.C30_metadata_returns_iff_partial", "Saratoga.C30_metadata_counterexample"], "note": "The code contradicts the full statement (C30_dirent_counterexample, C30_metadata_counterexample): short or odd frames panic the decoders. What holds: C30_dirent_returns_iff_partial, C30_metadata_returns_iff_partial, with what is missing in the comment of each; DESIGN.md section 5."},
 {"property": "C31", "status": "partial", "theorems": ["Saratoga.C31_decode_returns_iff_partial", "Saratoga.C31_counterexample"], "note": "The code contradicts the full statement (C31_counterexample): short or odd frames panic the decoders. What holds: C31_decode_returns_iff_partial, with what is missing in the comment of each; DESIGN.md section 5."},
 {"property": "C32", "status": "partial", "theorems": ["Saratoga.C32_decode_returns_iff_partial", "Saratoga.C32_listener", "Saratoga.C32_counterexample"], "note": "The code contradicts the full statement (C32_counterexample): short or odd frames panic the decoders. What holds: C32_decode_returns_iff_partial, with what is missing in the comment of each; DESIGN.md section 5."},
 {"property": "C33", "status": "partial", "theorems": ["Saratoga.C33_beacon", "Saratoga.C33_data_partial", "Saratoga.C33_data_counterexample", "Saratoga.C33_dirent", "Saratoga.C33_metadata", "Saratoga.C33_request_partial", "Saratoga.C33_request_appends", "Saratoga.C33_request_counterexample", "Saratoga.C33_data_iff", "Saratoga.C33_status_iff", "Saratoga.C33_request_iff", "Saratoga.C33_status_partial", "Saratoga.C33_status_counterexample"], "note": "The code contradicts the full statement (C33_data_counterexample, C33_request_counterexample, C33_status_counterexample): data keeps an old timestamp, request appends to the old name, status to the old holes. What holds: C33_data_partial, C33_request_partial, C33_status_partial, with what is missing in the comment of each; DESIGN.md section 5."},
 {"property": "C34", "status": "proved", "theorems": ["Saratoga.C34_freespace_fits", "Saratoga.C34_peer_learns", "Saratoga.C34_none_advertised", "Saratoga.C34_kilobytes"], "note": ""},
 {"property": "C35", "status": "partial", "theorems": ["Saratoga.C35_size_iff", "Saratoga.C35_checksum_iff", "Saratoga.C35_descriptor", "Saratoga.C35_size", "Saratoga.C35_counterexample", "Saratoga.C35_checksum_partial", "Saratoga.C35_checksum_counterexample", "Saratoga.C35_file_announced", "Saratoga.C35_large_file_not_announced"], "note": "The code contradicts the full statement (C35_counterexample, C35_checksum_counterexample): the descriptor is taken from the file below the working directory, the size from the file below Sardir; an old checksum is kept; `Mtime` is set to `Ctime`. What holds: C35_checksum_partial, with what is missing in the comment of each; DESIGN.md section 5."},
 {"property": "C36", "status": "proved", "theorems": ["Saratoga.C36_one_entry_per_peer"], "note": ""},
 {"property": "C37", "status": "proved", "theorems": ["Saratoga.C37_true_iff_changed", "Saratoga.C37_true_iff_news", "Saratoga.C37_others_untouched"], "note": ""},
 {"property": "C38", "status": "partial", "theorems": ["Saratoga.C38_bound", "Saratoga.C38_attained", "Saratoga.C38_counterexample", "Saratoga.C38_uninterrupted", "Saratoga.C38_known_address_partial", "Saratoga.C38_single_call_partial"], "note": "The code contradicts the full statement (C38_counterexample): the scan for the peer is outside the lock. What holds: C38_known_address_partial, C38_single_call_partial, with what is missing in the comment of each; DESIGN.md section 5."},
 {"property": "C39", "status": "proved", "theorems": ["Saratoga.C39_decision_table", "Saratoga.C39_deletion"], "note": ""},
 {"property": "C40", "status": "partial", "theorems": ["Saratoga.C40_returns_iff", "Saratoga.C40_counterexample", "Saratoga.C40_timestamp_counterexample", "Saratoga.C40_shipped_timestamp", "Saratoga.C40_partial", "Saratoga.C40_unreadable"], "note": "The code contradicts the full statement (C40_counterexample, C40_timestamp_counterexample): a request ends the receiver, as the flag `request` and the timestamp type it asks for are not in the tables. What holds: C40_partial, with what is missing in the comment of each; DESIGN.md section 5."},
 {"property": "C41", "status": "partial", "theorems": ["Saratoga.C41_every_request", "Saratoga.C41_counterexample", "Saratoga.C41_without_requests_partial", "Saratoga.C41_takes_partial"], "note": "The code contradicts the full statement (C41_counterexample): every answered request blocks the main loop for ever. What holds: C41_without_requests_partial, C41_takes_partial, with what is missing in the comment of each; DESIGN.md section 5."},
 {"property": "C42", "status": "partial", "theorems": ["Saratoga.C42_returns_iff_partial", "Saratoga.C42_counterexample", "Saratoga.C42_delivers", "Saratoga.C42_delivered", "Saratoga.C42_reply", "Saratoga.C42_dropped"], "note": "The code contradicts the full statement (C42_counterexample): version 2 and up, frame types 5 and up, undecodable frames and status error codes from 19 end the process. What holds: C42_returns_iff_partial, with what is missing in the comment of each; DESIGN.md section 5."},
 {"property": "C43", "status": "proved", "theorems": ["Saratoga.C43_in_order", "Saratoga.C43_determined"], "note": ""},
 {"property": "C44", "status": "partial", "theorems": ["Saratoga.C44_never_sent", "Saratoga.C44_counterexample", "Saratoga.C44_taken_partial"], "note": "The code contradicts the full statement (C44_counterexample): no queued reply is ever sent. What holds: C44_taken_partial, with what is missing in the comment of each; DESIGN.md section 5."},
 {"property": "C45", "status": "proved", "theorems": ["Saratoga.C45_values", "Saratoga.C45_distinct", "Saratoga.C45_reused_iff", "Saratoga.C45_no_deadlock"], "note": ""},
 {"property": "C46", "status": "proved", "theorems": ["Saratoga.C46_one_per_file", "Saratoga.C46_from_start", "Saratoga.C46_refused", "Saratoga.C46_concurrent_counterexample"], "note": ""},
 {"property": "C47", "status": "partial", "theorems": ["Saratoga.C47_exact", "Saratoga.C47_last_partial", "Saratoga.C47_absent", "Saratoga.C47_wrong_one", "Saratoga.C47_counterexample"], "note": "The code contradicts the full statement (C47_counterexample): removing deletes the last entry; `rmtran` panics when there is no connection. What holds: C47_last_partial, with what is missing in the comment of each; DESIGN.md section 5."},
 {"property": "C48", "status": "partial", "theorems": ["Saratoga.C48_fits_iff", "Saratoga.C48_frames", "Saratoga.C48_one_frame_partial", "Saratoga.C48_too_long", "Saratoga.C48_no_room_panics", "Saratoga.C48_refused", "Saratoga.C48_counterexample", "Saratoga.C48_silent_counterexample"], "note": "The code contradicts the full statement (C48_counterexample, C48_silent_counterexample): every frame carries all holes, so frames exceed the MTU; maxholes 0 panics, negative maxholes sends nothing and answers success. What holds: C48_one_frame_partial, with what is missing in the comment of each; DESIGN.md section 5."},
 {"property": "C49", "status": "partial", "theorems": ["Saratoga.C49_fits_iff", "Saratoga.C49_value", "Saratoga.C49_no_descriptor", "Saratoga.C49_fits_partial", "Saratoga.C49_tight", "Saratoga.C49_bare_counterexample", "Saratoga.C49_tiny_counterexample"], "note": "The code contradicts the full statement (C49_bare_counterexample, C49_tiny_counterexample): a bare `timestamp` flag is not counted, a tiny MTU gives 0 holes, no descriptor divides by zero. What holds: C49_fits_partial, with what is missing in the comment of each; DESIGN.md section 5."},
 {"property": "C50", "status": "partial", "theorems": ["Saratoga.C50_legal_iff", "Saratoga.C50_keeps_legal_partial", "Saratoga.C50_frames_partial", "Saratoga.C50_others", "Saratoga.C50_counterexample"], "note": "The code contradicts the full statement (C50_counterexample): `txwilling on|off` stores an option the tables do not have; the next beacon command ends the process. What holds: C50_keeps_legal_partial, C50_frames_partial, with what is missing in the comment of each; DESIGN.md section 5."},
 {"property": "C51", "status": "partial", "theorems": ["Saratoga.C51_effect", "Saratoga.C51_otherwise_exact", "Saratoga.C51_query_partial", "Saratoga.C51_invalid_partial", "Saratoga.C51_counterexample"], "note": "The code contradicts the full statement (C51_counterexample): a query of the timers resets a data counter of 0, `timestamp` also sets `reqtstamp`, `timeout metadata` tests the request timer. What holds: C51_query_partial, C51_invalid_partial, with what is missing in the comment of each; DESIGN.md section 5."},
 {"property": "C52", "status": "proved", "theorems": ["Saratoga.C52_timers", "Saratoga.C52_reachable"], "note": ""},
 {"property": "C53", "status": "partial", "theorems": ["Saratoga.C53_returns_iff", "Saratoga.C53_never_ends", "Saratoga.C53_deadlock", "Saratoga.C53_counterexample", "Saratoga.C53_returns_partial"], "note": "The code contradicts the full statement (C53_counterexample): put, putblind, give and delete wait for ever on a nil channel. What holds: C53_returns_partial, with what is missing in the comment of each; DESIGN.md section 5."},
 {"property": "C54", "status": "partial", "theorems": ["Saratoga.C54_runs_partial", "Saratoga.C54_exact", "Saratoga.C54_words_unique", "Saratoga.C54_counterexample", "Saratoga.C54_shipped_handled", "Saratoga.C54_getLine_exact"], "note": "The code contradicts the full statement (C54_counterexample): a blank line and a line without `:` panic. What holds: C54_runs_partial, with what is missing in the comment of each; DESIGN.md section 5."},
 {"property": "C55", "status": "partial", "theorems": ["Saratoga.C55_kept_iff", "Saratoga.C55_counterexample", "Saratoga.C55_overwrites", "Saratoga.C55_partial"], "note": "The code contradicts the full statement (C55_counterexample): the directory is prefixed twice, so existing files are not found. What holds: C55_partial, with what is missing in the comment of each; DESIGN.md section 5."},
 {"property": "C56", "status": "proved", "theorems": ["Saratoga.C56_written_exactly", "Saratoga.C56_short_write", "Saratoga.C56_read_exactly", "Saratoga.C56_write_then_read", "Saratoga.C56_position_refused", "Saratoga.C56_not_writable"], "note": ""},
 {"property": "C57", "status": "proved", "theorems": ["Saratoga.C57_rebuilt", "Saratoga.C57_never_wrong", "Saratoga.C57_completes"], "note": ""},
 {"property": "C58", "status": "partial", "theorems": ["Saratoga.C58_counterexample", "Saratoga.C58_partial", "Saratoga.C58_exists_partial", "Saratoga.C58_plain_names", "Saratoga.C58_safe_iff"], "note": "The code contradicts the full statement (C58_counterexample): names with `..` leave the directory. What holds: C58_partial, C58_exists_partial, with what is missing in the comment of each; DESIGN.md section 5."},
 {"property": "C59", "status": "proved", "theorems": ["Saratoga.C59_removes_all_copies", "Saratoga.C59_none_left", "Saratoga.C59_others_kept", "Saratoga.C59_idempotent"], "note": ""},
 {"property": "C60", "status": "proved", "theorems": ["Saratoga.C60_commands", "Saratoga.C60_commands_refused", "Saratoga.C60_accepted_iff", "Saratoga.C60_one_kind", "Saratoga.C60_refused", "Saratoga.C60_dotted_quad", "Saratoga.C60_colon_text", "Saratoga.C60_multicast_choice"], "note": ""},
 {"property": "C61", "status": "partial", "theorems": ["Saratoga.C61_learns_iff", "Saratoga.C61_learns_partial", "Saratoga.C61_counterexample"], "note": "The code contradicts the full statement (C61_counterexample): beacons shorter than 8 bytes are dropped. What holds: C61_learns_partial, with what is missing in the comment of each; DESIGN.md section 5."},
 {"property": "C62", "status": "proved", "theorems": ["Saratoga.C62_beacon_layout", "Saratoga.C62_data_layout", "Saratoga.C62_dirent_layout", "Saratoga.C62_metadata_layout", "Saratoga.C62_request_layout", "Saratoga.C62_status_layout"], "note": ""},
 {"property": "C63", "status": "partial", "theorems": ["Saratoga.C63_counterexample", "Saratoga.C63_never_opens", "Saratoga.C63_partial", "Saratoga.C63_other_types", "Saratoga.C63_opens_iff_partial", "Saratoga.C63_full_name"], "note": "The code contradicts the full statement (C63_counterexample): the directory is prefixed twice, so existing files are not found. What holds: C63_partial, C63_opens_iff_partial, with what is missing in the comment of each; DESIGN.md section 5."},
 {"property": "C64", "status": "partial", "theorems": ["Saratoga.C64_counterexample", "Saratoga.C64_partial", "Saratoga.C64_remove_by_name", "Saratoga.C64_removes_file", "Saratoga.C64_full_directory_stays", "Saratoga.C64_removes_iff", "Saratoga.C64_delete_opens_nothing"], "note": "The code contradicts the full statement (C64_counterexample): the directory is prefixed twice, so existing files are not found. What holds: C64_partial, with what is missing in the comment of each; DESIGN.md section 5."},
 {"property": "C65", "status": "partial", "theorems": ["Saratoga.C65_ends_iff_partial", "Saratoga.C65_counterexample"], "note": "The code contradicts the full statement (C65_counterexample): metadata with csumtype 4 and up and every request end the process. Error replies to d128 data frames cannot be encoded. What holds: C65_ends_iff_partial, with what is missing in the comment of each; DESIGN.md section 5."},
 {"property": "C66", "status": "proved", "theorems": ["Saratoga.C66_peers", "Saratoga.C66_entries"], "note": ""},
 {"property": "C67", "status": "proved", "theorems": ["Saratoga.C67_sessions"], "note": ""},
 {"property": "C68", "status": "partial", "theorems": ["Saratoga.C68_removes_iff", "Saratoga.C68_panics_iff", "Saratoga.C68_names_none", "Saratoga.C68_no_match", "Saratoga.C68_removes_last_partial", "Saratoga.C68_counterexample"], "note": "The code contradicts the full statement (C68_counterexample): removing deletes the last entry; `rmtran` panics when there is no connection. What holds: C68_removes_last_partial, with what is missing in the comment of each; DESIGN.md section 5."},
 {"property": "C69", "status": "partial", "theorems": ["Saratoga.C69_counterexample", "Saratoga.C69_shipped", "Saratoga.C69_duplicate_partial", "Saratoga.C69_kind_partial"], "note": "The code contradicts the full statement (C69_counterexample): `NewResponder` never adds a transfer. What holds: C69_duplicate_partial, C69_kind_partial, with what is missing in the comment of each; DESIGN.md section 5."},
 {"property": "C70", "status": "partial", "theorems": ["Saratoga.C70_change_partial", "Saratoga.C70_counterexample", "Saratoga.C70_answer"], "note": "The code contradicts the full statement (C70_counterexample): `Lookup` returns a copy, so `Change` is lost. What holds: C70_change_partial, with what is missing in the comment of each; DESIGN.md section 5."},
 {"property": "C71", "status": "partial", "theorems": ["Saratoga.C71_starts_iff", "Saratoga.C71_counterexample", "Saratoga.C71_all_dialled_partial"], "note": "The code contradicts the full statement (C71_counterexample): a failed dial leaves a dead entry. What holds: C71_all_dialled_partial, with what is missing in the comment of each; DESIGN.md section 5."},
 {"property": "C72", "status": "partial", "theorems": ["Saratoga.C72_typed_iff", "Saratoga.C72_typed_partial", "Saratoga.C72_counterexample"], "note": "The code contradicts the full statement (C72_counterexample): a prompt with a colon breaks the input. What holds: C72_typed_partial, with what is missing in the comment of each; DESIGN.md section 5."},
 {"property": "C73", "status": "partial", "theorems": ["Saratoga.C73_lists_partial", "Saratoga.C73_all", "Saratoga.C73_tran_type", "Saratoga.C73_types", "Saratoga.C73_counterexample"], "note": "The code contradicts the full statement (C73_counterexample): take, give and delete listings are always empty. What holds: C73_lists_partial, with what is missing in the comment of each; DESIGN.md section 5."},
 {"property": "C74", "status": "partial", "theorems": ["Saratoga.C74_reported_iff", "Saratoga.C74_reported_partial", "Saratoga.C74_only_then_partial", "Saratoga.C74_counterexample"], "note": "The code contradicts the full statement (C74_counterexample): `get` does not report a bad address, `give` reports a good one as bad. What holds: C74_reported_partial, C74_only_then_partial, with what is missing in the comment of each; DESIGN.md section 5."},
 {"property": "C75", "status": "partial", "theorems": ["Saratoga.C75_status_iff", "Saratoga.C75_status_partial", "Saratoga.C75_status_counterexample", "Saratoga.C75_data", "Saratoga.C75_request_counterexample", "Saratoga.C75_metadata_counterexample", "Saratoga.C75_beacon"], "note": "The code contradicts the full statement (C75_status_counterexample, C75_request_counterexample, C75_metadata_counterexample): `MetaData.Make` uses the text of a number as file name, `Request.Make` always panics, `Status.Make` keeps old holes. What holds: C75_status_partial, with what is missing in the comment of each; DESIGN.md section 5."},
 {"property": "C76", "status": "partial", "theorems": ["Saratoga.C76_auth_iff", "Saratoga.C76_data_time_partial", "Saratoga.C76_status_time_partial", "Saratoga.C76_request_counterexample"], "note": "The code contradicts the full statement (C76_request_counterexample): `Request.New` loses the authentication bytes. What holds: C76_data_time_partial, C76_status_time_partial, with what is missing in the comment of each; DESIGN.md section 5."},
 {"property": "C77", "status": "partial", "theorems": ["Saratoga.C77_data_iff_partial", "Saratoga.C77_status_iff_partial", "Saratoga.C77_status_short_iff_partial", "Saratoga.C77_beacon_iff_partial", "Saratoga.C77_request_counterexample", "Saratoga.C77_dirent_iff_partial", "Saratoga.C77_metadata_iff_partial", "Saratoga.C77_data_short_iff_partial", "Saratoga.C77_beacon_short", "Saratoga.C77_dirent_short_iff_partial", "Saratoga.C77_metadata_short_iff_partial", "Saratoga.C77_made"], "note": "The code contradicts the full statement (C77_request_counterexample): printing a request always ends the process. Metadata without `csumtype` is an error unless it is a stream. What holds: C77_data_iff_partial, C77_status_iff_partial, C77_status_short_iff_partial, C77_beacon_iff_partial, C77_dirent_iff_partial, C77_metadata_iff_partial, C77_data_short_iff_partial, C77_dirent_short_iff_partial, C77_metadata_short_iff_partial, with what is missing in the comment of each; DESIGN.md section 5."},
 {"property": "C78", "status": "proved", "theorems": ["Saratoga.C78_texts", "Saratoga.C78_flags", "Saratoga.C78_numbers", "Saratoga.C78_timers", "Saratoga.C78_sardir", "Saratoga.C78_tables", "Saratoga.C78_commands"], "note": ""},
 {"property": "C79", "status": "partial", "theorems": ["Saratoga.C79_panics_iff_partial", "Saratoga.C79_counterexample"], "note": "The code contradicts the full statement (C79_counterexample): a member of the wrong JSON type panics. What holds: C79_panics_iff_partial, with what is missing in the comment of each; DESIGN.md section 5."},
 {"property": "C80", "status": "proved", "theorems": ["Saratoga.C80_shipped"], "note": ""},
 {"property": "C81", "status": "partial", "theorems": ["Saratoga.C81_counterexample", "Saratoga.C81_known_partial"], "note": "The code contradicts the full statement (C81_counterexample): field positions are not checked. The timestamp table is not cleared before it is read. What holds: C81_known_partial, with what is missing in the comment of each; DESIGN.md section 5."},
 {"property": "C82", "status": "partial", "theorems": ["Saratoga.C82_sends", "Saratoga.C82_interval_partial", "Saratoga.C82_counterexample", "Saratoga.C82_interval_iff"], "note": "The code contradicts the full statement (C82_counterexample): an interval above 292 years gives no pause. What holds: C82_interval_partial, with what is missing in the comment of each; DESIGN.md section 5."},
 {"property": "C83", "status": "partial", "theorems": ["Saratoga.C83_listed_partial", "Saratoga.C83_counterexample", "Saratoga.C83_running_partial"], "note": "The code contradicts the full statement (C83_counterexample): `beacon off` leaves multicast listed. What holds: C83_listed_partial, C83_running_partial, with what is missing in the comment of each; DESIGN.md section 5."},
 {"property": "C84", "status": "partial", "theorems": ["Saratoga.C84_several_partial", "Saratoga.C84_counterexample", "Saratoga.C84_off_forgets", "Saratoga.C84_off", "Saratoga.C84_no_address"], "note": "The code contradicts the full statement (C84_counterexample): the first of several addresses is skipped and `v4`/`v6` are refused in later places. What holds: C84_several_partial, with what is missing in the comment of each; DESIGN.md section 5."},
 {"property": "C85", "status": "proved", "theorems": ["Saratoga.C85_returns"], "note": ""},
 {"property": "C86", "status": "partial", "theorems": ["Saratoga.C86_some_partial", "Saratoga.C86_counterexample"], "note": "The code contradicts the full statement (C86_counterexample): count 0 sends nothing. While beacons are sent the settings lock is held, so settings commands wait for count times interval seconds. What holds: C86_some_partial, with what is missing in the comment of each; DESIGN.md section 5."},
 {"property": "C87", "status": "partial", "theorems": ["Saratoga.C87_learns_iff", "Saratoga.C87_learns_partial", "Saratoga.C87_stamped_refused", "Saratoga.C87_counterexample"], "note": "The code contradicts the full statement (C87_counterexample): a status report with a timestamp and 64 bit numbers is accepted by no receiver. What holds: C87_learns_partial, with what is missing in the comment of each; DESIGN.md section 5."},
 {"property": "C88", "status": "partial", "theorems": ["Saratoga.C88_time_iff", "Saratoga.C88_time_partial", "Saratoga.C88_counterexample"], "note": "The code contradicts the full statement (C88_counterexample): the stamped empty frame that ends a file under a 16 bit descriptor is accepted by no receiver. What holds: C88_time_partial, with what is missing in the comment of each; DESIGN.md section 5."},
 {"property": "C89", "status": "partial", "theorems": ["Saratoga.C89_lost_iff", "Saratoga.C89_kept_partial", "Saratoga.C89_destroyed", "Saratoga.C89_counterexample"], "note": "The code contradicts the full statement (C89_counterexample): `get` as the first transfer and `take` at any time cut an existing file to nothing. What holds: C89_kept_partial, with what is missing in the comment of each; DESIGN.md section 5."},
 {"property": "C90", "status": "proved", "theorems": ["Saratoga.C90_sends", "Saratoga.C90_waits", "Saratoga.C90_no_room_endless", "Saratoga.C90_negative_panics", "Saratoga.C90_stamp_type_exits", "Saratoga.C90_last_word"], "note": ""},
 {"property": "C91", "status": "partial", "theorems": ["Saratoga.C91_value", "Saratoga.C91_fits_partial", "Saratoga.C91_full", "Saratoga.C91_fits_iff", "Saratoga.C91_counterexample", "Saratoga.C91_descriptor"], "note": "The code contradicts the full statement (C91_counterexample): without a descriptor in the text frames are two bytes too long. What holds: C91_fits_partial, with what is missing in the comment of each; DESIGN.md section 5."},
 {"property": "C92", "status": "partial", "theorems": ["Saratoga.C92_accepted", "Saratoga.C92_rebuilds_partial", "Saratoga.C92_end_lost_counterexample", "Saratoga.C92_end_iff"], "note": "The code contradicts the full statement (C92_end_lost_counterexample): with timestamps and 16 bit descriptors the end of a file of whole blocks is never announced. What holds: C92_rebuilds_partial, with what is missing in the comment of each; DESIGN.md section 5."},
 {"property": "C93", "status": "partial", "theorems": ["Saratoga.C93_genuine_partial", "Saratoga.C93_later_panics", "Saratoga.C93_short_ignored", "Saratoga.C93_counterexample"], "note": "The code contradicts the full statement (C93_counterexample): no hole is ever filled. What holds: C93_genuine_partial, with what is missing in the comment of each; DESIGN.md section 5."},
 {"property": "C94", "status": "partial", "theorems": ["Saratoga.C94_first_error_partial", "Saratoga.C94_first_failure_partial", "Saratoga.C94_counterexample"], "note": "The code contradicts the full statement (C94_counterexample): no put ever succeeds, so `putrm` never removes a file; `putblind` reports success after the metadata, with no data sent; a `put` to a peer that cannot be dialled closes the connection it has not got and panics. What holds: C94_first_error_partial, C94_first_failure_partial, with what is missing in the comment of each; DESIGN.md section 5."},
 {"property": "C95", "status": "proved", "theorems": ["Saratoga.C95_every_command", "Saratoga.C95_order_free", "Saratoga.C95_shipped"], "note": ""},
 {"property": "C96", "status": "partial", "theorems": ["Saratoga.C96_ends_partial", "Saratoga.C96_counterexample"], "note": "The code contradicts the full statement (C96_counterexample): `exit 0`, `exit 1`, `quit 1` and ` exit` say good bye and go on, because `Cexit` is never read; `exit` ends with level 1. What holds: C96_ends_partial, with what is missing in the comment of each; DESIGN.md section 5."},
 {"property": "C97", "status": "partial", "theorems": ["Saratoga.C97_question_partial", "Saratoga.C97_counterexample", "Saratoga.C97_peers"], "note": "The code contradicts the full statement (C97_counterexample): `ls ?` is an error, `cancel ?` repeats the words, `quit ?` explains `exit`, `usage ?` lists everything. What holds: C97_question_partial, with what is missing in the comment of each; DESIGN.md section 5."},
 {"property": "C98", "status": "partial", "theorems": ["Saratoga.C98_ends_iff", "Saratoga.C98_clears", "Saratoga.C98_all_cleared", "Saratoga.C98_alone_partial", "Saratoga.C98_counterexample"], "note": "The code contradicts the full statement (C98_counterexample): two clears at a time can leave the user in another window. What holds: C98_alone_partial, with what is missing in the comment of each; DESIGN.md section 5."},
 {"property": "C99", "status": "partial", "theorems": ["Saratoga.C99_line_iff", "Saratoga.C99_lists", "Saratoga.C99_order_free", "Saratoga.C99_aligned_partial", "Saratoga.C99_running_partial", "Saratoga.C99_counterexample", "Saratoga.C99_times_partial"], "note": "The code contradicts the full statement (C99_counterexample): the column `Des` has room for three characters and `d128` has four. What holds: C99_aligned_partial, C99_running_partial, C99_times_partial, with what is missing in the comment of each; DESIGN.md section 5."},
 {"property": "C100", "status": "partial", "theorems": ["Saratoga.C100_lists_partial", "Saratoga.C100_none", "Saratoga.C100_counterexample"], "note": "The code contradicts the full statement (C100_counterexample): the column `Direct` has room for six characters and the cell `Initiator` has nine; it says `Initiator` for responders too. What holds: C100_lists_partial, with what is missing in the comment of each; DESIGN.md section 5."},
 {"property": "C101", "status": "partial", "theorems": ["Saratoga.C101_current_iff", "Saratoga.C101_visible", "Saratoga.C101_cycle", "Saratoga.C101_current_partial", "Saratoga.C101_counterexample"], "note": "The code contradicts the full statement (C101_counterexample): ^P pressed while in the packet window hides the window the user types in. What holds: C101_current_partial, with what is missing in the comment of each; DESIGN.md section 5."},
 {"property": "C102", "status": "partial", "theorems": ["Saratoga.C102_shown_iff", "Saratoga.C102_alike", "Saratoga.C102_shown_partial", "Saratoga.C102_others", "Saratoga.C102_plain", "Saratoga.C102_counterexample"], "note": "The code contradicts the full statement (C102_counterexample): `red_bblack` looks like `ured_black`; text from the network with escape sequences changes the terminal; `Do` passes its text as the colour. What holds: C102_shown_partial, with what is missing in the comment of each; DESIGN.md section 5."},
 {"property": "C103", "status": "partial", "theorems": ["Saratoga.C103_any_order", "Saratoga.C103_once", "Saratoga.C103_order_partial", "Saratoga.C103_counterexample"], "note": "The code contradicts the full statement (C103_counterexample): each print runs in a goroutine of its own, so the prompt can come before the answer. What holds: C103_order_partial, with what is missing in the comment of each; DESIGN.md section 5."},
 {"property": "C104", "status": "proved", "theorems": ["Saratoga.C104_size", "Saratoga.C104_tiles"], "note": ""},
 {"property": "C105", "status": "partial", "theorems": ["Saratoga.C105_starts_iff", "Saratoga.C105_running", "Saratoga.C105_starts_partial", "Saratoga.C105_message", "Saratoga.C105_no_directory", "Saratoga.C105_no_keys", "Saratoga.C105_files_partial", "Saratoga.C105_counterexample"], "note": "The code contradicts the full statement (C105_counterexample): a relative `sardir` is entered and then looked up again from inside, so the program does not start or serves another directory. When `InterfaceByName` fails, the message names the configuration file; when `NewGui` fails, another (nil) error is logged; the global `Cmdptr` is shadowed and stays nil. What holds: C105_starts_partial, C105_files_partial, with what is missing in the comment of each; DESIGN.md section 5."},
 {"property": "C106", "status": "partial", "theorems": ["Saratoga.C106_serial", "Saratoga.C106_commands_safe", "Saratoga.C106_no_deadlock", "Saratoga.C106_copy_each_partial", "Saratoga.C106_copy_alone_partial", "Saratoga.C106_counterexample"], "note": "The code contradicts the full statement (C106_counterexample): `CopyCliflags` takes no lock, so the copy can mix two states of the settings, and a command that writes the map meanwhile ends the program (concurrent map iteration and map write); the mutex `cmu` in `Setglobal` is a local variable and protects nothing. What holds: C106_copy_each_partial, C106_copy_alone_partial, with what is missing in the comment of each; DESIGN.md section 5."},
 {"property": "C107", "status": "partial", "theorems": ["Saratoga.C107_whole", "Saratoga.C107_off_first_partial", "Saratoga.C107_counterexample", "Saratoga.C107_held"], "note": "The code contradicts the full statement (C107_counterexample): `cmdBeacon` holds `Climu` while it sends and sleeps: `beacon off` waits until all frames are sent, and so does every settings command, for `bcount` times the interval. What holds: C107_off_first_partial, with what is missing in the comment of each; DESIGN.md section 5."},
 {"property": "C108", "status": "partial", "theorems": ["Saratoga.C108_danger_iff", "Saratoga.C108_quiet_partial", "Saratoga.C108_adding_partial", "Saratoga.C108_alone", "Saratoga.C108_counterexample"], "note": "The code contradicts the full statement (C108_counterexample): `Info` and `Match` read `Transfers[i]` without `Trmu`; a removal meanwhile is an index out of range. What holds: C108_quiet_partial, C108_adding_partial, with what is missing in the comment of each; DESIGN.md section 5."},
 {"property": "C109", "status": "partial", "theorems": ["Saratoga.C109_data", "Saratoga.C109_status", "Saratoga.C109_request", "Saratoga.C109_metadata", "Saratoga.C109_beacon", "Saratoga.C109_data_at_most", "Saratoga.C109_status_at_most", "Saratoga.C109_request_at_most", "Saratoga.C109_metadata_at_most", "Saratoga.C109_beacon_at_most", "Saratoga.C109_data_arrives", "Saratoga.C109_request_arrives", "Saratoga.C109_status_arrives", "Saratoga.C109_metadata_arrives", "Saratoga.C109_beacon_arrives", "Saratoga.C109_sends_partial", "Saratoga.C109_dialled", "Saratoga.C109_counterexample"], "note": "The code contradicts the full statement (C109_counterexample): `Send` of data, request, metadata and status frames uses `WriteTo`, but all connections of transfers are made with `DialUDP`, and such connections refuse `WriteTo`. `Beacon.Send` takes one argument, so a beacon is no `frames.Frame`. What holds: C109_sends_partial, with what is missing in the comment of each; DESIGN.md section 5."},
 {"property": "C110", "status": "partial", "theorems": ["Saratoga.C110_prompt_stays", "Saratoga.C110_edits_partial", "Saratoga.C110_command_partial", "Saratoga.C110_counterexample"], "note": "The code contradicts the full statement (C110_counterexample): `CursorRight` compares the column with the length in bytes, so after a character of more than one byte it moves past the end; with `ppad` 2 the first key takes the place of the colon and Enter panics. The delete key erases backwards. What holds: C110_edits_partial, C110_command_partial, with what is missing in the comment of each; DESIGN.md section 5."},
 {"property": "C111", "status": "partial", "theorems": ["Saratoga.C111_tells_iff", "Saratoga.C111_tells_partial", "Saratoga.C111_unset", "Saratoga.C111_shown", "Saratoga.C111_counterexample"], "note": "The code contradicts the full statement (C111_counterexample): `timeout metadata` says \"No Timeout\" when the request timer is 0; `timeout datacounter` says \"Never\" and sets the counter to 100. What holds: C111_tells_partial, with what is missing in the comment of each; DESIGN.md section 5."},
 {"property": "C112", "status": "partial", "theorems": ["Saratoga.C112_console", "Saratoga.C112_on_text_partial", "Saratoga.C112_moves", "Saratoga.C112_counterexample"], "note": "The code contradicts the full statement (C112_counterexample): `CursorDown` compares with the number of lines minus one, which an empty window never reaches, so the cursor leaves the window's text. What holds: C112_on_text_partial, with what is missing in the comment of each; DESIGN.md section 5."},
 {"property": "C113", "status": "partial", "theorems": ["Saratoga.C113_back_partial", "Saratoga.C113_counterexample", "Saratoga.C113_wide"], "note": "The code contradicts the full statement (C113_counterexample): all windows but the packet window have `Autoscroll`, so text that has left them cannot be read again. What holds: C113_back_partial, with what is missing in the comment of each; DESIGN.md section 5."},
 {"property": "C114", "status": "partial", "theorems": ["Saratoga.C114_shown_iff", "Saratoga.C114_cleared_partial", "Saratoga.C114_counterexample"], "note": "The code contradicts the full statement (C114_counterexample): `Clearwin` keeps the origin; after `clear` of a scrolled window the first rows printed are not seen. What holds: C114_cleared_partial, with what is missing in the comment of each; DESIGN.md section 5."},
 {"property": "C115", "status": "partial", "theorems": ["Saratoga.C115_last_iff", "Saratoga.C115_last_partial", "Saratoga.C115_counterexample"], "note": "The code contradicts the full statement (C115_counterexample): `gotolastrow` puts the origin one row too low in the packet window, the last row is not shown. What holds: C115_last_partial, with what is missing in the comment of each; DESIGN.md section 5."},
 {"property": "C116", "status": "partial", "theorems": ["Saratoga.C116_session_partial", "Saratoga.C116_edited_partial", "Saratoga.C116_again", "Saratoga.C116_out_of_reach", "Saratoga.C116_counterexample", "Saratoga.C116_full", "Saratoga.C116_next_cell"], "note": "The code contradicts the full statement (C116_counterexample): a command that reaches the last column of its window moves the cursor to the next row, where there is no colon, and Enter is an index out of range. Once there are more prompts than rows, drawing puts the cursor back on the line and the same command is run. Up and Enter run a command again without a new prompt. once the command window is full, commands above it cannot be reached with the arrows, and it cannot be scrolled back. What holds: C116_session_partial, C116_edited_partial, with what is missing in the comment of each; DESIGN.md section 5."},
 {"property": "C117", "status": "partial", "theorems": ["Saratoga.C117_settings_partial", "Saratoga.C117_transfers_partial", "Saratoga.C117_others_partial", "Saratoga.C117_counterexample"], "note": "The code contradicts the full statement (C117_counterexample): `descriptor x` says its usage and then \"Descriptor size is \u2026\"; `timeout x off` and `peers x` say nothing; `help x` describes `help`; `give` asks `prusage` for `putrm`, which is no command, so it says \"Invalid Command\". What holds: C117_settings_partial, C117_transfers_partial, C117_others_partial, with what is missing in the comment of each; DESIGN.md section 5."},
 {"property": "C118", "status": "partial", "theorems": ["Saratoga.C118_shows_partial", "Saratoga.C118_received_partial", "Saratoga.C118_any_stamp", "Saratoga.C118_distinct_partial", "Saratoga.C118_width_partial", "Saratoga.C118_counterexample"], "note": "The code contradicts the full statement (C118_counterexample): a `localinterp` stamp holds no time, it prints \"localinterp\" for every moment. What holds: C118_shows_partial, C118_received_partial, C118_distinct_partial, C118_width_partial, with what is missing in the comment of each; DESIGN.md section 5."},
 {"property": "C119", "status": "partial", "theorems": ["Saratoga.C119_counterexample", "Saratoga.C119_blind_partial", "Saratoga.C119_bare_partial"], "note": "The code contradicts the full statement (C119_counterexample): the client dials `[10.0.0.1:5000]:7542`: `RemoteAddr().String()` has the port in it. It cannot be resolved, so `Doclient` never sends. What holds: C119_blind_partial, C119_bare_partial, with what is missing in the comment of each; DESIGN.md section 5."},
 {"property": "C120", "status": "partial", "theorems": ["Saratoga.C120_unknown", "Saratoga.C120_unix_iff", "Saratoga.C120_unix_partial", "Saratoga.C120_sum", "Saratoga.C120_windows_partial", "Saratoga.C120_counterexample"], "note": "The code contradicts the full statement (C120_counterexample): on windows free and available are exchanged. On windows `NewTime` assigns the `time.Duration` of `time.Since` to fields of type `time.Time`, which Go does not compile (read off the text, no witness). What holds: C120_unix_partial, C120_windows_partial, with what is missing in the comment of each; DESIGN.md section 5."},
 {"property": "C121", "status": "partial", "theorems": ["Saratoga.C121_v6_iff", "Saratoga.C121_v4", "Saratoga.C121_v6_partial", "Saratoga.C121_counterexample"], "note": "The code contradicts the full statement (C121_counterexample): `To16` is never nil, so asked for IPv6 `OutboundIP` answers the first address, IPv4 or not. What holds: C121_v6_partial, with what is missing in the comment of each; DESIGN.md section 5."},
 {"property": "C122", "status": "partial", "theorems": ["Saratoga.C122_flag_lines", "Saratoga.C122_long_shows", "Saratoga.C122_request_iff", "Saratoga.C122_beacon", "Saratoga.C122_data", "Saratoga.C122_status_short", "Saratoga.C122_status_partial", "Saratoga.C122_request_partial", "Saratoga.C122_counterexample", "Saratoga.C122_dirent_partial", "Saratoga.C122_metadata_partial", "Saratoga.C122_data_shows", "Saratoga.C122_holes", "Saratoga.C122_status_shows", "Saratoga.C122_other_shows", "Saratoga.C122_received_data_partial", "Saratoga.C122_received_status_partial", "Saratoga.C122_types", "Saratoga.C122_returns"], "note": "The code contradicts the full statement (C122_counterexample): names are printed as they are; a request whose file name holds `\\n  auth:` prints like one with another name and another authorisation. What holds: C122_status_partial, C122_request_partial, C122_dirent_partial, C122_metadata_partial, C122_received_data_partial, C122_received_status_partial, with what is missing in the comment of each; DESIGN.md section 5."},
 {"property": "C123", "status": "partial", "theorems": ["Saratoga.C123_bound_partial", "Saratoga.C123_all", "Saratoga.C123_error", "Saratoga.C123_running_partial", "Saratoga.C123_counterexample", "Saratoga.C123_silent_iff"], "note": "The code contradicts the full statement (C123_counterexample): `Keybindings` returns nil when the left or right arrow, Ctrl-P or an erasing key cannot be bound, and binds none of the keys after it; `main` goes on without Ctrl-C and Enter. What holds: C123_bound_partial, C123_running_partial, with what is missing in the comment of each; DESIGN.md section 5."},
 {"property": "C124", "status": "proved", "theorems": ["Saratoga.C124_all_begun_here", "Saratoga.C124_apart"], "note": ""},
 {"property": "C125", "status": "partial", "theorems": ["Saratoga.C125_only_here_partial", "Saratoga.C125_elsewhere", "Saratoga.C125_text", "Saratoga.C125_quit", "Saratoga.C125_commands", "Saratoga.C125_counterexample", "Saratoga.C125_round", "Saratoga.C125_back", "Saratoga.C125_panes"], "note": "The code contradicts the full statement (C125_counterexample): Ctrl-Space prints `gotolastrow ox=\u2026` to the error window each time (and prints the row as `ox`); with the packets shown, `setCurrentViewOnTop` returns the packet window, so its cursor is moved and not that of the window gone to. What holds: C125_only_here_partial, with what is missing in the comment of each; DESIGN.md section 5."},
 {"property": "C126", "status": "partial", "theorems": ["Saratoga.C126_timestamp_partial", "Saratoga.C126_data_partial", "Saratoga.C126_status_partial", "Saratoga.C126_request_counterexample", "Saratoga.C126_metadata_counterexample", "Saratoga.C126_fileio_counterexample", "Saratoga.C126_unpublished", "Saratoga.C126_published", "Saratoga.C126_pass_means", "Saratoga.C126_fileio_passes_iff"], "note": "The code contradicts the full statement (C126_request_counterexample, C126_metadata_counterexample, C126_fileio_counterexample): `TestRequest` ends with `log.Fatal` (`fileordir` is not a configured field); `TestFileio` panics at its first call, since `sarflags.Cliflag` is nil outside `main`; `TestMetadata` fails where there is no `go.mod` in the package directory and panics where there is one. What holds: C126_timestamp_partial, C126_data_partial, C126_status_partial, with what is missing in the comment of each; DESIGN.md section 5."},
 {"property": "C127", "status": "proved", "theorems": ["Saratoga.C127_network", "Saratoga.C127_exit_level", "Saratoga.C127_settings", "Saratoga.C127_settings_proper", "Saratoga.C127_apart", "Saratoga.C127_responsive", "Saratoga.C127_one_per_file", "Saratoga.C127_sessions", "Saratoga.C127_ends_iff", "Saratoga.C127_goes_on"], "note": ""},
 {"property": "C128", "status": "partial", "theorems": ["Saratoga.C128_names", "Saratoga.C128_plain_partial", "Saratoga.C128_link_partial", "Saratoga.C128_info_partial", "Saratoga.C128_absolute", "Saratoga.C128_here", "Saratoga.C128_returns_iff_partial", "Saratoga.C128_ends_iff", "Saratoga.C128_counterexample"], "note": "The code contradicts the full statement (C128_counterexample): `FileMeta` checks its `Lstat` for `IsNotExist` only, so a name below a file or in a directory that may not be searched panics; it looks for the target of a link from the working directory and uses the answer without looking at the error, so `put` of a relative or broken link ends the program. What holds: C128_plain_partial, C128_link_partial, C128_info_partial, C128_returns_iff_partial, with what is missing in the comment of each; DESIGN.md section 5."},
 {"property": "C129", "status": "partial", "theorems": ["Saratoga.C129_answered_partial", "Saratoga.C129_added_iff", "Saratoga.C129_troubles", "Saratoga.C129_reasons_partial", "Saratoga.C129_can_remove", "Saratoga.C129_address_partial", "Saratoga.C129_refused_partial", "Saratoga.C129_counterexample"], "note": "The code contradicts the full statement (C129_counterexample): `get` with a bad address prints nothing; `give` says \"Invalid IP Address\" when the address is good and the transfer is refused, and not when it is bad; a refused `put` shows the help of `getrm`, which is no command; \"No connection exists to peer\" names the peer of the new command, not the one of the transfer without connection. What holds: C129_answered_partial, C129_reasons_partial, C129_address_partial, C129_refused_partial, with what is missing in the comment of each; DESIGN.md section 5."},
 {"property": "C130", "status": "partial", "theorems": ["Saratoga.C130_good_partial", "Saratoga.C130_ends", "Saratoga.C130_error_passed", "Saratoga.C130_bad_packet", "Saratoga.C130_well", "Saratoga.C130_survives_iff", "Saratoga.C130_hole", "Saratoga.C130_no_length", "Saratoga.C130_holes_in_order", "Saratoga.C130_window", "Saratoga.C130_running", "Saratoga.C130_returned", "Saratoga.C130_silence", "Saratoga.C130_report_partial", "Saratoga.C130_counterexample"], "note": "The code contradicts the full statement (C130_counterexample): any frame of version 1 that is not a status ends the process, since the message asks for a field `frametpye`; a datagram of less than four bytes panics; the session of a status is never compared; for a whole file `success` is sent twice. What holds: C130_good_partial, C130_report_partial, with what is missing in the comment of each; DESIGN.md section 5."},
 {"property": "C131", "status": "proved", "theorems": ["Saratoga.C131_node", "Saratoga.C131_log", "Saratoga.C131_only_beacons", "Saratoga.C131_only_peers", "Saratoga.C131_no_file_moves", "Saratoga.C131_peers_true", "Saratoga.C131_goes_on", "Saratoga.C131_can_hear", "Saratoga.C131_introduces"], "note": ""},
 {"property": "C132", "status": "partial", "theorems": ["Saratoga.C132_first_error", "Saratoga.C132_finite", "Saratoga.C132_no_deadlock", "Saratoga.C132_ends_iff", "Saratoga.C132_settles", "Saratoga.C132_reader", "Saratoga.C132_left_behind", "Saratoga.C132_returns_partial", "Saratoga.C132_counterexample", "Saratoga.C132_numbers_counterexample"], "note": "The code contradicts the full statement (C132_counterexample, C132_numbers_counterexample): when `cput` has reported an error nobody empties the channels any more, so `senddata` with two words to go, or `readstatus` with two words or two positions, never returns; with the network down that is so for every file of two frames or more. If `readstatus` sent two numbers twice, `cput` would wait for itself on `datapos`. What holds: C132_returns_partial, with what is missing in the comment of each; DESIGN.md section 5."},
 {"property": "C133", "status": "proved", "theorems": ["Saratoga.C133_kind", "Saratoga.C133_same", "Saratoga.C133_listener", "Saratoga.C133_one_fault", "Saratoga.C133_executions", "Saratoga.C133_account", "Saratoga.C133_packets", "Saratoga.C133_replies"], "note": ""},
 {"property": "C134", "status": "partial", "theorems": ["Saratoga.C134_changed_partial", "Saratoga.C134_announced_partial", "Saratoga.C134_counterexample", "Saratoga.C134_never_announced", "Saratoga.C134_transfer_counterexample"], "note": "The code contradicts the full statement (C134_counterexample, C134_transfer_counterexample): \"Added New Peer\" is printed for every beacon of a known peer with other contents as well; \"New transfer request\" is printed in no execution, since the main loop first waits for itself on `tx` (C41). What holds: C134_changed_partial, C134_announced_partial, with what is missing in the comment of each; DESIGN.md section 5."},
 {"property": "C135", "status": "proved", "theorems": ["Saratoga.C135_reason", "Saratoga.C135_lines", "Saratoga.C135_shipped"], "note": ""},
 {"property": "C136", "status": "proved", "theorems": ["Saratoga.C136_program", "Saratoga.C136_windows", "Saratoga.C136_keys_alone", "Saratoga.C136_peers_apart", "Saratoga.C136_session", "Saratoga.C136_interrupt"], "note": ""},
 {"property": "C137", "status": "partial", "theorems": ["Saratoga.C137_only_printed", "Saratoga.C137_never_taken", "Saratoga.C137_files_partial", "Saratoga.C137_counterexample"], "note": "The code contradicts the full statement (C137_counterexample): nothing received is ever written to a file: data, metadata and status frames are only printed, and once a transfer is in the table the main loop takes no frame any more. What holds: C137_files_partial, with what is missing in the comment of each; DESIGN.md section 5."},
 {"property": "C138", "status": "partial", "theorems": ["Saratoga.C138_never_leaves", "Saratoga.C138_counterexample", "Saratoga.C138_bound_partial"], "note": "The code contradicts the full statement (C138_counterexample): entries never leave the list, and one beacon from each of any number of addresses makes it that long. What holds: C138_bound_partial, with what is missing in the comment of each; DESIGN.md section 5."},
 {"property": "C139", "status": "partial", "theorems": ["Saratoga.C139_ends_iff_partial", "Saratoga.C139_deaf", "Saratoga.C139_counterexample"], "note": "The code contradicts the full statement (C139_counterexample): with tables that let requests be answered, Ctrl-C no longer ends the program once a request was handled. What holds: C139_ends_iff_partial, with what is missing in the comment of each; DESIGN.md section 5."},
 {"property": "C140", "status": "partial", "theorems": ["Saratoga.C140_once", "Saratoga.C140_dropped_partial", "Saratoga.C140_packets_partial", "Saratoga.C140_catches_up", "Saratoga.C140_after_quit", "Saratoga.C140_counterexample"], "note": "The code contradicts the full statement (C140_counterexample): lines can be shown in another order than printed, and what is on its way at Ctrl-C is lost. What holds: C140_dropped_partial, C140_packets_partial, with what is missing in the comment of each; DESIGN.md section 5."},
 {"property": "C141", "status": "proved", "theorems": ["Saratoga.C141_pieces", "Saratoga.C141_four_bytes_long", "Saratoga.C141_burst", "Saratoga.C141_four_bytes", "Saratoga.C141_two_bits", "Saratoga.C141_escapes", "Saratoga.C141_announced"], "note": ""},
 {"property": "C142", "status": "proved", "theorems": ["Saratoga.C142_beacon", "Saratoga.C142_data", "Saratoga.C142_request", "Saratoga.C142_status", "Saratoga.C142_metadata", "Saratoga.C142_beacons_differ", "Saratoga.C142_requests_differ"], "note": ""},
 {"property": "C143", "status": "proved", "theorems": ["Saratoga.C143_unchanged", "Saratoga.C143_goes_on"], "note": ""},
 {"property": "C144", "status": "partial", "theorems": ["Saratoga.C144_kept_partial", "Saratoga.C144_session_partial", "Saratoga.C144_counterexample", "Saratoga.C144_last_partial"], "note": "The code contradicts the full statement (C144_counterexample): the commands entered are kept, but `history` says only that it is not implemented. What holds: C144_kept_partial, C144_session_partial, C144_last_partial, with what is missing in the comment of each; DESIGN.md section 5."},
 {"property": "C145", "status": "partial", "theorems": ["Saratoga.C145_serial", "Saratoga.C145_settings_partial", "Saratoga.C145_in_order_partial", "Saratoga.C145_no_deadlock", "Saratoga.C145_held", "Saratoga.C145_counterexample"], "note": "The code contradicts the full statement (C145_counterexample): each line starts a goroutine and nothing keeps their order, so of two `timeout` lines the first can have the last word. What holds: C145_settings_partial, C145_in_order_partial, with what is missing in the comment of each; DESIGN.md section 5."},
 {"property": "C146", "status": "partial", "theorems": ["Saratoga.C146_agrees", "Saratoga.C146_never_in_order", "Saratoga.C146_start_agrees", "Saratoga.C146_start_terminal", "Saratoga.C146_status_zero", "Saratoga.C146_status_start", "Saratoga.C146_failures_partial", "Saratoga.C146_counterexample"], "note": "The code contradicts the full statement (C146_counterexample): no end of the running program gives the terminal back, and none has exit status 0, not even Ctrl-C; wrong arguments and an unreadable configuration have status 0. What holds: C146_failures_partial, with what is missing in the comment of each; DESIGN.md section 5."},
 {"property": "C147", "status": "partial", "theorems": ["Saratoga.C147_ready_iff", "Saratoga.C147_ready", "Saratoga.C147_space_iff", "Saratoga.C147_addresses_iff", "Saratoga.C147_wrong_partial", "Saratoga.C147_behind_partial", "Saratoga.C147_interface", "Saratoga.C147_windows", "Saratoga.C147_group_unread", "Saratoga.C147_usage", "Saratoga.C147_counterexample"], "note": "The code contradicts the full statement (C147_counterexample): an interface that is not there is reported with the name of the configuration file; a failure of the windows prints `<nil>` (the wrong variable); a multicast setting that is no address prints `<nil>` for it; free space of 2^64 bytes or more wraps. What holds: C147_wrong_partial, C147_behind_partial, with what is missing in the comment of each; DESIGN.md section 5."},
 {"property": "C148", "status": "proved", "theorems": ["Saratoga.C148_never_fatal", "Saratoga.C148_not_for_itself", "Saratoga.C148_unlock", "Saratoga.C148_no_deadlock", "Saratoga.C148_all_finish", "Saratoga.C148_one_at_a_time"], "note": ""},
 {"property": "C149", "status": "proved", "theorems": ["Saratoga.C149_least", "Saratoga.C149_calls", "Saratoga.C149_file", "Saratoga.C149_one_more", "Saratoga.C149_ends", "Saratoga.C149_holes"], "note": ""},
 {"property": "C150", "status": "proved", "theorems": ["Saratoga.C150_kind", "Saratoga.C150_one_kind", "Saratoga.C150_request_text"], "note": ""},
 {"property": "C151", "status": "proved", "theorems": ["Saratoga.C151_seconds", "Saratoga.C151_nanoseconds", "Saratoga.C151_read"], "note": ""},
 {"property": "C152", "status": "partial", "theorems": ["Saratoga.C152_address", "Saratoga.C152_several", "Saratoga.C152_multicast_partial", "Saratoga.C152_no_error", "Saratoga.C152_others", "Saratoga.C152_counterexample"], "note": "The code contradicts the full statement (C152_counterexample): `beacon v4` and `beacon v6` print that beacons are sent before the group is looked at; if the configured group is no address nothing is sent and nothing more is said (`sarwin/sarwin.go:1316-1333`). The start refuses a group that is no address (C105), so this takes a resolver that fails later. What holds: C152_multicast_partial, with what is missing in the comment of each; DESIGN.md section 5."},
 {"property": "C153", "status": "proved", "theorems": ["Saratoga.C153_one_each", "Saratoga.C153_short", "Saratoga.C153_read", "Saratoga.C153_no_echo", "Saratoga.C153_requests"], "note": ""},
 {"property": "C154", "status": "proved", "theorems": ["Saratoga.C154_line", "Saratoga.C154_execution", "Saratoga.C154_nothing_vanishes", "Saratoga.C154_inside"], "note": ""},
 {"property": "C155", "status": "proved", "theorems": ["Saratoga.C155_asked", "Saratoga.C155_last_word", "Saratoga.C155_history_independent", "Saratoga.C155_twice", "Saratoga.C155_either_order", "Saratoga.C155_program"], "note": ""},
 {"property": "C156", "status": "partial", "theorems": ["Saratoga.C156_responder", "Saratoga.C156_beacons", "Saratoga.C156_put", "Saratoga.C156_putblind", "Saratoga.C156_putblind_word", "Saratoga.C156_table_partial", "Saratoga.C156_never_closed", "Saratoga.C156_counterexample", "Saratoga.C156_leak"], "note": "The code contradicts the full statement (C156_counterexample): `Transfer.Remove` and `rmtran` close neither the connection nor the file of a transfer (`sarwin/sarwin.go:1216-1229`), so each transfer ever started costs up to two open descriptors for the rest of the run. What holds: C156_table_partial, with what is missing in the comment of each; DESIGN.md section 5."},
 {"property": "C157", "status": "proved", "theorems": ["Saratoga.C157_same_view", "Saratoga.C157_shipped", "Saratoga.C157_next"], "note": ""},
 {"property": "C158", "status": "proved", "theorems": ["Saratoga.C158_data", "Saratoga.C158_data_fits", "Saratoga.C158_request", "Saratoga.C158_request_names", "Saratoga.C158_dirent", "Saratoga.C158_metadata", "Saratoga.C158_status", "Saratoga.C158_status_fits", "Saratoga.C158_beacon", "Saratoga.C158_lost"], "note": ""},
 {"property": "C159", "status": "proved", "theorems": ["Saratoga.C159_replies", "Saratoga.C159_frames", "Saratoga.C159_listed"], "note": ""},
 {"property": "C160", "status": "partial", "theorems": ["Saratoga.C160_settable", "Saratoga.C160_undo_iff", "Saratoga.C160_undo_partial", "Saratoga.C160_from_then_on", "Saratoga.C160_counterexample", "Saratoga.C160_shipped"], "note": "The code contradicts the full statement (C160_counterexample): the shipped configuration starts with `txwilling` at `yes`, but the command stores `on`, `off` or `capable` as typed (sarwin/sarwin.go:2408-2434). After any `txwilling` command no sequence of commands restores the settings the program was started with (`C160_counterexample`); every other shipped setting can be restored (`C160_shipped`). What holds: C160_undo_partial, with what is missing in the comment of each; DESIGN.md section 5."},
 {"property": "C161", "status": "proved", "theorems": ["Saratoga.C161_one_call", "Saratoga.C161_moved", "Saratoga.C161_nothing", "Saratoga.C161_total", "Saratoga.C161_square", "Saratoga.C161_in_order", "Saratoga.C161_reached"], "note": ""},
 {"property": "C162", "status": "proved", "theorems": ["Saratoga.C162_repair_iff", "Saratoga.C162_reported_iff", "Saratoga.C162_kept", "Saratoga.C162_rounds"], "note": ""},
 {"property": "C163", "status": "partial", "theorems": ["Saratoga.C163_regardless", "Saratoga.C163_counterexample", "Saratoga.C163_nothing_partial"], "note": "The code contradicts the full statement (C163_counterexample): `AddRxTran` looks at the willingness flags of the request only (trans/trans.go:96-215), never at the settings of the user. After `rxwilling off` and `txwilling off` the program still grants `get` and `put` and still deletes files for peers (`C163_counterexample`, with tables in which a granted request does not end the process); no settings command changes anything a peer gets (`C163_regardless`). What holds: C163_nothing_partial, with what is missing in the comment of each; DESIGN.md section 5."},
 {"property": "C164", "status": "partial", "theorems": ["Saratoga.C164_data", "Saratoga.C164_request", "Saratoga.C164_beacon", "Saratoga.C164_status", "Saratoga.C164_dirent", "Saratoga.C164_metadata", "Saratoga.C164_true_partial", "Saratoga.C164_whole_or_not", "Saratoga.C164_own_data", "Saratoga.C164_own_status", "Saratoga.C164_counterexample"], "note": "The code contradicts the full statement (C164_counterexample): no frame carries its length, and no decoder asks for the NUL at the end of a path in metadata. The first bytes of a frame are taken for a frame if the fixed part is there: data with less payload, a status with fewer holes, metadata of a file with a shorter name (`C164_counterexample`). A cut in the fixed part of a data, status or metadata frame, in the name of a request or before the name of a beacon ends the process unless less than the minimum length is left. The listener itself never cuts a datagram (`C164_whole_or_not`). What holds: C164_true_partial, with what is missing in the comment of each; DESIGN.md section 5."},
 {"property": "C165", "status": "proved", "theorems": ["Saratoga.C165_packet", "Saratoga.C165_reply", "Saratoga.C165_reads_on", "Saratoga.C165_caught_up", "Saratoga.C165_datagram", "Saratoga.C165_no_request", "Saratoga.C165_peer", "Saratoga.C165_other_tables", "Saratoga.C165_promise_needed"], "note": ""},
 {"property": "C166", "status": "proved", "theorems": ["Saratoga.C166_lock", "Saratoga.C166_turn", "Saratoga.C166_line", "Saratoga.C166_beacon", "Saratoga.C166_settled", "Saratoga.C166_promise_needed"], "note": ""},
 {"property": "C167", "status": "proved", "theorems": ["Saratoga.C167_regardless", "Saratoga.C167_ends", "Saratoga.C167_unwilling"], "note": ""},
 {"property": "C168", "status": "proved", "theorems": ["Saratoga.C168_heard", "Saratoga.C168_found", "Saratoga.C168_all"], "note": ""},
 {"property": "C169", "status": "proved", "theorems": ["Saratoga.C169_ends", "Saratoga.C169_within", "Saratoga.C169_ends_iff", "Saratoga.C169_quiet"], "note": ""},
 {"property": "C170", "status": "proved", "theorems": ["Saratoga.C170_first", "Saratoga.C170_same", "Saratoga.C170_silent"], "note": ""},
 {"property": "C171", "status": "proved", "theorems": ["Saratoga.C171_unnoticed", "Saratoga.C171_told", "Saratoga.C171_announced"], "note": ""},
 {"property": "C172", "status": "proved", "theorems": ["Saratoga.C172_asked", "Saratoga.C172_table", "Saratoga.C172_disk", "Saratoga.C172_kept", "Saratoga.C172_at_once"], "note": ""},
 {"property": "C173", "status": "proved", "theorems": ["Saratoga.C173_length", "Saratoga.C173_sized", "Saratoga.C173_found"], "note": ""},
 {"property": "C174", "status": "proved", "theorems": ["Saratoga.C174_node", "Saratoga.C174_network", "Saratoga.C174_only_beacons", "Saratoga.C174_only_peers", "Saratoga.C174_no_file_moves", "Saratoga.C174_peers_true", "Saratoga.C174_goes_on"], "note": ""},
 {"property": "C175", "status": "proved", "theorems": ["Saratoga.C175_lock", "Saratoga.C175_turn", "Saratoga.C175_sent", "Saratoga.C175_heard", "Saratoga.C175_sized", "Saratoga.C175_found"], "note": ""},
 {"property": "C176", "status": "proved", "theorems": ["Saratoga.C176_rest", "Saratoga.C176_done"], "note": ""},
 {"property": "C177", "status": "proved", "theorems": ["Saratoga.C177_fresh", "Saratoga.C177_current", "Saratoga.C177_overtaken"], "note": ""},
 {"property": "C178", "status": "proved", "theorems": ["Saratoga.C178_runs", "Saratoga.C178_only_beacons", "Saratoga.C178_only_peers", "Saratoga.C178_peers_true", "Saratoga.C178_no_file_moves", "Saratoga.C178_sessions_again", "Saratoga.C178_runs_for_ever", "Saratoga.C178_found"], "note": ""},
 {"property": "C179", "status": "proved", "theorems": ["Saratoga.C179_fresh", "Saratoga.C179_current", "Saratoga.C179_until_then"], "note": ""},
 {"property": "C180", "status": "proved", "theorems": ["Saratoga.C180_node", "Saratoga.C180_unmoved", "Saratoga.C180_only_beacons", "Saratoga.C180_no_file_moves", "Saratoga.C180_peers", "Saratoga.C180_true_elsewhere", "Saratoga.C180_goes_on", "Saratoga.C180_ended_by"], "note": ""},
 {"property": "C181", "status": "proved", "theorems": ["Saratoga.C181_unmoved", "Saratoga.C181_found", "Saratoga.C181_true_again"], "note": ""},
 {"property": "C182", "status": "proved", "theorems": ["Saratoga.C182_lock", "Saratoga.C182_turn", "Saratoga.C182_sent", "Saratoga.C182_rest"], "note": ""},
 {"property": "C183", "status": "proved", "theorems": ["Saratoga.C183_runs", "Saratoga.C183_only_beacons", "Saratoga.C183_peers", "Saratoga.C183_goes_on", "Saratoga.C183_no_file_moves", "Saratoga.C183_runs_for_ever", "Saratoga.C183_found", "Saratoga.C183_true_again", "Saratoga.C183_turn", "Saratoga.C183_sent"], "note": ""},
 {"property": "C184", "status": "proved", "theorems": ["Saratoga.C184_machine", "Saratoga.C184_rest"], "note": ""},
 {"property": "C185", "status": "proved", "theorems": ["Saratoga.C185_fresh", "Saratoga.C185_current", "Saratoga.C185_believed"], "note": ""},
 {"property": "C186", "status": "proved", "theorems": ["Saratoga.C186_rounding", "Saratoga.C186_halves", "Saratoga.C186_number", "Saratoga.C186_share", "Saratoga.C186_range", "Saratoga.C186_order", "Saratoga.C186_accuracy", "Saratoga.C186_disk", "Saratoga.C186_windows", "Saratoga.C186_no_percentage"], "note": ""},
 {"property": "C187", "status": "proved", "theorems": ["Saratoga.C187_owner", "Saratoga.C187_fails", "Saratoga.C187_apart", "Saratoga.C187_name", "Saratoga.C187_path", "Saratoga.C187_name_only"], "note": ""},
 {"property": "C188", "status": "proved", "theorems": ["Saratoga.C188_copy", "Saratoga.C188_independent"], "note": ""},
 {"property": "C189", "status": "proved", "theorems": ["Saratoga.C189_times", "Saratoga.C189_fields", "Saratoga.C189_values", "Saratoga.C189_shipped"], "note": ""}
]}
