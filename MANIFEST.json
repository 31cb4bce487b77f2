{"claims": [
 {"property": "C01", "status": "proved", "theorems": ["Aktualizr.C01_accepted_is_signed", "Aktualizr.C01_signed_is_accepted", "Aktualizr.C01_accepted_iff", "Aktualizr.C01_tables_come_from_root", "Aktualizr.C01_same_key_two_ids_counts_twice"], "note": "Acceptance is equivalent to threshold-many distinct authorised key ids with good signatures; key ids, not key material, are what is counted (C01_same_key_two_ids_counts_twice)."},
 {"property": "C02", "status": "proved", "theorems": ["Aktualizr.C02_chain", "Aktualizr.C02_first"], "note": "Over all histories with crashes. Hypothesis FiledSanely excludes only a first Root with a negative version number; that case is shown to go wrong by C04_negative_version_counterexample."},
 {"property": "C03", "status": "proved", "theorems": ["Aktualizr.C03_newest_version_monotone", "Aktualizr.C03_stored_roots_kept", "Aktualizr.C03_from_empty"], "note": "Monotone newest version; no stored Root removed or overwritten as long as the newest one is not filed above its own version."},
 {"property": "C04", "status": "proved", "theorems": ["Aktualizr.C04_bounded", "Aktualizr.C04_success", "Aktualizr.C04_negative_version_counterexample"], "note": "Bound and success condition hold for starting Roots with a positive (non-negative) version number; counterexample for negative ones."},
 {"property": "C05", "status": "partial", "theorems": ["Aktualizr.C05_no_rollback_partial", "Aktualizr.C05_rollback_rejected", "Aktualizr.C05_stored_version_monotone", "Aktualizr.C05_lower_never_accepted", "Aktualizr.C05_accepted_version_may_decrease", "Aktualizr.C05_rotation_forgets"], "note": "No rollback below the stored version in a check or history without Root rotation (integer versions >= 0), rollback error and storage unchanged otherwise. Missing: a rotation in the same check clears the stored Targets, so a lower version is accepted although the stored one still verifies (C05_rotation_forgets); accepted-but-empty Targets are not stored, so the accepted (not stored) version may decrease (C05_accepted_version_may_decrease)."},
 {"property": "C06", "status": "partial", "theorems": ["Aktualizr.C06_director_partial", "Aktualizr.C06_director_previous_may_be_expired", "Aktualizr.C06_image"], "note": "Proved in full for the Image repository. Director: everything except that the previous Targets, kept in use when the fetched one is empty, may be expired (C06_director_previous_may_be_expired)."},
 {"property": "C07", "status": "partial", "theorems": ["Aktualizr.C07_sane_partial", "Aktualizr.C07_previous_may_delegate"], "note": "No ECU twice in the Targets in use; the fetched Targets has no delegation. The previous Targets kept in use when the fetched one is empty may contain delegations (C07_previous_may_delegate)."},
 {"property": "C08", "status": "proved", "theorems": ["Aktualizr.C08_chain", "Aktualizr.C08_in_use_is_stored"], "note": "Chain Timestamp -> Snapshot -> Targets stated on the JSON documents. If the Snapshot does not list targets.json at all, the expected version is -1 and no hash is checked (visible in SnapshotVouches)."},
 {"property": "C09", "status": "partial", "theorems": ["Aktualizr.C09_timestamp_monotone_partial", "Aktualizr.C09_stored_follow_timestamp_partial", "Aktualizr.C09_snapshot_rollback_accepted"], "note": "Timestamp: monotone over all histories. Snapshot and Targets: false (C09_snapshot_rollback_accepted); proved instead that they follow what the Timestamp announces."},
 {"property": "C10", "status": "proved", "theorems": ["Aktualizr.C10_approved", "Aktualizr.C10_exactly_the_new"], "note": "Every offered target: listed by the Director's signed Targets for the same ECUs, matched by an entry of the Image repository's signed Targets or of a delegation at most five signed, Snapshot-vouched, unexpired delegations away. Converse: every Director target that is new for some ECU is offered."},
 {"property": "C11", "status": "proved", "theorems": ["Aktualizr.C11_match_iff", "Aktualizr.C11_symmetric", "Aktualizr.C11_hash_to_check"], "note": "MatchTarget is equivalent to the specification (same name, a common hash algorithm with no disagreement, compatible hardware ids, same length) and is symmetric."},
 {"property": "C12", "status": "partial", "theorems": ["Aktualizr.C12_found_partial", "Aktualizr.C12_bounded", "Aktualizr.C12_terminating_does_not_stop_siblings"], "note": "A found target lies on a chain of trusted delegations of depth at most 5 whose path patterns match; the number of fetches is bounded. False part: a terminating delegation does not stop the search of its later siblings (C12_terminating_does_not_stop_siblings)."},
 {"property": "C13", "status": "partial", "theorems": ["Aktualizr.C13_pinned_partial", "Aktualizr.C13_pinned_exact", "Aktualizr.C13_unlisted_accepted"], "note": "A delegated Targets is pinned to the Snapshot when the Snapshot lists it; an unlisted one is accepted without hash or version check (C13_unlisted_accepted)."},
 {"property": "C14", "status": "proved", "theorems": ["Aktualizr.C14_known_ecus", "Aktualizr.C14_never_different_content", "Aktualizr.C14_same_file_second_ecu_rejected"], "note": "Whenever a check does not report an error. The client is stricter than claimed: a Director target adding a second ECU to a file already installed on the first is rejected as content mismatch (C14_same_file_second_ecu_rejected)."},
 {"property": "C15", "status": "partial", "theorems": ["Aktualizr.C15_at_most_one", "Aktualizr.C15_others_untouched", "Aktualizr.C15_recorded_is_current_partial", "Aktualizr.C15_recorded_is_current", "Aktualizr.C15_sha512_only_stays_old", "Aktualizr.C15_store_serials_partial", "Aktualizr.C15_lazy_serial_two_current"], "note": "At most one current and one pending row per ECU over all sequences, other ECUs untouched; the recorded version becomes current for targets that have a sha256 (or are new). Missing: versions are identified by (name, sha256) only, so re-recording a target that differs only in other hashes keeps the old record (C15_sha512_only_stays_old); versions recorded for the Primary under an empty serial are counted apart from its real serial until ECU serials are stored (C15_lazy_serial_two_current)."},
 {"property": "C16", "status": "proved", "theorems": ["Aktualizr.C16_log_grows", "Aktualizr.C16_current_is_logged"], "note": "Over all sequences of recordings: the log of every ECU is only extended or its rows re-flagged, never removed or reordered; an installed row stays installed; the current version is in the log."},
 {"property": "C17", "status": "partial", "theorems": ["Aktualizr.C17_nothing_lost", "Aktualizr.C17_sent_in_order", "Aktualizr.C17_once_acknowledged_partial", "Aktualizr.C17_flush_sends_all", "Aktualizr.C17_flush_any", "Aktualizr.C17_crash_resends", "Aktualizr.C17_unparsable_dropped"], "note": "Nothing lost, order and exact delivery proved for every history; 'never sent again' holds except for a crash between the server's answer and the deletion (C17_crash_resends)."},
 {"property": "C18", "status": "partial", "theorems": ["Aktualizr.C18_counters_increase_partial", "Aktualizr.C18_role_change_repeats", "Aktualizr.C18_life_partial"], "note": "Proved over all histories of calls, starts, crashes anywhere and cycles of the daemon (C18_life_partial) in which no ECU is Primary at one time and Secondary at another. When roles change, counters repeat: C18_role_change_repeats."},
 {"property": "C19", "status": "partial", "theorems": ["Aktualizr.C19_life_device_result", "Aktualizr.C19_life_ecu_results_partial", "Aktualizr.C19_manifest_content", "Aktualizr.C19_device_result_reported", "Aktualizr.C19_ecu_results_reported_partial", "Aktualizr.C19_never_while_pending", "Aktualizr.C19_ecu_result_lost"], "note": "Device result: proved in full over all histories, with cycles of the daemon (C19_life_device_result). ECU results: reported and kept as long as a device result is stored too; without one they are not reported and are erased by the next acknowledged manifest (C19_ecu_result_lost)."},
 {"property": "C20", "status": "partial", "theorems": ["Aktualizr.C20_success_iff", "Aktualizr.C20_failure_names", "Aktualizr.C20_needs_completion_partial", "Aktualizr.C20_failure_hides_completion"], "note": "Success iff all stored ECU results are successes of managed ECUs, failure names every failed ECU. Needs-completion only proved when no earlier ECU result failed; otherwise the failure hides it and the drop of Director targets follows (C20_failure_hides_completion). An ECU without a stored result is not considered by the function."},
 {"property": "C21", "status": "partial", "theorems": ["Aktualizr.Boot.C21_partial", "Aktualizr.Boot.C21_booted", "Aktualizr.Boot.C21_not_rebooted", "Aktualizr.Boot.C21_rebooted_right", "Aktualizr.Boot.C21_rebooted_wrong", "Aktualizr.Boot.C21_stuck", "Aktualizr.Boot.C21_crash_stuck", "Aktualizr.Boot.C21_unsupported_then_supported", "Aktualizr.Boot.C21_failed_stays_pending", "Aktualizr.Boot.C21_sentinel_failure"], "note": "Proved for every history of installations, starts and reboots with crashes anywhere, when reboot detection works at every start and Targets carry a well-formed SHA-256 hash. Without that the full claim is false (C21_unsupported_then_supported). A finalisation that dies after clearing the flag leaves the update pending for good (C21_crash_stuck)."},
 {"property": "C22", "status": "partial", "theorems": ["Aktualizr.C22_never_longer", "Aktualizr.C22_abort_ends", "Aktualizr.C22_downloaded_matches_partial", "Aktualizr.C22_wrong_hash_removed", "Aktualizr.C22_three_attempts_partial", "Aktualizr.C22_batch_partial", "Aktualizr.C22_empty_not_checked", "Aktualizr.C22_write_error_unnoticed", "Aktualizr.C22_batch_loses_image"], "note": "Proved for every stored state, chunking, interruption and server for non-empty Targets when the file system takes what is written, and for batches whose Targets share no file; empty Targets, failing writes and shared files are refuted by witnesses."},
 {"property": "C23", "status": "proved", "theorems": ["Aktualizr.C23_good_sound", "Aktualizr.C23_status_exact", "Aktualizr.C23_no_hash_undefined"], "note": "Targets with at least one hash and a readable image directory; without hashes the code reads past the end (C23_no_hash_undefined)."},
 {"property": "C24", "status": "partial", "theorems": ["Aktualizr.C24_nothing_unverified_partial", "Aktualizr.C24_ostree_secondary_unverified"], "note": "Proved for every installation, every server, Secondary and package manager behaviour. Missing: OSTree targets for Secondaries are not verified by the Primary (C24_ostree_secondary_unverified), and re-verification of metadata has the gap described under C25."},
 {"property": "C25", "status": "partial", "theorems": ["Aktualizr.C25_director", "Aktualizr.C25_image", "Aktualizr.C25_offline_partial", "Aktualizr.C25_expired_targets_accepted", "Aktualizr.C25_wrong_version_accepted"], "note": "Director: the offline check asks everything the online check does. Image repository: the same holds for a successful repository check, but the client ignores its failure, so an available answer only implies everything up to the hashes of Targets; expired Targets and Targets of another version than the Snapshot lists are accepted (C25_expired_targets_accepted, C25_wrong_version_accepted)."},
 {"property": "C26", "status": "partial", "theorems": ["Aktualizr.Sec.C26_partial", "Aktualizr.Sec.C26_running", "Aktualizr.Sec.C26_restart_skips_image_repository", "Aktualizr.Sec.C26_incomplete_metadata_ends_process"], "note": "Full for histories without restart (C26_running). After a restart only the stored Director metadata is checked: C26_restart_skips_image_repository is a counterexample, so C26_partial allows that source."},
 {"property": "C27", "status": "partial", "theorems": ["Aktualizr.Sec.C27_partial", "Aktualizr.Sec.C27_only_install", "Aktualizr.Sec.C27_failure_keeps", "Aktualizr.Sec.C27_any_split", "Aktualizr.Sec.C27_stuck_after_mismatch", "Aktualizr.Sec.C27_unnoticed_loss", "Aktualizr.Sec.C27_resume_undefined", "Aktualizr.Sec.C27_install_after_restart_undefined", "Aktualizr.Sec.C27_stuck_witness", "Aktualizr.Sec.C27_crash_leaves_old_name"], "note": "C27_partial for every history of requests, faults, crashes and restarts in which no write is lost without notice; C27_unnoticed_loss shows the exclusion is needed. C27_any_split: every chunking installs. Findings: stuck after a wrong upload, null hasher after a restart."},
 {"property": "C28", "status": "proved", "theorems": ["Aktualizr.Queue.C28_disciplined", "Aktualizr.Queue.C28_in_order", "Aktualizr.Queue.C28_accounted", "Aktualizr.Queue.C28_dropped_by_abort", "Aktualizr.Queue.C28_abort_flushes", "Aktualizr.Queue.C28_next_runs", "Aktualizr.Queue.C28_abort_ends", "Aktualizr.Queue.C28_abort_stays_paused"], "note": "Over all interleavings of the steps under each lock: order, at most once, never while paused or aborting, nothing lost; progress of the head of the queue and of an abort. Trusted: condition variables lose no wake-up. An abort leaves the queue paused (C28_abort_stays_paused)."},
 {"property": "C29", "status": "proved", "theorems": ["Aktualizr.Queue.C29_state", "Aktualizr.Queue.C29_abort_sticky", "Aktualizr.Queue.C29_reports", "Aktualizr.Queue.C29_pause_reports", "Aktualizr.Queue.C29_command_sees"], "note": "State after every sequence of calls; stickiness; reported results; the running command's token agrees with the queue."},
 {"property": "C30", "status": "proved", "theorems": ["Aktualizr.C30_round_trip", "Aktualizr.C30_exact", "Aktualizr.C30_non_hex_text_changes"], "note": "Exact characterisation (iff) of the lists that survive the round trip; every list of SHA256/SHA512 hashes with upper-cased text free of ';' does. Hash text is not checked to be hexadecimal (C30_non_hex_text_changes)."},
 {"property": "C31", "status": "proved", "theorems": ["Aktualizr.C31_round_trip", "Aktualizr.C31_write_refused_iff", "Aktualizr.C31_legacy"], "note": "Round trip for every code whose text can be written; a write is refused exactly when the text contains a double quote."},
 {"property": "C32", "status": "partial", "theorems": ["Aktualizr.C32_chronological", "Aktualizr.C32_now_well_formed", "Aktualizr.C32_malformed_partial", "Aktualizr.C32_malformed_never_expires", "Aktualizr.C32_far_future"], "note": "Chronological order proved for all pairs of instants with four-digit years. Malformed text of 20 characters ending in Z is accepted (C32_malformed_never_expires)."},
 {"property": "C33", "status": "partial", "theorems": ["Aktualizr.C33_round_trip", "Aktualizr.C33_encoding_form", "Aktualizr.C33_decode_safe_partial", "Aktualizr.C33_decode_exact", "Aktualizr.C33_decode_undefined"], "note": "Round trip proved for all byte strings. Decoding leaves its buffers for some texts: exactly those described in C33_decode_exact, an equivalence over all texts."},
 {"property": "C34", "status": "proved", "theorems": ["Aktualizr.C34_safe", "Aktualizr.C34_decodes", "Aktualizr.C34_injective", "Aktualizr.C34_urls_differ"], "note": "Every byte string."},
 {"property": "C35", "status": "partial", "theorems": ["Aktualizr.C35_value_partial", "Aktualizr.C35_values_partial", "Aktualizr.C35_sequence_partial", "Aktualizr.C35_end_is_checked", "Aktualizr.C35_long_string_not_consumed", "Aktualizr.C35_integer_exact", "Aktualizr.C35_integer_wrong", "Aktualizr.C35_nested_sequence_fails", "Aktualizr.C35_decoder_unsafe"], "note": "Every string of up to 1000 bytes, every boolean and exactly the integers described by ComesBack (C35_integer_exact, an equivalence over all 32 bit integers, for signed and for unsigned char) read back as written, alone, in lists and inside a sequence, and a sequence is accepted only with its end; the other integers are shown to come back changed or not at all, longer strings decode but the position behind them is wrong for every one of them (C35_long_string_not_consumed), a nested sequence cannot be followed by anything, and the decoder reads outside its input (witnesses)."},
 {"property": "C36", "status": "partial", "theorems": ["Aktualizr.Mig.C36_forward_atomic", "Aktualizr.Mig.C36_new", "Aktualizr.Mig.C36_untouched", "Aktualizr.Mig.C36_backward", "Aktualizr.Mig.C36_completes", "Aktualizr.Mig.C36_failure_hidden", "Aktualizr.Mig.C36_retry", "Aktualizr.Mig.C36_backward_completes", "Aktualizr.Mig.C36_backward_failure_hidden", "Aktualizr.Mig.C36_not_reported"], "note": "Old or new database at every crash and failure point, retry, completion: proved. Missing: opening the storage does not report a migration that failed (dbMigrate ignores the results, sqlstorage_base.cc:236-241); C36_failure_hidden, C36_backward_failure_hidden and C36_not_reported prove the negation."},
 {"property": "C37", "status": "partial", "theorems": ["Aktualizr.C37_in_order", "Aktualizr.C37_refused_partial", "Aktualizr.C37_error_as_size"], "note": "Bytes are handed out in the order in which they were put in, none lost or doubled, over all sequences of operations; the buffer is never overrun by what fits. Missing: the result -1 of recv is passed on as a size (shown by a witness)."},
 {"property": "C38", "status": "proved", "theorems": ["Aktualizr.C38_within_limits", "Aktualizr.C38_success_recovers", "Aktualizr.C38_failure_detected", "Aktualizr.C38_not_failed_early"], "note": "The bounds on concurrency and waiting hold after every history of results; recovery and detection of a failed server."},
 {"property": "C39", "status": "proved", "theorems": ["Aktualizr.Treehub.C39_children_first", "Aktualizr.Treehub.C39_only_the_commit", "Aktualizr.Treehub.C39_no_undefined_behaviour", "Aktualizr.Treehub.C39_success", "Aktualizr.Treehub.C39_dry_run_sends_nothing"], "note": "For every graph, schedule and failure pattern of the default mode; also: only objects of the commit are sent, no stale iterator is used, success is reported only if the server confirmed the commit, dry runs send nothing."},
 {"property": "C40", "status": "proved", "theorems": ["Aktualizr.Treehub.C40_never_stuck", "Aktualizr.Treehub.C40_end", "Aktualizr.Treehub.C40_bounded"], "note": "Never stuck for every graph without cycles; the commit is confirmed when the loop ends without abort; launches and settled requests bounded by six per object plus one for every failed response, so the push ends if the server fails finitely often."},
 {"property": "C41", "status": "partial", "theorems": ["Aktualizr.Prov.C41_keys", "Aktualizr.Prov.C41_device_id", "Aktualizr.Prov.C41_provisioned", "Aktualizr.Prov.C41_device_cred", "Aktualizr.Prov.C41_same_config", "Aktualizr.Prov.C41_ecus_accepted", "Aktualizr.Prov.C41_first", "Aktualizr.Prov.C41_counter", "Aktualizr.Prov.C41_success", "Aktualizr.Prov.C41_completes_from_partial", "Aktualizr.Prov.C41_completes_partial", "Aktualizr.Prov.C41_lost_answer", "Aktualizr.Prov.Case.C41_id_changes", "Aktualizr.Prov.Case.C41_half_credentials", "Aktualizr.Prov.Case.C41_old_hardware_id", "Aktualizr.Prov.Case.C41_swap", "Aktualizr.Prov.Case.C41_empty_import", "Aktualizr.Prov.Case.C41_equal_serials", "Aktualizr.Prov.C41_flag_lost", "Aktualizr.Prov.C41_secondaries"], "note": "For every server, every sequence of starts and every crash point: keys and report counters never change once stored (C41_keys, C41_counter); the device id stays unless the server refused it as already registered in the same start (C41_device_id), stays for good once there are complete credentials (C41_provisioned) or with device credentials (C41_device_cred); ECU lists change only to the configured one and only after the server accepted it (C41_ecus_accepted), never with a fixed configuration (C41_same_config, C41_first); what a successful start leaves (C41_success), also about the Secondaries (C41_secondaries). Completion (C41_completes_partial, C41_completes_from_partial) needs a server that accepts a repeated registration: with one that does not it is false, witnesses C41_lost_answer (no start ever succeeds again), C41_half_credentials, C41_id_changes; further deviations: C41_flag_lost, C41_old_hardware_id, C41_swap, C41_empty_import, C41_equal_serials."},
 {"property": "C42", "status": "partial", "theorems": ["Aktualizr.Ip.C42_success", "Aktualizr.Ip.C42_prefix", "Aktualizr.Ip.C42_ends", "Aktualizr.Ip.C42_complete", "Aktualizr.Ip.C42_endless", "Aktualizr.Ip.C42_too_long", "Aktualizr.Ip.C42_endless_file_secondary", "Aktualizr.Ip.C42_file_secondary"], "note": "Success means: the chunks sent joined are exactly the image, of exactly the announced length, each of 1..1024 bytes; sent data is always a prefix; uploads of images at least as long as announced end, and succeed with aktualizr-secondary (C42_file_secondary: after sendFirmware and install the Secondary's image is the file). Termination for every image is false: a file shorter than announced is uploaded for ever (C42_endless for any accepting peer, C42_endless_file_secondary for aktualizr-secondary)."},
 {"property": "C43", "status": "partial", "theorems": ["Aktualizr.Ip.C43_partial", "Aktualizr.Ip.C43_unreachable", "Aktualizr.Ip.C43_old", "Aktualizr.Ip.C43_aktualizr_secondary", "Aktualizr.Ip.C43_messages", "Aktualizr.Ip.C43_bounded", "Aktualizr.Ip.C43_zero", "Aktualizr.Ip.C43_zero_refused"], "note": "Highest common version for every answer in 1..2^32-1, unchanged when unreachable, 1 for peers that only answer getInfo, never above 2 along any history, messages of each version only under that version. 'Always a supported version' is false: an answer 0 (or multiple of 2^32) is taken over (C43_zero) and disables updates until the next negotiation (C43_zero_refused)."},
 {"property": "C44", "status": "proved", "theorems": ["Aktualizr.C44_limited", "Aktualizr.C44_complete", "Aktualizr.C44_fitting_returned", "Aktualizr.C44_oversized_refused"], "note": "Every limit, response and chunking; libcurl's own transfer logic is not modelled."},
 {"property": "C45", "status": "proved", "theorems": ["Aktualizr.C45_loads_last_stored", "Aktualizr.C45_text_unchanged", "Aktualizr.C45_storeRoot_frame", "Aktualizr.C45_all_delegations", "Aktualizr.C45_storeNonRoot_frame", "Aktualizr.C45_clearNonRoot_exact", "Aktualizr.C45_nul_cuts"], "note": "Refinement of three maps by the tables for every history of writing calls, including the clean-up at opening; blobs with a NUL are cut when read (C45_nul_cuts)."},
 {"property": "C46", "status": "partial", "theorems": ["Aktualizr.C46_old_or_new_partial", "Aktualizr.C46_others_untouched", "Aktualizr.C46_reader_cleans_up", "Aktualizr.C46_full_disk_truncates"], "note": "Every content and crash point of the process, when all bytes can be written. A full disk truncates (C46_full_disk_truncates). Loss of unsynced data by a power cut is not modelled."},
 {"property": "C47", "status": "proved", "theorems": ["Aktualizr.C47_roots_in_order", "Aktualizr.C47_nothing_sent"], "note": "Over all stored Roots, server and Secondary answers and crash points."},
 {"property": "C48", "status": "partial", "theorems": ["Aktualizr.C48_space_checked_partial", "Aktualizr.C48_overflow"], "note": "Proved when length + 1 MiB does not wrap around 2^64; C48_overflow shows the wrap. If statvfs fails the code downloads anyway."},
 {"property": "C49", "status": "partial", "theorems": ["Aktualizr.DeviceData.C49_partial", "Aktualizr.DeviceData.C49_suppressed_was_acked", "Aktualizr.DeviceData.C49_default_hwinfo_once", "Aktualizr.DeviceData.C49_crash_lost", "Aktualizr.DeviceData.C49_crash_resent"], "note": "Exact for every history of uninterrupted calls, except that default hardware information is sent only once (C49_default_hwinfo_once, documented in the code). A process dying between acknowledgement and storing the hash breaks both directions (C49_crash_lost, C49_crash_resent); what remains is C49_suppressed_was_acked. SHA-256 collisions among the texts are excluded by hypothesis."},
 {"property": "C50", "status": "proved", "theorems": ["Aktualizr.C50_round_trip", "Aktualizr.C50_primary_marked", "Aktualizr.C50_all_or_nothing"], "note": "For all lists of ECUs with distinct, storable identifiers (no NUL characters)."},
 {"property": "C51", "status": "partial", "theorems": ["Aktualizr.C51_server_survives_partial", "Aktualizr.C51_stops_only_to_reboot", "Aktualizr.C51_only_decoded_is_handled", "Aktualizr.C51_reset_kills_server"], "note": "The server goes on after every connection whose reads never fail at a message boundary, stops otherwise only to reboot, and hands to the handler only messages that were decoded; a reset at a message boundary ends the process (shown by a witness)."},
 {"property": "C52", "status": "partial", "theorems": ["Aktualizr.Treehub.C52_missing_commit_not_sent", "Aktualizr.Treehub.C52_empty_server_partial"], "note": "Holds when the server has none of the objects. Missing: it fails as soon as a child of a missing object is already on the server (C52_missing_commit_not_sent)."},
 {"property": "C53", "status": "proved", "theorems": ["Aktualizr.Mig.C53_migrates", "Aktualizr.Mig.C53_each_script", "Aktualizr.Mig.C53_opens", "Aktualizr.Mig.C53_interrupted", "Aktualizr.Mig.C53_same_schema", "Aktualizr.Mig.C53_back", "Aktualizr.Mig.C53_rollback20", "Aktualizr.Mig.C53_back_stuck"], "note": "The table copies of every script are checked once against the definitions (check_sound, trace_sound in Lemmas/Sql) and the result holds for every content. Programs of version 19 or older are not covered by the claim: C53_back_stuck proves that rollback.20.sql fails as soon as an image was installed again after another one, and that opening the storage does not report it."},
 {"property": "C54", "status": "partial", "theorems": ["Aktualizr.Prov.C54_requests", "Aktualizr.Prov.Case.C54_shared_stay"], "note": "C54_requests for every server, state and crash point; removal of the shared credentials by a start that succeeds is the last part of C41_success. False after a crash just before the removal: C54_shared_stay."},
 {"property": "C55", "status": "partial", "theorems": ["Aktualizr.C55_keeps_partial", "Aktualizr.C55_unreadable_log", "Aktualizr.C55_removes", "Aktualizr.C55_succeeds_partial", "Aktualizr.C55_missing_file_blocks", "Aktualizr.C55_only_removes", "Aktualizr.C55_current", "Aktualizr.C55_shared_file_lost", "Aktualizr.C55_crash_blocks", "Aktualizr.C55_pending_removed"], "note": "Kept: entry and content of every image of the last two Targets of an ECU, for every outcome and crash point, provided no other stored name shares the file; the current version is always among them (C55_current). Removed: all others when the clean-up succeeds. It succeeds when every stored name has its own file. Refuted: a shared file is lost (C55_shared_file_lost); an interrupted clean-up, or a missing file, makes all later ones fail (C55_crash_blocks, C55_missing_file_blocks)."},
 {"property": "C56", "status": "partial", "theorems": ["Aktualizr.Sec.C56_partial"], "note": "Proved for all histories in which the process does not die between replacing the image and recording the version; then the old name is reported (C27_crash_leaves_old_name)."},
 {"property": "C57", "status": "proved", "theorems": ["Aktualizr.Ip.C57_metadata", "Aktualizr.Ip.C57_metadata_accepted", "Aktualizr.Ip.C57_install", "Aktualizr.Ip.C57_firmware", "Aktualizr.Ip.C57_manifest"], "note": "Exact for installation; for metadata and firmware both what was sent and what was answered. Any behaviour of the other side."},
 {"property": "C58", "status": "partial", "theorems": ["Aktualizr.C58_cycle_partial", "Aktualizr.C58_lives_partial", "Aktualizr.C58_first_partial"], "note": "Proved for one cycle and for whole lives of calls, cycles, restarts and crashes, from given Roots or from the first ones. Missing: the gaps of C24 and C25 (OSTree targets of Secondaries are not verified; expiry and version of the stored Image repository Targets are not checked again)."},
 {"property": "C59", "status": "partial", "theorems": ["Aktualizr.C59_installation_reported", "Aktualizr.C59_failed_download_partial", "Aktualizr.C59_mismatch_reported", "Aktualizr.C59_bad_metadata_unreported", "Aktualizr.C59_same_version_unreported"], "note": "Installations and mismatches: proved in full. Downloads: for a Director that changes its Targets only with their version number; otherwise C59_same_version_unreported. A check that fails for other reasons is not reported (C59_bad_metadata_unreported)."},
 {"property": "C60", "status": "proved", "theorems": ["Aktualizr.C60_waits", "Aktualizr.C60_completes", "Aktualizr.C60_left_waiting"], "note": "C60_waits: any number of cycles after any life of the device. C60_completes: which cycles end the loop, both directions (the converse with stored serials of 1 to 64 bytes, as EcuSerial requires). C60_left_waiting (finding): an update already waiting when the daemon starts is not completed by it."},
 {"property": "C61", "status": "proved", "theorems": ["Aktualizr.C61_offered", "Aktualizr.C61_nothing_new"], "note": "Servers answer every request in the same way during the check; fuel (crash budget) is given as a bound linear in the length of the Root chains and the number of delegated roles. Delegated roles: all roles the search may follow before it finds the image are assumed genuine."},
 {"property": "C62", "status": "proved", "theorems": ["Aktualizr.C62_installed"], "note": "Forward execution of a whole cycle for genuine metadata (including images listed by delegated roles) and helpful peers, with an explicit bound on the number of effects. Installations that need a reboot of the Primary: C80."},
 {"property": "C63", "status": "partial", "theorems": ["Aktualizr.C63_same", "Aktualizr.C63_install_true", "Aktualizr.C63_install_partial", "Aktualizr.C63_download_true", "Aktualizr.C63_download", "Aktualizr.C63_finalize", "Aktualizr.C63_cycle_true", "Aktualizr.C63_cycle_partial", "Aktualizr.C63_secondary_waiting_event_negative", "Aktualizr.C63_pending_check_silent", "Aktualizr.C63_throwing_install_silent"], "note": "C63_same, C63_install_true, C63_download_true, C63_download, C63_finalize, C63_cycle_true hold as stated. C63_install_partial and C63_cycle_partial describe the events as they are; the statement fails for the event of a Secondary that waits for a reboot (C63_secondary_waiting_event_negative), for checks while an update is pending (C63_pending_check_silent) and for installations that throw (C63_throwing_install_silent). A Secondary's thread is modelled as running as a whole; progress events are not modelled."},
 {"property": "C64", "status": "partial", "theorems": ["Aktualizr.Managed.C64_identity_partial", "Aktualizr.Managed.C64_manifest_partial", "Aktualizr.Managed.C64_install_partial", "Aktualizr.Managed.C64_metadata_accepted", "Aktualizr.Managed.C64_metadata_accepts", "Aktualizr.Managed.C64_accepts_what_the_primary_verified", "Aktualizr.Managed.C64_root", "Aktualizr.Managed.C64_full_disk_loses_identity", "Aktualizr.Managed.C64_torn_installation", "Aktualizr.Managed.C64_image_metadata_unchecked", "Aktualizr.Managed.C64_root_not_chained", "Aktualizr.Managed.C64_refused_root_stays", "Aktualizr.Managed.C64_key_rotation_refused", "Aktualizr.Managed.C64_installs_after_refusal"], "note": "Identity, manifests and installations hold if the disk is never full and an installation does not die half-way (witnesses otherwise). Acceptance of metadata is characterised and accepts what the Primary verified; the chain of Roots is not checked by the code, nor is the Image repository (witnesses)."},
 {"property": "C65", "status": "partial", "theorems": ["Aktualizr.Connect.C65_known", "Aktualizr.Connect.C65_complete_partial", "Aktualizr.Connect.C65_only_partial", "Aktualizr.Connect.C65_identity", "Aktualizr.Connect.C65_refuses", "Aktualizr.Connect.C65_members", "Aktualizr.Connect.C65_address", "Aktualizr.Connect.C65_starts", "Aktualizr.Connect.C65_again", "Aktualizr.Connect.Case.C65_keys_collide", "Aktualizr.Connect.Case.C65_improper_is_missing", "Aktualizr.Connect.Case.C65_stranger_added", "Aktualizr.Connect.Case.C65_twice", "Aktualizr.Connect.Case.C65_silent_becomes_unknown", "Aktualizr.Connect.Case.C65_silent_stops", "Aktualizr.Connect.Case.C65_replaced_is_forgotten", "Aktualizr.Connect.Case.C65_port_cut", "Aktualizr.Connect.C65_kept"], "note": "Known Secondaries are there after a start, as they answered or as on record (C65_known); where every identity comes from (C65_identity); a Secondary neither known nor reachable stops the start (C65_refuses); all members, distinct serials (C65_members); addresses are read as stated (C65_address); a device with all addresses on record starts without network (C65_starts), and a start followed by a registration leaves them on record, so the next start has the same Secondaries (C65_again). Partial: completeness needs different keys for different addresses and possible answers (C65_complete_partial; witnesses C65_keys_collide, C65_improper_is_missing), exclusiveness that no stranger connects (C65_only_partial; witness C65_stranger_added). Further deviations: C65_twice, C65_silent_becomes_unknown, C65_silent_stops, C65_replaced_is_forgotten, C65_port_cut."},
 {"property": "C66", "status": "partial", "theorems": ["Aktualizr.FsMig.C66_keeps_partial", "Aktualizr.FsMig.C66_nothing_lost_partial", "Aktualizr.FsMig.C66_starts", "Aktualizr.FsMig.C66_once", "Aktualizr.FsMig.C66_metadata_partial", "Aktualizr.FsMig.C66_ecus", "Aktualizr.FsMig.C66_versions", "Aktualizr.FsMig.C66_same_device", "Aktualizr.FsMig.Case.C66_interrupted_is_forgotten", "Aktualizr.FsMig.Case.C66_interrupted_registers_again", "Aktualizr.FsMig.Case.C66_refused_is_forgotten", "Aktualizr.FsMig.Case.C66_image_root_lost", "Aktualizr.FsMig.Case.C66_no_director_root", "Aktualizr.FsMig.Case.C66_root_lost_on_the_way", "Aktualizr.FsMig.Case.C66_twice_listed", "Aktualizr.FsMig.Case.C66_half_a_key", "Aktualizr.FsMig.Case.C66_result_dropped", "Aktualizr.FsMig.C66_misconfigured"], "note": "Proved: a migration that returns leaves a copy of every field and no file (C66_keeps_partial), a crash or exception leaves the files or a copy (C66_nothing_lost_partial), proper files are migrated (C66_starts), once (C66_once), ECU list, installed versions, metadata are those of the files (C66_ecus, C66_versions, C66_metadata_partial), provisioning then sends nothing (C66_same_device). Refuted and therefore missing: completion after an interruption, Image Roots beyond the Director's latest version, an unversioned root.json over a crash, half key pairs, unread installation result; concrete witnesses C66_*."},
 {"property": "C67", "status": "partial", "theorems": ["Aktualizr.Camp.C67_reads", "Aktualizr.Camp.C67_list", "Aktualizr.Camp.C67_no_list", "Aktualizr.Camp.C67_roundtrip_partial", "Aktualizr.Camp.C67_check", "Aktualizr.Camp.C67_decision", "Aktualizr.Camp.C67_names", "Aktualizr.Camp.Case.C67_size_cut", "Aktualizr.Camp.Case.C67_two_descriptions"], "note": "All parts proved except that the written list is read back for campaigns of 4 GiB and more, which is false (C67_size_cut: sizes are written as 32 bit numbers)."},
 {"property": "C68", "status": "partial", "theorems": ["Aktualizr.Conf.C68_lines", "Aktualizr.Conf.C68_precedence_partial", "Aktualizr.Conf.C68_extra", "Aktualizr.Conf.C68_listing", "Aktualizr.Conf.C68_reads", "Aktualizr.Conf.C68_secondary_option", "Aktualizr.Conf.C68_derived", "Aktualizr.Conf.C68_values", "Aktualizr.Conf.C68_default_mode", "Aktualizr.Conf.C68_flags"], "note": "Precedence, listing, failures, sections and derived values proved for all files and command lines. Missing because false: --secondary-config-file cannot be used (C68_secondary_option), and the documented default of provision.mode is not the one used (C68_default_mode)."},
 {"property": "C69", "status": "partial", "theorems": ["Aktualizr.Conf.C69_value", "Aktualizr.Conf.C69_roundtrip_partial", "Aktualizr.Conf.C69_distinct", "Aktualizr.Conf.C69_cacert_lost", "Aktualizr.Conf.C69_ampersand"], "note": "Proved for every option except p11.tls_cacert_id, for which it is false (C69_cacert_lost), and for paths of storage and import without ampersands (false with them: C69_ampersand)."},
 {"property": "C70", "status": "partial", "theorems": ["Aktualizr.C70_accepted_partial", "Aktualizr.C70_nothing_new_partial", "Aktualizr.C70_holds_on", "Aktualizr.C70_versions_partial", "Aktualizr.C70_roots", "Aktualizr.C70_director_entry", "Aktualizr.C70_below", "Aktualizr.C70_delegated_partial", "Aktualizr.C70_shared_key_lost", "Aktualizr.C70_version_restarts", "Aktualizr.C70_invalidrole", "Aktualizr.C70_version_goes_back", "Aktualizr.C70_revoked_comes_back", "Aktualizr.C70_orphans_stay", "Aktualizr.C70_ecu_twice", "Aktualizr.C70_length_cut", "Aktualizr.C70_empty_pattern"], "note": "Acceptance for every run and every earlier poll, for images listed in the top-level Image Targets or, while no delegation is revoked, in delegated roles, and Director Targets signed in the order they were staged; the unrestricted claim is refuted by the witnesses in C70Limits and C70DelegCase."},
 {"property": "C71", "status": "partial", "theorems": ["Aktualizr.Tools.C71_check", "Aktualizr.Tools.C71_check_succeeds", "Aktualizr.Tools.C71_push", "Aktualizr.Tools.C71_dry_run_partial", "Aktualizr.Tools.C71_deploy", "Aktualizr.Tools.C71_commit_names", "Aktualizr.Tools.C71_commits_differ", "Aktualizr.Tools.C71_commit_length", "Aktualizr.Tools.C71_commit_parse_not_strict", "Aktualizr.Tools.C71_dry_run_pushes_ref", "Aktualizr.Tools.C71_walk_ignores_missing", "Aktualizr.Tools.C71_walk_missing_commit", "Aktualizr.Tools.C71_manifest_refused", "Aktualizr.Tools.C71_bad_ref_crashes", "Aktualizr.Tools.C71_no_repo_url_undefined", "Aktualizr.Tools.C71_deploy_shell_injection"], "note": "Success of garage-push (default mode), garage-check (both directions, without --walk-tree) and garage-deploy characterised for all answers; dry runs without --walk-tree. With --walk-tree and for the manifest the claim is refuted (C71_dry_run_pushes_ref, C71_walk_ignores_missing, C71_walk_missing_commit, C71_manifest_refused). NoBlanks: addresses in the credentials without white space."},
 {"property": "C72", "status": "proved", "theorems": ["Aktualizr.Tools.C72_empty_token", "Aktualizr.Tools.C72_blank_in_address", "Aktualizr.Tools.C72_push", "Aktualizr.Tools.C72_check", "Aktualizr.Tools.C72_deploy", "Aktualizr.Tools.C72_credentials"], "note": "For every run of the three tools, whatever the outcome. Requests of garage-deploy to the source repository are not modelled except for its token."},
 {"property": "C73", "status": "proved", "theorems": ["Aktualizr.C73_image", "Aktualizr.C73_custom_image", "Aktualizr.C73_add_target", "Aktualizr.C73_get_target", "Aktualizr.C73_sign_targets", "Aktualizr.C73_empty_targets", "Aktualizr.C73_old_targets", "Aktualizr.C73_refresh_targets", "Aktualizr.C73_refresh_root", "Aktualizr.C73_generate", "Aktualizr.C73_empty_role_name", "Aktualizr.C73_add_delegation", "Aktualizr.C73_revoke_delegation", "Aktualizr.C73_snapshot"], "note": "Images for a role with an empty name go to the top-level Targets (C73_empty_role_name); length of custom images stated below 2^32 (C70_length_cut). File system and key generation are inputs."},
 {"property": "C74", "status": "partial", "theorems": ["Aktualizr.SecOst.C74_deploys_authorised", "Aktualizr.SecOst.C74_fetches_authorised", "Aktualizr.SecOst.C74_download_answer", "Aktualizr.SecOst.C74_current_partial", "Aktualizr.SecOst.C74_manifest", "Aktualizr.SecOst.C74_deployed_again", "Aktualizr.SecOst.C74_crash_unrecorded", "Aktualizr.SecOst.C74_without_sha256", "Aktualizr.SecOst.C74_mixed_keys", "Aktualizr.SecOst.C74_without_keys", "Aktualizr.SecOst.C74_restart_skips_image_repository", "Aktualizr.SecOst.C74_completes", "Aktualizr.SecOst.C74_rolled_back", "Aktualizr.SecOst.C74_download_proceeds", "Aktualizr.SecOst.C74_install_proceeds"], "note": "Deployment, fetching, manifest, and progress: proved for all histories (manifest for devices whose reboot detection works at every start). Missing: that what is established stays approved by the Image repository after a restart (false: C74_restart_skips_image_repository), that a current version booted when reboot detection fails at some start or a target has malformed hashes, and the credentials when an archive has an empty key file (false: C74_mixed_keys, C74_without_keys). Deviations: C74_deployed_again, C74_crash_unrecorded, C74_without_sha256."},
 {"property": "C75", "status": "proved", "theorems": ["Aktualizr.C75_secondary_entries", "Aktualizr.C75_serial_unchecked", "Aktualizr.C75_invalid_left_out", "Aktualizr.C75_new_key_drops", "Aktualizr.Man.C75_document", "Aktualizr.Man.C75_document_made", "Aktualizr.Man.C75_read_back", "Aktualizr.Man.C75_image_booted", "Aktualizr.Man.C75_image_recorded", "Aktualizr.Prov.C75_registered_key", "Aktualizr.Prov.C75_verifiable", "Aktualizr.C75_passed_on", "Aktualizr.C75_last_known"], "note": "All parts proved, for signature schemes in which no message has an empty signature. Deviations next to the claim: C75_serial_unchecked, C75_invalid_left_out, C75_new_key_drops."},
 {"property": "C76", "status": "proved", "theorems": ["Aktualizr.SecId.C76_same_identity", "Aktualizr.SecId.C76_chosen", "Aktualizr.SecId.C76_manifest", "Aktualizr.SecId.C76_import_lost", "Aktualizr.SecId.C76_stale_name", "Aktualizr.SecId.C76_type_changed", "Aktualizr.SecId.C76_restart", "Aktualizr.SecId.C76_answers", "Aktualizr.SecId.C76_refines", "Aktualizr.SecId.C76_installs", "Aktualizr.SecId.C76_reported", "Aktualizr.SecId.C76_first_start"], "note": "All parts proved, for the file update agent with keys in the database; manifests for lives with one configured key type whose keys work. Deviations next to the claim: C76_import_lost, C76_stale_name, C76_type_changed."},
 {"property": "C77", "status": "proved", "theorems": ["Aktualizr.Pair.C77_life", "Aktualizr.Pair.C77_installed", "Aktualizr.Pair.C77_metadata", "Aktualizr.Pair.C77_told", "Aktualizr.Pair.C77_lost_answer", "Aktualizr.Pair.C77_lost_chunk", "Aktualizr.Pair.C77_update", "Aktualizr.Pair.C77_heard", "Aktualizr.Pair.C77_round", "Aktualizr.Pair.C77_left_behind", "Aktualizr.Pair.C77_stuck"], "note": "All parts proved for the file update agent and protocol version 2, with a network that loses whole requests or answers. C77_installed assumes that listed hashes bind the length and that writes do not lose data unnoticed (see C27). Deviations next to the claim: C77_lost_answer, C77_lost_chunk."},
 {"property": "C78", "status": "partial", "theorems": ["Aktualizr.CertProv.C78_local", "Aktualizr.CertProv.C78_target_partial", "Aktualizr.CertProv.C78_failure", "Aktualizr.CertProv.C78_requests", "Aktualizr.CertProv.C78_failure_hidden", "Aktualizr.CertProv.C78_not_imported", "Aktualizr.CertProv.C78_half", "Aktualizr.CertProv.C78_ca_mismatch", "Aktualizr.CertProv.C78_no_address", "Aktualizr.CertProv.C78_relative_address", "Aktualizr.CertProv.C78_device", "Aktualizr.CertProv.C78_device_target_partial", "Aktualizr.CertProv.C78_fleet_id", "Aktualizr.CertProv.C78_server"], "note": "Proved for the local directory; for the target only if every transfer works, as the program hides failures of ssh (C78_failure_hidden). That a device uses the files assumes paths for importing in the configuration and different names of the files (C78_not_imported); the address needs an absolute path (C78_relative_address). C78_failure states exactly what may be left after a failure (C78_half)."},
 {"property": "C79", "status": "partial", "theorems": ["Aktualizr.Info.C79_name_only_misled", "Aktualizr.Info.C79_pub_key_alone", "Aktualizr.Info.C79_torn", "Aktualizr.Info.C79_delegations_hidden", "Aktualizr.Info.C79_not_booted", "Aktualizr.Info.C79_true", "Aktualizr.Info.C79_provisioned", "Aktualizr.Info.C79_never_provisioned", "Aktualizr.Info.C79_report", "Aktualizr.Info.C79_name", "Aktualizr.Info.C79_secrets", "Aktualizr.Info.C79_answers", "Aktualizr.Info.C79_wait", "Aktualizr.Info.C79_wait_ends"], "note": "C79_true, C79_secrets, C79_answers, C79_report, C79_name, C79_wait, C79_wait_ends and C79_provisioned hold for all inputs of the model. Partial: the full statement is false where C79_name_only_misled, C79_pub_key_alone, C79_torn, C79_delegations_hidden, C79_not_booted and C79_never_provisioned show; C79_answers leaves out --ecu-pub-key."},
 {"property": "C80", "status": "proved", "theorems": ["Aktualizr.C80_completed"], "note": "Forward execution of the cycle and of the start after it, each with a bound on the number of effects before the process dies. The targets have well-formed hashes and custom data that parses again, and the versions recorded before can be read (as in C21). Secondaries that complete the installation later are in C82."},
 {"property": "C81", "status": "partial", "theorems": ["Aktualizr.C81_asked", "Aktualizr.C81_printed_partial", "Aktualizr.C81_answered", "Aktualizr.C81_harmless", "Aktualizr.C81_broken"], "note": "Proved: who is asked and how (C81_asked), what is printed (C81_printed_partial, C81_answered), no effect on the next start (C81_harmless). Missing because the code violates it: a third attempt that breaks off after a status of 200 is printed, and success reported (C81_broken)."},
 {"property": "C82", "status": "proved", "theorems": ["Aktualizr.C82_completed", "Aktualizr.C82_rebooted"], "note": "Forward execution of the cycle, of restarts and of checks for updates in any sequence, each with a bound on the number of effects before the process dies. Conditions on the targets and stored versions as in C80. Answers of the package manager's finalize other than success are not covered here (C18, C21)."},
 {"property": "C83", "status": "partial", "theorems": ["Aktualizr.C83_manifest", "Aktualizr.C83_check", "Aktualizr.C83_download_partial", "Aktualizr.C83_install_partial", "Aktualizr.C83_open", "Aktualizr.C83_read", "Aktualizr.C83_name", "Aktualizr.C83_download_zero", "Aktualizr.C83_install_zero", "Aktualizr.C83_check_null", "Aktualizr.C83_null_target", "Aktualizr.C83_read_huge"], "note": "Checks, manifests, opening, reading and names: proved for all states and answers (C83_check, C83_manifest, C83_open, C83_read for sizes below 2^63, C83_name for names without zero bytes). Missing because false: 0 returned by Aktualizr_download_target and Aktualizr_install_target does not mean success (C83_download_zero, C83_install_zero); proved instead that the outcome is stored for the next manifest. Further findings: C83_check_null, C83_null_target, C83_read_huge."},
 {"property": "C84", "status": "partial", "theorems": ["Aktualizr.Curl.C84_get_partial", "Aktualizr.Curl.C84_post_partial", "Aktualizr.Curl.C84_put_partial", "Aktualizr.Curl.C84_download_partial", "Aktualizr.Curl.C84_server_checked", "Aktualizr.Curl.C84_defined_partial", "Aktualizr.Curl.C84_reset_undefined", "Aktualizr.Curl.C84_failed_change", "Aktualizr.Curl.C84_more_trusted", "Aktualizr.Curl.C84_login_lost", "Aktualizr.Curl.C84_body_cut", "Aktualizr.Curl.C84_download_lacks", "Aktualizr.Curl.C84_cert_in_device", "Aktualizr.Curl.C84_copy"], "note": "For all sequences of calls: no request without checking the server (C84_server_checked); GET, POST, PUT and downloads carry exactly the credentials, proxy, login, limit, headers, URL and body last given (C84_get_partial, C84_post_partial, C84_put_partial, C84_download_partial), for texts without zero bytes, logins with name and password, and credentials that were set successfully; no undefined behaviour unless a download is under way (C84_defined_partial). Missing because false: C84_reset_undefined, C84_failed_change, C84_more_trusted, C84_login_lost, C84_body_cut, C84_download_lacks, C84_cert_in_device, C84_copy."},
 {"property": "C85", "status": "partial", "theorems": ["Aktualizr.C85_exact", "Aktualizr.C85_in_order", "Aktualizr.C85_all_partial", "Aktualizr.C85_terminating", "Aktualizr.C85_empty_role", "Aktualizr.C85_fifth_level"], "note": "For every tree of roles the loop ends and gives exactly the targets of a recursive specification, a prefix of all targets in order; all of them if every role has targets, no delegation is terminating and there are at most four levels. The unconditional statement is false: witnesses for terminating delegations, the fifth level, roles without targets."},
 {"property": "C86", "status": "partial", "theorems": ["Aktualizr.Conf.C86_secondary_partial", "Aktualizr.Conf.C86_starts", "Aktualizr.Conf.C86_server_port", "Aktualizr.Conf.C86_info", "Aktualizr.Conf.C86_agree", "Aktualizr.Conf.C86_info_boot", "Aktualizr.Conf.C86_port"], "note": "Exact values of all options of aktualizr-secondary whenever it starts, exactly when it starts, exact values for aktualizr-info and its agreement with the Primary. The full statement is false: with --server-port the Secondary never starts."},
 {"property": "C87", "status": "partial", "theorems": ["Aktualizr.C87_pack", "Aktualizr.C87_removed", "Aktualizr.C87_rest_partial", "Aktualizr.C87_fails", "Aktualizr.C87_forgets_partial", "Aktualizr.C87_handover", "Aktualizr.C87_nothing", "Aktualizr.C87_cut", "Aktualizr.C87_lost", "Aktualizr.C87_full_disk"], "note": "Reading what was packed, removal of exactly the named file from every sound archive with exactly when it fails, the end of provisioning, and the handover to an OSTree Secondary. The full statement is false for damaged archives and full disks: witnesses C87_cut, C87_lost, C87_full_disk."},
 {"property": "C88", "status": "partial", "theorems": ["Aktualizr.C88_names", "Aktualizr.C88_content_partial", "Aktualizr.C88_type_partial", "Aktualizr.C88_missing", "Aktualizr.C88_found", "Aktualizr.C88_directory", "Aktualizr.C88_valid_partial", "Aktualizr.C88_redirect", "Aktualizr.C88_old_tail", "Aktualizr.C88_other_type"], "note": "For every server and every sequence of requests in an empty directory: content, exact success, what a failure leaves. The full statement is false: redirects, directories used again, types (witnesses C88_redirect, C88_old_tail, C88_other_type)."},
 {"property": "C89", "status": "partial", "theorems": ["Aktualizr.C89_comes_up_partial", "Aktualizr.C89_stays", "Aktualizr.C89_rolled_back", "Aktualizr.C89_tried", "Aktualizr.C89_not_before", "Aktualizr.C89_not_announced", "Aktualizr.C89_not_confirmed", "Aktualizr.C89_tries_again", "Aktualizr.C89_generic_interrupted"], "note": "C89_comes_up_partial needs fw_setenv not to fail, because its failures are only logged and the claim is false otherwise (C89_not_announced, C89_not_confirmed); deaths between two calls are included. Proved without gap: a confirmed image stays in the mode uboot_masked (C89_stays; false for uboot_generic: C89_generic_interrupted), a rollback lasts until the next installation (C89_rolled_back), a new image gets its boots and is confirmed (C89_tried, C89_not_before). C89_tries_again: a failed installation makes the device try a bad image again. U-Boot itself is an assumption taken from the documentation."},
 {"property": "C90", "status": "partial", "theorems": ["Aktualizr.C90_once", "Aktualizr.C90_only", "Aktualizr.C90_shutdown_partial", "Aktualizr.C90_last_cycle", "Aktualizr.C90_queued", "Aktualizr.C90_can_end_partial", "Aktualizr.C90_dangling", "Aktualizr.C90_dangling_notify", "Aktualizr.C90_dangling_late", "Aktualizr.C90_carries_on", "Aktualizr.C90_first_cycle"], "note": "Proved for all interleavings: C90_once, C90_only, C90_queued, C90_last_cycle. C90_shutdown_partial needs the first cycle to have been reached (false otherwise: C90_first_cycle). C90_can_end_partial shows that a proper end remains possible from every reachable state until main destroys its object; that every execution ends properly is false (C90_dangling, C90_dangling_notify, C90_dangling_late: use after destruction), as is that no update is installed after Abort (C90_carries_on)."}
]}
