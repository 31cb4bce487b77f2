{
 "C01": {
  "status": "proved",
  "note": "Acceptance is equivalent to threshold-many distinct authorised key ids with good signatures; key ids, not key material, are what is counted (C01_same_key_two_ids_counts_twice)."
 },
 "C02": {
  "status": "proved",
  "note": "Over all histories with crashes. Hypothesis FiledSanely excludes only a first Root with a negative version number; that case is shown to go wrong by C04_negative_version_counterexample."
 },
 "C03": {
  "status": "proved",
  "note": "Monotone newest version; no stored Root removed or overwritten as long as the newest one is not filed above its own version."
 },
 "C04": {
  "status": "proved",
  "note": "Bound and success condition hold for starting Roots with a positive (non-negative) version number; counterexample for negative ones."
 },
 "C05": {
  "status": "partial",
  "note": "No rollback below the stored version in a check or history without Root rotation (integer versions >= 0), rollback error and storage unchanged otherwise. Missing: a rotation in the same check clears the stored Targets, so a lower version is accepted although the stored one still verifies (C05_rotation_forgets); accepted-but-empty Targets are not stored, so the accepted (not stored) version may decrease (C05_accepted_version_may_decrease)."
 },
 "C06": {
  "status": "partial",
  "note": "Proved in full for the Image repository. Director: everything except that the previous Targets, kept in use when the fetched one is empty, may be expired (C06_director_previous_may_be_expired)."
 },
 "C07": {
  "status": "partial",
  "note": "No ECU twice in the Targets in use; the fetched Targets has no delegation. The previous Targets kept in use when the fetched one is empty may contain delegations (C07_previous_may_delegate)."
 },
 "C08": {
  "status": "proved",
  "note": "Chain Timestamp -> Snapshot -> Targets stated on the JSON documents. If the Snapshot does not list targets.json at all, the expected version is -1 and no hash is checked (visible in SnapshotVouches)."
 },
 "C09": {
  "status": "partial",
  "note": "Timestamp: monotone over all histories. Snapshot and Targets: false (C09_snapshot_rollback_accepted); proved instead that they follow what the Timestamp announces."
 },
 "C11": {
  "status": "proved",
  "note": "MatchTarget is equivalent to the specification (same name, a common hash algorithm with no disagreement, compatible hardware ids, same length) and is symmetric."
 },
 "C12": {
  "status": "partial",
  "note": "A found target lies on a chain of trusted delegations of depth at most 5 whose path patterns match; the number of fetches is bounded. False part: a terminating delegation does not stop the search of its later siblings (C12_terminating_does_not_stop_siblings)."
 },
 "C13": {
  "status": "partial",
  "note": "A delegated Targets is pinned to the Snapshot when the Snapshot lists it; an unlisted one is accepted without hash or version check (C13_unlisted_accepted)."
 },
 "C30": {
  "status": "proved",
  "note": "Exact characterisation (iff) of the lists that survive the round trip; every list of SHA256/SHA512 hashes with upper-cased text free of ';' does. Hash text is not checked to be hexadecimal (C30_non_hex_text_changes)."
 },
 "C31": {
  "status": "proved",
  "note": "Round trip for every code whose text can be written; a write is refused exactly when the text contains a double quote."
 },
 "C15": {
  "status": "partial",
  "note": "At most one current and one pending row per ECU over all sequences, other ECUs untouched; the recorded version becomes current for targets that have a sha256 (or are new). Missing: versions are identified by (name, sha256) only, so re-recording a target that differs only in other hashes keeps the old record (C15_sha512_only_stays_old); versions recorded for the Primary under an empty serial are counted apart from its real serial until ECU serials are stored (C15_lazy_serial_two_current)."
 },
 "C16": {
  "status": "proved",
  "note": "Over all sequences of recordings: the log of every ECU is only extended or its rows re-flagged, never removed or reordered; an installed row stays installed; the current version is in the log."
 },
 "C10": {
  "status": "proved",
  "note": "Every offered target: listed by the Director's signed Targets for the same ECUs, matched by an entry of the Image repository's signed Targets or of a delegation at most five signed, Snapshot-vouched, unexpired delegations away. Converse: every Director target that is new for some ECU is offered."
 },
 "C14": {
  "status": "proved",
  "note": "Whenever a check does not report an error. The client is stricter than claimed: a Director target adding a second ECU to a file already installed on the first is rejected as content mismatch (C14_same_file_second_ecu_rejected)."
 },
 "C20": {
  "status": "partial",
  "note": "Success iff all stored ECU results are successes of managed ECUs, failure names every failed ECU. Needs-completion only proved when no earlier ECU result failed; otherwise the failure hides it and the drop of Director targets follows (C20_failure_hides_completion). An ECU without a stored result is not considered by the function."
 },
 "C25": {
  "status": "partial",
  "note": "Director: the offline check asks everything the online check does. Image repository: the same holds for a successful repository check, but the client ignores its failure, so an available answer only implies everything up to the hashes of Targets; expired Targets and Targets of another version than the Snapshot lists are accepted (C25_expired_targets_accepted, C25_wrong_version_accepted)."
 },
 "C24": {
  "status": "partial",
  "note": "Proved for every installation, every server, Secondary and package manager behaviour. Missing: OSTree targets for Secondaries are not verified by the Primary (C24_ostree_secondary_unverified), and re-verification of metadata has the gap described under C25."
 },
 "C18": {
  "status": "partial",
  "note": "Proved over all histories of calls, starts, crashes anywhere and cycles of the daemon (C18_life_partial) in which no ECU is Primary at one time and Secondary at another. When roles change, counters repeat: C18_role_change_repeats."
 },
 "C19": {
  "status": "partial",
  "note": "Device result: proved in full over all histories, with cycles of the daemon (C19_life_device_result). ECU results: reported and kept as long as a device result is stored too; without one they are not reported and are erased by the next acknowledged manifest (C19_ecu_result_lost)."
 },
 "C47": {
  "status": "proved",
  "note": "Over all stored Roots, server and Secondary answers and crash points."
 },
 "C50": {
  "status": "proved",
  "note": "For all lists of ECUs with distinct, storable identifiers (no NUL characters)."
 },
 "C17": {
  "status": "partial",
  "note": "Nothing lost, order and exact delivery proved for every history; 'never sent again' holds except for a crash between the server's answer and the deletion (C17_crash_resends)."
 },
 "C22": {
  "status": "partial",
  "note": "Proved for every stored state, chunking, interruption and server for non-empty Targets when the file system takes what is written, and for batches whose Targets share no file; empty Targets, failing writes and shared files are refuted by witnesses."
 },
 "C23": {
  "status": "proved",
  "note": "Targets with at least one hash and a readable image directory; without hashes the code reads past the end (C23_no_hash_undefined)."
 },
 "C48": {
  "status": "partial",
  "note": "Proved when length + 1 MiB does not wrap around 2^64; C48_overflow shows the wrap. If statvfs fails the code downloads anyway."
 },
 "C44": {
  "status": "proved",
  "note": "Every limit, response and chunking; libcurl's own transfer logic is not modelled."
 },
 "C32": {
  "status": "partial",
  "note": "Chronological order proved for all pairs of instants with four-digit years. Malformed text of 20 characters ending in Z is accepted (C32_malformed_never_expires)."
 },
 "C33": {
  "status": "partial",
  "note": "Round trip proved for all byte strings. Decoding leaves its buffers for some texts: exactly those described in C33_decode_exact, an equivalence over all texts."
 },
 "C34": {
  "status": "proved",
  "note": "Every byte string."
 },
 "C46": {
  "status": "partial",
  "note": "Every content and crash point of the process, when all bytes can be written. A full disk truncates (C46_full_disk_truncates). Loss of unsynced data by a power cut is not modelled."
 },
 "C35": {
  "status": "partial",
  "note": "Every string of up to 1000 bytes, every boolean and exactly the integers described by ComesBack (C35_integer_exact, an equivalence over all 32 bit integers, for signed and for unsigned char) read back as written, alone, in lists and inside a sequence, and a sequence is accepted only with its end; the other integers are shown to come back changed or not at all, longer strings decode but the position behind them is wrong for every one of them (C35_long_string_not_consumed), a nested sequence cannot be followed by anything, and the decoder reads outside its input (witnesses)."
 },
 "C37": {
  "status": "partial",
  "note": "Bytes are handed out in the order in which they were put in, none lost or doubled, over all sequences of operations; the buffer is never overrun by what fits. Missing: the result -1 of recv is passed on as a size (shown by a witness)."
 },
 "C38": {
  "status": "proved",
  "note": "The bounds on concurrency and waiting hold after every history of results; recovery and detection of a failed server."
 },
 "C51": {
  "status": "partial",
  "note": "The server goes on after every connection whose reads never fail at a message boundary, stops otherwise only to reboot, and hands to the handler only messages that were decoded; a reset at a message boundary ends the process (shown by a witness)."
 },
 "C39": {
  "status": "proved",
  "note": "For every graph, schedule and failure pattern of the default mode; also: only objects of the commit are sent, no stale iterator is used, success is reported only if the server confirmed the commit, dry runs send nothing."
 },
 "C40": {
  "status": "proved",
  "note": "Never stuck for every graph without cycles; the commit is confirmed when the loop ends without abort; launches and settled requests bounded by six per object plus one for every failed response, so the push ends if the server fails finitely often."
 },
 "C52": {
  "status": "partial",
  "note": "Holds when the server has none of the objects. Missing: it fails as soon as a child of a missing object is already on the server (C52_missing_commit_not_sent)."
 },
 "C28": {
  "status": "proved",
  "note": "Over all interleavings of the steps under each lock: order, at most once, never while paused or aborting, nothing lost; progress of the head of the queue and of an abort. Trusted: condition variables lose no wake-up. An abort leaves the queue paused (C28_abort_stays_paused)."
 },
 "C29": {
  "status": "proved",
  "note": "State after every sequence of calls; stickiness; reported results; the running command's token agrees with the queue."
 },
 "C26": {
  "status": "partial",
  "note": "Full for histories without restart (C26_running). After a restart only the stored Director metadata is checked: C26_restart_skips_image_repository is a counterexample, so C26_partial allows that source."
 },
 "C27": {
  "status": "partial",
  "note": "C27_partial for every history of requests, faults, crashes and restarts in which no write is lost without notice; C27_unnoticed_loss shows the exclusion is needed. C27_any_split: every chunking installs. Findings: stuck after a wrong upload, null hasher after a restart."
 },
 "C45": {
  "status": "proved",
  "note": "Refinement of three maps by the tables for every history of writing calls, including the clean-up at opening; blobs with a NUL are cut when read (C45_nul_cuts)."
 },
 "C21": {
  "status": "partial",
  "note": "Proved for every history of installations, starts and reboots with crashes anywhere, when reboot detection works at every start and Targets carry a well-formed SHA-256 hash. Without that the full claim is false (C21_unsupported_then_supported). A finalisation that dies after clearing the flag leaves the update pending for good (C21_crash_stuck)."
 },
 "C49": {
  "status": "partial",
  "note": "Exact for every history of uninterrupted calls, except that default hardware information is sent only once (C49_default_hwinfo_once, documented in the code). A process dying between acknowledgement and storing the hash breaks both directions (C49_crash_lost, C49_crash_resent); what remains is C49_suppressed_was_acked. SHA-256 collisions among the texts are excluded by hypothesis."
 },
 "C42": {
  "status": "partial",
  "note": "Success means: the chunks sent joined are exactly the image, of exactly the announced length, each of 1..1024 bytes; sent data is always a prefix; uploads of images at least as long as announced end, and succeed with aktualizr-secondary (C42_file_secondary: after sendFirmware and install the Secondary's image is the file). Termination for every image is false: a file shorter than announced is uploaded for ever (C42_endless for any accepting peer, C42_endless_file_secondary for aktualizr-secondary)."
 },
 "C43": {
  "status": "partial",
  "note": "Highest common version for every answer in 1..2^32-1, unchanged when unreachable, 1 for peers that only answer getInfo, never above 2 along any history, messages of each version only under that version. 'Always a supported version' is false: an answer 0 (or multiple of 2^32) is taken over (C43_zero) and disables updates until the next negotiation (C43_zero_refused)."
 },
 "C53": {
  "status": "proved",
  "note": "The table copies of every script are checked once against the definitions (check_sound, trace_sound in Lemmas/Sql) and the result holds for every content. Programs of version 19 or older are not covered by the claim: C53_back_stuck proves that rollback.20.sql fails as soon as an image was installed again after another one, and that opening the storage does not report it."
 },
 "C36": {
  "status": "partial",
  "note": "Old or new database at every crash and failure point, retry, completion: proved. Missing: opening the storage does not report a migration that failed (dbMigrate ignores the results, sqlstorage_base.cc:236-241); C36_failure_hidden, C36_backward_failure_hidden and C36_not_reported prove the negation."
 },
 "C41": {
  "status": "partial",
  "note": "For every server, every sequence of starts and every crash point: keys and report counters never change once stored (C41_keys, C41_counter); the device id stays unless the server refused it as already registered in the same start (C41_device_id), stays for good once there are complete credentials (C41_provisioned) or with device credentials (C41_device_cred); ECU lists change only to the configured one and only after the server accepted it (C41_ecus_accepted), never with a fixed configuration (C41_same_config, C41_first); what a successful start leaves (C41_success), also about the Secondaries (C41_secondaries). Completion (C41_completes_partial, C41_completes_from_partial) needs a server that accepts a repeated registration: with one that does not it is false, witnesses C41_lost_answer (no start ever succeeds again), C41_half_credentials, C41_id_changes; further deviations: C41_flag_lost, C41_old_hardware_id, C41_swap, C41_empty_import, C41_equal_serials."
 },
 "C54": {
  "status": "partial",
  "note": "C54_requests for every server, state and crash point; removal of the shared credentials by a start that succeeds is the last part of C41_success. False after a crash just before the removal: C54_shared_stay."
 },
 "C55": {
  "status": "partial",
  "note": "Kept: entry and content of every image of the last two Targets of an ECU, for every outcome and crash point, provided no other stored name shares the file; the current version is always among them (C55_current). Removed: all others when the clean-up succeeds. It succeeds when every stored name has its own file. Refuted: a shared file is lost (C55_shared_file_lost); an interrupted clean-up, or a missing file, makes all later ones fail (C55_crash_blocks, C55_missing_file_blocks)."
 },
 "C56": {
  "status": "partial",
  "note": "Proved for all histories in which the process does not die between replacing the image and recording the version; then the old name is reported (C27_crash_leaves_old_name)."
 },
 "C57": {
  "status": "proved",
  "note": "Exact for installation; for metadata and firmware both what was sent and what was answered. Any behaviour of the other side."
 },
 "C58": {
  "status": "partial",
  "note": "Proved for one cycle and for whole lives of calls, cycles, restarts and crashes, from given Roots or from the first ones. Missing: the gaps of C24 and C25 (OSTree targets of Secondaries are not verified; expiry and version of the stored Image repository Targets are not checked again)."
 },
 "C59": {
  "status": "partial",
  "note": "Installations and mismatches: proved in full. Downloads: for a Director that changes its Targets only with their version number; otherwise C59_same_version_unreported. A check that fails for other reasons is not reported (C59_bad_metadata_unreported)."
 },
 "C60": {
  "status": "proved",
  "note": "C60_waits: any number of cycles after any life of the device. C60_completes: which cycles end the loop, both directions (the converse with stored serials of 1 to 64 bytes, as EcuSerial requires). C60_left_waiting (finding): an update already waiting when the daemon starts is not completed by it."
 },
 "C61": {
  "status": "proved",
  "note": "Servers answer every request in the same way during the check; fuel (crash budget) is given as a bound linear in the length of the Root chains and the number of delegated roles. Delegated roles: all roles the search may follow before it finds the image are assumed genuine."
 },
 "C62": {
  "status": "proved",
  "note": "Forward execution of a whole cycle for genuine metadata (including images listed by delegated roles) and helpful peers, with an explicit bound on the number of effects. Installations that need a reboot of the Primary: C80."
 },
 "C63": {
  "status": "partial",
  "note": "C63_same, C63_install_true, C63_download_true, C63_download, C63_finalize, C63_cycle_true hold as stated. C63_install_partial and C63_cycle_partial describe the events as they are; the statement fails for the event of a Secondary that waits for a reboot (C63_secondary_waiting_event_negative), for checks while an update is pending (C63_pending_check_silent) and for installations that throw (C63_throwing_install_silent). A Secondary's thread is modelled as running as a whole; progress events are not modelled."
 },
 "C64": {
  "status": "partial",
  "note": "Identity, manifests and installations hold if the disk is never full and an installation does not die half-way (witnesses otherwise). Acceptance of metadata is characterised and accepts what the Primary verified; the chain of Roots is not checked by the code, nor is the Image repository (witnesses)."
 },
 "C65": {
  "status": "partial",
  "note": "Known Secondaries are there after a start, as they answered or as on record (C65_known); where every identity comes from (C65_identity); a Secondary neither known nor reachable stops the start (C65_refuses); all members, distinct serials (C65_members); addresses are read as stated (C65_address); a device with all addresses on record starts without network (C65_starts), and a start followed by a registration leaves them on record, so the next start has the same Secondaries (C65_again). Partial: completeness needs different keys for different addresses and possible answers (C65_complete_partial; witnesses C65_keys_collide, C65_improper_is_missing), exclusiveness that no stranger connects (C65_only_partial; witness C65_stranger_added). Further deviations: C65_twice, C65_silent_becomes_unknown, C65_silent_stops, C65_replaced_is_forgotten, C65_port_cut."
 },
 "C66": {
  "status": "partial",
  "note": "Proved: a migration that returns leaves a copy of every field and no file (C66_keeps_partial), a crash or exception leaves the files or a copy (C66_nothing_lost_partial), proper files are migrated (C66_starts), once (C66_once), ECU list, installed versions, metadata are those of the files (C66_ecus, C66_versions, C66_metadata_partial), provisioning then sends nothing (C66_same_device). Refuted and therefore missing: completion after an interruption, Image Roots beyond the Director's latest version, an unversioned root.json over a crash, half key pairs, unread installation result; concrete witnesses C66_*."
 },
 "C67": {
  "status": "partial",
  "note": "All parts proved except that the written list is read back for campaigns of 4 GiB and more, which is false (C67_size_cut: sizes are written as 32 bit numbers)."
 },
 "C68": {
  "status": "partial",
  "note": "Precedence, listing, failures, sections and derived values proved for all files and command lines. Missing because false: --secondary-config-file cannot be used (C68_secondary_option), and the documented default of provision.mode is not the one used (C68_default_mode)."
 },
 "C69": {
  "status": "partial",
  "note": "Proved for every option except p11.tls_cacert_id, for which it is false (C69_cacert_lost), and for paths of storage and import without ampersands (false with them: C69_ampersand)."
 },
 "C70": {
  "status": "partial",
  "note": "Acceptance for every run and every earlier poll, for images listed in the top-level Image Targets or, while no delegation is revoked, in delegated roles, and Director Targets signed in the order they were staged; the unrestricted claim is refuted by the witnesses in C70Limits and C70DelegCase."
 },
 "C71": {
  "status": "partial",
  "note": "Success of garage-push (default mode), garage-check (both directions, without --walk-tree) and garage-deploy characterised for all answers; dry runs without --walk-tree. With --walk-tree and for the manifest the claim is refuted (C71_dry_run_pushes_ref, C71_walk_ignores_missing, C71_walk_missing_commit, C71_manifest_refused). NoBlanks: addresses in the credentials without white space."
 },
 "C72": {
  "status": "proved",
  "note": "For every run of the three tools, whatever the outcome. Requests of garage-deploy to the source repository are not modelled except for its token."
 },
 "C73": {
  "status": "proved",
  "note": "Images for a role with an empty name go to the top-level Targets (C73_empty_role_name); length of custom images stated below 2^32 (C70_length_cut). File system and key generation are inputs."
 },
 "C74": {
  "status": "partial",
  "note": "Deployment, fetching, manifest, and progress: proved for all histories (manifest for devices whose reboot detection works at every start). Missing: that what is established stays approved by the Image repository after a restart (false: C74_restart_skips_image_repository), that a current version booted when reboot detection fails at some start or a target has malformed hashes, and the credentials when an archive has an empty key file (false: C74_mixed_keys, C74_without_keys). Deviations: C74_deployed_again, C74_crash_unrecorded, C74_without_sha256."
 },
 "C75": {
  "status": "proved",
  "note": "All parts proved, for signature schemes in which no message has an empty signature. Deviations next to the claim: C75_serial_unchecked, C75_invalid_left_out, C75_new_key_drops."
 },
 "C76": {
  "status": "proved",
  "note": "All parts proved, for the file update agent with keys in the database; manifests for lives with one configured key type whose keys work. Deviations next to the claim: C76_import_lost, C76_stale_name, C76_type_changed."
 },
 "C77": {
  "status": "proved",
  "note": "All parts proved for the file update agent and protocol version 2, with a network that loses whole requests or answers. C77_installed assumes that listed hashes bind the length and that writes do not lose data unnoticed (see C27). Deviations next to the claim: C77_lost_answer, C77_lost_chunk."
 },
 "C78": {
  "status": "partial",
  "note": "Proved for the local directory; for the target only if every transfer works, as the program hides failures of ssh (C78_failure_hidden). That a device uses the files assumes paths for importing in the configuration and different names of the files (C78_not_imported); the address needs an absolute path (C78_relative_address). C78_failure states exactly what may be left after a failure (C78_half)."
 },
 "C79": {
  "status": "partial",
  "note": "C79_true, C79_secrets, C79_answers, C79_report, C79_name, C79_wait, C79_wait_ends and C79_provisioned hold for all inputs of the model. Partial: the full statement is false where C79_name_only_misled, C79_pub_key_alone, C79_torn, C79_delegations_hidden, C79_not_booted and C79_never_provisioned show; C79_answers leaves out --ecu-pub-key."
 },
 "C80": {
  "status": "proved",
  "note": "Forward execution of the cycle and of the start after it, each with a bound on the number of effects before the process dies. The targets have well-formed hashes and custom data that parses again, and the versions recorded before can be read (as in C21). Secondaries that complete the installation later are in C82."
 },
 "C81": {
  "status": "partial",
  "note": "Proved: who is asked and how (C81_asked), what is printed (C81_printed_partial, C81_answered), no effect on the next start (C81_harmless). Missing because the code violates it: a third attempt that breaks off after a status of 200 is printed, and success reported (C81_broken)."
 },
 "C82": {
  "status": "proved",
  "note": "Forward execution of the cycle, of restarts and of checks for updates in any sequence, each with a bound on the number of effects before the process dies. Conditions on the targets and stored versions as in C80. Answers of the package manager's finalize other than success are not covered here (C18, C21)."
 },
 "C83": {
  "status": "partial",
  "note": "Checks, manifests, opening, reading and names: proved for all states and answers (C83_check, C83_manifest, C83_open, C83_read for sizes below 2^63, C83_name for names without zero bytes). Missing because false: 0 returned by Aktualizr_download_target and Aktualizr_install_target does not mean success (C83_download_zero, C83_install_zero); proved instead that the outcome is stored for the next manifest. Further findings: C83_check_null, C83_null_target, C83_read_huge."
 },
 "C84": {
  "status": "partial",
  "note": "For all sequences of calls: no request without checking the server (C84_server_checked); GET, POST, PUT and downloads carry exactly the credentials, proxy, login, limit, headers, URL and body last given (C84_get_partial, C84_post_partial, C84_put_partial, C84_download_partial), for texts without zero bytes, logins with name and password, and credentials that were set successfully; no undefined behaviour unless a download is under way (C84_defined_partial). Missing because false: C84_reset_undefined, C84_failed_change, C84_more_trusted, C84_login_lost, C84_body_cut, C84_download_lacks, C84_cert_in_device, C84_copy."
 },
 "C85": {
  "status": "partial",
  "note": "For every tree of roles the loop ends and gives exactly the targets of a recursive specification, a prefix of all targets in order; all of them if every role has targets, no delegation is terminating and there are at most four levels. The unconditional statement is false: witnesses for terminating delegations, the fifth level, roles without targets."
 },
 "C86": {
  "status": "partial",
  "note": "Exact values of all options of aktualizr-secondary whenever it starts, exactly when it starts, exact values for aktualizr-info and its agreement with the Primary. The full statement is false: with --server-port the Secondary never starts."
 },
 "C87": {
  "status": "partial",
  "note": "Reading what was packed, removal of exactly the named file from every sound archive with exactly when it fails, the end of provisioning, and the handover to an OSTree Secondary. The full statement is false for damaged archives and full disks: witnesses C87_cut, C87_lost, C87_full_disk."
 },
 "C88": {
  "status": "partial",
  "note": "For every server and every sequence of requests in an empty directory: content, exact success, what a failure leaves. The full statement is false: redirects, directories used again, types (witnesses C88_redirect, C88_old_tail, C88_other_type)."
 },
 "C89": {
  "status": "partial",
  "note": "C89_comes_up_partial needs fw_setenv not to fail, because its failures are only logged and the claim is false otherwise (C89_not_announced, C89_not_confirmed); deaths between two calls are included. Proved without gap: a confirmed image stays in the mode uboot_masked (C89_stays; false for uboot_generic: C89_generic_interrupted), a rollback lasts until the next installation (C89_rolled_back), a new image gets its boots and is confirmed (C89_tried, C89_not_before). C89_tries_again: a failed installation makes the device try a bad image again. U-Boot itself is an assumption taken from the documentation."
 },
 "C90": {
  "status": "partial",
  "note": "Proved for all interleavings: C90_once, C90_only, C90_queued, C90_last_cycle. C90_shutdown_partial needs the first cycle to have been reached (false otherwise: C90_first_cycle). C90_can_end_partial shows that a proper end remains possible from every reachable state until main destroys its object; that every execution ends properly is false (C90_dangling, C90_dangling_notify, C90_dangling_late: use after destruction), as is that no update is installed after Abort (C90_carries_on)."
 }
}
