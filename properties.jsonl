{"id": "C01", "title": "Metadata is accepted only with a threshold of distinct authorised signatures", "statement": "Whenever verification of a signed metadata document for a role succeeds, the document carries valid signatures by at least `threshold` different key ids, each listed in the trusted key set and authorised for that role, where 1 <= threshold <= 1000 is the trusted threshold of the role; the document's declared type is that role. Conversely a well-formed document with that many valid authorised signatures (no repeated key id, only supported methods) is accepted.", "quantifier": "every signed JSON document, every trusted key/role table, every signature-verification function", "why_tests_cant": "The space of documents, signature lists (repeats, unknown ids, unauthorised ids, ordering) and key tables is infinite; tests sign a few fixtures.", "anchors": ["src/libaktualizr/uptane/metawithkeys.cc:UnpackSignedObject", "src/libaktualizr/uptane/metawithkeys.cc:ParseKeys", "src/libaktualizr/uptane/metawithkeys.cc:ParseRole", "src/libaktualizr/uptane/root.cc:Root"]}
{"id": "C02", "title": "Root of trust only moves along a doubly signed chain", "statement": "Starting from any stored Root, every Root the client stores afterwards carries exactly the next version number and is signed by a threshold of the keys of the Root stored just before it and by a threshold of its own keys, whatever the server sends and wherever the process is killed.", "quantifier": "every sequence of update attempts, every server behaviour, every crash point", "why_tests_cant": "Adversarial server answers and crash points form unbounded histories.", "anchors": ["src/libaktualizr/uptane/uptanerepository.cc:updateRoot", "src/libaktualizr/uptane/uptanerepository.cc:verifyRoot", "src/libaktualizr/storage/sqlstorage.cc:storeRoot"]}
{"id": "C03", "title": "Stored Root version never decreases", "statement": "The version under which the newest Root is stored for a repository never decreases over any history of update attempts, including failed and interrupted ones, and no stored Root is overwritten by a different document under another version.", "quantifier": "every history of update attempts with arbitrary server answers and crashes", "why_tests_cant": "Needs an induction over histories; a test fixes one history.", "anchors": ["src/libaktualizr/uptane/uptanerepository.cc:updateRoot", "src/libaktualizr/storage/sqlstorage.cc:storeRoot", "src/libaktualizr/storage/sqlstorage.cc:loadRoot"]}
{"id": "C04", "title": "Root rotation work is bounded", "statement": "One update attempt fetches a bounded number of Root versions (fewer than 1000) even if the server keeps serving valid new Roots for ever, and when the attempt succeeds the trusted Root is the newest stored one and is unexpired.", "quantifier": "every server, every stored state", "why_tests_cant": "An endless stream of valid rotations cannot be run as a test.", "anchors": ["src/libaktualizr/uptane/uptanerepository.cc:updateRoot"]}
{"id": "C05", "title": "Director Targets never roll back below the stored version", "statement": "If an online check succeeds, the Director Targets it used have a version number at least as high as the Director Targets in storage at the start of the check, as long as those verify under the current Root; a lower version is rejected with a rollback error and storage is left unchanged. Over any history without Root rotation the stored Director Targets version never decreases.", "quantifier": "every stored state, every server answer, every history of checks", "why_tests_cant": "Every combination of stored/remote version, emptiness and signature validity across histories.", "anchors": ["src/libaktualizr/uptane/directorrepository.cc:updateMeta", "src/libaktualizr/storage/sqlstorage.cc:storeNonRoot"]}
{"id": "C06", "title": "A successful online check means all metadata used is fresh and properly signed", "statement": "If an online metadata update for a repository succeeds at some time, then the Root, and the Targets (Director), or the Timestamp, Snapshot and Targets (Image repository) it leaves in use are each signed to threshold under the Root in use and none is expired at that time.", "quantifier": "every server behaviour, stored state and clock value", "why_tests_cant": "Freshness must hold for every combination of cached and fetched documents.", "anchors": ["src/libaktualizr/uptane/directorrepository.cc:updateMeta", "src/libaktualizr/uptane/imagerepository.cc:updateMeta", "src/libaktualizr/uptane/tuf.h:isExpired"]}
{"id": "C07", "title": "Director instructions are sane", "statement": "After a successful Director metadata check no ECU serial is assigned by two targets and the Director's Targets contain no delegations.", "quantifier": "every Director Targets document", "why_tests_cant": "Any number of targets each naming any set of ECUs.", "anchors": ["src/libaktualizr/uptane/directorrepository.cc:targetsSanityCheck"]}
{"id": "C08", "title": "Image repository hash and version chain", "statement": "After a successful online Image repository check, the Snapshot in use has the version announced by the Timestamp and hashes to every supported hash the Timestamp lists for it (at least one); the top-level Targets in use has the version the Snapshot announces and hashes to every supported hash the Snapshot lists for it.", "quantifier": "every server behaviour, stored state, hash function", "why_tests_cant": "Chain must hold for any mix of cached and fetched documents.", "anchors": ["src/libaktualizr/uptane/imagerepository.cc:verifySnapshot", "src/libaktualizr/uptane/imagerepository.cc:verifyTargets", "src/libaktualizr/uptane/imagerepository.cc:verifyRoleHashes", "src/libaktualizr/uptane/imagerepository.cc:updateMeta"]}
{"id": "C09", "title": "Image repository metadata never rolls back", "statement": "Over any history of online checks in which the Image repository Root does not change, the versions of the stored Timestamp, Snapshot and Targets never decrease.", "quantifier": "every history of checks with every server behaviour", "why_tests_cant": "Requires reasoning over arbitrary histories of cached metadata.", "anchors": ["src/libaktualizr/uptane/imagerepository.cc:updateMeta", "src/libaktualizr/uptane/imagerepository.cc:verifySnapshot"]}
{"id": "C10", "title": "Every update offered is approved by both repositories", "statement": "Every target in the list of updates returned by an online check was listed by the verified Director Targets for that ECU and is matched by a target of equal file name, length and hashes listed in the verified Image repository Targets or in a delegation reached through signed, trusted delegations.", "quantifier": "every Director/Image metadata contents and delegation graph", "why_tests_cant": "Arbitrary target lists, hash sets and delegation trees.", "anchors": ["src/libaktualizr/primary/sotauptaneclient.cc:checkUpdates", "src/libaktualizr/primary/sotauptaneclient.cc:findTargetInDelegationTree", "src/libaktualizr/uptane/tuf.cc:MatchTarget"]}
{"id": "C11", "title": "Target matching is content equality", "statement": "Two targets match exactly when they have the same file name and length, agree on every hash algorithm both list and share at least one algorithm, and the hardware ids / ECU assignment of the Director side are allowed by the Image side; so a matched target always has at least one hash to check the download against.", "quantifier": "every pair of targets", "why_tests_cant": "All lists of hashes and hardware ids.", "anchors": ["src/libaktualizr/uptane/tuf.cc:MatchTarget", "src/libaktualizr/uptane/tuf.cc:MatchHash"]}
{"id": "C12", "title": "Delegation search is bounded and honours the delegation rules", "statement": "The search for a target through delegations terminates for every delegation graph, including cyclic ones; it returns only a target found at most 5 delegation levels deep along roles whose path patterns match the file name at each step, never from an expired delegation, and it never continues past a terminating delegation whose pattern matches.", "quantifier": "every delegation graph, cyclic or not, any width", "why_tests_cant": "Cyclic and exponentially large graphs cannot be enumerated.", "anchors": ["src/libaktualizr/primary/sotauptaneclient.cc:findTargetHelper", "src/libaktualizr/uptane/iterator.cc:getTrustedDelegation"]}
{"id": "C13", "title": "Delegated Targets are pinned to the Snapshot", "statement": "Whenever a delegated Targets role is used, the Snapshot lists it with exactly its version and every supported hash listed matches it, and it is signed to the threshold required by the delegating role with the delegating role's keys.", "quantifier": "every stored delegation, every server answer, every snapshot", "why_tests_cant": "Cached / refetched / rolled-back delegations in every combination.", "anchors": ["src/libaktualizr/uptane/iterator.cc:getTrustedDelegation", "src/libaktualizr/uptane/imagerepository.cc:verifyDelegation"]}
{"id": "C14", "title": "Only known ECUs with matching hardware receive updates", "statement": "When the client accepts the Director's list of targets, every ECU named in any target is registered on this device with exactly the hardware id named, and a file name already installed on an ECU is never offered with different content for that ECU.", "quantifier": "every Targets document, every set of registered ECUs, every installation history", "why_tests_cant": "All combinations of targets, ECUs and installed versions.", "anchors": ["src/libaktualizr/primary/sotauptaneclient.cc:getNewTargets"]}
{"id": "C15", "title": "At most one current and one pending version per ECU", "statement": "After any sequence of recorded installations (current, pending, or merely known) for any ECUs, each ECU has at most one current version and at most one pending version; recording a version as current makes exactly that version current and leaves no pending one; other ECUs are untouched.", "quantifier": "every sequence of calls, every ECU, every target", "why_tests_cant": "Unbounded sequences of recorded versions.", "anchors": ["src/libaktualizr/storage/sqlstorage.cc:saveInstalledVersion", "src/libaktualizr/storage/sqlstorage.cc:loadInstalledVersions"]}
{"id": "C16", "title": "Installation log only grows and keeps first-installed order", "statement": "Entries of the installation log for an ECU are never removed or reordered by later installations, and a version that was once installed stays reported as installed in the log.", "quantifier": "every sequence of recorded installations", "why_tests_cant": "Histories of any length.", "anchors": ["src/libaktualizr/storage/sqlstorage.cc:saveInstalledVersion", "src/libaktualizr/storage/sqlstorage.cc:loadInstallationLog"]}
{"id": "C17", "title": "No report event is lost, duplicated in storage or reordered before acknowledgement", "statement": "Every event handed to the report queue stays in persistent storage until a flush in which the server answers OK or 404 to a batch containing it; events are sent in the order they were enqueued; an acknowledged event is never sent again.", "quantifier": "every interleaving of enqueue, flush and crash, every server answer", "why_tests_cant": "Interleavings of enqueue and flush with failures.", "anchors": ["src/libaktualizr/primary/reportqueue.cc:flushQueue", "src/libaktualizr/primary/reportqueue.cc:enqueue", "src/libaktualizr/storage/sqlstorage.cc:saveReportEvent", "src/libaktualizr/storage/sqlstorage.cc:deleteReportEvents"]}
{"id": "C18", "title": "Manifest report counters strictly increase", "statement": "Any two manifests signed by an ECU of this device over its lifetime carry different, increasing report counters, even if the process is killed between incrementing and sending.", "quantifier": "every history of manifest assemblies and crashes", "why_tests_cant": "Crash points and histories.", "anchors": ["src/libaktualizr/primary/sotauptaneclient.cc:AssembleManifest", "src/libaktualizr/storage/sqlstorage.cc:saveEcuReportCounter", "src/libaktualizr/primary/initializer.cc:initEcuReportCounter"]}
{"id": "C19", "title": "Installation results are reported until acknowledged", "statement": "A stored device or ECU installation result is included in every manifest sent until a manifest is acknowledged by the server; it is erased only after an acknowledged send and never while an installation is pending.", "quantifier": "every history of manifest sends with any server answers", "why_tests_cant": "Arbitrary failure histories.", "anchors": ["src/libaktualizr/primary/sotauptaneclient.cc:putManifestSimple", "src/libaktualizr/storage/sqlstorage.cc:clearInstallationResults"]}
{"id": "C20", "title": "Device installation result aggregates ECU results correctly", "statement": "The device-level result computed from per-ECU results is a success only if every ECU assigned a target reported success, is 'needs completion' if some ECU still needs completion, and otherwise is a failure naming each failed ECU.", "quantifier": "every list of ECU results and every installed ECU set", "why_tests_cant": "All permutations of per-ECU outcomes.", "anchors": ["src/libaktualizr/primary/sotauptaneclient.cc:computeDeviceInstallationResult"]}
{"id": "C21", "title": "A pending installation is finalised only after a real reboot", "statement": "An update that needs a reboot is reported as installed only if the reboot flag was set when installing and the boot sentinel has disappeared (the device rebooted), and the booted version equals the pending target; otherwise it stays pending or is reported failed. This holds for every crash point between setting the two flags.", "quantifier": "every crash point and reboot history", "why_tests_cant": "Crash points between sentinel and flag writes.", "anchors": ["src/libaktualizr/bootloader/bootloader.cc:rebootDetected", "src/libaktualizr/bootloader/bootloader.cc:rebootFlagSet", "src/libaktualizr/primary/sotauptaneclient.cc:finalizeAfterReboot"]}
{"id": "C22", "title": "A downloaded image is kept only if its hash matches", "statement": "If a download is reported successful then the bytes stored for the target hash to the target's hash, for every splitting of the download into chunks, every interruption/pause/resume and every server misbehaviour; if it fails with a wrong hash the file is removed.", "quantifier": "every byte stream, chunking, interruption pattern and stored partial file", "why_tests_cant": "Infinite interleavings of partial downloads.", "anchors": ["src/libaktualizr/package_manager/packagemanagerinterface.cc:fetchTarget", "src/libaktualizr/package_manager/packagemanagerinterface.cc:DownloadHandler", "src/libaktualizr/package_manager/packagemanagerinterface.cc:restoreHasherState"]}
{"id": "C23", "title": "Image verification status is exact", "statement": "Verifying a downloaded target returns Good exactly when the stored file has the target's length and hash; NotFound, Oversized, Incomplete and HashMismatch are returned in exactly the corresponding other cases.", "quantifier": "every stored file content and target", "why_tests_cant": "All contents and lengths.", "anchors": ["src/libaktualizr/package_manager/packagemanagerinterface.cc:verifyTarget", "src/libaktualizr/package_manager/packagemanagerinterface.cc:checkTargetFile"]}
{"id": "C24", "title": "Nothing is installed without passing verification", "statement": "An install call hands an image to the package manager or to a Secondary only if the metadata stored on the device re-verifies and every requested image verifies as Good at that moment; a mismatch between requested and verified targets stops the installation before any ECU is touched.", "quantifier": "every list of requested updates and every storage content (e.g. tampered between download and install)", "why_tests_cant": "Tampering between check, download and install in any combination.", "anchors": ["src/libaktualizr/primary/sotauptaneclient.cc:uptaneInstall", "src/libaktualizr/primary/sotauptaneclient.cc:checkUpdatesOffline"]}
{"id": "C25", "title": "Offline re-verification enforces the same rules as the online check", "statement": "Metadata accepted for installation from storage is signed, unexpired, and has the version and hash chain required of an online check.", "quantifier": "every storage content and clock value", "why_tests_cant": "Every combination of stale and tampered stored documents.", "anchors": ["src/libaktualizr/primary/sotauptaneclient.cc:checkUpdatesOffline", "src/libaktualizr/primary/sotauptaneclient.cc:checkImageMetaOffline", "src/libaktualizr/uptane/imagerepository.cc:checkMetaOffline", "src/libaktualizr/uptane/directorrepository.cc:checkMetaOffline"]}
{"id": "C26", "title": "A Secondary installs only images authorised for it", "statement": "An aktualizr Secondary accepts an install request only for a target that its own verification of the received metadata established as its pending target: Director assigns exactly one target to its serial with its hardware id, and the Image repository metadata matches it.", "quantifier": "every metadata bundle sent by the Primary, in any order of requests", "why_tests_cant": "Any message sequence from a possibly compromised Primary.", "anchors": ["src/aktualizr_secondary/aktualizr_secondary.cc:doFullVerification", "src/aktualizr_secondary/aktualizr_secondary.cc:install", "src/aktualizr_secondary/aktualizr_secondary.cc:putMetadata"]}
{"id": "C27", "title": "A file Secondary activates only complete, correct images", "statement": "The Secondary's file update agent replaces the current image only when the received file has exactly the target's length and hash, however the upload was split; otherwise the current image is unchanged.", "quantifier": "every split of an upload into messages, every restart point", "why_tests_cant": "All chunkings.", "anchors": ["src/aktualizr_secondary/update_agent_file.cc:receiveData", "src/aktualizr_secondary/update_agent_file.cc:install"]}
{"id": "C28", "title": "API commands run one at a time, in order, and exactly once", "statement": "Commands submitted to the asynchronous API are executed in submission order, each at most once, never while paused and none after an abort; every command submitted and not aborted is eventually the next to run when not paused.", "quantifier": "every interleaving of enqueue, pause, resume, abort, and worker steps", "why_tests_cant": "Thread interleavings.", "anchors": ["src/libaktualizr/utilities/apiqueue.cc:CommandQueue"]}
{"id": "C29", "title": "Abort is sticky until reset; pause/resume state is consistent", "statement": "Once aborted, a flow-control token never allows work to continue until it is reset, whatever pause/resume calls follow; pause and resume report whether they changed anything.", "quantifier": "every sequence of token operations", "why_tests_cant": "All operation sequences.", "anchors": ["src/libaktualizr/utilities/apiqueue.cc:FlowControlToken"]}
{"id": "C30", "title": "Hash list storage round-trips", "statement": "A list of target hashes written to storage is read back as the same list.", "quantifier": "every list of sha256/sha512 hashes", "why_tests_cant": "All lists and values.", "anchors": ["src/libaktualizr/uptane/tuf.cc:encodeVector", "src/libaktualizr/uptane/tuf.cc:decodeVector"]}
{"id": "C31", "title": "Result codes survive persistence", "statement": "A result code written to storage in its textual representation is read back equal; text that cannot be represented is rejected at write time and never silently changed; the legacy representation is still understood.", "quantifier": "every numeric code and text", "why_tests_cant": "All strings, including ones with quotes and colons.", "anchors": ["src/libaktualizr/utilities/types.cc:toRepr", "src/libaktualizr/utilities/types.cc:fromRepr"]}
{"id": "C32", "title": "Expiry comparison is chronological", "statement": "For well-formed UTC timestamps, metadata is considered expired exactly when its expiry instant is strictly before the current instant; malformed timestamps are always considered expired.", "quantifier": "every pair of calendar instants with four-digit years", "why_tests_cant": "All instants.", "anchors": ["src/libaktualizr/utilities/types.cc:TimeStamp", "src/libaktualizr/utilities/types.cc:IsExpiredAt"]}
{"id": "C33", "title": "Base64 decoding inverts encoding", "statement": "Decoding the Base64 encoding of any byte string returns that byte string, and decoding arbitrary text never reads or erases outside its buffer.", "quantifier": "every byte string; every text", "why_tests_cant": "All byte strings.", "anchors": ["src/libaktualizr/utilities/utils.cc:toBase64", "src/libaktualizr/utilities/utils.cc:fromBase64"]}
{"id": "C34", "title": "URL encoding is injective and safe", "statement": "The URL-encoded form of any target name contains only unreserved characters, '/' and '%', and distinct names never encode to the same URL.", "quantifier": "every string", "why_tests_cant": "All strings.", "anchors": ["src/libaktualizr/utilities/utils.cc:urlEncode", "src/libaktualizr/uptane/fetcher.cc"]}
{"id": "C35", "title": "ASN.1 CER values round-trip", "statement": "Any integer, boolean, octet or UTF-8 string serialised by the CER encoder and decoded again yields the same value and consumes exactly its own encoding, so that sequences of values decode to the same sequence.", "quantifier": "every value and every concatenation of values", "why_tests_cant": "All integers and string lengths.", "anchors": ["src/libaktualizr-posix/asn1/asn1-cer.cc"]}
{"id": "C36", "title": "Storage schema migration is atomic", "statement": "A forward schema migration interrupted at any point or failing at any script leaves the database exactly at its old version or at the new version with its contents; opening storage reports failure if it could not be brought to the current version.", "quantifier": "every starting version, every failing script, every crash point", "why_tests_cant": "Crash points and failure positions.", "anchors": ["src/libaktualizr/storage/sqlstorage_base.cc:dbMigrate", "src/libaktualizr/storage/sqlstorage_base.cc:dbMigrateForward", "src/libaktualizr/storage/sqlstorage_base.cc:dbMigrateBackward"]}
{"id": "C37", "title": "Message buffer never overflows and preserves bytes", "statement": "The receive buffer of the Primary/Secondary protocol delivers bytes in order, without loss or duplication, never holds more than its capacity, and rejects over-long enqueues and consumes.", "quantifier": "every sequence of enqueue/consume with every sizes", "why_tests_cant": "All sequences.", "anchors": ["src/libaktualizr/utilities/dequeue_buffer.cc"]}
{"id": "C38", "title": "Upload concurrency control stays within limits", "statement": "When pushing to Treehub, the number of allowed concurrent requests always stays between 1 and the configured maximum, waits are introduced only at concurrency 1, and a permanently failing server is detected after finitely many failures.", "quantifier": "every sequence of request completions with arbitrary timings", "why_tests_cant": "All timing sequences.", "anchors": ["src/sota_tools/rate_controller.cc"]}
{"id": "C39", "title": "Treehub never receives an object before its children", "statement": "In a default push, an object is uploaded only after every object it references is known to be present on the server, whatever order responses arrive in and whichever requests fail.", "quantifier": "every object graph, every response order and failure pattern", "why_tests_cant": "All DAGs and schedules.", "anchors": ["src/sota_tools/ostree_object.cc", "src/sota_tools/request_pool.cc"]}
{"id": "C40", "title": "A default Treehub push never stalls", "statement": "In a default push, as long as the root object is not on the server and the push was not aborted, there is always some request queued or running; so when the push ends without abort, the root object is on the server.", "quantifier": "every object DAG, every response order and failure pattern", "why_tests_cant": "Absence of deadlock over all DAGs/schedules.", "anchors": ["src/sota_tools/ostree_object.cc", "src/sota_tools/request_pool.cc", "src/sota_tools/deploy.cc"]}
{"id": "C41", "title": "ECU registration is stable", "statement": "Once a device id, ECU serials or keys have been stored, re-initialisation never changes them, and initialisation interrupted anywhere can be repeated to completion.", "quantifier": "every crash point and repeated initialisation", "why_tests_cant": "Crash points.", "anchors": ["src/libaktualizr/primary/initializer.cc:13-347", "src/libaktualizr/storage/invstorage.cc:24-145", "src/libaktualizr/storage/sqlstorage.cc:733-967"]}
{"id": "C42", "title": "Firmware upload to an IP Secondary sends exactly the image", "statement": "When an upload to an IP Secondary is reported successful, the concatenation of the chunks sent is exactly the first `length` bytes of the image, every chunk is at most 1024 bytes, and the upload terminates for every image.", "quantifier": "every image, length and response sequence", "why_tests_cant": "All image sizes and failure positions.", "anchors": ["src/libaktualizr-posix/ipuptanesecondary.cc:uploadFirmware"]}
{"id": "C43", "title": "Secondary protocol version negotiation is safe", "statement": "The protocol version used with an IP Secondary is always a version the Primary supports, equals the highest version both sides support once the Secondary answered, and does not change if the Secondary cannot be reached.", "quantifier": "every response", "why_tests_cant": "All response values.", "anchors": ["src/libaktualizr-posix/ipuptanesecondary.cc:getSecondaryVersion"]}
{"id": "C44", "title": "HTTP responses are size limited", "statement": "With a positive size limit, a fetch never returns more than the limit, and a response that fits is returned complete and in order for every splitting into chunks.", "quantifier": "every response, chunking and limit", "why_tests_cant": "All chunkings.", "anchors": ["src/libaktualizr/http/httpclient.cc:writeString"]}
{"id": "C45", "title": "Metadata storage keeps one non-Root document per role and all Roots", "statement": "Storing a non-Root document for a repository and role replaces exactly the previous one for that repository and role; storing a Root under a version replaces only that version; loading returns the last stored document; clearing non-Root metadata removes exactly non-Root documents of that repository.", "quantifier": "every sequence of storage operations", "why_tests_cant": "All operation sequences.", "anchors": ["src/libaktualizr/storage/sqlstorage.cc:storeRoot", "src/libaktualizr/storage/sqlstorage.cc:storeNonRoot", "src/libaktualizr/storage/sqlstorage.cc:loadRoot", "src/libaktualizr/storage/sqlstorage.cc:loadNonRoot", "src/libaktualizr/storage/sqlstorage.cc:clearNonRootMeta"]}
{"id": "C46", "title": "Atomic configuration/file replacement", "statement": "Replacing a file through the library's file writer leaves, at any crash point, either the complete old or the complete new content to readers using the library's reader.", "quantifier": "every content and crash point", "why_tests_cant": "Crash points.", "anchors": ["src/libaktualizr/utilities/utils.cc:writeFile", "src/libaktualizr/utilities/utils.cc:readFile"]}
{"id": "C47", "title": "Secondary Root rotation sends every missing Root in order", "statement": "When a Secondary is more than one Root version behind, the Primary sends it exactly the Roots with versions from the one after the Secondary's up to its own latest, in order, each after the previous one was accepted, and stops at the first failure; success is reported only when all of them were accepted. A Secondary that is at most one version behind gets none separately (the latest Root is part of the metadata sent next).", "quantifier": "every pair of versions and storage contents", "why_tests_cant": "All version gaps.", "anchors": ["src/libaktualizr/primary/sotauptaneclient.cc:rotateSecondaryRoot"]}
{"id": "C48", "title": "Disk space check", "statement": "A download is started only if the free space exceeds the target's length plus the safety margin.", "quantifier": "every length and free space", "why_tests_cant": "All sizes, including overflow.", "anchors": ["src/libaktualizr/package_manager/packagemanagerinterface.cc:checkAvailableDiskSpace"]}
{"id": "C49", "title": "Device data is reported only when changed and re-sent until acknowledged", "statement": "Hardware info, installed packages, configuration and network info are sent when they differ from the last acknowledged value and only then.", "quantifier": "every history of data values and server answers", "why_tests_cant": "Histories.", "anchors": ["src/libaktualizr/primary/sotauptaneclient.cc:reportHwInfo", "src/libaktualizr/storage/sqlstorage.cc:storeDeviceDataHash"]}
{"id": "C50", "title": "ECU serial storage round-trips", "statement": "The list of ECU serials and hardware ids stored is loaded back in the same order with the Primary first.", "quantifier": "every list of distinct serials", "why_tests_cant": "All lists.", "anchors": ["src/libaktualizr/storage/sqlstorage.cc:storeEcuSerials", "src/libaktualizr/storage/sqlstorage.cc:loadEcuSerials"]}
{"id": "C51", "title": "A broken connection never stops a Secondary's server", "statement": "Whatever a peer sends to aktualizr-secondary and however a connection ends (closed, reset, garbage), the server goes on to accept and serve the next connection.", "quantifier": "every sequence of connections, received byte sequences and read results", "why_tests_cant": "Every way a peer can misbehave at every point of the message stream.", "anchors": ["src/aktualizr_secondary/secondary_tcp_server.cc:SecondaryTcpServer::run", "src/aktualizr_secondary/secondary_tcp_server.cc:SecondaryTcpServer::HandleOneConnection", "src/libaktualizr/utilities/dequeue_buffer.cc:DequeueBuffer::HaveEnqueued"]}
{"id": "C52", "title": "A full-tree push uploads what is missing", "statement": "With --walk-tree (mode kPushTree) garage-push uploads every object of the commit that the server reports missing, and ends with the commit present unless the push is aborted.", "quantifier": "every object graph, every set of objects already on the server, every order of responses", "why_tests_cant": "Depends on which subset of the graph the server already has and on response order.", "anchors": ["src/sota_tools/ostree_object.cc:OSTreeObject::CurlDone", "src/sota_tools/ostree_object.cc:OSTreeObject::CheckChildren", "src/sota_tools/deploy.cc:CheckPoolState"]}
{"id": "C53", "title": "A change of the schema keeps what is stored", "statement": "A database of any schema version from 13 to 24, whatever rows it holds within its constraints, is brought to version 25 without any script failing: afterwards it has the tables of version 25 and every table that is not given up by design (downloaded-image table before 18, the single installation result before 16) holds the same rows in the same reading order (device id and registration, ECU serials with the Primary first, keys, TLS credentials, metadata, installed versions, reports). Interruptions leave the old database or that one. A program of version 20 to 24 opening a newer database gets the tables of its own version with the same rows. A newly created database has exactly the tables of a migrated one.", "quantifier": "for all contents of the database admitted by the constraints, all versions from 13 up, all crash and I/O-failure points, all older programs from version 20 up", "why_tests_cant": "the tests migrate one or two sample databases with a few rows; whether a copy into a table with stricter constraints can fail or drop rows depends on the data", "anchors": ["config/sql/migration", "config/sql/rollback", "config/sql/schema.sql", "src/libaktualizr/storage/sqlstorage_base.cc:104-242"]}
{"id": "C54", "title": "Provisioning uses shared credentials only to get the device its own", "statement": "The shared provisioning credentials are used for nothing but registering the device; the ECUs are registered with the device's own stored credentials, in a request that names the Primary first, with the stored public key, followed by exactly the configured Secondaries; after a provisioning with shared credentials that are not to be used again, they are removed.", "quantifier": "every server, configuration, stored state and crash point", "why_tests_cant": "Every answer of the server and every interruption.", "anchors": ["src/libaktualizr/primary/initializer.cc:128-264"]}
{"id": "C55", "title": "The automatic clean-up of images keeps what the ECUs run and does not stop the client", "statement": "The clean-up of stored images after an installation never removes the image of one of the last two Targets installed on an ECU, in particular not that of the version an ECU runs now; when it succeeds, every other stored image is gone, entry and file; it fails only if the process is stopped, and an interrupted clean-up can be repeated.", "quantifier": "every installation history, set of stored images, sharing of files, and crash point", "why_tests_cant": "The test runs one sequence of updates with distinct contents; shared files and interruptions are not covered.", "anchors": ["src/libaktualizr/primary/aktualizr_helpers.cc:5-35", "src/libaktualizr/package_manager/packagemanagerinterface.cc:230-295"]}
{"id": "C56", "title": "A file Secondary reports the image it holds", "statement": "From a successful installation until the next one, a running aktualizr-secondary with the file update agent reports the name of the Target it was given and the length and SHA-256 digest of the content it activated, whatever requests, failing installations, crashes and restarts come in between.", "quantifier": "every history of requests, faults, crashes and restarts", "why_tests_cant": "Every history, in particular restarts.", "anchors": ["src/aktualizr_secondary/update_agent_file.cc:11-71", "src/aktualizr_secondary/aktualizr_secondary_file.cc:9-34"]}
{"id": "C57", "title": "A success reported for an IP Secondary is one the Secondary reported", "statement": "Sending metadata, sending firmware and installing on an IP Secondary are reported as successful only if the Secondary was sent exactly the documents, the image (or credentials) and the name in question, in messages of the protocol version agreed, and answered each of them with success; the manifest taken for the Secondary's is the text it answered.", "quantifier": "every behaviour of the Secondary and every state of the negotiation", "why_tests_cant": "Every sequence of answers, including those of another type than asked for.", "anchors": ["src/libaktualizr-posix/ipuptanesecondary.cc:135-485"]}
{"id": "C58", "title": "Whatever reaches an ECU was authorised by both repositories", "statement": "In a whole life of a device - starts, API calls, update cycles, crashes in between, any servers and any answers of Secondaries - a Target is handed to the package manager or a Secondary only if, at that time, it is listed by Director metadata and approved by Image repository metadata that are signed under the newest stored Root of their repository; an update cycle installs exactly the updates that its own check returned.", "quantifier": "every history of calls, cycles, crashes, server contents and peers", "why_tests_cant": "Every interleaving of cycles, crashes and metadata changes.", "anchors": ["src/libaktualizr/primary/aktualizr.cc:38-97", "src/libaktualizr/primary/sotauptaneclient.cc:630-682", "src/libaktualizr/primary/sotauptaneclient.cc:957-1071"]}
{"id": "C59", "title": "How an update ended is reported in the same cycle", "statement": "If an update cycle tries an installation and nothing waits for a reboot, cannot obtain an image, or finds that the repositories do not agree, its last action is to send a manifest that carries the result of the device; if the server does not acknowledge it, the result stays stored for the next one.", "quantifier": "every device state, server and peer", "why_tests_cant": "Every way a cycle can end.", "anchors": ["src/libaktualizr/primary/aktualizr.cc:38-77", "src/libaktualizr/primary/sotauptaneclient.cc:630-682", "src/libaktualizr/primary/sotauptaneclient.cc:1119-1149", "src/libaktualizr/primary/sotauptaneclient.cc:1210-1217"]}
{"id": "C60", "title": "An update of the Primary that waits for a reboot is left alone until it is completed", "statement": "While an update of the Primary waits for a reboot, update cycles verify, install and send nothing and leave what is recorded about the Primary's versions as it is, however many follow. With completion forced by the configuration, the daemon's loop is ended by exactly those cycles whose own installation left the Primary waiting, and the package manager is then told to complete the installation.", "quantifier": "every life of the device before, every number of cycles, servers and Secondaries", "why_tests_cant": "Every history before the update and any number of cycles after it.", "anchors": ["src/libaktualizr/primary/aktualizr.cc:38-97", "src/libaktualizr/primary/sotauptaneclient.cc:816-843", "src/libaktualizr/primary/sotauptaneclient.cc:1102-1117", "src/libaktualizr/primary/sotauptaneclient.cc:1398-1451"]}
{"id": "C61", "title": "Genuine updates are offered", "statement": "If both repositories serve genuine metadata (Roots continuing the trusted chain, every document signed to threshold, unexpired, no older than what is stored, Timestamp, Snapshot and Targets agreeing with each other), the Director's targets are for this device's ECUs and hardware and no ECU is named twice, and the Image repository lists those that are not installed, in its top-level Targets or in genuine delegated roles along delegations for their names, then a check succeeds, offers exactly the targets that are not installed (with the Director's details), and the documents are stored; if everything is installed it says that there is nothing to do.", "quantifier": "every stored state, every chain of new Roots of any length, every content of the documents", "why_tests_cant": "A client that refuses genuine metadata for some content, length of the Root chain or stored state passes every test that does not hit it; this is the converse of the rejection properties.", "anchors": ["src/libaktualizr/uptane/directorrepository.cc:88-160", "src/libaktualizr/uptane/imagerepository.cc:200-330", "src/libaktualizr/uptane/uptanerepository.cc:37-140", "src/libaktualizr/primary/sotauptaneclient.cc:420-470", "src/libaktualizr/primary/sotauptaneclient.cc:845-907"]}
{"id": "C62", "title": "A genuine update is installed and reported", "statement": "If both repositories serve genuine metadata for this device (C61), nothing is pending, the images can be downloaded, the package manager and the Secondaries do what they are asked, and the Director takes manifests, then one update cycle ends normally; on every ECU of every target that was not installed, the target has been installed and is recorded as the current version; the last thing sent to the Director is a manifest reporting the success of the device and of each of these ECUs under the correlation id of the Director's Targets; no result is left to report and no update is left pending.", "quantifier": "every stored state, every chain of new Roots, every content of the documents, every number of targets, ECUs and Secondaries, every version the Secondaries' Roots may have", "why_tests_cant": "Tests install a few fixed updates; a cycle that skips an ECU, gives up, records the wrong version or loses the report for some combination of targets, Secondaries and stored state passes them. This is the converse of the properties that restrict what is installed.", "anchors": ["src/libaktualizr/primary/aktualizr.cc:38-77", "src/libaktualizr/primary/sotauptaneclient.cc:630-682", "src/libaktualizr/primary/sotauptaneclient.cc:957-1071", "src/libaktualizr/primary/sotauptaneclient.cc:1119-1149", "src/libaktualizr/primary/sotauptaneclient.cc:1263-1392"]}
{"id": "C63", "title": "What the server and the API user are told is what happened", "statement": "Reports queued for the server and events sent to the API user do not change what an operation does. However an operation ends, also when the process dies, every report or event about the download or installation on an ECU says what the package manager or the Secondary answered, and an end is told only after the beginning, under the correlation id of the Director's Targets. When an installation returns its report, each ECU in the report has got exactly the reports (started, then applied or completed with the outcome) and events due for its result, AllInstallsComplete with that report is sent last and once, and the stored device result is the reported one. Downloads likewise. A cycle tells, in this order: confirmed updates of Secondaries, the result of the check, the download, the installation, the manifest; every check and every installation ends with its event, and an update that was applied is not told as a failure.", "quantifier": "every device state, all answers of package manager, Secondaries and servers, every number of targets and ECUs, every point at which the process dies while telling something", "why_tests_cant": "Tests look at a few event sequences of successful runs. A report with the wrong outcome, ECU or correlation id, a missing end or an end without a beginning in some combination of failures is what dashboards and campaigns then show for the whole fleet.", "anchors": ["src/libaktualizr/primary/sotauptaneclient.cc:59-108", "src/libaktualizr/primary/sotauptaneclient.cc:630-756", "src/libaktualizr/primary/sotauptaneclient.cc:816-843", "src/libaktualizr/primary/sotauptaneclient.cc:957-1071", "src/libaktualizr/primary/sotauptaneclient.cc:1319-1451", "src/libaktualizr/primary/reportqueue.cc:89-143"]}
{"id": "C64", "title": "A virtual Secondary keeps its identity, reports what it holds and checks what it is given", "statement": "Once a virtual Secondary has started it has the same key pair and serial at every later start, wherever the process died in between, and it does start. Its manifest verifies under the public key it was registered with and states the name, digest and length of the image in its files; after an installation has ended these are those of the installed target, until the next installation. It accepts the metadata of the Primary only if all six documents can be read, the Director's Root is signed by its own keys and the Director's Targets by the keys of that Root, and it accepts whatever the Primary has verified. A Root given to it is taken only if it is the next version and signed by the keys of the one held; any other is refused and reported as an attack.", "quantifier": "every sequence of starts, metadata, Roots and installations, every point at which the process dies, every content of the disk, all key generators with matching keys", "why_tests_cant": "Tests start a virtual Secondary once with an intact directory and hand it genuine metadata. A Secondary that changes its serial after a crash is lost to the server, a manifest that names the wrong image is believed.", "anchors": ["src/virtual_secondary/managedsecondary.cc:31-75", "src/virtual_secondary/managedsecondary.cc:77-144", "src/virtual_secondary/managedsecondary.cc:151-239", "src/libaktualizr/primary/secondary_provider.cc:6-64"]}
{"id": "C65", "title": "The daemon starts with the configured Secondaries, and remembers them", "statement": "If the daemon starts, every configured address has a Secondary, there is none at any other address, each has the identity it told over the network or, if it is known and not reachable, the one on record, and all serials differ. A configured Secondary that is neither known nor reachable and does not connect stops the start. Once a start has been followed by a registration, the next start succeeds with the same Secondaries in the configured order even if none of them can be reached. An address of the configuration is read as the host and port it states.", "quantifier": "every configuration, storage, answer of the network at every attempt, sequence of incoming connections, server, and point at which the process dies", "why_tests_cant": "Tests start with one or two simulated Secondaries that answer properly and connect in order. A vehicle in which an ECU silently drops out of the list, or which does not start because one ECU is asleep, is found only when it happens.", "anchors": ["src/aktualizr_primary/secondary.cc:43-224", "src/aktualizr_primary/secondary_config.cc:85-114", "src/libaktualizr-posix/ipuptanesecondary.cc:13-94", "src/libaktualizr/storage/sqlstorage.cc:186-295"]}
{"id": "C66", "title": "A device keeps its identity and state over the move from files to the database", "statement": "The first start of the client over the files of an old version copies them into the database: keys, certificates, device id, ECUs and their order, misconfigured ECUs, installed versions with the current one, and every stored metadata document with the whole chain of Roots of both repositories. When it returns, the old files are gone and nothing of them is missing in the database, and the next provisioning sends nothing to the server. Wherever the process dies before, nothing is lost, and the next start completes the move. Files that are proper are copied without an error.", "quantifier": "every content of the old files, every point at which the process dies, every number of ECUs, versions and Roots", "why_tests_cant": "Tests migrate one prepared directory without a crash. The move happens once per device, and whatever it forgets (an identity, the current version, the newest Root) is deleted in the same call.", "anchors": ["src/libaktualizr/storage/invstorage.cc:146-300", "src/libaktualizr/storage/fsstorage_read.cc:1-403"]}
{"id": "C67", "title": "Campaigns are offered as the server describes them, and the user's decision reaches the server", "statement": "A campaign check returns, and announces to the API user, exactly the campaigns the server's list describes, in its order; entries that describe no campaign are left out and do not affect the others, and nothing in the answer makes the check fail. A campaign has an id and a name, and at most one description and one duration of each kind. A decision of the user is announced and reported under the type of the decision with the campaign's id; the report is stored until the server has taken it. A list written by the repository generator is read back as it was.", "quantifier": "every answer of the server, every list length and content, every later sequence of flushes and crashes of the report queue", "why_tests_cant": "Tests parse one sample file and check three reports. An odd entry that hides the others or a decision reported under the wrong type shows up in the field only.", "anchors": ["src/libaktualizr/campaign/campaign.cc:7-121", "include/libaktualizr/campaign.h:14-63", "src/libaktualizr/primary/sotauptaneclient.cc:1073-1100", "src/libaktualizr/primary/reportqueue.cc:88-99"]}
{"id": "C68", "title": "The configuration has the values the documented precedence gives it", "statement": "Every documented option has the value the command line gives it; otherwise the value of the last file, in the order of the file names, that gives it one, where of files with the same name only the one in the last of the configured places is used; otherwise its documented default. Files of other kinds and the order in which the system lists a directory do not matter. A line counts for the section whose header is the last above it. The server, the repository, Director and Treehub addresses and the registration endpoint are derived as documented when they are not given. Other keys of the package manager section are passed on by the same rule. Reading the configuration fails only if a path on the command line does not exist or a file in use is malformed.", "quantifier": "every content of every file, every list of configured places, every command line, every documented option", "why_tests_cant": "Tests load three fixed files. Precedence bugs need particular combinations of places, names, sections and options, and show up as a device talking to the wrong server.", "anchors": ["src/libaktualizr/config/config.cc:49-274", "src/libaktualizr/config/base_config.cc:7-43", "src/libaktualizr/utilities/config_utils.h:52-137", "src/libaktualizr/package_manager/packagemanagerconfig.cc:9-29", "docs/ota-client-guide/modules/ROOT/pages/aktualizr-config-options.adoc"]}
{"id": "C69", "title": "The configuration that is reported is the one in use", "statement": "The text in which the client reports and logs its configuration is a configuration file that, read back over any other settings, gives every option the value it had, including the further keys of the package manager section. Configurations that differ in any option give different texts, so every change is reported.", "quantifier": "every configuration whose texts have no line breaks and, outside of paths, no quotes, with numbers in the whole range of their types", "why_tests_cant": "Tests compare the text of two fixed configurations. An option that is missing, written under another name, or escaped differently than it is read is found only for values nobody tried.", "anchors": ["src/libaktualizr/config/config.cc:57-121", "src/libaktualizr/config/config.cc:276-290", "src/libaktualizr/config/base_config.cc:36-52", "src/libaktualizr/package_manager/packagemanagerconfig.cc:31-45", "src/libaktualizr/utilities/config_utils.h:27-137", "src/libaktualizr/primary/sotauptaneclient.cc:218-240"]}
{"id": "C70", "title": "What the repository generator publishes is accepted by devices", "statement": "After any sequence of commands of the repository generator (adding images, assigning and signing targets, adding and revoking delegations, refreshing roles), a device that holds nothing, or documents published at any earlier time, accepts the metadata then published and is offered exactly the assigned targets it has not installed; what it then holds are again published documents. Published documents are only replaced by ones of a higher version, published Roots never change and each is a valid successor of the one before. The Director's entry for an image names exactly the ECU and hardware given and has the length and hashes of the Image repository's entry.", "quantifier": "every sequence of completed commands with keys that work, every earlier time at which the device may have looked, every content of the repositories within the size limits of the client", "why_tests_cant": "Tests run a fixed handful of command sequences against a fresh client. Whether a device that looked at some earlier time still accepts the next state depends on versions, key tables and hashes across all histories.", "anchors": ["src/uptane_generator/repo.cc:30-372", "src/uptane_generator/image_repo.cc:3-161", "src/uptane_generator/director_repo.cc:3-97", "src/uptane_generator/uptane_repo.cc:7-60", "src/uptane_generator/main.cc:105-240", "src/libaktualizr/uptane/directorrepository.cc", "src/libaktualizr/uptane/imagerepository.cc"]}
{"id": "C71", "title": "The exit status of the publishing tools can be relied on", "statement": "garage-push exits with success only if the commit named (a branch of the repository or a hash) was sent object by object, every object after all objects it refers to and nothing that does not belong to the commit, the server has confirmed the commit, and after that, if a branch was named, the server has accepted the branch with that commit as content. garage-check exits with success only if Treehub has the commit and the Targets then fetched are not expired and list it; and it does so whenever the servers answer that way. garage-deploy exits with success only if the commit was uploaded and confirmed, all commands that sign and publish the Targets succeeded in order, and the commit was then found on Treehub and in the Targets. A dry run sends nothing but questions. The name of a commit is read and printed without change.", "quantifier": "every repository and graph of objects, every reply of all servers and every order in which requests end, every credentials file, branch and commit", "why_tests_cant": "Tests run the tools against one small server and one repository; success with something missing needs a particular combination of replies, modes and options.", "anchors": ["src/sota_tools/garage_push.cc:92-193", "src/sota_tools/garage_check.cc:73-108", "src/sota_tools/garage_deploy.cc:94-149", "src/sota_tools/check.cc:17-140", "src/sota_tools/deploy.cc:14-125", "src/sota_tools/ostree_ref.cc:9-75", "src/sota_tools/ostree_hash.cc:8-60"]}
{"id": "C72", "title": "Credentials for publishing go only to the servers they belong to", "statement": "Every request of garage-push, garage-check and garage-deploy goes to an address made of the Treehub server or the Targets repository named in the credentials, or is the one request for a token at the authorization server named there. The id and secret of the client are shown to the authorization server only; requests to the other two show exactly the proof of identity the credentials ask for (certificate, token obtained just before, password, or nothing). A certificate in the archive takes precedence over OAuth2 and OAuth2 over a password; the last entry of a name in the archive counts.", "quantifier": "every credentials file, every reply of the servers, every command line, every graph of objects", "why_tests_cant": "Tests check a few archives and that one token is obtained; that no request at all of any run goes elsewhere or shows something else is a statement about all runs.", "anchors": ["src/sota_tools/server_credentials.cc:36-146", "src/sota_tools/authenticate.cc:9-50", "src/sota_tools/oauth2.cc:25-88", "src/sota_tools/treehub_server.cc:55-104"]}
{"id": "C73", "title": "The commands of the repository generator do what they say and nothing else", "statement": "After any commands, each further command of uptane-generator that succeeds has exactly the effect it names. image adds, under the name given, an entry with the digests and the length of the file (or those given on the command line), the hardware id and the URI, to the Targets or to the delegated role named, and to the latter only if the repository lists that role (its name not being empty) with a pattern that fits. addtarget stages for the Director the entry the Image repository lists under that name, assigned to the ECU given in addition to what was staged, in the version after the published one. signtargets publishes exactly what is staged. emptytargets and oldtargets stage an empty list and the published list. adddelegation adds one role with one key and pattern to its parent. revokedelegation removes the role, its key and every mention of it below the top-level Targets, and takes exactly its targets from what the Director publishes. refresh keeps the content, in the next version, renewing the expiry time only if it had passed. generate starts both repositories empty in version 1. Every other entry, document and repository stays as it was, but for the new Snapshot and Timestamp; and the Snapshot always lists every role that is reached from the Targets, in the published version.", "quantifier": "every sequence of commands after generate, with any options; every repository that results", "why_tests_cant": "Tests run a few fixed sequences and look at the entries they expect; that nothing else changed, and that the Snapshot is complete for every tree of delegations, is a statement about all sequences.", "anchors": ["src/uptane_generator/image_repo.cc:5-161", "src/uptane_generator/director_repo.cc:3-97", "src/uptane_generator/repo.cc:18-340", "src/uptane_generator/uptane_repo.cc:7-60", "src/uptane_generator/main.cc:90-240"]}
{"id": "C74", "title": "An OSTree Secondary fetches, deploys and records only what its metadata establishes", "statement": "Whatever requests aktualizr-secondary with the OSTree agent gets, in whatever order, with faults, deaths of the process, restarts and reboots anywhere: a commit is fetched only for the target that verified metadata established for this ECU, an OSTree image, since when no other metadata was accepted, no download failed and the process was not restarted; it is fetched from the server and with the credentials in the archive the Primary sent. Only an install request deploys, and only that target, whose commit is in the local repository. A version recorded as current was recorded as pending with both reboot flags set before, then the machine was rebooted, and a start found exactly it running. The manifest reports the hash that runs, under the name of a recorded version with that hash if there is one. Without faults, download, installation, reboot into the new version and start lead to its record as current with nothing pending and the Director's metadata dropped; after a reboot into anything else the start notes a failure, leaves nothing pending and marks nothing as current that was not.", "quantifier": "every sequence of requests, starts and reboots with any content, any fault, and any point of death; every later state", "why_tests_cant": "Tests run one update with a mocked Treehub and a fixed order of requests; that no order of requests, crashes and reboots deploys or records something else is a statement about all histories.", "anchors": ["src/aktualizr_secondary/aktualizr_secondary_ostree.cc:24-84", "src/aktualizr_secondary/update_agent_ostree.cc:14-107", "src/aktualizr_secondary/aktualizr_secondary.cc:23-191", "src/libaktualizr/package_manager/ostreemanager.cc:70-128", "src/libaktualizr/package_manager/ostreemanager.cc:342-371"]}
{"id": "C75", "title": "The server is told what the ECUs said, signed by those who said it", "statement": "Over any life of a device from its first start: each entry for a Secondary in a manifest that is sent carries a signature valid under a key which that Secondary gives during the same call, and is what that Secondary itself gave as its manifest in this call or in an earlier one (then as it reads back from the storage). A Secondary that answers with a manifest signed by its key has exactly that manifest passed on; one that does not answer is represented by the manifest it gave last, if that is still signed by its key, also over restarts and crashes in between. The document sent has the entry of the Primary, those of the Secondaries, the installation report if there is one and the custom part if there is one, each as they are, and no other ECU; it and the Primary's entry are signed with the key that was registered for the Primary, and it reads back from the request's body as it was made. The image named in the Primary's entry is the booted commit (or none known) under OSTree, and otherwise, for targets with one well-formed SHA-256 hash, the version recorded as current last.", "quantifier": "every history of API calls, starts and crashes of a device; every answer of the Secondaries and of the servers; every content of report, custom part and images; every sound signature scheme without empty signatures", "why_tests_cant": "Tests check one manifest of one device with fake Secondaries; where an entry comes from depends on the whole history, including manifests stored before a restart and keys that changed.", "anchors": ["src/libaktualizr/primary/sotauptaneclient.cc:241-341", "src/libaktualizr/primary/sotauptaneclient.cc:1111-1150", "src/libaktualizr/uptane/manifest.cc:9-100", "src/libaktualizr/crypto/keymanager.cc:252-296", "src/libaktualizr/crypto/keymanager.cc:328-344", "src/libaktualizr/package_manager/ostreemanager.cc:332-371"]}
{"id": "C76", "title": "An IP Secondary keeps its identity", "statement": "Over any life of aktualizr-secondary from its first start, started again and again with any configuration and dying anywhere: whenever it answers a request for information it tells the same serial, hardware identifier and public key. These were chosen at one of its starts: the configured serial or else the identifier of the key, the configured hardware identifier or else the host's name. As long as the key type is configured the same, every manifest it gives is signed with that key, bears that serial, and has length and hash of the image it has; a Primary that knows the Secondary under that name and key puts it into what it sends to the server. What it installs was assigned to that serial and hardware identifier. The first start stores keys and names, and records the version that the file from the factory names as current; later starts change neither; a running Secondary whose key type goes with its key answers.", "quantifier": "every sequence of starts with any configurations, requests and deaths of the process after any number of writes; any key generation; any metadata and uploads in between", "why_tests_cant": "Tests start a Secondary once with one configuration; that no later configuration, crash or request changes what was registered with the server is a statement about all lives.", "anchors": ["src/aktualizr_secondary/aktualizr_secondary.cc:12-32", "src/aktualizr_secondary/aktualizr_secondary.cc:127-168", "src/aktualizr_secondary/aktualizr_secondary.cc:193-243", "src/aktualizr_secondary/aktualizr_secondary_file.cc:9-40", "src/libaktualizr/crypto/keymanager.cc:298-326", "src/libaktualizr/storage/invstorage.cc:118-133"]}
{"id": "C77", "title": "What a Primary is told by an IP Secondary is true, whatever the network loses", "statement": "A Primary's object for an IP Secondary and the Secondary process, with a network that may lose any request and any answer, and with restarts and requests of others in between: the Secondary lives one of its lives, made of what arrived. If sending metadata is reported as successful, the Secondary got exactly those documents, and has a target that by the metadata it verified the Director assigns to the name and hardware it tells and the Image repository lists. If an installation is reported as successful, the Secondary's image has length and a hash of a target that was established for that name, and is recorded as current. A manifest the Primary gets is about the image the Secondary has, under the name and signed with the key it told before. Without disturbance, after metadata were accepted and with the right image at hand and no old upload left behind, sending and installing are both reported as successful, and the next manifest is about the new image. A complete upload left behind (the answer to its last part was lost) is never accepted again by sending it anew.", "quantifier": "every sequence of calls, every choice of lost requests and answers, every sequence of other events at the Secondary between two requests, any image split by the Primary's chunking, any metadata", "why_tests_cant": "Tests run a Primary against a Secondary over a working connection; losses at every point combined with restarts and earlier uploads are unbounded, and agreement of the two sides is a statement about both programs together.", "anchors": ["src/libaktualizr-posix/ipuptanesecondary.cc:96-485", "src/aktualizr_secondary/msg_handler.cc:11-26", "src/aktualizr_secondary/aktualizr_secondary.cc:193-346", "src/aktualizr_secondary/aktualizr_secondary_file.cc:14-86", "src/aktualizr_secondary/update_agent_file.cc:29-138"]}
{"id": "C78", "title": "The certificate provider writes the credentials of exactly this device, and a device given them uses them", "statement": "When aktualizr-cert-provider ends successfully with a local directory (or, if every transfer works, with a target): the private key and the certificate are at the places the configuration (or --directory) names, and if asked for the CA and the address of the server; no other file changed. With a fleet CA the certificate is about exactly that key, names exactly the device asked for (or the random name), is issued in the name of the fleet CA with its key, has the validity and subject asked for, and nobody was asked; otherwise key and certificate are what the server answered to exactly one request, made for that name with the shared credentials of the archive. If it fails, nothing on the target changed, and no local file unless copying a file failed, and then only files asked for. The server is asked at most once, never with a fleet CA. A device of the same configuration that imports those files and starts successfully with device credentials uses exactly that certificate, key and CA; its id, if it had none, is the name in the certificate, thus with a fleet CA the one asked for; its server is the one of the archive.", "quantifier": "all options, archives, configurations, answers of the server, failures of any copy, previous contents of the disk and of the device's storage, any server the device talks to, any point at which the device's start would be interrupted", "why_tests_cant": "The tests run the program for a few combinations of options and look at the files; that for every combination the files, the certificate and the later identity of the device agree relates two programs through a configuration, over all contents and failures.", "anchors": ["src/cert_provider/main.cc:88-438", "src/libaktualizr/bootstrap/bootstrap.cc:11-78", "src/libaktualizr/crypto/crypto.cc:501-680", "src/libaktualizr/storage/invstorage.cc:24-145"]}
{"id": "C79", "title": "What aktualizr-info prints is true, complete and gives no private key away", "statement": "Every line aktualizr-info prints, with any options, however it ends and whatever aktualizr writes meanwhile, is true of the database at a moment during its run: identity, ECUs and their versions, removed ECUs, registration, metadata, the running and the pending version of the Primary, and every credential or document asked for (of several stored Roots the newest). Unless an option asks for a private key, neither output nor exit status depends on the private keys. While the database is at rest: options that ask for something get exactly their answers, in a fixed order; without such an option a successful run has printed the complete report, every ECU in it; --name-only prints the identity and nothing else. With --wait-until-provisioned nothing is printed before the registration and a Root of the Director were seen, and the wait ends once they stay. After a start of aktualizr that registered the ECUs and succeeded, the report says that the device is provisioned.", "quantifier": "all databases, all changes of it between any two queries, all sets of options, all package managers, all numbers of attempts; for the last part all servers, configurations and starts of aktualizr", "why_tests_cant": "The tests compare the output for a handful of prepared databases. Independence from the private keys is a statement about pairs of runs; truth under concurrent changes, completeness for any number of ECUs and the end of waiting quantify over all histories of the database.", "anchors": ["src/aktualizr_info/main.cc:18-406", "src/libaktualizr/storage/sqlstorage.cc:297-460", "src/libaktualizr/storage/sqlstorage.cc:560-716", "src/libaktualizr/storage/sqlstorage.cc:745-872", "src/libaktualizr/storage/sqlstorage.cc:1017-1336", "src/libaktualizr/primary/initializer.cc:212-264"]}
{"id": "C80", "title": "An update that needs a reboot of the Primary is completed after it", "statement": "Under the conditions of C62, except that the Primary's package manager answers that the installation needs a reboot: the update cycle ends normally (asking for a reboot exactly if configured to force it), with the update installed and current on the Secondaries, and pending on the Primary. When the process is started again with the same ECUs configured, and the package manager confirms the version, that start succeeds; then on every ECU of every target of the update the target is recorded as current; the last thing sent to the Director is a manifest reporting the success of the device and of each of these ECUs under the correlation id of the Targets metadata the update came with; no result is left to report and no update is left pending.", "quantifier": "every stored state, every chain of new Roots, every content of the documents, every number of targets, ECUs and Secondaries; every outcome of contacting the servers at the start", "why_tests_cant": "The state has to survive the end of the process in the database: tests check single updates with fixed metadata; a lost correlation id, a version that cannot be read back, a Secondary's result forgotten in the report, or an update that stays pending for some combination of targets and stored state passes them.", "anchors": ["src/libaktualizr/primary/sotauptaneclient.cc:59-108", "src/libaktualizr/primary/sotauptaneclient.cc:109-170", "src/libaktualizr/primary/sotauptaneclient.cc:345-388", "src/libaktualizr/primary/aktualizr.cc:38-77", "src/libaktualizr/storage/sqlstorage.cc:1057-1336", "src/libaktualizr/primary/initializer.cc:45-111"]}
{"id": "C81", "title": "aktualizr-get prints the answer of the server, asks as the device, and does no harm", "statement": "aktualizr-get makes at most one request (of up to three attempts), to the URL and with the headers given, with the TLS credentials of the device (after the import) or, if they are not complete, with none. It prints the document of the last attempt, whole and nothing else, and reports success, exactly if that attempt was completed and answered with status 200; otherwise it prints nothing. Whatever becomes of it, also if it is killed, the next start of aktualizr with the same files does what it would have done without it.", "quantifier": "every storage content, every set of files to import, every behaviour of the server in every attempt and splitting of the answer, every point at which the program is killed", "why_tests_cant": "The one test makes one successful request without credentials; transfers that break off after the status line, retries after partial data, and imports interrupted between two columns are not produced.", "anchors": ["src/aktualizr_get/get.cc:6-22", "src/aktualizr_get/main.cc:62-84", "src/libaktualizr/http/httpclient.cc:121-220", "src/libaktualizr/storage/invstorage.cc:10-145", "src/libaktualizr/crypto/keymanager.cc:248-256"]}
{"id": "C82", "title": "An update that ECUs complete later is completed and reported when the last of them has it", "statement": "Under the conditions of C62, except that any of the ECUs (the Primary, which needs a reboot; Secondaries, which install at their next start) answer that they complete the installation later: the cycle ends normally with the update current on the other ECUs and pending on these. As long as one of the waiting Secondaries does not show the new image, any sequence of restarts of the process and checks for updates goes well, sends no report to the Director, looks for no other update, and leaves that Secondary's update pending. When every waiting Secondary shows its image in a manifest it has signed (and the process was restarted, if the Primary needed a reboot), a check for updates first records the update as current on all ECUs, sends one manifest reporting the success of the device and of each ECU under the correlation id of the Targets metadata the update came with, leaves nothing pending or to report, and then looks for updates. The same report is sent by the start after the reboot when the Primary is the last one to complete.", "quantifier": "every stored state, every chain of new Roots, every content of the documents, every number of targets, ECUs and Secondaries, every set of ECUs that complete later, every sequence of restarts and checks in between, every order in which the Secondaries complete", "why_tests_cant": "Tests follow one Secondary through one reboot. A report sent too early, under a lost correlation id or without one of the ECUs, an update that stays pending for ever after a certain order of restarts and completions, or one confirmed by a manifest that names another image shows only in particular interleavings.", "anchors": ["src/libaktualizr/primary/sotauptaneclient.cc:59-108", "src/libaktualizr/primary/sotauptaneclient.cc:816-843", "src/libaktualizr/primary/sotauptaneclient.cc:957-1071", "src/libaktualizr/primary/sotauptaneclient.cc:1119-1149", "src/libaktualizr/primary/sotauptaneclient.cc:1351-1451", "src/libaktualizr/storage/sqlstorage.cc:1338-1376", "src/libaktualizr/primary/aktualizr.cc:39-77"]}
{"id": "C83", "title": "What a C program is told by the library is what happened", "statement": "Through the C interface: going by index through what Aktualizr_updates_check returns gives exactly the updates the check found, each approved by both repositories, and past the end a null pointer. Aktualizr_send_manifest returns 0 exactly if a manifest was sent and acknowledged, and otherwise -1 with everything that has to be reported kept. Aktualizr_download_target and Aktualizr_install_target return 0 exactly if the image has been obtained and the target installed. Aktualizr_open_stored_target returns a handle exactly if the image is stored with the length and hash the target lists; reads of any sizes give consecutive pieces of that image, and a read that gives nothing means that all of it has been read. The name of a target is that in the metadata.", "quantifier": "every state of the device and the storage, every answer of servers, Secondaries and package manager, every exception, every sequence of sizes of reads", "why_tests_cant": "Tests call each function once on a device where everything works. A code that does not tell failure from success, or a stored image read back wrongly for some sequence of buffer sizes, shows only in particular failures and sequences.", "anchors": ["src/libaktualizr-c/libaktualizr-c.cc:27-45", "src/libaktualizr-c/libaktualizr-c.cc:116-186", "src/libaktualizr-c/libaktualizr-c.cc:198-233", "src/libaktualizr/primary/sotauptaneclient.h:90-97", "src/libaktualizr/primary/aktualizr.cc:147-170"]}
{"id": "C84", "title": "A request carries what the client was last told, and nothing else", "statement": "Whatever sequence of calls was made to the HTTP client before, a request checks the certificate and the name of the server, against the certificate authority last set, presents the certificate last set and proves to have the key last set (also after the client was reset), goes through the proxy and with the login last set, no faster than the limit last set, and carries the method, URL, headers (with the values last given to them) and body of this call: nothing is left over from earlier requests. A failed change of credentials leaves the old ones in use. Interrupting a download that is under way (setDownloadBandwidth with restart) is safe.", "quantifier": "every sequence of settings, requests, downloads and resets, every text, every failure to create a temporary file or to load the PKCS#11 engine", "why_tests_cant": "Tests make one request with a new client, or use a fake client. Options that leak from one request into the next, credentials mixed after a failed change or lost by a reset, and what a reset does to a download of another thread show only in particular sequences.", "anchors": ["src/libaktualizr/http/httpclient.cc:38-175", "src/libaktualizr/http/httpclient.cc:183-361", "src/libaktualizr/utilities/utils.cc:797-826", "src/libaktualizr/primary/sotauptaneclient.cc:1468-1478", "include/libaktualizr/aktualizr.h:333-348"]}
{"id": "C85", "title": "Going through all targets of the Image repository gives them all", "statement": "Iterating over allTargets() comes to an end and gives every target of the top-level Targets role and of every role delegated to, directly or not, in the order of the delegations (a role's own targets first, then those of its delegates), without an exception, whatever the shape of the delegations; in particular roles without own targets are passed over, and a terminating or deep delegation does not hide the targets of other roles.", "quantifier": "every tree of delegations: any depth, any number of targets and delegates, any terminating flags", "why_tests_cant": "One test iterates over one fixed tree where all roles have targets and nothing is terminating. Descending, going back up and resuming at the right sibling is right or wrong for shapes no test has.", "anchors": ["src/libaktualizr/uptane/iterator.cc:59-190", "src/libaktualizr/uptane/iterator.h:12-80", "src/libaktualizr/primary/sotauptaneclient.cc:1394-1396", "src/libaktualizr/uptane/imagerepository.h:11"]}
{"id": "C86", "title": "The other programs use the configuration they are given", "statement": "If aktualizr-secondary starts, every option has the value its command line gives it, otherwise that of the last configuration file (in the order of the file names) that sets it, otherwise its default; it starts whenever the files can be read and the options are well formed. The same holds for aktualizr-info, which, given the same files, uses the same storage and package manager settings as the Primary, so that what it prints is about this device, and it leaves the environment of the boot loader alone.", "quantifier": "every directory contents, file contents and command line", "why_tests_cant": "Tests load one or two files with a handful of options. Which file wins, whether a section is read by all three programs in the same way, and whether each command line option can be used at all are questions about all combinations.", "anchors": ["src/aktualizr_secondary/aktualizr_secondary_config.cc:5-121", "src/aktualizr_secondary/main.cc:32-75", "src/aktualizr_info/aktualizr_info_config.cc:5-69", "src/libaktualizr/config/base_config.cc:7-34", "src/libaktualizr/utilities/config_utils.h:57-129"]}
{"id": "C87", "title": "Archives with credentials keep what is in them, and lose exactly what is removed", "statement": "What is packed into an archive is what is read from it, file by file. After a device has got its own credentials, the shared ones cannot be read from the provisioning archive any more, nor can treehub.json; every other file in it, such as the address and the certificate of the server, reads as before; if a file cannot be removed, the archive is unchanged. An OSTree Secondary that gets the archive of the Primary fetches from the Primary's OSTree server with the Primary's credentials; if these are not all in files, it gets nothing and fetches nothing.", "quantifier": "every archive, every set of files and contents, every credentials and server, every state of the Secondary", "why_tests_cant": "The tests remove one file from one sound archive. Damaged archives, several files of the same name, full disks and the combination of what the Primary packs with what the Secondary unpacks have no test.", "anchors": ["src/libaktualizr/utilities/utils.cc:473-675", "src/libaktualizr/primary/secondary_provider.cc:66-93", "src/libaktualizr/primary/initializer.cc:189-200", "src/libaktualizr/bootstrap/bootstrap.cc:46-79", "src/aktualizr_secondary/update_agent_ostree.cc:38-107"]}
{"id": "C88", "title": "What the publishing tools read from a repository is what the repository gives", "statement": "An object that garage-deploy, garage-check or garage-push gets from a repository has the hash and the type asked for, and its local file is exactly what the server sent in one complete, successful answer. An object is given up only after three failed attempts for each type it can have, and nothing of a failed attempt stays behind; it is found whenever one of these attempts succeeds. In a directory it is found exactly if the file is there. A repository looks valid exactly if its configuration could be fetched and has the mode archive-z2.", "quantifier": "every server and sequence of its answers, faults and losses, every sequence of objects asked for", "why_tests_cant": "The tests use a server that answers properly, or fails in one prescribed way, with an empty directory. Redirects, directories used again and objects asked for in different ways are not tried.", "anchors": ["src/sota_tools/ostree_repo.cc:6-50", "src/sota_tools/ostree_http_repo.cc:11-72", "src/sota_tools/ostree_http_repo.h:12-36", "src/sota_tools/ostree_dir_repo.cc:40-42"]}
{"id": "C89", "title": "With rollback by U-Boot, the device comes up again after any update, and a confirmed image is not rolled back", "statement": "With a rollback mode of U-Boot configured, whatever images are installed, whether they work or not, and wherever the device is switched off, being switched on `bootlimit + 1` times brings up an image that works. A new image is tried: it is booted until it was booted `bootlimit` times without aktualizr confirming it, not fewer, and when it works it runs and is confirmed at once. With `uboot_masked`, an image that was confirmed is what runs until the next installation, however often booting is interrupted; a device that was rolled back stays with the old image until the next installation.", "quantifier": "every configuration of the modes, every bootlimit, every set of images that work, every sequence of boots, interrupted boots, restarts and installations that succeed, fail or die between two variables", "why_tests_cant": "No test runs a boot loader; the variables are written by a command that the tests do not have. The guarantee is about sequences of boots after arbitrary histories.", "anchors": ["src/libaktualizr/bootloader/bootloader.cc:27-77", "src/libaktualizr/package_manager/ostreemanager.cc:244-258", "src/libaktualizr/package_manager/ostreemanager.cc:374-394", "src/libaktualizr/primary/sotauptaneclient.cc:1034-1037", "docs/ota-client-guide/modules/ROOT/pages/rollback.adoc"]}
{"id": "C90", "title": "A signal ends the daemon", "statement": "When the daemon gets SIGHUP, SIGINT or SIGTERM, however many and whenever, it is told to end exactly once, and never without a signal. A command waiting in the queue is not carried out, nor any after it; after Shutdown no command is begun. The daemon does not get stuck: from a signal on its threads can always go on so that the process ends, without using objects that were destroyed.", "quantifier": "every interleaving of the daemon, the worker of the command queue, the thread of the signal handler and the end of main, every number and time of signals, every outcome of the commands", "why_tests_cant": "The test of the signal handler sends one signal to a program without aktualizr. Races between the end of the daemon and the handler are not seen by tests.", "anchors": ["src/libaktualizr/utilities/sig_handler.cc:14-58", "src/aktualizr_primary/main.cc:138-146", "src/libaktualizr/primary/aktualizr.cc:38-101", "src/libaktualizr/utilities/apiqueue.cc:46-112"]}
