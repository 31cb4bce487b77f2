# Formal model of aktualizr: design and trusted base

The code under study is `/repo` (C++, aktualizr at the pinned commit). It is read as text and never
built or run. Everything proved here is about the Lean model in `lean/Verif/`; the only tie to the
code is the citation of file and lines next to every definition.

## Layout

* `lean/Verif/Model/*.lean`: executable model, function by function, each definition citing what
  it models and saying where it simplifies. `Model/Scripts.lean` is generated from
  `config/sql/**.sql` by `tools/scripts_to_lean.py` and committed.
* `lean/Verif/Lemmas/*.lean`: helper lemmas.
* `lean/Verif/Spec/*.lean`: specifications that do not use the model's helper functions, and toy
  instances (`Toy`, `ToyRepo`) used for concrete cases.
* `lean/Verif/Props/Cxx.lean`: the property theorems, named `Cxx_…`; `example`s show concrete cases
  that meet the hypotheses. Where the code violates a property, the negation is proved with a witness
  and the theorem that does hold is named `…_partial`.
* `MANIFEST.json` is generated by `tools/manifest.py` from the theorem names and `tools/claims.json`.
* `seeded/LOG.jsonl`: wrong programs tried against the theorems, and what was tightened.

## Modelling conventions

* A C++ function is a function from the state before to an outcome (value or exception) and the
  state after (`Model/Monad.lean`); effects made before a throw persist. Undefined behaviour is an
  outcome of its own (`Err.ub`), never totalised away.
* The network, Secondaries, package manager, HTTP server and system calls are arbitrary functions
  of what was asked before: theorems quantify over every behaviour of them.
* Every write to storage or file (and every request, where it matters) takes one unit of a crash
  budget; when it is used up the process dies there with an exception no handler catches. Theorems
  that quantify over the budget quantify over every crash point.
* Histories are lists of operations, each with its own environment and crash budget; invariants are
  proved by induction over them.
* Concurrency (`Model/Queue.lean`, `Model/Treehub.lean`): what is done under one lock, or in one turn
  of an event loop, is one step; theorems hold for every interleaving.
* Signature verification, digests, key generation, JSON parsing and canonical printing are parameters:
  theorems hold for every choice. Where a theorem needs that digests do not collide, it says so as
  a hypothesis.
* Integers are unbounded except where width is observable (C35, C37, C42, C43, C48, schema version).

## Trusted base

* Lean's kernel. Axioms used: at most `propext`, `Classical.choice`, `Quot.sound`. No axioms of our
  own, no `sorry`, no `native_decide`, no `bv_decide`. Concrete witnesses use `decide +kernel`, which
  is evaluation by the kernel.
* The reading of the C++ sources expressed by the definitions in `Model/`, and the one-to-one
  transcription of the SQL scripts.
* `Utils::jsonToCanonicalStr` (`utilities/utils.cc:352-359`) is taken to be a function. Its static writer is
  initialised by a lambda that assigns to that very object before it is constructed, which works only because
  compilers elide the copy.
* SQLite transactions are atomic and durable, statements mean what `Model/Sql.lean` says; `rename(2)`
  is atomic; condition variables lose no wake-up.
* jsoncpp behaves as `Model/Json.lean` says. OpenSSL, libcurl, libostree, code generated by asn1c,
  Boost and the operating system are not modelled beyond the assumptions stated next to the
  definitions.

## What is modelled

Paths are relative to `src/libaktualizr` unless they start with `src`.

| module | sources | left out |
|---|---|---|
| Json, Tuf, Text, Codec, Time | `uptane/tuf.cc`, `role.cc`, `metawithkeys.cc`, `root.cc`, parts of `utilities/types.cc`, `crypto/crypto.cc`, `include/libaktualizr/types.h` | JSON text parsing, cryptography |
| World, Blob, Versions, Reports (tables) | metadata, delegation, ECU, installed version, result, report event tables of `storage/sqlstorage.cc` | SQL errors |
| Repos, Delegation, History | `uptane/uptanerepository.cc`, `directorrepository.cc`, `imagerepository.cc`, `iterator.cc` | fetcher internals (`Http`) |
| Client, Install, Device | `primary/sotauptaneclient.cc`: update checks, offline checks, installation, results, manifests, Root rotation to Secondaries, start-up | |
| Clean | `primary/aktualizr_helpers.cc`, `GetInstallationLog`, stored images of `packagemanagerinterface.cc` | errors of the file system other than a missing file |
| Cycle | `UptaneCycle`, `RunForever` of `primary/aktualizr.cc`, `downloadImages` of the client | pausing, aborting, other commands in between |
| Events | the same operations with the reports queued and the events sent by `sotauptaneclient.cc` | progress events, time stamps, exceptions of event handlers; a Secondary's thread runs as a whole |
| Managed | `virtual_secondary/managedsecondary.cc`, `primary/secondary_provider.cc:6-64` | directories and their permissions, fault injection; key generation and signing are given functions |
| Connect | `aktualizr_primary/secondary.cc`, `secondary_config.cc:85-114`, `libaktualizr-posix/ipuptanesecondary.cc:13-94`, `sqlstorage.cc:186-210, 255-295` | sockets: what answers at an address is a function of the attempt, incoming connections are a list of events that ends with the timeout; parsing of the configuration file; jsoncpp's `parse` and `canon` are given functions |
| FsMigrate | `storage/fsstorage_read.cc`, `storage/invstorage.cc:146-300` | permissions, the directory of old images, SQL errors; a file name of metadata is a role and a version |
| Campaign | `campaign/campaign.cc`, `campaign.h`, campaign calls of the client | JSON text parsing |
| Config | `config/config.cc`, `base_config.cc`, `config_utils.h`, the `*_config.cc` of the sections; boost's INI parser and stream translators as documented there | environment, `logger_set_threshold`, `7true` as a flag |
| Reports | `primary/reportqueue.cc` | the timer of the thread |
| Download, Http | `package_manager/packagemanagerinterface.cc`, `downloadImages` of the client, `http/httpclient.cc` response collection | progress reports, curl |
| HttpClient | `http/httpclient.cc`: settings, credentials, requests, downloads, reset, as options of curl handles | curl itself (what an option means is stated in the model), timeouts, slow transfers, user agent |
| Iterate | `uptane/iterator.cc` `DelegationIterator` (`allTargets`) | fetching and checking the delegated documents (Delegation), the cache of the current document |
| SecondaryConfig | `aktualizr_secondary/aktualizr_secondary_config.cc` with the options of its command line, `aktualizr_info/aktualizr_info_config.cc` | parsing of the command line, log level while reading |
| Archive | `utilities/utils.cc` `writeArchive`, `removeFileFromArchive`, `secondary_provider.cc` `getTreehubCredentials`, the end of `initTlsCreds`, `bootstrap.cc` `readServerUrl`, `readServerCa` | libarchive and its formats, the copy left behind by a failed removal |
| SourceRepo | `sota_tools/ostree_repo.cc`, `ostree_http_repo.cc`, `ostree_dir_repo.cc` `FetchObject` | libcurl, `create_directories`, parsing of the repository's configuration |
| Uboot | `bootloader/bootloader.cc` `setBootOK`, `updateNotify`; their calls in `OstreeManager` and the installation | U-Boot (the automaton of `rollback.adoc` is assumed), `fw_setenv` (succeeds or not as an input says) |
| Signals | `utilities/sig_handler.cc`, `aktualizr_primary/main.cc` (signals, end), `Aktualizr::RunForever`, `Shutdown` | what the commands do, other users of the queue, signals before the handlers are installed |
| Bootloader | `bootloader/bootloader.cc`, install and finalise of `ostreemanager.cc`, `packagemanagerfake.cc` | libostree, U-Boot counters |
| Queue | `utilities/apiqueue.cc` | |
| Initializer | `primary/initializer.cc`, used parts of `crypto/keymanager.cc`, `importData` of `storage/invstorage.cc` | PKCS#11 |
| DeviceData | device data reports of the client | collecting the data |
| Sql, Scripts, Migrate | `config/sql/**`, `storage/sqlstorage_base.cc`, `sql_utils.h` | column affinity, other processes |
| Util | Base64, URL encoding, file writing of `utilities/utils.cc` | the rest of it |
| Buffer | `utilities/dequeue_buffer.cc`, `src/aktualizr_secondary/secondary_tcp_server.cc` | sockets, asn1c (any decoder) |
| Cer | `src/libaktualizr-posix/asn1/asn1-cer.cc`, `asn1-cerstream.cc` | |
| Secondary | `src/aktualizr_secondary`: Secondary with the file update agent | keys |
| SecondaryOstree | `src/aktualizr_secondary`: Secondary with the OSTree update agent; `OstreeManager::pull`, `getCurrent` | libostree (its calls succeed or fail as an input says), abbreviated hashes, manifest signature, import of installed versions |
| Manifest | `uptane/manifest.cc`, `KeyManager::signTuf`, `UptanePublicKey`, `getCurrent` of the package managers, the document of `AssembleManifest` and `putManifestSimple` | keys in files or on PKCS#11, attacks_detected |
| SecondaryStart | `src/aktualizr_secondary`: keys, names, import of versions, requests for information and manifest (file update agent); `KeyManager::generateUptaneKeyPair`, `INvStorage::importInstalledVersions` | PKCS#11, the same for the OSTree agent |
| IpPair | the dispatch of requests in `aktualizr_secondary` (`msg_handler.cc`, `registerHandlers`), joining IpSecondary and SecondaryStart by a network that loses requests and answers | connections and encoding (Buffer, Cer); the OSTree agent; a Secondary of protocol version 1 |
| IpSecondary | `src/libaktualizr-posix/ipuptanesecondary.cc` | sockets |
| Generator | `src/uptane_generator`: `repo.cc`, `image_repo.cc`, `director_repo.cc`, `uptane_repo.cc`, the commands of `main.cc` | what a failing command leaves behind, copies of image files, `sign`, `addcampaigns`, key files |
| CertProvider | `src/cert_provider/main.cc`; `bootstrap/bootstrap.cc`; `generateCert`, `signCert`, `serializeCert` of `crypto.cc`; the paths of `INvStorage::importData` | OpenSSL, ssh and scp (each file gets there or not, as an input says), temporary files, the command line |
| Info | `src/aktualizr_info/main.cc` with the queries of `sqlstorage.cc` it makes; `getCurrent` of the package managers | opening of the storage (works or throws, as an input says), failing queries, `--help`, `--version`, the command line |
| Get | `src/aktualizr_get/get.cc`, `main.cc` with the import of credentials and keys and `HttpClient::get` | opening of the storage, command line, configuration, proxy; import of installed versions |
| CApi | `src/libaktualizr-c/libaktualizr-c.cc` over Cycle, Device, Download | campaigns, device data, pausing, signal handler, objects' lifetimes, the custom part of a manifest |
| Rate, Treehub | `src/sota_tools/rate_controller.cc`, `ostree_object.cc`, `request_pool.cc`, `deploy.cc` | libcurl, files |
| Tools | `src/sota_tools/server_credentials.cc`, `oauth2.cc`, `authenticate.cc`, `treehub_server.cc`, `ostree_hash.cc`, `ostree_ref.cc`, `check.cc`, `garage_push.cc`, `garage_check.cc`, `garage_deploy.cc` | the contents of uploads, reading of the command line, requests to the source of `garage-deploy` |

Not modelled at all: parsing of the command line itself, logging, PKCS#11, isotp Secondaries other than
through the arbitrary answers of `Peers`.

## Properties: what is modelled, how it is proved

* **C01** parsing of keys and roles and `UnpackSignedObject` over JSON. Loop invariant over the
  signatures; equivalence with a declarative threshold specification (`Spec/Signatures`).
* **C02 C03 C04** `updateRoot`, `verifyRoot`, `storeRoot` with server and crash budget. Invariant of
  every reachable storage over histories; the chain is stated on stored documents (`Spec/Roots`). The
  hypothesis excludes a first Root with negative version, for which the bound is refuted.
* **C05 C06 C07** `DirectorRepository::updateMeta`. Postconditions by symbolic execution, monotonicity
  by induction over histories. A rotation clears the stored Targets, so that a lower version is accepted
  afterwards; an empty fetched Targets leaves the previous ones in use, unchecked (witnesses).
* **C08 C09** `ImageRepository::updateMeta`. Postconditions stated on documents (`Spec/Metadata`). Only
  the Timestamp is protected against rollback (witness for Snapshot).
* **C10 C11 C12 C13 C14** `checkUpdates`, `MatchTarget`, `findTargetHelper`, `getTrustedDelegation`,
  `getNewTargets`. Induction on the remaining depth; chains of delegations as an inductive predicate
  (`Spec/Delegation`). A terminating delegation does not stop its siblings, delegated Targets the
  Snapshot does not list are accepted unchecked (witnesses).
* **C15 C16** table `installed_versions`. Invariant over all sequences of recordings.
* **C17** report queue and table: invariant that everything enqueued is acknowledged or stored, in
  order; exact content of batches. A crash between answer and deletion sends again (witness).
* **C18 C19 C20** manifests, counters, results, `computeDeviceInstallationResult`: invariants over
  device histories with crashes, also with cycles of the daemon (`C18Life.lean`). Exchanged roles of ECUs repeat counters, ECU results without a device
  result are lost, a failure hides 'needs completion' (witnesses).
* **C21** reboot flag, sentinel, OSTree and fake package manager: invariant over histories of installs,
  starts, reboots and crashes; the recorded log relates each result to the reboot before it.
* **C22 C23 C48** download as a machine fed with arbitrary events of the transfer; invariant that
  the hasher has seen what the file holds; exactness of `verifyTarget`. Empty Targets, failing writes,
  Targets sharing a file, wrap-around of the size are refuted by witnesses.
* **C24 C25** `uptaneInstall` with every behaviour of peers: what is in the log of installations was
  verified before. `checkImageMetaOffline` failing is ignored by the caller (witnesses).
* **C26 C27** aktualizr-secondary over arbitrary sequences of requests, faults and restarts: invariant
  tying the pending Target to verified metadata and the hasher to the file. A restart skips the Image
  repository (witness), unnoticed loss of written data activates a wrong image (witness).
* **C28 C29** command queue: all interleavings of the steps under locks; refinement of the token to
  the last relevant call.
* **C30 C31** textual forms: round trip as an exact characterisation.
* **C32** order of time stamps equals order of instants for four-digit years; other texts: witnesses.
* **C33 C34 C46** Base64, URL encoding, file replacement: induction over the bytes; crash prefixes.
  Which texts make the Base64 decoder leave its buffers is an equivalence (C33_decode_exact).
* **C35** CER: closed computations for headers, induction over chunks and items; which of the 32 bit
  integers come back is an equivalence for both kinds of `char` (C35_integer_exact, `Spec/Cer.lean`:
  arithmetic of the number, without its bytes); witnesses where the decoder fails.
* **C36** opening the storage with a fault at any command: the disk holds the old or the new database;
  invariant over the transaction. Failures are not reported (negation).
* **C37 C51** buffer refines a list; the server over any decoder, handler and list of connections: it
  stops only to reboot, handles only what was decoded, and dies only of a failing read (witness).
* **C38** rate controller: invariant over all histories of results.
* **C39 C40 C52** push to Treehub: invariant over all schedules of an event machine, termination
  measure, `Spec/Treehub` for presence on the server. `--walk-tree` is refuted by a witness.
* **C41 C54** provisioning: a relation `Chg` between the storage before and after every write is
  preserved by every start; completion by a forward (`Goes`) analysis that counts the effects needed.
* **C42 C43** upload loop and version negotiation: induction over the remaining bytes; composed with the
  model of the Secondary in `C42_file_secondary`.
* **C44** response collection: induction over chunks.
* **C45** tables refine three maps over all histories of calls; **C50** round trip of the ECU list.
* **C47** Roots sent to Secondaries: induction over the versions.
* **C49** device data: the stored hash is that of the last acknowledged value over histories.
* **C53** abstract interpretation of the scripts on table definitions (`check`, `trace` in
  `Lemmas/Sql`), proved sound for every content, then evaluated on the shipped scripts.
* **C55** clean-up of images: effect by effect with a crash budget; exact set of marked names; invariant
  that a current version is the last installed one. Shared and missing files are refuted by witnesses.
* **C56** reported image: the database names the image through every step that does not replace it.
* **C57** IP Secondary: symbolic execution of each operation against an arbitrary peer.
* **C58** lives with cycles: every effect on an ECU is inside `uptaneInstall` after a successful offline
  check; the storage only evolves through verified Roots (closure lemmas in `Lemmas/DeviceDb.lean`).
* **C59** reports of a cycle: what is stored before the closing manifest is what the manifest carries; an
  offered update is still new when the stored metadata is checked again.
* **C60** waiting for a reboot: the pending row of the Primary survives every cycle (rows stay ordered by
  id, so the loop over pending ECUs never removes it), and ends `fetchMeta` before anything else.
* **C61** acceptance: `Spec/Honest.lean` says what genuine repositories offer; forward execution of the
  whole check from there (`Lemmas/Honest.lean`, `Lemmas/HonestImage.lean`, induction over the chain of new
  Roots), so that no step can refuse. Images listed only by delegated roles are included:
  `Spec/HonestTree.lean` says when the roles the search may follow are genuine, `Lemmas/HonestTree.lean`
  executes the search over them (first visit from the server, later ones from storage; induction over the
  depth and over the names of each level). `C62Case.lean` has an image two delegations down.
* **C62** installation: forward execution of a whole cycle (`Lemmas/HonestOffline.lean`: checking the stored
  metadata again succeeds; `Lemmas/HonestInstall.lean`, `Lemmas/HonestCycle.lean`: `WillAt n d m Q`, "from
  `d`, `m` succeeds with `Q` within `n` effects", and the invariant `Progress`), from genuine metadata and
  helpful peers to the report of the success. Images of delegated roles as in C61.
* **C63** events and reports: refinement (`Lemmas/Events.lean`): `Says m m0 d l`, "on `d`, `m` does what `m0`
  does and tells `l`, or a first part of `l` when the process dies", with rules for each construct of the
  model; `l` is given explicitly for each operation, and the theorems are read off it. Reports and events
  are compared per ECU, so that the interleaving of the Secondaries' threads does not matter.
* **C64** virtual Secondaries: invariants over lives (`life`) in which the process may die at each write:
  the keys in the files do not change once both are there, and were generated together
  (`C64_identity_partial`, `C64_manifest_partial`, `C64_install_partial`; partial because a full disk breaks
  them, and because an installation that dies leaves a mixture). Metadata: `C64_metadata_accepted`,
  `C64_metadata_accepts`; `C64_accepts_what_the_primary_verified` composes the Primary's offline check with
  the Secondary's. Roots: `C64_root` (version, attack report). That a Root must be signed by the one held is
  false (`C64_root_not_chained`).
* **C65** Secondaries at the start: inversion of `createIPSecondaries` into the record, answer or connection
  each Secondary comes from (`C65_known`, `C65_identity`, `C65_refuses`, `C65_members`, `C65_address`), then
  what is written down about addresses (`createIP_extra`), `C41_secondaries` about what provisioning leaves, and
  both together in `C65_again`: the next start needs no network (`C65_starts`). `C65_complete_partial` needs
  different keys for different addresses and possible answers, `C65_only_partial` that no stranger connects;
  without these the statements are false (below). `C65_kept`: whatever happens while connecting, recorded
  Secondaries stay unchanged. `C65_again` assumes that jsoncpp reads back what it wrote.
* **C66** move from files: every loading and storing step is split into what it does to the database if it gets
  through and what it leaves if not (`Copies`, `copyAll_spec`), the sum of the steps is compared field by field
  with the declarative `Copy` of `Props/C66` (`C66_keeps_partial`, `C66_nothing_lost_partial`, `C66_starts`), and
  `Copy` with the old formats: the list of Secondaries, installed versions, metadata (`C66_ecus`, `C66_versions`,
  `C66_metadata_partial`, `C66_misconfigured`). `C66_same_device` composes it with `C41`. Missing, because false: that the next start
  completes an interrupted move, and Roots of the Image repository newer than the Director's latest.
* **C67** campaigns: the parser accepts exactly what the declarative `Describes` admits (`C67_reads`, by induction
  over the metadata entries), the list is the pointwise image (`C67_list`, `C67_no_list`), the round trip with the
  generator (`C67_roundtrip_partial`, false from 4 GiB on), and decisions compose with C17 (`C67_decision`).
* **C68** configuration: the INI parser is equivalent to a textual specification (`C68_lines`, invariant over
  the lines read); the map of files is the ordered list of the active ones; induction over it gives the precedence
  for every row of a table written from the documentation (`C68_precedence_partial`, `C68_extra`), independence of
  listing order (`C68_listing`), failures (`C68_reads`), derived values (`C68_derived`), spelling of
  flags (`C68_flags`).
* **C69** the writer against the reader of C68: the text is parsed to exactly the sections and options written
  (induction over sections and options), each kind of value is read as written (`C69_value`), so the round trip
  holds for every row of the tables but one (`C69_roundtrip_partial`); the text determines the configuration
  (`C69_distinct`).
* **C70** the generator (`src/uptane_generator`) over directories of files, every command of `main.cc` that
  changes metadata. Invariant over runs of commands: every document parses, is signed by the key its Root names,
  Snapshot and Timestamp describe the files beside them, Roots are a chain; versions only grow. From it every
  state is honest in the sense of C61 for any device that holds earlier published documents
  (`C70_accepted_partial`, `C70_nothing_new_partial`), which then again holds published documents; with
  `C70_holds_on` this covers any alternation of commands and polls. Images that delegated roles list, at most
  five deep: a further invariant says that every delegation names the key the tool signs the role with, that the
  table beside it has that key, and that the role's file only gets newer; with it the published files are an
  honest tree in the sense of C61 (`C70_delegated_partial`; `C70_below` shows its bound on the writes exists).
  The full statement is false when Director Targets are signed that were staged before what is published
  (`C70_version_goes_back`, `C70_revoked_comes_back`), after some revocations (`C70_shared_key_lost`,
  `C70_version_restarts`) and for a role called `invalidrole` (`C70_invalidrole`). Missing: images of delegated
  roles after revocations that do no such harm. The concrete cases run the
  generator and the client on a computable text form of JSON (`Spec/ToyText`), with a checksum for digests.
* **C71** the three tools as functions of the answers of the servers: inversion of a successful run into the
  requests sent, in order, with what was answered (`C71_push`, `C71_check`, `C71_deploy`), joined with C39 for
  the objects; the converse for `garage-check` (`C71_check_succeeds`); dry runs by an invariant on everything
  sent (`C71_dry_run_partial`, false with `--walk-tree`); hashes by induction over the digits
  (`C71_commit_names`, `C71_commits_differ`). Missing, because false: the walk of `garage-check --walk-tree`
  and the manifest have no influence on the exit status.
* **C72** invariant on everything sent, for any outcome, crashes and undefined behaviour included (`C72_push`,
  `C72_check`, `C72_deploy`); credentials against a declarative reading of the archive (`C72_credentials`).
* **C73** for every state reached from `generate` by sensible commands (`Reached`), one theorem per command relating
  the files before and after it by paths into the parsed documents (`Spec/Generator.lean`: `EntrySet`, `SameBut`,
  `Unchanged`, …): `C73_image`, `C73_custom_image`, `C73_add_target` (with `C73_get_target`: what is listed is found),
  `C73_sign_targets`, `C73_empty_targets`, `C73_old_targets`, `C73_refresh_targets`, `C73_refresh_root`,
  `C73_generate`, `C73_add_delegation`, `C73_revoke_delegation`; completeness of the Snapshot (`C73_snapshot`) from an
  invariant of all commands (`Synced`), by induction on the walk through the tree. `refresh` of Snapshot and Timestamp
  is not stated separately (they are rewritten by every command).
* C74: OSTree Secondary. Histories of requests, starts and reboots over `SecOst.step`, each with faults and deaths of the
  process anywhere. Which target is pending is traced to the operation that established it (`OstAuthorised`, as in C26);
  only an install request with such a target deploys (`C74_deploys_authorised`), every pull and every new commit is for
  such a target, from the server and with the credentials in the archive (`C74_fetches_authorised`). For the version
  tables the invariant of C21 is carried over (`Sound`): a current version was recorded as pending, the machine was
  rebooted, and it ran (`C74_current_partial`, for working reboot detection and well-formed hashes). The manifest names
  the running hash (`C74_manifest`). Progress: `C74_download_proceeds`, `C74_install_proceeds`, `C74_completes`,
  `C74_rolled_back`.
* C75: manifests. Histories of the device from its first start (`runDevice` of `Dev.fresh`). Every Secondary entry sent is
  signed under a key the Secondary gives in the same call, and was given by it in this call or in an earlier one
  (`C75_secondary_entries`, with an invariant on the stored last known manifests); what a Secondary gives is passed on
  unchanged (`C75_passed_on`), and if it is silent its last words are (`C75_last_known`, over restarts and crashes). The
  document tells exactly the assembled facts and is signed by the Primary (`Man.C75_document`), can always be made
  (`Man.C75_document_made`), reads back as written (`Man.C75_read_back`). Its image is what is booted or recorded last
  (`Man.C75_image_booted`, `Man.C75_image_recorded`). The key is the one registered for the Primary, at any later start
  (`Prov.C75_registered_key`, `Prov.C75_verifiable`, on the provisioning model of C41).
* C76: identity of an IP Secondary. An invariant over lives of a new Secondary, started with any configurations and dying
  anywhere (`Life`), gives `C76_same_identity`, `C76_chosen` and, with `Man.own_manifest`, `C76_manifest`. A start that is
  not the first acts as the restart of the model of C26 (`C76_restart`), so each life contains one of those lives
  (`C76_refines`) and C26 carries over (`C76_installs`). With C75 a manifest reaches the server (`C76_reported`). Progress:
  `C76_first_start` with the import, `C76_answers`.
* C77: Primary and IP Secondary together. The peer of C57 is here the process of C76 behind a network. Every sequence of requests
  is a life of C76 (`C77_life`), so C26, C27, C57 and C76 combine: `C77_metadata`, `C77_installed`, `C77_told`. Progress by
  induction over the upload loop (`loop_live`): `C77_update`, `C77_heard`, `C77_round`. What a lost answer does:
  `C77_left_behind`, `C77_stuck`.
* C78: the certificate provider, with the device that gets its files. `main` is taken apart into where the credentials come from
  (`Obtained`), where files belong (`BelongsAt`) and what delivering does (folds over the files): `C78_local`,
  `C78_target_partial`, `C78_failure`, `C78_requests`. The device is that of C41 with the files imported at the paths of the same
  configuration: an invariant over all its steps gives `C78_device`, `C78_device_target_partial` and `C78_fleet_id`; with C68
  `C78_server`.
* C79: aktualizr-info beside a database that changes between any two of its queries (`Around.db`, a function of the moment).
  `Tells` is a logic of programs whose output so far is true of some moment up to now: `C79_true`. `C79_secrets` is
  noninterference, by congruence over the whole program. For a database at rest `Adds` (exact output) gives `C79_answers` and
  `Gives` (output in the shape of a spec relation) `C79_report`. Waiting: `C79_wait` from the postcondition of the loop,
  `C79_wait_ends` by induction over the attempts. With C41: `C79_provisioned`, and an invariant over all further starts for
  `C79_never_provisioned`.
* C80: as C62, with a package manager that asks for a reboot: `Progress` has a second list, of ECUs that wait, and the rows of
  `installed_versions` stay readable (`Legible`, kept by every save). `Lemmas/HonestReboot.lean` executes the rest of the cycle
  and the next start: registration finds nothing to do, the pending version is read back, the results of the first process and
  the Primary's are aggregated and sent.
* C81: `Get.main` over the import of `Prov` and the attempts of `Http`. The import is shown equal to a list of steps that do nothing,
  throw or write once, none undoing another, so that redoing it after a part of it is doing it once (`Step.all_again`). Partial: the
  program looks at the status only, so that a third attempt broken off after a status of 200 is printed as success (`C81_broken`).
* C82: as C80 for any set of ECUs that complete later (`Lemmas/HonestPending.lean`: `Left`, the mixed outcome of the cycle). The
  state of a waiting device (`Standing`) is an invariant of restarts and checks (`restart_will`, `pollEarly_will`), under which
  ECUs only move from the waiting list to the completed one (`Moves`); the theorem is an induction over the calls with a Secondary
  that has not completed, followed by the check that finds the last one completed (`pollFinal_will`) or the start that completes
  the Primary.
* C83: `CApi` wraps the operations of the client as `libaktualizr-c.cc` does. What a return value means is read off the
  operations (C10, C19, C59 and their lemmas); reading is an induction over the sizes, with the invariant that a handle that has
  failed has nothing left. Partial because false: 0 from downloading or installing does not mean success.
* C84: `HttpClient.lean` has the options of the handle that is kept and of its duplicates, and the request a handle describes. Each
  call is brought to a closed form (`Lemmas/HttpClient.lean`); inductions over the sequence of calls give that the kept handle only
  ever differs from a new one in the credentials, and that settings, headers and credentials are the last ones set (`Spec.Web`). The
  check of the server holds for all sequences (`C84_server_checked`). Partial because false: see the deviations.
* C85: `Iterate.lean` has the iterator (place in the tree, indices, terminating flag, level) with `operator*` and `operator++`, over any
  finite tree of roles, and the range-for loop as a relation. The loop is shown to have exactly one course for every tree, given by a
  recursive specification that knows no iterator (`visit`; `C85_exact`), always a prefix of the preorder list of all targets
  (`C85_in_order`), and all of it if all roles have targets, none is terminating and there are at most four levels (`C85_all_partial`).
  Fetching the delegated documents is not part of it (C26). Partial because false: see the deviations.
* C86: `SecondaryConfig.lean` reads the rows of the two programs with the machinery of `Config.lean`. The value of an option
  (`Spec.Value`) is shown by induction over the files, for any set of rows without duplicates; that two values of an option are the same
  (`value_unique`) gives the agreement of aktualizr-info with the Primary from C68. Partial because false: see the deviations.
* C87: `Archive.lean` has an archive as the files libarchive lists and those behind a header it cannot read. Reading what was packed, for
  every map; after a removal, for every archive, that the file cannot be read and nothing is new; for sound archives that all other files
  read as before; what makes a removal fail, exactly. The handover runs `downloadTargetRev` of the OSTree Secondary (C74) on what
  `getTreehubCredentials` of the Primary gives. Partial because false: see the deviations.
* C88: `SourceRepo.lean` has the local files, the table of objects and every attempt to fetch. The server is any function of the path and the
  number of the attempt. By an invariant over any sequence of requests: the file of an object is exactly a complete answer
  (`C88_content_partial`), a failed search leaves nothing (`C88_missing`); a search succeeds exactly if one of three attempts does
  (`C88_found`). Partial because false: see the deviations. Contents are not compared with hashes, in the code as in the model.
* C89: `Uboot.lean` has the three variables, the functions of `Bootloader` that write them, when they are called, and the two deployments. What
  U-Boot does is not in the repository and is an assumption: the automaton of `rollback.adoc`; in the mode `uboot_generic`, where
  `upgrade_available` is not written, every boot is counted. An invariant (the image to roll back to works, and the main image works or U-Boot
  counts its boots or has given it up) gives that the device comes up (`C89_comes_up_partial`), for sequences in which `fw_setenv` does not
  fail; deaths between two calls are included. A confirmed image stays (`C89_stays`), a rollback lasts (`C89_rolled_back`), a new image gets its
  boots (`C89_tried`, `C89_not_before`). Partial because false when `fw_setenv` fails: see the deviations.
* C90: `Signals.lean` has the thread of `RunForever` with the command it waits for, the worker of the queue, the thread of `SigHandler` with the
  steps of `Abort` and `Shutdown`, the end of `main`; any interleaving. Signals before the handlers are installed are not in the model, nor are
  other users of the API. By invariants over all interleavings: told once (`C90_once`) and only by a signal (`C90_only`), what is queued is not begun
  (`C90_queued`), nothing begins after `Shutdown` (`C90_shutdown_partial`; at most one cycle in any case: `C90_last_cycle`), and from every reachable
  state a proper end is possible (`C90_can_end_partial`, checked for each of the finitely many states that satisfy the invariant). That it is
  inevitable is false: see the deviations.

Every property could be expressed; statuses and what is missing are in `MANIFEST.json`.

## Deviations of the code found on the way

Each has a witness theorem (named in brackets) unless marked otherwise.

* Root: a first Root with negative version breaks the bound on rotation [C04_negative_version_counterexample].
* Director: rotation forgets the stored Targets version [C05_rotation_forgets]; previous Targets kept
  because the fetched ones are empty may be expired or delegate [C06_director_previous_may_be_expired,
  C07_previous_may_delegate].
* Image repository: Snapshot rollback accepted [C09_snapshot_rollback_accepted]; delegated Targets not
  listed in the Snapshot are accepted [C13_unlisted_accepted]; terminating delegations do not stop
  siblings [C12_terminating_does_not_stop_siblings].
* Offline checks: expired Targets, Targets of another version accepted before installing
  [C25_expired_targets_accepted, C25_wrong_version_accepted]; OSTree images of Secondaries are not
  verified [C24_ostree_secondary_unverified].
* Results: [C19_ecu_result_lost], [C20_failure_hides_completion], [C18_role_change_repeats].
* Installed versions: [C15_sha512_only_stays_old, C15_lazy_serial_two_current].
* Reboot: a crash after clearing the flag leaves the update pending for good [C21_crash_stuck]; a stale
  flag gives success without a reboot [C21_unsupported_then_supported].
* Clean-up of images: a file shared by two names is lost with the older one [C55_shared_file_lost]; an
  interrupted clean-up, or a missing file, makes every later one throw [C55_crash_blocks,
  C55_missing_file_blocks], and the exception leaves `RunForever`; the image of a pending update is not
  kept [C55_pending_removed].
* Download: empty Targets are not checked, failing writes are not noticed, stale names [C22 witnesses];
  a Target without hashes is undefined behaviour [C23_no_hash_undefined]; the space check wraps
  around [C48_overflow].
* Secondary: [C26_restart_skips_image_repository], [C27_unnoticed_loss], stuck after a wrong upload,
  null hasher after a restart [C27 witnesses]; a reset connection ends the process
  [C51_reset_kills_server].
* IP Secondary: an image file shorter than announced is uploaded for ever [C42_endless]; an answer 0 is
  taken as protocol version [C43_zero].
* Codecs: 'zzzz…Z' never expires [C32_malformed_never_expires]; Base64 decoding leaves its buffers
  [C33_decode_undefined]; CER integers, long strings, nested sequences, reads outside the input
  [C35 witnesses]; the file writer truncates on a full disk [C46_full_disk_truncates].
* Storage: failed migrations are not reported [C36_not_reported]; `rollback.20.sql` fails once an image
  was installed again [C53_back_stuck]; blobs with NUL are cut [C45_nul_cuts].
* Provisioning: a lost answer to the registration of the ECUs blocks the device for ever with a
  server that refuses a repetition [C41_lost_answer]; half-stored credentials [C41_half_credentials];
  the device id changes after a crash [C41_id_changes]; the registered flag is lost [C41_flag_lost];
  a changed hardware id is registered under the old one [C41_old_hardware_id]; exchanged serials, empty
  import, equal serials [C41_swap, C41_empty_import, C41_equal_serials]; shared credentials stay after a
  crash [C54_shared_stay].
* Treehub: `--walk-tree` does not send a missing object whose child exists
  [C52_missing_commit_not_sent].
* Queue: an abort leaves the queue paused [C28_abort_stays_paused].
* Cycles: a failed check is not reported unless the repositories disagree, although the cycle sends a
  manifest to report it [C59_bad_metadata_unreported]; Director Targets changed under the same version
  number are offered for ever, never installed and never reported [C59_same_version_unreported]; an
  update of the Primary that already waits for a reboot when the daemon starts is never completed by it
  [C60_left_waiting].
* Events: a Secondary that applied an update and waits for a reboot is told to the API user as failed, the
  Primary as successful [C63_secondary_waiting_event_negative]; a check while an update is pending sends no
  `UpdateCheckComplete` [C63_pending_check_silent]; an exception during an installation sends no
  `AllInstallsComplete` [C63_throwing_install_silent].
* Virtual Secondaries: the keys are rewritten at each start, so a full disk destroys the identity
  [C64_full_disk_loses_identity]; an installation that dies leaves new content under the old name, and on a
  full disk a part of the image is installed with success [C64_torn_installation]; the Image repository's
  metadata is not verified [C64_image_metadata_unchecked]; a Root need not be signed by the previous one
  [C64_root_not_chained]; a Root answered with "verification failed" is kept [C64_refused_root_stays]; a
  proper Root that changes the Targets key is refused, so that an update over two such Roots fails at first
  [C64_key_rotation_refused]; a Root with a wrong version is answered with success, only the manifest tells;
  installing does not depend on the metadata having been accepted [C64_installs_after_refusal].
* Secondaries at the start (C65): the key of an address is host and port without separator, so one Secondary
  that connects can stand for another one, which is then missing [C65_keys_collide]; a Secondary that connects
  with an impossible answer is not waited for any longer [C65_improper_is_missing]; whoever connects while the
  daemon waits becomes a Secondary of the vehicle [C65_stranger_added]; one that connects twice stops the daemon
  [C65_twice]; a new one that does not answer becomes an ECU "Unknown" [C65_silent_becomes_unknown]; a known one
  that accepts the connection and does not answer stops the daemon, one that is off does not
  [C65_silent_stops]; another identity at the address of a known Secondary is taken with a line in the log, and
  not remembered for the next start [C65_replaced_is_forgotten]; ports are cut to 16 bits [C65_port_cut].
* Move from files (C66): if the process dies or anything is thrown once the database exists, the move is never
  taken up again; the device has no identity and registers as a new one although its files are there
  [C66_interrupted_is_forgotten, C66_interrupted_registers_again, C66_refused_is_forgotten]. The Roots of the Image
  repository are copied up to the version of the Director's latest one only, without a Director none, and removed
  [C66_image_root_lost, C66_no_director_root]. A `root.json` without version is removed before it is written under
  its new name [C66_root_lost_on_the_way]. A serial listed twice drops all ECUs, a missing Uptane key drops the
  other one, and a result of an installation is never read; the files are removed all the same [C66_twice_listed,
  C66_half_a_key, C66_result_dropped].
* Campaigns (C67): a size is written with 32 bits [C67_size_cut]; a second description is an error unless the
  first one is empty [C67_two_descriptions].
* Configuration (C68): `--secondary-config-file` always throws, as it is looked up under another name
  [C68_secondary_option]; numbers in quotes and unquoted paths with spaces are ignored silently, a negative interval
  wraps around, unknown names select a default [C68_values]; the default mode is not the documented one
  [C68_default_mode].
* Written configuration (C69): `p11.tls_cacert_id` is written as `tls_ca_id` and lost [C69_cacert_lost]; `&` in
  paths of `storage` and `import` doubles with each round [C69_ampersand]; the passwords of the HSM and of the
  PKCS#12 archive are part of the report to the server (`writeRows`).
* Repository generator (C70): staged Director Targets keep the version of the time they were staged, so a refresh
  or a revocation in between makes signing publish a lower or equal version, which devices reject, and brings
  revoked targets back [C70_version_goes_back, C70_revoked_comes_back]; revoking a delegation leaves the roles
  below it, whose images can still be assigned but are no longer reachable, and whose names cannot be used again
  [C70_orphans_stay]; the same ECU can be assigned two files [C70_ecu_twice]; the length of custom images is cut
  to 32 bits [C70_length_cut]; a delegation with an empty pattern leads to `back()` of an empty string
  [C70_empty_pattern]; of two delegations with the same key, revoking one takes the key from the other, which stays
  listed but is rejected by devices [C70_shared_key_lost]; a delegation revoked and added again restarts at
  version 1, below what devices hold [C70_version_restarts]; a delegation called `invalidrole` gets neither keys nor
  threshold when parsed and is always rejected [C70_invalidrole]; an image given for a role with an empty name is checked against its pattern and then put into
  the top-level Targets [C73_empty_role_name]. Not witnessed: `signtargets` with nothing staged signs the published version again;
  revoking adds an empty `delegations` to every role visited; an empty delegation name sends an image to the
  top-level Targets; a role whose file is missing is listed with version 0 in the Snapshot; `generate` over an
  existing directory leaves old numbered Roots; `jsonToCanonicalStr` uses a static object inside its own
  initialiser.
* Publishing tools (C71, C72): `garage-push --dry-run --walk-tree` pushes the branch [C71_dry_run_pushes_ref];
  `garage-check --walk-tree` succeeds with objects missing, and without looking at the Targets if the commit itself
  is missing [C71_walk_ignores_missing, C71_walk_missing_commit]; a refused manifest is only logged
  [C71_manifest_refused]; a malformed branch ends `garage-push` with an uncaught exception [C71_bad_ref_crashes];
  credentials without an address lead to `rbegin` of an empty string [C71_no_repo_url_undefined]; names given to
  `garage-deploy` reach the shell unquoted [C71_deploy_shell_injection]; hashes with signs or spaces are accepted
  [C71_commit_parse_not_strict]; a reply without token counts as a token [C72_empty_token]; white space after an
  address stays inside [C72_blank_in_address].
* OSTree Secondary: a version that was rolled back is deployed again by an install request without new metadata, since the
  pending target is taken from storage before the stored metadata is dropped [C74_deployed_again]; a death between
  deployment and record leaves a version that boots but is never recorded [C74_crash_unrecorded]; a target without a
  SHA-256 hash is "downloaded" with success although nothing is fetched [C74_without_sha256]; an archive with an empty key
  file is used with the key of an earlier archive [C74_mixed_keys] or without TLS credentials at all [C74_without_keys];
  a restart takes targets from Director metadata that was refused [C74_restart_skips_image_repository].
* Manifests: the serial inside a Secondary's manifest is not compared with the Secondary's [C75_serial_unchecked]; a manifest
  that does not verify is left out, not replaced by the last known one [C75_invalid_left_out]; after a change of key the last
  known one is left out too [C75_new_key_drops].
* Identity of an IP Secondary: a death after storing the names and before the import of the factory's version loses the
  import for good [C76_import_lost]; a death between replacing the image and recording it makes the manifest name the
  old version with the new hash [C76_stale_name]; a changed key type in the configuration makes each request end the
  process [C76_type_changed].
* When the answer to the last part of an upload is lost, the Secondary keeps the complete file and refuses every further part, also
  after a restart and after new metadata; the Primary, which asks to install only after a complete upload, can never finish this
  update [C77_stuck, C77_lost_chunk]. A lost answer to the request to install makes the Primary report a failure though the
  image is installed [C77_lost_answer].
* Certificate provider: exits successfully when nothing could be copied to the target [C78_failure_hidden]; with a configuration
  that has no paths for importing it writes files the device never reads [C78_not_imported]; a failure in the middle leaves a
  new key without certificate where both were [C78_half]; a fleet CA certificate and key that do not belong together are
  accepted [C78_ca_mismatch]; an archive without address gives an empty file [C78_no_address]; a relative `server_url_path`
  means different files here and on the device [C78_relative_address].
* aktualizr-get: a transfer that breaks off after a status 200 is tried three times, and the third time its status and the part
  received are printed as a success [C81_broken].
* C interface: `Aktualizr_download_target` and `Aktualizr_install_target` return 0 although the download or installation failed
  [C83_download_zero, C83_install_zero]; `Aktualizr_updates_check` returns null both for an error and for no updates
  [C83_check_null]; passing on the null target of an empty list is undefined behaviour [C83_null_target]; a read with room for
  2^63 bytes or more looks like the end of the image [C83_read_huge].
* HTTP client: `reset`, by which a running download is to be interrupted, frees the handle the other thread uses: undefined
  behaviour [C84_reset_undefined]; a change of credentials that fails leaves the new certificate with the old key, and a reset
  after it none at all [C84_failed_change]; the authorities of the system are trusted besides the one that is set
  [C84_more_trusted]; a login without password is not sent to the proxy [C84_login_lost]; a body ends at its first zero byte
  [C84_body_cut]; downloads lack the headers and OCSP stapling [C84_download_lacks]; with the certificate in the device and the
  key in a file no request can be made [C84_cert_in_device]; a copy of a client mistakes the place of the certificate and has no
  credentials after a reset [C84_copy].
* Iterating over all targets: a terminating delegation ends the whole iteration [C85_terminating], as does a role at the fifth level
  [C85_fifth_level]; a role without targets of its own ends it with an exception [C85_empty_role].
* aktualizr-secondary does not start when the port is given on its command line, as it is stored as an `int` and asked for as an
  `in_port_t` [C86_server_port]; the documentation has the port in another section than the code, and ports out of range are ignored or
  wrap around [C86_port].
* Removing the shared credentials from the provisioning archive: a damaged file, not readable before, is cut and then read as if it were
  whole [C87_cut]; files behind a damaged header are thrown away [C87_lost]; on a full disk the archive is replaced by what is none, as an
  error at its end is only logged, and the address of the server is lost [C87_full_disk].
* Reading a repository from a server: the page of a redirect is taken for an object [C88_redirect]; in a directory used again, the end of a
  longer old file stays behind the new content [C88_old_tail]; objects once fetched are given without regard to the type asked for
  [C88_other_type].
* U-Boot's variables: a failing `fw_setenv` is only logged. Without the announcement, an image that does not work is booted for ever
  [C89_not_announced]; without the confirmation, one that works is rolled back [C89_not_confirmed]. An installation that fails after a rollback
  makes the device try the bad image again [C89_tries_again]. With `uboot_generic`, interrupted boots roll back an image confirmed long ago
  [C89_generic_interrupted].
* Signals: the handler uses the object of `main` after its destruction, when the daemon ends while the handler runs [C90_dangling,
  C90_dangling_notify] or before it [C90_dangling_late]. A signal during a check for updates does not keep these from being downloaded and installed
  [C90_carries_on]; one before the first cycle does not keep that from being gone through [C90_first_cycle].
* aktualizr-info: `--name-only` without an identity prints the report instead, with success [C79_name_only_misled];
  `--ecu-pub-key` drops the options after it [C79_pub_key_alone]; the lines of a report are true each at its own moment, not
  together [C79_torn]; one delegation that cannot be read hides the others [C79_delegations_hidden]; without a booted OSTree
  deployment the report stops in the middle [C79_not_booted]; after a start of aktualizr that died before noting the registration,
  `--wait-until-provisioned` never ends [C79_never_provisioned]. Not modelled: opening the storage read-only still creates its
  directory and changes its permissions (sqlstorage_base.cc:42-59).
* Device data: [C49_crash_lost, C49_crash_resent, C49_default_hwinfo_once].
