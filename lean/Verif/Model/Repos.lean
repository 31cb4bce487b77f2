import Verif.Model.World

/-!
# Root rotation, Director repository, Image repository

Models `src/libaktualizr/uptane/{uptanerepository.cc,directorrepository.cc,imagerepository.cc}`.
-/

namespace Aktualizr

open M (throwWhen orThrow gets modify lift catchStd catchUpt)

/-! ## `RepositoryCommon` (uptanerepository.cc) -/

/-- The member `RepositoryCommon::root` of the repository object (uptanerepository.h:26). -/
def getRoot (repo : Repo) (w : World) : Root :=
  match repo with
  | .director => w.dir.root
  | .image => w.img.root

/-- Assignment to `RepositoryCommon::root`. -/
def setRoot (repo : Repo) (r : Root) (w : World) : World :=
  match repo with
  | .director => { w with dir := { w.dir with root := r } }
  | .image => { w with img := { w.img with root := r } }

/-- `RepositoryCommon::initRoot` (uptanerepository.cc:25-33). -/
def initRoot (c : Ctx) (repo : Repo) (raw : String) : U Unit := do
  let r ← lift (Root.ofJson c.env (c.env.parseJson raw))
  modify (setRoot repo r)
  let r2 ← lift (Root.ofJsonSigned c.env (c.env.parseJson raw) r)
  modify (setRoot repo r2)

/-- `prev_version + 1` on a C++ `int` (uptanerepository.cc:47, 75): overflow is undefined. -/
def succInt (v : Int) : Except Err Int :=
  if v = 2147483647 then .error (.ub "signed overflow") else .ok (v + 1)

/-- `RepositoryCommon::verifyRoot` (uptanerepository.cc:35-56): the new Root is assigned
before its version is compared. -/
def verifyRoot (c : Ctx) (repo : Repo) (raw : String) : U Unit := do
  let old ← gets (getRoot repo)
  let r ← lift (Root.ofJsonSigned c.env (c.env.parseJson raw) old)
  modify (setRoot repo r)
  let expected ← lift (succInt old.base.version)
  throwWhen (r.base.version != expected) (.upt .rootRotationError)

/-- Result of `try { fetchRole } catch (std::exception) { break; }` (uptanerepository.cc:78-82). -/
def tryFetchRoot (c : Ctx) (repo : Repo) (version : Int) : U (Option String) :=
  catchStd (do return some (← fetchRole c kMaxRootSize repo Role.root version)) (fun _ => pure none)

/-- The rotation loop (uptanerepository.cc:75-90). The first argument is the number of
remaining iterations permitted by `version < kMaxRotations`. -/
def rotateLoop (c : Ctx) (repo : Repo) : Nat → Int → U Unit
  | 0, _ => pure ()
  | n + 1, version => do
    match ← tryFetchRoot c repo version with
    | none => pure ()
    | some raw => do
      verifyRoot c repo raw
      write (fun db => db.storeRoot raw repo version)
      write (fun db => db.clearNonRoot repo)
      rotateLoop c repo n (version + 1)

/-- Loading or bootstrapping the trusted Root (uptanerepository.cc:62-72). -/
def loadOrFetchRoot (c : Ctx) (repo : Repo) : U Unit := do
  match ← loadLatestRoot repo with
  | some raw => initRoot c repo raw
  | none => do
    let raw ← fetchRole c kMaxRootSize repo Role.root 1
    initRoot c repo raw
    write (fun db => db.storeRoot raw repo 1)

/-- `if (rootExpired()) throw ExpiredMetadata` (uptanerepository.cc:95-97, uptanerepository.h:19). -/
def checkRootExpired (c : Ctx) (repo : Repo) : U Unit := do
  let r ← gets (getRoot repo)
  let t ← now c
  throwWhen (r.base.expiry.isExpiredAt t) (.upt (.expiredMetadata "root"))

/-- `RepositoryCommon::updateRoot` (uptanerepository.cc:60-98). -/
def updateRoot (c : Ctx) (repo : Repo) : U Unit := do
  loadOrFetchRoot c repo
  let r ← gets (getRoot repo)
  let first ← lift (succInt r.base.version)
  rotateLoop c repo (kMaxRotations - first).toNat first
  checkRootExpired c repo

/-! ## `DirectorRepository` (directorrepository.cc) -/

namespace Director

/-- `DirectorRepository::resetMeta` (directorrepository.cc:5-9) with `resetRoot`
(uptanerepository.cc:58). -/
def resetMeta : U Unit :=
  modify (fun w => { w with dir := { root := { policy := .acceptAll }, targets := {}, latest := {} } })

/-- `DirectorRepository::checkTargetsExpired` (directorrepository.cc:11-15). -/
def checkTargetsExpired (c : Ctx) : U Unit := do
  let d ← gets (·.dir)
  let t ← now c
  throwWhen (d.latest.base.expiry.isExpiredAt t) (.upt (.expiredMetadata "targets"))

/-- The double loop with the set of ECU ids seen (directorrepository.cc:25-35). -/
def repeatedEcu : List String → List String → Bool
  | _, [] => false
  | seen, e :: es => if seen.contains e then true else repeatedEcu (e :: seen) es

/-- `DirectorRepository::targetsSanityCheck` (directorrepository.cc:17-36). -/
def targetsSanityCheck : U Unit := do
  let d ← gets (·.dir)
  throwWhen (d.latest.delegatedRoleNames != []) (.upt (.invalidMetadata "targets"))
  throwWhen (repeatedEcu [] (d.targets.targets.flatMap (fun t => t.ecus.map Prod.fst)))
    (.upt (.invalidMetadata "targets"))

/-- `DirectorRepository::usePreviousTargets` (directorrepository.cc:38-42). -/
def usePreviousTargets (d : DirectorRepo) : Bool := !d.targets.targets.isEmpty && d.latest.targets.isEmpty

/-- `DirectorRepository::verifyTargets` (directorrepository.cc:44-56). `make_shared<MetaWithKeys>(root)`
slices the Root, so the base-class check runs whatever the policy. -/
def verifyTargets (c : Ctx) (raw : String) : U Unit := do
  let d ← gets (·.dir)
  let ts ← lift (Targets.ofJsonSigned c.env Role.targets (c.env.parseJson raw) d.root.base)
  modify (fun w => { w with dir := { w.dir with latest := ts } })
  modify (fun w => if usePreviousTargets w.dir then w
                   else { w with dir := { w.dir with targets := w.dir.latest } })

/-- `DirectorRepository::checkMetaOffline` (directorrepository.cc:58-88). -/
def checkMetaOffline (c : Ctx) : U Unit := do
  resetMeta
  let root ← orThrow (← loadLatestRoot .director) (.upt (.security "Could not load latest root"))
  initRoot c .director root
  checkRootExpired c .director
  let raw ← orThrow (← loadNonRoot .director .targets) (.upt (.security "Could not load Targets role"))
  verifyTargets c raw
  checkTargetsExpired c
  targetsSanityCheck

/-- Stored Director Targets: its (untrusted) version, after trying to verify it
(directorrepository.cc:110-121). -/
def loadStoredTargets (c : Ctx) : U Int := do
  match ← loadNonRoot .director .targets with
  | some stored => do
    let v ← lift (extractVersionUntrusted c.env stored)
    catchStd (verifyTargets c stored) (fun _ => pure ())
    pure v
  | none => pure (-1)

/-- The version comparison of `updateMeta` (directorrepository.cc:128-132). -/
def compareAndStore (localV remoteV : Int) (raw : String) : U Unit := do
  let d ← gets (·.dir)
  if localV > remoteV then M.throw (.upt (.security "Rollback attempt"))
  else if localV < remoteV && !usePreviousTargets d then
    write (fun db => db.storeNonRoot raw .director .targets)
  else pure ()

/-- `DirectorRepository::updateMeta` (directorrepository.cc:90-138). -/
def updateMeta (c : Ctx) : U Unit := do
  resetMeta
  updateRoot c .director
  let raw ← fetchLatestRole c kMaxDirectorTargetsSize .director Role.targets
  let remoteV ← lift (extractVersionUntrusted c.env raw)
  let localV ← loadStoredTargets c
  verifyTargets c raw
  compareAndStore localV remoteV raw
  checkTargetsExpired c
  targetsSanityCheck

/-- `DirectorRepository::dropTargets` (directorrepository.cc:140-147). -/
def dropTargets : U Unit :=
  catchUpt (do write (fun db => db.clearNonRoot .director); resetMeta) (fun _ => pure ())

/-- `DirectorRepository::matchTargetsWithImageTargets` (directorrepository.cc:149-170). -/
def matchTargetsWithImageTargets (d : DirectorRepo) (image : Targets) : Bool :=
  d.targets.targets.all (fun dt => image.targets.any (fun it => dt.matchTarget it))

end Director

/-! ## `ImageRepository` (imagerepository.cc) -/

namespace Image

/-- `ImageRepository::resetMeta` (imagerepository.cc:5-10). -/
def resetMeta : U Unit :=
  modify (fun w => { w with img := { root := { policy := .acceptAll }, targets := none, timestamp := {}, snapshot := {} } })

/-- `ImageRepository::verifyTimestamp` (imagerepository.cc:12-21). -/
def verifyTimestamp (c : Ctx) (raw : String) : U Unit := do
  let i ← gets (·.img)
  let t ← lift (TimestampMeta.ofJsonSigned c.env (c.env.parseJson raw) i.root.base)
  modify (fun w => { w with img := { w.img with timestamp := t } })

/-- `ImageRepository::checkTimestampExpired` (imagerepository.cc:23-27). -/
def checkTimestampExpired (c : Ctx) : U Unit := do
  let i ← gets (·.img)
  let t ← now c
  throwWhen (i.timestamp.expiry.isExpiredAt t) (.upt (.expiredMetadata "timestamp"))

/-- One hash comparison of `verifySnapshot`/`verifyRoleHashes` (imagerepository.cc:54-75,
129-148): `none` for an unsupported type, else whether the hash of `canonical` differs. -/
def hashDiffers (env : Env) (canonical : String) (h : Hash) : Option Bool :=
  match h.type with
  | .sha256 => some (Hash.mk' .sha256 (env.sha256 canonical) != h)
  | .sha512 => some (Hash.mk' .sha512 (env.sha512 canonical) != h)
  | .unknown => none

/-- The hash loop of `verifySnapshot` (imagerepository.cc:52-76), returning `hash_exists`. -/
def snapshotHashLoop (env : Env) (canonical : String) : Bool → List Hash → Except Err Bool
  | ex, [] => .ok ex
  | ex, h :: hs => match hashDiffers env canonical h with
    | none => snapshotHashLoop env canonical ex hs
    | some true => .error (.upt (.security "Snapshot metadata hash verification failed"))
    | some false => snapshotHashLoop env canonical true hs

/-- `ImageRepository::verifySnapshot` (imagerepository.cc:50-94); `prefetch` only affects
logging. -/
def verifySnapshot (c : Ctx) (raw : String) : U Unit := do
  let i ← gets (·.img)
  let ex ← lift (snapshotHashLoop c.env (c.env.canon (c.env.parseJson raw)) false i.timestamp.snapshotHashes)
  throwWhen (!ex) (.upt (.security "Snapshot metadata hash verification failed"))
  let s ← lift (Snapshot.ofJsonSigned c.env (c.env.parseJson raw) i.root.base)
  modify (fun w => { w with img := { w.img with snapshot := s } })
  throwWhen (s.version != i.timestamp.snapshotVersion) (.upt (.versionMismatch "snapshot"))

/-- `ImageRepository::checkSnapshotExpired` (imagerepository.cc:96-100). -/
def checkSnapshotExpired (c : Ctx) : U Unit := do
  let i ← gets (·.img)
  let t ← now c
  throwWhen (i.snapshot.expiry.isExpiredAt t) (.upt (.expiredMetadata "snapshot"))

/-- Version comparison and store shared by the Image roles (imagerepository.cc:43-47, 117-121,
222-226). -/
def compareAndStore (localV remoteV : Int) (raw : String) (type : RoleKind) : U Unit :=
  if localV > remoteV then M.throw (.upt (.security "Rollback attempt"))
  else if localV < remoteV then write (fun db => db.storeNonRoot raw .image type)
  else pure ()

/-- `ImageRepository::fetchSnapshot` (imagerepository.cc:29-48). -/
def fetchSnapshot (c : Ctx) (localV : Int) : U Unit := do
  let i ← gets (·.img)
  let size := if i.timestamp.snapshotSize > 0 then i.timestamp.snapshotSize else kMaxSnapshotSize
  let raw ← fetchLatestRole c size .image Role.snapshot
  let remoteV ← lift (extractVersionUntrusted c.env raw)
  verifySnapshot c raw
  compareAndStore localV remoteV raw .snapshot

/-- The hash loop of `verifyRoleHashes` (imagerepository.cc:128-149). -/
def roleHashLoop (env : Env) (canonical : String) : List Hash → Except Err Unit
  | [] => .ok ()
  | h :: hs => match hashDiffers env canonical h with
    | some true => .error (.upt (.security "Hash metadata mismatch"))
    | _ => roleHashLoop env canonical hs

/-- `ImageRepository::verifyRoleHashes` (imagerepository.cc:124-150). -/
def verifyRoleHashes (c : Ctx) (sn : Snapshot) (raw : String) (role : Role) : Except Err Unit :=
  roleHashLoop c.env (c.env.canon (c.env.parseJson raw)) (sn.hashesOf role)

/-- `ImageRepository::verifyTargets` (imagerepository.cc:156-174): `targets` is assigned
before the version comparison. -/
def verifyTargets (c : Ctx) (raw : String) : U Unit := do
  let i ← gets (·.img)
  lift (verifyRoleHashes c i.snapshot raw Role.targets)
  let ts ← lift (Targets.ofJsonSigned c.env Role.targets (c.env.parseJson raw) i.root.base)
  modify (fun w => { w with img := { w.img with targets := some ts } })
  throwWhen (ts.base.version != i.snapshot.versionOf Role.targets) (.upt (.versionMismatch "targets"))

/-- `ImageRepository::fetchTargets` (imagerepository.cc:102-122). -/
def fetchTargets (c : Ctx) (localV : Int) : U Unit := do
  let i ← gets (·.img)
  let size := if i.snapshot.sizeOf Role.targets ≤ 0 then kMaxImageTargetsSize else i.snapshot.sizeOf Role.targets
  let raw ← fetchLatestRole c size .image Role.targets
  let remoteV ← lift (extractVersionUntrusted c.env raw)
  verifyTargets c raw
  compareAndStore localV remoteV raw .targets

/-- `ImageRepository::checkTargetsExpired` (imagerepository.cc:194-198): dereferences the
`targets` pointer. -/
def checkTargetsExpired (c : Ctx) : U Unit := do
  let i ← gets (·.img)
  match i.targets with
  | none => M.throw (.ub "null targets")
  | some ts => do
    let t ← now c
    throwWhen (ts.base.expiry.isExpiredAt t) (.upt (.expiredMetadata "targets"))

/-- `ImageRepository::verifyDelegation` (imagerepository.cc:176-192). -/
def verifyDelegation (c : Ctx) (raw : String) (role : Role) (parent : Targets) : Except Err Targets :=
  Targets.ofJsonSigned c.env role (c.env.parseJson raw) parent.base

/-- The Timestamp block of `updateMeta` (imagerepository.cc:205-229). -/
def updateTimestamp (c : Ctx) : U Unit := do
  let raw ← fetchLatestRole c kMaxTimestampSize .image Role.timestamp
  let remoteV ← lift (extractVersionUntrusted c.env raw)
  let localV ← (do match ← loadNonRoot .image .timestamp with
                   | some stored => lift (extractVersionUntrusted c.env stored)
                   | none => pure (-1) : U Int)
  verifyTimestamp c raw
  compareAndStore localV remoteV raw .timestamp
  checkTimestampExpired c

/-- Trying the stored Snapshot (imagerepository.cc:233-249): (fetch needed, local version). -/
def tryStoredSnapshot (c : Ctx) : U (Bool × Int) := do
  match ← loadNonRoot .image .snapshot with
  | some stored => do
    let fetch ← catchUpt (do verifySnapshot c stored; pure false) (fun _ => pure true)
    let i ← gets (·.img)
    pure (fetch, i.snapshot.version)
  | none => pure (true, -1)

/-- The Snapshot block of `updateMeta` (imagerepository.cc:231-257). -/
def updateSnapshot (c : Ctx) : U Unit := do
  let (fetch, localV) ← tryStoredSnapshot c
  if fetch then fetchSnapshot c localV else pure ()
  checkSnapshotExpired c

/-- Trying the stored Targets (imagerepository.cc:261-277). -/
def tryStoredTargets (c : Ctx) : U (Bool × Int) := do
  match ← loadNonRoot .image .targets with
  | some stored => do
    let fetch ← catchStd (do verifyTargets c stored; pure false) (fun _ => pure true)
    let i ← gets (·.img)
    pure (fetch, match i.targets with | some ts => ts.base.version | none => -1)
  | none => pure (true, -1)

/-- The Targets block of `updateMeta` (imagerepository.cc:259-285). -/
def updateTargets (c : Ctx) : U Unit := do
  let (fetch, localV) ← tryStoredTargets c
  if fetch then fetchTargets c localV else pure ()
  checkTargetsExpired c

/-- `ImageRepository::updateMeta` (imagerepository.cc:200-286). -/
def updateMeta (c : Ctx) : U Unit := do
  resetMeta
  updateRoot c .image
  updateTimestamp c
  updateSnapshot c
  updateTargets c

/-- `ImageRepository::checkMetaOffline` (imagerepository.cc:288-341). -/
def checkMetaOffline (c : Ctx) : U Unit := do
  resetMeta
  let root ← orThrow (← loadLatestRoot .image) (.upt (.security "Could not load latest root"))
  initRoot c .image root
  checkRootExpired c .image
  let ts ← orThrow (← loadNonRoot .image .timestamp) (.upt (.security "Could not load Timestamp role"))
  verifyTimestamp c ts
  checkTimestampExpired c
  let sn ← orThrow (← loadNonRoot .image .snapshot) (.upt (.security "Could not load Snapshot role"))
  verifySnapshot c sn
  checkSnapshotExpired c
  let raw ← orThrow (← loadNonRoot .image .targets) (.upt (.security "Could not load Image role"))
  verifyTargets c raw
  checkTargetsExpired c

end Image

end Aktualizr
