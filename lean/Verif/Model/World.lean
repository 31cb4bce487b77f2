import Verif.Model.Tuf
import Verif.Model.Monad

/-!
# Persistent storage (metadata tables), volatile repository objects, and the execution monad
-/

namespace Aktualizr

/-! ## Metadata tables -/

/-- A row of table `meta` (config/sql/schema.sql: `meta(meta BLOB, repo, meta_type, version)`). -/
structure MetaRow where
  repo : Repo
  type : RoleKind
  version : Int
  data : String
  deriving DecidableEq, Repr

/-- The metadata part of the SQLite database: tables `meta` and `delegations(meta, role_name)`. -/
structure MetaDb where
  rows : List MetaRow := []
  delegations : List (String × String) := []
  deriving DecidableEq, Repr

namespace MetaDb

/-- `SQLStorage::storeRoot` (storage/sqlstorage.cc:509-533): one transaction deleting the row
(repo, root, version) and inserting the new one. -/
def storeRoot (db : MetaDb) (data : String) (repo : Repo) (version : Int) : MetaDb :=
  { db with rows := ⟨repo, .root, version, data⟩ ::
      db.rows.filter (fun r => !(r.repo == repo && r.type == .root && r.version == version)) }

/-- `SQLStorage::storeNonRoot` (sqlstorage.cc:535-558): one transaction deleting all rows of
(repo, role) and inserting the new one with version -1. -/
def storeNonRoot (db : MetaDb) (data : String) (repo : Repo) (type : RoleKind) : MetaDb :=
  { db with rows := ⟨repo, type, -1, data⟩ ::
      db.rows.filter (fun r => !(r.repo == repo && r.type == type)) }

/-- `ORDER BY version DESC LIMIT 1`. -/
def latest : List MetaRow → Option MetaRow
  | [] => none
  | r :: rs => match latest rs with
    | none => some r
    | some b => if r.version < b.version then some b else some r

/-- Latest row of (repo, type): `SQLStorage::loadRoot` with version -1 (sqlstorage.cc:564-579)
and `loadNonRoot` (609-629). -/
def latestOf (db : MetaDb) (repo : Repo) (type : RoleKind) : Option MetaRow :=
  latest (db.rows.filter (fun r => r.repo == repo && r.type == type))

/-- `SQLStorage::loadRoot` with a version ≥ 0 (sqlstorage.cc:580-604); a NULL blob (empty
data) reads as not found. -/
def loadRootVersion (db : MetaDb) (repo : Repo) (version : Int) : Option String :=
  match db.rows.find? (fun r => r.repo == repo && r.type == .root && r.version == version) with
  | some r => if r.data = "" then none else some r.data
  | none => none

/-- `SQLStorage::clearNonRootMeta` (sqlstorage.cc:631-640). -/
def clearNonRoot (db : MetaDb) (repo : Repo) : MetaDb :=
  { db with rows := db.rows.filter (fun r => !(r.repo == repo && r.type != .root)) }

/-- `SQLStorage::clearMetadata` (sqlstorage.cc:642-649). -/
def clearAll (db : MetaDb) : MetaDb := { db with rows := [] }

/-- `SQLStorage::storeDelegation` (sqlstorage.cc:651-660): insert or replace by role name. -/
def storeDelegation (db : MetaDb) (data : String) (role : String) : MetaDb :=
  { db with delegations := (role, data) :: db.delegations.filter (fun p => p.1 != role) }

/-- `SQLStorage::loadDelegation` (sqlstorage.cc:662-681). -/
def loadDelegation (db : MetaDb) (role : String) : Option String := db.delegations.lookup role

/-- `SQLStorage::deleteDelegation` (sqlstorage.cc:718-723). -/
def deleteDelegation (db : MetaDb) (role : String) : MetaDb :=
  { db with delegations := db.delegations.filter (fun p => p.1 != role) }

/-- `SQLStorage::clearDelegations` (sqlstorage.cc:725-731). -/
def clearDelegations (db : MetaDb) : MetaDb := { db with delegations := [] }

end MetaDb

/-! ## Volatile objects -/

/-- `DirectorRepository` (uptane/directorrepository.h) with `RepositoryCommon::root`. -/
structure DirectorRepo where
  root : Root := {}
  targets : Targets := {}
  latest : Targets := {}

/-- `ImageRepository` (uptane/imagerepository.h) with `RepositoryCommon::root`; `targets` is
a `shared_ptr`, null initially. -/
structure ImageRepo where
  root : Root := {}
  targets : Option Targets := none
  timestamp : TimestampMeta := {}
  snapshot : Snapshot := {}

/-- State of a running client as far as metadata is concerned. `db` survives a crash or a
restart, the rest does not. `tick` numbers the interactions with the outside (fetches, clock
reads) so that answers may vary over time; `fuel` is the number of storage writes the process
lives to perform: the next write after that is the crash point. -/
structure World where
  db : MetaDb := {}
  dir : DirectorRepo := {}
  img : ImageRepo := {}
  tick : Nat := 0
  fuel : Nat

/-- The outside: `net tick repo role version` is the body served (or `none` on any HTTP
failure) — `version` is -1 for the unversioned "latest" file; `clock tick` is
`TimeStamp::Now()`. `limited` says whether sizes are limited: the Primary's `Fetcher` does so, the
`Metadata` of a Secondary (aktualizr_secondary_metadata.cc:10-21) does not. -/
structure Ctx where
  env : Env
  net : Nat → Repo → String → Int → Option String
  clock : Nat → TimeStamp
  limited : Bool := true

/-- Computations of the metadata layer. -/
abbrev U (α : Type) := M World α

/-- One atomic storage write, or the crash in front of it. Each modelled storage call is one
SQLite transaction or one autocommitted statement. SQL errors other than a crash (disk full,
corruption) are not modelled. -/
def write (f : MetaDb → MetaDb) : U Unit := fun w =>
  match w.fuel with
  | 0 => (.error .crash, w)
  | n + 1 => (.ok (), { w with db := f w.db, fuel := n })

/-- Reading a blob column through `std::string(const char *)` (sqlstorage.cc:578,625,677): an
empty blob is a null pointer. Simplification: text with an embedded NUL is returned whole
here (the truncation is modelled in `Model/Blob.lean`). -/
def readBlob (o : Option String) : U (Option String) := fun w =>
  match o with
  | none => (.ok none, w)
  | some s => if s = "" then (.error (.ub "std::string(nullptr)"), w) else (.ok (some s), w)

/-- `INvStorage::loadLatestRoot` (storage/invstorage.h:72, sqlstorage.cc:560-579). -/
def loadLatestRoot (repo : Repo) : U (Option String) := fun w =>
  readBlob ((w.db.latestOf repo .root).map (·.data)) w

/-- `SQLStorage::loadNonRoot` (sqlstorage.cc:609-629). -/
def loadNonRoot (repo : Repo) (type : RoleKind) : U (Option String) := fun w =>
  readBlob ((w.db.latestOf repo type).map (·.data)) w

/-- `SQLStorage::loadDelegation` (sqlstorage.cc:662-681). -/
def loadDelegationM (role : Role) : U (Option String) := fun w =>
  readBlob (w.db.loadDelegation role.name) w

/-- `TimeStamp::Now()` (utilities/types.cc:32). -/
def now (c : Ctx) : U TimeStamp := fun w => (.ok (c.clock w.tick), { w with tick := w.tick + 1 })

/-- `Fetcher::fetchRole` (uptane/fetcher.cc:7-19) over `HttpClient::get(url, maxsize)`, which
fails when the body exceeds `maxsize` (http/httpclient.cc:22-36). All callers pass a positive
limit. Simplification: the URL is represented by (repo, role, version). A Secondary's fetcher throws
another exception, which no caller tells from this one. -/
def fetchRole (c : Ctx) (maxsize : Int) (repo : Repo) (role : Role) (version : Int) : U String := fun w =>
  let w' := { w with tick := w.tick + 1 }
  match c.net w.tick repo role.name version with
  | some body =>
    if c.limited = false ∨ (body.utf8ByteSize : Int) ≤ maxsize then (.ok body, w')
    else (.error (.upt (.metadataFetchFailure role.name)), w')
  | none => (.error (.upt (.metadataFetchFailure role.name)), w')

/-- `IMetadataFetcher::fetchLatestRole` (uptane/fetcher.h:25-28). -/
def fetchLatestRole (c : Ctx) (maxsize : Int) (repo : Repo) (role : Role) : U String :=
  fetchRole c maxsize repo role (-1)

/-- fetcher.h:10. -/
def kMaxRootSize : Int := 64 * 1024
/-- fetcher.h:11. -/
def kMaxDirectorTargetsSize : Int := 64 * 1024
/-- fetcher.h:12. -/
def kMaxTimestampSize : Int := 64 * 1024
/-- fetcher.h:13. -/
def kMaxSnapshotSize : Int := 64 * 1024
/-- fetcher.h:14. -/
def kMaxImageTargetsSize : Int := 8 * 1024 * 1024
/-- `RepositoryCommon::kMaxRotations` (uptanerepository.h:24). -/
def kMaxRotations : Int := 1000

end Aktualizr
