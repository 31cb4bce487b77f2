import Verif.Model.World

/-!
# Metadata tables: reading, and opening an older database

`Model/World.lean` has the statements that write; here is what reading returns exactly, and the clean-up of the
constructor. SQL errors are not modelled; a transaction that is not committed is rolled back.
-/

namespace Aktualizr

/-- `std::string(const char *)` on a blob: ends at the first NUL. SQLite puts one behind a blob it has read. -/
def cString (s : String) : String := String.ofList (s.toList.takeWhile (fun c => c ≠ Char.ofNat 0))

/-- Reading a blob column with it (sqlstorage.cc:578, 625, 677): an empty blob is a null pointer. -/
def blobText : Option String → Except Err (Option String)
  | none => .ok none
  | some s => if s = "" then .error (.ub "std::string(nullptr)") else .ok (some (cString s))

namespace MetaDb

/-- `SQLStorage::loadRoot` (sqlstorage.cc:560-607). -/
def loadRootBlob (db : MetaDb) (repo : Repo) (version : Int) : Except Err (Option String) :=
  if version < 0 then blobText ((db.latestOf repo .root).map (·.data))
  else .ok ((db.loadRootVersion repo version).map cString)

/-- `SQLStorage::loadNonRoot` (sqlstorage.cc:609-629). -/
def loadNonRootBlob (db : MetaDb) (repo : Repo) (type : RoleKind) : Except Err (Option String) :=
  blobText ((db.latestOf repo type).map (·.data))

/-- `SQLStorage::loadDelegation` (sqlstorage.cc:662-681). -/
def loadDelegationBlob (db : MetaDb) (role : String) : Except Err (Option String) :=
  blobText (db.loadDelegation role)

/-- `SQLStorage::loadAllDelegations` (sqlstorage.cc:683-716): reads the whole blobs; an empty one makes
`.value()` throw, which is caught. -/
def loadAllDelegations (db : MetaDb) : Bool × List (String × String) :=
  (db.delegations.all (fun p => p.2 != ""), db.delegations.takeWhile (fun p => p.2 != ""))

/-- `SQLStorage::cleanMetaVersion` (sqlstorage.cc:15-59) for Root. -/
def cleanMetaVersion (env : Env) (db : MetaDb) (repo : Repo) : Except Err MetaDb :=
  match db.rows.find? (fun r => r.repo == repo && r.type == .root && r.version == -1) with
  | none => .ok db
  | some r =>
    if r.data = "" then .error (.ub "std::string(nullptr)")
    else do
      let version ← extractVersionUntrusted env (cString r.data)
      if version < 0 then .ok db
      else
        let kept := db.rows.filter (fun r => !(r.repo == repo && r.type == .root && r.version == version))
        .ok { db with rows := kept.map (fun r => if r.repo == repo && r.type == .root && r.version == -1 then { r with version := version } else r) }

/-- The constructor `SQLStorage::SQLStorage` (sqlstorage.cc:61-72): an exception ends the clean-up. -/
def openStorage (env : Env) (db : MetaDb) : Except Err MetaDb :=
  match cleanMetaVersion env db .director with
  | .error (.ub w) => .error (.ub w)
  | .error _ => .ok db
  | .ok db1 =>
    match cleanMetaVersion env db1 .image with
    | .error (.ub w) => .error (.ub w)
    | .error _ => .ok db1
    | .ok db2 => .ok db2

/-- Writing calls. -/
inductive Call where
  | storeRoot (data : String) (repo : Repo) (version : Int)
  | storeNonRoot (data : String) (repo : Repo) (type : RoleKind)
  | clearNonRoot (repo : Repo)
  | clearMetadata
  | storeDelegation (data role : String)
  | deleteDelegation (role : String)
  | clearDelegations
  | reopen

/-- Performing one. -/
def call (env : Env) (db : MetaDb) : Call → Except Err MetaDb
  | .storeRoot data repo version => .ok (db.storeRoot data repo version)
  | .storeNonRoot data repo type => .ok (db.storeNonRoot data repo type)
  | .clearNonRoot repo => .ok (db.clearNonRoot repo)
  | .clearMetadata => .ok db.clearAll
  | .storeDelegation data role => .ok (db.storeDelegation data role)
  | .deleteDelegation role => .ok (db.deleteDelegation role)
  | .clearDelegations => .ok db.clearDelegations
  | .reopen => db.openStorage env

/-- A history of calls. -/
def calls (env : Env) (db : MetaDb) : List Call → Except Err MetaDb
  | [] => .ok db
  | c :: cs => do calls env (← db.call env c) cs

end MetaDb

end Aktualizr
