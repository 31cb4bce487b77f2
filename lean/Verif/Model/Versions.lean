import Verif.Model.Codec

/-!
# ECU table and installed versions (storage/sqlstorage.cc:873-968, 1057-1384)

Each function below that changes the tables is one SQLite transaction.  SQL errors are not
modelled.  `std::string` columns are bound and read as NUL-terminated text; texts with an
embedded NUL are outside this model.
-/

namespace Aktualizr

/-- A row of table `ecus` (config/sql/schema.sql), in the order of its `id` column. -/
structure EcuRow where
  serial : String
  hwid : String
  primary : Bool := false
  deriving DecidableEq, Repr

/-- A row of table `installed_versions` (config/sql/schema.sql). -/
structure VersionRow where
  id : Nat
  ecu : String
  sha256 : String
  name : String
  hashes : List Char
  length : Nat
  correlationId : String := ""
  isCurrent : Bool := false
  isPending : Bool := false
  wasInstalled : Bool := false
  custom : String := ""
  deriving DecidableEq, Repr

/-- `InstalledVersionUpdateMode` (storage/invstorage.h). -/
inductive UpdateMode where
  | none
  | current
  | pending
  deriving DecidableEq, Repr

/-- The two tables; rows of `installed_versions` in the order of their `id` (which is the
order a table scan visits them in). -/
structure VersionDb where
  ecus : List EcuRow := []
  rows : List VersionRow := []
  deriving DecidableEq, Repr

namespace VersionDb

/-- `SELECT serial FROM ecus WHERE is_primary = 1` (sqlstorage.cc:1068, 1154); an empty serial
stands for the Primary's, or stays empty when there is none. -/
def realSerial (db : VersionDb) (serial : String) : String :=
  if serial ≠ "" then serial
  else match db.ecus.find? (·.primary) with
    | some e => e.serial
    | none => ""

/-- `SELECT … WHERE ecu_serial = ? ORDER BY id DESC LIMIT 1` (sqlstorage.cc:1082-1085). -/
def lastRow (rows : List VersionRow) (ecu : String) : Option VersionRow :=
  (rows.filter (fun r => r.ecu == ecu)).getLast?

/-- The `id` SQLite gives to a new row of an `INTEGER PRIMARY KEY` table: one more than the
largest in use (the 2⁶³ limit is not modelled). -/
def nextId (rows : List VersionRow) : Nat := match rows.getLast? with
  | some r => r.id + 1
  | none => 1

/-- The row to update instead of inserting (sqlstorage.cc:1079-1099): the last row of the ECU,
if it has the same `sha256` and name. -/
def oldRow (rows : List VersionRow) (ecu : String) (t : Target) : Option VersionRow :=
  match lastRow rows ecu with
  | some r => if r.sha256 = t.sha256Hash ∧ r.name = t.filename then some r else none
  | none => none

/-- The `UPDATE`s clearing flags (sqlstorage.cc:1101-1119). -/
def clearFlags (rows : List VersionRow) (ecu : String) : UpdateMode → List VersionRow
  | .current => rows.map (fun r => if r.ecu = ecu then { r with isCurrent := false, isPending := false } else r)
  | .pending => rows.map (fun r => if r.ecu = ecu then { r with isPending := false } else r)
  | .none => rows

/-- The `UPDATE` of the matching row (sqlstorage.cc:1121-1128). -/
def reflag (t : Target) (mode : UpdateMode) (old r : VersionRow) : VersionRow :=
  { r with
    correlationId := t.correlationId
    isCurrent := mode == .current
    isPending := mode == .pending
    wasInstalled := mode == .current || old.wasInstalled }

/-- The inserted row (sqlstorage.cc:1134-1143). -/
def freshRow (env : Env) (id : Nat) (ecu : String) (t : Target) (mode : UpdateMode) : VersionRow where
  id := id
  ecu := ecu
  sha256 := t.sha256Hash
  name := t.filename
  hashes := encodeHashes t.hashes
  length := t.length
  correlationId := t.correlationId
  isCurrent := mode == .current
  isPending := mode == .pending
  wasInstalled := mode == .current
  custom := env.canon t.custom

/-- `SQLStorage::saveInstalledVersion` (sqlstorage.cc:1057-1148). `custom` is the canonical
JSON text of the target's custom data. The length column is an `int64`, read back as
`uint64`: no loss. -/
def saveInstalledVersion (env : Env) (db : VersionDb) (serial : String) (t : Target) (mode : UpdateMode) : VersionDb :=
  let ecu := db.realSerial serial
  let rows := clearFlags db.rows ecu mode
  match oldRow db.rows ecu t with
  | some old => { db with rows := rows.map (fun r => if r.id = old.id then reflag t mode old r else r) }
  | none => { db with rows := rows ++ [freshRow env (nextId rows) ecu t mode] }

/-- `loadEcuMap` (sqlstorage.cc:1150-1175). -/
def ecuMap (db : VersionDb) (ecu : String) : Except Err (List (String × String)) :=
  if ecu = "" then .ok []
  else match db.ecus.find? (fun e => e.serial == ecu) with
    | some e => do return [(← mkEcuSerial ecu, ← mkHwId e.hwid)]
    | none => .ok []

/-- `read_target` (sqlstorage.cc:1264-1293) and the loop body of `loadInstallationLog`
(1203-1239). The custom text was written by `jsonToCanonicalStr`, so it parses; the branch for
text that does not is left out. -/
def readTarget (env : Env) (ecus : List (String × String)) (r : VersionRow) : Except Err Target :=
  let hs := decodeHashes r.hashes
  let hs := if hs.any (fun h => h.type == .sha256) then hs else hs ++ [Hash.mk' .sha256 r.sha256]
  let t : Target := { filename := r.name, ecus := ecus, hashes := sortHashes hs, length := r.length,
                      correlationId := r.correlationId, type := "UNKNOWN" }
  if r.custom = "" then .ok t else t.updateCustom (env.parseJson r.custom)

/-- `SELECT … WHERE ecu_serial = ? AND is_current = 1 LIMIT 1` (sqlstorage.cc:1296-1299). -/
def currentRow (db : VersionDb) (ecu : String) : Option VersionRow :=
  db.rows.find? (fun r => r.ecu == ecu && r.isCurrent)

/-- `SELECT … WHERE ecu_serial = ? AND is_pending = 1 LIMIT 1` (sqlstorage.cc:1315-1318). -/
def pendingRow (db : VersionDb) (ecu : String) : Option VersionRow :=
  db.rows.find? (fun r => r.ecu == ecu && r.isPending)

/-- Read a row if there is one. -/
def readRow (env : Env) (ecus : List (String × String)) : Option VersionRow → Except Err (Option Target)
  | none => .ok none
  | some r => do return some (← readTarget env ecus r)

/-- `SQLStorage::loadInstalledVersions` (sqlstorage.cc:1256-1336), current version part. The
columns are `NOT NULL`, so the function never returns `false`. -/
def loadCurrent (env : Env) (db : VersionDb) (serial : String) : Except Err (Option Target) := do
  let ecu := db.realSerial serial
  let ecus ← db.ecuMap ecu
  readRow env ecus (db.currentRow ecu)

/-- `SQLStorage::loadInstalledVersions` (sqlstorage.cc:1256-1336), pending version part. -/
def loadPending (env : Env) (db : VersionDb) (serial : String) : Except Err (Option Target) := do
  let ecu := db.realSerial serial
  let ecus ← db.ecuMap ecu
  readRow env ecus (db.pendingRow ecu)

/-- The reading loop of `loadInstallationLog`. -/
def readAll (env : Env) (ecus : List (String × String)) : List VersionRow → Except Err (List Target)
  | [] => .ok []
  | r :: rs => do
    let t ← readTarget env ecus r
    return t :: (← readAll env ecus rs)

/-- `SQLStorage::loadInstallationLog` (sqlstorage.cc:1177-1254). -/
def loadInstallationLog (env : Env) (db : VersionDb) (serial : String) (onlyInstalled : Bool) : Except Err (List Target) := do
  let ecu := db.realSerial serial
  let ecus ← db.ecuMap ecu
  readAll env ecus (db.rows.filter (fun r => r.ecu == ecu && (!onlyInstalled || r.wasInstalled)))

/-- `SQLStorage::hasPendingInstall` (sqlstorage.cc:1338-1348). -/
def hasPendingInstall (db : VersionDb) : Bool := db.rows.any (·.isPending)

/-- The loop of `getPendingEcus`. -/
def pendingLoop : List VersionRow → Except Err (List (String × Hash))
  | [] => .ok []
  | r :: rs => do
    let s ← mkEcuSerial r.ecu
    return (s, Hash.mk' .sha256 r.sha256) :: (← pendingLoop rs)

/-- `SQLStorage::getPendingEcus` (sqlstorage.cc:1350-1375). -/
def getPendingEcus (db : VersionDb) : Except Err (List (String × Hash)) := pendingLoop (db.rows.filter (·.isPending))

/-- Rows for the Secondaries (sqlstorage.cc:903-913). -/
def secondaryRows (serials : List (String × String)) : List EcuRow := serials.map (fun p => ⟨p.1, p.2, false⟩)

/-- `SQLStorage::storeEcuSerials` (sqlstorage.cc:873-918): replaces the ECU table, and gives
the versions recorded before the Primary's serial was known to the Primary. A repeated serial
violates the `UNIQUE` constraint: the transaction is rolled back (and an error logged).
Simplification: identifiers contain no NUL character (text is bound up to the first one). -/
def storeEcuSerials (db : VersionDb) : List (String × String) → VersionDb
  | [] => db
  | p :: rest =>
    if ((p :: rest).map Prod.fst).Nodup then
      { ecus := ⟨p.1, p.2, true⟩ :: secondaryRows rest,
        rows := db.rows.map (fun r => if r.ecu = "" then { r with ecu := p.1 } else r) }
    else db

/-- `SQLStorage::loadEcuSerials` (sqlstorage.cc:920-949): fails when there is none. Building
an `EcuSerial` from a stored text throws when it is empty or too long. -/
def loadSerialsLoop : List EcuRow → Except Err (List (String × String))
  | [] => .ok []
  | e :: es => do
    let s ← mkEcuSerial e.serial
    let h ← mkHwId e.hwid
    return (s, h) :: (← loadSerialsLoop es)

/-- See `loadSerialsLoop`. -/
def loadEcuSerials (db : VersionDb) : Except Err (Option (List (String × String))) := do
  let l ← loadSerialsLoop db.ecus
  return if l = [] then none else some l

/-- `SQLStorage::clearInstalledVersions` (sqlstorage.cc:1377-1384). -/
def clearInstalledVersions (db : VersionDb) : VersionDb := { db with rows := [] }

end VersionDb

end Aktualizr
