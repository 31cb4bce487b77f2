import Verif.Model.Delegation
import Verif.Model.Versions

/-!
# The Uptane client: update checks and installation results

Models `src/libaktualizr/primary/sotauptaneclient.cc` (the parts named below) and the result
tables of `src/libaktualizr/storage/sqlstorage.cc:1386-1561, 1617-1633`.
Report events sent to the backend and events sent to the API user are left out here (the
report queue is modelled in `Model/Reports.lean`).
-/

namespace Aktualizr

open M (throwWhen orThrow gets modify lift catchStd catchUpt)

/-- `data::InstallationResult` (include/libaktualizr/types.h:277-295). -/
structure InstResult where
  success : Bool := true
  code : ResultCode := .ok
  desc : String := ""
  deriving DecidableEq, Repr

namespace InstResult

/-- `InstallationResult(ResultCode, std::string)` (types.h:279-283). -/
def ofCode (code : ResultCode) (desc : String) : InstResult := ⟨code.num == 0 || code.num == 1, code, desc⟩

/-- `needCompletion` (types.h:289); comparing codes may throw (`std::map::at`). -/
def needCompletion (r : InstResult) : Except Err Bool := r.code.same .needCompletion

end InstResult

/-- A row of `ecu_installation_results`, and the common part of `device_installation_result`. -/
structure ResultRow where
  success : Bool
  repr : List Char
  desc : String
  deriving DecidableEq, Repr

/-- The row of `device_installation_result`. -/
structure DeviceRow where
  result : ResultRow
  raw : String
  correlationId : String
  deriving DecidableEq, Repr

/-- Binding a result to SQL parameters; `toRepr` may throw (sqlstorage.cc:1393, 1449). -/
def InstResult.toRow (r : InstResult) : Except Err ResultRow := do
  return ⟨r.success, ← r.code.toRepr, r.desc⟩

/-- Reading a result back (sqlstorage.cc:1422-1427, 1489-1495). -/
def ResultRow.read (r : ResultRow) : Except Err InstResult := do
  return ⟨r.success, ← ResultCode.fromRepr r.repr, r.desc⟩

/-- State of `SotaUptaneClient`. `w` is the metadata storage and repository objects, `v` the
ECU and version tables, then the result and counter tables; the rest is volatile:
`primary_ecu_serial_`, `primary_ecu_hw_id_`, `secondaries` (a `std::map`, here serial and
hardware id), and whether `config.pacman.type` is OSTree. -/
structure Client where
  w : World
  v : VersionDb := {}
  ecuResults : List (String × ResultRow) := []
  devResult : Option DeviceRow := none
  counters : List (String × Int) := []
  primary : String
  primaryHw : String
  secondaries : List (String × String) := []
  ostree : Bool := false

/-- Computations of the client. -/
abbrev C (α : Type) := M Client α

/-- Run a computation of the metadata layer. -/
def inWorld {α : Type} (m : U α) : C α := M.zoom (·.w) (fun w cl => { cl with w := w }) m

/-- One atomic storage write of the client, or the crash in front of it. -/
def cwrite (f : Client → Client) : C Unit := fun cl =>
  match cl.w.fuel with
  | 0 => (.error .crash, cl)
  | n + 1 => (.ok (), { f cl with w := { (f cl).w with fuel := n } })

/-! ## Result and counter tables -/

/-- `INSERT OR REPLACE` into a table keyed by ECU serial. -/
def upsert {α : Type} (k : String) (a : α) (l : List (String × α)) : List (String × α) :=
  l.filter (fun p => p.1 != k) ++ [(k, a)]

/-- `INNER JOIN ecus ON ecus.serial = ecu_serial ORDER BY ecus.id`. -/
def joinEcus {α : Type} (ecus : List EcuRow) (l : List (String × α)) : List (String × α) :=
  ecus.filterMap (fun e => (l.lookup e.serial).map (fun a => (e.serial, a)))

/-- `SQLStorage::saveEcuInstallationResult` (sqlstorage.cc:1386-1398). -/
def saveEcuResult (serial : String) (r : InstResult) : C Unit := do
  let row ← lift r.toRow
  cwrite (fun cl => { cl with ecuResults := upsert serial row cl.ecuResults })

/-- The reading loop of `loadEcuInstallationResults`. -/
def readResults : List (String × ResultRow) → Except Err (List (String × InstResult))
  | [] => .ok []
  | (s, row) :: rest => do
    let r ← row.read
    let s ← mkEcuSerial s
    return (s, r) :: (← readResults rest)

/-- `SQLStorage::loadEcuInstallationResults` (sqlstorage.cc:1400-1439); `none` is `false`
(no row). -/
def Client.loadEcuResults (cl : Client) : Except Err (Option (List (String × InstResult))) := do
  let l ← readResults (joinEcus cl.v.ecus cl.ecuResults)
  return if l.isEmpty then none else some l

/-- `SQLStorage::storeDeviceInstallationResult` (sqlstorage.cc:1441-1454). -/
def storeDeviceResult (r : InstResult) (raw correlationId : String) : C Unit := do
  let row ← lift r.toRow
  cwrite (fun cl => { cl with devResult := some ⟨row, raw, correlationId⟩ })

/-- `SQLStorage::loadDeviceInstallationResult` (sqlstorage.cc:1466-1510). -/
def Client.loadDeviceResult (cl : Client) : Except Err (Option (InstResult × String × String)) :=
  match cl.devResult with
  | none => .ok none
  | some d => do return some (← d.result.read, d.raw, d.correlationId)

/-- `SQLStorage::clearInstallationResults` (sqlstorage.cc:1617-1633): one transaction. -/
def clearInstallationResults : C Unit :=
  cwrite (fun cl => { cl with devResult := none, ecuResults := [] })

/-! ## Which targets are new -/

/-- `SotaUptaneClient::getEcuHwId` (sotauptaneclient.cc:1452-1467). -/
def Client.getEcuHwId (cl : Client) (serial : String) : Option String :=
  if serial = cl.primary ∨ serial = "" then
    if cl.primaryHw = "Unknown" then none else some cl.primaryHw
  else cl.secondaries.lookup serial

/-- Comparison with the installed version (sotauptaneclient.cc:529-546): the new value of
`is_new`. -/
def compareInstalled (t : Target) (isNew : Bool) : Option Target → Except Err Bool
  | none => .ok true
  | some cur =>
    if cur.matchTarget t then .ok isNew
    else if cur.filename = t.filename then .error (.upt .targetContentMismatch)
    else .ok true

/-- The loop over the ECUs of a target (sotauptaneclient.cc:505-560); returns `is_new` and the
count (an `unsigned int`, here unbounded). -/
def ecuLoop (env : Env) (cl : Client) (t : Target) : List (String × String) → Bool → Nat → Except Err (Bool × Nat)
  | [], isNew, n => .ok (isNew, n)
  | (serial, hw) :: rest, isNew, n =>
    match cl.getEcuHwId serial with
    | none => .error (.upt .badEcuId)
    | some known => do
      throwIf (known != hw) (.upt .badHardwareId)
      let cur ← cl.v.loadCurrent env serial
      let isNew ← compareInstalled t isNew cur
      throwIf (cl.primary == serial && (!t.isOstree && cl.ostree)) (.upt .invalidTarget)
      ecuLoop env cl t rest isNew (if isNew then n + 1 else n)

/-- The outer loop of `getNewTargets`. -/
def targetLoop (env : Env) (cl : Client) : List Target → Nat → Except Err (List Target × Nat)
  | [], n => .ok ([], n)
  | t :: rest, n => do
    let r ← ecuLoop env cl t t.ecus false n
    let s ← targetLoop env cl rest r.2
    return (if r.1 then t :: s.1 else s.1, s.2)

/-- `SotaUptaneClient::getNewTargets` (sotauptaneclient.cc:497-564). -/
def Client.getNewTargets (cl : Client) (env : Env) : Except Err (List Target × Nat) :=
  targetLoop env cl cl.w.dir.targets.targets 0

/-! ## Online check -/

/-- `SotaUptaneClient::uptaneIteration` (sotauptaneclient.cc:758-781) with `updateDirectorMeta`
(389-396) and `updateImageMeta` (398-406), which only log and rethrow. -/
def uptaneIteration (c : Ctx) : C (List Target × Nat) := do
  inWorld (Director.updateMeta c)
  let cl ← gets id
  let r ← lift (cl.getNewTargets c.env)
  if r.1.isEmpty then pure r
  else do
    inWorld (Image.updateMeta c)
    pure r

/-- `SotaUptaneClient::storeInstallationFailure` (sotauptaneclient.cc:1210-1217). -/
def storeInstallationFailure (r : InstResult) : C Unit := do
  let cl ← gets id
  storeDeviceResult r "" cl.w.dir.targets.correlationId
  inWorld Director.dropTargets

/-- `result::UpdateStatus` (include/libaktualizr/results.h:25-32). -/
inductive UpdateStatus where
  | available
  | noUpdates
  | error
  deriving DecidableEq, Repr

/-- `result::UpdateCheck` (results.h:37-52). -/
structure UpdateCheck where
  updates : List Target
  ecusCount : Nat
  status : UpdateStatus
  targetsMeta : Json
  message : String

/-- The loop of `checkUpdates` matching Director targets with Image repository targets
(sotauptaneclient.cc:878-890); the updates with their URIs filled in. -/
def matchLoop (c : Ctx) : List Target → C (List Target)
  | [] => pure []
  | t :: rest => do
    match ← inWorld (Delegation.findInTree c t false) with
    | none => M.throw (.upt .targetMismatch)
    | some found => do
      let l ← matchLoop c rest
      pure ((if t.uri = "" ∧ found.uri ≠ "" then { t with uri := found.uri } else t) :: l)

/-- The body of `checkUpdates` after the metadata has been updated
(sotauptaneclient.cc:858-906). -/
def checkMatches (c : Ctx) (r : List Target × Nat) : C UpdateCheck := do
  match ← inWorld (loadNonRoot .director .targets) with
  | none => pure ⟨[], 0, .error, .null, "Could not update metadata."⟩
  | some raw =>
    if r.1.isEmpty then pure ⟨[], 0, .noUpdates, c.env.parseJson raw, ""⟩
    else
      catchStd (do
          let l ← matchLoop c r.1
          pure ⟨l, r.2, .available, c.env.parseJson raw, ""⟩)
        (fun _ => do
          storeInstallationFailure (.ofCode .verificationFailed "Metadata verification failed.")
          pure ⟨[], 0, .error, c.env.parseJson raw, "Target mismatch."⟩)

/-- `SotaUptaneClient::checkUpdates` (sotauptaneclient.cc:845-907). -/
def checkUpdates (c : Ctx) : C UpdateCheck := do
  match ← catchStd (do return some (← uptaneIteration c)) (fun _ => pure none) with
  | none => pure ⟨[], 0, .error, .null, "Could not update metadata."⟩
  | some r => checkMatches c r

/-! ## Offline check -/

/-- `SotaUptaneClient::hasPendingUpdates` (sotauptaneclient.cc:343). -/
def Client.hasPendingUpdates (cl : Client) : Bool := cl.v.hasPendingInstall

/-- `SotaUptaneClient::checkImageMetaOffline` (sotauptaneclient.cc:417-423): exceptions are
logged and dropped. -/
def checkImageMetaOffline (c : Ctx) : C Unit :=
  catchStd (inWorld (Image.checkMetaOffline c)) (fun _ => pure ())

/-- `SotaUptaneClient::uptaneOfflineIteration` (sotauptaneclient.cc:783-806) with
`checkDirectorMetaOffline` (408-415). -/
def uptaneOfflineIteration (c : Ctx) : C (List Target × Nat) := do
  inWorld (Director.checkMetaOffline c)
  let cl ← gets id
  let r ← lift (cl.getNewTargets c.env)
  if r.1.isEmpty then pure r
  else do
    checkImageMetaOffline c
    pure r

/-- The loop of `checkUpdatesOffline` over the requested targets
(sotauptaneclient.cc:938-953). -/
def offlineLoop (c : Ctx) (director : List Target) : List Target → C Unit
  | [] => pure ()
  | t :: rest => do
    throwWhen (!director.any (fun d => d.matchTarget t)) (.upt .targetMismatch)
    match ← inWorld (Delegation.findInTree c t true) with
    | none => M.throw (.upt .targetMismatch)
    | some _ => offlineLoop c director rest

/-- `SotaUptaneClient::checkUpdatesOffline` (sotauptaneclient.cc:909-955). -/
def checkUpdatesOffline (c : Ctx) (targets : List Target) : C UpdateStatus := do
  let cl ← gets id
  if cl.hasPendingUpdates then pure .error
  else if targets.isEmpty then pure .error
  else do
    let r ← uptaneOfflineIteration c
    if r.1.isEmpty then pure .noUpdates
    else do
      offlineLoop c r.1 targets
      pure .available

/-! ## The device result -/

/-- State of the loop in `computeDeviceInstallationResult`: the device result so far, the raw
report, and the text naming the failed ECUs. -/
structure Aggregate where
  result : InstResult
  raw : String
  failed : String

/-- The loop over ECU results (sotauptaneclient.cc:446-480). -/
def aggregateLoop (cl : Client) : List (String × InstResult) → Aggregate → Except Err Aggregate
  | [], a => .ok a
  | (serial, r) :: rest, a =>
    match cl.getEcuHwId serial with
    | none => .ok { a with
        result := .ofCode .internalError "Unable to get installation results from ECUs"
        raw := "Failed to find an ECU with the given serial: " ++ serial }
    | some hw => do
      if ← r.needCompletion then
        return { a with
          result := .ofCode .needCompletion ("ECU needs completion/finalization to be installed: " ++ serial)
          raw := "ECU needs completion/finalization to be installed: " ++ serial }
      else if r.success then aggregateLoop cl rest a
      else do
        let text := hw ++ ":" ++ (← r.code.toText)
        aggregateLoop cl rest { a with failed := a.failed ++ ((if a.failed = "" then "" else "|") ++ text) }

/-- `SotaUptaneClient::computeDeviceInstallationResult` (sotauptaneclient.cc:425-495). -/
def Client.computeDeviceResult (cl : Client) : Except Err (InstResult × String) := do
  match ← cl.loadEcuResults with
  | none => return (.ofCode .internalError "Unable to get installation results from ECUs", "Failed to load ECU installation results")
  | some l =>
    let a ← aggregateLoop cl l ⟨.ofCode .ok "Device has been successfully installed", "Installation succesful", ""⟩
    if a.failed = "" then return (a.result, a.raw)
    else return (.ofCode ⟨4, a.failed⟩ "Installation failed on one or more ECUs", "Installation failed on one or more ECUs")

end Aktualizr
