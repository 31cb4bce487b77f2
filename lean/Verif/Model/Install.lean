import Verif.Model.Client

/-!
# Installing updates and reporting

Models the parts of `src/libaktualizr/primary/sotauptaneclient.cc` that talk to the package
manager, to Secondaries and to the Director's manifest endpoint. What those answer is not
under the client's control: it is given by `Peers`, and may differ at every interaction.
Everything the client does to them is recorded in a log.

Not modelled here: report events (`Model/Reports.lean`), events for the API user, logging.
-/

namespace Aktualizr

open M (throwWhen orThrow gets modify lift catchStd catchUpt)

/-- `TargetStatus` (include/libaktualizr/packagemanagerinterface.h). -/
inductive TargetStatus where
  | notFound | incomplete | oversized | hashMismatch | good | invalid
  deriving DecidableEq, Repr

/-- What a manifest says, as far as it matters: the Primary's signed version manifest with its
`report_counter` member (`none` when absent), the Secondaries' signed manifests, and the
installation report: device result, raw report, correlation id, per-ECU items. -/
structure Manifest where
  primary : String
  counter : Option Int
  secondaries : List (String × Json)
  report : Option (InstResult × String × String × List (String × InstResult))

/-- What the client does to the outside. -/
inductive Action where
  /-- `package_manager_->verifyTarget(t)` answered `s`. -/
  | verified (t : Target) (s : TargetStatus)
  /-- `package_manager_->updateNotify()`. -/
  | notify
  /-- `package_manager_->install(t)`. -/
  | install (t : Target)
  /-- `package_manager_->finalizeInstall(t)`. -/
  | finalize (t : Target)
  /-- `SecondaryInterface::putRoot(root, director)`. -/
  | putRoot (serial : String) (director : Bool) (root : String)
  /-- `SecondaryInterface::putMetadata(t)`. -/
  | putMetadata (serial : String) (t : Target)
  /-- `SecondaryInterface::sendFirmware(t)`. -/
  | sendFirmware (serial : String) (t : Target)
  /-- `SecondaryInterface::install(t)`. -/
  | secInstall (serial : String) (t : Target)
  /-- The Primary's version manifest is signed with this report counter. -/
  | signed (serial : String) (counter : Option Int)
  /-- `http->put(director + "/manifest", m)`; `ok` is `response.isOk()`. -/
  | sent (m : Manifest) (ok : Bool)

/-- Answers of the outside, by number of interaction. `.error` is an exception thrown by the
call. -/
structure Peers where
  verify : Nat → Target → Except Err TargetStatus
  install : Nat → Target → Except Err InstResult
  finalize : Nat → Target → Except Err InstResult
  /-- All targeted Secondaries answered a ping before the deadline. -/
  reachable : Nat → Bool
  rootVersion : Nat → String → Bool → Except Err Int
  putRoot : Nat → String → Bool → String → Except Err InstResult
  putMetadata : Nat → String → Target → Except Err InstResult
  sendFirmware : Nat → String → Target → Except Err InstResult
  secInstall : Nat → String → Target → Except Err InstResult
  secManifest : Nat → String → Except Err Json
  secKey : Nat → String → Except Err PublicKey
  putManifest : Nat → Manifest → Bool

/-- The device: the client, the cached Secondary manifests (`secondary_ecus.manifest`), the log
of what was done to the outside, and the number of interactions so far. -/
structure Dev where
  cl : Client
  cache : List (String × String) := []
  log : List Action := []
  n : Nat := 0

/-- Computations on the device. -/
abbrev D (α : Type) := M Dev α

/-- Run a computation of the client. -/
def inClient {α : Type} (m : C α) : D α := M.zoom (·.cl) (fun cl d => { d with cl := cl }) m

/-- Ask the outside; also moves on to the next interaction. -/
def ask {α : Type} (f : Nat → α) : D α := fun d => (.ok (f d.n), { d with n := d.n + 1 })

/-- Do something to the outside. Like a storage write, it may be the point where the process
dies; dying right after it is dying before the next write or action. -/
def act (a : Action) : D Unit := fun d =>
  match d.cl.w.fuel with
  | 0 => (.error .crash, d)
  | k + 1 => (.ok (), { d with cl := { d.cl with w := { d.cl.w with fuel := k } }, log := d.log ++ [a] })

/-- `saveInstalledVersion` (sqlstorage.cc:1057-1148), one transaction. -/
def saveVersion (env : Env) (serial : String) (t : Target) (mode : UpdateMode) : D Unit :=
  inClient (cwrite (fun cl => { cl with v := cl.v.saveInstalledVersion env serial t mode }))

/-- `try { f } catch (const std::exception &ex) { result = InstallationResult(code, ex.what()) }`.
The text of the exception is not modelled. -/
def orFailure (code : ResultCode) (x : Except Err InstResult) : Except Err InstResult :=
  match x with
  | .error e => if e.isStd then .ok (.ofCode code "exception") else .error e
  | .ok r => .ok r

/-! ## Sending metadata to Secondaries -/

/-- The Root of version `v`: stored, or else fetched (sotauptaneclient.cc:1236-1248); `none`
when the fetch failed. -/
def rootForSecondary (c : Ctx) (repo : Repo) (v : Int) : D (Option String) := do
  let d ← gets id
  match d.cl.w.db.loadRootVersion repo v with
  | some root => pure (some root)
  | none => inClient (inWorld (tryFetchRoot c repo v))

/-- The loop of `rotateSecondaryRoot` (sotauptaneclient.cc:1234-1257); the first argument is
the number of versions left. -/
def rotateSecLoop (c : Ctx) (p : Peers) (repo : Repo) (serial : String) : Nat → Int → InstResult → D InstResult
  | 0, _, r => pure r
  | k + 1, v, _ => do
    match ← rootForSecondary c repo v with
    | none => pure (.ofCode .internalError "Root metadata could not be fetched, skipping to the next Secondary")
    | some root => do
      act (.putRoot serial (repo == .director) root)
      let a ← ask (fun n => p.putRoot n serial (repo == .director) root)
      let r ← lift (orFailure .internalError a)
      if r.success then rotateSecLoop c p repo serial k (v + 1) r else pure r

/-- `SotaUptaneClient::rotateSecondaryRoot` (sotauptaneclient.cc:1221-1260). The `int`
subtraction is taken as exact. -/
def rotateSecondaryRoot (c : Ctx) (p : Peers) (repo : Repo) (serial : String) : D InstResult := do
  match ← inClient (inWorld (loadLatestRoot repo)) with
  | none => pure (.ofCode .internalError "Error reading Root metadata")
  | some raw => do
    let last ← lift (extractVersionUntrusted c.env raw)
    let a ← ask (fun n => p.rootVersion n serial (repo == .director))
    let sec ← lift a
    if sec > 0 ∧ last - sec > 1 then rotateSecLoop c p repo serial (last - sec).toNat (sec + 1) (.ofCode .ok "")
    else pure (.ofCode .ok "")

/-- Body of the loop of `sendMetadataToEcus` for one Secondary (sotauptaneclient.cc:1278-1296). -/
def sendMetadataTo (c : Ctx) (p : Peers) (serial : String) (t : Target) : D InstResult := do
  let r ← rotateSecondaryRoot c p .director serial
  if !r.success then pure r
  else do
    let r ← rotateSecondaryRoot c p .image serial
    if !r.success then pure r
    else do
      act (.putMetadata serial t)
      let a ← ask (fun n => p.putMetadata n serial t)
      lift (orFailure .internalError a)

/-- The loops of `sendMetadataToEcus` (sotauptaneclient.cc:1267-1304); the text naming the ECUs
that failed. -/
def sendMetadataLoop (c : Ctx) (p : Peers) : List (Target × String × String) → String → D String
  | [], failed => pure failed
  | (t, serial, hw) :: rest, failed => do
    let d ← gets id
    if d.cl.secondaries.any (fun s => s.1 == serial) then do
      let r ← sendMetadataTo c p serial t
      if r.success then sendMetadataLoop c p rest failed
      else do
        let text ← lift r.code.toText
        sendMetadataLoop c p rest (failed ++ ((if failed = "" then "" else "|") ++ (hw ++ ":" ++ text)))
    else sendMetadataLoop c p rest failed

/-- All (target, ECU serial, hardware id) triples, in the order of the nested loops. -/
def assignments (ts : List Target) : List (Target × String × String) :=
  ts.flatMap (fun t => t.ecus.map (fun e => (t, e.1, e.2)))

/-- `SotaUptaneClient::sendMetadataToEcus` (sotauptaneclient.cc:1263-1317): result and raw
report. A failure always adds to the text, so `final_result` assigned inside the loop is always
overwritten. -/
def sendMetadataToEcus (c : Ctx) (p : Peers) (ts : List Target) : D (InstResult × String) := do
  let failed ← sendMetadataLoop c p (assignments ts) ""
  if failed = "" then pure (.ofCode .ok "", "")
  else pure (.ofCode ⟨3, failed⟩ "Sending metadata to one or more ECUs failed", "Sending metadata to one or more ECUs failed")

/-! ## Sending images -/

/-- `sendFirmwareAsync` (sotauptaneclient.cc:1319-1349). -/
def sendFirmware (p : Peers) (serial : String) (t : Target) : D InstResult := do
  act (.sendFirmware serial t)
  let a ← ask (fun n => p.sendFirmware n serial t)
  let r ← lift (orFailure .internalError a)
  if a.toOption.isSome ∧ r.success then do
    act (.secInstall serial t)
    let a ← ask (fun n => p.secInstall n serial t)
    lift (orFailure .internalError a)
  else pure r

/-- First loop of `sendImagesToEcus` (sotauptaneclient.cc:1356-1377). Simplification: the
asynchronous calls run one after the other, all before the first result is stored. -/
def sendAll (p : Peers) : List (Target × String × String) → D (List (Target × String × InstResult))
  | [] => pure []
  | (t, serial, _) :: rest => do
    let d ← gets id
    if serial = d.cl.primary then sendAll p rest
    else if d.cl.secondaries.any (fun s => s.1 == serial) then do
      let r ← sendFirmware p serial t
      let l ← sendAll p rest
      pure ((t, serial, r) :: l)
    else sendAll p rest

/-- An entry of `result::Install::ecu_reports`. -/
structure EcuReport where
  update : Target
  serial : String
  result : InstResult

/-- Second loop of `sendImagesToEcus` (sotauptaneclient.cc:1379-1391). -/
def recordAllResults (env : Env) : List (Target × String × InstResult) → D (List EcuReport)
  | [] => pure []
  | (t, serial, r) :: rest => do
    let nc ← lift r.needCompletion
    let d ← gets id
    let t' : Target := if r.success ∨ nc then { t with correlationId := d.cl.w.dir.targets.correlationId } else t
    if r.success ∨ nc then saveVersion env serial t' (if r.success then .current else .pending)
    else pure ()
    inClient (saveEcuResult serial r)
    let l ← recordAllResults env rest
    pure (⟨t', serial, r⟩ :: l)

/-- `SotaUptaneClient::sendImagesToEcus` (sotauptaneclient.cc:1351-1392). -/
def sendImagesToEcus (env : Env) (p : Peers) (ts : List Target) : D (List EcuReport) := do
  let l ← sendAll p (assignments ts)
  recordAllResults env l

/-! ## Installing on the Primary -/

/-- `SotaUptaneClient::PackageInstallSetResult` (sotauptaneclient.cc:110-134) with
`PackageInstall` (49-57). -/
def packageInstallSetResult (env : Env) (p : Peers) (t : Target) : D InstResult := do
  let d ← gets id
  saveVersion env d.cl.primary t .none
  act (.install t)
  let a ← ask (fun n => p.install n t)
  let r ← lift (orFailure .installFailed a)
  if r.code.num = 0 then saveVersion env d.cl.primary t .current
  else if r.code.num = 21 then saveVersion env d.cl.primary t .pending
  else pure ()
  inClient (saveEcuResult d.cl.primary r)
  pure r

/-- Re-verification of the downloaded images (sotauptaneclient.cc:988-1001); `false` when one
is not good. -/
def verifyAll (p : Peers) : List Target → D Bool
  | [] => pure true
  | t :: rest => do
    let d ← gets id
    if t.isForEcu d.cl.primary || !t.isOstree then do
      let a ← ask (fun n => p.verify n t)
      let s ← lift a
      modify (fun d => { d with log := d.log ++ [.verified t s] })
      if s == .good then verifyAll p rest else pure false
    else verifyAll p rest

/-- `waitSecondariesReachable` (sotauptaneclient.cc:1157-1208). Simplification: the ping loop
with its deadline is one answer of the outside. -/
def waitSecondariesReachable (p : Peers) (ts : List Target) : D Bool := do
  let d ← gets id
  if (assignments ts).any (fun a => a.2.1 != d.cl.primary && d.cl.secondaries.any (fun s => s.1 == a.2.1)) then ask p.reachable
  else pure true

/-- `result::Install` (include/libaktualizr/results.h:123-150). -/
structure InstallReport where
  device : InstResult
  ecus : List EcuReport := []

/-- `checkUpdatesOffline` with exceptions mapped to `kError` (sotauptaneclient.cc:971-977). -/
def recheck (c : Ctx) (ts : List Target) : D UpdateStatus :=
  inClient (catchStd (checkUpdatesOffline c ts) (fun _ => pure .error))

/-- The Primary's part of step 7 (sotauptaneclient.cc:1024-1058). -/
def installPrimary (env : Env) (p : Peers) (ts : List Target) : D (List EcuReport) := do
  let d ← gets id
  match ts.find? (fun t => t.isForEcu d.cl.primary) with
  | none => pure []
  | some t => do
    let t : Target := { t with correlationId := d.cl.w.dir.targets.correlationId }
    act .notify
    let r ← packageInstallSetResult env p t
    if r.code.num = 21 then pure () else inClient (saveEcuResult d.cl.primary r)
    pure [⟨t, d.cl.primary, r⟩]

/-- The lambda of `uptaneInstall` after re-verification (sotauptaneclient.cc:1003-1063). -/
def installVerified (c : Ctx) (p : Peers) (ts : List Target) : D (InstallReport × String) := do
  let ok ← waitSecondariesReachable p ts
  if !ok then pure (⟨⟨false, .internalError, "Unreachable Secondary"⟩, []⟩, "Secondaries were not available")
  else do
    let m ← sendMetadataToEcus c p ts
    if !m.1.success then pure (⟨m.1, []⟩, m.2)
    else do
      let first ← installPrimary c.env p ts
      let others ← sendImagesToEcus c.env p ts
      let d ← gets id
      let r ← lift d.cl.computeDeviceResult
      pure (⟨r.1, first ++ others⟩, r.2)

/-- The lambda of `uptaneInstall` (sotauptaneclient.cc:965-1064). -/
def installBody (c : Ctx) (p : Peers) (ts : List Target) : D (InstallReport × String) := do
  match ← recheck c ts with
  | .noUpdates => pure (⟨⟨false, .alreadyProcessed, ""⟩, []⟩, "Stored Uptane metadata is invalid")
  | .error => pure (⟨⟨false, .internalError, ""⟩, []⟩, "Stored Uptane metadata is invalid")
  | .available => do
    let good ← verifyAll p ts
    if !good then pure (⟨⟨false, .internalError, ""⟩, []⟩, "Downloaded target is invalid")
    else installVerified c p ts

/-- `SotaUptaneClient::uptaneInstall` (sotauptaneclient.cc:957-1071). `correlation_id` is a
reference into the Director object, read again at the end. -/
def uptaneInstall (c : Ctx) (p : Peers) (ts : List Target) : D InstallReport := do
  let r ← installBody c p ts
  let d ← gets id
  inClient (storeDeviceResult r.1.device r.2 d.cl.w.dir.targets.correlationId)
  pure r.1

/-! ## Manifests -/

/-- `SQLStorage::loadEcuReportCounter` (sqlstorage.cc:1526-1561). -/
def Client.loadCounters (cl : Client) : List (String × Int) := joinEcus cl.v.ecus cl.counters

/-- Largest `int64_t`. -/
def int64Max : Int := 9223372036854775807

/-- The report counter used for the Primary's manifest (sotauptaneclient.cc:250-258): read,
increment, store. -/
def nextCounter : D (Option Int) := do
  let d ← gets id
  match d.cl.loadCounters with
  | [] => pure none
  | (serial, k) :: _ => do
    throwWhen (k == int64Max) (.ub "signed overflow")
    inClient (cwrite (fun cl => { cl with counters := upsert serial (k + 1) cl.counters }))
    pure (some (k + 1))

/-- `Json::Value::empty` (null, or an object or array without entries). -/
def Json.isEmpty (j : Json) : Bool :=
  match j with
  | .null => true
  | .obj l => l.isEmpty
  | .arr l => l.isEmpty
  | _ => false

/-- `Manifest::signature` (uptane/manifest.cc:25-32). `[0]` of a non-array throws. -/
def manifestSignature (j : Json) : String :=
  match (do
    let l ← j.get "signatures"
    match l with
    | .arr l => match l with
      | [] => Json.asString .null
      | s :: _ => do (← s.get "sig").asString
    | .null => Json.asString .null
    | _ => .error (.std "not an array") : Except Err String) with
  | .ok s => s
  | .error _ => ""

/-- `Manifest::signedBody` (manifest.cc:34-41). -/
def manifestBody (env : Env) (j : Json) : String :=
  match j.get "signed" with
  | .ok b => env.canon b
  | .error _ => ""

/-- `Manifest::verifySignature` (manifest.cc:43-50). -/
def manifestVerifies (env : Env) (j : Json) (k : PublicKey) : Except Err Bool := do
  let a ← j.isMember "signatures"
  let b ← j.isMember "signed"
  if !(a && b) then return false
  else return k.verifySignature env (manifestSignature j) (manifestBody env j)

/-- `Manifest::installedImageHash` (manifest.cc:16-23). -/
def manifestHash (j : Json) : Hash :=
  match (do
    let s ← (← (← (← (← j.get "signed").get "installed_image").get "fileinfo").get "hashes").get "sha256"
    s.asString : Except Err String) with
  | .ok s => Hash.mk' .sha256 s
  | .error _ => Hash.mk' .unknown ""

/-- Catching an exception with a default value. -/
def orDefault {α : Type} (d : α) (x : Except Err α) : Except Err α :=
  match x with
  | .error e => if e.isStd then .ok d else .error e
  | .ok a => .ok a

/-- A Secondary's manifest: its own, or the cached one, `none` when there is neither; and
whether it came from the cache (sotauptaneclient.cc:262-285). -/
def obtainManifest (env : Env) (p : Peers) (serial : String) : D (Option (Json × Bool)) := do
  let a ← ask (fun n => p.secManifest n serial)
  let j ← lift (orDefault .null a)
  if j.isEmpty then do
    let d ← gets id
    match d.cache.lookup serial with
    | some text => if text = "" then pure none else pure (some (env.parseJson text, true))
    | none => pure none
  else pure (some (j, false))

/-- `storeCachedEcuManifest` (sqlstorage.cc:969-979): only for a known Secondary. -/
def storeCached (serial text : String) : D Unit := do
  inClient (cwrite id)
  modify (fun d => { d with cache := d.cache.map (fun q => if q.1 = serial then (q.1, text) else q) })

/-- The loop over Secondaries in `AssembleManifest` (sotauptaneclient.cc:261-306). -/
def secondaryManifests (env : Env) (p : Peers) : List (String × String) → D (List (String × Json))
  | [] => pure []
  | (serial, _) :: rest => do
    match ← obtainManifest env p serial with
    | none => secondaryManifests env p rest
    | some (j, cached) => do
      let k ← ask (fun n => p.secKey n serial)
      let good ← lift (orDefault false (do manifestVerifies env j (← k)))
      if good then do
        if cached then pure () else storeCached serial (env.canon j)
        let l ← secondaryManifests env p rest
        pure ((serial, j) :: l)
      else secondaryManifests env p rest

/-- The report of `AssembleManifest` (sotauptaneclient.cc:309-336). -/
def assembleReport : D (Option (InstResult × String × String × List (String × InstResult))) := do
  let d ← gets id
  match ← lift d.cl.loadDeviceResult with
  | none => pure none
  | some (r, raw, cid) => do
    let nc ← lift (if r.success then .ok true else r.needCompletion)
    if nc then pure () else inClient (inWorld Director.dropTargets)
    let d ← gets id
    let items ← lift d.cl.loadEcuResults
    pure (some (r, raw, cid, items.getD []))

/-- `SotaUptaneClient::AssembleManifest` (sotauptaneclient.cc:241-341). What the package
manager reports as installed is left out. -/
def assembleManifest (env : Env) (p : Peers) : D Manifest := do
  let d ← gets id
  let counter ← nextCounter
  act (.signed d.cl.primary counter)
  let secs ← secondaryManifests env p d.cl.secondaries
  let report ← assembleReport
  pure ⟨d.cl.primary, counter, secs, report⟩

/-- `SotaUptaneClient::putManifestSimple` (sotauptaneclient.cc:1119-1149). -/
def putManifestSimple (env : Env) (p : Peers) : D Bool := do
  let d ← gets id
  if d.cl.hasPendingUpdates then pure false
  else do
    let m ← assembleManifest env p
    let ok ← ask (fun n => p.putManifest n m)
    act (.sent m ok)
    if ok then do
      inClient clearInstallationResults
      pure true
    else pure false

/-! ## Completing pending installations -/

/-- `SotaUptaneClient::finalizeAfterReboot` (sotauptaneclient.cc:59-108). -/
def finalizeAfterReboot (env : Env) (p : Peers) : D Unit := do
  let d ← gets id
  if !d.cl.hasPendingUpdates then pure ()
  else do
    match ← lift (d.cl.v.loadPending env d.cl.primary) with
    | none => pure ()
    | some t => do
      act (.finalize t)
      let a ← ask (fun n => p.finalize n t)
      let r ← lift a
      if ← lift (r.code.same .needCompletion) then pure ()
      else do
        inClient (saveEcuResult d.cl.primary r)
        saveVersion env d.cl.primary t (if r.success then .current else .none)
        inClient (inWorld Director.dropTargets)
        let d ← gets id
        let dev ← lift d.cl.computeDeviceResult
        inClient (storeDeviceResult dev.1 dev.2 t.correlationId)
        let _ ← putManifestSimple env p
        pure ()

/-- The effect of a confirmed pending update of a Secondary (sotauptaneclient.cc:1433-1449). -/
def confirmSecondary (env : Env) (serial : String) : D Unit := do
  let d ← gets id
  match ← lift (d.cl.v.loadPending env serial) with
  | none => M.throw (.ub "dereferencing an empty optional")
  | some t => do
    inClient (saveEcuResult serial (.ofCode .ok ""))
    saveVersion env serial t .current
    let d ← gets id
    let dev ← lift d.cl.computeDeviceResult
    inClient (storeDeviceResult dev.1 dev.2 t.correlationId)

/-- The loop of `checkAndUpdatePendingSecondaries` (sotauptaneclient.cc:1402-1451).
`secondaries[...]` of an unknown serial is a null pointer, dereferenced at once. -/
def pendingSecondaryLoop (env : Env) (p : Peers) : List (String × Hash) → D Unit
  | [] => pure ()
  | (serial, hash) :: rest => do
    let d ← gets id
    if d.cl.primary = serial then pendingSecondaryLoop env p rest
    else if !d.cl.secondaries.any (fun s => s.1 == serial) then M.throw (.ub "null Secondary")
    else do
      let a ← ask (fun n => p.secManifest n serial)
      let j ← lift (orDefault .null a)
      if j.isEmpty then pendingSecondaryLoop env p rest
      else do
        let k ← ask (fun n => p.secKey n serial)
        let good ← lift (orDefault false (do manifestVerifies env j (← k)))
        if good ∧ hash = manifestHash j then do
          confirmSecondary env serial
          pendingSecondaryLoop env p rest
        else pendingSecondaryLoop env p rest

/-- `SotaUptaneClient::checkAndUpdatePendingSecondaries` (sotauptaneclient.cc:1398-1451). -/
def checkAndUpdatePendingSecondaries (env : Env) (p : Peers) : D Unit := do
  let d ← gets id
  let l ← lift d.cl.v.getPendingEcus
  pendingSecondaryLoop env p l

/-- `SotaUptaneClient::fetchMeta` (sotauptaneclient.cc:816-843). -/
def fetchMeta (c : Ctx) (p : Peers) : D UpdateCheck := do
  let d ← gets id
  if d.cl.hasPendingUpdates then checkAndUpdatePendingSecondaries c.env p else pure ()
  let d ← gets id
  if d.cl.hasPendingUpdates then
    pure ⟨[], 0, .error, .null, "There are pending updates, no new updates are checked"⟩
  else do
    let _ ← putManifestSimple c.env p
    inClient (checkUpdates c)

end Aktualizr
