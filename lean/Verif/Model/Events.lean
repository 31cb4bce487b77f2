import Verif.Model.Cycle

/-!
# Events for the API user and reports for the server

The operations of `Model/Install.lean` and `Model/Cycle.lean` once more, now with what they tell:
the events sent to the API user (`sendEvent`, sotauptaneclient.h:173-180) and the reports put into
the queue (`report_queue->enqueue`, `Model/Reports.lean`). `Props/C63.lean` proves that leaving out
what is told gives the operations as modelled there.

Not modelled: progress events of a download, time stamps and ids of reports, exceptions thrown by
the user's event handlers. A Secondary's thread (sotauptaneclient.cc:1319-1349) runs as a whole, as
in `Model/Install.lean`.
-/

namespace Aktualizr

open M (gets lift)

/-- What is told to the outside, other than in the manifest. -/
inductive Note where
  /-- `EcuDownloadStartedReport` (reportqueue.cc:109-113). -/
  | downloadStarted (serial cid : String)
  /-- `EcuDownloadCompletedReport` (reportqueue.cc:115-121). -/
  | downloadCompleted (serial cid : String) (ok : Bool)
  /-- `EcuInstallationStartedReport` (reportqueue.cc:123-128). -/
  | installStarted (serial cid : String)
  /-- `EcuInstallationAppliedReport` (reportqueue.cc:130-135). -/
  | installApplied (serial cid : String)
  /-- `EcuInstallationCompletedReport` (reportqueue.cc:137-143). -/
  | installCompleted (serial cid : String) (ok : Bool)
  /-- `event::UpdateCheckComplete` (events.h:57-63). -/
  | checkComplete (r : UpdateCheck)
  /-- `event::DownloadTargetComplete` (events.h:93-104). -/
  | targetDownloaded (t : Target) (ok : Bool)
  /-- `event::AllDownloadsComplete` (events.h:109-116). -/
  | downloadsComplete (r : Downloaded)
  /-- `event::InstallStarted` (events.h:121-127). -/
  | started (serial : String)
  /-- `event::InstallTargetComplete` (events.h:132-143). -/
  | targetInstalled (serial : String) (ok : Bool)
  /-- `event::AllInstallsComplete` (events.h:148-155). -/
  | installsComplete (r : InstallReport)
  /-- `event::PutManifestComplete` (events.h:47-52). -/
  | manifestComplete (ok : Bool)

/-- A device with what it has told. `left` is the number of notes until the process dies in one. -/
structure Tel where
  d : Dev
  notes : List Note := []
  left : Nat := 0

/-- Computations that tell what they do. -/
abbrev T (α : Type) := M Tel α

/-- A part that tells nothing. -/
def quiet {α : Type} (m : D α) : T α := M.zoom (·.d) (fun d s => { s with d := d }) m

/-- Tell something: queue a report or send an event. -/
def tell (x : Note) : T Unit := fun s =>
  match s.left with
  | 0 => (.error .crash, s)
  | k + 1 => (.ok (), { s with left := k, notes := s.notes ++ [x] })

/-- The loops over ECUs of `downloadImage` (sotauptaneclient.cc:698-700, 750-752). -/
def tellAll : List Note → T Unit
  | [] => pure ()
  | x :: xs => do
    tell x
    tellAll xs

/-- `director_repo.getCorrelationId()`. -/
def correlationId : T String := gets (fun s => s.d.cl.w.dir.targets.correlationId)

/-! ## Downloads -/

/-- `SotaUptaneClient::downloadImage` (sotauptaneclient.cc:694-756) and the loop of
`downloadImages` (660-665). -/
def downloadEachT (f : Fetched) : List Target → T (List Target)
  | [] => pure []
  | t :: rest => do
    let cid ← correlationId
    tellAll (t.ecus.map (fun e => .downloadStarted e.1 cid))
    let ok ← quiet (ask (fun n => f n t))
    tellAll (t.ecus.map (fun e => .downloadCompleted e.1 cid ok))
    tell (.targetDownloaded t ok)
    let l ← downloadEachT f rest
    pure (if ok then t :: l else l)

/-- The part of `downloadImages` before the event (sotauptaneclient.cc:630-679). -/
def downloadBodyT (c : Ctx) (f : Fetched) (ts : List Target) : T Downloaded := do
  match ← quiet (recheck c ts) with
  | .noUpdates => pure ⟨[], .nothing⟩
  | .error => do
    quiet (inClient (storeInstallationFailure (.ofCode .internalError "Error rechecking stored metadata.")))
    pure ⟨[], .error⟩
  | .available => do
    let got ← downloadEachT f ts
    quiet (downloadResult ts got)

/-- `SotaUptaneClient::downloadImages` (sotauptaneclient.cc:630-682). -/
def downloadImagesT (c : Ctx) (f : Fetched) (ts : List Target) : T Downloaded := do
  let r ← downloadBodyT c f ts
  tell (.downloadsComplete r)
  pure r

/-! ## Installation -/

/-- What a Secondary's thread tells at its end (sotauptaneclient.cc:1337-1345). Comparing the
result code may throw; the future then holds the exception, which comes out of `recordAllResults`. -/
def secondaryDone (serial cid : String) (r : InstResult) : T Unit :=
  match r.needCompletion with
  | .error _ => pure ()
  | .ok nc => do
    tell (if nc then .installApplied serial cid else .installCompleted serial cid r.success)
    tell (.targetInstalled serial r.success)

/-- `sendFirmwareAsync` (sotauptaneclient.cc:1319-1349). -/
def sendFirmwareT (p : Peers) (serial : String) (t : Target) : T InstResult := do
  let cid ← correlationId
  tell (.started serial)
  tell (.installStarted serial cid)
  let r ← quiet (sendFirmware p serial t)
  secondaryDone serial cid r
  pure r

/-- First loop of `sendImagesToEcus` (sotauptaneclient.cc:1356-1377). -/
def sendAllT (p : Peers) : List (Target × String × String) → T (List (Target × String × InstResult))
  | [] => pure []
  | (t, serial, _) :: rest => do
    let d ← gets (·.d)
    if serial = d.cl.primary then sendAllT p rest
    else if d.cl.secondaries.any (fun q => q.1 == serial) then do
      let r ← sendFirmwareT p serial t
      let l ← sendAllT p rest
      pure ((t, serial, r) :: l)
    else sendAllT p rest

/-- `SotaUptaneClient::sendImagesToEcus` (sotauptaneclient.cc:1351-1392). -/
def sendImagesToEcusT (env : Env) (p : Peers) (ts : List Target) : T (List EcuReport) := do
  let l ← sendAllT p (assignments ts)
  quiet (recordAllResults env l)

/-- How the Primary's installation is told to have ended (sotauptaneclient.cc:1038-1054). -/
def primaryDone (serial cid : String) (r : InstResult) : T Unit :=
  if r.code.num = 21 then do
    tell (.installApplied serial cid)
    tell (.targetInstalled serial true)
  else do
    quiet (inClient (saveEcuResult serial r))
    tell (.installCompleted serial cid (r.code.num == 0))
    tell (.targetInstalled serial (r.code.num == 0))

/-- The Primary's part of step 7 (sotauptaneclient.cc:1024-1058). -/
def installPrimaryT (env : Env) (p : Peers) (ts : List Target) : T (List EcuReport) := do
  let d ← gets (·.d)
  match ts.find? (fun t => t.isForEcu d.cl.primary) with
  | none => pure []
  | some t => do
    let t : Target := { t with correlationId := d.cl.w.dir.targets.correlationId }
    tell (.installStarted d.cl.primary t.correlationId)
    tell (.started d.cl.primary)
    quiet (act .notify)
    let r ← quiet (packageInstallSetResult env p t)
    primaryDone d.cl.primary t.correlationId r
    pure [⟨t, d.cl.primary, r⟩]

/-- The lambda of `uptaneInstall` after re-verification (sotauptaneclient.cc:1003-1063). -/
def installVerifiedT (c : Ctx) (p : Peers) (ts : List Target) : T (InstallReport × String) := do
  let ok ← quiet (waitSecondariesReachable p ts)
  if !ok then pure (⟨⟨false, .internalError, "Unreachable Secondary"⟩, []⟩, "Secondaries were not available")
  else do
    let m ← quiet (sendMetadataToEcus c p ts)
    if !m.1.success then pure (⟨m.1, []⟩, m.2)
    else do
      let first ← installPrimaryT c.env p ts
      let others ← sendImagesToEcusT c.env p ts
      let d ← gets (·.d)
      let r ← lift d.cl.computeDeviceResult
      pure (⟨r.1, first ++ others⟩, r.2)

/-- The lambda of `uptaneInstall` (sotauptaneclient.cc:965-1064). -/
def installBodyT (c : Ctx) (p : Peers) (ts : List Target) : T (InstallReport × String) := do
  match ← quiet (recheck c ts) with
  | .noUpdates => pure (⟨⟨false, .alreadyProcessed, ""⟩, []⟩, "Stored Uptane metadata is invalid")
  | .error => pure (⟨⟨false, .internalError, ""⟩, []⟩, "Stored Uptane metadata is invalid")
  | .available => do
    let good ← quiet (verifyAll p ts)
    if !good then pure (⟨⟨false, .internalError, ""⟩, []⟩, "Downloaded target is invalid")
    else installVerifiedT c p ts

/-- `SotaUptaneClient::uptaneInstall` (sotauptaneclient.cc:957-1071). -/
def uptaneInstallT (c : Ctx) (p : Peers) (ts : List Target) : T InstallReport := do
  let r ← installBodyT c p ts
  let d ← gets (·.d)
  quiet (inClient (storeDeviceResult r.1.device r.2 d.cl.w.dir.targets.correlationId))
  tell (.installsComplete r.1)
  pure r.1

/-! ## Completing installations, manifests, checks -/

/-- `SotaUptaneClient::putManifest` (sotauptaneclient.cc:1151-1155). -/
def putManifestT (env : Env) (p : Peers) : T Bool := do
  let ok ← quiet (putManifestSimple env p)
  tell (.manifestComplete ok)
  pure ok

/-- `SotaUptaneClient::finalizeAfterReboot` (sotauptaneclient.cc:59-108). -/
def finalizeAfterRebootT (env : Env) (p : Peers) : T Unit := do
  let d ← gets (·.d)
  if !d.cl.hasPendingUpdates then pure ()
  else do
    match ← lift (d.cl.v.loadPending env d.cl.primary) with
    | none => pure ()
    | some t => do
      quiet (act (.finalize t))
      let a ← quiet (ask (fun n => p.finalize n t))
      let r ← lift a
      if ← lift (r.code.same .needCompletion) then pure ()
      else do
        quiet (inClient (saveEcuResult d.cl.primary r))
        quiet (saveVersion env d.cl.primary t (if r.success then .current else .none))
        tell (.installCompleted d.cl.primary t.correlationId r.success)
        quiet (inClient (inWorld Director.dropTargets))
        let d ← gets (·.d)
        let dev ← lift d.cl.computeDeviceResult
        quiet (inClient (storeDeviceResult dev.1 dev.2 t.correlationId))
        let _ ← quiet (putManifestSimple env p)
        pure ()

/-- The effect of a confirmed pending update of a Secondary (sotauptaneclient.cc:1433-1449). -/
def confirmSecondaryT (env : Env) (serial : String) : T Unit := do
  let d ← gets (·.d)
  match ← lift (d.cl.v.loadPending env serial) with
  | none => M.throw (.ub "dereferencing an empty optional")
  | some t => do
    quiet (inClient (saveEcuResult serial (.ofCode .ok "")))
    quiet (saveVersion env serial t .current)
    tell (.installCompleted serial t.correlationId true)
    let d ← gets (·.d)
    let dev ← lift d.cl.computeDeviceResult
    quiet (inClient (storeDeviceResult dev.1 dev.2 t.correlationId))

/-- The loop of `checkAndUpdatePendingSecondaries` (sotauptaneclient.cc:1402-1451). -/
def pendingSecondaryLoopT (env : Env) (p : Peers) : List (String × Hash) → T Unit
  | [] => pure ()
  | (serial, hash) :: rest => do
    let d ← gets (·.d)
    if d.cl.primary = serial then pendingSecondaryLoopT env p rest
    else if !d.cl.secondaries.any (fun q => q.1 == serial) then M.throw (.ub "null Secondary")
    else do
      let a ← quiet (ask (fun n => p.secManifest n serial))
      let j ← lift (orDefault .null a)
      if j.isEmpty then pendingSecondaryLoopT env p rest
      else do
        let k ← quiet (ask (fun n => p.secKey n serial))
        let good ← lift (orDefault false (do manifestVerifies env j (← k)))
        if good ∧ hash = manifestHash j then do
          confirmSecondaryT env serial
          pendingSecondaryLoopT env p rest
        else pendingSecondaryLoopT env p rest

/-- `SotaUptaneClient::checkAndUpdatePendingSecondaries` (sotauptaneclient.cc:1398-1451). -/
def checkAndUpdatePendingSecondariesT (env : Env) (p : Peers) : T Unit := do
  let d ← gets (·.d)
  let l ← lift d.cl.v.getPendingEcus
  pendingSecondaryLoopT env p l

/-- `SotaUptaneClient::fetchMeta` (sotauptaneclient.cc:816-843). No event when updates are pending. -/
def fetchMetaT (c : Ctx) (p : Peers) : T UpdateCheck := do
  let d ← gets (·.d)
  if d.cl.hasPendingUpdates then checkAndUpdatePendingSecondariesT c.env p else pure ()
  let d ← gets (·.d)
  if d.cl.hasPendingUpdates then
    pure ⟨[], 0, .error, .null, "There are pending updates, no new updates are checked"⟩
  else do
    let _ ← quiet (putManifestSimple c.env p)
    let r ← quiet (inClient (checkUpdates c))
    tell (.checkComplete r)
    pure r

/-! ## The cycle -/

/-- The end of a cycle in which something was installed (aktualizr.cc:62-76). -/
def cycleEndT (c : Ctx) (p : Peers) (force : Bool) : T Bool := do
  if ← quiet (completionRequired force) then pure false
  else do
    let d ← gets (·.d)
    if d.cl.hasPendingUpdates then pure true
    else do
      let _ ← putManifestT c.env p
      pure true

/-- The part of a cycle after the download (aktualizr.cc:52-60). -/
def cycleInstallT (c : Ctx) (p : Peers) (force : Bool) (r : Downloaded) : T Bool :=
  if r.status ≠ .success ∨ r.updates.isEmpty then
    if r.status ≠ .nothing then do
      let _ ← putManifestT c.env p
      pure true
    else pure true
  else do
    let _ ← uptaneInstallT c p r.updates
    cycleEndT c p force

/-- The part of a cycle after the check (aktualizr.cc:41-51). -/
def cycleDownloadT (c : Ctx) (p : Peers) (f : Fetched) (force : Bool) (r : UpdateCheck) : T Bool :=
  if r.updates.isEmpty then
    if r.status = .error then do
      let _ ← putManifestT c.env p
      pure true
    else pure true
  else do
    let got ← downloadImagesT c f r.updates
    cycleInstallT c p force got

/-- `Aktualizr::UptaneCycle` (aktualizr.cc:39-77). -/
def uptaneCycleT (c : Ctx) (p : Peers) (f : Fetched) (force : Bool) : T Bool := do
  let r ← fetchMetaT c p
  cycleDownloadT c p f force r

end Aktualizr
