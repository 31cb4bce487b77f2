import Verif.Model.Device

/-!
# The update cycle and the daemon

Models `Aktualizr::UptaneCycle` and `Aktualizr::RunForever`
(`src/libaktualizr/primary/aktualizr.cc:39-97`), on top of the operations of `Model/Install.lean`,
and `SotaUptaneClient::downloadImages`. The commands run one at a time (C28), and the cycle waits
for each.

Not modelled: commands that API users submit in between, events, reports, pausing and aborting.
-/

namespace Aktualizr

open M (gets lift)

/-- `result::DownloadStatus` (include/libaktualizr/results.h:79-88). -/
inductive DownloadStatus where
  | success | partialSuccess | nothing | error
  deriving DecidableEq, Repr

/-- `result::Download` (results.h:92-110), without the message. -/
structure Downloaded where
  updates : List Target
  status : DownloadStatus

/-- Which answers of `downloadImage` (sotauptaneclient.cc:694-756) the outside gives: whether the
image of the target was obtained in one of three attempts (`fetchTarget`, `Model/Download.lean`).
For an OSTree target of a Secondary the answer only says that the keys could be loaded. -/
abbrev Fetched := Nat → Target → Bool

/-- The loop over targets of `downloadImages` (sotauptaneclient.cc:660-665). -/
def downloadEach (f : Fetched) : List Target → D (List Target)
  | [] => pure []
  | t :: rest => do
    let ok ← ask (fun n => f n t)
    let l ← downloadEach f rest
    pure (if ok then t :: l else l)

/-- The end of `downloadImages` (sotauptaneclient.cc:667-679). -/
def downloadResult (ts got : List Target) : D Downloaded :=
  if ts.length = got.length then pure ⟨got, .success⟩
  else do
    inClient (storeInstallationFailure (.ofCode .downloadFailed "Target download failed."))
    pure ⟨got, if got.isEmpty then .error else .partialSuccess⟩

/-- `SotaUptaneClient::downloadImages` (sotauptaneclient.cc:630-682). -/
def downloadImages (c : Ctx) (f : Fetched) (ts : List Target) : D Downloaded := do
  match ← recheck c ts with
  | .noUpdates => pure ⟨[], .nothing⟩
  | .error => do
    inClient (storeInstallationFailure (.ofCode .internalError "Error rechecking stored metadata."))
    pure ⟨[], .error⟩
  | .available => do
    let got ← downloadEach f ts
    downloadResult ts got

/-- `isInstallCompletionRequired` (sotauptaneclient.cc:1102-1111); `force` is
`config.uptane.force_install_completion`. -/
def completionRequired (force : Bool) : D Bool := do
  let d ← gets id
  let l ← lift d.cl.v.getPendingEcus
  pure (l.any (fun e => e.1 == d.cl.primary) && force)

/-- The end of a cycle in which something was installed (aktualizr.cc:62-76). -/
def cycleEnd (c : Ctx) (p : Peers) (force : Bool) : D Bool := do
  if ← completionRequired force then pure false
  else do
    let d ← gets id
    if d.cl.hasPendingUpdates then pure true
    else do
      let _ ← putManifestSimple c.env p
      pure true

/-- The part of a cycle after the download (aktualizr.cc:52-60). -/
def cycleInstall (c : Ctx) (p : Peers) (force : Bool) (r : Downloaded) : D Bool :=
  if r.status ≠ .success ∨ r.updates.isEmpty then
    if r.status ≠ .nothing then do
      let _ ← putManifestSimple c.env p
      pure true
    else pure true
  else do
    let _ ← uptaneInstall c p r.updates
    cycleEnd c p force

/-- The part of a cycle after the check (aktualizr.cc:41-51). -/
def cycleDownload (c : Ctx) (p : Peers) (f : Fetched) (force : Bool) (r : UpdateCheck) : D Bool :=
  if r.updates.isEmpty then
    if r.status = .error then do
      let _ ← putManifestSimple c.env p
      pure true
    else pure true
  else do
    let got ← downloadImages c f r.updates
    cycleInstall c p force got

/-- `Aktualizr::UptaneCycle` (aktualizr.cc:39-77); `CheckUpdates` is `fetchMeta` (aktualizr.cc:147-150),
`SendManifest` is `putManifest` (aktualizr.cc:167-170). -/
def uptaneCycle (c : Ctx) (p : Peers) (f : Fetched) (force : Bool) : D Bool := do
  let r ← fetchMeta c p
  cycleDownload c p f force r

/-- What one turn of the daemon depends on: the outside during the cycle, the number of effects
before the process dies, and whether `Shutdown` was called before the next cycle. -/
structure Turn where
  net : Nat → Repo → String → Int → Option String
  clock : Nat → TimeStamp
  peers : Peers
  fetched : Fetched
  fuel : Nat
  exit : Bool

/-- The cycle of a turn. -/
def Turn.run (env : Env) (force : Bool) (t : Turn) (d : Dev) : Except Err Bool × Dev :=
  uptaneCycle { env := env, net := t.net, clock := t.clock } t.peers t.fetched force
    { d with cl := { d.cl with w := { d.cl.w with fuel := t.fuel, tick := 0 } } }

/-- What happens in the life of a device: calls of the API, starts of the process, and cycles. -/
inductive LifeEvent where
  | call (e : DevEvent)
  | turn (t : Turn) (force : Bool)

/-- One event; as for calls, cycles only run on an initialised process, a crash ends the process,
and undefined behaviour is treated like a crash at that point. -/
def LifeEvent.step (env : Env) (d : Dev) : LifeEvent → Dev
  | .call e => e.step env d
  | .turn t force =>
    if d.up then
      match t.run env force d with
      | (.error .crash, d') => d'.off
      | (.error (.ub _), d') => d'.off
      | (_, d') => d'
    else d

/-- State after part of a life. -/
def live (env : Env) (d : Dev) (es : List LifeEvent) : Dev := es.foldl (LifeEvent.step env) d

/-- How the future of `RunForever` stands. -/
inductive Ending where
  /-- the inputs are used up, the daemon is waiting for the next cycle -/
  | waiting
  /-- `completeInstall` was reached; the package manager was told to complete (reboot) or not -/
  | done (complete : Bool)
  /-- an exception left it, or the process died -/
  | failed (e : Err)

/-- `SotaUptaneClient::completeInstall` (sotauptaneclient.cc:1113-1117). -/
def completeInstall (force : Bool) (d : Dev) : Ending × Dev :=
  match completionRequired force d with
  | (.ok b, d) => (.done b, d)
  | (.error e, d) => (.failed e, d)

/-- The loop of `RunForever` (aktualizr.cc:84-94). -/
def runLoop (env : Env) (force : Bool) : List Turn → Dev → Ending × Dev
  | [], d => (.waiting, d)
  | t :: ts, d =>
    match t.run env force d with
    | (.error e, d) => (.failed e, d)
    | (.ok false, d) => completeInstall force d
    | (.ok true, d) => if t.exit then completeInstall force d else runLoop env force ts d

/-- `Aktualizr::RunForever` (aktualizr.cc:79-97); `sent` is how `SendDeviceData` ended
(`Model/DeviceData.lean`). -/
def runForever (env : Env) (force : Bool) (sent : Except Err Unit) (ts : List Turn) (d : Dev) : Ending × Dev :=
  match sent with
  | .error e => (.failed e, d)
  | .ok () => runLoop env force ts d

end Aktualizr
