import Verif.Model.Client

/-!
# Updates that need a reboot

Models `src/libaktualizr/bootloader/bootloader.cc` (reboot detection), the table `need_reboot`
(`storage/sqlstorage.cc:830-871`), the installation and finalisation of `OstreeManager` and
`PackageManagerFake`, and their callers in `SotaUptaneClient` as far as they decide what is
recorded for the Primary.  (`Model/Install.lean` has the callers in full, with an arbitrary
package manager.)

Not modelled: libostree (its calls succeed or fail as an input says), the boot counters of
U-Boot, report events, the manifest.
-/

namespace Aktualizr.Boot

open M (throwWhen throw gets modify lift)

/-- What is observed of the Primary's updates. `pending t flag sentinel`: `t` is recorded as
pending while the flag in storage and the sentinel file are as given. `result t r h`: `r` is
recorded as the result of finalising `t` while the system runs `h`. -/
inductive Note where
  | pending (t : Target) (flag sentinel : Bool)
  | reboot
  | result (t : Target) (r : InstResult) (booted : Option String)

/-- The device: version tables, the row of `need_reboot`, the sentinel file (in a directory that
does not survive a reboot), whether reboot detection works (`reboot_detect_supported_`), the
deployment that boots next and the running one, and the number of effects before the process
dies. -/
structure Board where
  v : VersionDb := {}
  primary : String
  needReboot : Bool := false
  sentinel : Bool := false
  supported : Bool := true
  next : Option String := none
  booted : Option String := none
  fuel : Nat := 0
  log : List Note := []

abbrev B (α : Type) := M Board α

/-- One effect on storage or a file. -/
def effect (f : Board → Board) : B Unit := fun b =>
  match b.fuel with
  | 0 => (.error .crash, b)
  | k + 1 => (.ok (), { f b with fuel := k })

/-- `Bootloader::rebootDetected` (bootloader.cc:81-94) with `loadNeedReboot`
(sqlstorage.cc:840-862). -/
def Board.rebootDetected (b : Board) : Bool :=
  if !b.supported then false else b.needReboot && !b.sentinel

/-- `Bootloader::rebootFlagSet` (bootloader.cc:96-105); `ok` says whether the file can be
written. -/
def rebootFlagSet (ok : Bool) : B Unit := do
  let b ← gets id
  if !b.supported then pure ()
  else do
    throwWhen (!ok) (.std "Error opening file")
    effect (fun b => { b with sentinel := true })
    effect (fun b => { b with needReboot := true })

/-- `Bootloader::rebootFlagClear` (bootloader.cc:107-116). -/
def rebootFlagClear : B Unit := do
  let b ← gets id
  if !b.supported then pure ()
  else do
    effect (fun b => { b with needReboot := false })
    effect (fun b => { b with sentinel := false })

/-- The package manager: OSTree, or the fake one with `fake_need_reboot`. -/
inductive Kind where
  | ostree
  | fake
  deriving DecidableEq

/-- What the outside does during a call: libostree deploys, the sentinel can be written, and the
fault injected into the fake package manager (`fiu_fail`). -/
structure Io where
  deploys : Bool := true
  writes : Bool := true
  fault : Option ResultCode := none

/-- `OstreeManager::install` (ostreemanager.cc:130-213) and `PackageManagerFake::install`
(packagemanagerfake.cc:31-52). -/
def pmInstall (kind : Kind) (io : Io) (t : Target) : B InstResult :=
  match kind with
  | .ostree =>
    if !io.deploys then pure (.ofCode .installFailed "ostree")
    else do
      effect (fun b => { b with next := some t.sha256Hash })
      rebootFlagSet io.writes
      pure (.ofCode .needCompletion "Application successful, need reboot")
  | .fake =>
    match io.fault with
    | some _ => pure (.ofCode .installFailed "")
    | none => do
      rebootFlagSet io.writes
      pure (.ofCode .needCompletion "Application successful, need reboot")

/-- `OstreeManager::finalizeInstall` (ostreemanager.cc:220-240); `getCurrentHash` throws without a
booted deployment (ostreemanager.cc:334-340). `PackageManagerFake::finalizeInstall`
(packagemanagerfake.cc:59-97). -/
def pmFinalize (env : Env) (kind : Kind) (io : Io) (t : Target) : B InstResult := do
  let b ← gets id
  if !b.rebootDetected then pure (.ofCode .needCompletion "Reboot is required for the pending update application")
  else match kind with
    | .ostree => do
      let current ← M.orThrow b.booted (.std "Could not get booted deployment")
      let r := if current ≠ t.sha256Hash then .ofCode .installFailed "Wrong version booted"
        else .ofCode .ok "Successfully booted on new version"
      rebootFlagClear
      pure r
    | .fake => do
      let pending ← lift (b.v.loadPending env "")
      let p ← M.orThrow pending (.std "No pending update, nothing to finalize")
      let r := if t.matchTarget p then
          (match io.fault with
           | some _ => .ofCode .installFailed ""
           | none => .ofCode .ok "Installing fake package was successful")
        else .ofCode .internalError "Pending and new target do not match"
      rebootFlagClear
      pure r

/-- `saveInstalledVersion` for the Primary. -/
def save (env : Env) (t : Target) (mode : UpdateMode) : B Unit :=
  effect (fun b => { b with v := b.v.saveInstalledVersion env b.primary t mode })

/-- `SotaUptaneClient::PackageInstallSetResult` (sotauptaneclient.cc:110-135) with `PackageInstall`
(49-57). The row of `ecu_installation_results` is not part of this state; writing it is an
effect nevertheless. -/
def installPrimary (env : Env) (kind : Kind) (io : Io) (t : Target) : B InstResult := do
  save env t .none
  let r ← M.catchStd (pmInstall kind io t) (fun _ => pure (.ofCode .installFailed "exception"))
  if r.code.num = 0 then save env t .current
  else if r.code.num = 21 then do
    save env t .pending
    modify (fun b => { b with log := b.log ++ [.pending t b.needReboot b.sentinel] })
  else pure ()
  effect id
  pure r

/-- `AktualizrSecondary::install` (aktualizr_secondary.cc:38-66) once there is a pending target: the same package
manager in an OSTree Secondary, whose only ECU has the place of the Primary in its database. Exceptions leave it. -/
def installSecondary (env : Env) (kind : Kind) (io : Io) (t : Target) : B InstResult := do
  let r ← pmInstall kind io t
  if r.code.num = 0 then save env t .current
  else if r.code.num = 21 then do
    save env t .pending
    modify (fun b => { b with log := b.log ++ [.pending t b.needReboot b.sentinel] })
  else pure ()
  pure r

/-- `SotaUptaneClient::finalizeAfterReboot` (sotauptaneclient.cc:59-108), up to the recording of the
version. -/
def finalizeAfterReboot (env : Env) (kind : Kind) (io : Io) : B Unit := do
  let b ← gets id
  if !b.v.hasPendingInstall then pure ()
  else do
    match ← lift (b.v.loadPending env b.primary) with
    | none => pure ()
    | some t => do
      let r ← pmFinalize env kind io t
      if ← lift (r.code.same .needCompletion) then pure ()
      else do
        effect (fun b => { b with log := b.log ++ [.result t r b.booted] })
        save env t (if r.success then .current else .none)

/-- What happens to the device. -/
inductive Event where
  /-- A process starts: `Bootloader::Bootloader` (bootloader.cc:14-25) finds reboot detection
  supported or not, and `initialize` finalises. -/
  | start (supported : Bool) (io : Io) (fuel : Nat)
  /-- An installation for the Primary. -/
  | install (io : Io) (t : Target) (fuel : Nat)
  /-- An installation in an OSTree Secondary. -/
  | installSec (io : Io) (t : Target) (fuel : Nat)
  /-- The machine restarts: the sentinel is gone, and some deployment boots. -/
  | reboot (boots : Option String)
  /-- `PackageManagerFake::completeInstall` (packagemanagerfake.cc:54-57): an emulated reboot. -/
  | fakeReboot

/-- One event; the process ends when it dies or throws. -/
def Event.step (env : Env) (kind : Kind) (b : Board) : Event → Board
  | .start s io fuel => (finalizeAfterReboot env kind io { b with supported := s, fuel := fuel }).2
  | .install io t fuel => (installPrimary env kind io t { b with fuel := fuel }).2
  | .installSec io t fuel => (installSecondary env kind io t { b with fuel := fuel }).2
  | .reboot boots => { b with sentinel := false, booted := boots, log := b.log ++ [.reboot] }
  | .fakeReboot => if kind = .fake then { b with sentinel := false, log := b.log ++ [.reboot] } else b

/-- A history. -/
def run (env : Env) (kind : Kind) (b : Board) (es : List Event) : Board := es.foldl (Event.step env kind) b

end Aktualizr.Boot
