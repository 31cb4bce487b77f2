import Verif.Model.Versions
import Verif.Model.Monad

/-!
# Automatic removal of stored images

Models `targets_autoclean_cb` (`src/libaktualizr/primary/aktualizr_helpers.cc`), `GetInstallationLog`
(`primary/aktualizr.cc:198-217`), and the stored images: table `target_images`
(`storage/sqlstorage.cc:1677-1732`) and the files in `images_path`
(`package_manager/packagemanagerinterface.cc:230-295`).

Not modelled: errors of the file system other than a missing file, SQL errors.
-/

namespace Aktualizr.Clean

open M (throwWhen throw gets modify lift orThrow)

abbrev Bytes := List UInt8

/-- Versions, table `target_images` (name of the Target and of the file; the first is unique), files,
and the number of effects before the process dies. -/
structure Shelf where
  versions : VersionDb
  names : List (String × String) := []
  files : String → Option Bytes := fun _ => none
  fuel : Nat := 0

abbrev C (α : Type) := M Shelf α

/-- One effect on a file or the table. -/
def effect (f : Shelf → Shelf) : C Unit := fun s =>
  match s.fuel with
  | 0 => (.error .crash, s)
  | k + 1 => (.ok (), { f s with fuel := k })

/-- `checkTargetFile` (packagemanagerinterface.cc:230-240): the file of a Target, if it exists. -/
def Shelf.file (s : Shelf) (name : String) : Option String :=
  match s.names.lookup name with
  | none => none
  | some f => if f = "" then none else if (s.files f).isSome then some f else none

/-- `removeTargetFile` (packagemanagerinterface.cc:278-285). -/
def removeTargetFile (name : String) : C Unit := do
  let s ← gets id
  let f ← orThrow (s.file name) (.std "File doesn't exist for target")
  effect (fun s => { s with files := fun g => if g = f then none else s.files g })
  effect (fun s => { s with names := s.names.filter (fun p => p.1 != name) })

/-- The loop of `GetInstallationLog` (aktualizr.cc:206-214). -/
def logs (env : Env) (db : VersionDb) : List (String × String) → Except Err (List (List Target))
  | [] => .ok []
  | e :: r => do
    let l ← db.loadInstallationLog env e.1 true
    return l :: (← logs env db r)

/-- `Aktualizr::GetInstallationLog` (aktualizr.cc:198-217). -/
def installationLog (env : Env) (db : VersionDb) : Except Err (List (List Target)) := do
  match ← db.loadEcuSerials with
  | none => throw (.std "Could not load ECU serials")
  | some l => logs env db l

/-- The last two installed Targets of an ECU (aktualizr_helpers.cc:17). -/
def lastTwo (installs : List Target) : List Target :=
  if installs.length ≥ 2 then installs.drop (installs.length - 2) else installs

/-- Finding the stored Target of the same name and unmarking it (aktualizr_helpers.cc:18-27): the
flags of `to_remove`. -/
def unmark (stored : List String) (flags : List Bool) (t : Target) : List Bool :=
  match stored.findIdx? (fun n => t.filename == n) with
  | none => flags
  | some i => flags.set i false

/-- One turn of the deleting loop (aktualizr_helpers.cc:31-33). -/
def removeIf (name : String) (flag : Bool) : C Unit := if flag then removeTargetFile name else pure ()

/-- The deleting loop (aktualizr_helpers.cc:30-34). -/
def removeAll : List (String × Bool) → C Unit
  | [] => pure ()
  | (n, flag) :: r => do
    removeIf n flag
    removeAll r

/-- `targets_autoclean_cb` (aktualizr_helpers.cc:5-35) for the event `AllInstallsComplete`. -/
def autoclean (env : Env) : C Unit := do
  let s ← gets id
  let stored := s.names.map Prod.fst
  let log ← lift (installationLog env s.versions)
  let flags := (log.flatMap lastTwo).foldl (unmark stored) (stored.map (fun _ => true))
  removeAll (stored.zip flags)

end Aktualizr.Clean
