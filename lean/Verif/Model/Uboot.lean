import Verif.Model.Monad

/-!
# The variables of U-Boot

Models `Bootloader::setBootOK` and `Bootloader::updateNotify` (`src/libaktualizr/bootloader/bootloader.cc:27-77`), where they are called
by `OstreeManager` and by the installation, and the deployments as far as they decide that. What U-Boot does with the variables is
not in this repository: `uboot` is the automaton of `docs/ota-client-guide/modules/ROOT/pages/rollback.adoc`.
-/

namespace Aktualizr.Uboot

/-- `RollbackMode`. -/
inductive Mode where
  | none
  | generic
  | masked
  deriving DecidableEq

/-- The variables. -/
structure Vars where
  bootcount : Nat := 0
  upgradeAvailable : Bool := false
  rollback : Bool := false
  deriving DecidableEq, Repr

/-- The `i`-th call of `fw_setenv`; `k i` says whether it had its effect. A failure is only logged. -/
abbrev Calls := Nat → Bool

/-- One call. -/
def setenv (ok : Bool) (f : Vars → Vars) (v : Vars) : Vars := if ok then f v else v

/-- `Bootloader::setBootOK` (bootloader.cc:27-48). -/
def setBootOK (m : Mode) (k : Calls) (v : Vars) : Vars :=
  match m with
  | .none => v
  | .generic => setenv (k 0) ({ · with bootcount := 0 }) v
  | .masked => setenv (k 1) ({ · with upgradeAvailable := false }) (setenv (k 0) ({ · with bootcount := 0 }) v)

/-- `Bootloader::updateNotify` (bootloader.cc:50-77). -/
def updateNotify (m : Mode) (k : Calls) (v : Vars) : Vars :=
  match m with
  | .none => v
  | .generic => setenv (k 1) ({ · with rollback := false }) (setenv (k 0) ({ · with bootcount := 0 }) v)
  | .masked =>
    setenv (k 2) ({ · with rollback := false })
      (setenv (k 1) ({ · with upgradeAvailable := true }) (setenv (k 0) ({ · with bootcount := 0 }) v))

/-- The device: the variables, the two deployments (the first is the main image, the second the one to roll back to), and the image that
runs, if any, with whether its deployment is the first. -/
structure Dev where
  vars : Vars := {}
  main : Nat
  alt : Nat
  running : Option (Nat × Bool)
  deriving DecidableEq

/-- The rollback mode, `bootlimit`, and which images get as far as starting aktualizr. -/
structure Cfg where
  mode : Mode
  limit : Nat
  works : Nat → Bool

/-- U-Boot (rollback.adoc): whether it boots the main image, and the variables afterwards. In the generic mode every boot is counted. -/
def uboot (c : Cfg) (v : Vars) : Bool × Vars :=
  match c.mode with
  | .none => (true, v)
  | m =>
    if v.rollback then (false, v)
    else
      let v := if m = .generic || v.upgradeAvailable then { v with bootcount := v.bootcount + 1 } else v
      if c.limit < v.bootcount then (false, { v with rollback := true, upgradeAvailable := false }) else (true, v)

/-- The constructor of `OstreeManager` (ostreemanager.cc:244-258): `imageUpdated` (374-394) says that no deployment is in front of the one that
runs. -/
def start (c : Cfg) (k : Calls) (d : Dev) : Dev :=
  match d.running with
  | some (_, true) => { d with vars := setBootOK c.mode k d.vars }
  | _ => d

/-- What happens to the device: it is switched on (and perhaps off again before aktualizr starts), aktualizr is started again, an update is
installed. -/
inductive Event where
  | boot (interrupted : Bool) (k : Calls)
  | restart (k : Calls)
  | install (image : Nat) (deploys : Bool) (k : Calls)

/-- Booting. -/
def boot (c : Cfg) (interrupted : Bool) (k : Calls) (d : Dev) : Dev :=
  let b := uboot c d.vars
  let image := if b.1 then d.main else d.alt
  let d := { d with vars := b.2 }
  if interrupted || !c.works image then { d with running := none }
  else start c k { d with running := some (image, b.1) }

/-- `uptaneInstall` of an image for the Primary (sotauptaneclient.cc:1034-1037): the boot loader is notified first, then the image is deployed
in front of the one that runs (ostreemanager.cc:184-203), or is not. -/
def install (c : Cfg) (image : Nat) (deploys : Bool) (k : Calls) (d : Dev) : Dev :=
  match d.running with
  | none => d
  | some (now, _) =>
    let d := { d with vars := updateNotify c.mode k d.vars }
    if deploys then { d with main := image, alt := now, running := some (now, false) } else d

/-- One event. -/
def step (c : Cfg) (d : Dev) : Event → Dev
  | .boot interrupted k => boot c interrupted k d
  | .restart k => start c k d
  | .install image deploys k => install c image deploys k d

/-- Many. -/
def run (c : Cfg) (d : Dev) (es : List Event) : Dev := es.foldl (step c) d

end Aktualizr.Uboot
