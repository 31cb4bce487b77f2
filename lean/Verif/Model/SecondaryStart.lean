import Verif.Model.Secondary
import Verif.Model.FsMigrate
import Verif.Model.Manifest

/-!
# The identity of an IP Secondary

Models the start of `aktualizr-secondary` with the file update agent (`src/aktualizr_secondary/aktualizr_secondary.cc:12-32,
127-168, 193-210`, `main.cc:94-105`), with `KeyManager::generateUptaneKeyPair` and `INvStorage::importInstalledVersions`, and
its answers to requests for information and for the manifest. The other requests are those of `Model/Secondary.lean`.

Not modelled: keys on PKCS#11; the OSTree agent (its class shares what is here); encoding of the answers (`Cer`).
-/

namespace Aktualizr.SecId

open M (gets modify throw throwWhen lift)
open Gen (GenEnv)

/-- The parts of `AktualizrSecondaryConfig` in use; `hostname` is what `Utils::getHostname` returns. -/
structure Config where
  serial : String := ""
  hwid : String := ""
  keyType : KeyType := .rsa2048
  hostname : String := ""
  deriving DecidableEq, Repr

/-- What surrounds the process: signatures, key identifiers and JSON (`g`), the n-th key pair made (public, private; `none`:
`Crypto::generateKeyPair` fails), digests. -/
structure Around where
  g : GenEnv
  newKey : KeyType → Nat → Option (String × String)
  hashing : Sec.Hashing

/-- The Secondary. Of `core` the tables and files persist; `core.versions.ecus` is the table of ECUs, `core.serial` and
`core.hwid` are the members `ecu_serial_` and `hardware_id_`. `keys` is the table `primary_keys`, `file` the file
`installed_versions` in the directory for imports. `type` is the key type the running process was configured with. `drawn` counts
what was drawn from the random generator. -/
structure State where
  core : Sec.State := { serial := "Unknown", hwid := "Unknown" }
  keys : Option (String × String) := none
  file : Option String := none
  type : KeyType := .unknown
  drawn : Nat := 0

/-- Computations of the process. -/
abbrev I (α : Type) := M State α

/-- Run a computation of the part without identity. -/
def inCore {α : Type} (m : Sec.S α) : I α := M.zoom (·.core) (fun c s => { s with core := c }) m

/-- One effect on the database or a file, or the crash in front of it. -/
def write (f : State → State) : I Unit := fun s =>
  match s.core.w.fuel with
  | 0 => (.error .crash, s)
  | n + 1 => (.ok (), f { s with core := { s.core with w := { s.core.w with fuel := n } } })

/-- `KeyManager::generateUptaneKeyPair` (keymanager.cc:298-326), keys in the database. -/
def generateKeys (a : Around) (type : KeyType) : I String := do
  let s ← gets id
  match s.keys with
  | some k => do
    throwWhen (k.1 == "" && k.2 == "") (.std "Could not get Uptane keys")
    pure k.1
  | none => do
    modify (fun s => { s with drawn := s.drawn + 1 })
    match a.newKey type s.drawn with
    | none => throw (.std "Could not get Uptane keys")
    | some k => do
      write (fun s => { s with keys := some k })
      throwWhen (k.1 == "" && k.2 == "") (.std "Could not get Uptane keys")
      pure k.1

/-- `INvStorage::importInstalledVersions` (invstorage.cc:118-133). -/
def importVersions (env : Env) : I Unit := do
  let s ← gets id
  let log ← lift (s.core.versions.loadInstallationLog env "" false)
  match log with
  | _ :: _ => pure ()
  | [] =>
    let r := FsMig.loadInstalled env { installed := s.file }
    match r.2.bind (fun k => r.1[k]?) with
    | none => pure ()
    | some t => do
      write (fun s => { s with core := { s.core with versions := s.core.versions.saveInstalledVersion env "" t .current } })
      write (fun s => { s with file := none })

/-- `AktualizrSecondary::uptaneInitialize` (aktualizr_secondary.cc:127-168). -/
def uptaneInitialize (a : Around) (cfg : Config) : I Unit := do
  let k ← generateKeys a cfg.keyType
  throwWhen (k == "") (.std "Failed to generate Uptane key pair")
  let s ← gets id
  match ← lift s.core.versions.loadEcuSerials with
  | some l => do
    let e := l.headD ("", "")
    modify (fun s => { s with core := { s.core with serial := e.1, hwid := e.2 } })
  | none => do
    let pub ← (if cfg.serial = "" then lift (Man.Keys.public a.g.env ⟨s.keys, cfg.keyType⟩) else pure ⟨"", .unknown⟩)
    let serial := if cfg.serial = "" then a.g.keyId pub else cfg.serial
    let hwid := if cfg.hwid = "" then cfg.hostname else cfg.hwid
    throwWhen (hwid == "") (.std "Failed to define ECU hardware ID")
    let serial ← lift (mkEcuSerial serial)
    let hwid ← lift (mkHwId hwid)
    write (fun s => { s with core := { s.core with versions := s.core.versions.storeEcuSerials [(serial, hwid)] } })
    modify (fun s => { s with core := { s.core with serial := serial, hwid := hwid } })
    importVersions a.g.env

/-- The start of the process: `AktualizrSecondary` (aktualizr_secondary.cc:12-19), then `AktualizrSecondaryFile` and
`initialize` as in `Sec.start`. -/
def start (a : Around) (cfg : Config) (clock : Nat → TimeStamp) (fuel : Nat) : I Unit := do
  modify (fun s => { s with core := { s.core with up := false, w := { s.core.w with fuel := fuel } }, type := cfg.keyType })
  uptaneInitialize a cfg
  let s ← gets id
  inCore (Sec.start a.g.env clock s.core.w.fuel)

/-- `getInfoHdlr` (aktualizr_secondary.cc:193-205): serial, hardware identifier, key. -/
def getInfo (a : Around) : I (String × String × PublicKey) := do
  let s ← gets id
  let pub ← lift (Man.Keys.public a.g.env ⟨s.keys, s.type⟩)
  pure (s.core.serial, s.core.hwid, pub)

/-- `getManifestHdlr` and `getManifest` (aktualizr_secondary.cc:23-32, 227-243), with `FileUpdateAgent::getInstalledImageInfo`,
which always succeeds. -/
def getManifest (a : Around) : I Json := do
  let s ← gets id
  modify (fun s => { s with drawn := s.drawn + 1 })
  let (name, length, hash) := Sec.installedImage s.core a.hashing
  lift (Man.sign a.g ⟨s.keys, s.type⟩ s.drawn (Man.ecuPart ⟨name, length, hash⟩ s.core.serial) none)

/-! ## Executions -/

/-- What can happen: the process starts, with any configuration and in place of a running one if there is one; somebody puts a
file into the directory for imports; a request. -/
inductive Op where
  | start (cfg : Config) (clock : Nat → TimeStamp) (fuel : Nat)
  | place (file : Option String)
  | getInfo
  | getManifest
  | putMeta (m : Sec.PutMeta) (clock : Nat → TimeStamp) (fuel : Nat)
  | upload (io : Sec.Io) (data : Sec.Bytes)
  | install (renames : Bool) (fuel : Nat)

/-- The answer to a request. -/
inductive Reply where
  | started
  | info (serial hwid : String) (key : PublicKey)
  | manifest (j : Json)
  | answer (a : Sec.Answer)

/-- How a computation ends for an observer, as in `Sec.observe`. -/
def observe {α : Type} (m : I α) (f : α → Reply) (s : State) : Except String (Option Reply × State) :=
  match m s with
  | (.ok a, s') => .ok (some (f a), s')
  | (.error (.ub what), _) => .error what
  | (.error _, s') => .ok (none, { s' with core := { s'.core with up := false } })

/-- A request, which a process that does not run does not get. -/
def request {α : Type} (m : I α) (f : α → Reply) (s : State) : Except String (Option Reply × State) :=
  if s.core.up then observe m f s else .ok (none, s)

/-- A request that has nothing to do with the identity. -/
def other (a : Around) (o : Sec.Op) (s : State) : Except String (Option Reply × State) := do
  let r ← Sec.step a.g.env a.hashing s.core o
  return (r.1.map .answer, { s with core := r.2 })

/-- One operation and the reply, if there is one. -/
def step (a : Around) (s : State) : Op → Except String (Option Reply × State)
  | .start cfg clock fuel => observe (start a cfg clock fuel) (fun _ => .started) s
  | .place file => .ok (none, { s with file := file })
  | .getInfo => request (getInfo a) (fun r => .info r.1 r.2.1 r.2.2) s
  | .getManifest => request (getManifest a) .manifest s
  | .putMeta m clock fuel => other a (.putMeta m clock fuel) s
  | .upload io data => other a (.upload io data) s
  | .install renames fuel => other a (.install renames fuel) s

/-- A history; stops at undefined behaviour. -/
def run (a : Around) (s : State) : List Op → Except String State
  | [] => .ok s
  | o :: os => do run a (← step a s o).2 os

end Aktualizr.SecId
