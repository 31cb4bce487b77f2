import Verif.Model.Initializer
import Verif.Model.SecondaryOstree

/-!
# aktualizr-info (src/aktualizr_info/main.cc)

What it prints, from the tables of the storage. The program runs beside aktualizr: each query sees the database of its moment.

Simplified: opening the storage works or throws, as an input says (its effects are in `Model/Migrate.lean`), queries do not fail; the
texts of `--help` and `--version`, the parsing of the command line, the reading of the configuration and the log are left out. A
piece of output ends where a line does (`std::endl` or a newline at its end).
-/

namespace Aktualizr.Info

open M (lift throw throwWhen)

/-- The tables the program reads. A `NULL` in `tls_creds` or a missing row is `none`, as in `Prov.Store`. `misconfigured`: serial,
hardware identifier, whether the state is `kOld`. -/
structure Db where
  device : Option (String × Bool) := none
  ca : Option String := none
  cert : Option String := none
  pkey : Option String := none
  keys : Option (String × String) := none
  versions : VersionDb := {}
  metadata : MetaDb := {}
  misconfigured : List (String × String × Bool) := []

/-- The package manager: by records only, or OSTree with its sysroot (`none`: cannot be opened; otherwise the booted commit). -/
inductive PackMan where
  | fake
  | ostree (sysroot : Option (Option String))
  | unknown (type : String)

/-- What is around: the database, and whether the storage can be opened, at each moment; the package manager configured. -/
structure Around where
  env : Env
  db : Nat → Db
  opens : Nat → Bool
  pacman : PackMan := .fake

/-- What was printed, and the moment. -/
structure St where
  out : List String := []
  tick : Nat := 0
  deriving DecidableEq

abbrev P := M St

/-- One query. -/
def read {α : Type} (a : Around) (f : Db → α) : P α := fun s => (.ok (f (a.db s.tick)), { s with tick := s.tick + 1 })

/-- One query that may throw. -/
def readE {α : Type} (a : Around) (f : Db → Except Err α) : P α := fun s => (f (a.db s.tick), { s with tick := s.tick + 1 })

/-- `std::cout << ... << std::endl`. -/
def line (t : String) : P Unit := fun s => (.ok (), { s with out := s.out ++ [t] })

def lines : List String → P Unit
  | [] => pure ()
  | t :: ts => do line t; lines ts

/-- `INvStorage::newStorage`. -/
def openStorage (a : Around) : P Unit := fun s =>
  if a.opens s.tick then (.ok (), { s with tick := s.tick + 1 }) else (.error (.std "storage"), { s with tick := s.tick + 1 })

/-! ## Queries -/

/-- `SQLStorage::loadTlsCreds` (sqlstorage.cc:384-420): all or nothing; the program starts with empty texts. -/
def Db.tls (d : Db) : String × String × String :=
  match d.ca, d.cert, d.pkey with
  | some a, some b, some c => (a, b, c)
  | _, _, _ => ("", "", "")

/-- `SQLStorage::loadPrimaryKeys` (sqlstorage.cc:85-87). -/
def Db.ecuKeys (d : Db) : String × String := d.keys.getD ("", "")

/-- `SQLStorage::loadEcuRegistered` (sqlstorage.cc:802-818). -/
def Db.registered (d : Db) : Bool := (d.device.map (·.2)).getD false

/-- A blob as `loadRoot` and `loadNonRoot` read it (sqlstorage.cc:560-629): a string is made from a null pointer if it is empty. -/
def blob : Option MetaRow → Except Err (Option String)
  | none => .ok none
  | some r => if r.data = "" then .error (.ub "std::string from a null pointer") else .ok (some r.data)

/-- `loadLatestRoot` and `loadNonRoot` (sqlstorage.cc:560-629). -/
def Db.doc (d : Db) (repo : Repo) (type : RoleKind) : Except Err (Option String) := blob (d.metadata.latestOf repo type)

/-- `SQLStorage::loadAllDelegations` (sqlstorage.cc:683-716): nothing if a name is reserved or a document is empty. -/
def Db.delegations (d : Db) : Option (List (String × String)) :=
  if d.metadata.delegations.all (fun p => p.2 ≠ "" && !Role.isReserved (lower p.1)) then some d.metadata.delegations else none

/-- `loadInstalledVersions` (sqlstorage.cc:1256-1336). -/
def Db.installed (env : Env) (d : Db) (serial : String) : Except Err (Option Target × Option Target) := do
  return (← d.versions.loadCurrent env serial, ← d.versions.loadPending env serial)

/-- The conversions of `loadMisconfiguredEcus` (sqlstorage.cc:1017-1047). -/
def misconfiguredLoop : List (String × String × Bool) → Except Err (List (String × String × Bool))
  | [] => .ok []
  | (s, h, o) :: rest => do
    let s ← mkEcuSerial s
    let h ← mkHwId h
    return (s, h, o) :: (← misconfiguredLoop rest)

/-- `getCurrent` of the package managers (packagemanagerfake.cc:19-28, ostreemanager.cc:244-257, 332-371), with the factory
(packagemanagerfactory.cc:26-49). `none`: a target that is not valid. -/
def current (env : Env) (v : VersionDb) : PackMan → Except Err (Option Target)
  | .fake => v.loadCurrent env ""
  | .ostree none => .error (.std "Could not find OSTree sysroot")
  | .ostree (some none) => .error (.std "Could not get booted deployment")
  | .ostree (some (some hash)) => SecOst.getCurrent env v hash
  | .unknown type => .error (.std ("Unsupported package manager: " ++ type))

/-! ## The program -/

/-- The options given. -/
structure Options where
  given : List String := []

def Options.has (o : Options) (n : String) : Bool := o.given.contains n

/-- Waiting (main.cc:126-139): at most `n` attempts; what throws is caught. Gives what `registered`, `has_metadata` and
`director_root` are afterwards. -/
def wait (a : Around) : Nat → Bool → Bool → String → P (Bool × Bool × String)
  | 0, _, _, _ => throw .crash
  | n + 1, r, m, root =>
    if r && m then pure (r, m, root)
    else do
      let ok ← (fun s => (.ok (a.opens s.tick), { s with tick := s.tick + 1 }) : P Bool)
      if ok then do
        let r ← read a Db.registered
        let d ← readE a (fun d => d.doc .director .root)
        wait a n r d.isSome (d.getD root)
      else wait a n r m root

/-- An option for metadata (main.cc:224-307). -/
def metadataOption (o : Options) (names : List String) (has : Bool) (show' : P Unit) : P Bool :=
  if names.any o.has then do
    let _ ← (if has then show' else line "Metadata is not available")
    pure true
  else pure false

/-- A document, or an empty line if there is none. -/
def showDoc (a : Around) (repo : Repo) (type : RoleKind) : P Unit := do
  let d ← readE a (fun d => d.doc repo type)
  line (d.getD "")

/-- `loadAndPrintDelegations` (main.cc:18-35). -/
def showDelegations (a : Around) : P Unit := do
  match ← read a Db.delegations with
  | none => line "Failed to load delegations"
  | some [] => line "Delegations are not present"
  | some l => lines (l.map (fun p => p.1 ++ ": " ++ p.2))

/-- The options for credentials, before `--ecu-pub-key` (main.cc:160-206): whether one was given. -/
def credentials (a : Around) (o : Options) : P (Bool × Bool × Bool) := do
  let t ← read a Db.tls
  let _ ← (if o.has "tls-creds" then
    lines ["Root CA certificate:", t.1, "Client certificate:", t.2.1, "Client private key:", t.2.2] else pure ())
  let _ ← (if o.has "tls-root-ca" then do line (← read a (fun d => d.ca.getD "")) else pure ())
  let _ ← (if o.has "tls-cert" then do line (← read a (fun d => d.cert.getD "")) else pure ())
  let _ ← (if o.has "tls-prv-key" then do line (← read a (fun d => d.pkey.getD "")) else pure ())
  let k ← read a Db.ecuKeys
  let _ ← (if o.has "ecu-keys" then lines ["Public key:", k.1, "Private key:", k.2] else pure ())
  pure (!(t.1 == "" && t.2.1 == "" && t.2.2 == ""), k.1 != "" && k.2 != "",
    ["tls-creds", "tls-root-ca", "tls-cert", "tls-prv-key", "ecu-keys"].any o.has)

/-- The options for metadata (main.cc:224-307): whether one was given. -/
def metadataOptions (a : Around) (o : Options) (has : Bool) (root : String) : P Bool := do
  let b1 ← metadataOption o ["image-root", "images-root"] has (showDoc a .image .root)
  let b2 ← metadataOption o ["image-targets", "image-target", "images-targets", "images-target"] has (showDoc a .image .targets)
  let b3 ← metadataOption o ["delegation"] has (showDelegations a)
  let b4 ← metadataOption o ["director-root"] has (line root)
  let b5 ← metadataOption o ["director-targets", "director-target"] has (showDoc a .director .targets)
  let b6 ← metadataOption o ["image-snapshot", "images-snapshot"] has (showDoc a .image .snapshot)
  let b7 ← metadataOption o ["image-timestamp", "images-timestamp"] has (showDoc a .image .timestamp)
  pure (b1 || b2 || b3 || b4 || b5 || b6 || b7)

/-- The lines about a Secondary's versions (main.cc:350-367). -/
def versionLines (v : Option Target × Option Target) : List String :=
  if v.1.isNone && v.2.isNone then ["   no details about installed nor pending images"]
  else
    (match v.1 with
      | some t => ["   installed image hash: " ++ t.sha256Hash, "   installed image filename: " ++ t.filename]
      | none => []) ++
    (match v.2 with
      | some t => ["   pending image hash: " ++ t.sha256Hash, "   pending image filename: " ++ t.filename]
      | none => [])

/-- The Secondaries (main.cc:336-369). -/
def secondaries (a : Around) : Nat → List (String × String) → P Unit
  | _, [] => pure ()
  | n, (serial, hw) :: rest => do
    lines [toString n ++ ") serial ID: " ++ serial, "   hardware ID: " ++ hw]
    let v ← readE a (fun d => d.installed a.env serial)
    lines (versionLines v)
    secondaries a (n + 1) rest

/-- The general information (main.cc:313-406). -/
def general (a : Around) (device : Option String) (tls keys registered has : Bool) : P Unit := do
  let secondary := device.isNone && !tls && keys
  let _ ← (if secondary then pure () else line (match device with
    | some d => "Device ID: " ++ d
    | none => "Couldn't load device ID"))
  let name := if secondary then "Secondary" else "Primary"
  let serials ← readE a (fun d => d.versions.loadEcuSerials)
  let _ ← (match serials with
    | none => line "Couldn't load ECU serials"
    | some [] => line (name ++ " serial is not found")
    | some (e :: _) => lines [name ++ " ECU serial ID: " ++ e.1, name ++ " ECU hardware ID: " ++ e.2])
  let _ ← (match (serials.getD []).drop 1 with
    | [] => pure ()
    | l => do
      line "Secondaries:"
      secondaries a 1 l)
  let mis ← readE a (fun d => misconfiguredLoop d.misconfigured)
  let _ ← (if mis = [] then pure () else
    lines ("Removed or unregistered ECUs (deprecated):" :: mis.map (fun e => "   '" ++ e.1 ++ "' with hardware_id '" ++ e.2.1 ++ "' " ++
      (if e.2.2 then "has been removed from config" else "not registered yet"))))
  let _ ← (if secondary then pure () else line ("Provisioned on server: " ++ (if registered then "yes" else "no")))
  line ("Fetched metadata: " ++ (if has then "yes" else "no"))
  let cur ← readE a (fun d => current a.env d.versions a.pacman)
  line (match cur with
    | some t => "Current " ++ name ++ " ECU running version: " ++ t.sha256Hash
    | none => "No currently running version on " ++ name ++ " ECU")
  let pending ← readE a (fun d => d.versions.loadPending a.env "")
  match pending with
  | some t => line ("Pending " ++ name ++ " ECU version: " ++ t.sha256Hash)
  | none => pure ()

/-- After the storage is open (main.cc:144-406). -/
def inform (a : Around) (o : Options) (registered has : Bool) (root : String) : P Unit := do
  let device ← read a (fun d => d.device.map (·.1))
  match (if o.has "name-only" then device else none) with
  | some d => line d
  | none => do
    let registered ← (if registered then pure true else read a Db.registered)
    let found ← (if has then pure none else readE a (fun d => d.doc .director .root))
    let has := has || found.isSome
    let root := found.getD root
    let c ← credentials a o
    if o.has "ecu-pub-key" then do
      line (← read a (fun d => (d.keys.map (·.1)).getD ""))
    else do
      let b ← (if o.has "ecu-prv-key" then do
        line (← read a (fun d => (d.keys.map (·.2)).getD ""))
        pure true else pure false)
      let m ← metadataOptions a o has root
      if c.2.2 || b || m then pure ()
      else general a device c.1 c.2.1 registered has

/-- `main` (main.cc:101-406); success is `EXIT_SUCCESS`, what is thrown is `EXIT_FAILURE`. `attempts` is the number of attempts of
waiting before the program is stopped. -/
def main (a : Around) (o : Options) (attempts : Nat) : P Unit := do
  if o.has "wait-until-provisioned" then do
    let w ← wait a attempts false false ""
    inform a o w.1 w.2.1 w.2.2
  else do
    openStorage a
    inform a o false false ""

end Aktualizr.Info
