import Verif.Model.Text

/-!
# Configuration (config/config.cc, config/base_config.cc, utilities/config_utils.h, the `*_config.cc`)

A text is a list of characters. The configuration maps a section and the name of a member of its
structure in include/libaktualizr/config.h to a value. Each call of `CopyFromConfig` is one row of
`readRows`, each call of `writeOption` one row of `writeRows`, in the order of the calls.

Boost is not part of `/repo`; `parseIni` is `boost::property_tree::ini_parser::read_ini`, the
`read…` functions are the stream translators of `ptree::get_optional`. Simplification: a flag
written as a number followed directly by `true` or `false` (`7true`) is not read here.
-/

namespace Aktualizr
namespace Conf

/-- Characters of a text. -/
abbrev Txt := List Char

/-! ## INI files -/

/-- `property_tree::detail::trim`. -/
def trim (l : Txt) : Txt := ((l.dropWhile isSpace).reverse.dropWhile isSpace).reverse

/-- A child of the property tree: a key with its data, or a section with its keys. -/
structure Node where
  name : Txt
  data : Txt := []
  keys : List (Txt × Txt) := []
  deriving DecidableEq, Repr

/-- `ptree::find` in the list of children. -/
def findNode (t : List Node) (name : Txt) : Option Node := t.find? (fun n => n.name == name)

/-- What `read_ini` has read: the children but the section being read, and this section. -/
structure Ini where
  past : List Node := []
  cur : Option Node := none
  deriving DecidableEq, Repr

/-- All children. -/
def Ini.nodes (s : Ini) : List Node := s.past ++ s.cur.toList

/-- All children, without the section being read if it is empty. -/
def Ini.kept (s : Ini) : List Node := s.past ++ s.cur.toList.filter (fun n => n.keys ≠ [])

/-- One line of `read_ini`. A section that stays empty is dropped. -/
def iniLine (s : Ini) (raw : Txt) : Except Err Ini :=
  match trim raw with
  | [] => .ok s
  | ';' :: _ => .ok s
  | '#' :: _ => .ok s
  | '[' :: rest =>
    match cut ']' rest with
    | none => .error (.std "unmatched '['")
    | some (k, _) =>
      if (findNode s.kept (trim k)).isSome then .error (.std "duplicate section name")
      else .ok { past := s.kept, cur := some { name := trim k } }
  | line =>
    match cut '=' line with
    | none => .error (.std "'=' character not found in line")
    | some (k, v) =>
      if k = [] then .error (.std "key expected")
      else
        match s.cur with
        | none =>
          if (findNode s.nodes (trim k)).isSome then .error (.std "duplicate key name")
          else .ok { s with past := s.past ++ [{ name := trim k, data := trim v }] }
        | some n =>
          if (n.keys.lookup (trim k)).isSome then .error (.std "duplicate key name")
          else .ok { s with cur := some { n with keys := n.keys ++ [(trim k, trim v)] } }

/-- The loop of `read_ini`. -/
def iniLines : List Txt → Ini → Except Err Ini
  | [], s => .ok s
  | l :: ls, s => do iniLines ls (← iniLine s l)

/-- `read_ini`. -/
def parseIni (text : Txt) : Except Err (List Node) := do return (← iniLines (pieces '\n' text) {}).kept

/-- The keys of a section (`CopySubtreeFromConfig`, config_utils.h:120-129); none if there is no such section. -/
def sectionKeys (t : List Node) (name : Txt) : List (Txt × Txt) := ((findNode t name).map (·.keys)).getD []

/-! ## Values -/

/-- Value of an option. -/
inductive Val where
  | text (s : Txt)
  | num (i : Int)
  | flag (b : Bool)
  deriving DecidableEq, Repr

/-- Types of options: `std::string`, `boost::filesystem::path`, `utils::BasedPath`, `bool`, `int`, `long`,
`uint64_t`, `in_port_t`, and enumerations with the names recognised and the value for all others. -/
inductive Kind where
  | text | path | based | flag | int | long | u64 | u16
  | enum (names : List String) (other : String)
  deriving DecidableEq, Repr

/-- `Utils::stripQuotes` (utils.cc:208-212). -/
def stripQuotes (s : Txt) : Txt := s.filter (· ≠ '"')

/-- `std::istream >> long` in the whole of a text without white space around it: an optional sign and digits. -/
def readNum (v : Txt) : Option Int :=
  let p := signOf v
  if p.2 ≠ [] ∧ leadingDigits p.2 = p.2 then
    some (if p.1 then -(Nat.ofDigitChars 10 p.2 0 : Nat) else (Nat.ofDigitChars 10 p.2 0 : Nat))
  else none

/-- A number within bounds; otherwise the stream fails. -/
def readBounded (lo hi : Int) (v : Txt) : Option Int := (readNum v).filter fun i => lo ≤ i ∧ i ≤ hi

/-- `std::istream >> uint64_t`: a negative number wraps around. -/
def readU64 (v : Txt) : Option Int :=
  (readBounded (-18446744073709551615) 18446744073709551615 v).map fun i => i % 18446744073709551616

/-- `std::istream >> in_port_t`, likewise. -/
def readU16 (v : Txt) : Option Int := (readBounded (-65535) 65535 v).map fun i => i % 65536

/-- `std::istream >> bool` as `ptree` does it: as a number, then as a word. -/
def readFlag (v : Txt) : Option Bool :=
  if v = "true".toList then some true
  else if v = "false".toList then some false
  else match readNum v with
    | some 0 => some false
    | some 1 => some true
    | _ => none

/-- `boost::io::quoted` with `&` as escape, after the opening quote: the text and what is left. A text that
ends before the closing quote leaves nothing, and the stream has failed. -/
def unquote : Txt → Option (Txt × Txt)
  | [] => none
  | '&' :: c :: cs => (unquote cs).map fun r => (c :: r.1, r.2)
  | '&' :: [] => none
  | '"' :: cs => some ([], cs)
  | c :: cs => (unquote cs).map fun r => (c :: r.1, r.2)

/-- `std::istream >> boost::filesystem::path`, in the whole of a text without white space around it: between
quotes, or one word. -/
def readPath (v : Txt) : Option Txt :=
  match v with
  | [] => none
  | '"' :: cs =>
    match unquote cs with
    | some (p, rest) => if rest.all isSpace then some p else none
    | none => none
  | cs => if cs.any isSpace then none else some cs

/-- `get_optional` and the assignment of `CopyFromConfig` (config_utils.h:57-118, config.cc:32-47,
bootloader_config.cc:21-34); `none` if the option stays as it is. -/
def Kind.read (k : Kind) (v : Txt) : Option Val :=
  match k with
  | .text => some (.text (stripQuotes v))
  | .path => (readPath v).map .text
  | .based => some (.text (stripQuotes v))
  | .flag => (readFlag v).map .flag
  | .int => (readBounded (-2147483648) 2147483647 v).map .num
  | .long => (readBounded (-9223372036854775808) 9223372036854775807 v).map .num
  | .u64 => (readU64 v).map .num
  | .u16 => (readU16 v).map .num
  | .enum names other =>
    some (.text (if names.any (fun n => n.toList == stripQuotes v) then stripQuotes v else other.toList))

/-- `boost::io::quoted` when writing. -/
def escape : Txt → Txt
  | [] => []
  | c :: cs => if c = '"' ∨ c = '&' then '&' :: c :: escape cs else c :: escape cs

/-- What `writeOption` (config_utils.h:52-55) puts after the equals sign: texts and names of enumerations
between quotes, paths as boost quotes them. -/
def Kind.write (k : Kind) (v : Val) : Txt :=
  match v with
  | .text s => match k with
    | .path => '"' :: escape s ++ ['"']
    | .based => '"' :: escape s ++ ['"']
    | _ => '"' :: s ++ ['"']
  | .num i => decimal i
  | .flag b => if b then "true".toList else "false".toList

/-! ## Options -/

/-- An option: its section, the name of the member, its key in files and its type. -/
structure Row where
  sect : String
  member : String
  key : String
  kind : Kind
  deriving DecidableEq, Repr

/-- Rows with the key named like the member. -/
def rows (s : String) (l : List (String × Kind)) : List Row := l.map fun p => ⟨s, p.1, p.1, p.2⟩

def cryptoSource : Kind := .enum ["pkcs11"] "file"
def keyType : Kind := .enum ["RSA2048", "RSA3072", "RSA4096", "ED25519"] "unknown"
def storageType : Kind := .enum ["sqlite"] "filesystem"
def provisionMode : Kind := .enum ["SharedCred", "DeviceCred", "SharedCredReuse"] "Default"
def rollbackMode : Kind := .enum ["uboot_generic", "uboot_masked"] "none"

/-- `LoggerConfig::updateFromPropertyTree` (logging_config.cc:6-8). -/
def loggerRows : List Row := rows "logger" [("loglevel", .int)]

/-- Options read from a file, section by section as in `Config::updateFromPropertyTree` (config.cc:231-249):
base_config.cc:36-43, config.cc:49-55, 65-75, 89-98, packagemanagerconfig.cc:9-29, storage_config.cc:4-14, 28-35,
telemetryconfig.cc:5-8, bootloader_config.cc:36-41, config.cc:111-115. -/
def readRows : List Row :=
  loggerRows ++
  rows "p11" [("module", .path), ("pass", .text), ("uptane_key_id", .text), ("tls_cacert_id", .text), ("tls_pkey_id", .text),
    ("tls_clientcert_id", .text)] ++
  rows "tls" [("server", .text), ("server_url_path", .path), ("ca_source", cryptoSource), ("cert_source", cryptoSource),
    ("pkey_source", cryptoSource)] ++
  rows "provision" [("server", .text), ("p12_password", .text), ("expiry_days", .text), ("provision_path", .path), ("device_id", .text),
    ("primary_ecu_serial", .text), ("primary_ecu_hardware_id", .text), ("ecu_registration_endpoint", .text), ("mode", provisionMode)] ++
  rows "uptane" [("polling_sec", .u64), ("director_server", .text), ("repo_server", .text), ("key_source", cryptoSource), ("key_type", keyType),
    ("force_install_completion", .flag), ("secondary_config_file", .path), ("secondary_preinstall_wait_sec", .u64)] ++
  rows "pacman" [("type", .text), ("os", .text), ("sysroot", .path), ("ostree_server", .text), ("images_path", .path), ("packages_file", .path),
    ("fake_need_reboot", .flag)] ++
  rows "storage" [("type", storageType), ("path", .path), ("sqldb_path", .based), ("uptane_metadata_path", .based),
    ("uptane_private_key_path", .based), ("uptane_public_key_path", .based), ("tls_cacert_path", .based), ("tls_pkey_path", .based),
    ("tls_clientcert_path", .based)] ++
  rows "import" [("base_path", .path), ("uptane_private_key_path", .based), ("uptane_public_key_path", .based), ("tls_cacert_path", .based),
    ("tls_pkey_path", .based), ("tls_clientcert_path", .based)] ++
  rows "telemetry" [("report_network", .flag), ("report_config", .flag)] ++
  rows "bootloader" [("rollback_mode", rollbackMode), ("reboot_sentinel_dir", .path), ("reboot_sentinel_name", .path), ("reboot_command", .text)] ++
  rows "network" [("curl_proxy", .text), ("curl_bandwidth", .long), ("use_oscp", .flag)]

/-- The configuration. -/
structure Config where
  val : String × String → Val
  /-- `PackageConfig::extra`, a `std::map`. -/
  extra : List (Txt × Txt) := []

/-- Assignment to a member. -/
def Config.set (c : Config) (m : String × String) (v : Val) : Config :=
  { c with val := fun x => if x = m then v else c.val x }

/-- Text values. -/
def t (s : String) : Val := .text s.toList

/-- Initial values (include/libaktualizr/config.h:19-171) of a build with OSTree; members not listed are empty texts. -/
def defaults : Config where
  val := fun m => ([(("logger", "loglevel"), .num 2), (("tls", "ca_source"), t "file"), (("tls", "pkey_source"), t "file"),
    (("tls", "cert_source"), t "file"), (("provision", "expiry_days"), t "36000"), (("provision", "mode"), t "Default"),
    (("uptane", "polling_sec"), .num 10), (("uptane", "key_source"), t "file"), (("uptane", "key_type"), t "RSA2048"),
    (("uptane", "force_install_completion"), .flag false), (("uptane", "secondary_preinstall_wait_sec"), .num 600),
    (("pacman", "type"), t "ostree"), (("pacman", "images_path"), t "/var/sota/images"), (("pacman", "packages_file"), t "/usr/package.manifest"),
    (("pacman", "fake_need_reboot"), .flag false), (("storage", "type"), t "sqlite"), (("storage", "path"), t "/var/sota"),
    (("storage", "uptane_metadata_path"), t "metadata"), (("storage", "uptane_private_key_path"), t "ecukey.der"),
    (("storage", "uptane_public_key_path"), t "ecukey.pub"), (("storage", "tls_cacert_path"), t "root.crt"),
    (("storage", "tls_pkey_path"), t "pkey.pem"), (("storage", "tls_clientcert_path"), t "client.pem"), (("storage", "sqldb_path"), t "sql.db"),
    (("import", "base_path"), t "/var/sota/import"), (("network", "curl_bandwidth"), .num 0), (("network", "use_oscp"), .flag false),
    (("telemetry", "report_network"), .flag true), (("telemetry", "report_config"), .flag true),
    (("bootloader", "rollback_mode"), t "none"), (("bootloader", "reboot_sentinel_dir"), t "/var/run/aktualizr-session"),
    (("bootloader", "reboot_sentinel_name"), t "need_reboot"), (("bootloader", "reboot_command"), t "/sbin/reboot")].lookup m).getD (.text [])

/-! ## Files -/

/-- `CopyFromConfig`. -/
def copy (tree : List Node) (c : Config) (r : Row) : Config :=
  match (sectionKeys tree r.sect.toList).lookup r.key.toList with
  | none => c
  | some v =>
    match r.kind.read v with
    | none => c
    | some x => c.set (r.sect, r.member) x

/-- `std::map::operator[]` and assignment. -/
def insertMap {β : Type} (lt : Txt → Txt → Bool) (k : Txt) (v : β) : List (Txt × β) → List (Txt × β)
  | [] => [(k, v)]
  | (k', v') :: rest =>
    if k = k' then (k, v) :: rest
    else if lt k k' then (k, v) :: (k', v') :: rest
    else (k', v') :: insertMap lt k v rest

/-- Order of `std::string`. -/
def txtLt (a b : Txt) : Bool := decide (a < b)

/-- The keys of `PackageConfig` with members of their own. -/
def pacmanKeys : List Txt := (readRows.filter (·.sect = "pacman")).map (·.key.toList)

/-- `extra` (packagemanagerconfig.cc:25-27). -/
def copyExtra (tree : List Node) (c : Config) : Config :=
  let add := fun (m : List (Txt × Txt)) (p : Txt × Txt) =>
    if pacmanKeys.contains p.1 then m else insertMap txtLt p.1 (stripQuotes p.2) m
  { c with extra := (sectionKeys tree "pacman".toList).foldl add c.extra }

/-- `Config::updateFromPropertyTree` (config.cc:231-249). -/
def updateFromPropertyTree (loglevelFromCmdline : Bool) (c : Config) (tree : List Node) : Config :=
  copyExtra tree ((if loglevelFromCmdline then readRows.filter (fun r => r.sect ≠ "logger") else readRows).foldl (copy tree) c)

/-- What is at a path. -/
inductive Entry where
  | missing
  | file (content : Txt)
  /-- File names and contents of a directory, in the order of enumeration; `none` for a directory in it. -/
  | dir (files : List (Txt × Option Txt))

/-- `path::extension() == ".toml"`. -/
def isToml (name : Txt) : Bool := ".toml".toList.isSuffixOf name

/-- `path::filename()` of a file. -/
def fileName (path : Txt) : Txt := (path.reverse.takeWhile (· ≠ '/')).reverse

/-- The files of one argument by name: `Utils::getDirEntriesByExt` (utils.cc:754-767) for a directory, whose
sorting does not matter as the names go into a map. -/
def filesAt (fs : Txt → Entry) (path : Txt) : List (Txt × Txt) :=
  match fs path with
  | .missing => []
  | .file content => [(fileName path, content)]
  | .dir files => files.filterMap fun f => if isToml f.1 then f.2.map (fun c => (f.1, c)) else none

/-- The map of `updateFromDirs` (base_config.cc:18-30). -/
def collect (fs : Txt → Entry) (configs : List Txt) : List (Txt × Txt) :=
  (configs.flatMap (filesAt fs)).foldl (fun m f => insertMap txtLt f.1 f.2 m) []

/-- `updateFromToml` (base_config.cc:7-15) for each file of the map (base_config.cc:31-33). -/
def updateFromFiles (lc : Bool) : List (Txt × Txt) → Config → Except Err Config
  | [], c => .ok c
  | f :: fs, c => do
    let tree ← parseIni f.2
    updateFromFiles lc fs (updateFromPropertyTree lc c tree)

/-- `updateFromDirs` (base_config.cc:17-34). -/
def updateFromDirs (fs : Txt → Entry) (lc : Bool) (configs : List Txt) (c : Config) : Except Err Config :=
  updateFromFiles lc (collect fs configs) c

/-- `checkDirs` (config.h:202-208). -/
def checkDirs (fs : Txt → Entry) : List Txt → Except Err Unit
  | [] => .ok ()
  | p :: ps => match fs p with
    | .missing => .error (.std "Config directory does not exist.")
    | _ => checkDirs fs ps

/-- Options on the command line that matter here (aktualizr_primary/main.cc:35-48). -/
structure Cmd where
  config : Option (List Txt) := none
  loglevel : Option Int := none
  tlsServer : Option Txt := none
  repoServer : Option Txt := none
  directorServer : Option Txt := none
  primarySerial : Option Txt := none
  primaryHwId : Option Txt := none
  secondaryConfig : Option Txt := none

/-- Assign if given. -/
def Config.setIf (c : Config) (m : String × String) (v : Option Val) : Config :=
  match v with
  | none => c
  | some x => c.set m x

/-- `updateFromCommandLine` (config.cc:251-274). The last option is looked up under a name that no option has
(config.cc:271-273), which throws. -/
def updateFromCommandLine (cmd : Cmd) (c : Config) : Except Err Config :=
  let c := c.setIf ("logger", "loglevel") (cmd.loglevel.map .num)
  let c := c.setIf ("tls", "server") (cmd.tlsServer.map .text)
  let c := c.setIf ("uptane", "repo_server") (cmd.repoServer.map .text)
  let c := c.setIf ("uptane", "director_server") (cmd.directorServer.map .text)
  let c := c.setIf ("provision", "primary_ecu_serial") (cmd.primarySerial.map .text)
  let c := c.setIf ("provision", "primary_ecu_hardware_id") (cmd.primaryHwId.map .text)
  match cmd.secondaryConfig with
  | none => .ok c
  | some _ => .error (.std "boost::bad_any_cast")

/-- What the values that are not given are taken from. -/
structure World where
  fs : Txt → Entry
  /-- `Bootstrap::readServerUrl` (bootstrap.cc:46-61); `none` if there is no archive at the path. -/
  archiveUrl : Txt → Option Txt

/-- `Utils::readFile(path, true)` (utils.cc:274-289); a file that cannot be opened reads as empty. -/
def readTrimmed (w : World) (path : Txt) : Txt :=
  match w.fs path with
  | .file content =>
    let blank := fun c : Char => c == ' ' || c == '\t' || c == '\r' || c == '\n'
    ((content.dropWhile blank).reverse.dropWhile blank).reverse
  | _ => []

/-- The text of a member. -/
def Config.text (c : Config) (m : String × String) : Txt :=
  match c.val m with
  | .text s => s
  | _ => []

/-- Assign if the member is empty. -/
def Config.fill (c : Config) (m : String × String) (v : Txt) : Config := if c.text m = [] then c.set m (.text v) else c

/-- First part of `postUpdateValues`: the mode (config.cc:173-177). -/
def postMode (c : Config) : Config :=
  if c.text ("provision", "mode") = "Default".toList then
    c.set ("provision", "mode") (t (if c.text ("provision", "provision_path") = [] then "DeviceCred" else "SharedCred"))
  else c

/-- Second part: the server (config.cc:179-194). -/
def postServer (w : World) (c : Config) : Config :=
  if c.text ("tls", "server") ≠ [] then c
  else if c.text ("tls", "server_url_path") ≠ [] then c.set ("tls", "server") (.text (readTrimmed w (c.text ("tls", "server_url_path"))))
  else if c.text ("provision", "provision_path") ≠ [] then
    match w.archiveUrl (c.text ("provision", "provision_path")) with
    | some url => c.set ("tls", "server") (.text url)
    | none => c
  else c

/-- Third part: what is derived from the server (config.cc:196-218). -/
def postDerived (c : Config) : Config :=
  let server := c.text ("tls", "server")
  let c := if server = [] then c
    else (((c.fill ("provision", "server") server).fill ("uptane", "repo_server") (server ++ "/repo".toList)).fill ("uptane", "director_server")
      (server ++ "/director".toList)).fill ("pacman", "ostree_server") (server ++ "/treehub".toList)
  let director := c.text ("uptane", "director_server")
  if director = [] then c else c.fill ("provision", "ecu_registration_endpoint") (director ++ "/ecus".toList)

/-- `Config::postUpdateValues` (config.cc:170-221). -/
def postUpdateValues (w : World) (c : Config) : Config := postDerived (postServer w (postMode c))

/-- `config_dirs_` (config.h:210). -/
def configDirs : List Txt := ["/usr/lib/sota/conf.d".toList, "/etc/sota/conf.d/".toList]

/-- The paths to be read (config.cc:155-161). -/
def configPaths (w : World) (cmd : Cmd) : Except Err (List Txt) :=
  match cmd.config with
  | none => .ok configDirs
  | some ps => do
    checkDirs w.fs ps
    return ps

/-- The files and the command line: `Config(const variables_map &)` (config.cc:146-164) before the last call. -/
def readConfig (w : World) (cmd : Cmd) : Except Err Config := do
  let configs ← configPaths w cmd
  let c ← updateFromDirs w.fs cmd.loglevel.isSome configs (defaults.setIf ("logger", "loglevel") (cmd.loglevel.map .num))
  updateFromCommandLine cmd c

/-- `Config(const variables_map &)` (config.cc:146-164). -/
def load (w : World) (cmd : Cmd) : Except Err Config := do return postUpdateValues w (← readConfig w cmd)

/-! ## Writing -/

/-- Options written, as in `Config::writeToStream` (config.cc:276-290): base_config.cc:45-52, config.cc:57-63, 77-87,
100-109, packagemanagerconfig.cc:31-45, storage_config.cc:16-26, 37-44, telemetryconfig.cc:10-13,
bootloader_config.cc:43-48, config.cc:117-121, logging_config.cc:10. -/
def writeRows : List Row :=
  loggerRows ++
  (rows "p11" [("module", .path), ("pass", .text), ("uptane_key_id", .text)] ++ [⟨"p11", "tls_cacert_id", "tls_ca_id", .text⟩] ++
    rows "p11" [("tls_pkey_id", .text), ("tls_clientcert_id", .text)]) ++
  rows "tls" [("server", .text), ("server_url_path", .path), ("ca_source", cryptoSource), ("pkey_source", cryptoSource),
    ("cert_source", cryptoSource)] ++
  rows "provision" [("server", .text), ("p12_password", .text), ("expiry_days", .text), ("provision_path", .path), ("device_id", .text),
    ("primary_ecu_serial", .text), ("primary_ecu_hardware_id", .text), ("ecu_registration_endpoint", .text), ("mode", provisionMode)] ++
  rows "uptane" [("polling_sec", .u64), ("director_server", .text), ("repo_server", .text), ("key_source", cryptoSource), ("key_type", keyType),
    ("force_install_completion", .flag), ("secondary_config_file", .path), ("secondary_preinstall_wait_sec", .u64)] ++
  rows "pacman" [("type", .text), ("os", .text), ("sysroot", .path), ("ostree_server", .text), ("images_path", .path), ("packages_file", .path),
    ("fake_need_reboot", .flag)] ++
  rows "storage" [("type", storageType), ("path", .path), ("sqldb_path", .based), ("uptane_metadata_path", .based),
    ("uptane_private_key_path", .based), ("uptane_public_key_path", .based), ("tls_cacert_path", .based), ("tls_pkey_path", .based),
    ("tls_clientcert_path", .based)] ++
  rows "import" [("base_path", .path), ("uptane_private_key_path", .based), ("uptane_public_key_path", .based), ("tls_cacert_path", .based),
    ("tls_pkey_path", .based), ("tls_clientcert_path", .based)] ++
  rows "telemetry" [("report_network", .flag), ("report_config", .flag)] ++
  rows "bootloader" [("rollback_mode", rollbackMode), ("reboot_sentinel_dir", .path), ("reboot_sentinel_name", .path), ("reboot_command", .text)] ++
  rows "network" [("curl_proxy", .text), ("curl_bandwidth", .long), ("use_oscp", .flag)]

/-- Sections in the order of `Config::writeToStream` (config.cc:276-290). -/
def sections : List String :=
  ["logger", "p11", "tls", "provision", "uptane", "pacman", "storage", "import", "telemetry", "bootloader", "network"]

/-- `writeOption` (config_utils.h:52-55). -/
def writeOption (key value : Txt) : Txt := key ++ " = ".toList ++ value ++ ['\n']

/-- The keys and values written in a section. -/
def sectionOptions (c : Config) (s : String) : List (Txt × Txt) :=
  (writeRows.filter (·.sect = s)).map (fun r => (r.key.toList, r.kind.write (c.val (r.sect, r.member)))) ++
    if s = "pacman" then c.extra.map (fun e => (e.1, Kind.text.write (.text e.2))) else []

/-- `WriteSectionToStream` (config_utils.h:131-137). -/
def writeSection (c : Config) (s : String) : Txt :=
  '[' :: s.toList ++ "]\n".toList ++ (sectionOptions c s).flatMap (fun o => writeOption o.1 o.2) ++ ['\n']

/-- `Config::writeToStream` (config.cc:276-290). -/
def writeToStream (c : Config) : Txt := sections.flatMap (writeSection c)

end Conf
end Aktualizr
