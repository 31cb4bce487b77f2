import Verif.Model.Config

/-!
# The configuration of aktualizr-secondary and of aktualizr-info

Models `AktualizrSecondaryConfig` (`src/aktualizr_secondary/aktualizr_secondary_config.cc`), its command line
(`src/aktualizr_secondary/main.cc`), and `AktualizrInfoConfig` (`src/aktualizr_info/aktualizr_info_config.cc`). Files, sections and types
are those of `Model/Config.lean`. Simplified: the log level in force while files are read is left out.
-/

namespace Aktualizr
namespace Conf

/-- The rows of a section that the programs share. -/
def shared (s : String) : List Row := readRows.filter (fun r => r.sect = s)

/-- Options of aktualizr-secondary, section by section as in `AktualizrSecondaryConfig::updateFromPropertyTree`
(aktualizr_secondary_config.cc:85-105), with its own sections (5-9, 17-23). -/
def secondaryRows : List Row :=
  shared "logger" ++
  rows "network" [("port", .u16), ("primary_ip", .text), ("primary_port", .u16)] ++
  rows "uptane" [("ecu_serial", .text), ("ecu_hardware_id", .text), ("key_source", cryptoSource), ("key_type", keyType),
    ("force_install_completion", .flag)] ++
  shared "p11" ++ shared "pacman" ++ shared "storage" ++ shared "import" ++ shared "bootloader"

/-- Options of aktualizr-info (aktualizr_info_config.cc:42-59). -/
def infoRows (loglevelFromCmdline : Bool) : List Row :=
  (if loglevelFromCmdline then [] else shared "logger") ++ shared "pacman" ++ shared "storage"

/-- Initial values (aktualizr_secondary_config.h:15-33, and those of config.h). -/
def secondaryDefaults : Config :=
  (defaults.set ("network", "port") (.num 9030)).set ("network", "primary_port") (.num 9030)

/-- `updateFromPropertyTree`, with the `extra` of the package manager. -/
def updateRows (R : List Row) (c : Config) (tree : List Node) : Config := copyExtra tree (R.foldl (copy tree) c)

/-- `updateFromToml` (base_config.cc:7-15) for each file (base_config.cc:31-33). -/
def updateFiles (R : List Row) : List (Txt × Txt) → Config → Except Err Config
  | [], c => .ok c
  | f :: fs, c => do
    let tree ← parseIni f.2
    updateFiles R fs (updateRows R c tree)

/-- Options on the command line of aktualizr-secondary (aktualizr_secondary/main.cc:32-43). -/
structure SecondaryCmd where
  config : Option (List Txt) := none
  loglevel : Option Int := none
  serverPort : Option Int := none
  serial : Option Txt := none
  hwId : Option Txt := none

/-- `updateFromCommandLine` (aktualizr_secondary_config.cc:68-83). The port is kept as an `int` (main.cc:40) and asked for as an
`in_port_t`, which throws. -/
def secondaryCommandLine (cmd : SecondaryCmd) (c : Config) : Except Err Config :=
  let c := c.setIf ("logger", "loglevel") (cmd.loglevel.map .num)
  match cmd.serverPort with
  | some _ => .error (.std "boost::bad_any_cast")
  | none =>
    let c := c.setIf ("uptane", "ecu_serial") (cmd.serial.map .text)
    .ok (c.setIf ("uptane", "ecu_hardware_id") (cmd.hwId.map .text))

/-- The paths to be read (aktualizr_secondary_config.cc:43-49, aktualizr_info_config.cc:14-20). -/
def pathsOf (fs : Txt → Entry) (config : Option (List Txt)) : Except Err (List Txt) :=
  match config with
  | none => .ok configDirs
  | some ps => do
    checkDirs fs ps
    return ps

/-- `AktualizrSecondaryConfig(const variables_map &)` (aktualizr_secondary_config.cc:35-52). An exception ends the program
(aktualizr_secondary/main.cc:119-122). -/
def loadSecondary (fs : Txt → Entry) (cmd : SecondaryCmd) : Except Err Config := do
  let configs ← pathsOf fs cmd.config
  let c ← updateFiles secondaryRows (collect fs configs) (secondaryDefaults.setIf ("logger", "loglevel") (cmd.loglevel.map .num))
  secondaryCommandLine cmd c

/-- `AktualizrInfoConfig(const variables_map &)` (aktualizr_info_config.cc:5-23, 36-40). -/
def loadInfo (fs : Txt → Entry) (config : Option (List Txt)) (loglevel : Option Int) : Except Err Config := do
  let configs ← pathsOf fs config
  let c ← updateFiles (infoRows loglevel.isSome) (collect fs configs) (defaults.setIf ("logger", "loglevel") (loglevel.map .num))
  return c.setIf ("logger", "loglevel") (loglevel.map .num)

end Conf
end Aktualizr
