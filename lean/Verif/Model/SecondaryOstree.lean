import Verif.Model.Secondary
import Verif.Model.Bootloader
import Verif.Model.Tools
import Verif.Model.Config

/-!
# aktualizr-secondary with the OSTree update agent

Models `src/aktualizr_secondary/aktualizr_secondary_ostree.cc` and `update_agent_ostree.cc`, with
`OstreeManager::pull` and `OstreeManager::getCurrent` (`package_manager/ostreemanager.cc`). Verification is shared
with the file Secondary (`Model/Secondary.lean`); installation, reboot detection and the version tables are those of
`Model/Bootloader.lean`. As there, an exception that leaves a handler ends the process.

Not modelled: libostree (its calls succeed or fail as an input says; a successful pull adds the commit), the signature
on the manifest, the import of installed versions. The hash of a target is taken to be a whole one: libostree would
resolve an abbreviated hash, or the name of a branch, to a commit.
-/

namespace Aktualizr.SecOst

open M (throwWhen throw gets modify lift catchStd)

/-! ## The archive with the credentials -/

/-- A file in an archive: its name, the data that can be read, and whether reading gets to its end. -/
structure Entry where
  name : String
  data : String
  whole : Bool := true

/-- `Utils::readFileFromArchive` (utils.cc:473-529) without trimming: the data of all files of that name, one after
another; `none` stands for an archive that cannot be opened. -/
def readFile (archive : Option (List Entry)) (name : String) : Except Err String :=
  match archive with
  | none => .error (.std "archive error")
  | some es =>
    let found := es.filter (fun e => e.name == name)
    if found.any (·.whole) then .ok (String.join (found.map (·.data))) else .error (.std "could not extract")

/-- `boost::trim` of what was trimmed when reading (utils.cc:525-527, update_agent_ostree.cc:50). -/
def trimUrl (s : String) : String := String.ofList (Conf.trim (Tools.trim s.toList))

/-- The files with which `KeyManager` serves TLS; empty if there is none. -/
structure Keys where
  ca : String := ""
  cert : String := ""
  pkey : String := ""
  deriving DecidableEq

/-- `KeyManager::loadKeys` (keymanager.cc:28-73): an empty text does not replace what is there. The sources are files
(`keymanagerConfig`, aktualizr_secondary_config.cc:57-61). -/
def Keys.load (k : Keys) (ca cert pkey : String) : Keys where
  ca := if ca = "" then k.ca else ca
  cert := if cert = "" then k.cert else cert
  pkey := if pkey = "" then k.pkey else pkey

/-- `OstreeManager::addRemote` (ostreemanager.cc:454-463): TLS with certificates only if all three are there. -/
def Keys.used (k : Keys) : Option Keys := if k.cert ≠ "" ∧ k.pkey ≠ "" ∧ k.ca ≠ "" then some k else none

/-! ## State -/

/-- A pull that was tried: from where, with which credentials, and for which commit. -/
structure Pull where
  server : String
  keys : Option Keys
  commit : String
  deriving DecidableEq

/-- `AktualizrSecondaryOstree`. Of `core` the metadata, the serial, the hardware id, the pending target and `up` are
used; the version tables are in `board`, whose fuel is that of `core`. `repo` has the commits of the local OSTree
repository. -/
structure State where
  core : Sec.State
  board : Boot.Board
  repo : List String := []
  keys : Keys := {}
  pulls : List Pull := []

/-- Computations of the Secondary. -/
abbrev O (α : Type) := M State α

/-- Run a computation of the part shared with the file Secondary. -/
def inCore {α : Type} (m : Sec.S α) : O α := M.zoom (·.core) (fun c s => { s with core := c }) m

/-- The board, with the fuel left. -/
def State.boardNow (s : State) : Boot.Board := { s.board with fuel := s.core.w.fuel }

/-- The board after a computation. -/
def State.setBoard (b : Boot.Board) (s : State) : State :=
  { s with
    board := b
    core := { s.core with w := { s.core.w with fuel := b.fuel } } }

/-- Run a computation of the package manager. -/
def inBoard {α : Type} (m : Boot.B α) : O α := M.zoom State.boardNow State.setBoard m

/-! ## Download -/

/-- What the outside does during a download: the sysroot can be loaded, its repository opened, commits listed, the
remote set, and the commit pulled. -/
structure PullIo where
  sysroot : Bool := true
  opens : Bool := true
  lists : Bool := true
  remote : Bool := true
  pulls : Bool := true

/-- `OstreeManager::pull` (ostreemanager.cc:70-128): a commit whose name begins with the wanted hash counts as pulled. -/
def pull (io : PullIo) (server : String) (t : Target) : O InstResult := do
  throwWhen (!io.sysroot) (.std "could not load sysroot")
  if !io.opens then pure (.ofCode .installFailed "Could not get OSTree repo")
  else do
    let s ← gets id
    if io.lists && s.repo.any (fun c => t.sha256Hash.toList.isPrefixOf c.toList) then
      pure (.ofCode .alreadyProcessed "Refhash was already pulled")
    else if !io.remote then pure (.ofCode .installFailed "Error adding OSTree remote")
    else do
      modify (fun s => { s with pulls := s.pulls ++ [⟨server, s.keys.used, t.sha256Hash⟩] })
      if !io.pulls then pure (.ofCode .installFailed "pull")
      else do
        modify (fun s => { s with repo := s.repo ++ [t.sha256Hash] })
        pure (.ofCode .ok "Pulling OSTree image was successful")

/-- `extractCredentialsArchive` (update_agent_ostree.cc:87-107): CA, certificate, key and server. -/
def extract (archive : Option (List Entry)) : Except Err (String × String × String × String) := do
  let ca ← readFile archive "ca.pem"
  let cert ← readFile archive "client.pem"
  let pkey ← readFile archive "pkey.pem"
  let server ← readFile archive "server.url"
  return (ca, cert, pkey, trimUrl server)

/-- `OstreeUpdateAgent::downloadTargetRev` (update_agent_ostree.cc:38-76). -/
def downloadTargetRev (io : PullIo) (t : Target) (archive : Option (List Entry)) : O InstResult :=
  match extract archive with
  | .error _ => pure (.ofCode .downloadFailed "Error loading Treehub credentials")
  | .ok (ca, cert, pkey, server) => do
    modify (fun s => { s with keys := s.keys.load ca cert pkey })
    pull io server t

/-- `downloadOstreeUpdate` (aktualizr_secondary_ostree.cc:72-84) with its handler (61-70). -/
def download (io : PullIo) (archive : Option (List Entry)) : O InstResult := do
  let s ← gets id
  match s.core.pending with
  | none => pure (.ofCode .generalError "Aborting image download; no valid target found.")
  | some t => do
    let r ← downloadTargetRev io t archive
    if !r.success then do
      modify (fun s => { s with core := { s.core with pending := none } })
      pure r
    else pure r

/-! ## Installation -/

/-- `AktualizrSecondary::install` (aktualizr_secondary.cc:38-66) with `OstreeUpdateAgent::install`
(update_agent_ostree.cc:78-80) and `installHdlr` (331-345): libostree deploys only what is in the repository. -/
def install (env : Env) (sysroot : Bool) (io : Boot.Io) : O InstResult := do
  let s ← gets id
  match s.core.pending with
  | none => pure (.ofCode .internalError "Aborting target image installation; no valid target found.")
  | some t => do
    throwWhen (!sysroot) (.std "could not load sysroot")
    let r ← inBoard (Boot.installSecondary env .ostree
      { io with deploys := io.deploys && s.repo.contains t.sha256Hash } t)
    if r.code.num = 0 then do
      modify (fun s => { s with core := { s.core with pending := none } })
      pure r
    else pure r

/-- The part of `AktualizrSecondaryOstree::initialize` that decides about a pending version
(aktualizr_secondary_ostree.cc:27-50): whether it was decided. -/
def finalize (env : Env) : Boot.B Bool := do
  let b ← gets id
  if !b.v.hasPendingInstall then pure false
  else do
    match ← lift (b.v.loadPending env b.primary) with
    | none => pure false
    | some t => do
      let r ← Boot.pmFinalize env .ostree {} t
      if ← lift (r.code.same .needCompletion) then pure false
      else do
        Boot.effect (fun b => { b with log := b.log ++ [.result t r b.booted] })
        Boot.save env t (if r.success then .current else .none)
        pure true

/-- After a decision the Director's metadata is dropped (aktualizr_secondary_ostree.cc:52). -/
def dropIf (decided : Bool) : O Unit := if decided then inCore (Sec.inMeta Director.dropTargets) else pure ()

/-- Starting the process: the constructors, with `Bootloader::Bootloader` (bootloader.cc:14-25), which finds reboot
detection supported or not, and `AktualizrSecondaryOstree::initialize` (aktualizr_secondary_ostree.cc:24-59). -/
def start (env : Env) (supported : Bool) (clock : Nat → TimeStamp) (fuel : Nat) : O Unit := do
  modify (fun s => { s with
    core := { s.core with w := { db := s.core.w.db, fuel := fuel }, pending := none, up := false }
    board := { s.board with supported := supported }
    keys := {} })
  inCore (Sec.initPending Target.isOstree { env, clock, net := fun _ _ _ _ => none })
  let decided ← inBoard (finalize env)
  dropIf decided
  modify (fun s => { s with core := { s.core with up := true } })

/-! ## Manifest -/

/-- `OstreeManager::getCurrent` (ostreemanager.cc:342-371). -/
def getCurrent (env : Env) (v : VersionDb) (hash : String) : Except Err (Option Target) := do
  match ← v.loadCurrent env "" with
  | some t =>
    if t.sha256Hash = hash then return some t
    else return (← v.loadInstallationLog env "" false).reverse.find? (fun t => t.sha256Hash == hash)
  | none => return (← v.loadInstallationLog env "" false).reverse.find? (fun t => t.sha256Hash == hash)

/-- `OstreeUpdateAgent::getInstalledImageInfo` (update_agent_ostree.cc:14-36), for the manifest: name and hash; without
them the manifest is empty (aktualizr_secondary.cc:23-32). `prefix` is the hardware id of the configuration
(aktualizr_secondary_ostree.cc:18-21). `Target::Unknown()` and a target that is not valid are taken for the same. -/
def installedImage (env : Env) (pre : String) (s : State) : Option (String × String) :=
  match s.board.booted with
  | none => none
  | some hash =>
    match getCurrent env s.board.v hash with
    | .ok (some t) => some (t.filename, hash)
    | .ok none => some (pre ++ "-" ++ hash, hash)
    | .error _ => none

/-! ## Executions -/

/-- What can happen; `fuel` bounds the number of writes before the process dies. -/
inductive Op where
  | putMeta (m : Sec.PutMeta) (clock : Nat → TimeStamp) (fuel : Nat)
  | download (io : PullIo) (archive : Option (List Entry))
  | install (sysroot : Bool) (io : Boot.Io) (fuel : Nat)
  /-- A process starts (in place of a running one, if there is one). -/
  | start (supported : Bool) (clock : Nat → TimeStamp) (fuel : Nat)
  /-- The machine restarts, and some deployment boots. -/
  | reboot (boots : Option String)

/-- The answer to a request: that of `putMeta`, or the result of a download or installation. -/
inductive Reply where
  | metadata (a : Sec.Answer)
  | result (r : InstResult)
  | started

/-- How a computation ends for an observer. -/
def observe {α : Type} (m : O α) (f : α → Reply) (s : State) : Except String (Option Reply × State) :=
  match m s with
  | (.ok a, s') => .ok (some (f a), s')
  | (.error (.ub what), _) => .error what
  | (.error _, s') => .ok (none, { s' with core := { s'.core with up := false } })

/-- A request, which a process that does not run does not get. -/
def request {α : Type} (m : O α) (f : α → Reply) (fuel : Nat) (s : State) : Except String (Option Reply × State) :=
  if s.core.up then observe m f { s with core := { s.core with w := { s.core.w with fuel := fuel } } } else .ok (none, s)

/-- One operation and the reply, if there is one. -/
def step (env : Env) (s : State) : Op → Except String (Option Reply × State)
  | .putMeta m clock fuel => request (inCore (Sec.putMeta Target.isOstree env clock m)) .metadata fuel s
  | .download io archive => request (download io archive) .result 0 s
  | .install sysroot io fuel => request (install env sysroot io) .result fuel s
  | .start supported clock fuel => observe (start env supported clock fuel) (fun _ => .started) s
  | .reboot boots => .ok (none, { s with
      core := { s.core with up := false }
      board := { s.board with sentinel := false, booted := boots, log := s.board.log ++ [.reboot] } })

/-- A history; stops at undefined behaviour. -/
def run (env : Env) (s : State) : List Op → Except String State
  | [] => .ok s
  | o :: os => do run env (← step env s o).2 os

end Aktualizr.SecOst
