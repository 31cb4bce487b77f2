import Verif.Model.Monad

/-!
# The repositories the publishing tools read from

Models `OSTreeRepo` (`src/sota_tools/ostree_repo.cc`), `OSTreeHttpRepo` (`src/sota_tools/ostree_http_repo.cc`) and
`OSTreeDirRepo` (`src/sota_tools/ostree_dir_repo.cc`): how objects are looked for, fetched and kept. Used by `garage-deploy`,
`garage-check --walk-tree` and `garage-push`.
-/

namespace Aktualizr.Src

abbrev Bytes := List UInt8

/-- The types of objects (garage_common.h:34-43) that have a suffix in ostree_repo.cc:17-20, in this order. -/
inductive Kind where
  | file
  | dirTree
  | dirMeta
  | commit
  deriving DecidableEq, Repr

/-- The suffixes (ostree_repo.cc:17-20). -/
def Kind.suffix : Kind → String
  | .file => ".filez"
  | .dirTree => ".dirtree"
  | .dirMeta => ".dirmeta"
  | .commit => ".commit"

/-- All of them, in the order of the map. -/
def Kind.all : List Kind := [.file, .dirTree, .dirMeta, .commit]

/-- What is fetched: the configuration or an object. -/
inductive Path where
  | config
  | object (hash : String) (kind : Kind)
  deriving DecidableEq, Repr

/-- The path below the root, which is also the end of the address (ostree_repo.cc:21, 43; ostree_http_repo.cc:12). -/
def Path.text : Path → List Char
  | .config => "config".toList
  | .object h k => "objects/".toList ++ (h.toList.take 2 ++ '/' :: h.toList.drop 2) ++ k.suffix.toList

/-- One attempt to fetch: whether the local file can be opened, and what curl makes of the request: the status, what it gave to the
callback, and whether it ended without an error other than that of the status (which includes errors of writing to the file). -/
structure Answer where
  opens : Bool := true
  status : Nat := 200
  body : Bytes := []
  ok : Bool := true

/-- The state: the local files, `ObjectTable` with the names of the objects, and the attempts so far. -/
structure St where
  files : Path → Option Bytes
  table : List (String × Path) := []
  log : List (Path × Answer) := []

/-- The server and the disk: what happens at the `n`-th attempt. -/
abbrev World := Path → Nat → Answer

/-- What is in a file that was opened without `O_TRUNC` after writing to it from the beginning. -/
def overwrite (old : Option Bytes) (new : Bytes) : Bytes := new ++ (old.getD []).drop new.length

/-- `FetchObject`. -/
abbrev Fetch := Path → St → Bool × St

/-- `OSTreeHttpRepo::FetchObject` (ostree_http_repo.cc:36-68), with `CURLOPT_FAILONERROR` (ostree_http_repo.h:21) and without following
redirects. Left out: an exception of `create_directories`. -/
def httpFetch (w : World) : Fetch := fun p s =>
  let a := w p s.log.length
  let s := { s with log := s.log ++ [(p, a)] }
  if !a.opens then (false, s)
  else if 400 ≤ a.status || !a.ok then (false, { s with files := fun q => if q = p then none else s.files q })
  else (true, { s with files := fun q => if q = p then some (overwrite (s.files p) a.body) else s.files q })

/-- `OSTreeDirRepo::FetchObject` (ostree_dir_repo.cc:40-42). -/
def dirFetch : Fetch := fun p s => ((s.files p).isSome, s)

/-- `CheckForObject` (ostree_repo.cc:42-50), for one suffix after the other (28-37). -/
def tryKinds (fetch : Fetch) (h : String) : List Kind → St → Option Path × St
  | [], s => (none, s)
  | k :: ks, s =>
    match fetch (.object h k) s with
    | (true, s) => (some (.object h k), { s with table := (h, .object h k) :: s.table })
    | (false, s) => tryKinds fetch h ks s

/-- The loop over the attempts (ostree_repo.cc:24-38). -/
def attempts (fetch : Fetch) (h : String) (ks : List Kind) : Nat → St → Option Path × St
  | 0, s => (none, s)
  | n + 1, s =>
    match tryKinds fetch h ks s with
    | (some p, s) => (some p, s)
    | (none, s) => attempts fetch h ks n s

/-- The types to look for: one, or all for `OSTREE_OBJECT_TYPE_UNKNOWN`. -/
def kinds (type : Option Kind) : List Kind :=
  match type with
  | some k => [k]
  | none => Kind.all

/-- `OSTreeRepo::GetObject` (ostree_repo.cc:10-40): the name of the object, or `OSTreeObjectMissing`. -/
def getObject (fetch : Fetch) (h : String) (type : Option Kind) (s : St) : Except Err Path × St :=
  match s.table.lookup h with
  | some p => (.ok p, s)
  | none =>
    match attempts fetch h (kinds type) 3 s with
    | (some p, s) => (.ok p, s)
    | (none, s) => (.error (.std "OSTree repository is missing an object"), s)

/-- `OSTreeHttpRepo::LooksValid` (ostree_http_repo.cc:11-32); `mode` gives `core.mode` of a configuration, if it can be read. -/
def looksValid (w : World) (mode : Bytes → Option String) (s : St) : Bool × St :=
  match httpFetch w .config s with
  | (false, s) => (false, s)
  | (true, s) => (decide ((s.files .config).bind mode = some "archive-z2"), s)

/-- The objects asked for, one after the other. -/
def run (fetch : Fetch) : List (String × Option Kind) → St → St
  | [], s => s
  | (h, t) :: ops, s => run fetch ops (getObject fetch h t s).2

/-- A temporary directory (ostree_http_repo.h:16-18). -/
def fresh : St := { files := fun _ => none }

end Aktualizr.Src
