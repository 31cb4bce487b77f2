import Verif.Model.World
import Verif.Model.Versions

/-!
# From the old storage in files to the SQL storage (storage/fsstorage_read.cc, storage/invstorage.cc:146-300)

Old versions of the client kept everything in separate files. The first start of a newer one copies
them into the database and removes them.

Simplifications: file names of metadata are structured (a version and a role), so numbers are
written in one way only and there are no other files; there are no directories where a file is
expected; the check of permissions (invstorage.cc:156-159) and the directory `targets` of old
images, removed at the end, are left out. Writing or removing one file is one step, as is each
transaction of the database; SQL errors are not modelled.
-/

namespace Aktualizr
namespace FsMig
open M

/-- A directory with the metadata of one repository: `root.json`, the files `<n>.root.json`, and
those of the other roles. -/
structure Dir where
  plainRoot : Option String := none
  roots : List (Int × String) := []
  snapshot : Option String := none
  targets : Option String := none
  timestamp : Option String := none
  deriving DecidableEq, Repr

/-- The files of the old storage; `none`: there is no such file or directory. -/
structure Files where
  pub : Option String := none
  priv : Option String := none
  ca : Option String := none
  cert : Option String := none
  pkey : Option String := none
  deviceId : Option String := none
  registered : Bool := false
  serial : Option String := none
  hwId : Option String := none
  secondaries : Option String := none
  misconfigured : Option String := none
  installed : Option String := none
  result : Option String := none
  director : Option Dir := none
  image : Option Dir := none
  deriving DecidableEq, Repr

/-- The tables of the database that are concerned; `device`: the id with `is_registered`. -/
structure Db where
  keys : Option (String × String) := none
  ca : Option String := none
  cert : Option String := none
  pkey : Option String := none
  device : Option (String × Bool) := none
  misconfigured : List (String × String × Int) := []
  vers : VersionDb := {}
  metas : MetaDb := {}
  deriving DecidableEq, Repr

/-- The disk: the old files and the database (`present`: the file of the database exists); `fuel` is
the number of writes and removals before the process dies. -/
structure St where
  files : Files
  present : Bool := false
  db : Db := {}
  fuel : Nat
  deriving DecidableEq, Repr

abbrev F (α : Type) := M St α

/-- One write or removal, or the crash in front of it. -/
def step (f : St → St) : F Unit := fun s =>
  match s.fuel with
  | 0 => (.error .crash, s)
  | k + 1 => (.ok (), f { s with fuel := k })

/-- A transaction of the database. -/
def store (f : Db → Db) : F Unit := step (fun s => { s with db := f s.db })

/-- A change of the old files. -/
def change (f : Files → Files) : F Unit := step (fun s => { s with files := f s.files })

/-! ## Reading the files -/

/-- The directory of a repository. -/
def Files.dir (f : Files) : Repo → Option Dir
  | .director => f.director
  | .image => f.image

/-- Change the directory of a repository. -/
def Files.setDir (f : Files) (repo : Repo) (d : Option Dir) : Files :=
  match repo with
  | .director => { f with director := d }
  | .image => { f with image := d }

/-- Write `<n>.root.json`. -/
def Dir.putRoot (d : Dir) (v : Int) (data : String) : Dir :=
  { d with roots := (v, data) :: d.roots.filter (fun r => r.1 != v) }

/-- One turn of the loop of the constructor (fsstorage_read.cc:22-33). -/
def renameRoot (env : Env) (repo : Repo) : F Unit := do
  let f ← gets (fun s => s.files)
  match f.dir repo with
  | none => pure ()
  | some d =>
    match d.plainRoot with
    | none => pure ()
    | some data => do
      let v ← lift (extractVersionUntrusted env data)
      change (fun f => f.setDir repo (some { d with plainRoot := none }))
      if 0 ≤ v then change (fun f => f.setDir repo (some ({ d with plainRoot := none }.putRoot v data)))
      else pure ()

/-- The constructor of `FSStorageRead` (fsstorage_read.cc:16-38), without the numbers of the latest
Roots (see `latestRoot`). -/
def fsStorageRead (env : Env) : F Unit := do
  renameRoot env .director
  renameRoot env .image

/-- `findMaxVersion` for Root (fsstorage_read.cc:276-301): -1 if there is none. -/
def maxVersion (rs : List (Int × String)) : Int := rs.foldl (fun m r => if m < r.1 then r.1 else m) (-1)

/-- `latest_director_root` (fsstorage_read.cc:36): computed once, but the files do not change while
it is used. -/
def latestRoot (f : Files) : Int := match f.director with
  | none => -1
  | some d => maxVersion d.roots

/-- `loadRoot` (fsstorage_read.cc:107-141). For the Image repository, too, the latest version is
`latest_director_root`. -/
def loadRoot (f : Files) (repo : Repo) (version : Int) : Option String :=
  let v := if version < 0 then latestRoot f else version
  if v < 0 then none
  else (f.dir repo).bind (fun d => d.roots.lookup v)

/-- `loadNonRoot` (fsstorage_read.cc:143-166). -/
def loadNonRoot (f : Files) (repo : Repo) (role : RoleKind) : Option String :=
  (f.dir repo).bind (fun d => match role with
    | .snapshot => d.snapshot
    | .targets => d.targets
    | .timestamp => d.timestamp
    | _ => none)

/-- `std::getline` until the end of the file; `acc` is the line read so far, backwards. There is no
line after a final newline. -/
def getlines (acc : List Char) : List Char → List (List Char)
  | [] => if acc = [] then [] else [acc.reverse]
  | c :: r => if c = '\n' then acc.reverse :: getlines [] r else getlines (c :: acc) r

/-- `buf.substr(0, tab)` and `buf.substr(tab + 1)` (fsstorage_read.cc:216-219). Without a tab
character `tab` is `npos`, and `npos + 1` is 0: both are the whole line, and nothing is thrown. -/
def splitTab (l : List Char) : String × String :=
  (String.ofList (l.takeWhile (· != '\t')),
    String.ofList (if l.contains '\t' then (l.dropWhile (· != '\t')).tail else l))

/-- The loop over the lines (fsstorage_read.cc:215-230), with the constructors of `EcuSerial` and
`HardwareIdentifier`. -/
def readSecondaries : List (List Char) → Except Err (List (String × String))
  | [] => .ok []
  | l :: ls => do
    let s ← mkEcuSerial (splitTab l).1
    let h ← mkHwId (splitTab l).2
    return (s, h) :: (← readSecondaries ls)

/-- `loadEcuSerials` (fsstorage_read.cc:184-233): the Primary first. -/
def loadEcuSerials (hostname : String) (f : Files) : Except Err (Option (List (String × String))) :=
  match f.serial with
  | none => .ok none
  | some serial => do
    let s ← mkEcuSerial serial
    let h ← mkHwId (f.hwId.getD hostname)
    match f.secondaries with
    | none => return some [(s, h)]
    | some text => do
      let l ← readSecondaries (getlines [] text.toList)
      return some ((s, h) :: l)

/-- The loop of `loadMisconfiguredEcus` (fsstorage_read.cc:242-246). -/
def readMisconfigured : List Json → Except Err (List (String × String × Int))
  | [] => .ok []
  | j :: js => do
    let s ← mkEcuSerial (← (← j.get "serial").asString)
    let h ← mkHwId (← (← j.get "hardware_id").asString)
    let st ← (← j.get "state").asInt
    return (s, h, st) :: (← readMisconfigured js)

/-- `loadMisconfiguredEcus` (fsstorage_read.cc:235-252): exceptions are caught, and nothing is taken
then. -/
def loadMisconfigured (env : Env) (f : Files) : List (String × String × Int) :=
  match f.misconfigured with
  | none => []
  | some text => match readMisconfigured (env.parseJson text).elems with
    | .ok l => l
    | .error _ => []

/-- The loop of `fsReadInstalledVersions` (invstorage.cc:272-291): the versions, and the index of
the current one (`SIZE_MAX` is `none`). In the older format the key is a hash and the value a name;
each entry then counts as current. -/
def readInstalled (k : Nat) (current : Option Nat) : List (String × Json) → Except Err (List Target × Option Nat)
  | [] => .ok ([], current)
  | (key, v) :: r => do
    if v.isObject then
      let c ← (← v.get "is_current").asBool
      let t ← Target.ofJson key v
      let (ts, cur) ← readInstalled (k + 1) (if c then some k else current) r
      return (t :: ts, cur)
    else
      let t ← Target.ofJson (← v.asString) (.obj [("hashes", .obj [("sha256", .str key)])])
      let (ts, cur) ← readInstalled (k + 1) (some k) r
      return (t :: ts, cur)

/-- `loadInstalledVersions` (fsstorage_read.cc:254-258) and `fsReadInstalledVersions`
(invstorage.cc:264-299): exceptions are caught, and nothing is taken then. Simplification: the key of
an array element, a number, is its decimal text. -/
def loadInstalled (env : Env) (f : Files) : List Target × Option Nat :=
  match f.installed with
  | none => ([], none)
  | some text => match readInstalled 0 none (env.parseJson text).entries with
    | .ok r => r
    | .error _ => ([], none)

/-! ## Copying (invstorage.cc:183-262) -/

/-- `INSERT OR REPLACE INTO misconfigured_ecus` (sqlstorage.cc:1006-1016). -/
def putMisconfigured (e : String × String × Int) (t : List (String × String × Int)) : List (String × String × Int) :=
  t.filter (fun r => r.1 != e.1) ++ [e]

/-- invstorage.cc:184-188, with `storePrimaryKeys` (sqlstorage.cc:74-83). -/
def copyKeys (f : Files) : F Unit :=
  match f.pub, f.priv with
  | some a, some b => store (fun d => { d with keys := some (a, b) })
  | _, _ => pure ()

/-- invstorage.cc:190-193. -/
def copyCa (f : Files) : F Unit :=
  match f.ca with
  | some c => store (fun d => { d with ca := some c })
  | none => pure ()

/-- invstorage.cc:195-198. -/
def copyCert (f : Files) : F Unit :=
  match f.cert with
  | some c => store (fun d => { d with cert := some c })
  | none => pure ()

/-- invstorage.cc:200-203. -/
def copyPkey (f : Files) : F Unit :=
  match f.pkey with
  | some c => store (fun d => { d with pkey := some c })
  | none => pure ()

/-- invstorage.cc:205-208, with `storeDeviceId` (sqlstorage.cc:733-743). -/
def copyDeviceId (f : Files) : F Unit :=
  match f.deviceId with
  | some i => store (fun d => { d with device := some (i, false) })
  | none => pure ()

/-- invstorage.cc:210-213. -/
def copySerials (hostname : String) (f : Files) : F Unit := do
  let l ← lift (loadEcuSerials hostname f)
  match l with
  | none => pure ()
  | some l => store (fun d => { d with vers := d.vers.storeEcuSerials l })

/-- invstorage.cc:215-217, with `storeEcuRegistered` (sqlstorage.cc:780-800). -/
def copyRegistered (f : Files) : F Unit :=
  if f.registered then do
    let d ← gets (fun s => s.db.device)
    throwWhen d.isNone (.std "Failed to set ECU registered because device info is empty.")
    store (fun d => { d with device := d.device.map (fun p => (p.1, true)) })
  else pure ()

/-- The loop of invstorage.cc:219-224. -/
def copyMisconfigured : List (String × String × Int) → F Unit
  | [] => pure ()
  | e :: r => do
    store (fun d => { d with misconfigured := putMisconfigured e d.misconfigured })
    copyMisconfigured r

/-- The loop of invstorage.cc:230-233, from index `k`. -/
def copyInstalled (env : Env) (current : Option Nat) (k : Nat) : List Target → F Unit
  | [] => pure ()
  | t :: ts => do
    store (fun d => { d with
      vers := d.vers.saveInstalledVersion env "" t (if current = some k then .current else .none) })
    copyInstalled env current (k + 1) ts

/-- invstorage.cc:243-245. -/
def copyNonRoot (f : Files) (repo : Repo) (role : RoleKind) : F Unit :=
  match loadNonRoot f repo role with
  | some m => store (fun d => { d with metas := d.metas.storeNonRoot m repo role })
  | none => pure ()

/-- The loops of invstorage.cc:236-247, over `Role::Roles()` (tuf.h:76) without Root. -/
def copyNonRoots (f : Files) : F Unit := do
  copyNonRoot f .director .snapshot
  copyNonRoot f .image .snapshot
  copyNonRoot f .director .targets
  copyNonRoot f .image .targets
  copyNonRoot f .director .timestamp
  copyNonRoot f .image .timestamp

/-- The loop of invstorage.cc:253-258: `n` more turns, from version `v`. -/
def copyChain (f : Files) (repo : Repo) (v : Int) : Nat → F Unit
  | 0 => pure ()
  | n + 1 => do
    (match loadRoot f repo v with
      | some r => store (fun d => { d with metas := d.metas.storeRoot r repo v })
      | none => pure ())
    copyChain f repo (v + 1) n

/-- One turn of the loop of invstorage.cc:250-260: whatever the repository is, the latest Root of the
*Director* is looked for and says up to which version Roots are copied. Simplification: the counter
does not overflow. -/
def copyRoots (env : Env) (f : Files) (repo : Repo) : F Unit :=
  match loadRoot f .director (-1) with
  | none => pure ()
  | some latest => do
    let n ← lift (extractVersionUntrusted env latest)
    copyChain f repo 0 (n + 1).toNat

/-- The part of `FSSToSQLS` that stores (invstorage.cc:184-260). -/
def copyAll (env : Env) (hostname : String) (f : Files) : F Unit := do
  copyKeys f
  copyCa f
  copyCert f
  copyPkey f
  copyDeviceId f
  copySerials hostname f
  copyRegistered f
  copyMisconfigured (loadMisconfigured env f)
  copyInstalled env (loadInstalled env f).2 0 (loadInstalled env f).1
  copyNonRoots f
  copyRoots env f .director
  copyRoots env f .image

/-! ## Removing (fsstorage_read.cc:303-399) -/

/-- A sequence of removals. -/
def removeAll : List (Files → Files) → F Unit
  | [] => pure ()
  | g :: gs => do
    change g
    removeAll gs

/-- The removals of `cleanUpAll` (fsstorage_read.cc:385-399) before that of the metadata, in
order. -/
def cleanUp : List (Files → Files) :=
  [ fun f => { f with pub := none }, fun f => { f with priv := none },
    fun f => { f with ca := none }, fun f => { f with cert := none }, fun f => { f with pkey := none },
    fun f => { f with deviceId := none },
    fun f => { f with serial := none }, fun f => { f with hwId := none }, fun f => { f with secondaries := none },
    fun f => { f with registered := false },
    fun f => { f with misconfigured := none },
    fun f => { f with installed := none },
    fun f => { f with result := none } ]

/-- `clearMetadata` (fsstorage_read.cc:346-358) and the `remove_all` of line 397. Simplification: one
step per directory. -/
def cleanMeta : List (Files → Files) :=
  [ fun f => { f with image := none }, fun f => { f with director := none } ]

/-- `FSSToSQLS` (invstorage.cc:183-262). -/
def migrate (env : Env) (hostname : String) : F Unit := do
  let f ← gets (fun s => s.files)
  copyAll env hostname f
  removeAll (cleanUp ++ cleanMeta)

/-- `INvStorage::newStorage` for SQLite (invstorage.cc:146-181). The file of the database is created
by the constructor of `SQLStorage`. A read-only database that does not exist cannot be opened. -/
def newStorage (env : Env) (hostname : String) (readonly : Bool) : F Unit := do
  let s ← gets id
  if s.present then pure ()
  else if s.files.registered then do
    throwWhen readonly (.std "Migration from FS is not possible because the SQL database is configured to be readonly")
    step (fun s => { s with present := true })
    fsStorageRead env
    migrate env hostname
  else do
    throwWhen readonly (.std "Can't open database")
    step (fun s => { s with present := true })

end FsMig
end Aktualizr
