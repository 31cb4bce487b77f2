import Verif.Model.Tuf

/-!
# The repository generator

Models `src/uptane_generator/{repo,image_repo,director_repo,uptane_repo,main}.cc`: the tool that
makes and changes the metadata of a Director and an Image repository kept in a directory.

Simplifications, for the whole file:
* a command that throws leaves nothing here (what it had already written is not followed), so
  theorems speak of runs in which every command completes;
* where the 32-bit version of a document would wrap to 0 the command fails here;
* role names are used as file names as they are (no `/`);
* the keys a command would read from `keys/` are those written there (`Repo::readKeys`,
  repo.cc:268-280); key generation takes the new pair as an input;
* `sign` and `addcampaigns` (main.cc:209-232) are left out: they change no metadata.
-/

namespace Aktualizr.Gen

/-! ## Changing JSON values

jsoncpp keeps the members of an object in a `std::map`, ordered by key. -/

/-- `Json::Value::asUInt` (32 bit). -/
def asUInt (j : Json) : Except Err Int := j.asIntIn 0 4294967295

/-- Assignment to a member of a `std::map`. -/
def insertKey (k : String) (v : Json) : List (String × Json) → List (String × Json)
  | [] => [(k, v)]
  | (k', v') :: rest =>
    if k = k' then (k, v) :: rest
    else if ltChars k.toList k'.toList then (k, v) :: (k', v') :: rest
    else (k', v') :: insertKey k v rest

/-- `j[k] = v`: a null value becomes an object, other values than objects throw. -/
def setKey (j : Json) (k : String) (v : Json) : Except Err Json :=
  match j with
  | .null => .ok (.obj [(k, v)])
  | .obj kvs => .ok (.obj (insertKey k v kvs))
  | _ => .error (.std "Json::LogicError: operator[] requires object")

/-- `j[k1][k2]… = v`. -/
def setPath (j : Json) : List String → Json → Except Err Json
  | [], v => .ok v
  | k :: ks, v => do
    let c ← j.get k
    let c ← setPath c ks v
    setKey j k c

/-- `Json::Value::removeMember`. -/
def removeMember (j : Json) (k : String) : Except Err Json :=
  match j with
  | .null => .ok .null
  | .obj kvs => .ok (.obj (kvs.filter (fun kv => kv.1 ≠ k)))
  | _ => .error (.std "Json::LogicError: removeMember requires object")

/-- `Json::Value::append`. -/
def append (j x : Json) : Except Err Json :=
  match j with
  | .null => .ok (.arr [x])
  | .arr xs => .ok (.arr (xs ++ [x]))
  | _ => .error (.std "Json::LogicError: append requires array")

/-- `j[0] = x`. -/
def setFirst (j x : Json) : Except Err Json :=
  match j with
  | .null => .ok (.arr [x])
  | .arr xs => .ok (.arr (x :: xs.tail))
  | _ => .error (.std "Json::LogicError: operator[] requires array")

/-- `j["version"] = j["version"].asUInt() + 1`; the wrap at 2^32 is a failure here. -/
def bump (j : Json) : Except Err Json := do
  let v ← asUInt (← j.get "version")
  throwIf (v == 4294967295) (.std "version wraps")
  setKey j "version" (.int (v + 1))

/-! ## Keys, files -/

/-- `KeyPair` (repo.h:11-17). -/
structure KeyPair where
  pub : PublicKey
  priv : String
  deriving DecidableEq

/-- What the tool is parameterised by: `sign n pub priv msg` is the text of the `n`-th signature made,
`Utils::toBase64(Crypto::Sign(type, nullptr, priv, msg))` (repo.cc:80-81; RSA-PSS signatures differ
from time to time), `keyId` is `PublicKey::KeyId` (crypto/crypto.cc:107-115). -/
structure GenEnv where
  env : Env
  sign : Nat → PublicKey → String → String → String
  keyId : PublicKey → String

/-- The files of a repository directory. -/
inductive Path where
  | root | numbered (version : Int) | timestamp | snapshot | targets | delegation (name : String) | staging
  deriving DecidableEq

/-- One repository: `keys_` and the files below `repo_dir_`; `made` counts the signatures. -/
structure Dir where
  keys : List (String × KeyPair) := []
  files : List (Path × String) := []
  made : Nat := 0

/-- `Utils::parseJSONFile`: null for a missing file. -/
def Dir.json (d : Dir) (g : GenEnv) (p : Path) : Json :=
  match d.files.lookup p with
  | none => .null
  | some s => g.env.parseJson s

/-- `Utils::parseJSONFile(p)["signed"]`. -/
def Dir.signed (d : Dir) (g : GenEnv) (p : Path) : Except Err Json := (d.json g p).get "signed"

/-- `Utils::writeFile`. -/
def Dir.write (d : Dir) (p : Path) (s : String) : Dir :=
  { d with files := (p, s) :: d.files.filter (fun f => f.1 ≠ p) }

/-- `boost::filesystem::remove`. -/
def Dir.remove (d : Dir) (p : Path) : Dir := { d with files := d.files.filter (fun f => f.1 ≠ p) }

/-- `boost::filesystem::exists`. -/
def Dir.has (d : Dir) (p : Path) : Bool := (d.files.lookup p).isSome

/-- `PublicKey::ToUptane` (crypto/crypto.cc:86-105). -/
def toUptane (k : PublicKey) : Json :=
  .obj [("keytype", .str (match k.type with
      | .ed25519 => "ED25519" | .unknown => "unknown" | _ => "RSA")),
    ("keyval", .obj [("public", .str k.value)])]

/-- `Repo::generateKeyPair` (repo.cc:124-143) with the pair `pub`, `priv` from
`Crypto::generateKeyPair`, checked by the constructor of `PublicKey` (crypto/crypto.cc:63-70). -/
def generateKeyPair (g : GenEnv) (d : Dir) (type : KeyType) (pub priv role : String) : Except Err Dir := do
  throwIf (type == .unknown) (.std "Key generation failure")
  throwIf (type != .ed25519 && g.env.rsaType pub != type) (.std "RSA key length is incorrect")
  return { d with keys := (role, ⟨⟨pub, type⟩, priv⟩) :: d.keys.filter (fun k => k.1 ≠ role) }

/-- The signature method (repo.cc:83-94). -/
def method : KeyType → Except Err String
  | .ed25519 => .ok "ed25519"
  | .unknown => .error (.std "Unknown key type")
  | _ => .ok "rsassa-pss"

/-- `Repo::signTuf` (repo.cc:78-103). A role without key has the key of unknown type. -/
def signTuf (g : GenEnv) (d : Dir) (role : String) (j : Json) : Except Err (Json × Dir) := do
  let key := (d.keys.lookup role).getD ⟨⟨"", .unknown⟩, ""⟩
  let sig := g.sign d.made key.pub key.priv (g.env.canon j)
  let m ← method key.pub.type
  return (.obj [("signatures", .arr [.obj [("keyid", .str (g.keyId key.pub)), ("method", .str m), ("sig", .str sig)]]),
      ("signed", j)], { d with made := d.made + 1 })

/-- Sign and write, `Utils::writeFile(p, Utils::jsonToCanonicalStr(signTuf(role, j)))`; also the text
written. -/
def writeSigned (g : GenEnv) (d : Dir) (p : Path) (role : String) (j : Json) : Except Err (Dir × String) := do
  let (doc, d) ← signTuf g d role j
  let text := g.env.canon doc
  return (d.write p text, text)

/-! ## Snapshot and Timestamp -/

/-- The file of a Targets role. -/
def pathOf (role : Role) : Path := if role.isDelegation then .delegation role.name else .targets

/-- The loop over the delegated roles (repo.cc:44-46); `add` is the recursive call. -/
def addAllToSnapshot (add : Json → Role → Except Err Json) : Json → List Json → Except Err Json
  | sn, [] => .ok sn
  | sn, r :: rs => do
    let role ← Role.delegation (← (← r.get "name").asString)
    let sn ← add sn role
    addAllToSnapshot add sn rs

/-- `Repo::addDelegationToSnapshot` (repo.cc:30-49). `n` bounds the depth: there are no more roles than
files, so a deeper recursion never ends. -/
def addToSnapshot (g : GenEnv) (d : Dir) : Nat → Json → Role → Except Err Json
  | 0, _, _ => .error (.ub "endless recursion")
  | n + 1, sn, role => do
    let s ← d.signed g (pathOf role)
    let v ← asUInt (← s.get "version")
    let sn ← setPath sn ["meta", role.name ++ ".json", "version"] (.int v)
    let dl ← s.get "delegations"
    if dl.isObject then do
      addAllToSnapshot (addToSnapshot g d n) sn (← dl.get "roles").elems
    else return sn

/-- The new Snapshot of `Repo::updateRepo` (repo.cc:52-62). -/
def newSnapshot (g : GenEnv) (d : Dir) : Except Err Json := do
  let old ← d.signed g .snapshot
  let v ← asUInt (← old.get "version")
  throwIf (v == 4294967295) (.std "version wraps")
  let expires ← old.get "expires"
  let root ← d.signed g .root
  let rv ← asUInt (← root.get "version")
  let sn ← setPath (.obj [("_type", .str "Snapshot"), ("expires", expires), ("version", .int (v + 1))])
    ["meta", "root.json", "version"] (.int rv)
  addToSnapshot g d (d.files.length + 1) sn Role.targets

/-- The new Timestamp of `Repo::updateRepo` (repo.cc:67-75), for the Snapshot `text` of version `v`. -/
def newTimestamp (g : GenEnv) (d : Dir) (text : String) (v : Json) : Except Err Json := do
  let ts ← bump (← d.signed g .timestamp)
  let ts ← setPath ts ["meta", "snapshot.json", "hashes", "sha256"] (.str (lower (g.env.sha256 text)))
  let ts ← setPath ts ["meta", "snapshot.json", "hashes", "sha512"] (.str (lower (g.env.sha512 text)))
  let ts ← setPath ts ["meta", "snapshot.json", "length"] (.int ((text.utf8ByteSize : Int) % 4294967296))
  setPath ts ["meta", "snapshot.json", "version"] (.int (← asUInt v))

/-- `Repo::updateRepo` (repo.cc:51-76). -/
def updateRepo (g : GenEnv) (d : Dir) : Except Err Dir := do
  let sn ← newSnapshot g d
  let (d, text) ← writeSigned g d .snapshot "snapshot" sn
  let ts ← newTimestamp g d text (← sn.get "version")
  let (d, _) ← writeSigned g d .timestamp "timestamp" ts
  return d

/-! ## Making a repository -/

/-- A digit. -/
def isDig (c : Char) : Bool := '0' ≤ c && c ≤ '9'

/-- The pattern of `Repo::getExpirationTime` (repo.cc:108). -/
def isTime (s : List Char) : Bool :=
  match s with
  | [a, b, c, d, '-', e, f, '-', h, i, 'T', j, k, ':', l, m, ':', n, o, 'Z'] => [a, b, c, d, e, f, h, i, j, k, l, m, n, o].all isDig
  | _ => false

/-- `Repo::getExpirationTime` (repo.cc:105-123); `later` is the formatted time in three years. -/
def expirationTime (expires later : String) : Except Err String :=
  if expires = "" then .ok later
  else if isTime expires.toList then .ok expires
  else .error (.std "Expiration date has wrong format")

/-- One new pair of keys for each role (repo.cc:145-150). -/
structure NewKeys where
  type : KeyType
  root : String × String
  snapshot : String × String
  targets : String × String
  timestamp : String × String

/-- `Repo::generateRepoKeys` (repo.cc:145-150). -/
def generateRepoKeys (g : GenEnv) (d : Dir) (k : NewKeys) : Except Err Dir := do
  let d ← generateKeyPair g d k.type k.root.1 k.root.2 "root"
  let d ← generateKeyPair g d k.type k.snapshot.1 k.snapshot.2 "snapshot"
  let d ← generateKeyPair g d k.type k.targets.1 k.targets.2 "targets"
  generateKeyPair g d k.type k.timestamp.1 k.timestamp.2 "timestamp"

/-- `root["keys"]` (repo.cc:160-162). -/
def keyTable (g : GenEnv) (keys : List (String × KeyPair)) : List (String × Json) :=
  keys.foldl (fun l k => insertKey (g.keyId k.2.pub) (toUptane k.2.pub) l) []

/-- An entry of `root["roles"]` (repo.cc:164-180). -/
def roleEntry (g : GenEnv) (d : Dir) (role : String) : Json :=
  .obj [("keyids", .arr [.str (g.keyId ((d.keys.lookup role).getD ⟨⟨"", .unknown⟩, ""⟩).pub)]), ("threshold", .int 1)]

/-- The Root (repo.cc:156-180), members in order. -/
def rootBody (g : GenEnv) (d : Dir) (version : Int) (expires : String) : Json :=
  .obj [("_type", .str "Root"), ("expires", .str expires), ("keys", .obj (keyTable g d.keys)),
    ("roles", .obj [("root", roleEntry g d "root"), ("snapshot", roleEntry g d "snapshot"),
      ("targets", roleEntry g d "targets"), ("timestamp", roleEntry g d "timestamp")]),
    ("version", .int version)]

/-- Digests of a text as they are written (repo.cc:201-204). -/
def hashesOf (g : GenEnv) (text : String) : Json :=
  .obj [("sha256", .str (lower (g.env.sha256 text))), ("sha512", .str (lower (g.env.sha512 text)))]

/-- `targets["custom"]` of the first Targets (repo.cc:191-193). -/
def customPart (repo : Repo) (correlation : String) : List (String × Json) :=
  if repo = .director ∧ correlation ≠ "" then [("custom", .obj [("correlationId", .str correlation)])] else []

/-- `Repo::generateRepo` (repo.cc:152-226); the empty file `manifest` is left out. -/
def generateRepo (g : GenEnv) (repo : Repo) (d : Dir) (k : NewKeys) (expires correlation : String) : Except Err Dir := do
  let d ← generateRepoKeys g d k
  let (d, root) ← writeSigned g d .root "root" (rootBody g d 1 expires)
  let d := d.write (.numbered 1) root
  let (d, _) ← writeSigned g d .targets "targets" (.obj ([("_type", .str "Targets")] ++ customPart repo correlation ++
    [("expires", .str expires), ("targets", .obj []), ("version", .int 1)]))
  let (d, sn) ← writeSigned g d .snapshot "snapshot" (.obj [("_type", .str "Snapshot"), ("expires", .str expires),
    ("meta", .obj [("root.json", .obj [("hashes", hashesOf g root), ("length", .int ((root.utf8ByteSize : Int) % 4294967296)), ("version", .int 1)]),
      ("targets.json", .obj [("version", .int 1)])]),
    ("version", .int 1)])
  let (d, _) ← writeSigned g d .timestamp "timestamp" (.obj [("_type", .str "Timestamp"), ("expires", .str expires),
    ("meta", .obj [("snapshot.json", .obj [("hashes", hashesOf g sn), ("length", .int ((sn.utf8ByteSize : Int) % 4294967296)), ("version", .int 1)])]),
    ("version", .int 1)])
  return d

/-! ## Changing the Image repository -/

/-- `Repo::getTarget` (repo.cc:247-266); the order of the directory is the order of the files here. -/
def getTarget (g : GenEnv) (d : Dir) (name : String) : Except Err Json := do
  let s ← d.signed g .targets
  let ts ← s.get "targets"
  if ← ts.isMember name then ts.get name else inDelegations d.files
where
  inDelegations : List (Path × String) → Except Err Json
    | [] => .ok .null
    | (.delegation n, _) :: fs => do
      if Role.isReserved n then inDelegations fs
      else
        let ts ← (← d.signed g (.delegation n)).get "targets"
        if ← ts.isMember name then ts.get name else inDelegations fs
    | _ :: fs => inDelegations fs

/-- The role an image goes to: `Delegation::operator bool` (repo.h:25) is false for an empty name. -/
def imageRole : Option String → Except Err Role
  | none => .ok Role.targets
  | some n => if n = "" then .ok Role.targets else Role.delegation n

/-- `ImageRepo::addImage` (image_repo.cc:3-19), into Targets or the delegated role `deleg`. -/
def addImage (g : GenEnv) (d : Dir) (name : String) (target : Json) (hw : String) (deleg : Option String) : Except Err Dir := do
  let role ← imageRole deleg
  let s ← d.signed g (pathOf role)
  let custom ← target.get "custom"
  let hwids ← setFirst (← custom.get "hardwareIds") (.str hw)
  let target ← setPath target ["custom", "hardwareIds"] hwids
  let s ← setPath s ["targets", name] target
  let s ← bump s
  let (d, _) ← writeSigned g d (pathOf role) role.name s
  updateRepo g d

/-- The entry made by `ImageRepo::addBinaryImage` (image_repo.cc:32-40) for the file `content`; the
copy of the file (image_repo.cc:26-29) is not modelled. -/
def binaryTarget (g : GenEnv) (content url : String) : Json :=
  .obj [("custom", .obj ([("targetFormat", .str "BINARY")] ++ (if url = "" then [] else [("uri", .str url)]))),
    ("hashes", hashesOf g content), ("length", .int content.utf8ByteSize)]

/-- The entry made by `ImageRepo::addCustomImage` (image_repo.cc:47-57). The length is cut to 32 bits. -/
def customTarget (hash : Hash) (length : Nat) (url : String) (custom : Json) : Except Err Json := do
  let t : Json := .obj [("custom", custom),
    ("length", .int ((length : Int) % 4294967296))]
  let t ← (match hash.type with
    | .sha256 => setPath t ["hashes", "sha256"] (.str hash.hash)
    | .sha512 => setPath t ["hashes", "sha512"] (.str hash.hash)
    | .unknown => .ok t)
  if url = "" then return t else setPath t ["custom", "uri"] (.str url)

/-- The loop of `Delegation::findPatternInTree` (repo.cc:353-369); `find` is the recursive call. -/
def findPatternIn (g : GenEnv) (d : Dir) (name : String) (find : Json → Except Err String) : List Json → Except Err String
  | [] => .ok ""
  | r :: rs => do
    let rname ← (← r.get "name").asString
    if rname = name then do
      let p ← ((← r.get "paths").elems.headD .null).asString
      if p = "" then .error (.ub "back of empty string")
      else return (if p.toList.getLast? = some '/' then p ++ "**" else p)
    else do
      let p ← find (← d.signed g (.delegation rname))
      if p ≠ "" then return p else findPatternIn g d name find rs

/-- `Delegation::findPatternInTree` (repo.cc:350-372). -/
def findPattern (g : GenEnv) (d : Dir) (name : String) : Nat → Json → Except Err String
  | 0, _ => .error (.ub "endless recursion")
  | n + 1, s => do
    let dl ← s.get "delegations"
    findPatternIn g d name (findPattern g d name n) (← dl.get "roles").elems

/-- `Delegation::Delegation` (repo.cc:332-348) and the check in `main` (main.cc:122-130). -/
def checkDelegation (g : GenEnv) (d : Dir) (name image : String) : Except Err Unit := do
  throwIf (Role.isReserved name) (.std "Delegation name is reserved")
  throwIf (!d.has (.delegation name) || !d.has .targets) (.std "delegation does not exist")
  let p ← findPattern g d name (d.files.length + 1) (← d.signed g .targets)
  throwIf (p == "") (.std "Could not find delegation role in the delegation tree")
  throwIf (!g.env.fnmatch p image) (.std "Image path doesn't match delegation!")

/-- What `ImageRepo::addDelegation` writes into the parent (image_repo.cc:93-104). -/
def withDelegation (g : GenEnv) (parent : Json) (name pattern : String) (terminating : Bool) (pub : PublicKey) : Except Err Json := do
  let p ← setPath parent ["delegations", "keys", g.keyId pub] (toUptane pub)
  let dl ← p.get "delegations"
  let roles ← append (← dl.get "roles") (.obj [("keyids", .arr [.str (g.keyId pub)]), ("name", .str name),
    ("paths", .arr [.str pattern]), ("terminating", .bool terminating), ("threshold", .int 1)])
  let p ← setPath p ["delegations", "roles"] roles
  bump p

/-- `ImageRepo::addDelegation` (image_repo.cc:61-108). -/
def addDelegation (g : GenEnv) (d : Dir) (name parent pattern : String) (terminating : Bool) (type : KeyType)
    (pub priv expires : String) : Except Err Dir := do
  let role ← Role.delegation name
  let prole ← (if parent = "targets" then .ok Role.targets else Role.delegation parent)
  throwIf (d.keys.lookup name).isSome (.std "Delegation with the same name already exist.")
  throwIf (Role.isReserved name) (.std "Delegation name is reserved")
  throwIf (!d.has (pathOf prole)) (.std "Delegation role does not exist.")
  let d ← generateKeyPair g d type pub priv name
  let (d, _) ← writeSigned g d (pathOf role) name (.obj [("_type", .str "Targets"), ("expires", .str expires),
    ("targets", .obj []), ("version", .int 1)])
  let s ← withDelegation g (← d.signed g (pathOf prole)) name pattern terminating ⟨pub, type⟩
  let (d, _) ← writeSigned g d (pathOf prole) prole.name s
  updateRepo g d

/-- The loop of `ImageRepo::removeDelegationRecursive` (image_repo.cc:118-127), giving the roles that
stay; `remove` is the recursive call. -/
def removeFrom (name : String) (remove : Dir → Role → Except Err Dir) : Dir → List Json → Except Err (Dir × List Json)
  | d, [] => .ok (d, [])
  | d, r :: rs => do
    let rname ← (← r.get "name").asString
    if rname ≠ name then do
      let role ← Role.delegation rname
      let d ← remove d role
      let (d, l) ← removeFrom name remove d rs
      return (d, r :: l)
    else removeFrom name remove d rs

/-- `ImageRepo::removeDelegationRecursive` (image_repo.cc:110-132). -/
def removeDelegation (g : GenEnv) (name : String) (pub : PublicKey) : Nat → Dir → Role → Except Err Dir
  | 0, _, _ => .error (.ub "endless recursion")
  | n + 1, d, parent => do
    let s ← d.signed g (pathOf parent)
    let dl ← s.get "delegations"
    let keys ← removeMember (← dl.get "keys") (g.keyId pub)
    let s ← setPath s ["delegations", "keys"] keys
    let dl ← s.get "delegations"
    let (d, roles) ← removeFrom name (removeDelegation g name pub n) d (← dl.get "roles").elems
    let s ← setPath s ["delegations", "roles"] (.arr roles)
    let s ← bump s
    let (d, _) ← writeSigned g d (pathOf parent) parent.name s
    return d

/-- `ImageRepo::revokeDelegation` (image_repo.cc:134-151). `keys_` of the running tool still has the key
whose files are removed. -/
def revokeDelegation (g : GenEnv) (d : Dir) (name : String) : Except Err Dir := do
  let _ ← Role.delegation name
  match d.keys.lookup name with
  | none => .error (.std "Delegation does not exist.")
  | some key => do
    throwIf (Role.isReserved name) (.std "Delegation name is reserved")
    let d := d.remove (.delegation name)
    let d ← removeDelegation g name key.pub (d.files.length + 1) d Role.targets
    let d ← updateRepo g d
    return { d with keys := d.keys.filter (fun k => k.1 ≠ name) }

/-- `ImageRepo::getDelegationTargets` (image_repo.cc:153-161). -/
def getDelegationTargets (g : GenEnv) (d : Dir) (name : String) : Except Err (List String) := do
  let ts ← (← d.signed g (.delegation name)).get "targets"
  return ts.entries.map Prod.fst

/-! ## Changing the Director repository -/

/-- The staged Targets if there are any, else the published ones (director_repo.cc:8-16, 55-62). -/
def staged (g : GenEnv) (d : Dir) : Except Err Json :=
  if d.has .staging then .ok (d.json g .staging)
  else if d.has .targets then d.signed g .targets
  else .error (.std "targets.json not found")

/-- The published version plus one (director_repo.cc:28, 78). -/
def nextVersion (g : GenEnv) (d : Dir) : Except Err Json := do
  let v ← asUInt (← (← d.signed g .targets).get "version")
  throwIf (v == 4294967295) (.std "version wraps")
  return .int (v + 1)

/-- What `DirectorRepo::addTarget` makes of the Image repository's entry (director_repo.cc:20-27). -/
def directorTarget (target : Json) (hw serial url : String) : Except Err Json := do
  let c ← removeMember (← target.get "custom") "hardwareIds"
  let c ← setPath c ["ecuIdentifiers", serial, "hardwareId"] (.str hw)
  let c ← (if url = "" then removeMember c "uri" else setKey c "uri" (.str url))
  setKey target "custom" c

/-- `DirectorRepo::addTarget` (director_repo.cc:3-31). -/
def addTarget (g : GenEnv) (d : Dir) (name : String) (target : Json) (hw serial url expires : String) : Except Err Dir := do
  let s ← staged g d
  let s ← (if expires = "" then .ok s else setKey s "expires" (.str expires))
  let t ← directorTarget target hw serial url
  let s ← setPath s ["targets", name] t
  let s ← setKey s "version" (← nextVersion g d)
  updateRepo g (d.write .staging (g.env.canon s))

/-- `DirectorRepo::revokeTargets` (director_repo.cc:33-48). -/
def revokeTargets (g : GenEnv) (d : Dir) (names : List String) : Except Err Dir := do
  let s ← d.signed g .targets
  let ts ← s.get "targets"
  let left := ts.entries.filter (fun kv => !names.contains kv.1)
  let s ← setKey s "targets" (if left = [] then .null else .obj left)
  let s ← bump s
  let (d, _) ← writeSigned g d .targets "targets" s
  updateRepo g d

/-- `DirectorRepo::signTargets` (director_repo.cc:50-68). -/
def signTargets (g : GenEnv) (d : Dir) : Except Err Dir := do
  let s ← staged g d
  let (d, _) ← writeSigned g d .targets "targets" s
  updateRepo g (d.remove .staging)

/-- `DirectorRepo::emptyTargets` (director_repo.cc:70-85). -/
def emptyTargets (g : GenEnv) (d : Dir) (expires correlation : String) : Except Err Dir := do
  let s ← setKey (d.json g .staging) "_type" (.str "Targets")
  let s ← setKey s "expires" (.str expires)
  let s ← setKey s "version" (← nextVersion g d)
  let s ← setKey s "targets" (.obj [])
  let s ← (if correlation = "" then .ok s else setPath s ["custom", "correlationId"] (.str correlation))
  return d.write .staging (g.env.canon s)

/-- `DirectorRepo::oldTargets` (director_repo.cc:87-97). -/
def oldTargets (g : GenEnv) (d : Dir) : Except Err Dir := do
  throwIf (!d.has .targets) (.std "targets.json not found")
  return d.write .staging (g.env.canon (← d.signed g .targets))

/-! ## Refreshing -/

/-- The file of a role that can be refreshed (repo.cc:290-300). -/
def topPath : RoleKind → Option Path
  | .root => some .root
  | .timestamp => some .timestamp
  | .snapshot => some .snapshot
  | .targets => some .targets
  | _ => none

/-- The refreshed content (repo.cc:304-318): `now` is the time, `soon` the formatted time in an hour. -/
def refreshed (s : Json) (now : TimeStamp) (soon : String) : Except Err Json := do
  let e ← (← s.get "expires").asString
  match TimeStamp.parse e with
  | none => .error (.upt (.invalidMetadata ""))
  | some t => do
    let s ← (if t.isExpiredAt now then setKey s "expires" (.str soon) else .ok s)
    bump s

/-- `Repo::refresh` (repo.cc:282-330). -/
def refresh (g : GenEnv) (repo : Repo) (d : Dir) (role : Role) (now : TimeStamp) (soon : String) : Except Err Dir := do
  throwIf (repo == .director && (role.kind == .timestamp || role.kind == .snapshot)) (.std "not currently supported")
  match topPath role.kind with
  | none => .error (.std "Refreshing custom role is not currently supported")
  | some p => do
    let s ← refreshed (← d.signed g p) now soon
    let (d, text) ← writeSigned g d p role.name s
    let v ← asUInt (← s.get "version")
    let d := if role.kind = .root then d.write (.numbered v) text else d
    updateRepo g d

/-! ## Commands -/

/-- Both repositories (`UptaneRepo`, uptane_repo.h:27-28). -/
structure Repos where
  director : Dir := {}
  image : Dir := {}

/-- The commands of `main` (main.cc:105-240) that change metadata, with their options; `later`, `now`
and `soon` are what the clock gives. -/
inductive Cmd where
  | image (content name hw url : String) (deleg : Option String)
  | customImage (name : String) (hash : Hash) (length : Nat) (hw url : String) (deleg : Option String) (custom : Json)
  | addTarget (name hw serial url expires : String)
  | addDelegation (name parent pattern : String) (terminating : Bool) (type : KeyType) (pub priv expires later : String)
  | revokeDelegation (name : String)
  | signTargets
  | emptyTargets (expires later correlation : String)
  | oldTargets
  | refresh (repo : Repo) (role : String) (now : TimeStamp) (soon : String)

/-- The check of the role an image is added to. -/
def checkFor (g : GenEnv) (d : Dir) (deleg : Option String) (image : String) : Except Err Unit :=
  match deleg with
  | none => .ok ()
  | some n => checkDelegation g d n image

/-- One command (main.cc:105-240 and uptane_repo.cc:7-55). -/
def run (g : GenEnv) (r : Repos) (c : Cmd) : Except Err Repos :=
  match c with
  | .image content name hw url deleg => do
    checkFor g r.image deleg name
    return { r with image := ← addImage g r.image name (binaryTarget g content url) hw deleg }
  | .customImage name hash length hw url deleg custom => do
    checkFor g r.image deleg name
    return { r with image := ← addImage g r.image name (← customTarget hash length url custom) hw deleg }
  | .addTarget name hw serial url expires => do
    let _ ← expirationTime expires ""
    let t ← getTarget g r.image name
    throwIf (t.size == 0) (.std "No such target in the image repository")
    return { r with director := ← addTarget g r.director name t hw serial url expires }
  | .addDelegation name parent pattern terminating type pub priv expires later => do
    let e ← expirationTime expires later
    return { r with image := ← addDelegation g r.image name parent pattern terminating type pub priv e }
  | .revokeDelegation name => do
    let d ← revokeTargets g r.director (← getDelegationTargets g r.image name)
    return { director := d, image := ← revokeDelegation g r.image name }
  | .signTargets => do return { r with director := ← signTargets g r.director }
  | .emptyTargets expires later correlation => do
    let e ← expirationTime expires later
    return { r with director := ← emptyTargets g r.director e correlation }
  | .oldTargets => do return { r with director := ← oldTargets g r.director }
  | .refresh .director role now soon => do
    return { r with director := ← refresh g .director r.director (Role.ofName role) now soon }
  | .refresh .image role now soon => do
    return { r with image := ← refresh g .image r.image (Role.ofName role) now soon }

/-- `generate` (main.cc:105-108, uptane_repo.cc:7-10) into an empty directory. -/
def generate (g : GenEnv) (kd ki : NewKeys) (expires later correlation : String) : Except Err Repos := do
  let e ← expirationTime expires later
  return { director := ← generateRepo g .director {} kd e correlation, image := ← generateRepo g .image {} ki e correlation }

/-- A run of commands. -/
def runAll (g : GenEnv) (r : Repos) : List Cmd → Except Err Repos
  | [] => .ok r
  | c :: cs => do runAll g (← run g r c) cs

end Aktualizr.Gen
