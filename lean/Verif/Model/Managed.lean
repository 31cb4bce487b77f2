import Verif.Model.Install
import Verif.Model.IpSecondary

/-!
# Virtual Secondaries

Models `src/virtual_secondary/managedsecondary.cc` (`virtualsecondary.cc` adds fault injection and
configuration only) and `SecondaryProvider::getMetadata` (`src/libaktualizr/primary/secondary_provider.cc:6-64`).

Not modelled: creating directories and checking their permissions (managedsecondary.cc:52-72),
fault injection, the configuration file. `Utils::writeFile` replaces a file at once (utils.cc:326-340,
`C46_old_or_new_partial`) and does not notice when the disk takes only a part of the content.
-/

namespace Aktualizr.Managed

open M (throwWhen throw gets modify lift)
open Ip (Bundle)
open Sec (Bytes)

/-- The files of a virtual Secondary (managedsecondary.h:31-34): keys, name of the installed image, the image. -/
structure Disk where
  priv : Option String := none
  pub : Option String := none
  name : Option String := none
  firmware : Option Bytes := none
  deriving DecidableEq

/-- Cryptography with private keys: `Crypto::generateKeyPair`, and `toBase64` of
`Crypto::RSAPSSSign(nullptr, key, message)`. `keyId` is `PublicKey::KeyId` (crypto.cc:107-114). -/
structure Signing where
  generate : Nat → Option (String × String)
  sign : String → String → String
  keyId : PublicKey → String

/-- What does not change while the process lives: the configuration (managedsecondary.h:26-36), the
cryptography, `ManifestIssuer::generateVersionHashStr` (manifest.cc:78-81). -/
structure Cfg where
  env : Env
  signing : Signing
  sha256 : Bytes → String
  serial : String := ""
  keyType : KeyType := .rsa2048

/-- A running virtual Secondary with its files. `original` documents are kept for the parts of the
`MetaPack` (managedsecondary.cc:21-29) that are used again; `null` before the first. `kept n` is how
much of its content the `n`-th write takes, `left` the number of effects until the process dies. -/
structure St where
  disk : Disk := {}
  priv : String := ""
  pub : PublicKey := ⟨"", .unknown⟩
  directorRoot : Root := { base := { version := 0 } }
  directorRootOriginal : Json := .null
  directorTargetsOriginal : Json := .null
  imageRoot : Root := { base := { version := 0 } }
  bundle : Option Bundle := none
  attack : String := ""
  kept : Nat → Option Nat := fun _ => none
  writes : Nat := 0
  left : Nat := 0

abbrev V (α : Type) := M St α

/-- An effect on a file; the process may die before it. -/
def effect (f : Disk → Disk) : V Unit := fun s =>
  match s.left with
  | 0 => (.error .crash, s)
  | k + 1 => (.ok (), { s with left := k, disk := f s.disk })

/-- The part of a text that reaches the disk. -/
def part (kept : Option Nat) (content : String) : String :=
  match kept with
  | none => content
  | some k => String.ofList (content.toList.take k)

/-- `Utils::writeFile` (utils.cc:326-340). -/
def writeFile (set : Option String → Disk → Disk) (content : String) : V Unit := do
  let kept ← gets (fun s => s.kept s.writes)
  modify (fun s => { s with writes := s.writes + 1 })
  effect (set (some (part kept content)))

/-! ## Start -/

/-- `PublicKey::PublicKey(value, type)` (crypto.cc:64-70). -/
def makeKey (env : Env) (value : String) (type : KeyType) : Except Err PublicKey :=
  if (type = .rsa2048 ∨ type = .rsa3072 ∨ type = .rsa4096) ∧ type ≠ env.rsaType value then .error (.std "RSA key length is incorrect")
  else .ok ⟨value, type⟩

/-- `ManagedSecondary::loadKeys` (managedsecondary.cc:210-221): public and private key. -/
def loadKeys (d : Disk) : Option (String × String) :=
  match d.pub, d.priv with
  | some pub, some priv => some (pub, priv)
  | _, _ => none

/-- `ManagedSecondary::storeKeys` (managedsecondary.cc:205-208). -/
def storeKeys (pub priv : String) : V Unit := do
  writeFile (fun c d => { d with priv := c }) priv
  writeFile (fun c d => { d with pub := c }) pub

/-- The constructor (managedsecondary.cc:31-47) with `Initialize` (51-75); `seed` determines the key
pair if one is generated. Nothing is kept of an earlier process but the files. -/
def start (c : Cfg) (seed : Nat) : V Unit := do
  modify (fun s => { disk := s.disk, kept := s.kept, writes := s.writes, left := s.left })
  let d ← gets (·.disk)
  let keys ← M.orThrow (match loadKeys d with | some k => some k | none => c.signing.generate seed) (.std "Unable to generate secondary rsa keys")
  let key ← lift (makeKey c.env keys.1 c.keyType)
  modify (fun s => { s with pub := key, priv := keys.2 })
  storeKeys keys.1 keys.2

/-- `getSerial` (managedsecondary.h:52-57). -/
def getSerial (c : Cfg) (s : St) : Except Err String := mkEcuSerial (if c.serial ≠ "" then c.serial else c.signing.keyId s.pub)

/-! ## Metadata -/

/-- `SecondaryProvider::getMetadata` (secondary_provider.cc:6-64) on the Primary's storage. -/
def getMetadata : U (Option Bundle) := do
  match ← loadLatestRoot .director with
  | none => pure none
  | some dr =>
    match ← loadNonRoot .director .targets with
    | none => pure none
    | some dt =>
      match ← loadLatestRoot .image with
      | none => pure none
      | some ir =>
        match ← loadNonRoot .image .timestamp with
        | none => pure none
        | some its =>
          match ← loadNonRoot .image .snapshot with
          | none => pure none
          | some isn =>
            match ← loadNonRoot .image .targets with
            | none => pure none
            | some it => pure (some ⟨dr, dt, ir, its, isn, it⟩)

/-- `Targets::Targets(json)` (tuf.cc:365), without checking signatures. -/
def targetsOfJson (env : Env) (j : Json) : Except Err Targets := do
  let (version, expiry) ← baseInit j
  targetsInit env { version := version, expiry := expiry } j

/-- `TimestampMeta::TimestampMeta(json)` (tuf.cc:373). -/
def timestampOfJson (j : Json) : Except Err Unit := do
  let _ ← baseInit j
  let s ← j.get "signed"
  let sj ← (← s.get "meta").get "snapshot.json"
  let hashes ← sj.get "hashes"
  let size ← sj.get "length"
  let ver ← sj.get "version"
  throwIf (!(← s.get "_type").isStr "Timestamp" || !hashes.isObject || !size.isIntegral || !ver.isIntegral) (.upt (.invalidMetadata "timestamp"))
  let _ ← parseHashes hashes.entries
  let _ ← size.asInt
  let _ ← ver.asInt
  return ()

/-- `Snapshot::Snapshot(json)` (tuf.cc:438). -/
def snapshotOfJson (j : Json) : Except Err Unit := do
  let _ ← baseInit j
  let s ← j.get "signed"
  let ml ← s.get "meta"
  throwIf (!(← s.get "_type").isStr "Snapshot" || !ml.isObject) (.upt (.invalidMetadata "snapshot"))
  let _ ← snapshotLoop {} ml.entries
  return ()

/-- `rawToMeta` (managedsecondary.cc:77-94): each part is replaced as soon as it is parsed. -/
def rawToMeta (env : Env) (b : Bundle) : V Unit := do
  let j := env.parseJson b.directorRoot
  let r ← lift (Root.ofJson env j)
  modify (fun s => { s with directorRoot := r, directorRootOriginal := j })
  let j := env.parseJson b.directorTargets
  let _ ← lift (targetsOfJson env j)
  modify (fun s => { s with directorTargetsOriginal := j })
  let r ← lift (Root.ofJson env (env.parseJson b.imageRoot))
  modify (fun s => { s with imageRoot := r })
  lift (timestampOfJson (env.parseJson b.imageTimestamp))
  lift (snapshotOfJson (env.parseJson b.imageSnapshot))
  let _ ← lift (targetsOfJson env (env.parseJson b.imageTargets))
  pure ()

/-- `Root new_root(Director, original, new_root)` (managedsecondary.cc:228): the constructor delegates to
`Root(repo, json)` first (root.cc:7), so the Root handed over is the new one, complete. -/
def checkRoot (env : Env) (j : Json) : Except Err Unit := do
  let r ← Root.ofJson env j
  r.unpackSignedObject env Role.root j
  r.unpackSignedObject env Role.root j

/-- The body of `MetaPack::isConsistent` (managedsecondary.cc:226-233). The Targets are checked with a copy
of the Root as a `MetaWithKeys`, so that its policy does not count. -/
def checkPack (env : Env) (s : St) : Except Err Unit :=
  if s.directorRootOriginal.isEmpty then .ok ()
  else do
    checkRoot env s.directorRootOriginal
    if s.directorTargetsOriginal.isEmpty then .ok ()
    else do
      let _ ← Targets.ofJsonSigned env Role.targets s.directorTargetsOriginal s.directorRoot.base
      return ()

/-- `MetaPack::isConsistent` (managedsecondary.cc:223-239). Only `std::logic_error` is caught, from which
the exceptions of the Uptane code derive, and those of jsoncpp do not. -/
def isConsistent (env : Env) (s : St) : Except Err Bool :=
  match checkPack env s with
  | .ok () => .ok true
  | .error e => if e.isUpt then .ok false else .error e

/-- `putMetadata` (managedsecondary.cc:96-115); `b` is what `SecondaryProvider::getMetadata` gives. -/
def putMetadata (env : Env) (b : Option Bundle) : V InstResult :=
  match b with
  | none => pure (.ofCode .internalError "Unable to load stored metadata from Primary")
  | some b => do
    modify (fun s => { s with attack := "", bundle := some b })
    rawToMeta env b
    let s ← gets id
    if ← lift (isConsistent env s) then pure (.ofCode .ok "")
    else pure (.ofCode .verificationFailed "Error verifying metadata received from Primary")

/-- `getRootVersion` (managedsecondary.cc:117-122). -/
def getRootVersion (director : Bool) (s : St) : Int := if director then s.directorRoot.base.version else s.imageRoot.base.version

/-- The Root is taken if its version follows; otherwise this is an attack (managedsecondary.cc:131-137).
`insert` does not replace the Root of the bundle (line 133), which is not used again. -/
def takeRoot (director : Bool) (j : Json) (r : Root) (s : St) : St :=
  let prev := getRootVersion director s
  if r.base.version = prev + 1 then
    if director then { s with directorRoot := r, directorRootOriginal := j } else { s with imageRoot := r }
  else { s with attack := "Tried to update Root version " ++ toString prev ++ " with version " ++ toString r.base.version }

/-- `putRoot` (managedsecondary.cc:124-144). -/
def putRoot (env : Env) (raw : String) (director : Bool) : V InstResult := do
  let s ← gets id
  throwWhen s.bundle.isNone (.std "Metadata not found")
  let j := env.parseJson raw
  let r ← lift (Root.ofJson env j)
  modify (takeRoot director j r)
  let s ← gets id
  if ← lift (isConsistent env s) then pure (.ofCode .ok "")
  else pure (.ofCode .verificationFailed "Error verifying metadata")

/-! ## Firmware -/

/-- `install` (managedsecondary.cc:151-160); `image` is the content of the file the package manager has,
`none` if it has none. The old firmware is truncated, then the image is written; the result of writing
is not looked at. -/
def install (name : String) (image : Option Bytes) : V InstResult := do
  let data ← M.orThrow image (.std "File doesn't exist for target")
  effect (fun d => { d with firmware := some [] })
  let kept ← gets (fun s => s.kept s.writes)
  modify (fun s => { s with writes := s.writes + 1 })
  effect (fun d => { d with firmware := some (match kept with | none => data | some k => data.take k) })
  writeFile (fun c d => { d with name := c }) name
  pure (.ofCode .ok "")

/-- `getFirmwareInfo` (managedsecondary.cc:189-203): name and content. -/
def firmwareInfo (d : Disk) : String × Bytes :=
  match d.name, d.firmware with
  | some n, some f => (n, f)
  | _, _ => ("noimage", [])

/-- What is signed (managedsecondary.cc:163-172 with `assembleManifest`, manifest.cc:60-74). -/
def manifestPayload (c : Cfg) (serial : String) (s : St) : Json :=
  let info := firmwareInfo s.disk
  .obj [("attacks_detected", .str s.attack),
    ("ecu_serial", .str serial),
    ("installed_image", .obj [("fileinfo", .obj [("hashes", .obj [("sha256", .str (c.sha256 info.2))]), ("length", .int info.2.length)]),
      ("filepath", .str info.1)]),
    ("previous_timeserver_time", .str "1970-01-01T00:00:00Z"),
    ("timeserver_time", .str "1970-01-01T00:00:00Z")]

/-- `getManifest` (managedsecondary.cc:162-187). -/
def getManifest (c : Cfg) (s : St) : Except Err Json := do
  let serial ← getSerial c s
  let body := manifestPayload c serial s
  return .obj [("signatures", .arr [.obj [("keyid", .str (c.signing.keyId s.pub)), ("method", .str "rsassa-pss"),
      ("sig", .str (c.signing.sign s.priv (c.env.canon body)))]]),
    ("signed", body)]

/-! ## Lives -/

/-- What may happen to a virtual Secondary: the process starts, or the Primary calls it. `fuel` is the
number of effects until the process dies in this call. -/
inductive Op where
  | start (seed fuel : Nat)
  | putMetadata (b : Option Bundle)
  | putRoot (raw : String) (director : Bool)
  | install (name : String) (image : Option Bytes) (fuel : Nat)

/-- The outcome of an operation. -/
inductive Out where
  | started
  | result (r : InstResult)
  deriving DecidableEq

/-- One operation. -/
def Op.run (c : Cfg) : Op → V Out
  | .start seed fuel => do modify (fun s => { s with left := fuel }); Managed.start c seed; pure .started
  | .putMetadata b => do return .result (← Managed.putMetadata c.env b)
  | .putRoot raw d => do return .result (← Managed.putRoot c.env raw d)
  | .install n i fuel => do modify (fun s => { s with left := fuel }); return .result (← Managed.install n i)

/-- A life: after an exception the Primary goes on, after a crash it starts again. -/
def life (c : Cfg) (s : St) : List Op → St
  | [] => s
  | o :: os => life c (o.run c s).2 os

end Aktualizr.Managed
