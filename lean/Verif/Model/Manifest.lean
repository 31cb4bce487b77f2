import Verif.Model.Device
import Verif.Model.Generator
import Verif.Model.SecondaryOstree

/-!
# The manifests of a device, as documents

Models `src/libaktualizr/uptane/manifest.cc`, `KeyManager::signTuf` and `UptanePublicKey`
(`src/libaktualizr/crypto/keymanager.cc`) for keys kept in the storage, `getCurrent` of the package managers, and
the JSON document made by `SotaUptaneClient::AssembleManifest` and `putManifestSimple`. What goes into the document from
the storage and from the Secondaries, and in which order things happen, is in `Model/Install.lean`
(`assembleManifest`); here is how it is written down and signed.
-/

namespace Aktualizr.Man

open Gen (GenEnv KeyPair insertKey)

/-- What the key manager works with: the Uptane keys of the storage (public, private) and the configured type. -/
structure Keys where
  stored : Option (String × String)
  type : KeyType

/-- `KeyManager::UptanePublicKey` (keymanager.cc:328-344) with the constructor of `PublicKey`
(crypto/crypto.cc:64-70). -/
def Keys.public (env : Env) (k : Keys) : Except Err PublicKey :=
  match k.stored with
  | none => .error (.std "Could not get Uptane public key!")
  | some (pub, _) =>
    if (k.type == .rsa2048 || k.type == .rsa3072 || k.type == .rsa4096) && k.type != env.rsaType pub then
      .error (.std "RSA key length is incorrect")
    else .ok ⟨pub, k.type⟩

/-- `KeyManager::signTuf` (keymanager.cc:252-296). `n` is the number of the signature. The private key is empty when
there is none. `Crypto::Sign` only looks at the type of the public key given to `sign` here. -/
def signTuf (g : GenEnv) (k : Keys) (n : Nat) (j : Json) : Except Err Json := do
  let priv := (k.stored.map (·.2)).getD ""
  let sig := g.sign n ⟨(k.stored.map (·.1)).getD "", k.type⟩ priv (g.env.canon j)
  let method ← Gen.method k.type
  let pub ← k.public g.env
  return .obj [("signatures", .arr [.obj [("keyid", .str (g.keyId pub)), ("method", .str method), ("sig", .str sig)]]),
    ("signed", j)]

/-- `InstalledImageInfo` (libaktualizr/types.h). -/
structure Image where
  name : String
  length : Nat
  hash : String
  deriving DecidableEq, Repr

/-- `Target::getTargetImageInfo` (types.h:429). -/
def Image.ofTarget (t : Target) : Image := ⟨t.filename, t.length, t.sha256Hash⟩

/-- `Target::Unknown().getTargetImageInfo()` (uptane/tuf.cc:145-154). -/
def Image.unknown (env : Env) : Image := ⟨"unknown", 0, lower (env.sha256 "")⟩

/-- The members of an ECU's part, `ManifestIssuer::assembleManifest` (manifest.cc:60-76), in the order in which jsoncpp
keeps them. -/
def ecuPart (i : Image) (serial : String) : List (String × Json) :=
  [("attacks_detected", .str ""), ("ecu_serial", .str serial),
    ("installed_image", .obj [("fileinfo", .obj [("hashes", .obj [("sha256", .str i.hash)]), ("length", .int i.length)]),
      ("filepath", .str i.name)]),
    ("previous_timeserver_time", .str "1970-01-01T00:00:00Z"), ("timeserver_time", .str "1970-01-01T00:00:00Z")]

/-- `ManifestIssuer::sign` (manifest.cc:52-58); the counter as `std::to_string` writes it. -/
def sign (g : GenEnv) (k : Keys) (n : Nat) (members : List (String × Json)) (counter : Option Int) : Except Err Json :=
  signTuf g k n (.obj (match counter with
    | some c => insertKey "report_counter" (.str (toString c)) members
    | none => members))

/-- `InstallationResult::toJson` (utilities/types.cc:122-128). -/
def resultJson (r : InstResult) : Except Err Json := do
  return .obj [("code", .str (← r.code.toText)), ("description", .str r.desc), ("success", .bool r.success)]

/-- The items of the report (sotauptaneclient.cc:322-331). -/
def items : List (String × InstResult) → Except Err (List Json)
  | [] => .ok []
  | (serial, r) :: rest => do
    let j ← resultJson r
    return .obj [("ecu", .str serial), ("result", j)] :: (← items rest)

/-- `installation_report` (sotauptaneclient.cc:311-334). -/
def report (r : InstResult) (raw cid : String) (l : List (String × InstResult)) : Except Err Json := do
  let res ← resultJson r
  let its ← items l
  return .obj [("content_type", .str "application/vnd.com.here.otac.installationReport.v1"),
    ("report", .obj [("correlation_id", .str cid), ("items", .arr its), ("raw_report", .str raw), ("result", res)])]

/-- `version_manifest`: the Primary's entry, then those of the Secondaries (sotauptaneclient.cc:246-307). -/
def versions (primary : String) (j : Json) (secs : List (String × Json)) : List (String × Json) :=
  secs.foldl (fun l s => insertKey s.1 s.2 l) [(primary, j)]

/-- The unsigned manifest (sotauptaneclient.cc:241-341). `m` is what the storage and the Secondaries contribute, `i` the
image the package manager reports as installed. Simplification: here everything is put together at the end; in the code
the Primary's part is signed before the Secondaries are asked. -/
def assemble (g : GenEnv) (k : Keys) (n : Nat) (i : Image) (m : Manifest) : Except Err (List (String × Json)) := do
  let own ← sign g k n (ecuPart i m.primary) m.counter
  let base : List (String × Json) := [("ecu_version_manifests", .obj (versions m.primary own m.secondaries))]
  let base ← match m.report with
    | none => .ok base
    | some (r, raw, cid, l) => do pure (insertKey "installation_report" (← report r raw cid l) base)
  return insertKey "primary_ecu_serial" (.str m.primary) base

/-- What `putManifestSimple` sends (sotauptaneclient.cc:1129-1134); `custom` is the argument of the same name, null if
there is none. -/
def document (g : GenEnv) (k : Keys) (n : Nat) (i : Image) (custom : Json) (m : Manifest) : Except Err Json := do
  let l ← assemble g k n i m
  sign g k (n + 1) (if custom.isEmpty then l else insertKey "custom" custom l) none

/-- The body of the request: `HttpClient::put` (http/httpclient.cc:177-181). -/
def body (g : GenEnv) (doc : Json) : String := g.env.canon doc

/-- A package manager that only goes by the records, and OSTree with the booted commit. -/
inductive PackMan where
  | fake
  | ostree (booted : Option String)

/-- `getCurrent` (packagemanagerfake.cc:19-28, ostreemanager.cc:332-371), for the manifest. -/
def PackMan.current (env : Env) (v : VersionDb) : PackMan → Except Err Image
  | .fake => do
    match ← v.loadCurrent env "" with
    | some t => return .ofTarget t
    | none => return .unknown env
  | .ostree none => .error (.std "Could not get booted deployment")
  | .ostree (some hash) => do
    match ← SecOst.getCurrent env v hash with
    | some t => return .ofTarget t
    | none => return .unknown env

end Aktualizr.Man
