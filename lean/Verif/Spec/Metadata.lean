import Verif.Model.History
import Verif.Spec.Roots

/-! # Specification: documents, what they state, what is stored -/

namespace Aktualizr.Spec

/-- Text `raw` is a Targets document (top-level or delegated) whose content is `ts`. The
content does not depend on who signed it. -/
def ReadsAsTargets (env : Env) (raw : String) (ts : Targets) : Prop :=
  ∃ v e, baseInit (env.parseJson raw) = .ok (v, e) ∧
    targetsInit env { version := v, expiry := e } (env.parseJson raw) = .ok ts

/-- Text `raw` is a Timestamp document whose content is `t` (as read by some signer's
verifier; the content does not depend on the signer). -/
def ReadsAsTimestamp (env : Env) (raw : String) (t : TimestampMeta) : Prop :=
  ∃ signer, TimestampMeta.ofJsonSigned env (env.parseJson raw) signer = .ok t

/-- Text `raw` is a Snapshot document whose content is `s`. -/
def ReadsAsSnapshot (env : Env) (raw : String) (s : Snapshot) : Prop :=
  ∃ signer, Snapshot.ofJsonSigned env (env.parseJson raw) signer = .ok s

/-- `raw` is properly signed for the top-level role `role` under `root`. -/
def SignedFor (env : Env) (root : Root) (role : Role) (raw : String) : Prop :=
  SignedToThreshold env root.base role.name (env.parseJson raw) ∧ DeclaresType role (env.parseJson raw)

/-- The document's `signed.version` member is the JSON integer `v`. -/
def StatesVersion (env : Env) (raw : String) (v : Int) : Prop :=
  ∃ s j, (env.parseJson raw).get "signed" = .ok s ∧ s.get "version" = .ok j ∧ j.isIntegral = true ∧ j.asInt = .ok v

/-- `raw` is the stored document of a non-Root role. -/
def Stored (db : MetaDb) (repo : Repo) (type : RoleKind) (raw : String) : Prop :=
  ∃ row, db.latestOf repo type = some row ∧ row.data = raw

/-- Following the member names `path` from `j` leads to `x`. -/
def At : Json → List String → Json → Prop
  | j, [], x => j = x
  | j, k :: ks, x => ∃ y, j.get k = .ok y ∧ At y ks x

/-- The digest of the whole document in canonical form. -/
def digest (env : Env) (alg raw : String) : String :=
  if alg = "sha256" then env.sha256 (env.canon (env.parseJson raw)) else env.sha512 (env.canon (env.parseJson raw))

/-- The document `raw` has every hash of a supported kind listed in the JSON object `hashes`
(hexadecimal case does not matter). -/
def HashesToAll (env : Env) (raw : String) (hashes : Json) : Prop :=
  ∀ kj ∈ hashes.entries, kj.1 = "sha256" ∨ kj.1 = "sha512" →
    ∃ text, kj.2.asString = .ok text ∧ upper text = upper (digest env kj.1 raw)

/-- The Timestamp document `rawT` vouches for the Snapshot document `rawS` of version `v`. -/
def TimestampVouches (env : Env) (rawT rawS : String) (v : Int) : Prop :=
  ∃ sj hashes vj, At (env.parseJson rawT) ["signed", "meta", "snapshot.json"] sj ∧
    sj.get "hashes" = .ok hashes ∧ HashesToAll env rawS hashes ∧
    (∃ kj ∈ hashes.entries, kj.1 = "sha256" ∨ kj.1 = "sha512") ∧
    sj.get "version" = .ok vj ∧ vj.asInt = .ok v

/-- The Snapshot document `rawS` vouches for the document `raw` of version `v` as role `name`:
every hash it lists under that name agrees, and the version is one it lists under that name
(or -1 if it lists none). -/
def SnapshotVouches (env : Env) (rawS name raw : String) (v : Int) : Prop :=
  ∃ ml, At (env.parseJson rawS) ["signed", "meta"] ml ∧
    (∀ kj ∈ ml.entries, stripExtension kj.1 = name →
      ∃ hashes, kj.2.get "hashes" = .ok hashes ∧ (hashes.isObject = true → HashesToAll env raw hashes)) ∧
    ((∃ kj ∈ ml.entries, stripExtension kj.1 = name ∧ ∃ vj, kj.2.get "version" = .ok vj ∧ vj.asInt = .ok v) ∨
     ((∀ kj ∈ ml.entries, stripExtension kj.1 ≠ name) ∧ v = -1))

/-- How the stored document of a role may change: never removed, never to a lower version, and
a different document only with a higher version. -/
def StoredVersionGrows (env : Env) (repo : Repo) (type : RoleKind) (d d' : MetaDb) : Prop :=
  ∀ raw v, Stored d repo type raw → StatesVersion env raw v → 0 ≤ v →
    ∃ raw' v', Stored d' repo type raw' ∧ StatesVersion env raw' v' ∧ v ≤ v' ∧ (v = v' → raw' = raw)

end Aktualizr.Spec
