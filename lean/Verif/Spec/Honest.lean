import Verif.Spec.Metadata

/-! # Specification: repositories that offer genuine metadata -/

namespace Aktualizr.Spec

/-- Whenever it is asked for this document, the server answers `raw`, which is not too large. -/
structure Served (c : Ctx) (repo : Repo) (role : Role) (version max : Int) (raw : String) : Prop where
  answer : ∀ n, c.net n repo role.name version = some raw
  size : (raw.utf8ByteSize : Int) ≤ max

/-- Not expired while the check goes on. -/
def Unexpired (c : Ctx) (t : TimeStamp) : Prop := ∀ n, t.isExpiredAt (c.clock n) = false

/-- `raw` can be verified for the top-level role `role` under `root`. -/
structure Genuine (env : Env) (root : Root) (role : Role) (raw : String) : Prop where
  signed : SignedFor env root role raw
  format : WellFormedSignatures (env.parseJson raw)
  nonempty : raw ≠ ""

/-- `raw` is a Root with content `r`, signed by its own keys. -/
structure GenuineRoot (env : Env) (raw : String) (r : Root) : Prop where
  reads : ReadsAsRoot env raw r
  genuine : Genuine env r Role.root raw

/-- The server offers the Roots `raws` under their versions, from `v` on, and no more. -/
def RootsOffered (c : Ctx) (repo : Repo) : Int → List String → Prop
  | v, [] => ∀ n, c.net n repo "root" v = none
  | v, raw :: l => Served c repo Role.root v (64 * 1024) raw ∧ (∃ r, GenuineRoot c.env raw r ∧ r.base.version = v) ∧
      RootsOffered c repo (v + 1) l

/-- From the stored Root `first` (or, if none is stored, the one served as version 1) the server
offers the chain `raws`; `last` is the content of its end. -/
structure HonestRoots (c : Ctx) (repo : Repo) (db : MetaDb) (first : String) (raws : List String) (last : Root) : Prop where
  start : (∃ row, db.latestOf repo .root = some row ∧ row.data = first ∧ FiledSanely c.env row) ∨
    (db.latestOf repo .root = none ∧ Served c repo Role.root 1 (64 * 1024) first)
  offered : ∃ r0, GenuineRoot c.env first r0 ∧ 0 ≤ r0.base.version ∧ RootsOffered c repo (r0.base.version + 1) raws ∧
    r0.base.version + raws.length < 1000
  chain : RootChain c.env first raws
  ends : ReadsAsRoot c.env (lastOf first raws) last
  fresh : Unexpired c last.base.expiry

/-- No ECU is named twice. -/
def EcusOnce (ts : Targets) : Prop := (ts.targets.flatMap (fun t => t.ecus.map Prod.fst)).Nodup

/-- `raw` has a higher version than what is stored, or is what is stored. -/
def Newer (env : Env) (db : MetaDb) (repo : Repo) (type : RoleKind) (raw : String) : Prop :=
  ∃ v, StatesVersion env raw v ∧ 0 ≤ v ∧
    ∀ old, Stored db repo type old → old = raw ∨ (old ≠ "" ∧ ∃ v', StatesVersion env old v' ∧ v' < v)

/-- The Director offers, after the Roots, the Targets document `raw` with content `ts`, for at least
one ECU. -/
structure HonestDirector (c : Ctx) (db : MetaDb) (first : String) (raws : List String) (last : Root) (raw : String) (ts : Targets) : Prop where
  roots : HonestRoots c .director db first raws last
  served : Served c .director Role.targets (-1) (64 * 1024) raw
  genuine : Genuine c.env last Role.targets raw
  reads : ReadsAsTargets c.env raw ts
  newer : Newer c.env db .director .targets raw
  fresh : Unexpired c ts.base.expiry
  some : ts.targets ≠ []
  plain : ts.delegatedRoleNames = []
  once : EcusOnce ts

/-- The Snapshot document lists `name`, always with version `v` and only with hashes that `raw`
has. -/
def SnapshotLists (env : Env) (rawS name raw : String) (v : Int) : Prop :=
  ∃ ml, At (env.parseJson rawS) ["signed", "meta"] ml ∧ (∃ kj ∈ ml.entries, stripExtension kj.1 = name) ∧
    ∀ kj ∈ ml.entries, stripExtension kj.1 = name →
      (∃ hashes, kj.2.get "hashes" = .ok hashes ∧ HashesToAll env raw hashes) ∧
      (∃ vj, kj.2.get "version" = .ok vj ∧ vj.asInt = .ok v)

/-- What is stored is `raw`, or has other digests. -/
def ToldApart (env : Env) (db : MetaDb) (type : RoleKind) (raw : String) : Prop :=
  ∀ old, Stored db .image type old → old = raw ∨ (old ≠ "" ∧ ∀ alg, upper (digest env alg old) ≠ upper (digest env alg raw))

/-- The Image repository offers, after the Roots, Timestamp, Snapshot and Targets. -/
structure HonestImage (c : Ctx) (db : MetaDb) (first : String) (raws : List String) (last : Root)
    (rawT rawS raw : String) (t : TimestampMeta) (s : Snapshot) (ts : Targets) : Prop where
  roots : HonestRoots c .image db first raws last
  servedT : Served c .image Role.timestamp (-1) (64 * 1024) rawT
  genuineT : Genuine c.env last Role.timestamp rawT
  readsT : ReadsAsTimestamp c.env rawT t
  newerT : Newer c.env db .image .timestamp rawT
  freshT : Unexpired c t.expiry
  servedS : Served c .image Role.snapshot (-1) (if t.snapshotSize > 0 then t.snapshotSize else 64 * 1024) rawS
  genuineS : Genuine c.env last Role.snapshot rawS
  readsS : ReadsAsSnapshot c.env rawS s
  vouched : TimestampVouches c.env rawT rawS s.version
  versionS : StatesVersion c.env rawS s.version ∧ 0 ≤ s.version
  knownS : ToldApart c.env db .snapshot rawS
  freshS : Unexpired c s.expiry
  served : Served c .image Role.targets (-1) (8 * 1024 * 1024) raw
  genuine : Genuine c.env last Role.targets raw
  reads : ReadsAsTargets c.env raw ts
  listed : SnapshotLists c.env rawS "targets" raw ts.base.version
  newer : Newer c.env db .image .targets raw
  fresh : Unexpired c ts.base.expiry

end Aktualizr.Spec
