import Verif.Model.Generator
import Verif.Spec.Metadata

/-!
# What is expected of the commands of the repository generator
-/

namespace Aktualizr.Spec

open Gen

/-- The file `p` is there, with `b` as signed part. -/
def Signed (g : GenEnv) (d : Dir) (p : Gen.Path) (b : Json) : Prop :=
  ∃ text, d.files.lookup p = some text ∧ At (g.env.parseJson text) ["signed"] b

/-- Targets are staged, with `b` as content. -/
def Staged (g : GenEnv) (d : Dir) (b : Json) : Prop := ∃ text, d.files.lookup .staging = some text ∧ g.env.parseJson text = b

/-- All files but these are what they were. -/
def Unchanged (d d' : Dir) (ps : List Gen.Path) : Prop := ∀ q, q ∉ ps → d'.files.lookup q = d.files.lookup q

/-- All members but these are what they were. -/
def SameBut (b b' : Json) (ks : List String) : Prop := ∀ k, k ∉ ks → b'.get k = b.get k

/-- The version is one higher. -/
def VersionUp (b b' : Json) : Prop := ∃ v : Int, At b ["version"] (.int v) ∧ At b' ["version"] (.int (v + 1))

/-- The entry of `name` is `t`, the others are what they were. -/
def EntrySet (b b' : Json) (name : String) (t : Json) : Prop :=
  ∃ ts ts', At b ["targets"] ts ∧ At b' ["targets"] ts' ∧ At ts' [name] t ∧ SameBut ts ts' [name]

/-- The entry of a file. -/
structure BinaryEntry (g : GenEnv) (content hw url : String) (t : Json) : Prop where
  sha256 : At t ["hashes", "sha256"] (.str (lower (g.env.sha256 content)))
  sha512 : At t ["hashes", "sha512"] (.str (lower (g.env.sha512 content)))
  length : At t ["length"] (.int content.utf8ByteSize)
  hardware : At t ["custom", "hardwareIds"] (.arr [.str hw])
  format : At t ["custom", "targetFormat"] (.str "BINARY")
  uri : At t ["custom", "uri"] (if url = "" then .null else .str url)

/-- The entry of an image that is described on the command line. -/
structure CustomEntry (hash : Hash) (length : Nat) (hw url : String) (custom t : Json) : Prop where
  sha256 : hash.type = .sha256 → At t ["hashes", "sha256"] (.str hash.hash)
  sha512 : hash.type = .sha512 → At t ["hashes", "sha512"] (.str hash.hash)
  length : length < 4294967296 → At t ["length"] (.int length)
  hardware : ∃ more, At t ["custom", "hardwareIds"] (.arr (.str hw :: more))
  uri : url ≠ "" → At t ["custom", "uri"] (.str url)
  rest : ∃ c, At t ["custom"] c ∧ SameBut custom c (["hardwareIds"] ++ if url = "" then [] else ["uri"])

/-- A role for `name`, with a pattern that fits the image, is listed in the repository. -/
def Covers (g : GenEnv) (d : Dir) (name image : String) : Prop :=
  ∃ q b rs r n, (q = .targets ∨ ∃ m, q = .delegation m) ∧ Signed g d q b ∧ At b ["delegations", "roles"] rs ∧ r ∈ rs.elems ∧
    At r ["name"] n ∧ n.asString = .ok name ∧ ∃ ps p, At r ["paths"] ps ∧ (ps.elems.headD .null).asString = .ok p ∧
      (g.env.fnmatch p image = true ∧ p.toList.getLast? ≠ some '/' ∨ g.env.fnmatch (p ++ "**") image = true ∧ p.toList.getLast? = some '/')

/-- Where an image given for `deleg` goes: Targets, or the delegated role, which has to cover it. With an
empty name it goes to Targets (`C73_empty_role_name`). -/
def RoleFor (g : GenEnv) (d : Dir) (deleg : Option String) (image : String) (p : Gen.Path) : Prop :=
  deleg = none ∧ p = .targets ∨ ∃ n, deleg = some n ∧ Covers g d n image ∧ p = if n = "" then .targets else .delegation n

/-- A role of the repository lists the image as `t`. -/
def ListsImage (g : GenEnv) (d : Dir) (p : Gen.Path) (name : String) (t : Json) : Prop :=
  ∃ b ts, (p = .targets ∨ ∃ m, p = .delegation m) ∧ Signed g d p b ∧ At b ["targets"] ts ∧ ts.isMember name = .ok true ∧ At ts [name] t

/-- The Director's entry `t` made from the entry `e` of the Image repository. -/
structure Assigns (e t : Json) (hw serial url : String) : Prop where
  same : SameBut e t ["custom"]
  ecu : At t ["custom", "ecuIdentifiers", serial, "hardwareId"] (.str hw)
  others : ∀ s x, s ≠ serial → At e ["custom", "ecuIdentifiers", s] x → At t ["custom", "ecuIdentifiers", s] x
  hardware : At t ["custom", "hardwareIds"] .null
  uri : At t ["custom", "uri"] (if url = "" then .null else .str url)
  rest : ∃ c c', At e ["custom"] c ∧ At t ["custom"] c' ∧ SameBut c c' ["ecuIdentifiers", "hardwareIds", "uri"]

/-- What is staged, or else published. -/
def Current (g : GenEnv) (d : Dir) (b : Json) : Prop := Staged g d b ∨ d.files.lookup .staging = none ∧ Signed g d .targets b

/-- The version after the published one. -/
def NextVersion (g : GenEnv) (d : Dir) (b : Json) : Prop :=
  ∃ b0 v, Signed g d .targets b0 ∧ At b0 ["version"] (.int v) ∧ At b ["version"] (.int (v + 1))

/-- The same content in a next version, valid again if it had expired. -/
def Refreshed (now : TimeStamp) (soon : String) (b b' : Json) : Prop :=
  VersionUp b b' ∧ SameBut b b' ["version", "expires"] ∧ ∃ e t, At b ["expires"] (.str e) ∧ TimeStamp.parse e = some t ∧
    At b' ["expires"] (.str (if t.isExpiredAt now then soon else e))

/-- The role `p` delegates to the role `n`. -/
def DelegatesTo (g : GenEnv) (d : Dir) (p : Gen.Path) (n : String) : Prop :=
  ∃ b rs x, Signed g d p b ∧ At b ["delegations", "roles"] rs ∧ x ∈ rs.elems ∧ At x ["name"] (.str n)

/-- The roles reached from the top-level Targets. -/
inductive InTree (g : GenEnv) (d : Dir) : Gen.Path → Prop where
  | top : InTree g d .targets
  | step {p : Gen.Path} {n : String} : InTree g d p → DelegatesTo g d p n → InTree g d (.delegation n)

/-- The file of a role as the Snapshot names it. -/
def fileName : Gen.Path → String
  | .delegation n => n ++ ".json"
  | _ => "targets.json"

/-- `b'` delegates, beside what `b` does, to `name` with its key, and nothing else. -/
structure NewDelegation (g : GenEnv) (name pattern : String) (terminating : Bool) (key : PublicKey) (b b' : Json) : Prop where
  role : ∃ rs rs' x, At b ["delegations", "roles"] rs ∧ At b' ["delegations", "roles"] rs' ∧ rs'.elems = rs.elems ++ [x] ∧
    At x ["name"] (.str name) ∧ At x ["keyids"] (.arr [.str (g.keyId key)]) ∧ At x ["paths"] (.arr [.str pattern]) ∧
    At x ["terminating"] (.bool terminating) ∧ At x ["threshold"] (.int 1)
  key : ∃ ks ks', At b ["delegations", "keys"] ks ∧ At b' ["delegations", "keys"] ks' ∧ SameBut ks ks' [g.keyId key] ∧
    At ks' [g.keyId key, "keyval", "public"] (.str key.value) ∧
    At ks' [g.keyId key, "keytype"] (.str (if key.type = .ed25519 then "ED25519" else "RSA"))

/-- The name of a listed role. -/
def isNamed (name : String) (x : Json) : Bool :=
  match x.get "name" with
  | .ok (.str n) => n == name
  | _ => false

/-- `b'` is `b` without the delegation to `name` and its key, in a later version. -/
structure Pruned (name keyId : String) (b b' : Json) : Prop where
  same : SameBut b b' ["delegations", "version"]
  version : ∃ v v' : Int, At b ["version"] (.int v) ∧ At b' ["version"] (.int v') ∧ v < v'
  roles : ∃ rs rs', At b ["delegations", "roles"] rs ∧ At b' ["delegations", "roles"] rs' ∧ rs'.elems = rs.elems.filter (fun x => !isNamed name x)
  keys : ∃ ks ks', At b ["delegations", "keys"] ks ∧ At b' ["delegations", "keys"] ks' ∧ SameBut ks ks' [keyId] ∧ At ks' [keyId] .null

/-- `b'` is `b` without the targets of `bn`. -/
structure Withdrawn (bn b b' : Json) : Prop where
  same : SameBut b b' ["targets", "version"]
  version : VersionUp b b'
  targets : ∃ tn ts ts', At bn ["targets"] tn ∧ At b ["targets"] ts ∧ At b' ["targets"] ts' ∧
    ts'.entries = ts.entries.filter (fun kv => !(tn.entries.map Prod.fst).contains kv.1)

end Aktualizr.Spec
