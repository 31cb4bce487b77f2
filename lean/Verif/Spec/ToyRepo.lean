import Verif.Spec.Toy
import Verif.Model.History

/-! Concrete repositories in the toy environment, for witnesses. -/

namespace Aktualizr.Toy

/-- A Targets entry for file `name`: hash text, length, custom members. -/
def tgt (name hash : String) (len : Int) (custom : List (String × Json)) : String × Json :=
  (name, .obj [("custom", .obj custom), ("length", .int len), ("hashes", .obj [("sha256", .str hash)])])

/-- Director custom part: ECU → hardware id. -/
def forEcus (ecus : List (String × String)) : List (String × Json) :=
  [("ecuIdentifiers", .obj (ecus.map (fun p => (p.1, .obj [("hardwareId", .str p.2)]))))]

/-- Image custom part: hardware ids. -/
def forHw (hw : List String) : List (String × Json) := [("hardwareIds", .arr (hw.map .str))]

def targetsBody (version : Int) (ts : List (String × Json)) : List (String × Json) :=
  common "Targets" version ++ [("targets", .obj ts)]

def timestampBody (version : Int) (snapId : String) (snapVersion : Int) : List (String × Json) :=
  common "Timestamp" version ++
  [("meta", .obj [("snapshot.json", .obj [("hashes", .obj [("sha256", .str ("#" ++ snapId ++ "!"))]),
     ("length", .int 100), ("version", .int snapVersion)])])]

/-- Snapshot listing (file, document id, version); an empty id lists no hash. -/
def snapshotBody (version : Int) (files : List (String × String × Int)) : List (String × Json) :=
  common "Snapshot" version ++
  [("meta", .obj (files.map (fun f => (f.1, .obj (
      (if f.2.1 = "" then [] else [("hashes", Json.obj [("sha256", .str ("#" ++ f.2.1 ++ "!"))])]) ++
      [("version", .int f.2.2)])))))]

/-- A server: a table of (repository, role, version) → body. -/
def net (t : List ((Repo × String × Int) × String)) : Nat → Repo → String → Int → Option String :=
  fun _ repo role v => t.lookup (repo, role, v)

/-- A clock standing still. -/
def clock (s : String) : Nat → TimeStamp := fun _ => ⟨s⟩

/-- An event in the year 2026 with plenty of fuel. -/
def ev (call : Call) (t : List ((Repo × String × Int) × String)) (fuel : Nat := 100) : Event :=
  { call := call, net := net t, clock := clock "2026-01-01T00:00:00Z", fuel := fuel }

def dk : List (String × String) := [("dk", "dpub")]
def dk2 : List (String × String) := [("dk2", "dpub2")]
def ik : List (String × String) := [("ik", "ipub")]

/-- Targets body with its own expiry date. -/
def targetsBodyUntil (expires : String) (version : Int) (ts : List (String × Json)) : List (String × Json) :=
  [("_type", .str "Targets"), ("version", .int version), ("expires", .str expires), ("targets", .obj ts)]

/-- A `delegations` member: (name, threshold, key pairs, paths, terminating). -/
def delegations (ds : List (String × Int × List (String × String) × List String × Bool)) : String × Json :=
  ("delegations", .obj [
    ("keys", .obj (ds.flatMap (fun d => d.2.2.1.map (fun p => (p.1, key p.2))))),
    ("roles", .arr (ds.map (fun d => .obj [("name", .str d.1), ("threshold", .int d.2.1),
      ("keyids", .arr (d.2.2.1.map (fun p => .str p.1))), ("paths", .arr (d.2.2.2.1.map .str)),
      ("terminating", .bool d.2.2.2.2)])))])

/-- The documents that exist. -/
def docs : List (String × Json) :=
  [("dr1", doc "dr1" (rootBody 1 1 dk) dk),
   ("dr2", doc "dr2" (rootBody 2 1 dk2) (dk ++ dk2)),
   ("dr3", doc "dr3" (rootBody 3 1 dk2) dk2),
   ("dr2s", doc "dr2s" (rootBody 2 1 dk) dk),
   ("drbad2", doc "drbad2" (rootBody 2 1 dk2) dk2),
   ("dt1", doc "dt1" (targetsBody 1 [tgt "fw" "abc" 3 (forEcus [("e1", "h1")])]) dk),
   ("dt2", doc "dt2" (targetsBody 2 [tgt "fw2" "abd" 3 (forEcus [("e1", "h1")])]) dk),
   ("dt3e", doc "dt3e" (targetsBody 3 []) dk),
   ("dtB", doc "dtB" (targetsBody 4 [tgt "fw2" "abd" 3 (forEcus [("e1", "h1")])]) dk2),
   ("dt3", doc "dt3" (targetsBody 3 [tgt "fw" "abc" 3 (forEcus [("e1", "h1")])]) dk),
   ("dt9e", doc "dt9e" (targetsBody 9 []) dk),
   ("dt2old", doc "dt2old" (targetsBodyUntil "2025-01-01T00:00:00Z" 2 [tgt "fw" "abc" 3 (forEcus [("e1", "h1")])]) dk),
   ("dt2del", doc "dt2del" (targetsBody 2 [tgt "fw" "abc" 3 (forEcus [("e1", "h1")])] ++
      [delegations [("other", 1, dk, ["*"], false)]]) dk),
   ("dt2rep", doc "dt2rep" (targetsBody 2 [tgt "fw" "abc" 3 (forEcus [("e1", "h1")]),
      tgt "fw2" "abd" 3 (forEcus [("e2", "h1"), ("e1", "h1")])]) dk),
   ("dt4two", doc "dt4two" (targetsBody 4 [tgt "fw" "abc" 3 (forEcus [("e1", "h1"), ("e2", "h1")])]) dk),
   ("ir1", doc "ir1" (rootBody 1 1 ik) ik),
   ("its1", doc "its1" (timestampBody 1 "isn1" 1) ik),
   ("isn1", doc "isn1" (snapshotBody 1 [("targets.json", "it1", 1)]) ik),
   ("it1", doc "it1" (targetsBody 1 [tgt "fw" "abc" 3 (forHw ["h1", "h2"])]) ik),
   ("its2", doc "its2" (timestampBody 2 "isn2" 2) ik),
   ("isn2", doc "isn2" (snapshotBody 2 [("targets.json", "it2", 2)]) ik),
   ("it2", doc "it2" (targetsBody 2 [tgt "fw2" "abd" 3 (forHw ["h1"])]) ik),
   ("its3", doc "its3" (timestampBody 3 "isn1" 1) ik),
   ("nr", doc "nr" (rootBody (-5) 1 dk) dk),
   ("nr4", doc "nr4" (rootBody (-4) 1 dk) dk),
   ("its5", doc "its5" (timestampBody 5 "isn5" 5) ik),
   ("isn5", doc "isn5" (snapshotBody 5 [("targets.json", "it5", 5), ("A.json", "itA", 1), ("B.json", "itB", 1), ("C.json", "itC", 1)]) ik),
   ("it5", doc "it5" (targetsBody 5 [] ++ [delegations [("A", 1, [("ak", "apub")], ["fw3"], true), ("B", 1, [("bk", "bpub")], ["*"], false)]]) ik),
   ("itA", doc "itA" (targetsBody 1 [] ++ [delegations [("C", 1, [("ck", "cpub")], ["*"], false)]]) [("ak", "apub")]),
   ("itB", doc "itB" (targetsBody 1 [] ++ [delegations [("C", 1, [("ck", "cpub")], ["*"], false)]]) [("bk", "bpub")]),
   ("itC", doc "itC" (targetsBody 1 [tgt "fw3" "abe" 3 (forHw ["h1"])]) [("ck", "cpub")]),
   ("its6", doc "its6" (timestampBody 6 "isn6" 6) ik),
   ("isn6", doc "isn6" (snapshotBody 6 [("targets.json", "it6", 6)]) ik),
   ("it6", doc "it6" (targetsBody 6 [] ++ [delegations [("U", 1, [("uk", "upub")], ["*"], false)]]) ik),
   ("itU", doc "itU" (targetsBody (-1) [tgt "fw3" "abe" 3 (forHw ["h1"])]) [("uk", "upub")]),
   ("its7", doc "its7" (timestampBody 7 "isn7" 7) ik),
   ("isn7", doc "isn7" (snapshotBody 7 [("targets.json", "it7", 7)]) ik),
   ("it7", doc "it7" (targetsBodyUntil "2026-06-01T00:00:00Z" 7 [tgt "fw" "abc" 3 (forHw ["h1"])]) ik),
   ("its8", doc "its8" (timestampBody 8 "isn8" 8) ik),
   ("isn8", doc "isn8" (snapshotBody 8 [("targets.json", "", 8)]) ik),
   ("dt6", doc "dt6" (targetsBody 6 [tgt "os" "abf" 0 (forEcus [("e2", "h1")])]) dk),
   ("its9", doc "its9" (timestampBody 9 "isn9" 9) ik),
   ("isn9", doc "isn9" (snapshotBody 9 [("targets.json", "it9", 9)]) ik),
   ("it9", doc "it9" (targetsBody 9 [tgt "os" "abf" 0 (forHw ["h1"])]) ik),
   ("dt5", doc "dt5" (targetsBody 5 [tgt "fw3" "abe" 3 (forEcus [("e1", "h1")])]) dk)]

/-- The environment with these documents. -/
def E : Env := env docs

/-- A healthy server. -/
def good : List ((Repo × String × Int) × String) :=
  [((.director, "root", 1), "dr1"), ((.director, "targets", -1), "dt1"),
   ((.image, "root", 1), "ir1"), ((.image, "timestamp", -1), "its1"),
   ((.image, "snapshot", -1), "isn1"), ((.image, "targets", -1), "it1")]

/-- A server whose Image repository delegates: `targets` → A (terminating), B; A → C; B → C. -/
def delegating : List ((Repo × String × Int) × String) :=
  [((.director, "root", 1), "dr1"), ((.director, "targets", -1), "dt5"),
   ((.image, "root", 1), "ir1"), ((.image, "timestamp", -1), "its5"), ((.image, "snapshot", -1), "isn5"),
   ((.image, "targets", -1), "it5"), ((.image, "A", -1), "itA"), ((.image, "B", -1), "itB"), ((.image, "C", -1), "itC")]

/-- A server whose Snapshot does not list the delegated role U. -/
def unlisted : List ((Repo × String × Int) × String) :=
  [((.director, "root", 1), "dr1"), ((.director, "targets", -1), "dt5"),
   ((.image, "root", 1), "ir1"), ((.image, "timestamp", -1), "its6"), ((.image, "snapshot", -1), "isn6"),
   ((.image, "targets", -1), "it6"), ((.image, "U", -1), "itU")]

/-- A server whose Image repository Targets expires in June 2026. -/
def expiring : List ((Repo × String × Int) × String) :=
  [((.director, "root", 1), "dr1"), ((.director, "targets", -1), "dt1"),
   ((.image, "root", 1), "ir1"), ((.image, "timestamp", -1), "its7"),
   ((.image, "snapshot", -1), "isn7"), ((.image, "targets", -1), "it7")]

/-- A server that has a newer Snapshot, listing a newer Targets, but fails to deliver it. -/
def halfway : List ((Repo × String × Int) × String) :=
  [((.director, "root", 1), "dr1"), ((.director, "targets", -1), "dt1"),
   ((.image, "root", 1), "ir1"), ((.image, "timestamp", -1), "its8"),
   ((.image, "snapshot", -1), "isn8")]

/-- A server offering an OSTree commit for the Secondary `e2`. -/
def commit : List ((Repo × String × Int) × String) :=
  [((.director, "root", 1), "dr1"), ((.director, "targets", -1), "dt6"),
   ((.image, "root", 1), "ir1"), ((.image, "timestamp", -1), "its9"),
   ((.image, "snapshot", -1), "isn9"), ((.image, "targets", -1), "it9")]

end Aktualizr.Toy
