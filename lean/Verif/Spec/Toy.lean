import Verif.Model.Tuf

/-!
# A toy environment for the concrete witnesses

Used only to show that hypotheses of theorems are satisfiable and to exhibit
counterexamples.  Signatures, hashes and canonical texts are symbolic.
-/

namespace Aktualizr.Toy

/-- Canonical text of a toy document or signed part: its `id` member. -/
def canon : Json → String
  | .obj kvs => match kvs.lookup "id" with
    | some (.str s) => s
    | _ => "?"
  | _ => "?"

/-- Environment in which the documents `docs` exist. A signature of key `k` over `m` is the
text `k:m`; the hash of `m` is `#m`. -/
def env (docs : List (String × Json)) : Env where
  parseJson s := (docs.lookup s).getD .null
  canon := canon
  rsaType _ := .unknown
  ed25519Verify k sig m := sig == k ++ ":" ++ m
  rsaVerify _ _ _ := false
  sha256 m := "#" ++ m
  sha512 m := "##" ++ m
  fnmatch pattern name := pattern == "*" || pattern == name

/-- A key entry. -/
def key (pub : String) : Json :=
  .obj [("keytype", .str "ED25519"), ("keyval", .obj [("public", .str pub)])]

/-- A role entry. -/
def role (threshold : Int) (kids : List String) : Json :=
  .obj [("threshold", .int threshold), ("keyids", .arr (kids.map .str))]

/-- A signature entry: key id, public key, message. -/
def sig (kid pub msg : String) : Json :=
  .obj [("keyid", .str kid), ("method", .str "ed25519"), ("sig", .str (pub ++ ":" ++ msg))]

/-- A signed document with signed members `body`, canonical text `id`, signed by the
(key id, public key) pairs. -/
def doc (id : String) (body : List (String × Json)) (signers : List (String × String)) : Json :=
  .obj [("id", .str (id ++ "!")), ("signed", .obj (("id", .str id) :: body)),
        ("signatures", .arr (signers.map (fun p => sig p.1 p.2 id)))]

/-- The common members. -/
def common (type : String) (version : Int) : List (String × Json) :=
  [("_type", .str type), ("version", .int version), ("expires", .str "2030-01-01T00:00:00Z")]

/-- A Root body: every role signed by `kids` (key id, public key) with threshold `t`. -/
def rootBody (version t : Int) (kids : List (String × String)) : List (String × Json) :=
  common "Root" version ++
  [("keys", .obj (kids.map (fun p => (p.1, key p.2)))),
   ("roles", .obj [("root", role t (kids.map Prod.fst)), ("targets", role t (kids.map Prod.fst)),
      ("snapshot", role t (kids.map Prod.fst)), ("timestamp", role t (kids.map Prod.fst))])]

end Aktualizr.Toy
