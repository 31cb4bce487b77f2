import Verif.Model.Tuf

/-!
# Specification: what "signed to threshold" means

Written without any of the model's verification functions; it only looks at the document,
the trusted key table and the signature primitive.
-/

namespace Aktualizr.Spec

/-- The text found under `k` in a JSON object. -/
def textAt (j : Json) (k t : String) : Prop := ∃ v, j.get k = .ok v ∧ v.asString = .ok t

/-- Signature text `text` over `msg` is valid under `key`: the key has a supported type and the
signature primitive of that type accepts it. -/
def ValidUnder (env : Env) (key : PublicKey) (text msg : String) : Prop :=
  (key.type = .ed25519 ∧ env.ed25519Verify key.value text msg = true) ∨
  (key.type ∈ [KeyType.rsa2048, .rsa3072, .rsa4096] ∧ env.rsaVerify key.value text msg = true)

/-- Signature entry `sig` carries key id `kid`; the trusted table knows that key, authorises
it for `role`, and its signature text verifies over `msg`. -/
def GoodSignature (env : Env) (trusted : MetaWithKeys) (role msg : String) (sig : Json) (kid : String) : Prop :=
  ∃ key text, textAt sig "keyid" kid ∧ trusted.keys.lookup kid = some key ∧
    (role, kid) ∈ trusted.keysForRole ∧ textAt sig "sig" text ∧
    ValidUnder env key text msg

/-- `doc` is signed for `role` to the trusted threshold: there are at least `threshold`
*different* key ids with a good signature over the canonical form of the signed part. -/
def SignedToThreshold (env : Env) (trusted : MetaWithKeys) (role : String) (doc : Json) : Prop :=
  ∃ (signed sigs : Json) (t : Int) (kids : List String),
    doc.get "signed" = .ok signed ∧ doc.get "signatures" = .ok sigs ∧
    trusted.thresholds.lookup role = some t ∧ 1 ≤ t ∧ t ≤ 1000 ∧
    kids.Nodup ∧ t ≤ (kids.length : Int) ∧
    ∀ kid ∈ kids, ∃ sig ∈ sigs.elems, GoodSignature env trusted role (env.canon signed) sig kid

/-- The declared type of `doc` (case-insensitively) is the one expected for `role`:
its own name, or "targets" for a delegated role. -/
def DeclaresType (role : Role) (doc : Json) : Prop :=
  ∃ signed t, doc.get "signed" = .ok signed ∧ textAt signed "_type" t ∧
    lower t = (if role.kind = .delegation then "targets" else role.name)

/-- Every signature entry names a key id and a supported method and has a readable signature
text, and no two entries carry the same key id. -/
def WellFormedSignatures (doc : Json) : Prop :=
  ∃ sigs : Json, doc.get "signatures" = .ok sigs ∧
    (∀ sig ∈ sigs.elems, (∃ kid, textAt sig "keyid" kid) ∧ (∃ t, textAt sig "sig" t) ∧
      ∃ m, textAt sig "method" m ∧ lower m ∈ ["rsassa-pss", "rsassa-pss-sha256", "ed25519"]) ∧
    sigs.elems.Pairwise (fun a b => ∀ k, textAt a "keyid" k → ¬ textAt b "keyid" k)

/-- The roles documents are verified for: the four top-level roles and delegations. -/
def ProperRole (role : Role) : Prop :=
  role ∈ [Role.root, Role.snapshot, Role.targets, Role.timestamp] ∨ role.kind = .delegation

end Aktualizr.Spec

namespace Aktualizr.Spec

/-- Root document `doc` lists key id `kid` with the key material `kj`. -/
def RootListsKey (doc : Json) (kid : String) (kj : Json) : Prop :=
  ∃ signed keys, doc.get "signed" = .ok signed ∧ signed.get "keys" = .ok keys ∧ (kid, kj) ∈ keys.entries

/-- Root document `doc` has an entry `rj` for the top-level role called `role`. -/
def RootListsRole (doc : Json) (role : String) (rj : Json) : Prop :=
  ∃ signed roles name, doc.get "signed" = .ok signed ∧ signed.get "roles" = .ok roles ∧
    (name, rj) ∈ roles.entries ∧ lower name = role

/-- `key` is the key that the key entry `kj` of a Root describes: its type is the one named there
and its value the public part; an entry that cannot be understood gives a key of unknown type,
under which nothing verifies. -/
def DescribesKey (env : Env) (kj : Json) (key : PublicKey) : Prop :=
  key.type ≠ .unknown → ∃ type val, textAt kj "keytype" type ∧ kj.get "keyval" = .ok val ∧
    textAt val "public" key.value ∧
    ((lower type = "ed25519" ∧ key.type = .ed25519) ∨ (lower type = "rsa" ∧ key.type = env.rsaType key.value))

end Aktualizr.Spec
