import Verif.Model.Json

/-!
# TUF / Uptane metadata objects

Models `src/libaktualizr/uptane/{tuf.h,tuf.cc,role.cc,metawithkeys.cc,root.cc}` and the
parts of `include/libaktualizr/types.h`, `utilities/types.cc`, `crypto/crypto.cc` they use.
-/

namespace Aktualizr

/-! ## Environment: cryptography, JSON text, hashing -/

/-- `KeyType` (include/libaktualizr/types.h:40-51). -/
inductive KeyType where
  | ed25519 | rsa2048 | rsa3072 | rsa4096 | unknown
  deriving DecidableEq, Repr

/-- `PublicKey` (include/libaktualizr/types.h:119-152). -/
structure PublicKey where
  value : String
  type : KeyType
  deriving DecidableEq, Repr

/-- External functions the model is parameterised by.
* `parseJson` is `Utils::parseJSON` (utilities/utils.cc), `null` on malformed text;
* `canon` is `Utils::jsonToCanonicalStr`;
* `rsaType` is `Crypto::IdentifyRSAKeyType`;
* `ed25519Verify key sig msg` and `rsaVerify key sig msg` are
  `Crypto::ED25519Verify(unhex(key), fromBase64(sig), msg)` and
  `Crypto::RSAPSSVerify(key, fromBase64(sig), msg)` (crypto/crypto.cc:72-83);
* `fnmatch pattern name` is `fnmatch(3)` returning 0;
* `sha256`/`sha512` are `boost::algorithm::hex(Crypto::sha256digest(..))` etc.
Theorems quantify over all of them. Simplification: they are total functions, i.e. an
exception or undefined behaviour inside base64/hex decoding is not visible here
(base64 decoding is modelled on its own in `Model/Base64.lean`). -/
structure Env where
  parseJson : String → Json
  canon : Json → String
  rsaType : String → KeyType
  ed25519Verify : String → String → String → Bool
  rsaVerify : String → String → String → Bool
  sha256 : String → String
  sha512 : String → String
  fnmatch : String → String → Bool

/-! ## Timestamps -/

/-- `TimeStamp` (types.h:188-212): the stored text; empty means invalid. -/
structure TimeStamp where
  time : String
  deriving DecidableEq, Repr

/-- `TimeStamp::TimeStamp(std::string)` (utilities/types.cc:43-48). A 20-byte text has byte 19
equal to 'Z' exactly when its last character is 'Z'. -/
def TimeStamp.parse (s : String) : Option TimeStamp :=
  if s.utf8ByteSize != 20 || s.toList.getLast? != some 'Z' then none else some ⟨s⟩

/-- `TimeStamp::IsValid` (utilities/types.cc:52). -/
def TimeStamp.isValid (t : TimeStamp) : Bool := t.time != ""

/-- `std::string::operator<`, lexicographic. Bytes are compared as unsigned values; on UTF-8
text that is the order of the code points. -/
def ltChars : List Char → List Char → Bool
  | [], [] => false
  | [], _ :: _ => true
  | _ :: _, [] => false
  | a :: as, b :: bs => if a.toNat < b.toNat then true else if b.toNat < a.toNat then false else ltChars as bs

/-- `TimeStamp::operator<` (utilities/types.cc:64). -/
def TimeStamp.lt (a b : TimeStamp) : Bool := a.isValid && b.isValid && ltChars a.time.toList b.time.toList

/-- `TimeStamp::IsExpiredAt` (utilities/types.cc:54-62). -/
def TimeStamp.isExpiredAt (t now : TimeStamp) : Bool :=
  if !t.isValid then true else if !now.isValid then true else t.lt now

/-! ## Hashes -/

/-- `Hash::Type` (types.h:162), in priority order. -/
inductive HashType where
  | sha256 | sha512 | unknown
  deriving DecidableEq, Repr

/-- The numeric value of the enumerator, used for sorting (tuf.cc:100). -/
def HashType.toNat : HashType → Nat
  | .sha256 => 0 | .sha512 => 1 | .unknown => 2

/-- `Hash` (types.h:159-183); `hash` is upper case by construction. -/
structure Hash where
  type : HashType
  hash : String
  deriving DecidableEq, Repr

/-- `Hash::Hash(const std::string &type, const std::string &hash)` (crypto/crypto.cc:706-714). -/
def Hash.ofStrings (type hash : String) : Hash :=
  { type := if type = "sha512" then .sha512 else if type = "sha256" then .sha256 else .unknown
    hash := upper hash }

/-- `Hash::Hash(Type, const std::string &)` (crypto/crypto.cc:716). -/
def Hash.mk' (type : HashType) (hash : String) : Hash := { type := type, hash := upper hash }

/-- `Hash::HaveAlgorithm` (types.h:168). -/
def Hash.haveAlgorithm (h : Hash) : Bool := h.type != .unknown

/-! ## Roles -/

/-- `Role::RoleEnum` (tuf.h:94). -/
inductive RoleKind where
  | root | snapshot | targets | timestamp | delegation | invalid
  deriving DecidableEq, Repr

/-- `Role` (tuf.h:61-113). C++ equality and ordering use `name` only (tuf.h:85-87), so maps
keyed by roles are keyed by names in the model. -/
structure Role where
  kind : RoleKind
  name : String
  deriving DecidableEq, Repr

namespace Role
/-- tuf.h:68. -/
def root : Role := ⟨.root, "root"⟩
/-- tuf.h:69. -/
def snapshot : Role := ⟨.snapshot, "snapshot"⟩
/-- tuf.h:70. -/
def targets : Role := ⟨.targets, "targets"⟩
/-- tuf.h:71. -/
def timestamp : Role := ⟨.timestamp, "timestamp"⟩
/-- tuf.h:73,105-108. -/
def invalid : Role := ⟨.invalid, "invalidrole"⟩

/-- `Role::IsReserved` (tuf.h:77-79). -/
def isReserved (name : String) : Bool :=
  name == "root" || name == "targets" || name == "snapshot" || name == "timestamp"

/-- `Role::Role(role_name, false)` (role.cc:13-35, non-delegation branches). -/
def ofName (n : String) : Role :=
  let l := lower n
  if l = "root" then ⟨.root, l⟩
  else if l = "snapshot" then ⟨.snapshot, l⟩
  else if l = "targets" then ⟨.targets, l⟩
  else if l = "timestamp" then ⟨.timestamp, l⟩
  else Role.invalid

/-- `Role::Delegation(name)` = `Role(name, true)` (role.cc:17-22): reserved names throw. -/
def delegation (n : String) : Except Err Role :=
  if isReserved (lower n) then .error (.upt .reservedRoleName) else .ok ⟨.delegation, n⟩

/-- `Role::IsDelegation` (tuf.h:84). -/
def isDelegation (r : Role) : Bool := r.kind == .delegation
end Role

/-- `RepositoryType` (tuf.h:21-55). -/
inductive Repo where
  | image | director
  deriving DecidableEq, Repr

/-! ## `PublicKey` -/

/-- `PublicKey::PublicKey(const Json::Value &)` (crypto/crypto.cc:20-62). Any exception
inside becomes the unknown key type. -/
def PublicKey.ofJson (env : Env) (j : Json) : PublicKey :=
  let unknown : PublicKey := ⟨"", .unknown⟩
  match j.get "keytype", j.get "keyval" with
  | .ok (.str keytype), .ok (.obj kv) =>
    match Json.get (.obj kv) "public" with
    | .ok (.str keyvalue) =>
      let kt := lower keytype
      if kt = "ed25519" then ⟨keyvalue, .ed25519⟩
      else if kt = "rsa" then ⟨keyvalue, env.rsaType keyvalue⟩
      else ⟨keyvalue, .unknown⟩
    | _ => unknown
  | _, _ => unknown

/-- `PublicKey::VerifySignature` (crypto/crypto.cc:72-83). -/
def PublicKey.verifySignature (env : Env) (k : PublicKey) (signature message : String) : Bool :=
  match k.type with
  | .ed25519 => env.ed25519Verify k.value signature message
  | .rsa2048 => env.rsaVerify k.value signature message
  | .rsa3072 => env.rsaVerify k.value signature message
  | .rsa4096 => env.rsaVerify k.value signature message
  | .unknown => false

/-! ## `MetaWithKeys` -/

/-- `MetaWithKeys` (tuf.h:161-213) together with its `BaseMeta` fields (tuf.h:153-155).
`std::map`s are association lists in which the first hit counts. `original_object_` is
omitted (it is only handed out, never read by the modelled code). -/
structure MetaWithKeys where
  version : Int := 0
  expiry : TimeStamp := ⟨""⟩
  keys : List (String × PublicKey) := []
  keysForRole : List (String × String) := []
  thresholds : List (String × Int) := []

/-- `kMinSignatures` (tuf.h:207). -/
def kMinSignatures : Int := 1
/-- `kMaxSignatures` (tuf.h:208). -/
def kMaxSignatures : Int := 1000

/-- `BaseMeta::init` (tuf.cc:298-311), returning (version, expiry). -/
def baseInit (j : Json) : Except Err (Int × TimeStamp) := do
  throwIf (!j.isObject) (.upt (.invalidMetadata ""))
  throwIf (!(← j.isMember "signed")) (.upt (.invalidMetadata ""))
  let s ← j.get "signed"
  let version ← (← s.get "version").asInt
  let e ← (← s.get "expires").asString
  match TimeStamp.parse e with
  | none => throw (.upt (.invalidMetadata ""))
  | some t => return (version, t)

/-- Loop of `MetaWithKeys::ParseKeys` (metawithkeys.cc:12-22). -/
def parseKeysLoop (env : Env) (m : MetaWithKeys) : List (String × Json) → Except Err MetaWithKeys
  | [] => .ok m
  | (keyid, j) :: rest => do
    let kt ← (← j.get "keytype").asString
    throwIf (lower kt != "rsa" && lower kt != "ed25519") (.upt (.security "Unsupported key type"))
    parseKeysLoop env { m with keys := (keyid, PublicKey.ofJson env j) :: m.keys } rest

/-- `MetaWithKeys::ParseKeys` (metawithkeys.cc:12-22). -/
def parseKeys (env : Env) (m : MetaWithKeys) (keys : Json) : Except Err MetaWithKeys :=
  parseKeysLoop env m keys.entries

/-- The key id loop of `ParseRole` (metawithkeys.cc:52-55). -/
def parseKeyIds (role : Role) : List (String × String) → List Json → Except Err (List (String × String))
  | acc, [] => .ok acc
  | acc, k :: ks => do parseKeyIds role ((role.name, ← k.asString) :: acc) ks

/-- `MetaWithKeys::ParseRole` (metawithkeys.cc:24-56). -/
def parseRole (m : MetaWithKeys) (j : Json) (role : Role) : Except Err MetaWithKeys :=
  if role.name = Role.invalid.name then .ok m
  else do
    let threshold ← (← j.get "threshold").asInt64
    throwIf (threshold < kMinSignatures) (.upt .illegalThreshold)
    throwIf (kMaxSignatures < threshold) (.upt .illegalThreshold)
    let keyids ← j.get "keyids"
    let kfr ← parseKeyIds role m.keysForRole keyids.elems
    return { m with thresholds := (role.name, threshold) :: m.thresholds, keysForRole := kfr }

/-- The signature methods accepted (metawithkeys.cc:89). -/
def supportedMethod (method : String) : Bool :=
  method == "rsassa-pss" || method == "rsassa-pss-sha256" || method == "ed25519"

/-- The signature loop of `UnpackSignedObject` (metawithkeys.cc:78-108): `used` are the key
ids seen so far, `valid` the number of valid signatures so far. -/
def sigLoop (env : Env) (m : MetaWithKeys) (role : Role) (canonical : String) :
    List String → Nat → List Json → Except Err Nat
  | _, valid, [] => .ok valid
  | used, valid, sig :: rest => do
    let keyid ← (← sig.get "keyid").asString
    throwIf (used.contains keyid) (.upt (.nonUniqueSignatures role.name))
    let method ← (← sig.get "method").asString
    throwIf (!supportedMethod (lower method)) (.upt (.security "Unsupported sign method"))
    match m.keys.lookup keyid with
    | none => sigLoop env m role canonical (keyid :: used) valid rest
    | some key =>
      if !m.keysForRole.contains (role.name, keyid) then
        sigLoop env m role canonical (keyid :: used) valid rest
      else do
        let signature ← (← sig.get "sig").asString
        if key.verifySignature env signature canonical then
          sigLoop env m role canonical (keyid :: used) (valid + 1) rest
        else
          sigLoop env m role canonical (keyid :: used) valid rest

/-- `MetaWithKeys::UnpackSignedObject` (metawithkeys.cc:58-121). -/
def unpackSignedObject (env : Env) (m : MetaWithKeys) (role : Role) (obj : Json) : Except Err Unit := do
  let s ← obj.get "signed"
  let type := Role.ofName (← (← s.get "_type").asString)
  throwIf (if role.isDelegation then type.name != Role.targets.name else role.name != type.name)
    (.upt (.security "Metadata type does not match expected role"))
  let canonical := env.canon s
  let signatures ← obj.get "signatures"
  let valid ← sigLoop env m role canonical [] 0 signatures.elems
  let threshold : Int := (m.thresholds.lookup role.name).getD 0
  throwIf (threshold < kMinSignatures || kMaxSignatures < threshold) (.upt .illegalThreshold)
  throwIf (signatures.size = 1 && valid = 0) (.upt .badKeyId)
  throwIf ((valid : Int) < threshold) (.upt (.unmetThreshold role.name))
  return ()

/-- `BaseMeta::BaseMeta(repo, role, json, signer)` (tuf.cc:314-323). -/
def baseMetaSigned (env : Env) (role : Role) (j : Json) (signer : MetaWithKeys) : Except Err (Int × TimeStamp) := do
  throwIf (!j.isObject) (.upt (.invalidMetadata ""))
  throwIf (!(← j.isMember "signed")) (.upt (.invalidMetadata ""))
  unpackSignedObject env signer role j
  baseInit j

/-! ## `Root` -/

/-- `MetaWithKeys::Policy` (tuf.h:163). -/
inductive Policy where
  | rejectAll | acceptAll | check
  deriving DecidableEq, Repr

/-- `Root` (tuf.h:216-256). -/
structure Root where
  base : MetaWithKeys := {}
  policy : Policy := .rejectAll

/-- The role loop of `Root::Root(repo, json)` (root.cc:22-26). -/
def rootRolesLoop (m : MetaWithKeys) : List (String × Json) → Except Err MetaWithKeys
  | [] => .ok m
  | (name, j) :: rest => do rootRolesLoop (← parseRole m j (Role.ofName name)) rest

/-- `Root::Root(repo, json)` (root.cc:12-27). -/
def Root.ofJson (env : Env) (j : Json) : Except Err Root := do
  let (version, expiry) ← baseInit j
  let s ← j.get "signed"
  throwIf (!(← s.isMember "keys")) (.upt (.invalidMetadata "root"))
  throwIf (!(← s.isMember "roles")) (.upt (.invalidMetadata "root"))
  let m : MetaWithKeys := { version := version, expiry := expiry }
  let m ← parseKeys env m (← s.get "keys")
  let m ← rootRolesLoop m (← s.get "roles").entries
  return { base := m, policy := .check }

/-- `Root::UnpackSignedObject` (root.cc:29-41). -/
def Root.unpackSignedObject (env : Env) (r : Root) (role : Role) (obj : Json) : Except Err Unit :=
  match r.policy with
  | .acceptAll => .ok ()
  | .rejectAll => .error (.upt (.security "Root policy is Policy::kRejectAll"))
  | .check => Aktualizr.unpackSignedObject env r.base role obj

/-- `Root::Root(repo, json, root)` (root.cc:7-10): parse, then check the signatures under the
given (old) Root and under the new one. -/
def Root.ofJsonSigned (env : Env) (j : Json) (old : Root) : Except Err Root := do
  let r ← Root.ofJson env j
  old.unpackSignedObject env Role.root j
  r.unpackSignedObject env Role.root j
  return r

/-! ## `Target` -/

/-- `Target` (types.h:379-444). `ecus` is a `std::map`, listed in key order. -/
structure Target where
  valid : Bool := true
  filename : String
  type : String := ""
  ecus : List (String × String) := []
  hashes : List Hash := []
  hwids : List String := []
  custom : Json := .null
  length : Nat := 0
  correlationId : String := ""
  uri : String := ""

/-- `HardwareIdentifier::HardwareIdentifier` (types.h:322-329). -/
def mkHwId (s : String) : Except Err String :=
  if 200 < s.utf8ByteSize then .error (.std "Hardware Identifier too long") else .ok s

/-- `EcuSerial::EcuSerial` (types.h:353-360). -/
def mkEcuSerial (s : String) : Except Err String :=
  if s.utf8ByteSize < 1 then .error (.std "ECU serial identifier is too short")
  else if 64 < s.utf8ByteSize then .error (.std "ECU serial identifier is too long") else .ok s

/-- Insertion into a list sorted by hash type, after equal elements (tuf.cc:100,141). -/
def insertHash (h : Hash) : List Hash → List Hash
  | [] => [h]
  | x :: xs => if h.type.toNat < x.type.toNat then h :: x :: xs else x :: insertHash h xs

/-- `std::sort` of hashes by type (tuf.cc:100,141). Simplification: stable insertion sort
(`std::sort` leaves the order of equal elements unspecified). -/
def sortHashes : List Hash → List Hash
  | [] => []
  | x :: xs => insertHash x (sortHashes xs)

/-- Loop over `hardwareIds` (tuf.cc:109-111). -/
def parseHwids : List Json → Except Err (List String)
  | [] => .ok []
  | j :: js => do
    let h ← mkHwId (← j.asString)
    return h :: (← parseHwids js)

/-- Loop over `ecuIdentifiers` (tuf.cc:116-118). -/
def parseEcus : List (String × Json) → Except Err (List (String × String))
  | [] => .ok []
  | (k, j) :: js => do
    let e ← mkEcuSerial k
    let h ← mkHwId (← (← j.get "hardwareId").asString)
    return (e, h) :: (← parseEcus js)

/-- Loop over `hashes` (tuf.cc:93-98, 382-385, 431-434) keeping every hash. -/
def parseHashes : List (String × Json) → Except Err (List Hash)
  | [] => .ok []
  | (k, j) :: js => do
    let h := Hash.ofStrings k (← j.asString)
    return h :: (← parseHashes js)

/-- `EcuMap::insert` (tuf.cc:117): `std::map` keeps keys sorted and does not replace an
existing entry. -/
def insertEcu (e : String × String) : List (String × String) → List (String × String)
  | [] => [e]
  | x :: xs =>
    if e.1 = x.1 then x :: xs
    else if ltChars e.1.toList x.1.toList then e :: x :: xs
    else x :: insertEcu e xs

/-- `Target::updateCustom` (tuf.cc:103-131). -/
def Target.updateCustom (t : Target) (custom : Json) : Except Err Target := do
  let hwids ← (if ← custom.isMember "hardwareIds" then do parseHwids (← custom.get "hardwareIds").elems
               else pure [])
  let ecus ← parseEcus (← custom.get "ecuIdentifiers").entries
  let type ← (if ← custom.isMember "targetFormat" then do (← custom.get "targetFormat").asString
              else pure t.type)
  let uri ← (if ← custom.isMember "uri" then do
               let u ← (← custom.get "uri").asString
               pure (if u != "https://example.com/" then u else t.uri)
             else pure t.uri)
  return { t with custom := custom, hwids := t.hwids ++ hwids, ecus := ecus.foldl (fun m e => insertEcu e m) t.ecus, type := type, uri := uri }

/-- `Target::Target(filename, content)` (tuf.cc:85-101). -/
def Target.ofJson (filename : String) (content : Json) : Except Err Target := do
  let t : Target := { filename := filename }
  let t ← (if ← content.isMember "custom" then do t.updateCustom (← content.get "custom") else pure t)
  let length ← (← content.get "length").asUInt64
  let hashes ← parseHashes (← content.get "hashes").entries
  return { t with length := length.toNat, hashes := sortHashes (hashes.filter Hash.haveAlgorithm) }

/-- `Target::MatchHash` (tuf.cc:156-158). -/
def Target.matchHash (t : Target) (h : Hash) : Bool := t.hashes.contains h

/-- `Target::hashString` (tuf.cc:160-168). -/
def Target.hashString (t : Target) (ty : HashType) : String :=
  match t.hashes.find? (fun h => h.type == ty) with
  | some h => lower h.hash
  | none => ""

/-- `Target::sha256Hash` (tuf.cc:170). -/
def Target.sha256Hash (t : Target) : String := t.hashString .sha256

/-- `Target::sha512Hash` (tuf.cc:172). -/
def Target.sha512Hash (t : Target) : String := t.hashString .sha512

/-- `Target::IsOstree` (tuf.cc:183-197). -/
def Target.isOstree (t : Target) : Bool :=
  if t.type = "OSTREE" then true else if t.type = "" && t.length = 0 then true else false

/-- `Target::IsForEcu` (types.h:408-413). -/
def Target.isForEcu (t : Target) (ecu : String) : Bool := t.ecus.any (fun p => p.1 == ecu)

/-- The ECU/hardware id rule of `MatchTarget` (tuf.cc:218-236). -/
def matchHwids (t t2 : Target) : Bool :=
  if t.hwids ≠ t2.hwids ∨ t.ecus ≠ t2.ecus then
    if t.hwids ≠ [] ∧ t.ecus = [] ∧ t2.hwids = [] ∧ t2.ecus ≠ [] then
      t2.ecus.all (fun p => t.hwids.contains p.2)
    else if t2.hwids ≠ [] ∧ t2.ecus = [] ∧ t.hwids = [] ∧ t.ecus ≠ [] then
      t.ecus.all (fun p => t2.hwids.contains p.2)
    else false
  else true

/-- The hash loops of `MatchTarget` (tuf.cc:241-252), `one` is `oneMatchingHash`. Inner loop. -/
def matchHashInner (h : Hash) (one : Bool) : List Hash → Option Bool
  | [] => some one
  | h2 :: rest =>
    if h.type = h2.type ∧ ¬ (h = h2) then none
    else matchHashInner h (if h = h2 then true else one) rest

/-- Outer hash loop of `MatchTarget` (tuf.cc:242-252). -/
def matchHashLoop (hs2 : List Hash) (one : Bool) : List Hash → Bool
  | [] => one
  | h :: rest =>
    match matchHashInner h one hs2 with
    | none => false
    | some one' => matchHashLoop hs2 one' rest

/-- `Target::MatchTarget` (tuf.cc:199-253). -/
def Target.matchTarget (t t2 : Target) : Bool :=
  if t.filename ≠ t2.filename then false
  else if t.length ≠ t2.length then false
  else if !matchHwids t t2 then false
  else matchHashLoop t2.hashes false t.hashes

/-! ## `Targets` -/

/-- `Targets` (tuf.h:271-317). -/
structure Targets where
  base : MetaWithKeys := {}
  targets : List Target := []
  delegatedRoleNames : List String := []
  pathsForRole : List (String × List String) := []
  terminatingRole : List (String × Bool) := []
  correlationId : String := ""

/-- Loop over `targets` (tuf.cc:330-334). -/
def parseTargetList : List (String × Json) → Except Err (List Target)
  | [] => .ok []
  | (k, j) :: js => do
    let t ← Target.ofJson k j
    return t :: (← parseTargetList js)

/-- Loop over `paths` (tuf.cc:349-351). -/
def parsePaths : List Json → Except Err (List String)
  | [] => .ok []
  | j :: js => do
    let p ← j.asString
    return p :: (← parsePaths js)

/-- Loop over delegation `roles` (tuf.cc:341-355). -/
def parseDelegRoles (ts : Targets) : List Json → Except Err Targets
  | [] => .ok ts
  | j :: js => do
    let name ← (← j.get "name").asString
    let role ← Role.delegation name
    let m ← parseRole ts.base j role
    let paths ← parsePaths (← j.get "paths").elems
    let term ← (← j.get "terminating").asBool
    parseDelegRoles { ts with
      base := m
      delegatedRoleNames := ts.delegatedRoleNames ++ [name]
      pathsForRole := (name, paths) :: ts.pathsForRole
      terminatingRole := (name, term) :: ts.terminatingRole } js

/-- `Targets::init` (tuf.cc:325-363), starting from the base fields. -/
def targetsInit (env : Env) (m : MetaWithKeys) (j : Json) : Except Err Targets := do
  throwIf (!j.isObject) (.upt (.invalidMetadata "targets"))
  let s ← j.get "signed"
  throwIf (!(← s.get "_type").isStr "Targets") (.upt (.invalidMetadata "targets"))
  let tl ← parseTargetList (← s.get "targets").entries
  let ts : Targets := { base := m, targets := tl }
  let d ← s.get "delegations"
  let ts ← (if d.isObject then do
      let m ← parseKeys env ts.base (← d.get "keys")
      parseDelegRoles { ts with base := m } (← d.get "roles").elems
    else pure ts)
  let c ← s.get "custom"
  let cid ← (if c.isObject then do (← c.get "correlationId").asString else pure "")
  return { ts with correlationId := cid }

/-- `Targets::Targets(repo, role, json, signer)` (tuf.cc:367-371). -/
def Targets.ofJsonSigned (env : Env) (role : Role) (j : Json) (signer : MetaWithKeys) : Except Err Targets := do
  let (version, expiry) ← baseMetaSigned env role j signer
  targetsInit env { version := version, expiry := expiry } j

/-- `Targets::getTargets(ecu_id, hw_id)` (tuf.h:291-305). -/
def Targets.getTargets (ts : Targets) (ecu hw : String) : List Target :=
  ts.targets.filter (fun t => t.ecus.any (fun p => p.1 == ecu && p.2 == hw))

/-! ## `TimestampMeta` and `Snapshot` -/

/-- `TimestampMeta` (tuf.h:319-334) with defaults of `BaseMeta` (version -1). -/
structure TimestampMeta where
  version : Int := -1
  expiry : TimeStamp := ⟨""⟩
  snapshotHashes : List Hash := []
  snapshotSize : Int := 0
  snapshotVersion : Int := -1
  deriving DecidableEq

/-- `TimestampMeta::TimestampMeta(repo, json, signer)` (tuf.cc:373-396). -/
def TimestampMeta.ofJsonSigned (env : Env) (j : Json) (signer : MetaWithKeys) : Except Err TimestampMeta := do
  let (version, expiry) ← baseMetaSigned env Role.timestamp j signer
  let s ← j.get "signed"
  let sj ← (← s.get "meta").get "snapshot.json"
  let hashes ← sj.get "hashes"
  let size ← sj.get "length"
  let ver ← sj.get "version"
  throwIf (!(← s.get "_type").isStr "Timestamp" || !hashes.isObject || !size.isIntegral || !ver.isIntegral) (.upt (.invalidMetadata "timestamp"))
  let hs ← parseHashes hashes.entries
  let size ← size.asInt
  let ver ← ver.asInt
  return { version := version, expiry := expiry, snapshotHashes := hs, snapshotSize := size, snapshotVersion := ver }

/-- `Snapshot` (tuf.h:336-354). -/
structure Snapshot where
  version : Int := -1
  expiry : TimeStamp := ⟨""⟩
  roleSize : List (String × Int) := []
  roleVersion : List (String × Int) := []
  roleHashes : List (String × List Hash) := []
  deriving DecidableEq

/-- `name.substr(0, name.rfind('.'))` (tuf.cc:413-414): drops the last extension, the whole
name if there is no dot. -/
def stripExtension (name : String) : String :=
  let cs := name.toList.reverse
  if cs.contains '.' then String.ofList ((cs.dropWhile (· != '.')).drop 1).reverse else name

/-- Loop of `Snapshot::init` (tuf.cc:404-436). `role_size_` is an integer only when the JSON
`length` is an *object* (tuf.cc:425), in which case `asInt64` throws; so it is always -1. -/
def snapshotLoop (sn : Snapshot) : List (String × Json) → Except Err Snapshot
  | [] => .ok sn
  | (k, j) :: rest => do
    let hashes ← j.get "hashes"
    let size ← j.get "length"
    let ver ← j.get "version"
    throwIf (!ver.isIntegral) (.upt (.invalidMetadata "snapshot"))
    let name := stripExtension k
    let role ← (if Role.isReserved name then pure (Role.ofName name) else Role.delegation name)
    let v ← ver.asInt
    let sz ← (if size.isObject then size.asInt64 else pure (-1))
    let hs ← (if hashes.isObject then parseHashes hashes.entries else pure [])
    let rh := if hashes.isObject && hs ≠ [] then
        (role.name, ((sn.roleHashes.lookup role.name).getD []) ++ hs) :: sn.roleHashes
      else sn.roleHashes
    snapshotLoop { sn with roleVersion := (role.name, v) :: sn.roleVersion
                           roleSize := (role.name, sz) :: sn.roleSize
                           roleHashes := rh } rest

/-- `Snapshot::Snapshot(repo, json, signer)` (tuf.cc:398-444). -/
def Snapshot.ofJsonSigned (env : Env) (j : Json) (signer : MetaWithKeys) : Except Err Snapshot := do
  let (version, expiry) ← baseMetaSigned env Role.snapshot j signer
  let s ← j.get "signed"
  let ml ← s.get "meta"
  throwIf (!(← s.get "_type").isStr "Snapshot" || !ml.isObject) (.upt (.invalidMetadata "snapshot"))
  snapshotLoop { version := version, expiry := expiry } ml.entries

/-- `Snapshot::role_hashes` (tuf.cc:446-453). -/
def Snapshot.hashesOf (s : Snapshot) (role : Role) : List Hash := (s.roleHashes.lookup role.name).getD []
/-- `Snapshot::role_size` (tuf.cc:455-462). -/
def Snapshot.sizeOf (s : Snapshot) (role : Role) : Int := (s.roleSize.lookup role.name).getD 0
/-- `Snapshot::role_version` (tuf.cc:464-471). -/
def Snapshot.versionOf (s : Snapshot) (role : Role) : Int := (s.roleVersion.lookup role.name).getD (-1)

/-- `Uptane::extractVersionUntrusted` (tuf.cc:473-480). -/
def extractVersionUntrusted (env : Env) (raw : String) : Except Err Int := do
  let v ← (← (env.parseJson raw).get "signed").get "version"
  if !v.isIntegral then return -1
  v.asInt

end Aktualizr
