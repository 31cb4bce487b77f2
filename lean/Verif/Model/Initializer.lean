import Verif.Model.Monad
import Verif.Model.Tuf

/-!
# Provisioning: device id, TLS credentials, Uptane keys, registration of the ECUs

Models `primary/initializer.cc`, the parts of `crypto/keymanager.cc` it uses, the tables
`device_info`, `tls_creds`, `primary_keys`, `ecus`, `secondary_ecus`, `misconfigured_ecus` and
`ecu_report_counter` (storage/sqlstorage.cc:74-325, 733-828, 873-967, 1006-1055, 1512-1561) and
`importData` (storage/invstorage.cc:10-145).

Not modelled: PKCS#11 (all sources are files, i.e. the database), database errors other than a
violated `UNIQUE`, the columns `extra` and `manifest` of `secondary_ecus`, the names of installed
versions that `storeEcuSerials` completes, the importing of installed versions.
-/

namespace Aktualizr.Prov

open M (gets modify throw throwWhen orThrow)

/-- `ProvisionMode`. -/
inductive Mode where
  | sharedCred
  | sharedCredReuse
  | deviceCred
  deriving DecidableEq, Repr

/-- The parts of `ProvisionConfig` and `KeyManagerConfig` in use; `hostname` is what
`Utils::getHostname` returns. -/
structure Config where
  mode : Mode := .sharedCred
  deviceId : String := ""
  primarySerial : String := ""
  primaryHwId : String := ""
  hostname : String := ""
  keyType : KeyType := .rsa2048
  deriving DecidableEq, Repr

/-- What `SecondaryInterface` answers about itself. -/
structure Secondary where
  hwId : String
  type : String
  key : PublicKey
  deriving DecidableEq, Repr

/-- Functions of OpenSSL and of the random generator: the common name of a certificate
(`extractSubjectCN`, `none`: it throws), the identifier of a key (`KeyId`), the size of an RSA key,
the n-th key generated (`none`: generation fails), the n-th random name, the contents of a PKCS#12
archive as certificate authority, certificate and key. -/
structure Env where
  cn : String → Option String
  keyId : String → String
  rsaType : String → KeyType
  newKey : Nat → Option (String × String)
  newName : Nat → String
  p12 : String → Option (String × String × String)

/-- A row of `secondary_ecus`; a `NULL` is an empty text. -/
structure SecRow where
  type : String := ""
  keyType : String := ""
  key : String := ""
  deriving DecidableEq, Repr

/-- The tables of the database, and whether the provisioning archive still has the shared
credentials in it. `device`: the id with `is_registered`. A `NULL` in `tls_creds` or a missing row
is `none`. `ecus` is in the order of `id`, the Primary first. -/
structure Store where
  device : Option (String × Bool) := none
  ca : Option String := none
  cert : Option String := none
  pkey : Option String := none
  keys : Option (String × String) := none
  ecus : List (String × String) := []
  secs : List (String × SecRow) := []
  misconfigured : List (String × String) := []
  counters : List (String × Int) := []
  shared : Bool := true
  deriving DecidableEq, Repr

/-- The credentials the HTTP client uses (`setCerts`). -/
inductive Creds where
  | none
  | shared
  | device (ca cert pkey : String)
  deriving DecidableEq, Repr

/-- An ECU in a registration: serial, hardware identifier, key. -/
structure Ecu where
  serial : String
  hwId : String
  key : PublicKey
  deriving DecidableEq, Repr

/-- The two requests of provisioning. -/
inductive Req where
  | device (id : String)
  | ecus (primary : String) (list : List Ecu)
  deriving DecidableEq, Repr

/-- Answers: accepted with a body, refused with the member `code` of the body if that is a text, or
refused with a body on which `getJson()["code"]` throws (a JSON array, say). -/
inductive Resp where
  | ok (body : String)
  | refused (code : Option String)
  | odd
  deriving DecidableEq, Repr

/-- A server: the answer to a request made with certain credentials, and its state afterwards. -/
abbrev Server (σ : Type) := σ → Creds → Req → Resp × σ

/-- The state of a run: storage, server, the credentials of the HTTP client, how many keys and
names were generated, the number of effects (writes and requests) before the process dies, and the
requests made with their answers. -/
structure St (σ : Type) where
  store : Store
  srv : σ
  http : Creds := .none
  drawn : Nat := 0
  fuel : Nat := 0
  log : List (Creds × Req × Resp) := []

variable {σ : Type}

abbrev P (σ α : Type) := M (St σ) α

/-- One write to the storage, or the crash in front of it. -/
def write (f : Store → Store) : P σ Unit := fun s =>
  match s.fuel with
  | 0 => (.error .crash, s)
  | k + 1 => (.ok (), { s with store := f s.store, fuel := k })

/-- `HttpInterface::post`, or the crash in front of it. -/
def post (server : Server σ) (q : Req) : P σ Resp := fun s =>
  match s.fuel with
  | 0 => (.error .crash, s)
  | k + 1 =>
    let r := server s.srv s.http q
    (.ok r.1, { s with srv := r.2, log := s.log ++ [(s.http, q, r.1)], fuel := k })

/-- A fresh number for the random generators. -/
def draw : P σ Nat := fun s => (.ok s.drawn, { s with drawn := s.drawn + 1 })

/-- A table with a unique first column. -/
def put {α : Type} (k : String) (v : α) (t : List (String × α)) : List (String × α) :=
  if t.any (fun r => r.1 == k) then t.map (fun r => if r.1 == k then (k, v) else r) else t ++ [(k, v)]

/-! ## Keys -/

/-- `PublicKey(value, type)` (crypto/crypto.cc:64-70). -/
def publicKey (env : Env) (value : String) (type : KeyType) : P σ PublicKey := do
  throwWhen (decide (type ∈ [KeyType.rsa2048, .rsa3072, .rsa4096]) && decide (type ≠ env.rsaType value))
    (.std "RSA key length is incorrect")
  pure ⟨value, type⟩

/-- `KeyManager::UptanePublicKey` (keymanager.cc:328-344). -/
def uptanePublicKey (env : Env) (cfg : Config) : P σ PublicKey := do
  let k ← gets (fun s => s.store.keys)
  let k ← orThrow k (.std "Could not get Uptane public key!")
  publicKey env k.1 cfg.keyType

/-- `KeyManager::generateUptaneKeyPair` (keymanager.cc:298-326). -/
def generateUptaneKeyPair (env : Env) : P σ String := do
  let k ← gets (fun s => s.store.keys)
  let k ← (match k with
    | some k => pure k
    | none => do
      let n ← draw
      match env.newKey n with
      | none => pure ("", "")
      | some k => do
        write (fun t => { t with keys := some k })
        pure k)
  throwWhen (k.1 == "" && k.2 == "") (.std "Could not get Uptane keys")
  pure k.1

/-- `KeyManager::getCN` (keymanager.cc:165-182). -/
def getCN (env : Env) : P σ String := do
  let c ← gets (fun s => s.store.cert)
  let c ← orThrow c (.std "Certificate is not found, can't extract device_id")
  orThrow (env.cn c) (.std "Could not parse certificate")

/-- `getPkey`, `getCert`, `getCa` (keymanager.cc:122-163): empty if there is none. -/
def tls (t : Store) : String × String × String := (t.ca.getD "", t.cert.getD "", t.pkey.getD "")

/-- `KeyManager::isOk` (keymanager.h:29). -/
def isOk (t : Store) : Bool := (tls t).2.2 != "" && (tls t).2.1 != "" && (tls t).1 != ""

/-! ## The steps -/

/-- `initDeviceId` (initializer.cc:13-40), with `storeDeviceId` (sqlstorage.cc:733-743). -/
def initDeviceId (env : Env) (cfg : Config) : P σ Unit := do
  let d ← gets (fun s => s.store.device)
  match d with
  | some _ => pure ()
  | none => do
    let id ← (if cfg.deviceId != "" then pure cfg.deviceId
      else M.catchStd (getCN env) (fun e =>
        match cfg.mode with
        | .deviceCred => throw e
        | _ => do let n ← draw; pure (env.newName n)))
    write (fun t => { t with device := some (id, false) })

/-- `resetDeviceId` (initializer.cc:42). -/
def resetDeviceId : P σ Unit := write (fun t => { t with device := none })

/-- `loadSetTlsCreds` (initializer.cc:128-131), with `copyCertsToCurl` (keymanager.cc:248-256). -/
def loadSetTlsCreds : P σ Bool := do
  let t ← gets (fun s => s.store)
  if isOk t then do
    modify (fun s => { s with http := .device (tls t).1 (tls t).2.1 (tls t).2.2 })
    pure true
  else pure false

/-- `ServerOccupied` (initializer.h:42-45). -/
def occupied : Err := .std "ServerOccupied"

/-- `initTlsCreds` (initializer.cc:133-203). The three parts of `storeTlsCreds`
(sqlstorage.cc:297-301) are separate transactions. Simplified: opening the archive succeeds exactly
if the shared credentials are in it, removing `treehub.json` from it is left out. -/
def initTlsCreds (env : Env) (server : Server σ) (cfg : Config) : P σ Unit := do
  let done ← loadSetTlsCreds
  if done then pure ()
  else do
    throwWhen (decide (cfg.mode = .deviceCred)) (.std "Device credentials expected but not found")
    let sh ← gets (fun s => s.store.shared)
    throwWhen (!sh) (.std "Unable to parse bootstrap (shared) credentials")
    modify (fun s => { s with http := .shared })
    let d ← gets (fun s => s.store.device)
    let d ← orThrow d (.std "Unable to load device_id during shared credential provisioning")
    let r ← post server (.device d.1)
    match r with
    | .odd => throw (.std "ServerError")
    | .refused code =>
      throw (if code = some "device_already_registered" then occupied else .std "Shared credential provisioning failed")
    | .ok body => do
      let c ← orThrow (env.p12 body) (.std "Received malformed device credentials from the server")
      write (fun t => { t with ca := some c.1 })
      write (fun t => { t with cert := some c.2.1 })
      write (fun t => { t with pkey := some c.2.2 })
      let ok ← loadSetTlsCreds
      throwWhen (!ok) (.std "Failed to configure HTTP client with device credentials.")
      if cfg.mode ≠ .sharedCredReuse then write (fun t => { t with shared := false }) else pure ()

/-- `initPrimaryEcuKeys` (initializer.cc:114-126). -/
def initPrimaryEcuKeys (env : Env) : P σ Unit := do
  let k ← generateUptaneKeyPair env
  throwWhen (k == "") (.std "Unknow error")

/-- `EcuSerial` (types.h:346-373). -/
def ecuSerial (x : String) : P σ String := do
  throwWhen (x.utf8ByteSize == 0) (.std "ECU serial identifier is too short")
  throwWhen (decide (64 < x.utf8ByteSize)) (.std "ECU serial identifier is too long")
  pure x

/-- `HardwareIdentifier` (types.h:316-341). -/
def hardwareId (x : String) : P σ String := do
  throwWhen (decide (200 < x.utf8ByteSize)) (.std "Hardware Identifier too long")
  pure x

/-- The loop of lines 98-109 over the stored ECUs that are not configured, with
`saveMisconfiguredEcu` (sqlstorage.cc:1006-1016). -/
def saveMisconfigured : List (String × String) → P σ Unit
  | [] => pure ()
  | e :: r => do
    write (fun t => { t with misconfigured := put e.1 e.2 t.misconfigured })
    saveMisconfigured r

/-- `initEcuSerials` (initializer.cc:45-111): the new list of ECUs and whether it has to be
registered. The serial of a Secondary is its key in the map, here and at line 85. -/
def initEcuSerials (env : Env) (cfg : Config) (secondaries : List (String × Secondary)) :
    P σ (List (String × String) × Bool) := do
  let stored ← gets (fun s => s.store.ecus)
  let serial ← (if cfg.primarySerial != "" then pure cfg.primarySerial
    else do let k ← uptanePublicKey env cfg; pure (env.keyId k.value))
  let hw := if cfg.primaryHwId != "" then cfg.primaryHwId else cfg.hostname
  throwWhen (hw == "") (.std "Could not get current host name, please configure an hardware ID explicitly")
  let serial ← ecuSerial serial
  let hw ← hardwareId hw
  let new := (serial, hw) :: secondaries.map (fun x => (x.1, x.2.hwId))
  if stored = [] then pure (new, true)
  else do
    let gone := stored.filter (fun e => !new.contains e)
    saveMisconfigured gone
    pure (new, gone != [] || new.any (fun e => !stored.contains e))

/-- The name of a key type (types.h:55-77, without the quotes). -/
def keyTypeName : KeyType → String
  | .rsa2048 => "RSA2048"
  | .rsa3072 => "RSA3072"
  | .rsa4096 => "RSA4096"
  | .ed25519 => "ED25519"
  | .unknown => "unknown"

/-- Reading it back (types.h:79-99). Simplified: only the names written by `keyTypeName` are
recognised, not other capitalisations of them. -/
def keyTypeOf (x : String) : KeyType :=
  if x = "RSA2048" then .rsa2048 else if x = "RSA3072" then .rsa3072
  else if x = "RSA4096" then .rsa4096 else if x = "ED25519" then .ed25519 else .unknown

/-- `SecondaryInfo`. -/
structure Info where
  serial : String
  hwId : String
  type : String
  key : PublicKey
  deriving DecidableEq, Repr

/-- `loadSecondaryInfo` (sqlstorage.cc:217-253). -/
def loadSecondaryInfo (env : Env) (serial : String) : P σ (Option Info) := do
  let t ← gets (fun s => s.store)
  match t.ecus.tail.lookup serial with
  | none => pure none
  | some hw => do
    let row := (t.secs.lookup serial).getD {}
    let key ← (if row.keyType = "" then pure ⟨"", .unknown⟩ else publicKey env row.key (keyTypeOf row.keyType))
    pure (some ⟨serial, hw, row.type, key⟩)

/-- `saveSecondaryInfo` (sqlstorage.cc:150-184). -/
def saveSecondaryInfo (i : Info) : P σ Unit := do
  let t ← gets (fun s => s.store)
  throwWhen ((t.secs.lookup i.serial).isNone && (t.ecus.tail.lookup i.serial).isNone) (.std "Failed to set Secondary key")
  write (fun t => { t with secs := put i.serial ⟨i.type, keyTypeName i.key.type, i.key.value⟩ t.secs })

/-- One turn of the loop of `initSecondaryInfo`. -/
def secondaryInfo (env : Env) (register : Bool) (x : String × Secondary) : P σ Info := do
  let i ← loadSecondaryInfo env x.1
  match i.filter (fun i => i.type != "" && i.key.type != .unknown) with
  | some i => pure i
  | none => do
    -- if nothing was loaded the key is a default one, if something was, an unknown one
    let key := if x.2.key.type ≠ .unknown then x.2.key else (i.map (fun i => i.key)).getD ⟨"", .unknown⟩
    let new : Info := ⟨x.1, x.2.hwId, x.2.type, key⟩
    if !register then saveSecondaryInfo new else pure ()
    pure new

/-- `initSecondaryInfo` (initializer.cc:266-293). -/
def initSecondaryInfo (env : Env) (register : Bool) : List (String × Secondary) → P σ (List Info)
  | [] => pure []
  | x :: r => do
    let i ← secondaryInfo env register x
    let l ← initSecondaryInfo env register r
    pure (i :: l)

/-- `storeEcuSerials` (sqlstorage.cc:873-918): one transaction, given up with a message in the log
if two ECUs have the same serial. -/
def storeEcuSerials (l : List (String × String)) : P σ Unit :=
  if l = [] then pure ()
  else if (l.map Prod.fst).Nodup then write (fun t => { t with ecus := l })
  else pure ()

/-- `storeEcuRegistered` (sqlstorage.cc:780-800). -/
def storeEcuRegistered : P σ Unit := do
  let d ← gets (fun s => s.store.device)
  throwWhen d.isNone (.std "Failed to set ECU registered because device info is empty.")
  write (fun t => { t with device := t.device.map (fun d => (d.1, true)) })

/-- `for (const auto& info : sec_info_) saveSecondaryInfo(…)`. -/
def saveAll : List Info → P σ Unit
  | [] => pure ()
  | i :: r => do saveSecondaryInfo i; saveAll r

/-- `initEcuRegister` (initializer.cc:212-264). -/
def initEcuRegister (env : Env) (server : Server σ) (cfg : Config) (new : List (String × String)) (register : Bool)
    (infos : List Info) : P σ Unit := do
  if !register then pure ()
  else do
    let k ← uptanePublicKey env cfg
    throwWhen (decide (k.type = .unknown)) (.std "Invalid key in storage")
    let primary := new.headD ("", "")
    let r ← post server (.ecus primary.1 (⟨primary.1, primary.2, k⟩ :: infos.map (fun i => ⟨i.serial, i.hwId, i.key⟩)))
    match r with
    | .odd => throw (.std "getJson")
    | .refused code =>
      throw (if code = some "ecu_already_registered" ∨ code = some "device_already_registered"
        then .std "One or more ECUs are unexpectedly already registered" else .std "Error registering device")
    | .ok _ => do
      storeEcuSerials new
      saveAll infos
      storeEcuRegistered

/-- `initEcuReportCounter` (initializer.cc:295-309). -/
def initEcuReportCounter : P σ Unit := do
  let t ← gets (fun s => s.store)
  if t.counters.any (fun c => t.ecus.any (fun e => e.1 == c.1)) then pure ()
  else match t.ecus with
    | [] => throw (.std "Could not load ECU serials")
    | e :: _ => write (fun t => { t with counters := put e.1 0 t.counters })

/-- The steps after the credentials (initializer.cc:332-344). -/
def rest (env : Env) (server : Server σ) (cfg : Config) (secondaries : List (String × Secondary)) : P σ Unit := do
  initPrimaryEcuKeys env
  let n ← initEcuSerials env cfg secondaries
  let infos ← initSecondaryInfo env n.2 secondaries
  initEcuRegister env server cfg n.1 n.2 infos
  initEcuReportCounter

/-- `try { m } catch (const ServerOccupied &)`: whether it was caught. -/
def isOccupied (m : P σ Unit) : P σ Bool := fun s =>
  match m s with
  | (.ok _, s') => (.ok false, s')
  | (.error e, s') => if e = occupied then (.ok true, s') else (.error e, s')

/-- The loop of the constructor (initializer.cc:312-347) with `n` attempts left. -/
def attempts (env : Env) (server : Server σ) (cfg : Config) (secondaries : List (String × Secondary)) :
    Nat → P σ Unit
  | 0 => throw (.std "Initialization failed")
  | n + 1 => do
    initDeviceId env cfg
    let again ← isOccupied (initTlsCreds env server cfg)
    if again then do
      resetDeviceId
      attempts env server cfg secondaries n
    else rest env server cfg secondaries

/-- The constructor of `Initializer`, with `MaxInitializationAttempts` (initializer.h:12). -/
def initialize' (env : Env) (server : Server σ) (cfg : Config) (secondaries : List (String × Secondary)) : P σ Unit :=
  attempts env server cfg secondaries 3

/-! ## Import (invstorage.cc:10-145) -/

/-- What is at the paths of `ImportConfig`: `none` if the path is empty, `some none` if there is no
such file. -/
structure Files where
  pub : Option (Option String) := none
  priv : Option (Option String) := none
  cert : Option (Option String) := none
  ca : Option (Option String) := none
  pkey : Option (Option String) := none
  deriving DecidableEq, Repr

/-- `importPrimaryKeys` (invstorage.cc:92-116). -/
def importPrimaryKeys (f : Files) : P σ Unit := do
  let t ← gets (fun s => s.store)
  match f.pub, f.priv with
  | some (some a), some (some b) =>
    if t.keys.isSome then pure () else write (fun t => { t with keys := some (a, b) })
  | _, _ => pure ()

/-- Whether `importUpdateSimple` and `importUpdateCertificate` (invstorage.cc:24-90) take over the
file, and what it contains. The digests compared there are taken to be equal only for equal
contents. -/
def newContent (old : Option String) (file : Option (Option String)) : Option String :=
  match file with
  | some (some c) => if old = some c then none else some c
  | _ => none

/-- `importUpdateCertificate` (invstorage.cc:53-90). A common name other than the device id only
gives a warning. -/
def importCert (env : Env) (f : Files) : P σ Unit := do
  let t ← gets (fun s => s.store)
  match newContent t.cert f.cert with
  | none => pure ()
  | some c => do
    let _ ← orThrow (env.cn c) (.std "Could not parse certificate")
    write (fun t => { t with cert := some c })

/-- `importUpdateSimple` (invstorage.cc:24-51) for the certificate of the server. -/
def importCa (f : Files) : P σ Unit := do
  let t ← gets (fun s => s.store)
  match newContent t.ca f.ca with
  | none => pure ()
  | some c => write (fun t => { t with ca := some c })

/-- `importUpdateSimple` (invstorage.cc:24-51) for the private key. -/
def importPkey (f : Files) : P σ Unit := do
  let t ← gets (fun s => s.store)
  match newContent t.pkey f.pkey with
  | none => pure ()
  | some c => write (fun t => { t with pkey := some c })

/-- `importData` (invstorage.cc:135-145) but for the installed versions. -/
def importData (env : Env) (f : Files) : P σ Unit := do
  importPrimaryKeys f
  importCert env f
  importCa f
  importPkey f

/-! ## Runs -/

/-- One start of aktualizr: the files to import, the configuration, the Secondaries, how many
effects happen before the process dies, and a seed for what is drawn. -/
structure Start where
  files : Files := {}
  cfg : Config
  secondaries : List (String × Secondary) := []
  fuel : Nat
  seed : Nat := 0

/-- `Aktualizr::Aktualizr` and `Aktualizr::Initialize` (aktualizr.cc:18-37), up to the end of the
constructor of `Initializer`. -/
def start (env : Env) (server : Server σ) (x : Start) : P σ Unit := do
  importData env x.files
  initialize' env server x.cfg x.secondaries

/-- A start on what the previous one left. -/
def run (env : Env) (server : Server σ) (x : Start) (t : Store) (srv : σ) : Except Err Unit × St σ :=
  start env server x { store := t, srv := srv, fuel := x.fuel, drawn := x.seed }

/-- What a number of starts leave. -/
def runs (env : Env) (server : Server σ) : List Start → Store × σ → Store × σ
  | [], w => w
  | x :: r, w => runs env server r ((run env server x w.1 w.2).2.store, (run env server x w.1 w.2).2.srv)

end Aktualizr.Prov
