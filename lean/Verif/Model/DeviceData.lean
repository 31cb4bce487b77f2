import Verif.Model.Client

/-!
# Device data sent to the server

Models `reportHwInfo`, `reportInstalledPackages`, `reportNetworkInfo`,
`reportAktualizrConfiguration` and `sendDeviceData` (primary/sotauptaneclient.cc:136-239, 808-814)
with the table `device_data` (storage/sqlstorage.cc:1635-1675).

Not modelled: how the data is collected (`lshw`, `/proc/net/route`, the packages file), the HTTP
client (a request is answered or not, as an input says), SQL errors.
-/

namespace Aktualizr.DeviceData

open M (gets modify)

/-- The values of `data_type` in use. -/
inductive Kind where
  | hardware
  | packages
  | network
  | config
  deriving DecidableEq, Repr

/-- The body of a request. -/
inductive Body where
  | json (j : Json)
  | text (s : String)

/-- What is hashed: `jsonToCanonicalStr` of a document, the text itself for the configuration. -/
def Body.key (env : Env) : Body → String
  | .json j => env.canon j
  | .text s => s

/-- A request to the server and whether it was acknowledged (`HttpResponse::isOk`). -/
structure Note where
  kind : Kind
  body : Body
  ok : Bool

/-- Table `device_data`, the requests made so far, and the number of effects before the process
dies. -/
structure St where
  hash : Kind → Option String := fun _ => none
  fuel : Nat := 0
  log : List Note := []

abbrev D (α : Type) := M St α

/-- One effect on storage or the server. -/
def effect (f : St → St) : D Unit := fun s =>
  match s.fuel with
  | 0 => (.error .crash, s)
  | k + 1 => (.ok (), { f s with fuel := k })

/-- `http->put` or `http->post`. -/
def send (k : Kind) (b : Body) (ok : Bool) : D Unit := effect (fun s => { s with log := s.log ++ [⟨k, b, ok⟩] })

/-- `storeDeviceDataHash` (sqlstorage.cc:1635-1644). -/
def store (k : Kind) (h : String) : D Unit :=
  effect (fun s => { s with hash := fun k' => if k' = k then some h else s.hash k' })

/-- Send, and remember the hash if the server acknowledged. -/
def sendAndStore (k : Kind) (b : Body) (h : Hash) (ok : Bool) : D Unit := do
  send k b ok
  if ok then store k h.hash else pure ()

/-- `Hash::generate(kSha256, …)` (crypto/crypto.cc:686-704). -/
def digest (env : Env) (b : Body) : Hash := Hash.mk' .sha256 (env.sha256 (b.key env))

/-- `Json::Value::empty`. -/
def empty : Json → Bool
  | .null => true
  | .arr [] => true
  | .obj [] => true
  | _ => false

/-- `reportHwInfo` (sotauptaneclient.cc:141-173). -/
def reportHwInfo (env : Env) (custom lshw : Json) (ok : Bool) : D Unit := do
  let s ← gets id
  let stored := (s.hash .hardware).getD ""
  if empty custom && stored != "" then pure ()
  else if empty custom && empty lshw then pure ()
  else do
    let info : Body := .json (if empty custom then lshw else custom)
    let h := digest env info
    if h ≠ Hash.mk' .sha256 stored then sendAndStore .hardware info h ok else pure ()

/-- The common part of the other three: `!(loadDeviceDataHash(…) && new_hash == …)`. -/
def report (env : Env) (k : Kind) (b : Body) (ok : Bool) : D Unit := do
  let s ← gets id
  let h := digest env b
  if (s.hash k).any (fun stored => decide (h = Hash.mk' .sha256 stored)) then pure () else sendAndStore k b h ok

/-- `reportInstalledPackages` (sotauptaneclient.cc:175-189); `none`: `getInstalledPackages`
throws. -/
def reportInstalledPackages (env : Env) (packages : Option Json) (ok : Bool) : D Unit := do
  let p ← M.orThrow packages (.std "Wrong packages file format")
  report env .packages (.json p) ok

/-- `reportNetworkInfo` (sotauptaneclient.cc:191-217); `none`: `getNetworkInfo` throws. -/
def reportNetworkInfo (env : Env) (enabled : Bool) (network : Option Json) (ok : Bool) : D Unit :=
  if !enabled then pure ()
  else match network with
    | none => pure ()
    | some n => report env .network (.json n) ok

/-- `reportAktualizrConfiguration` (sotauptaneclient.cc:219-239). -/
def reportConfiguration (env : Env) (enabled : Bool) (config : String) (ok : Bool) : D Unit :=
  if !enabled then pure () else report env .config (.text config) ok

/-- What a call of `sendDeviceData` finds: the caller's hardware information (`null` if none), the
output of `lshw`, the packages, the network information, the configuration with its two
telemetry settings, and which requests are acknowledged. -/
structure Input where
  custom : Json := .null
  lshw : Json := .null
  packages : Option Json := none
  network : Option Json := none
  config : String := ""
  reportNetwork : Bool := true
  reportConfig : Bool := true
  ok : Kind → Bool := fun _ => true

/-- `sendDeviceData` (sotauptaneclient.cc:808-814). -/
def sendDeviceData (env : Env) (i : Input) : D Unit := do
  reportHwInfo env i.custom i.lshw (i.ok .hardware)
  reportInstalledPackages env i.packages (i.ok .packages)
  reportNetworkInfo env i.reportNetwork i.network (i.ok .network)
  reportConfiguration env i.reportConfig i.config (i.ok .config)

/-- What happens: a call of `sendDeviceData`, or the report at the beginning of `fetchMeta`
(sotauptaneclient.cc:816-819). -/
inductive Event where
  | sendDeviceData (i : Input) (fuel : Nat)
  | fetchMeta (i : Input) (fuel : Nat)

/-- One event; an exception leaves the rest of the call undone. -/
def Event.step (env : Env) (s : St) : Event → St
  | .sendDeviceData i fuel => (DeviceData.sendDeviceData env i { s with fuel := fuel }).2
  | .fetchMeta i fuel => (reportNetworkInfo env i.reportNetwork i.network (i.ok .network) { s with fuel := fuel }).2

/-- A history. -/
def run (env : Env) (s : St) (es : List Event) : St := es.foldl (Event.step env) s

end Aktualizr.DeviceData
