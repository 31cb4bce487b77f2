import Verif.Model.Install
import Verif.Model.History

/-!
# Histories of a device

Models ECU registration in `src/libaktualizr/primary/initializer.cc` and the start-up of
`SotaUptaneClient`, and strings the operations of the client together to histories with
crashes and restarts.  The rest of provisioning (device id, TLS credentials, keys) is in
`Model/Initializer.lean`.
-/

namespace Aktualizr

open M (throwWhen orThrow gets modify lift)

/-- What the configuration says about ECUs: serial and hardware id of the Primary
(config, key id or host name: initializer.cc:49-63) and of the Secondaries. -/
structure EcuConfig where
  primary : String × String
  secondaries : List (String × String)

/-- `new_ecu_serials_` (initializer.cc:62-66). -/
def EcuConfig.serials (cfg : EcuConfig) : List (String × String) := cfg.primary :: cfg.secondaries

/-- `register_ecus_` (initializer.cc:68-110): nothing is stored, or the stored and the
configured ECUs differ as sets of pairs. Writing to `misconfigured_ecus` is left out. -/
def needsRegistration (stored : Option (List (String × String))) (cfg : EcuConfig) : Bool :=
  match stored with
  | none => true
  | some l => !l.contains cfg.primary || cfg.secondaries.any (fun s => !l.contains s) || l.any (fun s => !cfg.serials.contains s)

/-- `Initializer::initEcuReportCounter` (initializer.cc:295-309). `loadEcuReportCounter` builds
`EcuSerial`s from the stored texts. -/
def initReportCounter : C Unit := do
  let cl ← gets id
  let _ ← lift (cl.loadCounters.mapM (fun p => mkEcuSerial p.1))
  if !cl.loadCounters.isEmpty then pure ()
  else match ← lift cl.v.loadEcuSerials with
    | some (p :: _) => cwrite (fun cl => { cl with counters := upsert p.1 0 cl.counters })
    | _ => M.throw (.std "Could not load ECU serials")

/-- `initEcuSerials`, `initEcuRegister` and `initEcuReportCounter` (initializer.cc:45-111,
212-264, 295-309); `ok` is the server's answer to the registration. -/
def initEcus (cfg : EcuConfig) (ok : Bool) : C Unit := do
  let cl ← gets id
  let stored ← lift cl.v.loadEcuSerials
  let _ ← lift (mkEcuSerial cfg.primary.1)
  let _ ← lift (mkHwId cfg.primary.2)
  if needsRegistration stored cfg then do
    throwWhen (!ok) (.std "ServerError")
    cwrite (fun cl => { cl with v := cl.v.storeEcuSerials cfg.serials })
    cwrite id  -- `storeEcuRegistered` (initializer.cc:261)
    initReportCounter
  else initReportCounter

/-- Rows of `secondary_ecus` for new Secondaries, without a cached manifest
(`saveSecondaryInfo`, sqlstorage.cc:150-184, called in initializer.cc:258-260 or, after an
interrupted registration, in 283-285). The other columns are left out. -/
def addSecondaryRows (secs : List (String × String)) (cache : List (String × String)) : List (String × String) :=
  cache ++ (secs.filter (fun s => (cache.lookup s.1).isNone)).map (fun s => (s.1, ""))

/-- `SotaUptaneClient::initialize` (sotauptaneclient.cc:345-388): registration, then
`primary_ecu_serial_` and `primary_ecu_hw_id_` from storage, then `finalizeAfterReboot`. The
Secondaries have been added before (`addSecondary`, 27-36). Simplification: the rows of
`secondary_ecus` are added at once and not seen as a write that can be interrupted. -/
def startUp (env : Env) (p : Peers) (cfg : EcuConfig) (ok : Bool) : D Unit := do
  inClient (modify (fun cl => { cl with secondaries := cfg.secondaries }))
  inClient (initEcus cfg ok)
  modify (fun d => { d with cache := addSecondaryRows cfg.secondaries d.cache })
  let d ← gets id
  match ← lift d.cl.v.loadEcuSerials with
  | some (q :: _) => do
    inClient (modify (fun cl => { cl with primary := q.1, primaryHw := q.2 }))
    finalizeAfterReboot env p
  | _ => M.throw (.std "Unable to load ECU serials after device registration.")

/-- `SQLStorage::storeDeviceInstallationRawReport` (sqlstorage.cc:1456-1464), called through
`Aktualizr::SetInstallationRawReport` (aktualizr.cc:163-165). -/
def setRawReport (raw : String) : C Unit :=
  cwrite (fun cl => { cl with devResult := cl.devResult.map (fun r => { r with raw := raw }) })

/-- The operations of the device. -/
inductive DevCall where
  /-- `SotaUptaneClient::initialize`. -/
  | init (cfg : EcuConfig) (ok : Bool)
  /-- `uptaneInstall`. -/
  | install (ts : List Target)
  /-- `putManifestSimple`. -/
  | putManifest
  /-- `fetchMeta`. -/
  | fetchMeta
  /-- `checkUpdates`. -/
  | checkUpdates
  /-- `checkAndUpdatePendingSecondaries`. -/
  | checkPending
  /-- `storeInstallationFailure`, as done when a download fails (sotauptaneclient.cc:650, 676). -/
  | storeFailure (r : InstResult)
  /-- `SetInstallationRawReport`. -/
  | setRaw (raw : String)

/-- The client code run by a call. -/
def DevCall.run (c : Ctx) (p : Peers) : DevCall → D Unit
  | .init cfg ok => startUp c.env p cfg ok
  | .install ts => do let _ ← uptaneInstall c p ts; pure ()
  | .putManifest => do let _ ← putManifestSimple c.env p; pure ()
  | .fetchMeta => do let _ ← Aktualizr.fetchMeta c p; pure ()
  | .checkUpdates => do let _ ← inClient (Aktualizr.checkUpdates c); pure ()
  | .checkPending => checkAndUpdatePendingSecondaries c.env p
  | .storeFailure r => inClient (storeInstallationFailure r)
  | .setRaw raw => inClient (setRawReport raw)

/-- A call with everything outside the client's control. -/
structure DevEvent where
  call : DevCall
  net : Nat → Repo → String → Int → Option String
  clock : Nat → TimeStamp
  peers : Peers
  fuel : Nat

/-- What is left when the process ends: the storage. (The log is what happened in the world.) -/
def Dev.off (d : Dev) : Dev :=
  { d with cl := { d.cl with w := boot d.cl.w.db, primary := "", primaryHw := "Unknown", secondaries := [] } }

/-- `initialize` has got as far as setting `primary_ecu_serial_` and `uptane_manifest`. -/
def Dev.up (d : Dev) : Bool := d.cl.primary != ""

/-- Is this the call that starts the process? -/
def DevCall.isInit : DevCall → Bool
  | .init _ _ => true
  | _ => false

/-- The state in which an event's code runs: `initialize` means a new process. -/
def DevEvent.start (e : DevEvent) (d : Dev) : Dev :=
  let d := if e.call.isInit then d.off else d
  { d with cl := { d.cl with w := { d.cl.w with fuel := e.fuel, tick := 0 } } }

/-- One event. Calls other than `initialize` are only made on an initialised process (before
that, `uptane_manifest` is a null pointer). A crash ends the process; undefined behaviour is
treated like a crash at that point. -/
def DevEvent.step (env : Env) (d : Dev) (e : DevEvent) : Dev :=
  if e.call.isInit || d.up then
    match e.call.run { env := env, net := e.net, clock := e.clock } e.peers (e.start d) with
    | (.error .crash, d') => d'.off
    | (.error (.ub _), d') => d'.off
    | (_, d') => d'
  else d

/-- State after a history. -/
def runDevice (env : Env) (d : Dev) (es : List DevEvent) : Dev := es.foldl (DevEvent.step env) d

/-- A device as delivered: empty storage, not running. -/
def Dev.fresh : Dev := { cl := { w := boot {}, primary := "", primaryHw := "Unknown" } }

end Aktualizr
