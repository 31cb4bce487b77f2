import Verif.Model.Config
import Verif.Model.Monad
import Verif.Model.Initializer
import Verif.Model.SecondaryOstree

/-!
# aktualizr-cert-provider (src/cert_provider/main.cc)

With `Bootstrap` (bootstrap/bootstrap.cc), `Crypto::generateCert`, `signCert` and `serializeCert` (crypto/crypto.cc:501-680),
and the paths at which a device looks for files to import (invstorage.cc:24-116, types.cc:139-142).

Ending with `EXIT_FAILURE`, by an early return or by an exception, is an error here. Simplified: the temporary files always work,
the parsing of the command line is left out, the random device id is given, the output on the terminal is left out.
-/

namespace Aktualizr.CertProv

open M Conf

/-- The options (main.cc:33-56): paths and names that are not given are empty, as the program treats them alike, except where an
option given as empty is refused. -/
structure Options where
  credentials : Txt := []
  fleetCa : Txt := []
  fleetCaKey : Txt := []
  bits : Option Int := none
  days : Option Int := none
  country : Option String := none
  state : Option String := none
  organization : Option String := none
  name : Option String := none
  target : Txt := []
  directory : Option Txt := none
  rootCa : Bool := false
  serverUrl : Bool := false
  localDir : Txt := []
  config : List Txt := []

/-- A certificate: the subject, the validity, the public key, the name of the issuer and the key it is signed with. -/
structure Cert where
  country : String
  state : String
  organization : String
  name : String
  days : Int
  key : String
  issuer : String
  signer : String
  deriving DecidableEq, Repr

/-- Credentials of a TLS client: authority, certificate, private key. -/
structure Tls where
  ca : String
  cert : String
  pkey : String
  deriving DecidableEq, Repr

/-- A request to the server: the address, the device id, and the credentials. -/
structure Request where
  url : Txt
  device : String
  as : Tls
  deriving DecidableEq, Repr

/-- What happens to a file that is to be copied: it gets there, or there is an error and something is left. -/
inductive Copy where
  | works
  | fails (left : Option String)
  deriving DecidableEq, Repr

/-- What is around: the files and archives read, the functions of OpenSSL, the server, and how copying goes (locally and with ssh).
`newKey` is the private key drawn for a number of bits, `publicOf` its public part, `write` a certificate as text; `none` where
OpenSSL fails. `readCert` gives the subject and the public key of a certificate. `readCert` and `readKey` are given the contents of a file, empty if it cannot be
read (`Utils::readFile`). -/
structure Around where
  conf : Conf.World
  file : Txt → String
  archive : Txt → Option (List SecOst.Entry)
  parseP12 : String → Option Tls
  randomName : String
  newKey : Int → Option String
  publicOf : String → String
  readCert : String → Option (String × String)
  readKey : String → Option String
  write : Cert → Option String
  server : Request → Option String
  copies : Txt → Copy
  transfers : Txt → Copy

/-- The files on this computer and on the device that is the target, and the requests sent. -/
structure St where
  disk : Txt → Option String := fun _ => none
  remote : Txt → Option String := fun _ => none
  requests : List Request := []

abbrev P := M St

/-! ## Paths -/

/-- `boost::filesystem::path::operator/`. -/
def join (a b : Txt) : Txt :=
  if b = [] then a
  else if a = [] || a.getLast? = some '/' || b.head? = some '/' then a ++ b
  else a ++ '/' :: b

/-- `BasedPath::get` (types.cc:139-142) with `Utils::absolutePath` (utils.cc:745-750). -/
def based (base p : Txt) : Txt := if p.head? = some '/' || base = [] then p else join base p

/-- Where the four files go. -/
structure Places where
  pkey : Txt
  cert : Txt
  ca : Txt
  url : Txt
  deriving DecidableEq, Repr

/-- The first of two paths that is not empty. -/
def orElse (a b : Txt) : Txt := if a = [] then b else a

/-- The directory and the names of the files (main.cc:229-272) as configured. -/
def places (c : Config) (ca url : Bool) : Places :=
  let base := c.text ("import", "base_path")
  let store := c.text ("storage", "path")
  let dir := if base ≠ [] then base else if store ≠ [] then store else "/var/sota/import".toList
  let file := fun k => orElse (c.text ("import", k)) (c.text ("storage", k))
  let urlFile := c.text ("tls", "server_url_path")
  { pkey := based dir (file "tls_pkey_path")
    cert := based dir (file "tls_clientcert_path")
    ca := based dir (if ca then file "tls_cacert_path" else "root.crt".toList)
    url := based dir (if url && urlFile ≠ [] then urlFile else "gateway.url".toList) }

/-- Without configuration (main.cc:229-233, 270-272). -/
def plainPlaces (directory : Option Txt) : Places :=
  let dir := directory.getD "/var/sota/import".toList
  { pkey := based dir "pkey.pem".toList, cert := based dir "client.pem".toList, ca := based dir "root.crt".toList,
    url := based dir "gateway.url".toList }

/-- Lines 229-272. -/
def choose (a : Around) (o : Options) : Except Err Places :=
  if o.config = [] then .ok (plainPlaces o.directory)
  else do
    let c ← Conf.load a.conf { config := some o.config }
    return places c o.rootCa o.serverUrl

/-! ## The archive with the credentials -/

/-- `Bootstrap::readServerUrl` (bootstrap.cc:46-61): empty if it cannot be read. -/
def readServerUrl (a : Around) (path : Txt) : Txt :=
  match SecOst.readFile (a.archive path) "autoprov.url" with
  | .ok s => Tools.trim s.toList
  | .error _ => []

/-- `Bootstrap::readServerCa` (bootstrap.cc:63-78). -/
def readServerCa (a : Around) (path : Txt) : String :=
  match SecOst.readFile (a.archive path) "server_ca.pem" with
  | .ok s => s
  | .error _ => ""

/-- The constructor of `Bootstrap` and `readTlsP12` (bootstrap.cc:11-44). -/
def bootstrap (a : Around) (path : Txt) : Except Err Tls := do
  throwIf (path.isEmpty) (.std "Unable to parse bootstrap (shared) credentials")
  let s ← SecOst.readFile (a.archive path) "autoprov_credentials.p12"
  throwIf (s == "") (.std "Unable to parse bootstrap (shared) credentials")
  match a.parseP12 s with
  | none => .error (.std "Unable to parse bootstrap credentials")
  | some t => .ok t

/-! ## The credentials of the device -/

/-- With shared credentials (main.cc:283-312): the server makes them. -/
def shared (a : Around) (o : Options) (url : Txt) (id : String) : P Tls := do
  let b ← lift (bootstrap a o.credentials)
  let r : Request := ⟨url ++ "/devices".toList, id, b⟩
  modify (fun s => { s with requests := s.requests ++ [r] })
  let body ← orThrow (a.server r) (.std "Provisioning failed")
  orThrow (a.parseP12 body) (.std "Unable to parse p12 file received from server.")

/-- With a fleet CA (main.cc:313-366): a new key, and a certificate signed by the fleet CA. -/
def fleet (a : Around) (o : Options) (id : String) : Except Err Tls := do
  throwIf (match o.country with | some c => c.utf8ByteSize != 2 | none => false) (.std "Country code")
  throwIf (o.state == some "") (.std "State name")
  throwIf (o.organization == some "") (.std "Organization name")
  let key ← (match a.newKey (o.bits.getD 2048) with | some k => .ok k | none => .error (.std "Key generation"))
  let ca ← (match a.readCert (a.file o.fleetCa) with | some i => .ok i | none => .error (.std "Reading CA certificate failed"))
  let signer ← (match a.readKey (a.file o.fleetCaKey) with | some k => .ok k | none => .error (.std "PEM_read_bio_PrivateKey failed"))
  let cert : Cert := { country := o.country.getD "", state := o.state.getD "", organization := o.organization.getD "", name := id
                       days := o.days.getD 365, key := a.publicOf key, issuer := ca.1, signer := signer }
  let text ← (match a.write cert with | some s => .ok s | none => .error (.std "X509_sign failed"))
  let server ← (if !o.rootCa then .ok ""
    else if readServerCa a o.credentials ≠ "" then .ok (readServerCa a o.credentials)
    else (bootstrap a o.credentials).map (·.ca))
  return ⟨server, text, key⟩

/-! ## Output -/

/-- A file gets new contents. -/
def put (fs : Txt → Option String) (p : Txt) (c : Option String) : Txt → Option String := fun q => if q = p then c else fs q

/-- `copyLocal` (main.cc:142-150) of some files, one after another. -/
def copyAll (a : Around) : List (Txt × String) → P Unit
  | [] => pure ()
  | (p, text) :: rest => do
    match a.copies p with
    | .works => do
      modify (fun s => { s with disk := put s.disk p (some text) })
      copyAll a rest
    | .fails left => do
      modify (fun s => { s with disk := put s.disk p left })
      throw (.std "copy_file")

/-- `SSHRunner::transferFile` (main.cc:113-133) of some files, one after another. -/
def transferAll (a : Around) : List (Txt × String) → P Unit
  | [] => pure ()
  | (p, text) :: rest => do
    match a.transfers p with
    | .works => do
      modify (fun s => { s with remote := put s.remote p (some text) })
      transferAll a rest
    | .fails left => do
      modify (fun s => { s with remote := put s.remote p left })
      throw (.std "Error copying file")

/-- The files written: where and what. -/
def output (o : Options) (p : Places) (t : Tls) (url : Txt) : List (Txt × String) :=
  [(p.pkey, t.pkey), (p.cert, t.cert)] ++ (if o.rootCa then [(p.ca, t.ca)] else []) ++
    (if o.serverUrl then [(p.url, String.ofList url)] else [])

/-- Lines 379-429. What fails with ssh is only printed (main.cc:424-426). -/
def deliver (a : Around) (o : Options) (files : List (Txt × String)) : P Unit := do
  let _ ← (if o.localDir ≠ [] then copyAll a (files.map (fun f => (join o.localDir f.1, f.2))) else pure ())
  if o.target ≠ [] then catchStd (transferAll a files) (fun _ => pure ()) else pure ()

/-- The device id (main.cc:217-227). -/
def deviceId (a : Around) (o : Options) : Except Err String :=
  match o.name with
  | some n => if n = "" then .error (.std "Common name can't be empty") else .ok n
  | none => .ok a.randomName

/-- `main` (main.cc:152-438). -/
def main (a : Around) (o : Options) : P Unit := do
  throwWhen (o.fleetCa.isEmpty != o.fleetCaKey.isEmpty) (.std "fleet-ca and fleet-ca-key options should be used together")
  throwWhen (o.directory.isSome && !o.config.isEmpty) (.std "--directory and --config options cannot be used together")
  throwWhen (o.localDir.isEmpty && o.target.isEmpty) (.std "Please provide a local directory and/or target")
  throwWhen ((o.fleetCa.isEmpty || o.rootCa || o.serverUrl) && o.credentials.isEmpty) (.std "missing -c/--credentials")
  let url := readServerUrl a o.credentials
  let id ← lift (deviceId a o)
  let p ← lift (choose a o)
  let t ← (if o.fleetCa = [] then shared a o url id else lift (fleet a o id))
  deliver a o (output o p t url)

/-! ## The device -/

/-- The files for `INvStorage::importData` (invstorage.cc:135-145) at the configured paths of a device. -/
def importFiles (c : Config) (disk : Txt → Option String) : Prov.Files :=
  let base := c.text ("import", "base_path")
  let file := fun k => let p := c.text ("import", k); if p = [] then none else some (disk (based base p))
  { pub := file "uptane_public_key_path", priv := file "uptane_private_key_path", cert := file "tls_clientcert_path"
    ca := file "tls_cacert_path", pkey := file "tls_pkey_path" }

end Aktualizr.CertProv
