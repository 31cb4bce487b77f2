import Verif.Model.Monad
import Verif.Model.Util

/-!
# The HTTP client: what is put on a curl handle, and what curl makes of it

Models the class `HttpClient` of `src/libaktualizr/http/httpclient.cc`: the options of the handle that is kept and of its duplicates, one
per request. How an answer is collected is in `Model/Http.lean`; the attempts of one request count as one here (they use the same handle).

Of curl the following is modelled: what `curl_easy_setopt` and `curl_easy_duphandle` do to the options in use, and which request a handle
describes. Options that only concern diagnostics, signals, timeouts and slow transfers are left out, and so is the user agent. That
setting an option fails for want of memory is left out.
-/

namespace Aktualizr.Curl

open M (gets modify throw throwWhen catchStd)

abbrev Bytes := List UInt8

/-- What a function that takes a C string sees of a text. -/
def cstr (b : Bytes) : Bytes := b.takeWhile (· != 0)

/-- `CryptoSource` (include/libaktualizr/types.h). -/
inductive Source | file | pkcs11
  deriving DecidableEq

/-- The arguments of `setCerts`: certificate authority, certificate, private key. -/
structure Certs where
  ca : Bytes
  caSource : Source := .file
  cert : Bytes
  certSource : Source := .file
  key : Bytes
  keySource : Source := .file
  deriving DecidableEq

/-- What curl does by default or was last told: `CURLOPT_HTTPGET`, `CURLOPT_POST`. -/
inductive Method | get | post
  deriving DecidableEq

/-- The options of a curl handle, with curl's defaults. `caInfo`: the content of the file `CURLOPT_CAINFO` names; `cert` and `key`: the
content of the file named by `CURLOPT_SSLCERT`/`CURLOPT_SSLKEY` for type `PEM`, the PKCS#11 URI for `ENG`. -/
structure Handle where
  verifyPeer : Bool := true
  verifyHost : Bool := true
  verifyStatus : Bool := false
  caPath : Bool := false
  caInfo : Option Bytes := none
  cert : Option (Source × Bytes) := none
  key : Option (Source × Bytes) := none
  engine : Bool := false
  headers : List Bytes := []
  url : Bytes := []
  method : Method := .get
  custom : Option Bytes := none
  postFields : Option Bytes := none
  proxy : Option Bytes := none
  proxyUserPwd : Option Bytes := none
  maxSpeed : Option Int := none
  resumeFrom : Int := 0
  follow : Bool := false
  maxFileSize : Option Int := none
  deriving DecidableEq

/-- A request as a server, a proxy or an observer of the connection can tell: how the server's certificate was checked, the client's
certificate and the key it proved to have, method, URL, headers, body, the proxy and the login sent to it, the limit of the speed, the
offset, whether redirections are followed, the largest answer taken. -/
structure Sent where
  verifyPeer : Bool
  verifyHost : Bool
  verifyStatus : Bool
  caPath : Bool
  ca : Option Bytes
  cert : Option (Source × Bytes)
  key : Option (Source × Bytes)
  method : Bytes
  url : Bytes
  headers : List Bytes
  body : Option Bytes
  proxy : Option Bytes
  login : Option Bytes
  maxSpeed : Option Int
  resumeFrom : Int
  follow : Bool
  maxFileSize : Option Int
  deriving DecidableEq

/-- `"GET"`. -/
def nameGet : Bytes := [71, 69, 84]
/-- `"POST"`. -/
def namePost : Bytes := [80, 79, 83, 84]
/-- `"PUT"`. -/
def namePut : Bytes := [80, 85, 84]

/-- Is the engine missing for something that is said to be in it? -/
def Handle.lacksEngine (h : Handle) : Bool :=
  !h.engine && (h.cert.any (·.1 == .pkcs11) || h.key.any (·.1 == .pkcs11))

/-- The request a handle describes. `CURLOPT_CUSTOMREQUEST` only replaces the name of the method. -/
def Handle.describes (h : Handle) : Sent :=
  { verifyPeer := h.verifyPeer, verifyHost := h.verifyHost, verifyStatus := h.verifyStatus, caPath := h.caPath,
    ca := h.caInfo, cert := h.cert, key := h.key,
    method := h.custom.getD (match h.method with | .get => nameGet | .post => namePost),
    url := h.url, headers := h.headers,
    body := match h.method with | .get => none | .post => some (h.postFields.getD []),
    proxy := h.proxy, login := h.proxyUserPwd, maxSpeed := h.maxSpeed, resumeFrom := h.resumeFrom, follow := h.follow,
    maxFileSize := h.maxFileSize }

/-- The request `curl_easy_perform` makes; `none` when it fails before there is a connection, as it does when a certificate or key of type
`ENG` is to be loaded and no engine is set. -/
def Handle.request (h : Handle) : Option Sent := if h.lacksEngine then none else some h.describes

/-- The members of `HttpClient` (httpclient.h:76-104). `flying`: a download is under way in its thread, and whether somebody else has a
share of its handle (`curlp`); `sent`: the requests made, for the statements. -/
structure Client where
  curl : Handle := {}
  headers : List Bytes := []
  pkcs11Key : Bool := false
  pkcs11Cert : Bool := false
  proxy : Bytes := []
  proxyUser : Bytes := []
  proxyPwd : Bytes := []
  ocsp : Bool := false
  bandwidth : Int := 0
  certs : Option Certs := none
  flying : Option Bool := none
  sent : List Sent := []
  deriving DecidableEq

abbrev C := M Client

/-- `curl_easy_setopt` on the handle that is kept. -/
def setopt (f : Handle → Handle) : C Unit := modify (fun c => { c with curl := f c.curl })

/-- The options set on a new handle (httpclient.cc:38-52, 343-356). -/
def fresh : Handle := { caPath := true }

/-- `"Accept: */*"`. -/
def accept : Bytes := [65, 99, 99, 101, 112, 116, 58, 32, 42, 47, 42]

/-- The constructor (httpclient.cc:38-64). Simplified: `curl_easy_init` does not fail. -/
def new (extra : List Bytes) : Client := { curl := fresh, headers := accept :: extra.map cstr }

/-- The copy constructor (httpclient.cc:66-70): the other members have their defaults, and `pkcs11_cert` is a copy of `pkcs11_key`.
Simplified: the temporary files named by the handle belong to the original, which is taken to live longer. -/
def copy (c : Client) : Client :=
  { curl := { c.curl with engine := false }, headers := c.headers, pkcs11Key := c.pkcs11Key, pkcs11Cert := c.pkcs11Key,
    proxy := c.proxy }

/-- What the system grants to a call: the three temporary files, the PKCS#11 engine. -/
structure Grants where
  ca : Bool := true
  cert : Bool := true
  key : Bool := true
  engine : Bool := true
  deriving DecidableEq

/-- The certificate (httpclient.cc:93-103). -/
def useCert (k : Certs) (g : Grants) : C Unit :=
  if k.certSource = .pkcs11 then setopt (fun h => { h with cert := some (.pkcs11, cstr k.cert) })
  else do
    throwWhen (!g.cert) (.std "tls-cert")
    setopt (fun h => { h with cert := some (.file, k.cert) })

/-- The private key (httpclient.cc:105-117). -/
def useKey (k : Certs) (g : Grants) : C Unit :=
  if k.keySource = .pkcs11 then do
    throwWhen (!g.engine) (.std "curl_easy_setopt error")
    setopt (fun h => { h with engine := true, key := some (.pkcs11, cstr k.key) })
  else do
    throwWhen (!g.key) (.std "tls-pkey")
    setopt (fun h => { h with key := some (.file, k.key) })

/-- `HttpClient::setCerts` (httpclient.cc:79-119). -/
def setCerts (k : Certs) (g : Grants) : C Unit := do
  modify (fun c => { c with certs := some k })
  setopt (fun h => { h with verifyPeer := true, verifyHost := true })
  throwWhen (k.caSource == .pkcs11) (.std "Accessing CA certificate on PKCS11 devices isn't currently supported")
  throwWhen (!g.ca) (.std "tls-ca")
  setopt (fun h => { h with caInfo := some k.ca })
  useCert k g
  modify (fun c => { c with pkcs11Cert := k.certSource == .pkcs11 })
  useKey k g
  modify (fun c => { c with pkcs11Key := k.keySource == .pkcs11 })

/-- `curl_easy_duphandle` with `Utils::curlDupHandleWrapper` (utils.cc:815-826): older versions of curl lose the engine. -/
def dup (engine : Bool) : C Handle := do
  let c ← gets id
  let h := { c.curl with engine := false }
  throwWhen (c.pkcs11Key && !engine) (.std "curl_easy_setopt error")
  pure { h with engine := c.pkcs11Key }

/-- `HttpClient::setOptProxy` (httpclient.cc:318-330). -/
def optProxy (c : Client) (h : Handle) : Handle :=
  if c.proxy = [] then h
  else
    let h := { h with proxy := some (cstr c.proxy) }
    if c.proxyUser = [] then h
    else if c.proxyPwd = [] then h
    else { h with proxyUserPwd := some (Util.urlEncode c.proxyUser ++ [58] ++ Util.urlEncode c.proxyPwd) }

/-- `if (bandwidth > 0) …` (httpclient.cc:191-193, 254-256). -/
def optSpeed (c : Client) (h : Handle) : Handle := if c.bandwidth > 0 then { h with maxSpeed := some c.bandwidth } else h

/-- `HttpClient::perform` (httpclient.cc:183-220) up to `curl_easy_perform`. -/
def perform (h : Handle) (limit : Int) : C Unit := do
  let c ← gets id
  let h := if limit ≥ 0 then { h with maxFileSize := some limit } else h
  let h := optProxy c (optSpeed c h)
  let h := if c.ocsp then { h with verifyStatus := true } else h
  modify (fun c => { c with sent := c.sent ++ h.request.toList })

/-- `CURLOPT_POSTFIELDS` with a C string, which also makes it a POST. -/
def postFields (data : Bytes) (h : Handle) : Handle := { h with postFields := some (cstr data), method := .post }

/-- `HttpClient::get` (httpclient.cc:121-139). -/
def get (url : Bytes) (limit : Int) (engine : Bool) : C Unit := do
  let h ← dup engine
  let c ← gets id
  let h := { h with headers := c.headers }
  let h := if c.pkcs11Cert then { h with cert := h.cert.map (fun x => (.pkcs11, x.2)) } else h
  let h := postFields [] (optProxy c h)
  perform { h with url := cstr url, method := .get } limit

/-- `"Content-Type: "`. -/
def contentType : Bytes := [67, 111, 110, 116, 101, 110, 116, 45, 84, 121, 112, 101, 58, 32]

/-- `HttpInterface::kPostRespLimit`, `kPutRespLimit` (httpinterface.h:78-79). -/
def respLimit : Int := 65536

/-- `HttpClient::post` (httpclient.cc:141-154). -/
def post (url ctype data : Bytes) (engine : Bool) : C Unit := do
  let h ← dup engine
  let c ← gets id
  let h := optProxy c { h with headers := c.headers ++ [cstr (contentType ++ ctype)] }
  perform (postFields data { h with url := cstr url, method := .post }) respLimit

/-- `HttpClient::put` (httpclient.cc:162-175). -/
def put (url ctype data : Bytes) (engine : Bool) : C Unit := do
  let h ← dup engine
  let c ← gets id
  let h := optProxy c { h with headers := c.headers ++ [cstr (contentType ++ ctype)] }
  perform { postFields data { h with url := cstr url } with custom := some namePut } respLimit

/-- `curlp` loses its share of the handle: `curl_easy_cleanup` of a handle that another thread is using is undefined, unless somebody else
has a share of it. -/
def dropHandle : C Unit := do
  let c ← gets id
  match c.flying with
  | some false => throw (.ub "curl_easy_cleanup of a handle in use")
  | _ => modify (fun c => { c with flying := none })

/-- `HttpClient::downloadAsync` (httpclient.cc:227-276) up to the start of the thread. -/
def startDownload (url : Bytes) (resume : Int) (shared : Bool) (engine : Bool) : C Unit := do
  let h ← dup engine
  dropHandle
  let c ← gets id
  let h := optProxy c h
  let h := optSpeed c { h with url := cstr url, method := .get, follow := true }
  let h := { h with resumeFrom := resume }
  modify (fun c => { c with flying := some shared, sent := c.sent ++ h.request.toList })

/-- The thread of a download ends (httpclient.cc:261-273). -/
def endDownload : C Unit := modify (fun c => { c with flying := none })

/-- `strncmp(a, b, n) == 0`. -/
def sameUpTo (n : Nat) (a b : Bytes) : Bool := decide ((cstr a).take n = (cstr b).take n)

/-- The loop of `HttpClient::updateHeader` (httpclient.cc:278-292). -/
def replaceHeader (lookfor value : Bytes) : List Bytes → List Bytes × Bool
  | [] => ([], false)
  | x :: xs =>
    if sameUpTo lookfor.length lookfor x then (cstr (lookfor ++ value) :: xs, true)
    else (x :: (replaceHeader lookfor value xs).1, (replaceHeader lookfor value xs).2)

/-- `HttpClient::updateHeader` (httpclient.cc:278-292). -/
def updateHeader (name value : Bytes) : C Bool := do
  let c ← gets id
  let r := replaceHeader (name ++ [58, 32]) value c.headers
  modify (fun c => { c with headers := r.1 })
  pure r.2

/-- `HttpClient::reset` (httpclient.cc:332-361). -/
def reset (g : Grants) : C Unit := do
  dropHandle
  setopt (fun _ => fresh)
  let c ← gets id
  match c.certs with
  | some k => setCerts k g
  | none => pure ()

/-- A call to the client. `SotaUptaneClient::useProxy` (sotauptaneclient.cc:1468-1471) is `setProxy` and `setProxyCredentials`,
`setDownloadBandwidth` (sotauptaneclient.cc:1473-1478) is `setBandwidth` and, if asked for, `reset`. -/
inductive HttpCall
  | setCerts (k : Certs) (g : Grants)
  | setProxy (p : Bytes)
  | setProxyCredentials (user pwd : Bytes)
  | setOcsp (b : Bool)
  | setBandwidth (n : Int)
  | updateHeader (name value : Bytes)
  | reset (g : Grants)
  | get (url : Bytes) (limit : Int) (engine : Bool)
  | post (url ctype data : Bytes) (engine : Bool)
  | put (url ctype data : Bytes) (engine : Bool)
  | startDownload (url : Bytes) (resume : Int) (shared : Bool) (engine : Bool)
  | endDownload
  deriving DecidableEq

/-- A call; the setters are httpclient.cc:294-297, 309-316. -/
def step : HttpCall → C Unit
  | .setCerts k g => setCerts k g
  | .setProxy p => modify (fun c => { c with proxy := p })
  | .setProxyCredentials u p => modify (fun c => { c with proxyUser := u, proxyPwd := p })
  | .setOcsp b => modify (fun c => { c with ocsp := b })
  | .setBandwidth n => modify (fun c => { c with bandwidth := n })
  | .updateHeader n v => do
    let _ ← updateHeader n v
    pure ()
  | .reset g => reset g
  | .get u l e => get u l e
  | .post u t d e => post u t d e
  | .put u t d e => put u t d e
  | .startDownload u r s e => startDownload u r s e
  | .endDownload => endDownload

/-- Calls one after the other; the caller goes on after an exception. -/
def run : List HttpCall → C Unit
  | [] => pure ()
  | x :: xs => do
    catchStd (step x) (fun _ => pure ())
    run xs

end Aktualizr.Curl
