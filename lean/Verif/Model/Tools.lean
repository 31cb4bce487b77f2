import Verif.Model.Text
import Verif.Model.Monad
import Verif.Model.Treehub

/-!
# The publishing tools: garage-push, garage-check and garage-deploy

Models `src/sota_tools/server_credentials.cc`, `oauth2.cc`, `authenticate.cc`, `treehub_server.cc`,
`ostree_hash.cc`, `ostree_ref.cc`, `check.cc`, the rest of `deploy.cc`, and the three `main`
functions. The walk over the objects is the machine of `Model/Treehub.lean`.

Texts are lists of characters. Servers, the parser of property trees and the shell are functions;
what they answer may depend on everything sent before. Options of libcurl that concern certificates
of servers (`--cacert`), verbosity and the user agent are left out, as is logging.
-/

namespace Aktualizr.Tools

open M

abbrev Txt := List Char

/-! ## Credentials -/

/-- `boost::property_tree::ptree`, as read from JSON. -/
inductive Ptree where
  | node (data : Txt) (children : List (String × Ptree))

/-- `data()`. -/
def Ptree.data : Ptree → Txt
  | .node d _ => d

/-- `get_child_optional(k)` for a name without dots: the first child of that name. -/
def Ptree.child : Ptree → String → Option Ptree
  | .node _ cs, k => cs.lookup k

/-- `get<std::string>(k, "")` for a name without dots. -/
def Ptree.text (t : Ptree) (k : String) : Txt := ((t.child k).map Ptree.data).getD []

/-- The file of the credentials. `archive` is what libarchive makes of it, if it can open it: names and
contents of the entries up to the first broken header, nothing for contents that cannot be read;
`closes` says whether it is closed without error. `text` is the whole file. -/
structure File where
  archive : Option (List (String × Option String))
  closes : Bool := true
  text : String := ""

/-- `AuthMethod` (server_credentials.h:8). -/
inductive Method where
  | none | basic | oauth2 | tls
  deriving DecidableEq, Repr

/-- `BadCredentialsArchive`, `BadCredentialsContent` and `BadCredentialsJson`
(server_credentials.h:10-23). -/
inductive Bad where
  | archive | content | json
  deriving DecidableEq, Repr

/-- `ServerCredentials` (server_credentials.h:25-62). -/
structure Creds where
  method : Method := .none
  p12 : Txt := []
  repoUrl : Txt := []
  user : Txt := []
  password : Txt := []
  authServer : Txt := []
  ostreeServer : Txt := []
  clientId : Txt := []
  clientSecret : Txt := []
  scope : Txt := []

/-- `boost::is_any_of(" \t\r\n")`. -/
def isBlank (c : Char) : Bool := c == ' ' || c == '\t' || c == '\r' || c == '\n'

/-- `boost::trim_if(s, boost::is_any_of(" \t\r\n"))`. -/
def trim (s : Txt) : Txt := ((s.dropWhile isBlank).reverse.dropWhile isBlank).reverse

/-- The loop over the entries (server_credentials.cc:57-71): the credentials so far and the text of
`treehub.json`. -/
def readEntries : Creds → Option String → List (String × Option String) → Except Bad (Creds × Option String)
  | c, j, [] => .ok (c, j)
  | c, j, (name, content) :: es =>
    if name = "treehub.json" then
      match content with
      | none => .error .archive
      | some s => readEntries c (some s) es
    else if name = "client_auth.p12" then
      match content with
      | none => .error .archive
      | some s => readEntries { c with p12 := s.toList, method := .tls } j es
    else if name = "tufrepo.url" then
      match content with
      | none => .error .archive
      | some s => readEntries { c with repoUrl := trim s.toList } j es
    else readEntries c j es

/-- The values from the property tree (server_credentials.cc:94-107). -/
def fromTree (c : Creds) (t : Ptree) : Creds :=
  let c :=
    if c.method = .tls then c
    else match t.child "oauth2" with
      | some a =>
        { c with
          method := .oauth2, authServer := a.text "server", clientId := a.text "client_id"
          clientSecret := a.text "client_secret", scope := a.text "scope" }
      | none => match t.child "basic_auth" with
        | some a => { c with method := .basic, user := a.text "user", password := a.text "password" }
        | none => c
  { c with ostreeServer := ((t.child "ostree").map (fun o => o.text "server")).getD [] }

/-- The constructor of `ServerCredentials` (server_credentials.cc:36-112); `readJson` is
`boost::property_tree::read_json`. -/
def readCredentials (readJson : String → Option Ptree) (f : File) : Except Bad Creds :=
  match f.archive with
  | some es =>
    match readEntries {} none es with
    | .error e => .error e
    | .ok (c, j) =>
      if !f.closes then .error .archive
      else match j with
        | none => .error .content
        | some s => match readJson s with
          | none => .error .json
          | some t => .ok (fromTree c t)
  | none => match readJson f.text with
    | none => .error .json
    | some t => .ok (fromTree {} t)

/-- `ServerCredentials::CanSignOffline` (server_credentials.cc:114-146). -/
def canSignOffline (f : File) : Bool :=
  let names := (f.archive.getD []).map Prod.fst
  ["root.json", "targets.pub", "targets.sec", "tufrepo.url"].all (fun n => names.contains n)

/-! ## Requests -/

inductive Verb where
  | head | get | post | put
  deriving DecidableEq, Repr

/-- What a request shows about the user. -/
inductive Auth where
  | none
  | basic (user password : Txt)
  | bearer (token : Txt)
  | cert (p12 : Txt)
  deriving DecidableEq, Repr

structure Req where
  verb : Verb
  url : Txt
  auth : Auth
  body : Txt := []
  deriving DecidableEq, Repr

/-- `ok`: the transfer ended with `CURLE_OK`; the status line may have been read even if not. -/
structure Res where
  ok : Bool
  code : Nat
  body : String

/-- The surroundings of the tools: the servers, the parsers, the clock (`TimeStamp::Now`), the shell
(`system(...) == 0`). -/
structure Around where
  web : List Req → Req → Res
  readJson : String → Option Ptree
  parseJson : String → Json
  now : TimeStamp
  shell : List Txt → Txt → Bool

/-- What a tool has done. -/
structure St where
  sent : List Req := []
  ran : List Txt := []

/-- `curl_easy_perform`. -/
def perform (a : Around) (r : Req) : M St Res := fun s => (.ok (a.web s.sent r), { s with sent := s.sent ++ [r] })

/-- `TreehubServer` (treehub_server.h:29-51). -/
structure Server where
  root : Txt := []
  repo : Txt := []
  auth : Auth := .none

/-- `TreehubServer::root_url` and `repo_url` (treehub_server.cc:92-104). -/
def withSlash (u : Txt) : Txt := if u = [] ∨ u.getLast? = some '/' then u else u ++ ['/']

/-- The address set by `TreehubServer::InjectIntoCurl` (treehub_server.cc:57-70). -/
def address (base suffix : Txt) : Except Err Txt :=
  if base = [] then .error (.ub "rbegin of an empty string")
  else
    let slash := base.getLast? = some '/'
    let also := suffix.head? = some '/'
    let url := if ¬ slash ∧ ¬ also then base ++ ['/'] else if slash ∧ also then base.dropLast else base
    .ok (trim url ++ suffix)

/-- A request prepared by `InjectIntoCurl` (treehub_server.cc:55-90) and sent. -/
def request (a : Around) (s : Server) (verb : Verb) (tufrepo : Bool) (suffix : Txt) (body : Txt := []) : M St Res := do
  let url ← lift (address (if tufrepo then s.repo else s.root) suffix)
  perform a ⟨verb, url, s.auth, body⟩

/-! ## Authentication -/

/-- `s` ends with `e`. -/
def endsWith (s e : Txt) : Bool := e.length ≤ s.length && s.drop (s.length - e.length) == e

/-- The request of `OAuth2::Authenticate` (oauth2.cc:25-71). -/
def tokenRequest (c : Creds) : Req :=
  let cognito := endsWith c.authServer "/token".toList
  { verb := .post
    url := if cognito then c.authServer else c.authServer ++ "/token".toList
    auth := .basic c.clientId c.clientSecret
    body := if cognito then "grant_type=client_credentials&scope=".toList ++ c.scope else "grant_type=client_credentials".toList }

/-- `OAuth2::Authenticate` (oauth2.cc:25-88): the token. Whether the transfer succeeded is not looked at. -/
def getToken (a : Around) (c : Creds) : M St (Option Txt) := do
  let r ← perform a (tokenRequest c)
  if r.code = 200 then
    match a.readJson r.body with
    | some t => return some (t.text "access_token")
    | none => return none
  else return none

/-- `authenticate` (authenticate.cc:9-50); nothing if it fails. -/
def authenticate (a : Around) (c : Creds) : M St (Option Server) := do
  let s : Server := { root := withSlash c.ostreeServer, repo := withSlash c.repoUrl }
  match c.method with
  | .basic => return some { s with auth := .basic c.user c.password }
  | .oauth2 =>
    if c.clientId ≠ [] then do
      match ← getToken a c with
      | some t => return some { s with auth := .bearer t }
      | none => return none
    else return some s
  | .tls => return some { s with auth := .cert c.p12 }
  | .none => return some s

/-! ## Commits -/

/-- The value of a hexadecimal digit. -/
def hexDigit (c : Char) : Option Nat :=
  if '0' ≤ c ∧ c ≤ '9' then some (c.toNat - 48)
  else if 'a' ≤ c ∧ c ≤ 'f' then some (c.toNat - 87)
  else if 'A' ≤ c ∧ c ≤ 'F' then some (c.toNat - 55)
  else none

/-- `strtoul` with base 16 on two characters, if it consumes both, modulo 256: white space or a sign may
come before one digit. -/
def hexPair (x y : Char) : Option Nat :=
  match hexDigit x, hexDigit y with
  | some a, some b => some (16 * a + b)
  | none, some b => if isSpace x ∨ x = '+' then some b else if x = '-' then some ((256 - b) % 256) else none
  | _, none => none

/-- The loop of `OSTreeHash::Parse` (ostree_hash.cc:20-32). -/
def hexPairs : Txt → Option (List Nat)
  | [] => some []
  | [_] => none
  | x :: y :: rest => match hexPair x y, hexPairs rest with
    | some b, some bs => some (b :: bs)
    | _, _ => none

/-- `OSTreeHash::Parse` (ostree_hash.cc:8-34); nothing if it throws `OSTreeCommitParseError`. -/
def parseHash (s : Txt) : Option (List Nat) :=
  let t := (s.reverse.dropWhile isSpace).reverse
  if t.length = 64 then hexPairs t else none

/-- A digit. -/
def digitHex (n : Nat) : Char := if n < 10 then Char.ofNat (48 + n) else Char.ofNat (87 + n)

/-- `OSTreeHash::string` (ostree_hash.cc:42-53). -/
def showHash (h : List Nat) : Txt := h.flatMap (fun b => [digitHex (b / 16), digitHex (b % 16)])

/-! ## Uploading -/

/-- The source repository: the objects as in `Model/Treehub.lean`, where they are on a server
(`OSTreeObject::Url`), and `GetObject` for commits (ostree_repo.cc:14-44). -/
structure Source where
  repo : Treehub.Repo
  path : Treehub.Obj → Txt
  commit : List Nat → Option Treehub.Obj

/-- A request for an object (ostree_object.cc:183-253). -/
def sendObject (src : Source) (s : Server) (verb : Verb) (o : Treehub.Obj) : M St Unit := do
  let url ← lift (address s.root (src.path o))
  modify (fun st => { st with sent := st.sent ++ [⟨verb, url, s.auth, []⟩] })

/-- What the events of a walk send. -/
def sends (src : Source) (s : Server) : List Treehub.Event → M St Unit
  | [] => pure ()
  | .head o :: es => do sendObject src s .head o; sends src s es
  | .put o :: es => do sendObject src s .put o; sends src s es
  | .seen _ :: es => sends src s es

/-- `UploadToTreehub` (deploy.cc:26-66): `steps` is what happens to the requests, up to the end of the
loop. The contents sent are not modelled. -/
def uploadToTreehub (src : Source) (s : Server) (hash : List Nat) (mode : Treehub.Mode) (steps : List Treehub.Step) : M St Bool :=
  match src.commit hash with
  | none => return false
  | some root => do
    let q ← lift (Treehub.run src.repo mode (Treehub.start root) steps)
    sends src s q.log
    if Treehub.goesOn mode root q then throw .crash
    else return Treehub.succeeded root q

/-- `PushRootRef` (deploy.cc:108-125) with `OSTreeRef::PushRef` (ostree_ref.cc:44-56). -/
def pushRootRef (a : Around) (s : Server) (name content : Txt) : M St Bool := do
  let r ← request a s .post false ("refs/heads/".toList ++ name) content
  return r.ok && 200 ≤ r.code && r.code < 400

/-- The content of a ref read from a file (ostree_ref.cc:11-27): white space is skipped by the
iterator. -/
def refContent (file : Txt) : Txt := file.filter (fun c => !isSpace c)

/-- Options of `garage-push`; `refs` are the files below `refs/heads`, `manifest` the JSON text made of
the file given with `--repo-manifest`, `valid` the result of `LooksValid`. -/
structure PushOpts where
  ref : Txt
  dryRun : Bool := false
  walkTree : Bool := false
  jobs : Int := 30
  valid : Bool := true
  refs : List (Txt × Txt) := []
  manifest : Option Txt := none

/-- The mode (garage_push.cc:93-103). -/
def PushOpts.mode (o : PushOpts) : Treehub.Mode :=
  if o.walkTree then (if o.dryRun then .walkTree else .pushTree)
  else if o.dryRun then .dryRun else .default

/-- The commit to push (garage_push.cc:117-131), and the content of the ref if it is one; an error is an
exception that nobody catches. -/
def theCommit (o : PushOpts) : Except Err (Option (List Nat × Option Txt)) :=
  match o.refs.lookup o.ref with
  | some file => match parseHash (refContent file) with
    | some h => .ok (some (h, some (refContent file)))
    | none => .error .crash
  | none => match parseHash o.ref with
    | some h => .ok (some (h, none))
    | none => .ok none

/-- The end of `garage-push` (garage_push.cc:145-180): the ref and the manifest. Errors of the manifest
are only logged. -/
def pushRest (a : Around) (s : Server) (o : PushOpts) (hash : List Nat) (content : Option Txt) : M St Bool := do
  let go ← (if o.mode ≠ .dryRun then
      match content with
      | some c => pushRootRef a s o.ref c
      | none => return true
    else return true)
  if !go then return false
  else do
    match o.manifest with
    | some m =>
      if o.mode ≠ .dryRun then do
        let _ ← request a s .put false ("manifests/".toList ++ showHash hash) m
        return true
      else return true
    | none => return true

/-- `garage-push` (garage_push.cc:92-193) once its options are read; `true` is `EXIT_SUCCESS`. -/
def garagePush (a : Around) (o : PushOpts) (cred : File) (src : Source) (steps : List Treehub.Step) : M St Bool :=
  if o.jobs < 1 then return false
  else if !o.valid then return false
  else do
    match ← lift (theCommit o) with
    | none => return false
    | some (hash, content) =>
      match readCredentials a.readJson cred with
      | .error _ => return false
      | .ok c => do
        match ← authenticate a c with
        | none => return false
        | some s => do
          if ← uploadToTreehub src s hash o.mode steps then pushRest a s o hash content
          else return false

/-! ## Checking -/

/-- The loop over the targets (check.cc:121-126). -/
def listed (ref : String) : List Json → Except Err Bool
  | [] => .ok false
  | t :: ts => do
    let h ← (← (← t.get "hashes").get "sha256").asString
    if h = ref then return true else listed ref ts

/-- The check of `targets.json` (check.cc:110-130). -/
def checkTargets (a : Around) (ref : Txt) (text : String) : Except Err Bool := do
  let signed ← (a.parseJson text).get "signed"
  let e ← (← signed.get "expires").asString
  match TimeStamp.parse e with
  | none => .error (.upt (.invalidMetadata ""))
  | some t =>
    if t.isExpiredAt a.now then return false
    else listed (String.ofList ref) (← signed.get "targets").elems

/-- The first request of `CheckRefValid` (check.cc:38). -/
def commitPath (ref : Txt) : Except Err Txt :=
  if ref.length < 2 then .error (.std "out_of_range")
  else .ok ("objects/".toList ++ ref.take 2 ++ ['/'] ++ ref.drop 2 ++ ".commit".toList)

/-- `CheckRefValid` (check.cc:22-135). `walk` is what walking the tree sends and whether it throws
(check.cc:66-91); whether the objects were found has no influence. -/
def checkRefValid (a : Around) (s : Server) (ref : Txt) (walkTree : Bool) (walk : Server → Bool → M St Unit) : M St Bool := do
  let r ← request a s .head false (← lift (commitPath ref))
  if !r.ok then return false
  else if r.code ≠ 200 ∧ (r.code ≠ 404 ∨ !walkTree) then return false
  else do
    if walkTree then walk s (r.code == 200)
    if r.code = 200 then do
      let t ← request a s .get true "/api/v1/user_repo/targets.json".toList
      if !t.ok then return false
      else if t.code ≠ 200 then return false
      else lift (checkTargets a ref t.body)
    else return true

/-- The walk of `CheckRefValid` (check.cc:66-91) over the objects on the server, with `steps` as above.
The objects are fetched as well, with requests GET of the same addresses, which are not
modelled; `GetObject` throws if the first one is missing. -/
def walkServer (src : Source) (ref : Txt) (steps : List Treehub.Step) (s : Server) (_isCommit : Bool) : M St Unit := do
  match parseHash ref with
  | none => throw (.std "OSTreeCommitParseError")
  | some h => match src.commit h with
    | none => throw (.std "OSTreeObjectMissing")
    | some root => do
      let q ← lift (Treehub.run src.repo .walkTree (Treehub.start root) steps)
      sends src s q.log
      if q.stopped || q.idle then return () else throw .crash

/-- `garage-check` (garage_check.cc:73-108) once its options are read. -/
def garageCheck (a : Around) (ref : Txt) (walkTree : Bool) (jobs : Int) (cred : File) (src : Source) (steps : List Treehub.Step) : M St Bool :=
  if jobs < 1 then return false
  else match readCredentials a.readJson cred with
    | .error _ => return false
    | .ok c => catchStd (do
        match ← authenticate a c with
        | none => return false
        | some s => checkRefValid a s ref walkTree (walkServer src ref steps)) (fun _ => return false)

/-! ## Deploying -/

/-- `system`. -/
def sys (a : Around) (cmd : Txt) : M St Bool := fun s => (.ok (a.shell s.ran cmd), { s with ran := s.ran ++ [cmd] })

/-- The commands of `OfflineSignRepo` (deploy.cc:68-106), in order. -/
def signCommands (path name hash hardwareids : Txt) : List Txt :=
  ["garage-sign init --repo aktualizr --credentials ".toList ++ path,
   "garage-sign targets  pull --repo aktualizr".toList,
   "garage-sign targets add --repo aktualizr --format OSTREE --length 0".toList ++ " --name ".toList ++ name ++
     " --version ".toList ++ hash ++ " --sha256 ".toList ++ hash ++ " --hardwareids ".toList ++ hardwareids,
   "garage-sign targets  sign --key-name targets --repo aktualizr".toList,
   "garage-sign targets  push --repo aktualizr".toList]

/-- One command after the other until one fails. -/
def sysAll (a : Around) : List Txt → M St Bool
  | [] => return true
  | c :: cs => do if ← sys a c then sysAll a cs else return false

/-- Options of `garage-deploy`. -/
structure DeployOpts where
  commit : Txt
  name : Txt
  hardwareids : Txt
  dryRun : Bool := false
  jobs : Int := 30
  /-- `--push-credentials` -/
  path : Txt

/-- Credentials outside of a `try` block. -/
def uncaught (a : Around) (f : File) : Except Err Creds :=
  match readCredentials a.readJson f with
  | .ok c => .ok c
  | .error _ => .error .crash

/-- `garage-deploy` (garage_deploy.cc:94-149) once its options are read. Requests to the source are not
modelled but for the token; what is thrown by `CheckRefValid` ends the process. -/
def garageDeploy (a : Around) (o : DeployOpts) (fetch push : File) (src : Source) (steps : List Treehub.Step) : M St Bool :=
  if o.jobs < 1 then return false
  else do
    match ← authenticate a (← lift (uncaught a fetch)) with
    | none => return false
    | some _ => do
      match ← authenticate a (← lift (uncaught a push)) with
      | none => return false
      | some s =>
        match parseHash o.commit with
        | none => return false
        | some hash => do
          if ← uploadToTreehub src s hash (if o.dryRun then .dryRun else .default) steps then
            if o.dryRun then return true
            else if !canSignOffline push then return false
            else do
              if ← sysAll a (signCommands o.path o.name (showHash hash) o.hardwareids) then
                checkRefValid a s o.commit false (fun _ _ => pure ())
              else return false
          else return false

end Aktualizr.Tools
