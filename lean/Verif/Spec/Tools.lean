import Verif.Model.Tools
import Verif.Spec.Metadata
import Verif.Spec.Treehub

/-!
# What is expected of the publishing tools
-/

namespace Aktualizr.Tools.Spec

open Aktualizr.Spec (At)

/-- An address without white space. -/
def NoBlanks (u : Txt) : Prop := ∀ c ∈ u, c ≠ ' ' ∧ c ≠ '\t' ∧ c ≠ '\r' ∧ c ≠ '\n'

/-- `url` is the address of `path` on the server `server`, which may be written with or without a slash at
its end: there is exactly one slash between them. -/
def AddressOf (server path url : Txt) : Prop :=
  ∃ stem, (server = stem ∧ stem.getLast? ≠ some '/' ∨ server = stem ++ ['/']) ∧ url = stem ++ '/' :: path

/-- The request by which a token is obtained: the id and the secret of the client go to the
authorization server, whose address may or may not have the last component. -/
def IsTokenRequest (c : Creds) (r : Req) : Prop :=
  c.method = .oauth2 ∧ r.verb = .post ∧ r.auth = .basic c.clientId c.clientSecret ∧
  (r.url = c.authServer ∧ (∃ stem, c.authServer = stem ++ "/token".toList) ∧ r.body = "grant_type=client_credentials&scope=".toList ++ c.scope ∨
    r.url = c.authServer ++ "/token".toList ∧ (¬ ∃ stem, c.authServer = stem ++ "/token".toList) ∧ r.body = "grant_type=client_credentials".toList)

/-- What requests to the servers show about the user. -/
def Shows (c : Creds) : Auth → Prop
  | .none => c.method = .none ∨ c.method = .oauth2 ∧ c.clientId = []
  | .basic u p => c.method = .basic ∧ u = c.user ∧ p = c.password
  | .cert p => c.method = .tls ∧ p = c.p12
  | .bearer _ => c.method = .oauth2 ∧ c.clientId ≠ []

/-- The server answered with the code. -/
def Answered (a : Around) (before : List Req) (r : Req) (code : Nat) : Prop := (a.web before r).ok = true ∧ (a.web before r).code = code

/-- Not expired, and some target has this digest. -/
structure ListsCommit (a : Around) (text : String) (ref : String) : Prop where
  fresh : ∃ v e t, At (a.parseJson text) ["signed", "expires"] v ∧ v.asString = .ok e ∧ TimeStamp.parse e = some t ∧ t.isExpiredAt a.now = false
  listed : ∃ ts t h, At (a.parseJson text) ["signed", "targets"] ts ∧ t ∈ ts.elems ∧ At t ["hashes", "sha256"] h ∧ h.asString = .ok ref

/-- What a positive answer about a commit rests on: a request for the commit, on Treehub, and one for the
Targets, on the TUF repository; both were answered, and the Targets list the commit. -/
structure Confirmed (a : Around) (c : Creds) (ref : Txt) (before : List Req) (r1 : Req) (mid : List Req) (r2 : Req) : Prop where
  head : r1.verb = .head
  get : r2.verb = .get
  commit : AddressOf c.ostreeServer ("objects/".toList ++ ref.take 2 ++ ['/'] ++ ref.drop 2 ++ ".commit".toList) r1.url
  targets : AddressOf c.repoUrl "api/v1/user_repo/targets.json".toList r2.url
  found : Answered a before r1 200
  got : Answered a (before ++ [r1] ++ mid) r2 200
  lists : ListsCommit a (a.web (before ++ [r1] ++ mid) r2).body (String.ofList ref)

/-- The requests made for the events of a walk over the objects, in order. -/
inductive ObjectRequests (c : Creds) (src : Source) (auth : Auth) : List Treehub.Event → List Req → Prop where
  | nil : ObjectRequests c src auth [] []
  | head {o es url rs} : AddressOf c.ostreeServer (src.path o) url → ObjectRequests c src auth es rs →
    ObjectRequests c src auth (.head o :: es) (⟨.head, url, auth, []⟩ :: rs)
  | put {o es url rs} : AddressOf c.ostreeServer (src.path o) url → ObjectRequests c src auth es rs →
    ObjectRequests c src auth (.put o :: es) (⟨.put, url, auth, []⟩ :: rs)
  | seen {o es rs} : ObjectRequests c src auth es rs → ObjectRequests c src auth (.seen o :: es) rs

/-- The addresses of objects. -/
def ObjectPaths (src : Source) : Prop := ∀ o, ∃ p, src.path o = "objects/".toList ++ p

/-- What is to be pushed: a branch of the repository, whose file has the commit between white space, or
a commit. -/
def Names (o : PushOpts) (hash : List Nat) : Option Txt → Prop
  | some content => ∃ file, o.refs.lookup o.ref = some file ∧ content = file.filter (fun c => !isSpace c) ∧ parseHash content = some hash
  | none => o.refs.lookup o.ref = none ∧ parseHash o.ref = some hash

/-- A request to one of the two servers with the proof of identity the credentials ask for; a token is
one that the authorization server has issued. -/
structure ToServer (a : Around) (c : Creds) (r : Req) : Prop where
  shows : Shows c r.auth
  token : ∀ tok, r.auth = .bearer tok → ∃ before r0 t, IsTokenRequest c r0 ∧ (a.web before r0).code = 200 ∧
    a.readJson (a.web before r0).body = some t ∧ tok = t.text "access_token"
  address : ∃ path, AddressOf c.ostreeServer path r.url ∨ AddressOf c.repoUrl path r.url

/-- Sixty-four hexadecimal digits in lower case. -/
def IsCommit (s : Txt) : Prop := s.length = 64 ∧ ∀ c ∈ s, ('0' ≤ c ∧ c ≤ '9') ∨ ('a' ≤ c ∧ c ≤ 'f')

/-- The last entry of that name in an archive. -/
def LastEntry (es : List (String × Option String)) (name content : String) : Prop :=
  ∃ pre post, es = pre ++ (name, some content) :: post ∧ ∀ e ∈ post, e.1 ≠ name

/-- `u` is `s` without the white space around it. -/
def Trimmed (s u : Txt) : Prop :=
  ∃ l r, s = l ++ u ++ r ∧ (∀ c ∈ l ++ r, c = ' ' ∨ c = '\t' ∨ c = '\r' ∨ c = '\n') ∧
    ∀ c, (u.head? = some c ∨ u.getLast? = some c) → c ≠ ' ' ∧ c ≠ '\t' ∧ c ≠ '\r' ∧ c ≠ '\n'

/-- What the property tree says about the user, unless there is a certificate: OAuth2 before a
password. -/
inductive Login (t : Ptree) (c : Creds) : Prop where
  | oauth2 (o : Ptree) : t.child "oauth2" = some o → c.method = .oauth2 → c.authServer = o.text "server" →
    c.clientId = o.text "client_id" → c.clientSecret = o.text "client_secret" → c.scope = o.text "scope" → Login t c
  | basic (b : Ptree) : t.child "oauth2" = none → t.child "basic_auth" = some b → c.method = .basic →
    c.user = b.text "user" → c.password = b.text "password" → Login t c
  | none : t.child "oauth2" = none → t.child "basic_auth" = none → c.method = .none → Login t c

/-- Credentials read from an archive. -/
structure FromArchive (readJson : String → Option Ptree) (es : List (String × Option String)) (c : Creds) : Prop where
  tree : ∃ text t, LastEntry es "treehub.json" text ∧ readJson text = some t ∧
    c.ostreeServer = ((t.child "ostree").map (fun o => o.text "server")).getD [] ∧
    ((∃ p, LastEntry es "client_auth.p12" p ∧ c.method = .tls ∧ c.p12 = p.toList) ∨
      (∀ e ∈ es, e.1 ≠ "client_auth.p12") ∧ Login t c)
  repo : (∃ s, LastEntry es "tufrepo.url" s ∧ Trimmed s.toList c.repoUrl) ∨ (∀ e ∈ es, e.1 ≠ "tufrepo.url") ∧ c.repoUrl = []

end Aktualizr.Tools.Spec
