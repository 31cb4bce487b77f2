import Verif.Model.Initializer
import Verif.Model.Text

/-!
# Secondaries at the start of the daemon

Models `src/aktualizr_primary/secondary.cc`, `src/aktualizr_primary/secondary_config.cc:85-114`,
`connectAndCreate`, `create`, `connectAndCheck` of `src/libaktualizr-posix/ipuptanesecondary.cc:13-94`,
`saveSecondaryData` and `loadSecondariesInfo` (`storage/sqlstorage.cc:186-210, 255-295`).

Not modelled: sockets and the parsing of the configuration file. What answers at an address is an
arbitrary function of how many were contacted before; what happens at the port on which the daemon
waits is an arbitrary list of events that ends with the timeout. Opening that port succeeds.
-/

namespace Aktualizr.Connect

open M (gets modify lift)

/-- Functions of OpenSSL and of jsoncpp: `IdentifyRSAKeyType`, `Utils::parseJSON`,
`Utils::jsonToCanonicalStr`. -/
structure Env where
  rsaType : String → KeyType
  parse : String → Json
  canon : Json → String

/-- An `IpUptaneSecondary` (ipuptanesecondary.h:59-64). -/
structure Sec where
  ip : String
  port : Nat
  serial : String
  hwId : String
  key : PublicKey
  deriving DecidableEq, Repr

/-- `SecondaryInfo` (types.h). -/
structure Known where
  serial : String
  hwId : String
  type : String
  key : PublicKey
  extra : String
  deriving DecidableEq, Repr

/-- What happens when a Secondary is contacted: no connection, a connection without a proper answer to
the request for information, an answer. Simplified: numbers of key types other than those of
`AKIpUptaneKeyType` are unknown types. -/
inductive Contact where
  | refused
  | silent
  | info (serial hwId key : String) (type : KeyType)
  deriving DecidableEq, Repr

/-- An event at the port on which the daemon waits: someone connects (and is asked for information
over that connection), or `async_accept` fails. -/
inductive Event where
  | connection (ip : String) (port : Nat) (c : Contact)
  | failure
  deriving DecidableEq, Repr

/-- What is on the network: the answer to the n-th attempt to connect, to an address. -/
abbrev Net := Nat → String → Nat → Contact

/-- The storage, the column `extra` of `secondary_ecus` by serial (absent: `NULL`), how many addresses
were contacted, the number of writes before the process dies. -/
structure St where
  store : Prov.Store
  extra : List (String × String) := []
  contacts : Nat := 0
  left : Nat := 0
  deriving DecidableEq

abbrev C (α : Type) := M St α

/-! ## Addresses -/

/-- `std::stoul` (base 10): white space, a sign, digits; the rest is ignored. -/
def stoul (text : List Char) : Except Err Nat :=
  let p := signOf (text.dropWhile isSpace)
  let ds := leadingDigits p.2
  let n := Nat.ofDigitChars 10 ds 0
  if ds = [] then .error (.std "stoul")
  else if 18446744073709551616 ≤ n then .error (.std "stoul out of range")
  else .ok (if p.1 then (18446744073709551616 - n) % 18446744073709551616 else n)

/-- `getIPAndPort` (secondary_config.cc:85-95). -/
def getIPAndPort (addr : List Char) : Except Err (List Char × Nat) :=
  match cut ':' addr with
  | none => .error (.std "Incorrect address string, couldn't find port delimeter")
  | some (ip, rest) => do
    let n ← stoul rest
    return (ip, n % 65536)

/-- `d["ip"] = ip; d["port"] = port;` (secondary.cc:120-122, 183-185, 200-202). -/
def address (ip : String) (port : Nat) : Json := .obj [("ip", .str ip), ("port", .int port)]

/-- `SecondaryWaiter::key` (secondary.cc:139). -/
def key (ip : String) (port : Nat) : String := ip ++ toString port

/-! ## Storage -/

/-- `PublicKey(value, type)` (crypto/crypto.cc:64-70). -/
def makeKey (env : Env) (value : String) (type : KeyType) : Except Err PublicKey :=
  if (type = .rsa2048 ∨ type = .rsa3072 ∨ type = .rsa4096) ∧ type ≠ env.rsaType value then
    .error (.std "RSA key length is incorrect")
  else .ok ⟨value, type⟩

/-- The key of a row (sqlstorage.cc:273-279). -/
def rowKey (env : Env) (row : Prov.SecRow) : Except Err PublicKey :=
  if row.keyType = "" then .ok ⟨"", .unknown⟩ else makeKey env row.key (Prov.keyTypeOf row.keyType)

/-- One row of the query of `loadSecondariesInfo` (sqlstorage.cc:268-285). -/
def knownOf (env : Env) (s : St) (e : String × String) : Except Err Known := do
  let serial ← mkEcuSerial e.1
  let hw ← mkHwId e.2
  let row := (s.store.secs.lookup e.1).getD {}
  let k ← rowKey env row
  return ⟨serial, hw, row.type, k, (s.extra.lookup e.1).getD ""⟩

/-- The loop of `loadSecondariesInfo` (sqlstorage.cc:255-295). -/
def knownOfAll (env : Env) (s : St) : List (String × String) → Except Err (List Known)
  | [] => .ok []
  | e :: es => do
    let k ← knownOf env s e
    let ks ← knownOfAll env s es
    return k :: ks

/-- `Aktualizr::GetSecondaries` (aktualizr.cc:111-116). The Primary is the first of `ecus`. -/
def getSecondaries (env : Env) (s : St) : Except Err (List Known) := knownOfAll env s s.store.ecus.tail

/-- `Aktualizr::SetSecondaryData` (aktualizr.cc:107-109), `saveSecondaryData` (sqlstorage.cc:186-210):
the row is made if there is none. -/
def setData (serial data : String) : C Unit := fun s =>
  match s.left with
  | 0 => (.error .crash, s)
  | n + 1 => (.ok (), { s with
      left := n
      extra := Prov.put serial data s.extra
      store := { s.store with secs := if (s.store.secs.lookup serial).isSome then s.store.secs else s.store.secs ++ [(serial, {})] } })

/-! ## Connecting -/

/-- `EcuSerial::Unknown`, `HardwareIdentifier::Unknown`. -/
def unknown : String := "Unknown"

/-- `IpUptaneSecondary::create` (ipuptanesecondary.cc:30-56). -/
def create (env : Env) (ip : String) (port : Nat) : Contact → Except Err Sec
  | .info s h k t => do
    let serial ← mkEcuSerial s
    let hw ← mkHwId h
    let pub ← makeKey env k t
    return ⟨ip, port, serial, hw, pub⟩
  | _ => .ok ⟨ip, port, unknown, unknown, ⟨"", .unknown⟩⟩

/-- `connectAndCreate` (ipuptanesecondary.cc:13-28). -/
def connectAndCreate (env : Env) (ip : String) (port : Nat) : Contact → Except Err (Option Sec)
  | .refused => .ok none
  | c => do
    let s ← create env ip port c
    return some s

/-- A Secondary as it is known. -/
def asKnown (ip : String) (port : Nat) (k : Known) : Sec := ⟨ip, port, k.serial, k.hwId, k.key⟩

/-- `connectAndCheck` (ipuptanesecondary.cc:58-94): what differs from what is known is only logged. All
exceptions of `create` are `std::exception`s. -/
def connectAndCheck (env : Env) (ip : String) (port : Nat) (k : Known) (c : Contact) : Option Sec :=
  match connectAndCreate env ip port c with
  | .ok (some s) => if s.key.type = .unknown then none else some s
  | .ok none => some (asKnown ip port k)
  | .error _ => some (asKnown ip port k)

/-- One attempt to connect. -/
def contact (net : Net) (ip : String) (port : Nat) : C Contact := fun s =>
  (.ok (net s.contacts ip port), { s with contacts := s.contacts + 1 })

/-- The condition of `find_if` (secondary.cc:171-174). -/
def isAt (env : Env) (ip : String) (port : Nat) (k : Known) : Except Err Bool := do
  let d := env.parse k.extra
  let i ← d.get "ip"
  if i.isStr ip then do
    let p ← d.get "port"
    return (match p with | .int n => n == (port : Int) | _ => false)
  else return false

/-- `find_if` (secondary.cc:171). -/
def findAt (env : Env) (ip : String) (port : Nat) : List Known → Except Err (Option Known)
  | [] => .ok none
  | k :: ks => do
    if ← isAt env ip port k then return some k
    else findAt env ip port ks

/-- A Secondary in the old format (secondary.cc:176-177). -/
def oldFormat (single : Bool) (known : List Known) : Option Known :=
  match known with
  | [k] => if single && k.extra == "" then some k else none
  | _ => none

/-- Connecting to a Secondary that is known (secondary.cc:208-217). -/
def connectKnown (env : Env) (net : Net) (ip : String) (port : Nat) (k : Known) : C Sec := do
  let c ← contact net ip port
  M.orThrow (connectAndCheck env ip port k c) (.std "Unable to connect to or verify IP Secondary")

/-- Connecting to a new Secondary (secondary.cc:188-204): `none` if it has to be waited for. -/
def connectNew (env : Env) (net : Net) (ip : String) (port : Nat) : C (Option Sec) := do
  let c ← contact net ip port
  match ← lift (connectAndCreate env ip port c) with
  | none => pure none
  | some s => do
    setData s.serial (env.canon (address ip port))
    pure (some s)

/-- One turn of the loop of `createIPSecondaries` (secondary.cc:166-217). -/
def connectOne (env : Env) (net : Net) (known : List Known) (single : Bool) (ip : String) (port : Nat) :
    C (Option Sec) := do
  match ← lift (findAt env ip port known) with
  | some k => do
    let s ← connectKnown env net ip port k
    pure (some s)
  | none =>
    match oldFormat single known with
    | some k => do
      setData k.serial (env.canon (address ip port))
      let s ← connectKnown env net ip port k
      pure (some s)
    | none => connectNew env net ip port

/-- The loop (secondary.cc:166-217): the Secondaries, and the keys of those waited for. -/
def connectAll (env : Env) (net : Net) (known : List Known) (single : Bool) :
    List (String × Nat) → C (List Sec × List String)
  | [] => pure ([], [])
  | a :: rest => do
    let o ← connectOne env net known single a.1 a.2
    let r ← connectAll env net known single rest
    match o with
    | some s => pure (s :: r.1, r.2)
    | none => pure (r.1, key a.1 a.2 :: r.2)

/-- The body of `try` in `connectionHdlr` (secondary.cc:114-124). `create` never gives a null pointer. -/
def welcome (env : Env) (ip : String) (port : Nat) (c : Contact) : C (List Sec) := do
  let s ← lift (create env ip port c)
  setData s.serial (env.canon (address ip port))
  pure [s]

/-- `wait` with `connectionHdlr` (secondary.cc:79-136). After a failure to accept nothing is accepted
any more, so the timer runs out. -/
def wait (env : Env) : List String → List Event → C (List Sec)
  | [], _ => pure []
  | _, [] => M.throw (.std "Timeout while waiting for IP Secondaries")
  | _, .failure :: _ => M.throw (.std "Timeout while waiting for IP Secondaries")
  | w, .connection ip port c :: es => do
    let s ← M.catchStd (welcome env ip port c) (fun _ => pure [])
    let r ← wait env (w.filter (· ≠ key ip port)) es
    pure (s ++ r)

/-- `createIPSecondaries` (secondary.cc:159-224). -/
def createIPSecondaries (env : Env) (net : Net) (es : List Event) (cfg : List (String × Nat)) : C (List Sec) := do
  let s ← gets id
  let known ← lift (getSecondaries env s)
  let r ← connectAll env net known (cfg.length == 1) cfg
  let l ← wait env r.2 es
  pure (r.1 ++ l)

/-! ## All Secondaries -/

/-- A Secondary as the client knows it. -/
def member (s : Sec) : String × Prov.Secondary := (s.serial, ⟨s.hwId, "IP", s.key⟩)

/-- `SotaUptaneClient::addSecondary` (sotauptaneclient.cc:27-36) for each (secondary.cc:58-62). The
`std::map` is in the order of insertion here. -/
def addAll (have' : List (String × Prov.Secondary)) : List (String × Prov.Secondary) → Except Err (List (String × Prov.Secondary))
  | [] => .ok have'
  | x :: xs => if have'.any (fun y => y.1 == x.1) then .error (.std "Multiple Secondaries found with the same serial")
    else addAll (have' ++ [x]) xs

/-- `initSecondaries` (secondary.cc:47-70): IP Secondaries come first, members of a `Json::Value` are
sorted. `virt` are the virtual ones (`Model/Managed.lean`). -/
def initSecondaries (env : Env) (net : Net) (es : List Event) (cfg : Option (List (String × Nat)))
    (virt : List (String × Prov.Secondary)) : C (List (String × Prov.Secondary)) := do
  let l ← (match cfg with | none => pure [] | some cfg => createIPSecondaries env net es cfg)
  let m ← lift (addAll [] (l.map member))
  lift (addAll m virt)

end Aktualizr.Connect
