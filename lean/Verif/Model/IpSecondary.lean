import Verif.Model.Client
import Verif.Model.Secondary

/-!
# The Primary's side of an IP Secondary

Models `src/libaktualizr-posix/ipuptanesecondary.cc:96-462` and the answer to a version request in
`src/aktualizr_secondary/aktualizr_secondary.cc:225-242`. Encoding is in `Model/Cer.lean`, the
receiving of answers in `Model/Buffer.lean`.

Not modelled: sockets. A call of `Asn1Rpc` asks something and gets an answer, or `nothing` (no
connection, connection lost, undecodable). Different threads use different objects
(`sendFirmwareAsync`), so there are no races on `protocol_version`.
-/

namespace Aktualizr.Ip

open Sec (Bytes)

/-- The six documents of a metadata bundle (secondary_provider.cc, `getMetadata`). -/
structure Bundle where
  directorRoot : String
  directorTargets : String
  imageRoot : String
  imageTimestamp : String
  imageSnapshot : String
  imageTargets : String
  deriving DecidableEq, Repr

/-- Requests (`AKIpUptaneMes`). -/
inductive Req where
  | version (v : Nat)
  | info
  | putMeta (b : Bundle)
  | putMeta2 (director image : List (String × String))
  | manifest
  | sendFirmware (data : Bytes)
  | uploadData (data : Bytes)
  | downloadOstreeRev (tlsCred : Bytes)
  | install (name : String)
  deriving DecidableEq, Repr

/-- Answers; `version` is a `long`. Result codes of the new messages are integers, those of the old
ones say success or not, except for `installResp`. -/
inductive Resp where
  | nothing
  | version (v : Int)
  | info
  | putMeta (success : Bool)
  | putMeta2 (code : Int) (desc : String)
  | manifest (json : Option String)
  | sendFirmware (success : Bool)
  | uploadData (code : Int) (desc : String)
  | downloadOstreeRev (code : Int) (desc : String)
  | install (code : Int)
  | install2 (code : Int) (desc : String)
  deriving DecidableEq, Repr

/-- What is at the other end: the answer to the last of the requests asked so far. -/
abbrev Peer := List Req → Resp

/-- An `IpUptaneSecondary`: its protocol version (ipuptanesecondary.h:61, initially 0) and what it
asked so far. -/
structure St where
  version : Nat := 0
  asked : List Req := []
  deriving DecidableEq, Repr

abbrev P (α : Type) := M St α

/-- `Asn1Rpc` (asn1_message.cc:55-100). -/
def rpc (peer : Peer) (r : Req) : P Resp := fun s =>
  (.ok (peer (s.asked ++ [r])), { s with asked := s.asked ++ [r] })

/-- `static_cast<uint32_t>` of a `long`. -/
def toUint32 (v : Int) : Nat := (v % 4294967296).toNat

/-- `ping` (ipuptanesecondary.cc:268-277). -/
def ping (peer : Peer) : P Bool := do
  let r ← rpc peer .info
  pure (r == .info)

def latestVersion : Nat := 2

/-- `getSecondaryVersion` (ipuptanesecondary.cc:101-133). -/
def getSecondaryVersion (peer : Peer) : P Unit := do
  match ← rpc peer (.version latestVersion) with
  | .version v =>
    let v := toUint32 v
    M.modify (fun s => { s with version := if v ≤ latestVersion then v else latestVersion })
  | _ => do
    let up ← ping peer
    if up then M.modify (fun s => { s with version := 1 }) else pure ()

/-- A result from an integer code of the Secondary: `static_cast<Numeric>`. -/
def remote (code : Int) (desc : String) : InstResult := .ofCode ⟨code, ""⟩ desc

def unexpected : InstResult := .ofCode .internalError "Unexpected protocol version"

/-- `putMetadata_v1` (ipuptanesecondary.cc:159-201). -/
def putMetadata1 (peer : Peer) (b : Bundle) : P InstResult := do
  match ← rpc peer (.putMeta b) with
  | .putMeta true => pure (.ofCode .ok "")
  | .putMeta false => pure (.ofCode .verificationFailed "Error sending metadata to Secondary")
  | _ => pure (.ofCode .internalError "failed to respond to a request to receive metadata.")

/-- `putMetadata_v2` (ipuptanesecondary.cc:203-243). -/
def putMetadata2 (peer : Peer) (b : Bundle) : P InstResult := do
  match ← rpc peer (.putMeta2 [("root", b.directorRoot), ("targets", b.directorTargets)]
      [("root", b.imageRoot), ("timestamp", b.imageTimestamp), ("snapshot", b.imageSnapshot), ("targets", b.imageTargets)]) with
  | .putMeta2 code desc => pure (remote code desc)
  | _ => pure (.ofCode .internalError "failed to respond to a request to receive metadata.")

/-- `putMetadata` (ipuptanesecondary.cc:135-157); `none`: the Primary has no metadata. -/
def putMetadata (peer : Peer) (b : Option Bundle) : P InstResult :=
  match b with
  | none => pure (.ofCode .internalError "Unable to load stored metadata from Primary")
  | some b => do
    getSecondaryVersion peer
    let s ← M.gets id
    if s.version = 2 then putMetadata2 peer b
    else if s.version = 1 then putMetadata1 peer b
    else pure unexpected

/-- `getManifest` (ipuptanesecondary.cc:245-266); the result is the text, to be parsed. -/
def getManifest (peer : Peer) : P (Option String) := do
  getSecondaryVersion peer
  match ← rpc peer .manifest with
  | .manifest j => pure j
  | _ => pure none

/-- `uploadFirmwareData` (ipuptanesecondary.cc:435-460). -/
def uploadData (peer : Peer) (data : Bytes) : P InstResult := do
  match ← rpc peer (.uploadData data) with
  | .uploadData code desc => pure (remote code desc)
  | .nothing => pure (.ofCode .unknown "failed to respond to a request to receive firmware data.")
  | _ => pure (.ofCode .internalError "returned an invalid reponse to a request to receive firmware data.")

def chunkSize : Nat := 1024

/-- The loop of `uploadFirmware` (ipuptanesecondary.cc:418-422): `rest` is what the reader has not
read yet. It runs for at most `n` rounds; `none`: it is still running. The sizes do not
overflow 64 bits. -/
def uploadLoop (peer : Peer) (size : Nat) : Nat → Bytes → Nat → InstResult → St → Option (InstResult × Nat × St)
  | 0, _, _, _, _ => none
  | n + 1, rest, total, last, s =>
    if total < size && last.success then
      match uploadData peer (rest.take chunkSize) s with
      | (.ok r, s') => uploadLoop peer size n (rest.drop chunkSize) (total + (rest.take chunkSize).length) r s'
      | (.error _, s') => some (last, total, s')
    else some (last, total, s)

/-- `uploadFirmware` (ipuptanesecondary.cc:405-433) after opening the image file. -/
def uploadFirmware (peer : Peer) (n : Nat) (size : Nat) (image : Bytes) (s : St) : Option (InstResult × St) :=
  match uploadLoop peer size n image 0 (.ofCode .ok "") s with
  | none => none
  | some (last, total, s') =>
    some (if last.success && total == size then .ofCode .ok ""
      else if !last.success then last
      else .ofCode .downloadFailed "Incomplete upload", s')

/-- `downloadOstreeRev` (ipuptanesecondary.cc:379-403). -/
def downloadOstreeRev (peer : Peer) (cred : Bytes) : P InstResult := do
  match ← rpc peer (.downloadOstreeRev cred) with
  | .downloadOstreeRev code desc => pure (remote code desc)
  | _ => pure (.ofCode .unknown "failed to respond to a request to download an OSTree commit.")

/-- `sendFirmware_v1` (ipuptanesecondary.cc:293-328). Simplification: the data has less than 2³¹
bytes (`SetString` casts the size to `int`). -/
def sendFirmware1 (peer : Peer) (data : Bytes) : P InstResult := do
  match ← rpc peer (.sendFirmware data) with
  | .sendFirmware true => pure (.ofCode .ok "")
  | .sendFirmware false => pure (.ofCode .downloadFailed "")
  | _ => pure (.ofCode .downloadFailed "failed to respond to a request to receive firmware.")

/-- What the Primary provides: credentials for OSTree, the image file if it can be opened. -/
structure Provider where
  cred : Bytes
  file : Option Bytes

/-- `sendFirmware` (ipuptanesecondary.cc:279-291, 330-336) with at most `n` rounds of the upload
loop. -/
def sendFirmware (peer : Peer) (n : Nat) (p : Provider) (t : Target) (s : St) : Option (Except Err InstResult × St) :=
  if s.version = 2 then
    if t.isOstree then some (downloadOstreeRev peer p.cred s)
    else match p.file with
      | none => some (.error (.std "File doesn't exist for target"), s)
      | some f => (uploadFirmware peer n t.length f s).map (fun x => (.ok x.1, x.2))
  else if s.version = 1 then
    if t.isOstree then some (sendFirmware1 peer p.cred s)
    else match p.file with
      | none => some (.error (.std "File doesn't exist for target"), s)
      | some f => some (sendFirmware1 peer f s)
  else some (.ok unexpected, s)

/-- `install_v1` (ipuptanesecondary.cc:351-374). -/
def install1 (peer : Peer) (t : Target) : P InstResult := do
  match ← rpc peer (.install t.filename) with
  | .install code => pure (remote code "")
  | _ => pure (.ofCode .internalError "failed to respond to an installation request.")

/-- `invokeInstallOnSecondary` (ipuptanesecondary.cc:462-485). -/
def install2 (peer : Peer) (t : Target) : P InstResult := do
  match ← rpc peer (.install t.filename) with
  | .install2 code desc => pure (remote code desc)
  | _ => pure (.ofCode .unknown "failed to respond to an installation request.")

/-- `install` (ipuptanesecondary.cc:338-351). -/
def install (peer : Peer) (t : Target) : P InstResult := do
  let s ← M.gets id
  if s.version = 2 then install2 peer t
  else if s.version = 1 then install1 peer t
  else pure unexpected

/-- `versionHdlr` of aktualizr-secondary (aktualizr_secondary.cc:225-242). -/
def versionHdlr (_ : Nat) : Resp := .version 2

/-- The operations of `SecondaryInterface` on one Secondary. -/
inductive Op where
  | putMetadata (b : Option Bundle)
  | getManifest
  | sendFirmware (p : Provider) (t : Target)
  | install (t : Target)

/-- One operation; the upload loop runs for at most `n` rounds. -/
def Op.step (peer : Peer) (n : Nat) (s : St) : Op → Option St
  | .putMetadata b => some (Ip.putMetadata peer b s).2
  | .getManifest => some (Ip.getManifest peer s).2
  | .sendFirmware p t => (Ip.sendFirmware peer n p t s).map (·.2)
  | .install t => some (Ip.install peer t s).2

/-- A sequence of operations. -/
def run (peer : Peer) (n : Nat) : St → List Op → Option St
  | s, [] => some s
  | s, o :: os => match o.step peer n s with
    | none => none
    | some s' => run peer n s' os

end Aktualizr.Ip
