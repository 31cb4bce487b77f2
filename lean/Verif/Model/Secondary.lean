import Verif.Model.Repos
import Verif.Model.Versions

/-!
# aktualizr-secondary with the file update agent

Models `src/aktualizr_secondary/aktualizr_secondary.cc`, `aktualizr_secondary_metadata.cc`,
`aktualizr_secondary_file.cc` and `update_agent_file.cc`. The server around it is in `Model/Buffer.lean`: an
exception that leaves a handler ends the process.

OSTree Secondaries are in `Model/SecondaryOstree.lean`; the part they share takes the update agent's
`isTargetSupported` as a parameter. Not modelled: keys and manifests, the import of installed versions. The serial and the
hardware id are given (`uptaneInitialize` stores them once, see `Model/Versions.lean`).
-/

namespace Aktualizr.Sec

open M (throwWhen throw gets modify lift catchStd)

abbrev Bytes := List UInt8

/-- The hexadecimal digest of a content, and the text `getHash` returns when the hasher has been asked before:
`crypto_hash_*_final` (crypto.h:46, 64) wipes its state. -/
structure Hashing where
  digest : HashType → Bytes → String
  spent : HashType → List (Option Bytes) → String

/-! ## Metadata from the Primary -/

/-- A request to put metadata (aktualizr_secondary.cc:271-310): names of roles and documents. -/
structure PutMeta where
  director : List (String × String)
  image : List (String × String)
  deriving DecidableEq

/-- The bundle (aktualizr_secondary.cc:261-310): the first document of each role counts, other names are
ignored. -/
def PutMeta.bundle (m : PutMeta) (repo : Repo) (role : String) : Option String :=
  match repo with
  | .director => if role = "root" ∨ role = "targets" then m.director.lookup role else none
  | .image => if role = "root" ∨ role = "timestamp" ∨ role = "snapshot" ∨ role = "targets" then m.image.lookup role else none

/-- `Metadata` (aktualizr_secondary_metadata.h:25-28). -/
structure Metadata where
  bundle : Repo → String → Option String
  directorRoot : Int
  imageRoot : Int

/-- `getMetaFromBundle` (tuf.cc:482-489). -/
def fromBundle (b : Repo → String → Option String) (repo : Repo) (role : String) : Except Err String :=
  match b repo role with
  | some s => .ok s
  | none => .error (.std "Metadata not found")

/-- The constructor (aktualizr_secondary_metadata.cc:3-8). -/
def Metadata.make (env : Env) (b : Repo → String → Option String) : Except Err Metadata := do
  let d ← extractVersionUntrusted env (← fromBundle b .director "root")
  let i ← extractVersionUntrusted env (← fromBundle b .image "root")
  return { bundle := b, directorRoot := d, imageRoot := i }

/-- `getRoleMetadata` (aktualizr_secondary_metadata.cc:23-41); version -1 is `Version()`. -/
def Metadata.serve (m : Metadata) (repo : Repo) (role : String) (version : Int) : Option String :=
  if role = "root" ∧ version ≠ -1 ∧ (match repo with | .director => m.directorRoot | .image => m.imageRoot) < version then none
  else m.bundle repo role

/-- The fetcher. -/
def Metadata.ctx (m : Metadata) (env : Env) (clock : Nat → TimeStamp) : Ctx :=
  { env, clock, net := fun _ repo role version => m.serve repo role version, limited := false }

/-! ## State -/

/-- `MultiPartHasher` (crypto.h:26-72): its type and what was done with it; `none` is a call of `getHash`. -/
structure Hasher where
  type : HashType
  past : List (Option Bytes) := []
  deriving DecidableEq

/-- `MultiPartHasher::create` (crypto.cc:671-684). -/
def Hasher.create (ty : HashType) : Option Hasher := if ty = .unknown then none else some { type := ty }

/-- The data a hasher was given. -/
def Hasher.data (h : Hasher) : Bytes := h.past.flatMap (fun x => x.getD [])

/-- `getHash` (crypto.h:50, 68). -/
def Hasher.getHash (h : Hasher) (hs : Hashing) : Hash :=
  Hash.mk' h.type (if h.past.all (·.isSome) then hs.digest h.type h.data else hs.spent h.type h.past)

/-- `AktualizrSecondaryFile` with its update agent. `firmware` and `newtarget` are the files `firmware.txt` and
`firmware.txt.newtarget`; these, `w.db` and `versions` survive a restart. `pending = none` is
`Target::Unknown()`. `up` says whether the process runs. -/
structure State where
  serial : String
  hwid : String
  w : World := { fuel := 0 }
  versions : VersionDb := {}
  firmware : Option Bytes := none
  newtarget : Option Bytes := none
  pending : Option Target := none
  name : String := "unknown"
  hasher : Option Hasher := none
  up : Bool := false

/-- Computations of the Secondary. -/
abbrev S (α : Type) := M State α

/-- Run a computation of the metadata layer. -/
def inMeta {α : Type} (m : U α) : S α := M.zoom (·.w) (fun w s => { s with w := w }) m

/-- One effect on files or database, or the crash in front of it. -/
def effect (f : State → State) : S Unit := fun s =>
  match s.w.fuel with
  | 0 => (.error .crash, s)
  | n + 1 => (.ok (), f { s with w := { s.w with fuel := n } })

/-- What is answered (`data::ResultCode`). -/
inductive Answer where
  | ok | verificationFailed | downloadFailed | installFailed | internalError | generalError
  deriving DecidableEq, Repr

/-! ## Verification -/

/-- `Targets::getTargets` (tuf.h:291-305). -/
def targetsFor (ts : Targets) (serial hwid : String) : List Target :=
  ts.targets.filter (fun t => t.ecus.any (fun e => serial == e.1 && hwid == e.2))

/-- `FileUpdateAgent::isTargetSupported` (update_agent_file.cc:9). -/
def isTargetSupported (t : Target) : Bool := t.type != "OSTREE"

/-- The end of `doFullVerification` and of `initPendingTargetIfAny`
(aktualizr_secondary.cc:105-124, 178-190); `supported` is the update agent's `isTargetSupported`. -/
def choosePending (supported : Target → Bool) : S Answer := do
  let s ← gets id
  match targetsFor s.w.dir.targets s.serial s.hwid with
  | [t] =>
    if !supported t then pure .verificationFailed
    else do
      modify (fun s => { s with pending := some t })
      pure .ok
  | _ => pure .verificationFailed

/-- `AktualizrSecondary::doFullVerification` (aktualizr_secondary.cc:68-125). -/
def doFullVerification (supported : Target → Bool) (c : Ctx) : S Answer := do
  let d ← catchStd (do inMeta (Director.updateMeta c); pure true) (fun _ => pure false)
  if !d then pure .verificationFailed
  else do
    let i ← catchStd (do inMeta (Image.updateMeta c); pure true) (fun _ => pure false)
    if !i then pure .verificationFailed
    else do
      let s ← gets id
      match s.w.img.targets with
      | none => throw (.ub "null targets")
      | some top =>
        if !Director.matchTargetsWithImageTargets s.w.dir top then pure .verificationFailed
        else choosePending supported

/-- `putMetaHdlr` (aktualizr_secondary.cc:271-329): the metadata object is made outside of `try`. -/
def putMeta (supported : Target → Bool) (env : Env) (clock : Nat → TimeStamp) (m : PutMeta) : S Answer := do
  let md ← lift (Metadata.make env m.bundle)
  doFullVerification supported (md.ctx env clock)

/-- `initPendingTargetIfAny` (aktualizr_secondary.cc:170-191). -/
def initPending (supported : Target → Bool) (c : Ctx) : S Unit := do
  let d ← catchStd (do inMeta (Director.checkMetaOffline c); pure true) (fun _ => pure false)
  if d then do
    let _ ← choosePending supported
    pure ()
  else pure ()

/-! ## The file update agent -/

/-- How appending to the file goes: `kept` bytes get into it; a failure is noticed by `write`, is not noticed
because it happens when the buffer is flushed by `close`, whose result is not looked at, or the process dies. -/
inductive Fate where
  | unnoticed | noticed | dies
  deriving DecidableEq, Repr

/-- What the system grants to `receiveData`. -/
structure Io where
  opens : Bool := true
  tells : Bool := true
  kept : Nat
  fate : Fate := .unnoticed
  deriving DecidableEq, Repr

/-- `getTargetHash` (update_agent_file.cc:140-143). -/
def firstHash (t : Target) : Except Err Hash :=
  match t.hashes with
  | [] => .error (.ub "hashes()[0]")
  | h :: _ => .ok h

/-- `MultiPartHasher::update` through the pointer (update_agent_file.cc:135). -/
def hasherUpdate (data : Bytes) : S Unit := do
  let s ← gets id
  match s.hasher with
  | none => throw (.ub "null hasher")
  | some h => modify (fun s => { s with hasher := some { h with past := h.past ++ [some data] } })

/-- The end of `FileUpdateAgent::receiveData` (update_agent_file.cc:117-138): appending and hashing. -/
def appendChunk (io : Io) (old data : Bytes) : S Answer := do
  modify (fun s => { s with newtarget := some (old ++ data.take io.kept) })
  match io.fate with
  | .dies => throw .crash
  | .noticed => pure .downloadFailed
  | .unnoticed => do
    hasherUpdate data
    pure .ok

/-- `FileUpdateAgent::receiveData` (update_agent_file.cc:81-138). Opening the file creates it. -/
def receiveData (io : Io) (t : Target) (data : Bytes) : S Answer := do
  if !io.opens then pure .downloadFailed
  else do
    modify (fun s => { s with newtarget := some (s.newtarget.getD []) })
    if !io.tells then pure .downloadFailed
    else do
      let s ← gets id
      let old := s.newtarget.getD []
      if old.length ≥ t.length then pure .downloadFailed
      else do
        if old.length = 0 then do
          let h ← lift (firstHash t)
          modify (fun s => { s with hasher := Hasher.create h.type })
        else pure ()
        appendChunk io old data

/-- `AktualizrSecondaryFile::receiveData` and `uploadDataHdlr` (aktualizr_secondary_file.cc:36-44, 64-86). -/
def upload (io : Io) (data : Bytes) : S Answer := do
  let s ← gets id
  match s.pending with
  | none => pure .generalError
  | some t => receiveData io t data

/-- `FileUpdateAgent::install` (update_agent_file.cc:29-71); `renames` says whether renaming succeeds. When the
hash does not match, the hasher is asked three times. -/
def agentInstall (hs : Hashing) (renames : Bool) (t : Target) : S Answer := do
  let s ← gets id
  match s.newtarget with
  | none => pure .downloadFailed
  | some b =>
    if b.length ≠ t.length then do
      effect (fun s => { s with newtarget := none })
      pure .downloadFailed
    else
      match s.hasher with
      | none => throw (.ub "null hasher")
      | some h =>
        if t.matchHash (h.getHash hs) then
          if !renames then throw (.std "filesystem_error")
          else do
            effect (fun s => { s with firmware := some b, newtarget := none })
            modify (fun s => { s with name := t.filename, hasher := none })
            pure .ok
        else do
          modify (fun s => { s with hasher := some { h with past := h.past ++ [none, none, none] } })
          let _ ← lift (firstHash t)
          pure .downloadFailed

/-- `AktualizrSecondary::install` and `installHdlr` (aktualizr_secondary.cc:38-66, 331-346). The file agent never
asks for a reboot. -/
def install (env : Env) (hs : Hashing) (renames : Bool) : S Answer := do
  let s ← gets id
  match s.pending with
  | none => pure .internalError
  | some t => do
    let r ← agentInstall hs renames t
    if r = .ok then do
      effect (fun s => { s with versions := s.versions.saveInstalledVersion env s.serial t .current })
      modify (fun s => { s with pending := none })
      pure r
    else pure r

/-- `FileUpdateAgent::getInstalledImageInfo` (update_agent_file.cc:11-27): name, length, hash; `hash` is
`generateVersionHashStr` (SHA-256). -/
def installedImage (s : State) (hs : Hashing) : String × Nat × String :=
  match s.firmware with
  | some b => (s.name, b.length, hs.digest .sha256 b)
  | none => ("unknown", 0, hs.digest .sha256 [])

/-- Starting the process: `AktualizrSecondaryFile` (aktualizr_secondary_file.cc:9-32) and `initialize`
(aktualizr_secondary_file.cc:34). -/
def start (env : Env) (clock : Nat → TimeStamp) (fuel : Nat) : S Unit := do
  modify (fun s => { s with
    w := { db := s.w.db, fuel := fuel }, pending := none, hasher := none, name := "unknown", up := false })
  let s ← gets id
  let cur ← lift (s.versions.loadCurrent env "")
  modify (fun s => { s with name := match cur with | some t => t.filename | none => "unknown" })
  initPending isTargetSupported { env, clock, net := fun _ _ _ _ => none }
  modify (fun s => { s with up := true })

/-! ## Executions -/

/-- What can happen to a Secondary; `fuel` bounds the number of writes before the process dies. -/
inductive Op where
  | putMeta (m : PutMeta) (clock : Nat → TimeStamp) (fuel : Nat)
  | upload (io : Io) (data : Bytes)
  | install (renames : Bool) (fuel : Nat)
  | restart (clock : Nat → TimeStamp) (fuel : Nat)

/-- How a computation ends for an observer: an exception and a crash end the process, undefined behaviour is
the error case. -/
def observe {α : Type} (m : S α) (s : State) : Except String (Option α × State) :=
  match m s with
  | (.ok a, s') => .ok (some a, s')
  | (.error (.ub what), _) => .error what
  | (.error _, s') => .ok (none, { s' with up := false })

/-- A request, which a process that does not run does not get. -/
def request {α : Type} (m : S α) (fuel : Nat) (s : State) : Except String (Option α × State) :=
  if s.up then observe m { s with w := { s.w with fuel := fuel } } else .ok (none, s)

/-- One operation and the answer, if there is one. -/
def step (env : Env) (hs : Hashing) (s : State) : Op → Except String (Option Answer × State)
  | .putMeta m clock fuel => request (putMeta isTargetSupported env clock m) fuel s
  | .upload io data => request (upload io data) 0 s
  | .install renames fuel => request (install env hs renames) fuel s
  | .restart clock fuel => observe (do start env clock fuel; pure .ok) s

/-- A history; stops at undefined behaviour. -/
def run (env : Env) (hs : Hashing) (s : State) : List Op → Except String State
  | [] => .ok s
  | o :: os => do run env hs (← step env hs s o).2 os

end Aktualizr.Sec
