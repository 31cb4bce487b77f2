import Verif.Model.Tuf
import Verif.Model.Monad

/-!
# Downloading images

Models `PackageManagerInterface` (`src/libaktualizr/package_manager/packagemanagerinterface.cc`),
which fetches and verifies images other than OSTree commits, and the download part of
`SotaUptaneClient`. Images are files in the directory `images_path`; the table `target_images`
maps names of Targets to names of files.

Not modelled: report events, progress callbacks, failures of the database, names of files that
leave the directory.
-/

namespace Aktualizr.Download

open M (throwWhen throw gets modify lift)

abbrev Bytes := List UInt8

/-- The hexadecimal digest of a content. -/
abbrev Digest := HashType → Bytes → String

/-- How a transfer ends (`CURLcode`); `interrupted` is `CURLE_ABORTED_BY_CALLBACK`, from the
progress callback (packagemanagerinterface.cc:85) or `HttpClient::reset`. -/
inductive CurlEnd where
  | ok | rangeError | interrupted | writeError | other
  deriving DecidableEq

/-- The directory and the table; `log` are the transfers made, with offset, end and HTTP
status. -/
structure World where
  files : String → Option Bytes := fun _ => none
  names : String → Option String := fun _ => none
  log : List (Nat × CurlEnd × Int) := []

/-- One call of `DownloadHandler`. `kept` is how much the file system takes. -/
structure Chunk where
  data : Bytes
  kept : Nat

/-- One transfer: the calls of the handler, its end, and whether the flow control token lets the
download continue when it was interrupted. -/
structure Transfer where
  chunks : List Chunk
  curl : CurlEnd
  status : Int
  resume : Bool := true

/-- What the system grants during a fetch: opening files for writing, reading, appending, and the
result of `statvfs` (`f_bsize`, `f_bavail`). -/
structure Io where
  create : Bool := true
  read : Bool := true
  append : Bool := true
  space : Option (Nat × Nat) := none

/-- `uint64_t`. -/
def u64 (n : Nat) : Nat := n % 18446744073709551616

/-- `DownloadMetaStruct` (packagemanagerinterface.cc:15-45): length, content given to the hasher,
file open for writing, and whether its stream has failed. -/
structure Ds where
  len : Nat := 0
  hashed : Bytes := []
  out : Option String := none
  bad : Bool := false

/-- The constructor (packagemanagerinterface.cc:17): the type of the first hash. Without a hash it
reads past the end. -/
def hashType (t : Target) : Except Err HashType :=
  match t.hashes with
  | [] => .error (.ub "hashes()[0]")
  | h :: _ => .ok h.type

/-- `hasher()` (packagemanagerinterface.cc:27-36). -/
def hasher (ty : HashType) : Except Err Unit :=
  if ty = .unknown then .error (.std "Unknown hash algorithm") else .ok ()

/-- `checkTargetFile` (packagemanagerinterface.cc:230-240). -/
def World.checkTargetFile (w : World) (t : Target) : Option (Nat × String) :=
  match w.names t.filename with
  | none => none
  | some f => if f = "" then none else
    match w.files f with
    | none => none
    | some b => some (b.length, f)

/-- `openTargetFile` (packagemanagerinterface.cc:242-252). -/
def openTargetFile (io : Io) (t : Target) : M World Bytes := fun w =>
  match w.checkTargetFile t with
  | none => (.error (.std "File doesn't exist for target"), w)
  | some (_, f) => if io.read then (.ok ((w.files f).getD []), w) else (.error (.std "Can't open file"), w)

/-- The loop of `restoreHasherState` (packagemanagerinterface.cc:92-96), which reads 1024 bytes at
a time until nothing is left; `n` bounds the number of reads. -/
def restoreLoop : Nat → Bytes → Bytes → Bytes
  | 0, hashed, _ => hashed
  | n + 1, hashed, data =>
    if data.isEmpty then hashed else restoreLoop n (hashed ++ data.take 1024) (data.drop 1024)

/-- `restoreHasherState` (packagemanagerinterface.cc:90-97): what the hasher has seen
afterwards. -/
def restoreHasherState (hashed data : Bytes) : Bytes := restoreLoop (data.length + 1) hashed data

/-- `createTargetFile` (packagemanagerinterface.cc:254-264): truncates the file named by the first
hash; an empty name is that of the directory, which cannot be opened. -/
def createTargetFile (io : Io) (t : Target) : M World String := fun w =>
  match t.hashes with
  | [] => (.error (.ub "hashes()[0]"), w)
  | h :: _ =>
    if io.create && h.hash != "" then
      (.ok h.hash, { w with
        files := fun f => if f = h.hash then some [] else w.files f
        names := fun n => if n = t.filename then some h.hash else w.names n })
    else (.error (.std "Can't write to file"), w)

/-- `appendTargetFile` (packagemanagerinterface.cc:266-276). -/
def appendTargetFile (io : Io) (t : Target) : M World String := fun w =>
  match w.checkTargetFile t with
  | none => (.error (.std "File doesn't exist for target"), w)
  | some (_, f) => if io.append then (.ok f, w) else (.error (.std "Can't open file"), w)

/-- `removeTargetFile` (packagemanagerinterface.cc:278-285). -/
def removeTargetFile (t : Target) : M World Unit := fun w =>
  match w.checkTargetFile t with
  | none => (.error (.std "File doesn't exist for target"), w)
  | some (_, f) => (.ok (), { w with
      files := fun g => if g = f then none else w.files g
      names := fun n => if n = t.filename then none else w.names n })

/-- `TargetStatus` (include/libaktualizr/packagemanagerinterface.h:28-41). -/
inductive Status where
  | good | notFound | incomplete | oversized | hashMismatch
  deriving DecidableEq

/-- `verifyTarget` (packagemanagerinterface.cc:186-209). -/
def verifyTarget (digest : Digest) (io : Io) (t : Target) : M World Status := do
  let found ← gets (·.checkTargetFile t)
  match found with
  | none => pure .notFound
  | some (size, _) =>
    if size < t.length then pure .incomplete
    else if size > t.length then pure .oversized
    else do
      let ty ← lift (hashType t)
      lift (hasher ty)
      let data ← openTargetFile io t
      let content := restoreHasherState [] data
      if t.matchHash (Hash.mk' ty (digest ty content)) then pure .good else pure .hashMismatch

/-- `checkAvailableDiskSpace` (packagemanagerinterface.cc:211-228). -/
def checkAvailableDiskSpace (io : Io) (required : Nat) : Bool :=
  match io.space with
  | none => true
  | some (bsize, bavail) => decide (u64 (required + 1048576) < u64 (bsize * bavail))

/-- `DownloadHandler` (packagemanagerinterface.cc:47-60) called for each chunk until it refuses
one. -/
def deliver (length : Nat) : List Chunk → Ds → (String → Option Bytes) → Ds × (String → Option Bytes) × Bool
  | [], ds, files => (ds, files, false)
  | c :: cs, ds, files =>
    if u64 (ds.len + c.data.length) > length then (ds, files, true)
    else
      let written := if ds.bad then [] else c.data.take c.kept
      let files' := match ds.out with
        | none => files
        | some f => fun g => if g = f then (files f).map (· ++ written) else files g
      deliver length cs
        { ds with
          len := u64 (ds.len + c.data.length)
          hashed := ds.hashed ++ c.data
          bad := ds.bad || decide (c.kept < c.data.length) }
        files'

/-- `HttpClient::download` (http/httpclient.cc:222-262): curl returns `CURLE_WRITE_ERROR` when the
handler refuses a chunk, and after `reset` the code is replaced. -/
def Transfer.code (tr : Transfer) (refused : Bool) : CurlEnd :=
  if refused && tr.curl != .interrupted then .writeError else tr.curl

/-- The loop of `fetchTarget` (packagemanagerinterface.cc:138-163), for a list of transfers after
which the process dies. `token` says whether there is a flow control token. An exception thrown
by the handler would cross curl's C code. -/
def fetchLoop (io : Io) (token : Bool) (t : Target) (ty : HashType) :
    List Transfer → Ds → M World (Ds × CurlEnd × Int)
  | [], _ => throw .crash
  | tr :: rest, ds => do
    if ty = .unknown ∧ tr.chunks ≠ [] then throw (.ub "exception in curl")
    else do
      let w ← gets id
      let r := deliver t.length tr.chunks ds w.files
      let code := tr.code r.2.2
      modify (fun w => { w with files := r.2.1, log := w.log ++ [(ds.len, code, tr.status)] })
      if code = .rangeError then do
        let f ← createTargetFile io t
        fetchLoop io token t ty rest { out := some f }
      else if code = .interrupted then
        if !token then throw (.ub "null token")
        else if !tr.resume then throw (.std "Download of a target was aborted")
        else do
          let f ← appendTargetFile io t
          fetchLoop io token t ty rest { r.1 with out := some f, bad := false }
      else pure (r.1, code, tr.status)

/-- The body of `fetchTarget` (packagemanagerinterface.cc:104-180). -/
def fetchBody (digest : Digest) (io : Io) (token : Bool) (script : List Transfer) (t : Target) : M World Bool := do
  throwWhen t.hashes.isEmpty (.std "No hash defined for the target")
  let found ← verifyTarget digest io t
  if found = .good then pure true
  else do
    let ty ← lift (hashType t)
    if t.length = 0 then do
      let _ ← createTargetFile io t
      pure true
    else do
      let ds ← (if found = .incomplete then do
          let size ← M.orThrow (← gets (·.checkTargetFile t)) (.ub "empty optional")
          lift (hasher ty)
          let data ← openTargetFile io t
          let f ← appendTargetFile io t
          pure { len := size.1, hashed := restoreHasherState [] data, out := some f : Ds }
        else do
          let f ← createTargetFile io t
          pure { out := some f : Ds })
      throwWhen (!checkAvailableDiskSpace io (u64 (t.length - ds.len))) (.std "Insufficient disk space")
      let r ← fetchLoop io token t ty script ds
      if r.2.1 != .ok || !(decide (200 ≤ r.2.2) && decide (r.2.2 < 400)) then
        throw (.std "Could not download file")
      else do
        lift (hasher ty)
        if t.matchHash (Hash.mk' ty (digest ty r.1.hashed)) then pure true
        else do
          removeTargetFile t
          throw (.std "TargetHashMismatch")

/-- `PackageManagerInterface::fetchTarget` (packagemanagerinterface.cc:99-184). -/
def fetchTarget (digest : Digest) (io : Io) (token : Bool) (script : List Transfer) (t : Target) : M World Bool :=
  M.catchStd (fetchBody digest io token script t) (fun _ => pure false)

/-- One attempt: what the system and the server do, and whether the token lets the client go on
(`canContinue(false)`) afterwards. -/
structure Attempt where
  io : Io := {}
  script : List Transfer
  goOn : Bool := true

/-- The attempts of `downloadImage` (sotauptaneclient.cc:718-730): at most three. -/
def attempts (digest : Digest) (token : Bool) (t : Target) : Nat → List Attempt → M World Bool
  | 0, _ => pure false
  | _, [] => throw .crash
  | k + 1, a :: rest => do
    let success ← fetchTarget digest a.io token a.script t
    if success || (token && !a.goOn) then pure success
    else attempts digest token t k rest

/-- `SotaUptaneClient::downloadImage` (sotauptaneclient.cc:694-756) of a Target that is for the
Primary or not an OSTree commit; others count as downloaded without doing anything. The exception
thrown on failure is caught in the function itself. -/
def downloadImage (digest : Digest) (token : Bool) (tries : List Attempt) (t : Target) : M World Bool :=
  attempts digest token t 3 tries

/-- The loop of `downloadImages` (sotauptaneclient.cc:656-661): the Targets downloaded. -/
def downloadLoop (digest : Digest) (token : Bool) : List (Target × List Attempt) → M World (List Target)
  | [] => pure []
  | (t, tries) :: rest => do
    let ok ← downloadImage digest token tries t
    let done ← downloadLoop digest token rest
    pure (if ok then t :: done else done)

end Aktualizr.Download
