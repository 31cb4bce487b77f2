import Verif.Model.SecondaryOstree

/-!
# Archives with credentials

Models `Utils::writeArchive` and `Utils::removeFileFromArchive` (`src/libaktualizr/utilities/utils.cc:543-675`), what
`SecondaryProvider::getTreehubCredentials` packs for an OSTree Secondary, and what is left of the provisioning archive by
`Initializer::initTlsCreds`. `Utils::readFileFromArchive` is `SecOst.readFile`.

Of libarchive: an archive is what it lists, file by file, up to the first header it cannot read; what it wrote without an error it
reads back. The format is not modelled.
-/

namespace Aktualizr.Arch

open SecOst (Entry readFile)

/-- An archive: the files libarchive lists, and those behind a header it cannot read. -/
structure Archive where
  entries : List Entry
  behind : List Entry := []

/-- What is at the path of an archive; `none`: nothing, or something that cannot be opened as an archive. -/
abbrev OnDisk := Option Archive

/-- What a reader gets to see. -/
def OnDisk.listed (a : OnDisk) : Option (List Entry) := a.map (·.entries)

/-- `Utils::writeArchive` (utils.cc:543-575), of a map; the errors of libarchive are those of memory and are left out. -/
def writeArchive (m : List (String × String)) : OnDisk := some { entries := m.map (fun p => { name := p.1, data := p.2 }) }

/-- What the outside does during `removeFileFromArchive`: the new file can be created, writing into it gives no error before the archive
is closed, the end of the archive gets to the disk, the new file can take the place of the old one. -/
structure RemoveIo where
  creates : Bool := true
  writes : Bool := true
  closes : Bool := true
  renames : Bool := true

/-- `Utils::removeFileFromArchive` (utils.cc:584-675): the archive afterwards; it stays as it is with an exception. Errors of reading a
file (utils.cc:645-648) and of closing (utils.cc:664-667) are only logged. -/
def removeFile (io : RemoveIo) (a : OnDisk) (name : String) : Except Err OnDisk :=
  match a with
  | none => .error (.std "archive error")
  | some a =>
    if !io.creates then .error (.std "Unable to parse provisioning credentials")
    else if !io.writes then .error (.std "archive error")
    else if a.entries.any (fun e => e.name == name) then
      if !io.renames then .error (.std "boost::filesystem::rename")
      else .ok (if io.closes then
          some { entries := (a.entries.filter (fun e => e.name != name)).map (fun e => { e with whole := true }) }
        else none)
    else .error (.std "Requested file not found in archive!")

/-- The end of `initTlsCreds` (initializer.cc:190-200). -/
def forgetShared (io1 io2 : RemoveIo) (a : OnDisk) : Except Err OnDisk := do
  let b ← removeFile io1 a "autoprov_credentials.p12"
  match removeFile io2 b "treehub.json" with
  | .ok c => return c
  | .error _ => return b

/-- `boost::trim_if(…, is_any_of(" \t\r\n"))` (utils.cc:525-527). -/
def trimmed (s : String) : String := String.ofList (Tools.trim s.toList)

/-- `Bootstrap::readServerUrl` (bootstrap.cc:46-61). -/
def readServerUrl (a : OnDisk) : String :=
  match readFile a.listed "autoprov.url" with
  | .ok s => trimmed s
  | .error _ => ""

/-- `Bootstrap::readServerCa` (bootstrap.cc:63-79). -/
def readServerCa (a : OnDisk) : String :=
  match readFile a.listed "server_ca.pem" with
  | .ok s => s
  | .error _ => ""

/-- What `getTreehubCredentials` uses: which of `tls.ca_source`, `tls.cert_source` and `tls.pkey_source` are files, what
`loadTlsCreds` gives, and `pacman.ostree_server`. -/
structure Provider where
  caFile : Bool := true
  certFile : Bool := true
  pkeyFile : Bool := true
  creds : Option (String × String × String)
  server : String

/-- `SecondaryProvider::getTreehubCredentials` (secondary_provider.cc:66-93); `none` stands for the empty text, which is no archive. The
order of the files is that of the map. -/
def getTreehubCredentials (p : Provider) : OnDisk :=
  if !p.pkeyFile || !p.certFile || !p.caFile then none
  else match p.creds with
    | none => none
    | some (ca, cert, pkey) =>
      writeArchive [("ca.pem", ca), ("client.pem", cert), ("pkey.pem", pkey), ("server.url", p.server)]

end Aktualizr.Arch
