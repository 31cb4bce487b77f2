import Verif.Props.C78Device

/-!
# C78: cases, and where the claim fails
-/

namespace Aktualizr.CertProv

open M Spec
open Conf (Txt)

namespace Case

/-- A configuration as for a device with its own credentials. -/
def toml : Txt := "[tls]\nserver_url_path = \"/s/url\"\n[import]\nbase_path = \"/i\"\ntls_cacert_path = \"ca\"\ntls_clientcert_path = \"cert\"\ntls_pkey_path = \"key\"".toList

def fs : Txt → Conf.Entry := fun p => if p = "/a.toml".toList then .file toml else if p = "/empty.toml".toList then .file [] else .missing

/-- A certificate as text: enough to tell them apart. -/
def write (c : Cert) : Option String := some (c.name ++ "|" ++ c.key ++ "|" ++ c.issuer ++ "|" ++ c.signer)

def cn (text : String) : Option String := some (String.ofList (text.toList.takeWhile (· ≠ '|')))

def archive : List SecOst.Entry :=
  [{ name := "autoprov.url", data := "https://ota.example\n" }, { name := "autoprov_credentials.p12", data := "p12" }, { name := "server_ca.pem", data := "serverca" }]

def around : Around where
  conf := { fs := fs, archiveUrl := fun _ => none }
  file := fun p => if p = "/ca.pem".toList then "fleet ca" else if p = "/ca.key".toList then "fleet key" else ""
  archive := fun p => if p = "/credentials.zip".toList then some archive else none
  parseP12 := fun s => if s = "p12" then some ⟨"ca", "shared cert", "shared key"⟩ else if s = "mine" then some ⟨"ca", "fox|p", "fox key"⟩ else none
  randomName := "green-fox"
  newKey := fun _ => some "new key"
  publicOf := fun k => "public " ++ k
  readCert := fun s => if s = "fleet ca" then some ("fleet", "public fleet key") else none
  readKey := fun s => if s = "" then none else some s
  write := write
  server := fun r => if r.as.cert = "shared cert" then some "mine" else none
  copies := fun _ => .works
  transfers := fun _ => .works

def fleetOptions : Options where
  credentials := "/credentials.zip".toList
  fleetCa := "/ca.pem".toList
  fleetCaKey := "/ca.key".toList
  name := some "red-fox"
  rootCa := true
  serverUrl := true
  localDir := "/out".toList
  config := ["/a.toml".toList]

/-- What is on disk after a run, at some paths. -/
def seen (a : Around) (o : Options) (s : St) (ps : List String) : List (Option String) := ps.map (fun p => (main a o s).2.disk p.toList)

/-- What is on the target after a run, at some paths. -/
def seenRemote (a : Around) (o : Options) (s : St) (ps : List String) : List (Option String) := ps.map (fun p => (main a o s).2.remote p.toList)

def okay {α β : Type} (e : Except α β) : Bool := match e with
  | .ok _ => true
  | .error _ => false

theorem okay_unit {α : Type} {e : Except α Unit} (h : okay e = true) : e = .ok () := by
  cases e with
  | ok u => rfl
  | error x => cases h

/-- A configuration, if it could be read. -/
def got {α : Type} (e : Except α Conf.Config) : Conf.Config := match e with
  | .ok c => c
  | .error _ => Conf.defaults

theorem okay_got {α : Type} {e : Except α Conf.Config} (h : okay e = true) : e = .ok (got e) := by
  cases e with
  | ok u => rfl
  | error x => cases h

theorem okay_pair {α β : Type} {p : Except α Unit × β} (h : okay p.1 = true) : p = (.ok (), p.2) := by
  obtain ⟨e, s⟩ := p
  exact Prod.ext (okay_unit h) rfl

theorem fleet_ok : main around fleetOptions {} = (.ok (), (main around fleetOptions {}).2) := okay_pair (by decide +kernel)

def sharedOptions : Options := { fleetOptions with fleetCa := [], fleetCaKey := [], name := none, localDir := [], target := "root@device".toList }

/-- With a fleet CA. -/
example : seen around fleetOptions {} ["/out/i/key", "/out/i/cert", "/out/i/ca", "/out/s/url"] =
    [some "new key", some "red-fox|public new key|fleet|fleet key", some "serverca", some "https://ota.example"] := by decide +kernel

/-- With shared credentials. -/
example : okay (main around sharedOptions {}).1 = true ∧ seenRemote around sharedOptions {} ["/i/key", "/i/cert", "/i/ca"] =
      [some "fox key", some "fox|p", some "ca"] ∧
    (main around sharedOptions {}).2.requests = [⟨"https://ota.example/devices".toList, "green-fox", ⟨"ca", "shared cert", "shared key"⟩⟩] := by
  decide +kernel

/-- Without configuration. -/
example : seen around { fleetOptions with config := [], directory := some "/import".toList } {} ["/out/import/pkey.pem", "/out/import/gateway.url"] =
    [some "new key", some "https://ota.example"] := by decide +kernel

/-! ### The hypotheses of the theorems on devices -/

def config : Conf.Config := got (Conf.load around.conf { config := some fleetOptions.config })

/-- The paths in a configuration. -/
def paths (c : Conf.Config) : List Txt :=
  [c.text ("import", "base_path"), c.text ("import", "tls_pkey_path"), c.text ("import", "tls_clientcert_path"), c.text ("import", "tls_cacert_path"),
    c.text ("tls", "server_url_path")]

theorem config_values : okay (Conf.load around.conf { config := some fleetOptions.config }) = true ∧
    paths config = ["/i".toList, "key".toList, "cert".toList, "ca".toList, "/s/url".toList] := by decide +kernel

theorem loaded : Conf.load around.conf { config := some fleetOptions.config } = .ok config := okay_got config_values.1

theorem config_paths : config.text ("import", "base_path") = "/i".toList ∧ config.text ("import", "tls_pkey_path") = "key".toList ∧
    config.text ("import", "tls_clientcert_path") = "cert".toList ∧ config.text ("import", "tls_cacert_path") = "ca".toList ∧
    config.text ("tls", "server_url_path") = "/s/url".toList := by
  have h := config_values.2
  unfold paths at h
  simp only [List.cons.injEq] at h
  exact ⟨h.1, h.2.1, h.2.2.1, h.2.2.2.1, h.2.2.2.2.1⟩

theorem importing : Importing config true where
  base := by rw [config_paths.1]; decide
  pkey := by rw [config_paths.2.1]; decide
  cert := by rw [config_paths.2.2.1]; decide
  ca := by rw [config_paths.2.2.2.1]; decide

theorem apart (p : Places) (h : BelongsAt around fleetOptions p) : Apart (join fleetOptions.localDir) fleetOptions p := by
  rcases h with ⟨h, -⟩ | ⟨-, -, c, hc, h⟩
  · cases h
  · rw [loaded] at hc
    injection hc with hc
    subst hc
    obtain ⟨e1, e2, e3, e4, e5⟩ := config_paths
    obtain ⟨h1, h2, h3, h4⟩ := h _ e1 (by decide)
    rw [e2] at h1
    rw [e3] at h2
    rw [e4] at h3
    rw [e5] at h4
    have h1 := h1 (by decide)
    have h2 := h2 (by decide)
    have h3 := h3 rfl (by decide)
    have h4 := h4 rfl (by decide)
    constructor
    · rw [h1, h2]; decide
    · intro _; rw [h1, h2, h3]; decide
    · intro _; rw [h1, h2, h3, h4]; decide

def env : Prov.Env := { Prov.Case.toy with cn := cn }

/-- The files as the device sees them. -/
def dev (q : Txt) : Option String := (main around fleetOptions {}).2.disk (join fleetOptions.localDir q)

def start : Prov.Start := { files := importFiles config dev, cfg := { mode := .deviceCred, primarySerial := "prim", primaryHwId := "board" }, fuel := 40 }

/-- The device starts, and uses what it was given. -/
theorem device_result : okay (Prov.run env Prov.Case.easy start {} ()).1 = true ∧
    (Prov.run env Prov.Case.easy start {} ()).2.store.device = some ("red-fox", true) ∧
    (Prov.run env Prov.Case.easy start {} ()).2.store.pkey = some "new key" ∧
    (Prov.run env Prov.Case.easy start {} ()).2.store.ca = some "serverca" := by decide +kernel

theorem started : (Prov.run env Prov.Case.easy start {} ()).1 = .ok () := okay_unit device_result.1

/-- The theorem on devices applies. -/
example : ∃ id url t new, Identity around fleetOptions id ∧ ServerUrl around fleetOptions url ∧ Obtained around fleetOptions id url t new ∧
    Uses env start {} (Prov.run env Prov.Case.easy start {} ()).2.store true t :=
  C78_device (c := config) fleet_ok (by decide) (by decide) loaded importing apart (fun _ => rfl) rfl rfl started

/-- The device, as the configuration is read there. -/
def world : Conf.World :=
  { fs := fun p => if p = "/a.toml".toList then .file toml
      else match dev p with
        | some t => .file t.toList
        | none => .missing
    archiveUrl := fun _ => none }

def readHere : Conf.Config := got (Conf.readConfig around.conf { config := some fleetOptions.config })

theorem readHere_values : okay (Conf.readConfig around.conf { config := some fleetOptions.config }) = true ∧ readHere.text ("tls", "server") = [] ∧
    paths readHere = ["/i".toList, "key".toList, "cert".toList, "ca".toList, "/s/url".toList] := by decide +kernel

theorem readHere_ok : Conf.readConfig around.conf { config := some fleetOptions.config } = .ok readHere := okay_got readHere_values.1

theorem readHere_paths : readHere.text ("import", "base_path") = "/i".toList ∧ readHere.text ("tls", "server_url_path") = "/s/url".toList := by
  have h := readHere_values.2.2
  unfold paths at h
  simp only [List.cons.injEq] at h
  exact ⟨h.1, h.2.2.2.2.1⟩

theorem checkDirs_congr {f g : Txt → Conf.Entry} (l : List Txt) (h : ∀ p ∈ l, f p = g p) : Conf.checkDirs f l = Conf.checkDirs g l := by
  induction l with
  | nil => rfl
  | cons p l ih =>
    unfold Conf.checkDirs
    rw [h p (by simp), ih fun q hq => h q (by simp [hq])]

/-- What is read depends only on the files named. -/
theorem readConfig_congr {w w' : Conf.World} (l : List Txt) (h : ∀ p ∈ l, w.fs p = w'.fs p) :
    Conf.readConfig w { config := some l } = Conf.readConfig w' { config := some l } := by
  have h1 : Conf.configPaths w { config := some l } = Conf.configPaths w' { config := some l } := by
    unfold Conf.configPaths
    simp only [checkDirs_congr l h]
  unfold Conf.readConfig
  rw [h1]
  cases hp : Conf.configPaths w' { config := some l } with
  | error e => rfl
  | ok ps =>
    have hps := Conf.paths_ok hp
    simp only [Option.getD_some] at hps
    subst hps
    have h2 : Conf.collect w.fs ps = Conf.collect w'.fs ps := by
      unfold Conf.collect
      congr 1
      rw [List.flatMap_def, List.flatMap_def]
      congr 1
      refine List.map_congr_left fun p hp => ?_
      unfold Conf.filesAt
      rw [h p hp]
    have h3 : ∀ lc c, Conf.updateFromDirs w.fs lc ps c = Conf.updateFromDirs w'.fs lc ps c := by
      intro lc c
      unfold Conf.updateFromDirs
      rw [h2]
    rw [exc_bind_of_ok, exc_bind_of_ok, h3]

theorem readThere_ok : Conf.readConfig world { config := some fleetOptions.config } = .ok readHere := by
  rw [← readHere_ok]
  refine readConfig_congr _ fun p hp => ?_
  rw [List.mem_singleton.1 hp]
  have h1 : world.fs "/a.toml".toList = .file toml := by unfold world; simp only [if_pos]
  have h2 : around.conf.fs "/a.toml".toList = .file toml := by unfold around; simp only [Case.fs, if_pos]
  exact h1.trans h2.symm

def there : Conf.Config := got (Conf.load world { config := some fleetOptions.config })

theorem there_values : okay (Conf.load world { config := some fleetOptions.config }) = true ∧
    there.text ("tls", "server") = "https://ota.example".toList := by decide +kernel

theorem there_ok : Conf.load world { config := some fleetOptions.config } = .ok there := okay_got there_values.1

/-- The theorem on the address applies. -/
example : Tools.Spec.Trimmed "https://ota.example\n".toList (there.text ("tls", "server")) := by
  refine C78_server (a := around) (o := fleetOptions) (c0 := readHere) (w := world) (cmd := { config := some fleetOptions.config })
    (dev := dev) (text := "https://ota.example\n") fleet_ok (by decide) (by decide) rfl ?_ apart readHere_ok readThere_ok there_ok
    (fun _ => rfl) ?_ readHere_values.2.1 (by rw [readHere_paths.2]; rfl) (by rw [readHere_paths.1]; decide)
  · exact ⟨[], _, _, rfl, rfl, rfl, rfl, by decide⟩
  · intro t ht
    show world.fs _ = _
    unfold world
    simp only
    rw [readHere_paths.2] at ht ⊢
    rw [if_neg (by decide), ht]

end Case

/-! ### Where the claim fails -/

open Case

/-- The program exits successfully although nothing got to the target (main.cc:424-426). -/
theorem C78_failure_hidden : ∃ a o s, okay (main a o s).1 = true ∧ o.target ≠ [] ∧
    seenRemote a o s ["/i/key", "/i/cert"] = [none, none] :=
  ⟨{ around with transfers := fun _ => .fails none }, sharedOptions, {}, by decide +kernel⟩

/-- A configuration without paths for importing: the program puts the files under the names of the storage, and a device of that
configuration does not import them (main.cc:244-262, invstorage.cc:24-27). -/
theorem C78_not_imported : ∃ a o c, okay (main a o {}).1 = true ∧ o.config ≠ [] ∧ Conf.load a.conf { config := some o.config } = .ok c ∧
    seen a o {} ["/out/var/sota/import/pkey.pem", "/out/var/sota/import/client.pem"] = [some "new key", some "red-fox|public new key|fleet|fleet key"] ∧
    ∀ dev, let f := importFiles c dev; f.cert = none ∧ f.pkey = none ∧ f.ca = none := by
  refine ⟨around, { fleetOptions with config := ["/empty.toml".toList] }, _, ?_, by decide, okay_got (by decide +kernel), by decide +kernel, ?_⟩
  · decide +kernel
  · intro dev
    have h : (paths (got (Conf.load around.conf { config := some ["/empty.toml".toList] }))) = ["/var/sota/import".toList, [], [], [], []] := by
      decide +kernel
    unfold paths at h
    simp only [List.cons.injEq] at h
    unfold importFiles
    exact ⟨by simp only; rw [if_pos h.2.2.1], by simp only; rw [if_pos h.2.1], by simp only; rw [if_pos h.2.2.2.1]⟩

/-- Copying fails in the middle: there is a new key, the old certificate is gone (main.cc:142-150, 379-400). -/
theorem C78_half : ∃ a o s, okay (main a o s).1 = false ∧ seen a o s ["/out/i/key", "/out/i/cert"] = [some "new key", none] ∧
    s.disk "/out/i/key".toList = some "old key" ∧ s.disk "/out/i/cert".toList = some "old certificate" :=
  ⟨{ around with copies := fun p => if p = "/out/i/cert".toList then .fails none else .works }, fleetOptions,
    { disk := fun p => if p = "/out/i/key".toList then some "old key" else if p = "/out/i/cert".toList then some "old certificate" else none },
    by decide +kernel⟩

/-- The certificate and the key of the fleet CA need not belong together: the certificate of the device is then not signed by its issuer
(crypto.cc:575-640 does not compare them). -/
theorem C78_ca_mismatch : ∃ a o, okay (main a o {}).1 = true ∧ a.readCert (a.file o.fleetCa) = some ("fleet", "public fleet key") ∧
    a.readKey (a.file o.fleetCaKey) = some "other key" ∧ a.publicOf "other key" ≠ "public fleet key" ∧
    seen a o {} ["/out/i/cert"] = [some "red-fox|public new key|fleet|other key"] :=
  ⟨{ around with file := fun p => if p = "/ca.pem".toList then "fleet ca" else "other key" }, fleetOptions, by decide +kernel⟩

/-- An archive without address: the file is empty and the program exits successfully (bootstrap.cc:56-59). -/
theorem C78_no_address : ∃ a o, okay (main a o {}).1 = true ∧ o.serverUrl = true ∧ seen a o {} ["/out/s/url"] = [some ""] :=
  ⟨{ around with archive := fun _ => some [{ name := "server_ca.pem", data := "serverca" }] }, fleetOptions, by decide +kernel⟩

/-- A configuration with a relative path. -/
def Case.elsewhere : Conf.World where
  fs := fun p => if p = "/a.toml".toList then (.file
    "[tls]\nserver_url_path = \"server.url\"\n[import]\nbase_path = \"/import\"\ntls_clientcert_path = \"client.pem\"\ntls_pkey_path = \"pkey.pem\"".toList)
    else .missing
  archiveUrl := fun _ => none

/-- A relative `server_url_path` is below the directory for importing here, but not on the device (main.cc:264-268, config.cc:179-183). -/
theorem C78_relative_address : ∃ a o c, okay (main a o {}).1 = true ∧ Conf.load a.conf { config := some o.config } = .ok c ∧
    seen a o {} ["/out/import/server.url", "/out/" ++ String.ofList (c.text ("tls", "server_url_path"))] = [some "https://ota.example", none] := by
  refine ⟨{ around with conf := elsewhere }, fleetOptions, _, ?_, okay_got (by decide +kernel), ?_⟩ <;> decide +kernel

end Aktualizr.CertProv
