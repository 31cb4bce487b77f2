import Verif.Model.Archive
import Verif.Props.C74
import Verif.Lemmas.Monad
import Verif.Lemmas.Except

/-!
# C87: credentials in archives
-/

namespace Aktualizr

open Arch M
open SecOst (Entry readFile)

namespace Spec

/-- There is exactly one file of the name in what can be read of the archive, and this is its content. -/
def Holds (a : OnDisk) (name text : String) : Prop :=
  ∃ b pre post, a = some b ∧ b.entries = pre ++ { name := name, data := text } :: post ∧ ∀ e ∈ pre ++ post, e.name ≠ name

/-- No file of the name can be found in the archive. -/
def Lacks (a : OnDisk) (name : String) : Prop := ∀ b, a = some b → ∀ e ∈ b.entries, e.name ≠ name

/-- Every file of the archive can be read to its end, and there is nothing behind. -/
def Sound (a : OnDisk) : Prop := ∃ b, a = some b ∧ (∀ e ∈ b.entries, e.whole = true) ∧ b.behind = []

end Spec

theorem string_append_empty (s : String) : s ++ "" = s := by simp

theorem readFile_holds {a : OnDisk} {name text : String} (h : Spec.Holds a name text) : readFile a.listed name = .ok text := by
  obtain ⟨b, pre, post, rfl, he, hne⟩ := h
  have h1 : pre.filter (fun e => e.name == name) = [] := by
    rw [List.filter_eq_nil_iff]
    intro e hm; simpa using hne e (by simp [hm])
  have h2 : post.filter (fun e => e.name == name) = [] := by
    rw [List.filter_eq_nil_iff]
    intro e hm; simpa using hne e (by simp [hm])
  simp [readFile, OnDisk.listed, he, List.filter_append, h1, h2, String.join]

theorem readFile_lacks {a : OnDisk} {name : String} (h : Spec.Lacks a name) : ∃ e, readFile a.listed name = .error e := by
  cases a with
  | none => exact ⟨_, rfl⟩
  | some b =>
    have h1 : b.entries.filter (fun e => e.name == name) = [] := by
      rw [List.filter_eq_nil_iff]
      intro e hm; simpa using h b rfl e hm
    refine ⟨.std "could not extract", ?_⟩
    simp [readFile, OnDisk.listed, h1]

/-- C87. What is packed is what is read: of every file its content, and no others. -/
theorem C87_pack {m : List (String × String)} (hm : (m.map Prod.fst).Nodup) :
    (∀ name text, (name, text) ∈ m → readFile (writeArchive m).listed name = .ok text) ∧
    (∀ name, name ∉ m.map Prod.fst → ∃ e, readFile (writeArchive m).listed name = .error e) := by
  constructor
  · intro name text h
    apply readFile_holds
    obtain ⟨pre, post, rfl⟩ := List.append_of_mem h
    refine ⟨_, pre.map (fun p => { name := p.1, data := p.2 }), post.map (fun p => { name := p.1, data := p.2 }), rfl, by simp, ?_⟩
    rw [List.map_append, List.map_cons, List.nodup_append] at hm
    obtain ⟨_, h2, h3⟩ := hm
    rw [List.nodup_cons] at h2
    intro e he
    rw [← List.map_append, List.mem_map] at he
    obtain ⟨p, hp, rfl⟩ := he
    intro hn
    rcases List.mem_append.1 hp with hp | hp
    · exact h3 p.1 (List.mem_map.2 ⟨p, hp, rfl⟩) name (by simp) hn
    · exact h2.1 (List.mem_map.2 ⟨p, hp, hn⟩)
  · intro name h
    apply readFile_lacks
    intro b hb e he
    cases hb
    obtain ⟨p, hp, rfl⟩ := List.mem_map.1 he
    intro hn
    exact h (List.mem_map.2 ⟨p, hp, hn⟩)

theorem removeFile_ok {io : RemoveIo} {a b : OnDisk} {name : String} (h : removeFile io a name = .ok b) :
    ∃ x, a = some x ∧ (∃ e ∈ x.entries, e.name = name) ∧
      b = if io.closes then some { entries := (x.entries.filter (fun e => e.name != name)).map (fun e => { e with whole := true }) } else none := by
  unfold removeFile at h
  cases a with
  | none => cases h
  | some x =>
    refine ⟨x, rfl, ?_⟩
    dsimp only at h
    split at h
    · cases h
    split at h
    · cases h
    split at h
    · rename_i hany
      split at h
      · cases h
      · cases h
        obtain ⟨e, he, hn⟩ := List.any_eq_true.1 hany
        exact ⟨⟨e, he, by simpa using hn⟩, rfl⟩
    · cases h

/-- C87. Whatever the archive, a file that was removed from it cannot be read from it, and nothing can be read from it that was not in it. -/
theorem C87_removed {io : RemoveIo} {a b : OnDisk} {name : String} (h : removeFile io a name = .ok b) :
    Spec.Lacks b name ∧ ∀ y, b = some y → ∃ x, a = some x ∧
      ∀ e ∈ y.entries, ∃ e' ∈ x.entries, e'.name = e.name ∧ e'.data = e.data := by
  obtain ⟨x, rfl, _, rfl⟩ := removeFile_ok h
  constructor
  · intro y hy e he
    split at hy
    · cases hy
      obtain ⟨e', he', rfl⟩ := List.mem_map.1 he
      simpa using (List.mem_filter.1 he').2
    · cases hy
  · intro y hy
    split at hy
    · cases hy
      refine ⟨x, rfl, ?_⟩
      intro e he
      obtain ⟨e', he', rfl⟩ := List.mem_map.1 he
      exact ⟨e', (List.mem_filter.1 he').1, rfl, rfl⟩
    · cases hy

theorem map_whole {l : List Entry} (h : ∀ e ∈ l, e.whole = true) : l.map (fun e => { e with whole := true }) = l := by
  induction l with
  | nil => rfl
  | cons x l ih =>
    rw [List.map_cons, ih (fun e he => h e (by simp [he]))]
    have : x.whole = true := h x (by simp)
    cases x
    simp_all

/-- C87. If the archive was sound and the disk took all of the new one, everything else in it is as before, in the same order. Missing: the
same for a damaged archive and a full disk; see `C87_cut`, `C87_lost`, `C87_full_disk`. -/
theorem C87_rest_partial {io : RemoveIo} {a b : OnDisk} {name : String} (h : removeFile io a name = .ok b) (hs : Spec.Sound a)
    (hc : io.closes = true) : Spec.Sound b ∧ ∀ other, other ≠ name → readFile b.listed other = readFile a.listed other := by
  obtain ⟨x, rfl, _, rfl⟩ := removeFile_ok h
  obtain ⟨_, hx, hw, _⟩ := hs
  cases hx
  rw [hc, if_pos rfl, map_whole (fun e he => hw e (List.mem_filter.1 he).1)]
  refine ⟨⟨_, rfl, fun e he => hw e (List.mem_filter.1 he).1, rfl⟩, ?_⟩
  intro other hne
  have : (x.entries.filter (fun e => e.name != name)).filter (fun e => e.name == other) = x.entries.filter (fun e => e.name == other) := by
    rw [List.filter_filter]
    apply List.filter_congr
    intro e _
    by_cases he : e.name = other
    · simp [he, hne]
    · simp [he]
  simp only [readFile, OnDisk.listed, Option.map_some, this]

/-- C87. Removing a file fails only if there is no archive, the file is not in it, or the disk does not allow it; the archive is then as
before (`Except`). -/
theorem C87_fails {io : RemoveIo} {a : OnDisk} {name : String} :
    (∃ e, removeFile io a name = .error e) ↔
      Spec.Lacks a name ∨ io.creates = false ∨ io.writes = false ∨ io.renames = false := by
  cases a with
  | none => exact ⟨fun _ => .inl nofun, fun _ => ⟨_, rfl⟩⟩
  | some x =>
    have hl : Spec.Lacks (some x) name ↔ x.entries.any (fun e => e.name == name) = false := by
      rw [List.any_eq_false]
      constructor
      · intro h e he; simpa using h x rfl e he
      · intro h y hy e he
        cases hy
        simpa using h e he
    rw [hl]
    unfold removeFile
    dsimp only
    cases io.creates <;> cases io.writes <;> cases io.renames <;> cases x.entries.any (fun e => e.name == name) <;> simp

/-- C87. When a device has got its own credentials, the shared ones are gone from the archive, and `treehub.json` is gone too if the disk
allowed it; what it has to know of the server is still there. -/
theorem C87_forgets_partial {io1 io2 : RemoveIo} {a b : OnDisk} (h : forgetShared io1 io2 a = .ok b) (hs : Spec.Sound a)
    (hc : io1.closes = true ∧ io2.closes = true) :
    Spec.Lacks b "autoprov_credentials.p12" ∧
    (io2.creates = true → io2.writes = true → io2.renames = true → Spec.Lacks b "treehub.json") ∧
    readServerUrl b = readServerUrl a ∧ readServerCa b = readServerCa a ∧
    ∀ other, other ≠ "autoprov_credentials.p12" → other ≠ "treehub.json" → readFile b.listed other = readFile a.listed other := by
  unfold forgetShared at h
  obtain ⟨m, h1, h2⟩ := exc_bind_ok.1 h
  obtain ⟨hl1, _⟩ := C87_removed h1
  obtain ⟨hs1, hr1⟩ := C87_rest_partial h1 hs hc.1
  have key : Spec.Lacks b "autoprov_credentials.p12" ∧
      (io2.creates = true → io2.writes = true → io2.renames = true → Spec.Lacks b "treehub.json") ∧
      ∀ other, other ≠ "autoprov_credentials.p12" → other ≠ "treehub.json" → readFile b.listed other = readFile a.listed other := by
    cases h3 : removeFile io2 m "treehub.json" with
    | ok c =>
      rw [h3] at h2
      cases h2
      obtain ⟨hl2, hsub⟩ := C87_removed h3
      obtain ⟨_, hr2⟩ := C87_rest_partial h3 hs1 hc.2
      refine ⟨?_, fun _ _ _ => hl2, fun other h5 h6 => (hr2 other h6).trans (hr1 other h5)⟩
      intro y hy e he
      obtain ⟨x, hx, hall⟩ := hsub y hy
      obtain ⟨e', he', hn, _⟩ := hall e he
      rw [← hn]
      exact hl1 x hx e' he'
    | error err =>
      rw [h3] at h2
      cases h2
      refine ⟨hl1, ?_, fun other h5 _ => hr1 other h5⟩
      intro i1 i2 i3
      rcases C87_fails.1 ⟨err, h3⟩ with h5 | h5 | h5 | h5
      · exact h5
      · rw [i1] at h5; cases h5
      · rw [i2] at h5; cases h5
      · rw [i3] at h5; cases h5
  refine ⟨key.1, key.2.1, ?_, ?_, key.2.2⟩
  · unfold readServerUrl
    rw [key.2.2 _ (by decide) (by decide)]
  · unfold readServerCa
    rw [key.2.2 _ (by decide) (by decide)]

/-! ## Handing over to an OSTree Secondary -/

theorem provider_archive {ca cert pkey server : String} :
    SecOst.extract (getTreehubCredentials { creds := some (ca, cert, pkey), server := server }).listed =
      .ok (ca, cert, pkey, SecOst.trimUrl server) := by
  have hn : (([("ca.pem", ca), ("client.pem", cert), ("pkey.pem", pkey), ("server.url", server)] : List (String × String)).map
      Prod.fst).Nodup := by simp
  have h := (C87_pack hn).1
  have hg : getTreehubCredentials { creds := some (ca, cert, pkey), server := server } =
      writeArchive [("ca.pem", ca), ("client.pem", cert), ("pkey.pem", pkey), ("server.url", server)] := rfl
  rw [hg]
  unfold SecOst.extract
  rw [h "ca.pem" ca (by simp), h "client.pem" cert (by simp), h "pkey.pem" pkey (by simp), h "server.url" server (by simp)]
  rfl

/-- C87. A Secondary that is given the archive of the Primary, whatever it was given before, fetches the commit from the Primary's OSTree
server, written without white space around it, with the Primary's credentials. -/
theorem C87_handover {ca cert pkey server : String} (hca : ca ≠ "") (hcert : cert ≠ "") (hpkey : pkey ≠ "") {t : Target}
    {s : SecOst.State} (hnew : ∀ c ∈ s.repo, ¬t.sha256Hash.toList <+: c.toList) :
    ∃ url, Spec.UrlOf server url ∧
      SecOst.downloadTargetRev {} t (getTreehubCredentials { creds := some (ca, cert, pkey), server := server }).listed s =
        (.ok (.ofCode .ok "Pulling OSTree image was successful"),
          { s with
            keys := ⟨ca, cert, pkey⟩, repo := s.repo ++ [t.sha256Hash],
            pulls := s.pulls ++ [⟨url, some ⟨ca, cert, pkey⟩, t.sha256Hash⟩] }) := by
  refine ⟨_, SecOst.trimUrl_urlOf server, ?_⟩
  have hr : s.repo.any (fun c => t.sha256Hash.toList.isPrefixOf c.toList) = false := by
    rw [List.any_eq_false]
    intro c hc
    rw [List.isPrefixOf_iff_prefix]
    exact hnew c hc
  unfold SecOst.downloadTargetRev
  rw [provider_archive]
  have hk : s.keys.load ca cert pkey = ⟨ca, cert, pkey⟩ := by simp [SecOst.Keys.load, hca, hcert, hpkey]
  have hu : (SecOst.Keys.mk ca cert pkey).used = some ⟨ca, cert, pkey⟩ := by simp [SecOst.Keys.used, hca, hcert, hpkey]
  dsimp only
  rw [run_bind modify_eq, hk]
  unfold SecOst.pull
  have h0 : ∀ w : SecOst.State, (throwWhen (!({} : SecOst.PullIo).sysroot) (.std "could not load sysroot") : SecOst.O Unit) w = (.ok (), w) :=
    fun _ => rfl
  rw [run_bind (h0 _)]
  simp only [Bool.not_true, Bool.false_eq_true, if_false]
  rw [run_bind gets_eq]
  simp only [id, hr, Bool.and_false, Bool.false_eq_true, if_false]
  rw [run_bind modify_eq, run_bind modify_eq, hu]
  rfl

/-- C87. Unless all of the credentials are in files and stored, nothing is handed over, and a Secondary that is given nothing fetches nothing. -/
theorem C87_nothing {p : Provider} (h : p.caFile = false ∨ p.certFile = false ∨ p.pkeyFile = false ∨ p.creds = none)
    {io : SecOst.PullIo} {t : Target} {s : SecOst.State} :
    getTreehubCredentials p = none ∧
    SecOst.downloadTargetRev io t (getTreehubCredentials p).listed s =
      (.ok (.ofCode .downloadFailed "Error loading Treehub credentials"), s) := by
  have hn : getTreehubCredentials p = none := by
    unfold getTreehubCredentials
    rcases h with h | h | h | h <;> rw [h] <;> simp
  rw [hn]
  exact ⟨rfl, rfl⟩

/-! ## What goes wrong -/

/-- A provisioning archive. -/
def archCase : Archive where
  entries := [
    { name := "autoprov.url", data := "https://gw.example.com:443\n" },
    { name := "autoprov_credentials.p12", data := "p12" },
    { name := "treehub.json", data := "{}" },
    { name := "server_ca.pem", data := "CERT" }]

/-- The last file is damaged: only its beginning can be read. -/
def archDamaged : Archive := { entries := archCase.entries.take 3 ++ [{ name := "server_ca.pem", data := "CE", whole := false }] }

/-- The header of the last file is damaged. -/
def archBehind : Archive := { entries := archCase.entries.take 3, behind := archCase.entries.drop 3 }

/-- C87, violated. A damaged file that could not be read before is cut, and then read as if it were whole: here the certificate of the
server. -/
theorem C87_cut :
    readServerCa (some archDamaged) = "" ∧
    ∃ b, forgetShared {} {} (some archDamaged) = .ok b ∧ readServerCa b = "CE" :=
  ⟨by decide +kernel, _, rfl, by decide +kernel⟩

/-- C87, violated. The files behind a damaged header are thrown away with the old archive, and this counts as a success. -/
theorem C87_lost :
    ∃ b, forgetShared {} {} (some archBehind) = .ok (some b) ∧ ∀ e ∈ archBehind.behind, e.name ∉ (b.entries ++ b.behind).map (·.name) :=
  ⟨_, rfl, by decide +kernel⟩

/-- C87, violated. On a full disk the archive is replaced by what is none, and this counts as a success: the device does not know the address
of its server afterwards. -/
theorem C87_full_disk :
    removeFile { closes := false } (some archCase) "autoprov_credentials.p12" = .ok none ∧
    readServerUrl (some archCase) = "https://gw.example.com:443" ∧ readServerUrl none = "" :=
  ⟨rfl, by decide +kernel, rfl⟩

/-! ## Cases -/

example : Spec.Sound (some archCase) := ⟨_, rfl, by decide +kernel, rfl⟩

example : ∃ b, forgetShared {} {} (some archCase) = .ok (some b) ∧ b.entries.map (·.name) = ["autoprov.url", "server_ca.pem"] ∧
    readServerUrl (some b) = "https://gw.example.com:443" ∧ readServerCa (some b) = "CERT" :=
  ⟨_, rfl, by decide +kernel, by decide +kernel, by decide +kernel⟩

/-- Without `treehub.json`, as it should be. -/
example : ∃ b, forgetShared {} {} (some { entries := archCase.entries.take 2 }) = .ok (some b) ∧ b.entries.map (·.name) = ["autoprov.url"] :=
  ⟨_, rfl, by decide +kernel⟩

example : readFile (writeArchive [("a", "x"), ("b", "y")]).listed "b" = .ok "y" :=
  (C87_pack (by decide)).1 "b" "y" (by simp)

/-- What a Secondary finds in the archive of a Primary. -/
example : SecOst.extract (getTreehubCredentials { creds := some ("CA", "CERT", "KEY"), server := "https://treehub.example.com/api \n" }).listed =
    .ok ("CA", "CERT", "KEY", "https://treehub.example.com/api") := by
  rw [provider_archive]
  decide +kernel

example : getTreehubCredentials { pkeyFile := false, creds := some ("CA", "CERT", "KEY"), server := "https://treehub" } = none := rfl

example : ∃ e, removeFile { renames := false } (some archCase) "treehub.json" = .error e :=
  C87_fails.2 (.inr (.inr (.inr rfl)))

end Aktualizr
