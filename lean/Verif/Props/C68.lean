import Verif.Model.Config
import Verif.Lemmas.Text
import Verif.Lemmas.Except

/-!
# C68: which value an option has
-/

namespace Aktualizr
namespace Conf

/-! ## Specification -/

namespace Spec

/-- The section a line opens. -/
def header (l : Txt) : Option Txt :=
  match trim l with
  | '[' :: rest => (cut ']' rest).map (fun p => trim p.1)
  | _ => none

/-- Key and value of a line. -/
def assign (l : Txt) : Option (Txt × Txt) :=
  match trim l with
  | [] => none
  | c :: cs => if c = ';' ∨ c = '#' ∨ c = '[' then none else (cut '=' (c :: cs)).map (fun p => (trim p.1, trim p.2))

/-- The last section opened in the lines. -/
def InSection (lines : List Txt) (sect : Txt) : Prop :=
  ∃ pre h mid, lines = pre ++ h :: mid ∧ header h = some sect ∧ ∀ l ∈ mid, header l = none

/-- A line below the header of the section assigns the value to the key. -/
def SaysIn (lines : List Txt) (sect key raw : Txt) : Prop :=
  ∃ pre l post, lines = pre ++ l :: post ∧ InSection pre sect ∧ assign l = some (key, raw)

/-- The same of a file. -/
def Says (content sect key raw : Txt) : Prop := SaysIn (pieces '\n' content) sect key raw

/-- An option as documented in docs/ota-client-guide/modules/ROOT/pages/aktualizr-config-options.adoc. -/
structure Option' where
  sect : String
  key : String
  kind : Kind
  default : Val

/-- A file gives a value to an option. -/
def Gives (content : Txt) (o : Option') (v : Val) : Prop :=
  ∃ raw, Says content o.sect.toList o.key.toList raw ∧ o.kind.read raw = some v

/-- There is a configuration file of that name at the path. -/
def Provides (fs : Txt → Entry) (path name content : Txt) : Prop :=
  match fs path with
  | .missing => False
  | .file c => name = fileName path ∧ content = c
  | .dir files => (name, some content) ∈ files ∧ ∃ stem, name = stem ++ ".toml".toList

/-- The file of that name that is used: the last one. -/
def Active (fs : Txt → Entry) (configs : List Txt) (name content : Txt) : Prop :=
  ∃ pre p post, configs = pre ++ p :: post ∧ Provides fs p name content ∧ ∀ q ∈ post, ∀ c, ¬ Provides fs q name c

/-- No two files of a directory have the same name. -/
def Names (fs : Txt → Entry) : Prop := ∀ p files, fs p = .dir files → (files.map Prod.fst).Nodup

/-- What the command line says about an option. -/
def cmdValue (cmd : Cmd) (o : Option') : Option Val :=
  if o.sect = "logger" ∧ o.key = "loglevel" then cmd.loglevel.map .num
  else if o.sect = "tls" ∧ o.key = "server" then cmd.tlsServer.map .text
  else if o.sect = "uptane" ∧ o.key = "repo_server" then cmd.repoServer.map .text
  else if o.sect = "uptane" ∧ o.key = "director_server" then cmd.directorServer.map .text
  else if o.sect = "provision" ∧ o.key = "primary_ecu_serial" then cmd.primarySerial.map .text
  else if o.sect = "provision" ∧ o.key = "primary_ecu_hardware_id" then cmd.primaryHwId.map .text
  else none

def source : Kind := .enum ["pkcs11"] "file"

/-- The options of the documentation with their types and defaults, but the default of `provision.mode`, which the
documentation gives as `SharedCred`. -/
def documented : List Option' :=
  [⟨"logger", "loglevel", .int, .num 2⟩,
   ⟨"p11", "module", .path, t ""⟩, ⟨"p11", "pass", .text, t ""⟩, ⟨"p11", "uptane_key_id", .text, t ""⟩,
   ⟨"p11", "tls_cacert_id", .text, t ""⟩, ⟨"p11", "tls_pkey_id", .text, t ""⟩, ⟨"p11", "tls_clientcert_id", .text, t ""⟩,
   ⟨"tls", "server", .text, t ""⟩, ⟨"tls", "server_url_path", .path, t ""⟩, ⟨"tls", "ca_source", source, t "file"⟩,
   ⟨"tls", "pkey_source", source, t "file"⟩, ⟨"tls", "cert_source", source, t "file"⟩,
   ⟨"provision", "server", .text, t ""⟩, ⟨"provision", "p12_password", .text, t ""⟩, ⟨"provision", "expiry_days", .text, t "36000"⟩,
   ⟨"provision", "provision_path", .path, t ""⟩, ⟨"provision", "device_id", .text, t ""⟩,
   ⟨"provision", "primary_ecu_serial", .text, t ""⟩, ⟨"provision", "primary_ecu_hardware_id", .text, t ""⟩,
   ⟨"provision", "ecu_registration_endpoint", .text, t ""⟩,
   ⟨"provision", "mode", .enum ["SharedCred", "DeviceCred", "SharedCredReuse"] "Default", t "Default"⟩,
   ⟨"uptane", "polling_sec", .u64, .num 10⟩, ⟨"uptane", "director_server", .text, t ""⟩, ⟨"uptane", "repo_server", .text, t ""⟩,
   ⟨"uptane", "key_source", source, t "file"⟩,
   ⟨"uptane", "key_type", .enum ["RSA2048", "RSA3072", "RSA4096", "ED25519"] "unknown", t "RSA2048"⟩,
   ⟨"uptane", "force_install_completion", .flag, .flag false⟩, ⟨"uptane", "secondary_config_file", .path, t ""⟩,
   ⟨"uptane", "secondary_preinstall_wait_sec", .u64, .num 600⟩,
   ⟨"pacman", "type", .text, t "ostree"⟩, ⟨"pacman", "os", .text, t ""⟩, ⟨"pacman", "sysroot", .path, t ""⟩,
   ⟨"pacman", "ostree_server", .text, t ""⟩, ⟨"pacman", "packages_file", .path, t "/usr/package.manifest"⟩,
   ⟨"pacman", "images_path", .path, t "/var/sota/images"⟩, ⟨"pacman", "fake_need_reboot", .flag, .flag false⟩,
   ⟨"storage", "type", .enum ["sqlite"] "filesystem", t "sqlite"⟩, ⟨"storage", "path", .path, t "/var/sota"⟩,
   ⟨"storage", "sqldb_path", .based, t "sql.db"⟩, ⟨"storage", "uptane_metadata_path", .based, t "metadata"⟩,
   ⟨"storage", "uptane_private_key_path", .based, t "ecukey.der"⟩, ⟨"storage", "uptane_public_key_path", .based, t "ecukey.pub"⟩,
   ⟨"storage", "tls_cacert_path", .based, t "root.crt"⟩, ⟨"storage", "tls_pkey_path", .based, t "pkey.pem"⟩,
   ⟨"storage", "tls_clientcert_path", .based, t "client.pem"⟩,
   ⟨"import", "base_path", .path, t "/var/sota/import"⟩, ⟨"import", "uptane_private_key_path", .based, t ""⟩,
   ⟨"import", "uptane_public_key_path", .based, t ""⟩, ⟨"import", "tls_cacert_path", .based, t ""⟩,
   ⟨"import", "tls_pkey_path", .based, t ""⟩, ⟨"import", "tls_clientcert_path", .based, t ""⟩,
   ⟨"telemetry", "report_network", .flag, .flag true⟩,
   ⟨"bootloader", "rollback_mode", .enum ["uboot_generic", "uboot_masked"] "none", t "none"⟩,
   ⟨"bootloader", "reboot_sentinel_dir", .path, t "/var/run/aktualizr-session"⟩,
   ⟨"bootloader", "reboot_sentinel_name", .path, t "need_reboot"⟩, ⟨"bootloader", "reboot_command", .text, t "/sbin/reboot"⟩,
   ⟨"network", "curl_proxy", .text, t ""⟩, ⟨"network", "curl_bandwidth", .long, .num 0⟩, ⟨"network", "use_oscp", .flag, .flag false⟩]

/-- Where configuration is looked for if the command line does not say. -/
def places : List Txt := ["/usr/lib/sota/conf.d".toList, "/etc/sota/conf.d/".toList]

end Spec

/-! ## Lines of a file -/

theorem inSection_snoc {L : List Txt} {l sect : Txt} :
    Spec.InSection (L ++ [l]) sect ↔ Spec.header l = some sect ∨ (Spec.header l = none ∧ Spec.InSection L sect) := by
  constructor
  · rintro ⟨pre, h, mid, he, hh, hm⟩
    rcases List.eq_nil_or_concat mid with rfl | ⟨mid', x, rfl⟩
    · have := List.append_inj' he rfl
      simp only [List.cons.injEq, and_true] at this
      left; rw [this.2]; exact hh
    · rw [List.concat_eq_append] at he hm
      have he' : L ++ [l] = (pre ++ h :: mid') ++ [x] := by rw [he]; simp
      have := List.append_inj' he' rfl
      simp only [List.cons.injEq, and_true] at this
      right
      refine ⟨?_, pre, h, mid', this.1, hh, fun y hy => hm y (by simp [hy])⟩
      rw [this.2]; exact hm x (by simp)
  · rintro (h | ⟨h, pre, hd, mid, he, hh, hm⟩)
    · exact ⟨L, l, [], rfl, h, by simp⟩
    · refine ⟨pre, hd, mid ++ [l], by simp [he], hh, ?_⟩
      intro y hy
      rcases List.mem_append.1 hy with h' | h'
      · exact hm y h'
      · rw [List.mem_singleton.1 h']; exact h

theorem saysIn_snoc {L : List Txt} {l sect key raw : Txt} :
    Spec.SaysIn (L ++ [l]) sect key raw ↔
      Spec.SaysIn L sect key raw ∨ (Spec.InSection L sect ∧ Spec.assign l = some (key, raw)) := by
  constructor
  · rintro ⟨pre, x, post, he, hs, ha⟩
    rcases List.eq_nil_or_concat post with rfl | ⟨post', y, rfl⟩
    · have := List.append_inj' he rfl
      simp only [List.cons.injEq, and_true] at this
      right; rw [this.1, this.2]; exact ⟨hs, ha⟩
    · rw [List.concat_eq_append] at he
      have he' : L ++ [l] = (pre ++ x :: post') ++ [y] := by rw [he]; simp
      have := List.append_inj' he' rfl
      left; exact ⟨pre, x, post', this.1, hs, ha⟩
  · rintro (⟨pre, x, post, he, hs, ha⟩ | ⟨hs, ha⟩)
    · exact ⟨pre, x, post ++ [l], by simp [he], hs, ha⟩
    · exact ⟨L, l, [], rfl, hs, ha⟩

theorem iniLines_append (a b : List Txt) (s : Ini) : iniLines (a ++ b) s = (do iniLines b (← iniLines a s)) := by
  induction a generalizing s with
  | nil => rfl
  | cons x xs ih =>
    rw [List.cons_append, iniLines, iniLines]
    cases h : iniLine s x with
    | error e => rfl
    | ok s' => exact ih s'

/-- What the lines read so far amount to. -/
structure IniInv (L : List Txt) (s : Ini) : Prop where
  names : (s.nodes.map (·.name)).Nodup
  keys : ∀ n ∈ s.nodes, (n.keys.map Prod.fst).Nodup
  says : ∀ sect key raw, (∃ n ∈ s.nodes, n.name = sect ∧ (key, raw) ∈ n.keys) ↔ Spec.SaysIn L sect key raw
  cur : ∀ sect, Spec.InSection L sect ↔ s.cur.map (·.name) = some sect

theorem findNode_none {ns : List Node} {name : Txt} (h : ¬ (findNode ns name).isSome = true) : name ∉ ns.map (·.name) := by
  intro hm
  obtain ⟨n, hn, hnn⟩ := List.mem_map.1 hm
  apply h
  unfold findNode
  rw [List.find?_isSome]
  exact ⟨n, hn, by simp [hnn]⟩

theorem kept_sub {s : Ini} {n : Node} (h : n ∈ s.kept) : n ∈ s.nodes := by
  unfold Ini.kept at h; unfold Ini.nodes
  rcases List.mem_append.1 h with h | h
  · exact List.mem_append_left _ h
  · exact List.mem_append_right _ (List.mem_filter.1 h).1

theorem mem_kept {s : Ini} {n : Node} (h : n ∈ s.nodes) (hk : n.keys ≠ []) : n ∈ s.kept := by
  unfold Ini.nodes at h; unfold Ini.kept
  rcases List.mem_append.1 h with h | h
  · exact List.mem_append_left _ h
  · exact List.mem_append_right _ (List.mem_filter.2 ⟨h, by simpa using hk⟩)

theorem kept_sublist (s : Ini) : s.kept.Sublist s.nodes := (List.Sublist.refl _).append List.filter_sublist

theorem iniLine_skip {L : List Txt} {s : Ini} {l : Txt} (hi : IniInv L s) (hh : Spec.header l = none) (ha : Spec.assign l = none) :
    IniInv (L ++ [l]) s where
  names := hi.names
  keys := hi.keys
  says := by intro sect key raw; rw [hi.says, saysIn_snoc, ha]; simp
  cur := by intro sect; rw [inSection_snoc, hh, hi.cur]; simp

theorem iniLine_inv {L : List Txt} {s s' : Ini} {l : Txt} (hi : IniInv L s) (h : iniLine s l = .ok s') : IniInv (L ++ [l]) s' := by
  unfold iniLine at h
  split at h
  · next ht => cases h; exact iniLine_skip hi (by unfold Spec.header; rw [ht]) (by unfold Spec.assign; rw [ht])
  · next cs ht => cases h; exact iniLine_skip hi (by unfold Spec.header; rw [ht]; rfl) (by unfold Spec.assign; rw [ht]; rfl)
  · next cs ht => cases h; exact iniLine_skip hi (by unfold Spec.header; rw [ht]; rfl) (by unfold Spec.assign; rw [ht]; rfl)
  · next rest ht =>
    cases hc : cut ']' rest with
    | none => rw [hc] at h; cases h
    | some p =>
      obtain ⟨k, x⟩ := p
      rw [hc] at h
      simp only at h
      by_cases hf : (findNode s.kept (trim k)).isSome = true
      · rw [if_pos hf] at h; cases h
      · rw [if_neg hf] at h
        cases h
        have hh : Spec.header l = some (trim k) := by unfold Spec.header; rw [ht]; simp only [hc]; rfl
        have ha : Spec.assign l = none := by unfold Spec.assign; rw [ht]; rfl
        refine ⟨?_, ?_, ?_, ?_⟩
        · simp only [Ini.nodes, Option.toList, List.map_append, List.map_cons, List.map_nil]
          rw [List.nodup_append]
          refine ⟨hi.names.sublist ((kept_sublist s).map _), by simp, ?_⟩
          intro a ha' b hb hab
          rw [List.mem_singleton.1 hb] at hab
          exact findNode_none hf (hab ▸ ha')
        · intro n hn
          simp only [Ini.nodes, Option.toList] at hn
          rcases List.mem_append.1 hn with hn | hn
          · exact hi.keys n (kept_sub hn)
          · rw [List.mem_singleton.1 hn]; simp
        · intro sect key raw
          rw [saysIn_snoc, ha, ← hi.says]
          simp only [Ini.nodes, Option.toList]
          constructor
          · rintro ⟨n, hn, h1, h2⟩
            rcases List.mem_append.1 hn with hn | hn
            · exact .inl ⟨n, kept_sub hn, h1, h2⟩
            · rw [List.mem_singleton.1 hn] at h2; simp at h2
          · rintro (⟨n, hn, h1, h2⟩ | ⟨_, h2⟩)
            · exact ⟨n, List.mem_append_left _ (mem_kept hn (List.ne_nil_of_mem h2)), h1, h2⟩
            · cases h2
        · intro sect
          rw [inSection_snoc, hh]
          simp
  · next h1 h2 h3 h4 =>
    cases hl : trim l with
    | nil => exact absurd hl h1
    | cons c cs =>
      rw [hl] at h h1 h2 h3 h4
      have hc' : ¬ (c = ';' ∨ c = '#' ∨ c = '[') := by
        rintro (rfl | rfl | rfl)
        · exact h2 cs rfl
        · exact h3 cs rfl
        · exact h4 cs rfl
      have hh : Spec.header l = none := by
        unfold Spec.header; rw [hl]
        split
        · next r hr => cases hr; exact absurd (.inr (.inr rfl)) hc'
        · rfl
      cases hc : cut '=' (c :: cs) with
      | none => rw [hc] at h; cases h
      | some p =>
        obtain ⟨k, v⟩ := p
        rw [hc] at h
        have ha : Spec.assign l = some (trim k, trim v) := by
          unfold Spec.assign; rw [hl]; simp only [if_neg hc', hc]; rfl
        simp only at h
        by_cases hk : k = []
        · rw [if_pos hk] at h; cases h
        rw [if_neg hk] at h
        cases hcur : s.cur with
        | none =>
          rw [hcur] at h
          simp only at h
          by_cases hf : (findNode s.nodes (trim k)).isSome = true
          · rw [if_pos hf] at h; cases h
          rw [if_neg hf] at h
          cases h
          have hn0 : s.nodes = s.past := by simp [Ini.nodes, hcur]
          refine ⟨?_, ?_, ?_, ?_⟩
          · simp only [Ini.nodes, Option.toList, List.append_nil, List.map_append, List.map_cons, List.map_nil]
            rw [List.nodup_append]
            refine ⟨hn0 ▸ hi.names, by simp, ?_⟩
            intro a ha' b hb hab
            rw [List.mem_singleton.1 hb] at hab
            exact findNode_none hf (hab ▸ hn0 ▸ ha')
          · intro n hn
            simp only [Ini.nodes, Option.toList, List.append_nil] at hn
            rcases List.mem_append.1 hn with hn | hn
            · exact hi.keys n (hn0 ▸ hn)
            · rw [List.mem_singleton.1 hn]; simp
          · intro sect key raw
            rw [saysIn_snoc, ← hi.says]
            have hns : ¬ Spec.InSection L sect := by rw [hi.cur, hcur]; simp
            simp only [Ini.nodes, hcur, Option.toList, List.append_nil]
            constructor
            · rintro ⟨n, hn, h1, h2⟩
              rcases List.mem_append.1 hn with hn | hn
              · exact .inl ⟨n, hn, h1, h2⟩
              · rw [List.mem_singleton.1 hn] at h2; simp at h2
            · rintro (⟨n, hn, h1, h2⟩ | ⟨h1, _⟩)
              · exact ⟨n, List.mem_append_left _ hn, h1, h2⟩
              · exact absurd h1 hns
          · intro sect
            rw [inSection_snoc, hh, hi.cur]
            simp [hcur]
        | some n0 =>
          rw [hcur] at h
          simp only at h
          by_cases hf : (n0.keys.lookup (trim k)).isSome = true
          · rw [if_pos hf] at h; cases h
          rw [if_neg hf] at h
          cases h
          have hn0 : s.nodes = s.past ++ [n0] := by simp [Ini.nodes, hcur]
          have hfresh : trim k ∉ n0.keys.map Prod.fst := by
            intro hm
            obtain ⟨p, hp, hpk⟩ := List.mem_map.1 hm
            apply hf
            rw [List.lookup_isSome_iff]
            exact ⟨p, hp, by simp [hpk]⟩
          refine ⟨?_, ?_, ?_, ?_⟩
          · simpa [Ini.nodes, hcur] using hi.names
          · intro n hn
            simp only [Ini.nodes, Option.toList] at hn
            rcases List.mem_append.1 hn with hn | hn
            · exact hi.keys n (hn0 ▸ List.mem_append_left _ hn)
            · rw [List.mem_singleton.1 hn]
              simp only [List.map_append, List.map_cons, List.map_nil]
              rw [List.nodup_append]
              refine ⟨hi.keys n0 (by rw [hn0]; simp), by simp, ?_⟩
              intro a ha' b hb hab
              rw [List.mem_singleton.1 hb] at hab
              exact hfresh (hab ▸ ha')
          · intro sect key raw
            rw [saysIn_snoc, ← hi.says, hn0, ha, hi.cur, hcur]
            simp only [Ini.nodes, Option.toList, Option.map_some, Option.some.injEq, Prod.mk.injEq]
            constructor
            · rintro ⟨n, hn, h1, h2⟩
              rcases List.mem_append.1 hn with hn | hn
              · exact .inl ⟨n, List.mem_append_left _ hn, h1, h2⟩
              · rw [List.mem_singleton.1 hn] at h1 h2
                rcases List.mem_append.1 h2 with h2 | h2
                · exact .inl ⟨n0, by simp, h1, h2⟩
                · have := List.mem_singleton.1 h2
                  simp only [Prod.mk.injEq] at this
                  exact .inr ⟨h1, this.1.symm, this.2.symm⟩
            · rintro (⟨n, hn, h1, h2⟩ | ⟨h1, h2, h3⟩)
              · rcases List.mem_append.1 hn with hn | hn
                · exact ⟨n, List.mem_append_left _ hn, h1, h2⟩
                · rw [List.mem_singleton.1 hn] at h1 h2
                  exact ⟨_, List.mem_append_right _ (List.mem_singleton.2 rfl), h1, List.mem_append_left _ h2⟩
              · exact ⟨_, List.mem_append_right _ (List.mem_singleton.2 rfl), h1, List.mem_append_right _ (by simp [h2, h3])⟩
          · intro sect
            rw [inSection_snoc, hh, hi.cur, hcur]
            simp

theorem iniLines_inv {L : List Txt} {s' : Ini} (h : iniLines L {} = .ok s') : IniInv L s' := by
  suffices ∀ (M K : List Txt) (s : Ini), IniInv K s → iniLines M s = .ok s' → IniInv (K ++ M) s' by
    have := this L [] {} ⟨by simp [Ini.nodes], by simp [Ini.nodes], ?_, ?_⟩ h
    · simpa using this
    · intro sect key raw
      simp only [Ini.nodes, Option.toList]
      constructor
      · rintro ⟨n, hn, _⟩; simp at hn
      · rintro ⟨pre, l, post, he, _⟩; simp at he
    · intro sect
      constructor
      · rintro ⟨pre, l, post, he, _⟩; simp at he
      · intro h; cases h
  intro M
  induction M with
  | nil => intro K s hi h; cases h; simpa using hi
  | cons x xs ih =>
    intro K s hi h
    rw [iniLines] at h
    obtain ⟨s1, h1, h2⟩ := exc_bind_ok.1 h
    have := ih (K ++ [x]) s1 (iniLine_inv hi h1) h2
    simpa using this

theorem lookup_nodup {α β : Type} [BEq α] [LawfulBEq α] {l : List (α × β)} (h : (l.map Prod.fst).Nodup) {k : α} {v : β} :
    l.lookup k = some v ↔ (k, v) ∈ l := by
  induction l with
  | nil => simp
  | cons p l ih =>
    obtain ⟨a, b⟩ := p
    simp only [List.map_cons, List.nodup_cons] at h
    rw [List.lookup_cons]
    by_cases hk : k = a
    · subst hk
      simp only [BEq.rfl, Option.some.injEq, List.mem_cons, Prod.mk.injEq, true_and]
      constructor
      · intro h; exact .inl h.symm
      · rintro (h' | h')
        · exact h'.symm
        · exact absurd (List.mem_map_of_mem (f := Prod.fst) h') h.1
    · have hb : (k == a) = false := by simpa using hk
      rw [hb]
      simp only [List.mem_cons, Prod.mk.injEq, hk, false_and, false_or]
      exact ih h.2

theorem named_inj {α β : Type} {f : α → β} {l : List α} (h : (l.map f).Nodup) {a b : α} (ha : a ∈ l) (hb : b ∈ l)
    (hab : f a = f b) : a = b := by
  induction l with
  | nil => cases ha
  | cons x xs ih =>
    simp only [List.map_cons, List.nodup_cons] at h
    rcases List.mem_cons.1 ha with rfl | ha'
    · rcases List.mem_cons.1 hb with rfl | hb'
      · rfl
      · exact absurd (hab ▸ List.mem_map_of_mem (f := f) hb') h.1
    · rcases List.mem_cons.1 hb with rfl | hb'
      · exact absurd (hab ▸ List.mem_map_of_mem (f := f) ha') h.1
      · exact ih h.2 ha' hb'

/-- A file that can be read assigns to the keys of each section what its lines below the header of the section say. -/
theorem C68_lines {content : Txt} {tree : List Node} (h : parseIni content = .ok tree) (sect key raw : Txt) :
    (sectionKeys tree sect).lookup key = some raw ↔ Spec.Says content sect key raw := by
  unfold parseIni at h
  obtain ⟨s, hs, he⟩ := exc_bind_ok.1 h
  cases he
  have hi := iniLines_inv hs
  unfold Spec.Says
  rw [← hi.says]
  unfold sectionKeys
  have hnames := hi.names.sublist ((kept_sublist s).map (·.name))
  constructor
  · intro h
    cases hf : findNode s.kept sect with
    | none => rw [hf] at h; simp at h
    | some n =>
      rw [hf] at h
      simp only [Option.map_some, Option.getD_some] at h
      have hm := List.mem_of_find?_eq_some hf
      have hn := List.find?_some hf
      exact ⟨n, kept_sub hm, by simpa using hn, (lookup_nodup (hi.keys n (kept_sub hm))).1 h⟩
  · rintro ⟨n, hn, h1, h2⟩
    have hk := mem_kept hn (List.ne_nil_of_mem h2)
    cases hf : findNode s.kept sect with
    | none => unfold findNode at hf; rw [List.find?_eq_none] at hf; exact absurd (by simpa using h1) (hf n hk)
    | some n' =>
      have hm := List.mem_of_find?_eq_some hf
      have hn' : n'.name = sect := by simpa using List.find?_some hf
      have : n' = n := named_inj hnames hm hk (hn'.trans h1.symm)
      subst this
      simp only [Option.map_some, Option.getD_some]
      exact (lookup_nodup (hi.keys n' hn)).2 h2

/-! ## The map of files -/

theorem txtLt_iff {a b : Txt} : txtLt a b = true ↔ a < b := by unfold txtLt; simp

theorem txt_cases (a b : Txt) : a = b ∨ a < b ∨ b < a := by
  by_cases h : a = b
  · exact .inl h
  by_cases h' : a < b
  · exact .inr (.inl h')
  · exact .inr (.inr (Std.lt_of_le_of_ne (List.not_lt.1 h') (Ne.symm h)))

/-- Keys in order. -/
def Ordered {β : Type} (m : List (Txt × β)) : Prop := m.Pairwise (fun a b => a.1 < b.1)

theorem mem_insertMap {β : Type} {k : Txt} {v : β} {m : List (Txt × β)} (ho : Ordered m) {x : Txt × β} :
    x ∈ insertMap txtLt k v m ↔ x = (k, v) ∨ (x ∈ m ∧ x.1 ≠ k) := by
  induction m with
  | nil => simp [insertMap]
  | cons p rest ih =>
    obtain ⟨k', v'⟩ := p
    have ho' := (List.pairwise_cons.1 ho)
    unfold insertMap
    by_cases hk : k = k'
    · subst hk
      rw [if_pos rfl]
      simp only [List.mem_cons]
      constructor
      · rintro (h | h)
        · exact .inl h
        · refine .inr ⟨.inr h, fun he => ?_⟩
          have := ho'.1 x h
          simp only [he] at this
          exact List.lt_irrefl _ this
      · rintro (h | ⟨h | h, hn⟩)
        · exact .inl h
        · exact absurd (by rw [h]) hn
        · exact .inr h
    · rw [if_neg hk]
      by_cases hl : txtLt k k' = true
      · rw [if_pos hl]
        have hl' := txtLt_iff.1 hl
        simp only [List.mem_cons]
        constructor
        · rintro (h | h | h)
          · exact .inl h
          · exact .inr ⟨.inl h, by rw [h]; exact fun e => hk e.symm⟩
          · refine .inr ⟨.inr h, fun he => ?_⟩
            have := ho'.1 x h
            simp only [he] at this
            exact List.lt_asymm hl' this
        · rintro (h | ⟨h | h, _⟩)
          · exact .inl h
          · exact .inr (.inl h)
          · exact .inr (.inr h)
      · rw [if_neg hl, List.mem_cons, ih ho'.2]
        simp only [List.mem_cons]
        constructor
        · rintro (h | h | ⟨h, hn⟩)
          · exact .inr ⟨.inl h, by rw [h]; exact fun e => hk e.symm⟩
          · exact .inl h
          · exact .inr ⟨.inr h, hn⟩
        · rintro (h | ⟨h | h, hn⟩)
          · exact .inr (.inl h)
          · exact .inl h
          · exact .inr (.inr ⟨h, hn⟩)

theorem insertMap_ordered {β : Type} {k : Txt} {v : β} {m : List (Txt × β)} (ho : Ordered m) : Ordered (insertMap txtLt k v m) := by
  induction m with
  | nil => simp [insertMap, Ordered]
  | cons p rest ih =>
    obtain ⟨k', v'⟩ := p
    have ho' := (List.pairwise_cons.1 ho)
    unfold insertMap
    by_cases hk : k = k'
    · subst hk
      rw [if_pos rfl]
      exact List.pairwise_cons.2 ⟨ho'.1, ho'.2⟩
    · rw [if_neg hk]
      by_cases hl : txtLt k k' = true
      · rw [if_pos hl]
        refine List.pairwise_cons.2 ⟨?_, ho⟩
        intro x hx
        rcases List.mem_cons.1 hx with rfl | hx
        · exact txtLt_iff.1 hl
        · exact List.lt_trans (txtLt_iff.1 hl) (ho'.1 x hx)
      · rw [if_neg hl]
        refine List.pairwise_cons.2 ⟨?_, ih ho'.2⟩
        intro x hx
        rcases (mem_insertMap ho'.2).1 hx with rfl | ⟨hx, _⟩
        · rcases txt_cases k k' with h | h | h
          · exact absurd h hk
          · exact absurd (txtLt_iff.2 h) hl
          · exact h
        · exact ho'.1 x hx

theorem fold_insert {β : Type} (l : List (Txt × β)) (m : List (Txt × β)) (ho : Ordered m) :
    Ordered (l.foldl (fun m f => insertMap txtLt f.1 f.2 m) m) ∧
    ∀ x, x ∈ l.foldl (fun m f => insertMap txtLt f.1 f.2 m) m ↔
      (∃ pre post, l = pre ++ x :: post ∧ ∀ f ∈ post, f.1 ≠ x.1) ∨ (x ∈ m ∧ ∀ f ∈ l, f.1 ≠ x.1) := by
  induction l generalizing m with
  | nil => exact ⟨ho, fun x => by simp⟩
  | cons p rest ih =>
    rw [List.foldl_cons]
    obtain ⟨h1, h2⟩ := ih _ (insertMap_ordered (k := p.1) (v := p.2) ho)
    refine ⟨h1, fun x => ?_⟩
    rw [h2, mem_insertMap ho]
    constructor
    · rintro (⟨pre, post, he, hp⟩ | ⟨h | ⟨h, hn⟩, hr⟩)
      · exact .inl ⟨p :: pre, post, by simp [he], hp⟩
      · exact .inl ⟨[], rest, by rw [h]; rfl, hr⟩
      · refine .inr ⟨h, ?_⟩
        intro f hf
        rcases List.mem_cons.1 hf with rfl | hf
        · exact fun e => hn e.symm
        · exact hr f hf
    · rintro (⟨pre, post, he, hp⟩ | ⟨h, hr⟩)
      · cases pre with
        | nil =>
          simp only [List.nil_append, List.cons.injEq] at he
          exact .inr ⟨.inl he.1.symm, he.2 ▸ hp⟩
        | cons q pre =>
          simp only [List.cons_append, List.cons.injEq] at he
          exact .inl ⟨pre, post, he.2, hp⟩
      · exact .inr ⟨.inr ⟨h, fun e => hr p (by simp) e.symm⟩, fun f hf => hr f (by simp [hf])⟩

theorem isToml_iff {name : Txt} : isToml name = true ↔ ∃ stem, name = stem ++ ".toml".toList := by
  unfold isToml
  rw [List.isSuffixOf_iff_suffix]
  constructor
  · rintro ⟨s, hs⟩; exact ⟨s, hs.symm⟩
  · rintro ⟨s, hs⟩; exact ⟨s, hs.symm⟩

theorem mem_filesAt {fs : Txt → Entry} {p name content : Txt} :
    (name, content) ∈ filesAt fs p ↔ Spec.Provides fs p name content := by
  unfold filesAt Spec.Provides
  cases fs p with
  | missing => simp
  | file c => simp
  | dir files =>
    simp only [List.mem_filterMap]
    constructor
    · rintro ⟨f, hf, he⟩
      by_cases ht : isToml f.1 = true
      · rw [if_pos ht] at he
        obtain ⟨n, oc⟩ := f
        cases oc with
        | none => cases he
        | some c =>
          simp only [Option.map_some, Option.some.injEq, Prod.mk.injEq] at he
          obtain ⟨rfl, rfl⟩ := he
          exact ⟨hf, isToml_iff.1 ht⟩
      · rw [if_neg ht] at he; cases he
    · rintro ⟨hf, ht⟩
      exact ⟨_, hf, by rw [if_pos (isToml_iff.2 ht)]; rfl⟩

theorem filesAt_names {fs : Txt → Entry} (hn : Spec.Names fs) (p : Txt) : ((filesAt fs p).map Prod.fst).Nodup := by
  unfold filesAt
  cases hp : fs p with
  | missing => simp
  | file c => simp
  | dir files =>
    have := hn p files hp
    simp only
    generalize files = fl at this
    induction fl with
    | nil => simp
    | cons f fl ih =>
      simp only [List.map_cons, List.nodup_cons] at this
      have hsub : ∀ x ∈ (fl.filterMap (fun f => if isToml f.1 = true then f.2.map (fun c => (f.1, c)) else none)).map Prod.fst,
          x ∈ fl.map Prod.fst := by
        intro x hx
        obtain ⟨y, hy, rfl⟩ := List.mem_map.1 hx
        obtain ⟨g, hg, he⟩ := List.mem_filterMap.1 hy
        refine List.mem_map.2 ⟨g, hg, ?_⟩
        by_cases ht : isToml g.1 = true
        · rw [if_pos ht] at he
          cases hg2 : g.2 with
          | none => rw [hg2] at he; cases he
          | some c => rw [hg2] at he; cases he; rfl
        · rw [if_neg ht] at he; cases he
      rw [List.filterMap_cons]
      by_cases ht : isToml f.1 = true
      · rw [if_pos ht]
        cases hf2 : f.2 with
        | none => exact ih this.2
        | some c =>
          simp only [Option.map_some, List.map_cons, List.nodup_cons]
          exact ⟨fun h => this.1 (hsub _ h), ih this.2⟩
      · rw [if_neg ht]; exact ih this.2

/-- Splitting a list of files found by the place they were found at. -/
theorem split_flatMap {α β : Type} (g : α → List β) (l : List α) (pre : List β) (x : β) (post : List β)
    (h : l.flatMap g = pre ++ x :: post) :
    ∃ a p b u v, l = a ++ p :: b ∧ g p = u ++ x :: v ∧ post = v ++ b.flatMap g := by
  induction l generalizing pre with
  | nil => simp at h
  | cons p l ih =>
    rw [List.flatMap_cons] at h
    rcases List.append_eq_append_iff.1 h with ⟨as, h1, h2⟩ | ⟨bs, h1, h2⟩
    · obtain ⟨a, q, b, u, v, e1, e2, e3⟩ := ih as h2
      exact ⟨p :: a, q, b, u, v, by rw [e1]; rfl, e2, e3⟩
    · cases bs with
      | nil =>
        obtain ⟨a, q, b, u, v, e1, e2, e3⟩ := ih [] (by simpa using h2.symm)
        exact ⟨p :: a, q, b, u, v, by rw [e1]; rfl, e2, e3⟩
      | cons y ys =>
        simp only [List.cons_append, List.cons.injEq] at h2
        obtain ⟨rfl, rfl⟩ := h2
        exact ⟨[], p, l, pre, ys, rfl, h1, rfl⟩

theorem collect_ordered (fs : Txt → Entry) (configs : List Txt) : Ordered (collect fs configs) :=
  (fold_insert _ [] List.Pairwise.nil).1

theorem mem_collect {fs : Txt → Entry} (hn : Spec.Names fs) {configs : List Txt} {name content : Txt} :
    (name, content) ∈ collect fs configs ↔ Spec.Active fs configs name content := by
  unfold collect
  rw [(fold_insert _ [] List.Pairwise.nil).2]
  constructor
  · rintro (⟨pre, post, he, hp⟩ | ⟨h, _⟩)
    · obtain ⟨a, p, b, u, v, e1, e2, e3⟩ := split_flatMap _ _ _ _ _ he
      refine ⟨a, p, b, e1, mem_filesAt.1 (by rw [e2]; simp), ?_⟩
      intro q hq c hc
      have := hp (name, c) (by
        rw [e3]
        exact List.mem_append_right _ (List.mem_flatMap.2 ⟨q, hq, mem_filesAt.2 hc⟩))
      exact this rfl
    · cases h
  · rintro ⟨pre, p, post, e1, h1, h2⟩
    obtain ⟨u, v, e2⟩ := List.append_of_mem (mem_filesAt.2 h1)
    refine .inl ⟨pre.flatMap (filesAt fs) ++ u, v ++ post.flatMap (filesAt fs), by rw [e1]; simp [e2], ?_⟩
    intro f hf
    rcases List.mem_append.1 hf with hf | hf
    · have hnd := filesAt_names hn p
      rw [e2, List.map_append, List.map_cons, List.nodup_append, List.nodup_cons] at hnd
      exact fun e => hnd.2.1.1 (e ▸ List.mem_map_of_mem (f := Prod.fst) hf)
    · obtain ⟨q, hq, hfq⟩ := List.mem_flatMap.1 hf
      obtain ⟨n, c⟩ := f
      intro e
      simp only at e
      subst e
      exact h2 q hq c (mem_filesAt.1 hfq)

/-! ## The rows -/

/-- What a tree says about a row. -/
def treeValue (tree : List Node) (r : Row) : Option Val :=
  ((sectionKeys tree r.sect.toList).lookup r.key.toList).bind r.kind.read

theorem copy_val (tree : List Node) (c : Config) (r : Row) (m : String × String) :
    (copy tree c r).val m = if m = (r.sect, r.member) then (treeValue tree r).getD (c.val m) else c.val m := by
  unfold copy treeValue
  cases (sectionKeys tree r.sect.toList).lookup r.key.toList with
  | none => simp
  | some v =>
    simp only [Option.bind_some]
    cases r.kind.read v with
    | none => simp
    | some x => simp only [Config.set, Option.getD_some]

theorem fold_copy (tree : List Node) (R : List Row) (c : Config) (hR : (R.map (fun r => (r.sect, r.member))).Nodup)
    (m : String × String) : (R.foldl (copy tree) c).val m =
      match R.find? (fun r => decide (m = (r.sect, r.member))) with
      | none => c.val m
      | some r => (treeValue tree r).getD (c.val m) := by
  induction R generalizing c with
  | nil => rfl
  | cons r R ih =>
    simp only [List.map_cons, List.nodup_cons] at hR
    rw [List.foldl_cons, ih _ hR.2, List.find?_cons]
    by_cases hm : m = (r.sect, r.member)
    · have : R.find? (fun r => decide (m = (r.sect, r.member))) = none := by
        rw [List.find?_eq_none]
        intro x hx hd
        simp only [decide_eq_true_eq] at hd
        exact hR.1 (List.mem_map.2 ⟨x, hx, hd.symm.trans hm⟩)
      rw [this]
      simp only [hm, decide_true, copy_val, if_pos]
    · simp only [hm, decide_false, copy_val, if_neg, not_false_eq_true]

theorem readRows_nodup : (readRows.map (fun r => (r.sect, r.member))).Nodup := by decide +kernel

/-- The row of an option. -/
def rowOf (o : Spec.Option') : Row := ⟨o.sect, o.key, o.key, o.kind⟩

theorem documented_rows : Spec.documented.all (fun o =>
    decide (readRows.find? (fun r => decide ((o.sect, o.key) = (r.sect, r.member))) = some (rowOf o)) &&
    (o.sect == "logger" ||
      decide ((readRows.filter (fun r => r.sect ≠ "logger")).find? (fun r => decide ((o.sect, o.key) = (r.sect, r.member))) =
        some (rowOf o))) &&
    (o.sect != "logger" || o.key == "loglevel") && decide (defaults.val (o.sect, o.key) = o.default)) = true := by decide +kernel

theorem doc_row {o : Spec.Option'} (ho : o ∈ Spec.documented) :
    readRows.find? (fun r => decide ((o.sect, o.key) = (r.sect, r.member))) = some (rowOf o) ∧
    (o.sect ≠ "logger" → (readRows.filter (fun r => r.sect ≠ "logger")).find?
      (fun r => decide ((o.sect, o.key) = (r.sect, r.member))) = some (rowOf o)) ∧
    (o.sect = "logger" → o.key = "loglevel") ∧ defaults.val (o.sect, o.key) = o.default := by
  have h := List.all_eq_true.1 documented_rows o ho
  simp only [Bool.and_eq_true, Bool.or_eq_true, decide_eq_true_eq, beq_iff_eq, bne_iff_ne] at h
  obtain ⟨⟨⟨h1, h2⟩, h3⟩, h4⟩ := h
  refine ⟨h1, fun hs => h2.resolve_left hs, fun hs => ?_, h4⟩
  rcases h3 with h3 | h3
  · exact absurd hs h3
  · exact h3

theorem tree_gives {content : Txt} {tree : List Node} (h : parseIni content = .ok tree) (o : Spec.Option') (v : Val) :
    treeValue tree (rowOf o) = some v ↔ Spec.Gives content o v := by
  unfold treeValue Spec.Gives rowOf
  simp only
  constructor
  · intro hv
    cases hl : (sectionKeys tree o.sect.toList).lookup o.key.toList with
    | none => rw [hl] at hv; cases hv
    | some raw => rw [hl] at hv; exact ⟨raw, (C68_lines h _ _ _).1 hl, hv⟩
  · rintro ⟨raw, h1, h2⟩
    rw [(C68_lines h _ _ _).2 h1]; exact h2

theorem step_val {o : Spec.Option'} (ho : o ∈ Spec.documented) {lc : Bool} (hlc : lc = true → o.sect ≠ "logger") (c : Config)
    (tree : List Node) :
    (updateFromPropertyTree lc c tree).val (o.sect, o.key) = (treeValue tree (rowOf o)).getD (c.val (o.sect, o.key)) := by
  obtain ⟨h1, h2, _, _⟩ := doc_row ho
  unfold updateFromPropertyTree copyExtra
  simp only
  cases lc with
  | true =>
    simp only [if_true]
    rw [fold_copy _ _ _ (readRows_nodup.sublist (List.filter_sublist.map _)), h2 (hlc rfl)]
  | false =>
    simp only [Bool.false_eq_true, if_false]
    rw [fold_copy _ _ _ readRows_nodup, h1]

theorem files_val {o : Spec.Option'} (ho : o ∈ Spec.documented) {lc : Bool} (hlc : lc = true → o.sect ≠ "logger")
    (F : List (Txt × Txt)) (c0 c : Config) (h : updateFromFiles lc F c0 = .ok c) :
    ((∀ f ∈ F, ∀ v, ¬ Spec.Gives f.2 o v) → c.val (o.sect, o.key) = c0.val (o.sect, o.key)) ∧
    (∀ pre f post v, F = pre ++ f :: post → Spec.Gives f.2 o v → (∀ g ∈ post, ∀ u, ¬ Spec.Gives g.2 o u) →
      c.val (o.sect, o.key) = v) := by
  induction F generalizing c0 with
  | nil => cases h; exact ⟨fun _ => rfl, fun pre f post v he => by simp at he⟩
  | cons f F ih =>
    rw [updateFromFiles] at h
    obtain ⟨tree, ht, h⟩ := exc_bind_ok.1 h
    obtain ⟨i1, i2⟩ := ih _ h
    have hs := step_val ho hlc c0 tree
    constructor
    · intro hno
      rw [i1 (fun g hg => hno g (by simp [hg])), hs]
      cases hv : treeValue tree (rowOf o) with
      | none => rfl
      | some v => exact absurd ((tree_gives ht o v).1 hv) (hno f (by simp) v)
    · intro pre g post v he hg hp
      cases pre with
      | nil =>
        simp only [List.nil_append, List.cons.injEq] at he
        obtain ⟨rfl, rfl⟩ := he
        rw [i1 hp, hs, (tree_gives ht o v).2 hg]; rfl
      | cons x pre =>
        simp only [List.cons_append, List.cons.injEq] at he
        exact i2 pre g post v he.2 hg hp

theorem setIf_val (c : Config) (m : String × String) (v : Option Val) (x : String × String) :
    (c.setIf m v).val x = if x = m then v.getD (c.val x) else c.val x := by
  unfold Config.setIf
  cases v with
  | none => simp
  | some y => simp only [Config.set, Option.getD_some]

theorem cmd_val {cmd : Cmd} {c c' : Config} (h : updateFromCommandLine cmd c = .ok c') (o : Spec.Option') :
    c'.val (o.sect, o.key) = (Spec.cmdValue cmd o).getD (c.val (o.sect, o.key)) := by
  unfold updateFromCommandLine at h
  cases hs : cmd.secondaryConfig with
  | some x => rw [hs] at h; cases h
  | none =>
    rw [hs] at h
    simp only [Except.ok.injEq] at h
    subst h
    simp only [setIf_val, Prod.mk.injEq, Spec.cmdValue]
    repeat' split
    all_goals first
      | rfl
      | (simp_all; done)

theorem paths_ok {w : World} {cmd : Cmd} {ps : List Txt} (h : configPaths w cmd = .ok ps) : ps = cmd.config.getD Spec.places := by
  unfold configPaths at h
  cases hc : cmd.config with
  | none => rw [hc] at h; cases h; rfl
  | some qs =>
    rw [hc] at h
    obtain ⟨_, _, h⟩ := exc_bind_ok.1 h
    cases h; rfl

/-! ## C68 -/

/-- Value of an option before the values that are derived: the command line first, then the last of the files in use in
the order of their names that gives a value, then the default. -/
theorem C68_precedence_partial {w : World} (hn : Spec.Names w.fs) {cmd : Cmd} {c : Config} (h : readConfig w cmd = .ok c)
    {o : Spec.Option'} (ho : o ∈ Spec.documented) :
    (∀ v, Spec.cmdValue cmd o = some v → c.val (o.sect, o.key) = v) ∧
    (Spec.cmdValue cmd o = none → ∀ name content v, Spec.Active w.fs (cmd.config.getD Spec.places) name content →
      Spec.Gives content o v →
      (∀ name' content' v', Spec.Active w.fs (cmd.config.getD Spec.places) name' content' → Spec.Gives content' o v' → ¬ name < name') →
      c.val (o.sect, o.key) = v) ∧
    (Spec.cmdValue cmd o = none →
      (∀ name content v, Spec.Active w.fs (cmd.config.getD Spec.places) name content → ¬ Spec.Gives content o v) →
      c.val (o.sect, o.key) = o.default) := by
  obtain ⟨_, _, hlog, hdef⟩ := doc_row ho
  unfold readConfig at h
  obtain ⟨ps, hps, h⟩ := exc_bind_ok.1 h
  obtain ⟨c1, h1, h2⟩ := exc_bind_ok.1 h
  have hps := paths_ok hps
  have hc := cmd_val h2 o
  have hlc : Spec.cmdValue cmd o = none → cmd.loglevel.isSome = true → o.sect ≠ "logger" := by
    intro hv hl hs
    unfold Spec.cmdValue at hv
    rw [if_pos ⟨hs, hlog hs⟩] at hv
    cases hcl : cmd.loglevel with
    | none => rw [hcl] at hl; cases hl
    | some i => rw [hcl] at hv; cases hv
  have hc0 : Spec.cmdValue cmd o = none →
      (defaults.setIf ("logger", "loglevel") (cmd.loglevel.map .num)).val (o.sect, o.key) = o.default := by
    intro hv
    rw [setIf_val]
    by_cases hm : (o.sect, o.key) = ("logger", "loglevel")
    · rw [if_pos hm]
      simp only [Prod.mk.injEq] at hm
      unfold Spec.cmdValue at hv
      rw [if_pos hm] at hv
      rw [hv, hdef]; rfl
    · rw [if_neg hm, hdef]
  unfold updateFromDirs at h1
  rw [hps] at h1
  refine ⟨fun v hv => by rw [hc, hv]; rfl, ?_, ?_⟩
  · intro hv name content v ha hg hlast
    rw [hc, hv]
    simp only [Option.getD_none]
    obtain ⟨pre, post, he⟩ := List.append_of_mem ((mem_collect hn).2 ha)
    refine (files_val ho (hlc hv) _ _ _ h1).2 pre _ post v he hg ?_
    intro g hgp u hgu
    have hord := collect_ordered w.fs (cmd.config.getD Spec.places)
    unfold Ordered at hord
    rw [he, List.pairwise_append, List.pairwise_cons] at hord
    refine hlast g.1 g.2 u ((mem_collect hn).1 ?_) hgu (hord.2.1.1 g hgp)
    rw [he]; simp [hgp]
  · intro hv hno
    rw [hc, hv]
    simp only [Option.getD_none]
    rw [(files_val ho (hlc hv) _ _ _ h1).1, hc0 hv]
    intro f hf v hgv
    exact hno f.1 f.2 v ((mem_collect hn).1 hf) hgv

/-! ### Further options of the package manager -/

theorem find_pacmanKeys : pacmanKeys = ["type", "os", "sysroot", "ostree_server", "images_path", "packages_file", "fake_need_reboot"].map
    String.toList := by decide +kernel

theorem fold_extra (l : List (Txt × Txt)) (hl : (l.map Prod.fst).Nodup) (m : List (Txt × Txt)) (ho : Ordered m) :
    Ordered (l.foldl (fun m p => if pacmanKeys.contains p.1 then m else insertMap txtLt p.1 (stripQuotes p.2) m) m) ∧
    ∀ k v, k ∉ pacmanKeys →
      ((k, v) ∈ l.foldl (fun m p => if pacmanKeys.contains p.1 then m else insertMap txtLt p.1 (stripQuotes p.2) m) m ↔
        (∃ raw, (k, raw) ∈ l ∧ v = stripQuotes raw) ∨ ((k, v) ∈ m ∧ ∀ raw, (k, raw) ∉ l)) := by
  induction l generalizing m with
  | nil => exact ⟨ho, fun k v hk => by simp⟩
  | cons p l ih =>
    obtain ⟨a, b⟩ := p
    simp only [List.map_cons, List.nodup_cons] at hl
    rw [List.foldl_cons]
    by_cases hp : pacmanKeys.contains a = true
    · simp only [hp, if_true]
      refine ⟨(ih hl.2 m ho).1, fun k v hk => ?_⟩
      rw [(ih hl.2 m ho).2 k v hk]
      have hka : k ≠ a := fun e => hk (by rw [e]; simpa using hp)
      simp [hka]
    · simp only [hp, Bool.false_eq_true, if_false]
      have ho' := insertMap_ordered (k := a) (v := stripQuotes b) ho
      refine ⟨(ih hl.2 _ ho').1, fun k v hk => ?_⟩
      rw [(ih hl.2 _ ho').2 k v hk, mem_insertMap ho]
      by_cases hka : k = a
      · subst hka
        have hnl : ∀ raw, (k, raw) ∉ l := fun raw hr => hl.1 (List.mem_map_of_mem (f := Prod.fst) hr)
        simp [hnl]
      · simp [hka]

theorem sectionKeys_nodup {content : Txt} {tree : List Node} (h : parseIni content = .ok tree) (sect : Txt) :
    ((sectionKeys tree sect).map Prod.fst).Nodup := by
  unfold parseIni at h
  obtain ⟨s, hs, he⟩ := exc_bind_ok.1 h
  cases he
  have hi := iniLines_inv hs
  unfold sectionKeys
  cases hf : findNode s.kept sect with
  | none => simp
  | some n => exact hi.keys n (kept_sub (List.mem_of_find?_eq_some hf))

theorem fold_copy_extra (tree : List Node) (R : List Row) (c : Config) : (R.foldl (copy tree) c).extra = c.extra := by
  induction R generalizing c with
  | nil => rfl
  | cons r R ih =>
    rw [List.foldl_cons, ih]
    unfold copy
    split
    · rfl
    · split
      · rfl
      · rfl

theorem step_extra {content : Txt} {tree : List Node} (h : parseIni content = .ok tree) (lc : Bool) (c : Config) (ho : Ordered c.extra) :
    Ordered (updateFromPropertyTree lc c tree).extra ∧ ∀ k v, k ∉ pacmanKeys →
      ((k, v) ∈ (updateFromPropertyTree lc c tree).extra ↔
        (∃ raw, Spec.Says content "pacman".toList k raw ∧ v = stripQuotes raw) ∨
        ((k, v) ∈ c.extra ∧ ∀ raw, ¬ Spec.Says content "pacman".toList k raw)) := by
  unfold updateFromPropertyTree copyExtra
  simp only [fold_copy_extra]
  obtain ⟨h1, h2⟩ := fold_extra _ (sectionKeys_nodup h "pacman".toList) c.extra ho
  refine ⟨h1, fun k v hk => ?_⟩
  rw [h2 k v hk]
  simp only [← lookup_nodup (sectionKeys_nodup h "pacman".toList), C68_lines h]

theorem files_extra (lc : Bool) (F : List (Txt × Txt)) (c0 c : Config) (ho : Ordered c0.extra) (h : updateFromFiles lc F c0 = .ok c) :
    Ordered c.extra ∧ ∀ k v, k ∉ pacmanKeys → ((k, v) ∈ c.extra ↔
      (∃ pre f post raw, F = pre ++ f :: post ∧ Spec.Says f.2 "pacman".toList k raw ∧ v = stripQuotes raw ∧
        ∀ g ∈ post, ∀ u, ¬ Spec.Says g.2 "pacman".toList k u) ∨
      ((k, v) ∈ c0.extra ∧ ∀ f ∈ F, ∀ u, ¬ Spec.Says f.2 "pacman".toList k u)) := by
  induction F generalizing c0 with
  | nil => cases h; exact ⟨ho, fun k v _ => by simp⟩
  | cons f F ih =>
    rw [updateFromFiles] at h
    obtain ⟨tree, ht, h⟩ := exc_bind_ok.1 h
    obtain ⟨s1, s2⟩ := step_extra ht lc c0 ho
    obtain ⟨i1, i2⟩ := ih _ s1 h
    refine ⟨i1, fun k v hk => ?_⟩
    rw [i2 k v hk, s2 k v hk]
    constructor
    · rintro (⟨pre, g, post, raw, he, hr⟩ | ⟨⟨raw, hr, hv⟩ | ⟨h1, h2⟩, hno⟩)
      · exact .inl ⟨f :: pre, g, post, raw, by rw [he]; rfl, hr⟩
      · exact .inl ⟨[], f, F, raw, rfl, hr, hv, hno⟩
      · refine .inr ⟨h1, ?_⟩
        intro g hg
        rcases List.mem_cons.1 hg with rfl | hg
        · exact h2
        · exact hno g hg
    · rintro (⟨pre, g, post, raw, he, hr⟩ | ⟨h1, hno⟩)
      · cases pre with
        | nil =>
          simp only [List.nil_append, List.cons.injEq] at he
          obtain ⟨rfl, rfl⟩ := he
          exact .inr ⟨.inl ⟨raw, hr.1, hr.2.1⟩, hr.2.2⟩
        | cons x pre =>
          simp only [List.cons_append, List.cons.injEq] at he
          exact .inl ⟨pre, g, post, raw, he.2, hr⟩
      · exact .inr ⟨.inr ⟨h1, hno f (by simp)⟩, fun g hg => hno g (by simp [hg])⟩

theorem setIf_extra (c : Config) (m : String × String) (v : Option Val) : (c.setIf m v).extra = c.extra := by
  cases v <;> rfl

theorem cmd_extra {cmd : Cmd} {c c' : Config} (h : updateFromCommandLine cmd c = .ok c') : c'.extra = c.extra := by
  unfold updateFromCommandLine at h
  cases hs : cmd.secondaryConfig with
  | some x => rw [hs] at h; cases h
  | none =>
    rw [hs] at h
    simp only [Except.ok.injEq] at h
    subst h
    simp only [setIf_extra]

/-- Keys of the section `pacman` that are not documented are passed on, with the value of the last file that has them. -/
theorem C68_extra {w : World} (hn : Spec.Names w.fs) {cmd : Cmd} {c : Config} (h : readConfig w cmd = .ok c) {key : String}
    (hk : ∀ o ∈ Spec.documented, o.sect = "pacman" → o.key ≠ key) (v : Txt) :
    (key.toList, v) ∈ c.extra ↔ ∃ name content raw, Spec.Active w.fs (cmd.config.getD Spec.places) name content ∧
      Spec.Says content "pacman".toList key.toList raw ∧ v = stripQuotes raw ∧
      ∀ name' content' raw', Spec.Active w.fs (cmd.config.getD Spec.places) name' content' →
        Spec.Says content' "pacman".toList key.toList raw' → ¬ name < name' := by
  unfold readConfig at h
  obtain ⟨ps, hps, h⟩ := exc_bind_ok.1 h
  obtain ⟨c1, h1, h2⟩ := exc_bind_ok.1 h
  have hps := paths_ok hps
  unfold updateFromDirs at h1
  rw [hps] at h1
  rw [cmd_extra h2]
  have hkp : key.toList ∉ pacmanKeys := by
    rw [find_pacmanKeys]
    intro hm
    obtain ⟨s, hs, he⟩ := List.mem_map.1 hm
    have he := String.toList_inj.1 he
    subst he
    revert hs
    have : ∀ s ∈ ["type", "os", "sysroot", "ostree_server", "images_path", "packages_file", "fake_need_reboot"],
        ∃ o ∈ Spec.documented, o.sect = "pacman" ∧ o.key = s := by decide +kernel
    intro hs
    obtain ⟨o, h1, h2, h3⟩ := this s hs
    exact hk o h1 h2 h3
  have hx := (files_extra _ _ _ _ (by rw [setIf_extra]; exact List.Pairwise.nil) h1).2 key.toList v hkp
  rw [hx, setIf_extra]
  have hord := collect_ordered w.fs (cmd.config.getD Spec.places)
  unfold Ordered at hord
  constructor
  · rintro (⟨pre, f, post, raw, he, hs, hv, hno⟩ | ⟨hc, _⟩)
    · refine ⟨f.1, f.2, raw, (mem_collect hn).1 (by rw [he]; simp), hs, hv, ?_⟩
      intro n' c' r' ha' hs' hlt
      have hm := (mem_collect hn).2 ha'
      rw [he, List.pairwise_append, List.pairwise_cons] at hord
      rw [he] at hm
      rcases List.mem_append.1 hm with hm | hm
      · exact List.lt_asymm (hord.2.2 _ hm f (by simp)) hlt
      · rcases List.mem_cons.1 hm with rfl | hm
        · exact List.lt_irrefl _ hlt
        · exact hno _ hm r' hs'
    · cases hc
  · rintro ⟨name, content, raw, ha, hs, hv, hlast⟩
    obtain ⟨pre, post, he⟩ := List.append_of_mem ((mem_collect hn).2 ha)
    refine .inl ⟨pre, _, post, raw, he, hs, hv, ?_⟩
    intro g hg u hu
    rw [he, List.pairwise_append, List.pairwise_cons] at hord
    exact hlast g.1 g.2 u ((mem_collect hn).1 (by rw [he]; simp [hg])) hu (hord.2.1.1 g hg)

/-! ### Order of the files in their directories -/

theorem ordered_ext {β : Type} {a b : List (Txt × β)} (ha : Ordered a) (hb : Ordered b) (h : ∀ x, x ∈ a ↔ x ∈ b) : a = b := by
  induction a generalizing b with
  | nil =>
    cases b with
    | nil => rfl
    | cons y b => exact absurd ((h y).2 (by simp)) (by simp)
  | cons x a ih =>
    cases b with
    | nil => exact absurd ((h x).1 (by simp)) (by simp)
    | cons y b =>
      have ha' := List.pairwise_cons.1 ha
      have hb' := List.pairwise_cons.1 hb
      have hxy : x = y := by
        rcases List.mem_cons.1 ((h x).1 (by simp)) with e | hx
        · exact e
        rcases List.mem_cons.1 ((h y).2 (by simp)) with e | hy
        · exact e.symm
        · exact absurd (hb'.1 x hx) (List.lt_asymm (ha'.1 y hy))
      subst hxy
      rw [ih ha'.2 hb'.2 ?_]
      intro z
      have hz := h z
      simp only [List.mem_cons] at hz
      constructor
      · intro hm
        rcases hz.1 (.inr hm) with e | hm'
        · exact absurd (e ▸ ha'.1 z hm) (List.lt_irrefl _)
        · exact hm'
      · intro hm
        rcases hz.2 (.inr hm) with e | hm'
        · exact absurd (e ▸ hb'.1 z hm) (List.lt_irrefl _)
        · exact hm'

/-- The order in which the system lists the files of a directory does not matter, nor do files of other kinds in it. -/
theorem C68_listing {w w' : World} (hn : Spec.Names w.fs) (hn' : Spec.Names w'.fs)
    (hsame : ∀ p name content, Spec.Provides w.fs p name content ↔ Spec.Provides w'.fs p name content)
    (hmiss : ∀ p, (∃ f, w.fs p = f ∧ f ≠ .missing) ↔ ∃ f, w'.fs p = f ∧ f ≠ .missing) (cmd : Cmd) :
    readConfig w cmd = readConfig w' cmd := by
  have hcol : ∀ ps, collect w.fs ps = collect w'.fs ps := by
    intro ps
    apply ordered_ext (collect_ordered _ _) (collect_ordered _ _)
    rintro ⟨n, c⟩
    rw [mem_collect hn, mem_collect hn']
    unfold Spec.Active
    simp only [hsame]
  have hchk : ∀ ps, checkDirs w.fs ps = checkDirs w'.fs ps := by
    intro ps
    induction ps with
    | nil => rfl
    | cons p ps ih =>
      have := hmiss p
      unfold checkDirs
      rw [ih]
      cases h1 : w.fs p <;> cases h2 : w'.fs p <;> simp_all
  unfold readConfig configPaths updateFromDirs
  simp only [hcol, hchk]

/-! ### Failures -/

/-- A file of this content is no configuration file. -/
def Spec.Unreadable (content : Txt) : Prop := ∀ tree, parseIni content ≠ .ok tree

theorem updateFromFiles_total (lc : Bool) (F : List (Txt × Txt)) (c0 : Config) :
    (∃ c, updateFromFiles lc F c0 = .ok c) ↔ ∀ f ∈ F, ¬ Spec.Unreadable f.2 := by
  induction F generalizing c0 with
  | nil => simp [updateFromFiles]
  | cons f F ih =>
    rw [updateFromFiles]
    constructor
    · rintro ⟨c, h⟩ g hg
      obtain ⟨tree, ht, h⟩ := exc_bind_ok.1 h
      rcases List.mem_cons.1 hg with rfl | hg
      · exact fun hu => hu tree ht
      · exact (ih _).1 ⟨c, h⟩ g hg
    · intro h
      have hf := h f (by simp)
      unfold Spec.Unreadable at hf
      obtain ⟨tree, ht⟩ := Classical.not_forall.1 hf
      have ht := Classical.not_not.1 ht
      obtain ⟨c, hc⟩ := (ih (updateFromPropertyTree lc c0 tree)).2 (fun g hg => h g (by simp [hg]))
      exact ⟨c, exc_bind_ok.2 ⟨tree, ht, hc⟩⟩

theorem checkDirs_total (fs : Txt → Entry) (ps : List Txt) : checkDirs fs ps = .ok () ↔ ∀ p ∈ ps, fs p ≠ .missing := by
  induction ps with
  | nil => simp [checkDirs]
  | cons p ps ih =>
    unfold checkDirs
    cases hp : fs p with
    | missing => simp [hp]
    | file c => simp [hp, ih]
    | dir l => simp [hp, ih]

/-- The configuration is read unless a path on the command line does not exist, one of the files in use cannot be read, or
the command line names a file of Secondaries. -/
theorem C68_reads {w : World} (hn : Spec.Names w.fs) (cmd : Cmd) :
    (∃ c, load w cmd = .ok c) ↔
      (∀ ps, cmd.config = some ps → ∀ p ∈ ps, w.fs p ≠ .missing) ∧
      (∀ name content, Spec.Active w.fs (cmd.config.getD Spec.places) name content → ¬ Spec.Unreadable content) ∧
      cmd.secondaryConfig = none := by
  have hpaths : (∃ ps, configPaths w cmd = .ok ps) ↔ (∀ ps, cmd.config = some ps → ∀ p ∈ ps, w.fs p ≠ .missing) := by
    unfold configPaths
    cases cmd.config with
    | none => simp
    | some qs =>
      simp only [Option.some.injEq, forall_eq']
      rw [← checkDirs_total]
      constructor
      · rintro ⟨ps, h⟩
        obtain ⟨⟨⟩, h1, _⟩ := exc_bind_ok.1 h
        exact h1
      · intro h; exact ⟨qs, exc_bind_ok.2 ⟨(), h, rfl⟩⟩
  have hcmd : ∀ c, (∃ c', updateFromCommandLine cmd c = .ok c') ↔ cmd.secondaryConfig = none := by
    intro c
    unfold updateFromCommandLine
    cases cmd.secondaryConfig <;> simp
  have hload : (∃ c, load w cmd = .ok c) ↔ ∃ c, readConfig w cmd = .ok c := by
    unfold load
    constructor
    · rintro ⟨c, h⟩
      obtain ⟨c1, h1, _⟩ := exc_bind_ok.1 h
      exact ⟨c1, h1⟩
    · rintro ⟨c, h⟩; exact ⟨_, exc_bind_ok.2 ⟨c, h, rfl⟩⟩
  rw [hload, ← hpaths]
  unfold readConfig
  constructor
  · rintro ⟨c, h⟩
    obtain ⟨ps, h1, h⟩ := exc_bind_ok.1 h
    obtain ⟨c1, h2, h3⟩ := exc_bind_ok.1 h
    refine ⟨⟨ps, h1⟩, ?_, (hcmd c1).1 ⟨c, h3⟩⟩
    rw [paths_ok h1] at h2
    intro name content ha
    exact (updateFromFiles_total _ _ _).1 ⟨c1, h2⟩ _ ((mem_collect hn).2 ha)
  · rintro ⟨⟨ps, h1⟩, h2, h3⟩
    have hps := paths_ok h1
    obtain ⟨c1, hc1⟩ := (updateFromFiles_total cmd.loglevel.isSome (collect w.fs ps)
      (defaults.setIf ("logger", "loglevel") (cmd.loglevel.map .num))).2 (by
        rintro ⟨n, c⟩ hf
        exact h2 n c (hps ▸ (mem_collect hn).1 hf))
    obtain ⟨c2, hc2⟩ := (hcmd c1).2 h3
    exact ⟨c2, exc_bind_ok.2 ⟨ps, h1, exc_bind_ok.2 ⟨c1, hc1, hc2⟩⟩⟩

/-- `--secondary-config-file` (aktualizr_primary/main.cc:46) cannot be used. -/
theorem C68_secondary_option (w : World) (cmd : Cmd) (h : cmd.secondaryConfig ≠ none) : ¬ ∃ c, load w cmd = .ok c := by
  rintro ⟨c, hc⟩
  obtain ⟨c1, h1, _⟩ := exc_bind_ok.1 hc
  obtain ⟨ps, _, h1⟩ := exc_bind_ok.1 h1
  obtain ⟨c2, _, h3⟩ := exc_bind_ok.1 h1
  unfold updateFromCommandLine at h3
  cases hs : cmd.secondaryConfig with
  | none => exact h hs
  | some x => rw [hs] at h3; cases h3

/-! ### Values taken from others -/

namespace Spec

/-- The first text that is not empty. -/
def either (a b : Txt) : Txt := if a = [] then b else a

/-- A text with something appended, unless it is empty. -/
def below (a : Txt) (b : String) : Txt := if a = [] then [] else a ++ b.toList

/-- The server: given, or the content of the file at `server_url_path`, or if there is no such path the one of the
provisioning archive. -/
def server (w : World) (c : Config) : Txt :=
  either (c.text ("tls", "server"))
    (if c.text ("tls", "server_url_path") ≠ [] then readTrimmed w (c.text ("tls", "server_url_path"))
      else if c.text ("provision", "provision_path") ≠ [] then (w.archiveUrl (c.text ("provision", "provision_path"))).getD []
      else [])

/-- Options whose value may be taken from others. -/
def derived : List (String × String) :=
  [("provision", "mode"), ("tls", "server"), ("provision", "server"), ("uptane", "repo_server"), ("uptane", "director_server"),
    ("pacman", "ostree_server"), ("provision", "ecu_registration_endpoint")]

end Spec

theorem text_set (c : Config) (m x : String × String) (v : Txt) : (c.set m (.text v)).text x = if x = m then v else c.text x := by
  unfold Config.text Config.set
  by_cases h : x = m
  · simp [h]
  · simp [h]

theorem val_set (c : Config) (m x : String × String) (v : Val) : (c.set m v).val x = if x = m then v else c.val x := rfl

theorem text_fill (c : Config) (m x : String × String) (v : Txt) :
    (c.fill m v).text x = if x = m then Spec.either (c.text x) v else c.text x := by
  unfold Config.fill Spec.either
  by_cases he : c.text m = []
  · rw [if_pos he, text_set]
    by_cases h : x = m
    · subst h; simp [he]
    · simp [h]
  · rw [if_neg he]
    by_cases h : x = m
    · subst h; simp [he]
    · simp [h]

theorem val_fill (c : Config) (m x : String × String) (v : Txt) (h : x ≠ m) : (c.fill m v).val x = c.val x := by
  unfold Config.fill
  split
  · rw [val_set, if_neg h]
  · rfl

theorem extra_fill (c : Config) (m : String × String) (v : Txt) : (c.fill m v).extra = c.extra := by
  unfold Config.fill
  split <;> rfl

theorem postMode_text (c : Config) (m : String × String) (h : m ≠ ("provision", "mode")) : (postMode c).text m = c.text m := by
  unfold postMode t
  split
  · rw [text_set, if_neg h]
  · rfl

theorem postServer_text (w : World) (c : Config) (m : String × String) (h : m ≠ ("tls", "server")) :
    (postServer w c).text m = c.text m := by
  unfold postServer
  repeat' split
  all_goals first
    | rfl
    | (rw [text_set, if_neg h])

theorem postServer_server (w : World) (c : Config) : (postServer w c).text ("tls", "server") = Spec.server w c := by
  unfold postServer Spec.server Spec.either
  by_cases h1 : c.text ("tls", "server") = []
  · rw [if_neg (fun hn => hn h1), if_pos h1]
    by_cases h2 : c.text ("tls", "server_url_path") = []
    · rw [if_neg (fun hn => hn h2), if_neg (c := c.text ("tls", "server_url_path") ≠ []) (fun hn => hn h2)]
      by_cases h3 : c.text ("provision", "provision_path") = []
      · rw [if_neg (fun hn => hn h3), if_neg (c := c.text ("provision", "provision_path") ≠ []) (fun hn => hn h3)]; exact h1
      · rw [if_pos h3, if_pos h3]
        cases w.archiveUrl (c.text ("provision", "provision_path")) with
        | none => exact h1
        | some u => simp only [text_set, if_pos]; rfl
    · rw [if_pos h2, if_pos h2, text_set, if_pos rfl]
  · rw [if_pos h1, if_neg h1]

theorem either_nil (a : Txt) : Spec.either a [] = a := by unfold Spec.either; split <;> simp_all

theorem server_congr {w : World} {c c' : Config} (h1 : c'.text ("tls", "server") = c.text ("tls", "server"))
    (h2 : c'.text ("tls", "server_url_path") = c.text ("tls", "server_url_path"))
    (h3 : c'.text ("provision", "provision_path") = c.text ("provision", "provision_path")) : Spec.server w c' = Spec.server w c := by
  unfold Spec.server; rw [h1, h2, h3]

theorem ecu_director (c : Config) (v : Txt) :
    (c.fill ("provision", "ecu_registration_endpoint") v).text ("uptane", "director_server") = c.text ("uptane", "director_server") := by
  rw [text_fill, if_neg (by decide)]

/-- What is used for the options that are not given. -/
theorem C68_derived {w : World} {cmd : Cmd} {c' : Config} (h : load w cmd = .ok c') : ∃ c, readConfig w cmd = .ok c ∧
    c'.text ("provision", "mode") = (if c.text ("provision", "mode") = "Default".toList then
      (if c.text ("provision", "provision_path") = [] then "DeviceCred".toList else "SharedCred".toList)
      else c.text ("provision", "mode")) ∧
    c'.text ("tls", "server") = Spec.server w c ∧
    c'.text ("provision", "server") = Spec.either (c.text ("provision", "server")) (Spec.server w c) ∧
    c'.text ("uptane", "repo_server") = Spec.either (c.text ("uptane", "repo_server")) (Spec.below (Spec.server w c) "/repo") ∧
    c'.text ("uptane", "director_server") =
      Spec.either (c.text ("uptane", "director_server")) (Spec.below (Spec.server w c) "/director") ∧
    c'.text ("pacman", "ostree_server") = Spec.either (c.text ("pacman", "ostree_server")) (Spec.below (Spec.server w c) "/treehub") ∧
    c'.text ("provision", "ecu_registration_endpoint") = Spec.either (c.text ("provision", "ecu_registration_endpoint"))
      (Spec.below (c'.text ("uptane", "director_server")) "/ecus") ∧
    (∀ m, m ∉ Spec.derived → c'.val m = c.val m) ∧ c'.extra = c.extra := by
  unfold load at h
  obtain ⟨c, hc, he⟩ := exc_bind_ok.1 h
  cases he
  refine ⟨c, hc, ?_⟩
  have hS : (postServer w (postMode c)).text ("tls", "server") = Spec.server w c := by
    rw [postServer_server]
    apply server_congr <;> exact postMode_text _ _ (by decide)
  have hT : ∀ m, m ≠ ("tls", "server") → m ≠ ("provision", "mode") → (postServer w (postMode c)).text m = c.text m := by
    intro m h1 h2; rw [postServer_text _ _ _ h1, postMode_text _ _ h2]
  have hM : (postServer w (postMode c)).text ("provision", "mode") = (if c.text ("provision", "mode") = "Default".toList then
      (if c.text ("provision", "provision_path") = [] then "DeviceCred".toList else "SharedCred".toList)
      else c.text ("provision", "mode")) := by
    rw [postServer_text _ _ _ (by decide)]
    unfold postMode t
    by_cases hd : c.text ("provision", "mode") = "Default".toList
    · rw [if_pos hd, if_pos hd, text_set, if_pos rfl]
      split <;> rfl
    · rw [if_neg hd, if_neg hd]
  have hV : ∀ m, m ∉ Spec.derived → (postServer w (postMode c)).val m = c.val m := by
    intro m hm
    simp only [Spec.derived, List.mem_cons, not_or] at hm
    have h1 : (postServer w (postMode c)).val m = (postMode c).val m := by
      unfold postServer
      repeat' split
      all_goals first
        | rfl
        | (rw [val_set, if_neg hm.2.1])
    rw [h1]
    unfold postMode
    split
    · rw [val_set, if_neg hm.1]
    · rfl
  have hE : (postServer w (postMode c)).extra = c.extra := by
    unfold postServer postMode
    repeat' split
    all_goals rfl
  unfold postUpdateValues
  generalize postServer w (postMode c) = d at hS hT hM hV hE
  rw [← hM]
  unfold postDerived
  simp only [hS]
  by_cases hs : Spec.server w c = []
  · rw [if_pos hs]
    simp only [hs, Spec.below, if_true]
    simp only [either_nil]
    by_cases hd : d.text ("uptane", "director_server") = []
    · rw [if_pos hd]
      refine ⟨rfl, by rw [hS, hs], hT _ (by decide) (by decide), hT _ (by decide) (by decide), hT _ (by decide) (by decide),
        hT _ (by decide) (by decide), ?_, hV, hE⟩
      rw [hd, if_pos rfl, either_nil]; exact hT _ (by decide) (by decide)
    · rw [if_neg hd]
      refine ⟨?_, ?_, ?_, ?_, ?_, ?_, ?_, ?_, ?_⟩
      · rw [text_fill, if_neg (by decide)]
      · rw [text_fill, if_neg (by decide), hS, hs]
      · rw [text_fill, if_neg (by decide)]; exact hT _ (by decide) (by decide)
      · rw [text_fill, if_neg (by decide)]; exact hT _ (by decide) (by decide)
      · rw [text_fill, if_neg (by decide)]; exact hT _ (by decide) (by decide)
      · rw [text_fill, if_neg (by decide)]; exact hT _ (by decide) (by decide)
      · rw [ecu_director, if_neg hd, text_fill, if_pos rfl, hT _ (by decide) (by decide)]
      · intro m hm
        rw [val_fill _ _ _ _ (fun e => hm (by rw [e]; decide))]
        exact hV m hm
      · rw [extra_fill]; exact hE
  · rw [if_neg hs]
    simp only [Spec.below, if_neg hs]
    generalize hg : (((d.fill ("provision", "server") (Spec.server w c)).fill ("uptane", "repo_server")
      (Spec.server w c ++ "/repo".toList)).fill ("uptane", "director_server")
      (Spec.server w c ++ "/director".toList)).fill ("pacman", "ostree_server") (Spec.server w c ++ "/treehub".toList) = g
    have g0 : ∀ m, m ∉ [("provision", "server"), ("uptane", "repo_server"), ("uptane", "director_server"), ("pacman", "ostree_server")] →
        g.text m = d.text m := by
      intro m hm
      simp only [List.mem_cons, List.not_mem_nil, or_false, not_or] at hm
      rw [← hg, text_fill, if_neg hm.2.2.2, text_fill, if_neg hm.2.2.1, text_fill, if_neg hm.2.1, text_fill, if_neg hm.1]
    have g1 : g.text ("provision", "server") = Spec.either (c.text ("provision", "server")) (Spec.server w c) := by
      rw [← hg, text_fill, if_neg (by decide), text_fill, if_neg (by decide), text_fill, if_neg (by decide), text_fill, if_pos rfl,
        hT _ (by decide) (by decide)]
    have g2 : g.text ("uptane", "repo_server") = Spec.either (c.text ("uptane", "repo_server")) (Spec.server w c ++ "/repo".toList) := by
      rw [← hg, text_fill, if_neg (by decide), text_fill, if_neg (by decide), text_fill, if_pos rfl, text_fill, if_neg (by decide),
        hT _ (by decide) (by decide)]
    have g3 : g.text ("uptane", "director_server") =
        Spec.either (c.text ("uptane", "director_server")) (Spec.server w c ++ "/director".toList) := by
      rw [← hg, text_fill, if_neg (by decide), text_fill, if_pos rfl, text_fill, if_neg (by decide), text_fill, if_neg (by decide),
        hT _ (by decide) (by decide)]
    have g4 : g.text ("pacman", "ostree_server") =
        Spec.either (c.text ("pacman", "ostree_server")) (Spec.server w c ++ "/treehub".toList) := by
      rw [← hg, text_fill, if_pos rfl, text_fill, if_neg (by decide), text_fill, if_neg (by decide), text_fill, if_neg (by decide),
        hT _ (by decide) (by decide)]
    have gV : ∀ m, m ∉ Spec.derived → g.val m = c.val m := by
      intro m hm
      rw [← hg, val_fill _ _ _ _ (fun e => hm (by rw [e]; decide)), val_fill _ _ _ _ (fun e => hm (by rw [e]; decide)),
        val_fill _ _ _ _ (fun e => hm (by rw [e]; decide)), val_fill _ _ _ _ (fun e => hm (by rw [e]; decide))]
      exact hV m hm
    have gE : g.extra = c.extra := by rw [← hg]; simp only [extra_fill]; exact hE
    have hd : g.text ("uptane", "director_server") ≠ [] := by
      rw [g3]; unfold Spec.either
      split
      · simp
      · assumption
    rw [if_neg hd]
    refine ⟨?_, ?_, ?_, ?_, ?_, ?_, ?_, ?_, ?_⟩
    · rw [text_fill, if_neg (by decide)]; exact g0 _ (by decide)
    · rw [text_fill, if_neg (by decide), g0 _ (by decide), hS]
    · rw [text_fill, if_neg (by decide)]; exact g1
    · rw [text_fill, if_neg (by decide)]; exact g2
    · rw [text_fill, if_neg (by decide)]; exact g3
    · rw [text_fill, if_neg (by decide)]; exact g4
    · rw [ecu_director, if_neg hd, text_fill, if_pos rfl, g0 _ (by decide), hT _ (by decide) (by decide)]
    · intro m hm
      rw [val_fill _ _ _ _ (fun e => hm (by rw [e]; decide))]
      exact gV m hm
    · rw [extra_fill]; exact gE

/-! ### Values that are not what they seem -/

/-- A number in quotes and a path with a space are passed over without a word; a negative interval is a very long one;
an unknown source of keys is a file. -/
theorem C68_values :
    Kind.int.read "\"2\"".toList = none ∧ Kind.path.read "/var/my sota".toList = none ∧
    Kind.u64.read "-1".toList = some (.num 18446744073709551615) ∧ Spec.source.read "\"PKCS11\"".toList = some (t "file") := by
  decide +kernel

/-- Without configuration the mode is `DeviceCred`; documented is `SharedCred`. -/
theorem C68_default_mode : ∃ c, load { fs := fun _ => .missing, archiveUrl := fun _ => none } {} = .ok c ∧
    c.text ("provision", "mode") = "DeviceCred".toList := by
  refine ⟨_, rfl, ?_⟩
  decide +kernel

/-! ## A case -/

namespace Case68

/-- Two directories with a file of the same name; another file later in the alphabet; a file of another kind. -/
def fs : Txt → Entry := fun p =>
  if p = "/usr/lib/sota/conf.d".toList then
    .dir [("20-sota.toml".toList, some "[uptane]\npolling_sec = 300\n\n[tls]\nserver = \"https://a.b\"\n".toList),
      ("10-base.toml".toList, some "[uptane]\npolling_sec = 1\n[pacman]\nos = \"x\"".toList)]
  else if p = "/etc/sota/conf.d/".toList then
    .dir [("z.txt".toList, some "[uptane]\npolling_sec = 5".toList),
      ("10-base.toml".toList, some "# local\n[uptane]\npolling_sec = 7\n[pacman]\ntype = \"none\"\nbooted = 1".toList)]
  else .missing

def w : World := { fs := fs, archiveUrl := fun _ => none }

def cmd : Cmd := { loglevel := some 0 }

theorem names : Spec.Names fs := by
  intro p files h
  unfold fs at h
  split at h
  · cases h; decide +kernel
  · split at h
    · cases h; decide +kernel
    · cases h

/-- Level from the command line, interval of the file last in order although the other directory comes later, type from
the second directory, no `os` as the file that sets it is hidden, and the servers from the one given. -/
example : ∃ c, load w cmd = .ok c ∧ c.val ("logger", "loglevel") = .num 0 ∧ c.val ("uptane", "polling_sec") = .num 300 ∧
    c.val ("pacman", "type") = t "none" ∧ c.val ("pacman", "os") = t "" ∧ c.text ("uptane", "repo_server") = "https://a.b/repo".toList ∧
    c.text ("provision", "ecu_registration_endpoint") = "https://a.b/director/ecus".toList ∧
    c.extra = [("booted".toList, "1".toList)] := by
  refine ⟨_, rfl, ?_⟩
  decide +kernel

example : Spec.Active fs Spec.places "10-base.toml".toList
    "# local\n[uptane]\npolling_sec = 7\n[pacman]\ntype = \"none\"\nbooted = 1".toList := by
  refine ⟨[_], _, [], rfl, ?_, by simp⟩
  show _ ∈ _ ∧ _
  exact ⟨by decide +kernel, "10-base".toList, by decide +kernel⟩

end Case68

end Conf
end Aktualizr
