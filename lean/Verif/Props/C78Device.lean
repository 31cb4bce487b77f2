import Verif.Props.C78

/-!
# C78: the device that gets the files
-/

namespace Aktualizr

open M Spec

/-! ### What is imported -/

namespace Prov

variable {σ : Type} {env : Env} {server : Server σ}

theorem newContent_none {old : Option String} {c : String} (h : newContent old (some (some c)) = none) : old = some c := by
  unfold newContent at h
  simp only at h
  split at h
  · assumption
  · cases h

theorem write_store {g : Store → Store} {s s' : St σ} {u : Unit} (h : write g s = (.ok u, s')) : s'.store = g s.store := by
  obtain ⟨k, -, rfl⟩ := write_ok h
  rfl

theorem importCert_tls {f : Files} {s s' : St σ} (h : importCert env f s = (.ok (), s')) :
    (∀ c, f.cert = some (some c) → s'.store.cert = some c) ∧ s'.store.ca = s.store.ca ∧ s'.store.pkey = s.store.pkey := by
  unfold importCert at h
  obtain ⟨t, s1, h1, h2⟩ := M.bind_ok.1 h
  cases h1
  cases hn : newContent s.store.cert f.cert with
  | none =>
    rw [hn] at h2
    cases h2
    exact ⟨fun c hc => newContent_none (hc ▸ hn), rfl, rfl⟩
  | some c =>
    rw [hn] at h2
    obtain ⟨_, s2, h3, h4⟩ := M.bind_ok.1 h2
    obtain ⟨-, rfl⟩ := M.orThrow_ok.1 h3
    rw [write_store h4]
    refine ⟨fun c' hc => ?_, rfl, rfl⟩
    rw [newContent_some hn] at hc
    injection hc

theorem importCa_tls {f : Files} {s s' : St σ} (h : importCa f s = (.ok (), s')) :
    (∀ c, f.ca = some (some c) → s'.store.ca = some c) ∧ s'.store.cert = s.store.cert ∧ s'.store.pkey = s.store.pkey := by
  unfold importCa at h
  obtain ⟨t, s1, h1, h2⟩ := M.bind_ok.1 h
  cases h1
  cases hn : newContent s.store.ca f.ca with
  | none =>
    rw [hn] at h2
    cases h2
    exact ⟨fun c hc => newContent_none (hc ▸ hn), rfl, rfl⟩
  | some c =>
    rw [hn] at h2
    rw [write_store h2]
    refine ⟨fun c' hc => ?_, rfl, rfl⟩
    rw [newContent_some hn] at hc
    injection hc

theorem importPkey_tls {f : Files} {s s' : St σ} (h : importPkey f s = (.ok (), s')) :
    (∀ c, f.pkey = some (some c) → s'.store.pkey = some c) ∧ s'.store.cert = s.store.cert ∧ s'.store.ca = s.store.ca := by
  unfold importPkey at h
  obtain ⟨t, s1, h1, h2⟩ := M.bind_ok.1 h
  cases h1
  cases hn : newContent s.store.pkey f.pkey with
  | none =>
    rw [hn] at h2
    cases h2
    exact ⟨fun c hc => newContent_none (hc ▸ hn), rfl, rfl⟩
  | some c =>
    rw [hn] at h2
    rw [write_store h2]
    refine ⟨fun c' hc => ?_, rfl, rfl⟩
    rw [newContent_some hn] at hc
    injection hc

/-- After an import the credentials are those in the files. -/
theorem import_tls {f : Files} {s s' : St σ} (h : importData env f s = (.ok (), s')) :
    (∀ c, f.cert = some (some c) → s'.store.cert = some c) ∧ (∀ c, f.ca = some (some c) → s'.store.ca = some c) ∧
      (∀ c, f.pkey = some (some c) → s'.store.pkey = some c) := by
  unfold importData at h
  obtain ⟨_, s1, h1, h2⟩ := M.bind_ok.1 h
  obtain ⟨_, s2, h3, h4⟩ := M.bind_ok.1 h2
  obtain ⟨_, s3, h5, h6⟩ := M.bind_ok.1 h4
  obtain ⟨a1, a2, a3⟩ := importCert_tls h3
  obtain ⟨b1, b2, b3⟩ := importCa_tls h5
  obtain ⟨c1, c2, c3⟩ := importPkey_tls h6
  exact ⟨fun c hc => by rw [c2, b2]; exact a1 c hc, fun c hc => by rw [c3]; exact b1 c hc, c1⟩

/-- A device with device credentials keeps those it imports, and takes its id from the certificate. -/
theorem deviceCred_keeps {x : Start} {t : Store} {srv : σ} (hm : x.cfg.mode = .deviceCred) (hr : (run env server x t srv).1 = .ok ()) :
    let f := (run env server x t srv).2.store
    (∀ c, x.files.cert = some (some c) → f.cert = some c) ∧ (∀ c, x.files.ca = some (some c) → f.ca = some c) ∧
      (∀ c, x.files.pkey = some (some c) → f.pkey = some c) ∧
      ∀ c, x.files.cert = some (some c) → t.device = none → x.cfg.deviceId = "" → ∀ d r, f.device = some (d, r) → env.cn c = some d := by
  intro f
  have hf : f = (run env server x t srv).2.store := rfl
  unfold run start at hr hf
  cases hi : importData env x.files { store := t, srv := srv, fuel := x.fuel, drawn := x.seed : St σ } with
  | mk o s1 =>
    obtain ⟨t1, n, hs, himp⟩ := import_imp (env := env) (f := x.files) (s := { store := t, srv := srv, fuel := x.fuel, drawn := x.seed : St σ })
    rw [hi] at hs
    rw [bind_app, hi] at hr hf
    cases o with
    | error e => cases hr
    | ok u =>
      simp only at hs hr hf
      obtain ⟨i1, i2, i3⟩ := import_tls hi
      have htr := initialize_tr (env := env) (server := server) (cfg := x.cfg) (secondaries := x.secondaries) (s := s1)
      have hinv : ∀ s, Tr env server x.cfg x.secondaries s1 s → s.http ≠ .shared ∧ s.store.cert = s1.store.cert ∧ s.store.ca = s1.store.ca ∧ s.store.pkey = s1.store.pkey ∧
          (t.device = none → x.cfg.deviceId = "" → ∀ d r, s.store.device = some (d, r) → ∃ c, s1.store.cert = some c ∧ env.cn c = some d) := by
        intro s hs'
        refine hs'.inv (I := fun s => s.http ≠ .shared ∧ s.store.cert = s1.store.cert ∧ s.store.ca = s1.store.ca ∧ s.store.pkey = s1.store.pkey ∧
          (t.device = none → x.cfg.deviceId = "" → ∀ d r, s.store.device = some (d, r) → ∃ c, s1.store.cert = some c ∧ env.cn c = some d)) ?_ ?_
        · intro a b hc ⟨h1, h2, h3, h4, h5⟩
          cases hc with
          | draw => exact ⟨h1, h2, h3, h4, h5⟩
          | useShared _ g => exact absurd hm g
          | useOwn => exact ⟨own_ne _, h2, h3, h4, h5⟩
          | name id n g1 g2 g3 =>
            refine ⟨h1, h2, h3, h4, fun hd he d r hdr => ?_⟩
            injection hdr with hdr
            injection hdr with hd1 hd2
            obtain ⟨c, q1, q2⟩ := g3 he hm
            subst hd1
            exact ⟨c, h2 ▸ q1, q2⟩
          | reset d r n g1 g2 => exact absurd g2 h1
          | ask d r n g1 g2 => exact absurd g2 h1
          | ca d r body c n g1 g2 => exact absurd g2 h1
          | cert d r body c n g1 g2 => exact absurd g2 h1
          | pkey d r body c n g1 g2 => exact absurd g2 h1
          | clean => exact ⟨h1, h2, h3, h4, h5⟩
          | key => exact ⟨h1, h2, h3, h4, h5⟩
          | gone => exact ⟨h1, h2, h3, h4, h5⟩
          | sec => exact ⟨h1, h2, h3, h4, h5⟩
          | register => exact ⟨h1, h2, h3, h4, h5⟩
          | ecus => exact ⟨h1, h2, h3, h4, h5⟩
          | registered =>
            refine ⟨h1, h2, h3, h4, fun hd he d r hdr => ?_⟩
            simp only [Option.map_eq_some_iff] at hdr
            obtain ⟨⟨d', r'⟩, q1, q2⟩ := hdr
            cases q2
            exact h5 hd he _ _ q1
          | counter => exact ⟨h1, h2, h3, h4, h5⟩
        · rw [hs]
          refine ⟨by simp, rfl, rfl, rfl, fun hd _ d r hdr => ?_⟩
          rw [himp.rest] at hdr
          simp only at hdr
          rw [hd] at hdr
          cases hdr
      obtain ⟨-, g2, g3, g4, g5⟩ := hinv _ htr
      rw [hf]
      refine ⟨fun c hc => g2.trans (i1 c hc), fun c hc => g3.trans (i2 c hc), fun c hc => g4.trans (i3 c hc), fun c hc hd he d r hdr => ?_⟩
      obtain ⟨c', q1, q2⟩ := g5 hd he d r hdr
      rw [i1 c hc] at q1
      cases q1
      exact q2

end Prov

namespace Spec

/-- The options of the configuration a device needs to find the files are there. -/
structure Importing (c : Conf.Config) (rootCa : Bool) : Prop where
  base : c.text ("import", "base_path") ≠ []
  pkey : c.text ("import", "tls_pkey_path") ≠ []
  cert : c.text ("import", "tls_clientcert_path") ≠ []
  ca : rootCa = true → c.text ("import", "tls_cacert_path") ≠ []

/-- The device uses these credentials, and its id, unless it had one or is told one, is the name in the certificate. -/
def Uses (env : Prov.Env) (x : Prov.Start) (before after : Prov.Store) (rootCa : Bool) (t : CertProv.Tls) : Prop :=
  after.cert = some t.cert ∧ after.pkey = some t.pkey ∧ (rootCa = true → after.ca = some t.ca) ∧
    (before.device = none → x.cfg.deviceId = "" → ∀ d r, after.device = some (d, r) → env.cn t.cert = some d)

end Spec

namespace CertProv

open Spec
open Conf (Txt)

variable {σ : Type} {env : Prov.Env} {server : Prov.Server σ}

theorem uses_written {a : Around} {o : Options} {c : Conf.Config} {f : Txt → Txt} {dev fs : Txt → Option String} {p : Places} {t : Tls} {url : Txt}
    {x : Prov.Start} {t0 : Prov.Store} {srv : σ}
    (hc : Conf.load a.conf { config := some o.config } = .ok c) (hne : o.config ≠ []) (hi : Importing c o.rootCa) (hp : BelongsAt a o p)
    (hw : FilesAre fs f o p t url) (hd : ∀ q, dev q = fs (f q)) (hx : x.files = importFiles c dev) (hm : x.cfg.mode = .deviceCred)
    (hr : (Prov.run env server x t0 srv).1 = .ok ()) : Uses env x t0 (Prov.run env server x t0 srv).2.store o.rootCa t := by
  rcases hp with ⟨h, -⟩ | ⟨-, -, c', hc', hp⟩
  · exact absurd h hne
  rw [hc] at hc'
  injection hc' with hc'
  subst hc'
  obtain ⟨p1, p2, p3, -⟩ := hp _ rfl hi.base
  obtain ⟨k1, k2, k3, k4⟩ := Prov.deviceCred_keeps hm hr
  have e1 : x.files.cert = some (some t.cert) := by
    rw [hx]; unfold importFiles
    simp only [if_neg hi.cert, hd, ← p2 hi.cert, hw.cert]
  have e2 : x.files.pkey = some (some t.pkey) := by
    rw [hx]; unfold importFiles
    simp only [if_neg hi.pkey, hd, ← p1 hi.pkey, hw.pkey]
  refine ⟨k1 _ e1, k3 _ e2, fun hca => k2 _ ?_, k4 _ e1⟩
  rw [hx]; unfold importFiles
  simp only [if_neg (hi.ca hca), hd, ← p3 hca (hi.ca hca), hw.ca hca]

/-- A device with the files of the directory, of the configuration given to the program, that starts successfully, uses the new credentials. -/
theorem C78_device {a : Around} {o : Options} {s s' : St} {c : Conf.Config} {dev : Txt → Option String} {x : Prov.Start} {t0 : Prov.Store} {srv : σ}
    (h : main a o s = (.ok (), s')) (hl : o.localDir ≠ []) (hne : o.config ≠ []) (hc : Conf.load a.conf { config := some o.config } = .ok c)
    (hi : Importing c o.rootCa) (ha : ∀ p, BelongsAt a o p → Apart (join o.localDir) o p)
    (hd : ∀ q, dev q = s'.disk (join o.localDir q)) (hx : x.files = importFiles c dev) (hm : x.cfg.mode = .deviceCred)
    (hr : (Prov.run env server x t0 srv).1 = .ok ()) :
    ∃ id url t new, Identity a o id ∧ ServerUrl a o url ∧ Obtained a o id url t new ∧
      Uses env x t0 (Prov.run env server x t0 srv).2.store o.rootCa t := by
  obtain ⟨id, url, p, t, new, h1, h2, h3, h4, -, h5, -⟩ := C78_local h hl
  exact ⟨id, url, t, new, h1, h2, h4, uses_written hc hne hi h3 (h5 (ha p h3)) hd hx hm hr⟩

/-- The same for the target, if every transfer works. -/
theorem C78_device_target_partial {a : Around} {o : Options} {s s' : St} {c : Conf.Config} {x : Prov.Start} {t0 : Prov.Store} {srv : σ}
    (h : main a o s = (.ok (), s')) (ht : o.target ≠ []) (hw : ∀ q, a.transfers q = .works) (hne : o.config ≠ [])
    (hc : Conf.load a.conf { config := some o.config } = .ok c)
    (hi : Importing c o.rootCa) (ha : ∀ p, BelongsAt a o p → Apart _root_.id o p) (hx : x.files = importFiles c s'.remote)
    (hm : x.cfg.mode = .deviceCred) (hr : (Prov.run env server x t0 srv).1 = .ok ()) :
    ∃ id url t new, Identity a o id ∧ ServerUrl a o url ∧ Obtained a o id url t new ∧
      Uses env x t0 (Prov.run env server x t0 srv).2.store o.rootCa t := by
  obtain ⟨id, url, p, t, new, h1, h2, h3, h4, -, h5, -⟩ := C78_target_partial h ht hw
  exact ⟨id, url, t, new, h1, h2, h4, uses_written hc hne hi h3 (h5 (ha p h3)) (fun _ => rfl) hx hm hr⟩

/-- With a fleet CA the device gets the id that was asked for. -/
theorem C78_fleet_id {a : Around} {o : Options} {s s' : St} {c : Conf.Config} {dev : Txt → Option String} {x : Prov.Start} {t0 : Prov.Store} {srv : σ}
    (h : main a o s = (.ok (), s')) (hl : o.localDir ≠ []) (hne : o.config ≠ []) (hc : Conf.load a.conf { config := some o.config } = .ok c)
    (hi : Importing c o.rootCa) (ha : ∀ p, BelongsAt a o p → Apart (join o.localDir) o p)
    (hd : ∀ q, dev q = s'.disk (join o.localDir q)) (hx : x.files = importFiles c dev) (hm : x.cfg.mode = .deviceCred)
    (hr : (Prov.run env server x t0 srv).1 = .ok ()) (hf : o.fleetCa ≠ []) (hcn : ∀ c text, a.write c = some text → env.cn text = some c.name)
    (h0 : t0.device = none) (hdev : x.cfg.deviceId = "") {n : String} (hn : o.name = some n) {d : String} {r : Bool}
    (hs : (Prov.run env server x t0 srv).2.store.device = some (d, r)) : d = n := by
  obtain ⟨id, url, t, new, h1, -, h4, -, -, -, h5⟩ := C78_device h hl hne hc hi ha hd hx hm hr
  unfold Obtained at h4
  rw [if_neg hf] at h4
  obtain ⟨-, c', pub, w1, w2, -⟩ := h4
  have := h5 h0 hdev d r hs
  rw [hcn _ _ w1, w2] at this
  injection this with this
  rcases h1 with ⟨g1, -⟩ | ⟨g1, -⟩
  · rw [hn] at g1
    injection g1 with g1
    rw [← this, g1]
  · rw [hn] at g1
    cases g1

/-! ### The address of the server -/

theorem dropWhile_id {u : Txt} (h : ∀ c, u.head? = some c → Tools.isBlank c = false) : u.dropWhile Tools.isBlank = u := by
  cases u with
  | nil => rfl
  | cons c u => rw [List.dropWhile_cons, h c rfl]; simp

theorem trim_again {s u : Txt} (h : Tools.Spec.Trimmed s u) : Tools.trim u = u := by
  obtain ⟨l, r, -, -, h1⟩ := h
  have hb : ∀ c, (u.head? = some c ∨ u.getLast? = some c) → Tools.isBlank c = false := by
    intro c hc
    obtain ⟨g1, g2, g3, g4⟩ := h1 c hc
    simp [Tools.isBlank, g1, g2, g3, g4]
  unfold Tools.trim
  rw [dropWhile_id (fun c hc => hb c (.inl hc)), dropWhile_id (fun c hc => hb c (.inr ?_)), List.reverse_reverse]
  rw [← hc, List.head?_reverse]

/-- A device of the same configuration reads the address of the server from the file. -/
theorem C78_server {a : Around} {o : Options} {s s' : St} {c0 c' : Conf.Config} {w : Conf.World} {cmd : Conf.Cmd} {dev : Txt → Option String} {text : String}
    (h : main a o s = (.ok (), s')) (hl : o.localDir ≠ []) (hne : o.config ≠ []) (hsu : o.serverUrl = true)
    (ht : HasFile (a.archive o.credentials) "autoprov.url" text) (ha : ∀ p, BelongsAt a o p → Apart (join o.localDir) o p)
    (hc : Conf.readConfig a.conf { config := some o.config } = .ok c0) (hw : Conf.readConfig w cmd = .ok c0) (hw' : Conf.load w cmd = .ok c')
    (hd : ∀ q, dev q = s'.disk (join o.localDir q))
    (hfs : ∀ t, dev (c0.text ("tls", "server_url_path")) = some t → w.fs (c0.text ("tls", "server_url_path")) = .file t.toList)
    (h1 : c0.text ("tls", "server") = []) (h2 : (c0.text ("tls", "server_url_path")).head? = some '/')
    (h3 : c0.text ("import", "base_path") ≠ []) : Tools.Spec.Trimmed text.toList (c'.text ("tls", "server")) := by
  obtain ⟨id, url, p, t, new, -, k2, k3, -, -, k5, -⟩ := C78_local h hl
  have k5 := (k5 (ha p k3)).url hsu
  obtain ⟨c, hc1, -, e, -⟩ := Conf.C68_derived hw'
  rw [hw] at hc1
  injection hc1 with hc1
  subst hc1
  obtain ⟨c2, hc2⟩ : ∃ c2, Conf.load a.conf { config := some o.config } = .ok c2 := by
    unfold Conf.load
    exact ⟨_, exc_bind_ok.2 ⟨_, hc, rfl⟩⟩
  obtain ⟨c3, hc3, -, -, -, -, -, -, -, e2, -⟩ := Conf.C68_derived hc2
  rw [hc] at hc3
  injection hc3 with hc3
  subst hc3
  have eu : c2.text ("tls", "server_url_path") = c0.text ("tls", "server_url_path") := by
    unfold Conf.Config.text
    rw [e2 _ (by decide)]
  have eb : c2.text ("import", "base_path") = c0.text ("import", "base_path") := by
    unfold Conf.Config.text
    rw [e2 _ (by decide)]
  have hne2 : c0.text ("tls", "server_url_path") ≠ [] := by intro h; rw [h] at h2; cases h2
  rcases k3 with ⟨g, -⟩ | ⟨-, -, c4, hc4, k3⟩
  · exact absurd g hne
  rw [hc2] at hc4
  injection hc4 with hc4
  subst hc4
  obtain ⟨-, -, -, pu⟩ := k3 _ rfl (eb ▸ h3)
  have pu := pu hsu (eu ▸ hne2)
  rw [eu] at pu
  unfold based at pu
  rw [h2] at pu
  simp only [decide_true, Bool.true_or, ite_true] at pu
  rw [pu, ← hd] at k5
  rw [e]
  unfold Conf.Spec.server Conf.Spec.either
  rw [if_pos h1, if_pos hne2]
  unfold Conf.readTrimmed
  rw [hfs _ k5]
  have := k2 text ht
  have e3 := trim_again this
  rw [String.toList_ofList]
  exact (show Tools.Spec.Trimmed text.toList (Tools.trim url) by rw [e3]; exact this)

end CertProv

end Aktualizr
