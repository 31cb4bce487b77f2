import Verif.Model.CertProvider
import Verif.Props.C41
import Verif.Props.C68
import Verif.Props.C74

/-!
# C78 aktualizr-cert-provider: what it writes, and what a device makes of it
-/

namespace Aktualizr

open M

/-! ### Specification -/

namespace Spec

open CertProv
open Conf (Txt)

/-- The id for which credentials are made: the one asked for, or a random one. -/
def Identity (a : Around) (o : Options) (id : String) : Prop :=
  (o.name = some id ∧ id ≠ "") ∨ (o.name = none ∧ id = a.randomName)

/-- The address of the server is the one in the archive. -/
def ServerUrl (a : Around) (o : Options) (url : Txt) : Prop :=
  ∀ text, HasFile (a.archive o.credentials) "autoprov.url" text → Tools.Spec.Trimmed text.toList url

/-- The shared credentials are those in the archive. -/
def SharedCreds (a : Around) (o : Options) (b : Tls) : Prop :=
  o.credentials ≠ [] ∧ Readable (a.archive o.credentials) "autoprov_credentials.p12" ∧
    ∀ text, HasFile (a.archive o.credentials) "autoprov_credentials.p12" text → text ≠ "" ∧ a.parseP12 text = some b

/-- The server made these credentials for the device, when asked once, with the shared credentials. -/
def FromServer (a : Around) (o : Options) (id : String) (url : Txt) (t : Tls) (new : List Request) : Prop :=
  ∃ b body, SharedCreds a o b ∧ new = [⟨url ++ "/devices".toList, id, b⟩] ∧ a.server ⟨url ++ "/devices".toList, id, b⟩ = some body ∧
    a.parseP12 body = some t

/-- The certificate is about the key, names the device, and is issued by the fleet CA; nobody was asked. -/
def FromFleet (a : Around) (o : Options) (id : String) (t : Tls) (new : List Request) : Prop :=
  new = [] ∧ ∃ c pub, a.write c = some t.cert ∧ c.name = id ∧ c.key = a.publicOf t.pkey ∧ a.readCert (a.file o.fleetCa) = some (c.issuer, pub) ∧
    a.readKey (a.file o.fleetCaKey) = some c.signer ∧ c.country = o.country.getD "" ∧ c.state = o.state.getD "" ∧
    c.organization = o.organization.getD "" ∧ c.days = o.days.getD 365 ∧ a.newKey (o.bits.getD 2048) = some t.pkey ∧
    (o.rootCa = true → o.credentials ≠ [] ∧ (∀ text, HasFile (a.archive o.credentials) "server_ca.pem" text → text ≠ "" → t.ca = text) ∧
      (¬ Readable (a.archive o.credentials) "server_ca.pem" → ∃ b, SharedCreds a o b ∧ t.ca = b.ca))

/-- Where the credentials come from. -/
def Obtained (a : Around) (o : Options) (id : String) (url : Txt) (t : Tls) (new : List Request) : Prop :=
  if o.fleetCa = [] then FromServer a o id url t new else FromFleet a o id t new

/-- The files asked for have different names. -/
structure Apart (f : Txt → Txt) (o : Options) (p : Places) : Prop where
  cert : f p.cert ≠ f p.pkey
  ca : o.rootCa = true → f p.ca ≠ f p.pkey ∧ f p.ca ≠ f p.cert
  url : o.serverUrl = true → f p.url ≠ f p.pkey ∧ f p.url ≠ f p.cert ∧ (o.rootCa = true → f p.url ≠ f p.ca)

/-- The files asked for have these contents. -/
structure FilesAre (fs : Txt → Option String) (f : Txt → Txt) (o : Options) (p : Places) (t : Tls) (url : Txt) : Prop where
  pkey : fs (f p.pkey) = some t.pkey
  cert : fs (f p.cert) = some t.cert
  ca : o.rootCa = true → fs (f p.ca) = some t.ca
  url : o.serverUrl = true → fs (f p.url) = some (String.ofList url)

/-- A file that is asked for. -/
def AskedFor (f : Txt → Txt) (o : Options) (p : Places) (q : Txt) : Prop :=
  q = f p.pkey ∨ q = f p.cert ∨ (o.rootCa = true ∧ q = f p.ca) ∨ (o.serverUrl = true ∧ q = f p.url)

/-- Where the files belong: without configuration in a directory under fixed names, otherwise where the configuration says. -/
def BelongsAt (a : Around) (o : Options) (p : Places) : Prop :=
  (o.config = [] ∧ ∃ dir, (o.directory = some dir ∨ (o.directory = none ∧ dir = "/var/sota/import".toList)) ∧
    p.pkey = based dir "pkey.pem".toList ∧ p.cert = based dir "client.pem".toList ∧ p.ca = based dir "root.crt".toList ∧
    p.url = based dir "gateway.url".toList) ∨
  (o.config ≠ [] ∧ o.directory = none ∧ ∃ c, Conf.load a.conf { config := some o.config } = .ok c ∧
    ∀ base, c.text ("import", "base_path") = base → base ≠ [] →
      (c.text ("import", "tls_pkey_path") ≠ [] → p.pkey = based base (c.text ("import", "tls_pkey_path"))) ∧
      (c.text ("import", "tls_clientcert_path") ≠ [] → p.cert = based base (c.text ("import", "tls_clientcert_path"))) ∧
      (o.rootCa = true → c.text ("import", "tls_cacert_path") ≠ [] → p.ca = based base (c.text ("import", "tls_cacert_path"))) ∧
      (o.serverUrl = true → c.text ("tls", "server_url_path") ≠ [] → p.url = based base (c.text ("tls", "server_url_path"))))

end Spec

namespace CertProv

open Spec
open Conf (Txt)

/-! ### Files -/

theorem put_same {fs : Txt → Option String} {p : Txt} {c : Option String} : put fs p c p = c := by simp [put]

theorem put_other {fs : Txt → Option String} {p q : Txt} {c : Option String} (h : q ≠ p) : put fs p c q = fs q := by simp [put, h]

/-- What copying does: the last one of a name counts, other files stay. -/
theorem copyAll_ok {a : Around} (l : List (Txt × String)) {s s' : St} (h : copyAll a l s = (.ok (), s')) :
    s' = { s with disk := l.foldl (fun fs f => put fs f.1 (some f.2)) s.disk } := by
  induction l generalizing s with
  | nil => cases h; rfl
  | cons x l ih =>
    obtain ⟨p, text⟩ := x
    unfold copyAll at h
    cases hc : a.copies p with
    | works =>
      rw [hc] at h
      obtain ⟨u, s1, h1, h2⟩ := M.bind_ok.1 h
      cases h1
      rw [ih h2]
      rfl
    | fails left =>
      rw [hc] at h
      obtain ⟨u, s1, h1, h2⟩ := M.bind_ok.1 h
      cases h2

theorem copyAll_err {a : Around} (l : List (Txt × String)) {s s' : St} {e : Err} (h : copyAll a l s = (.error e, s')) :
    (∃ p left, a.copies p = .fails left ∧ p ∈ l.map Prod.fst) ∧ s'.remote = s.remote ∧ s'.requests = s.requests ∧
      ∀ q, q ∉ l.map Prod.fst → s'.disk q = s.disk q := by
  induction l generalizing s with
  | nil => cases h
  | cons x l ih =>
    obtain ⟨p, text⟩ := x
    unfold copyAll at h
    cases hc : a.copies p with
    | works =>
      rw [hc] at h
      obtain ⟨⟨p', left, h1, h2⟩, h3, h4, h5⟩ := ih (s := { s with disk := put s.disk p (some text) }) h
      refine ⟨⟨p', left, h1, List.mem_cons_of_mem _ h2⟩, h3, h4, fun q hq => ?_⟩
      rw [List.map_cons, List.mem_cons, not_or] at hq
      rw [h5 q hq.2]
      exact put_other hq.1
    | fails left =>
      rw [hc] at h
      refine ⟨⟨p, left, hc, .head _⟩, ?_⟩
      have hs : s' = { s with disk := put s.disk p left } := by
        injection h with h1 h2
        exact h2.symm
      subst hs
      refine ⟨rfl, rfl, fun q hq => put_other ?_⟩
      rw [List.map_cons, List.mem_cons, not_or] at hq
      exact hq.1

theorem transferAll_ok {a : Around} (l : List (Txt × String)) (hw : ∀ p ∈ l.map Prod.fst, a.transfers p = .works) (s : St) :
    transferAll a l s = (.ok (), { s with remote := l.foldl (fun fs f => put fs f.1 (some f.2)) s.remote }) := by
  induction l generalizing s with
  | nil => rfl
  | cons x l ih =>
    obtain ⟨p, text⟩ := x
    unfold transferAll
    rw [hw p (.head _)]
    exact ih (fun q hq => hw q (List.mem_cons_of_mem _ hq)) _

/-- Transferring does nothing else. -/
theorem transferAll_state {a : Around} (l : List (Txt × String)) (s : St) :
    ∃ r, (transferAll a l s).2 = { s with remote := r } ∧ (∀ q, q ∉ l.map Prod.fst → r q = s.remote q) ∧
      ∀ e, (transferAll a l s).1 = .error e → e.isStd = true := by
  induction l generalizing s with
  | nil => exact ⟨s.remote, rfl, fun _ _ => rfl, fun e h => by cases h⟩
  | cons x l ih =>
    obtain ⟨p, text⟩ := x
    unfold transferAll
    cases hc : a.transfers p with
    | works =>
      obtain ⟨r, h1, h2, h3⟩ := ih { s with remote := put s.remote p (some text) }
      refine ⟨r, h1, fun q hq => ?_, h3⟩
      rw [List.map_cons, List.mem_cons, not_or] at hq
      rw [h2 q hq.2]
      exact put_other hq.1
    | fails left =>
      refine ⟨put s.remote p left, rfl, fun q hq => put_other ?_, fun e h => ?_⟩
      · rw [List.map_cons, List.mem_cons, not_or] at hq
        exact hq.1
      · injection h with h
        rw [← h]
        rfl

theorem fold_put_not_mem (l : List (Txt × String)) (fs : Txt → Option String) {q : Txt} (hq : q ∉ l.map Prod.fst) :
    l.foldl (fun fs f => put fs f.1 (some f.2)) fs q = fs q := by
  induction l generalizing fs with
  | nil => rfl
  | cons x l ih =>
    rw [List.map_cons, List.mem_cons, not_or] at hq
    rw [List.foldl_cons, ih _ hq.2]
    exact put_other hq.1

/-- The files asked for, when their names differ. -/
theorem output_written {o : Options} {p : Places} {t : Tls} {url : Txt} {f : Txt → Txt} (ha : Apart f o p) (fs : Txt → Option String) :
    FilesAre (((output o p t url).map (fun x => (f x.1, x.2))).foldl (fun fs x => put fs x.1 (some x.2)) fs) f o p t url := by
  have h1 := ha.cert
  have h2 := ha.ca
  have h3 := ha.url
  unfold output
  cases hr : o.rootCa <;> cases hu : o.serverUrl
  · refine ⟨?_, ?_, by simp [hr], by simp [hu]⟩ <;> simp [put, Ne.symm h1]
  · obtain ⟨h4, h5, -⟩ := h3 hu
    refine ⟨?_, ?_, by simp [hr], fun _ => ?_⟩ <;> simp [put, Ne.symm h1, Ne.symm h4, Ne.symm h5]
  · obtain ⟨h4, h5⟩ := h2 hr
    refine ⟨?_, ?_, fun _ => ?_, by simp [hu]⟩ <;> simp [put, Ne.symm h1, Ne.symm h4, Ne.symm h5]
  · obtain ⟨h4, h5⟩ := h2 hr
    obtain ⟨h6, h7, h8⟩ := h3 hu
    have h8 := h8 hr
    refine ⟨?_, ?_, fun _ => ?_, fun _ => ?_⟩ <;>
      simp [put, Ne.symm h1, Ne.symm h4, Ne.symm h5, Ne.symm h6, Ne.symm h7, Ne.symm h8]

theorem output_asked {o : Options} {p : Places} {t : Tls} {url : Txt} {f : Txt → Txt} {q : Txt} :
    q ∈ ((output o p t url).map (fun x => (f x.1, x.2))).map Prod.fst ↔ AskedFor f o p q := by
  unfold output AskedFor
  cases o.rootCa <;> cases o.serverUrl <;> simp

/-! ### Credentials -/

theorem deviceId_ok {a : Around} {o : Options} {id : String} (h : deviceId a o = .ok id) : Identity a o id := by
  unfold deviceId at h
  cases hn : o.name with
  | none =>
    rw [hn] at h
    cases h
    exact .inr ⟨hn, rfl⟩
  | some n =>
    rw [hn] at h
    simp only at h
    split at h
    · cases h
    · rename_i hne
      cases h
      exact .inl ⟨hn, hne⟩

theorem readServerUrl_ok (a : Around) (o : Options) : ServerUrl a o (readServerUrl a o.credentials) := by
  intro text ht
  unfold readServerUrl
  rw [SecOst.readFile_has ht]
  exact Tools.trim_trimmed _

theorem bootstrap_ok {a : Around} {o : Options} {b : Tls} (h : bootstrap a o.credentials = .ok b) : SharedCreds a o b := by
  unfold bootstrap at h
  obtain ⟨u, h1, h⟩ := exc_bind_ok.1 h
  obtain ⟨s, h2, h3⟩ := exc_bind_ok.1 h
  obtain ⟨u', h4, h5⟩ := exc_bind_ok.1 h3
  have h1 := throwIf_ok.1 h1
  have h4 := throwIf_ok.1 h4
  refine ⟨(by intro hc; rw [hc] at h1; cases h1), SecOst.readFile_readable h2, fun text ht => ?_⟩
  rw [SecOst.readFile_has ht] at h2
  injection h2 with h2
  subst h2
  refine ⟨(by intro hc; subst hc; simp at h4), ?_⟩
  cases hp : a.parseP12 text with
  | none => rw [hp] at h5; cases h5
  | some b' => rw [hp] at h5; cases h5; rfl

theorem shared_ok {a : Around} {o : Options} {url : Txt} {id : String} {t : Tls} {s s' : St} (h : shared a o url id s = (.ok t, s')) :
    ∃ new, s' = { s with requests := s.requests ++ new } ∧ FromServer a o id url t new := by
  unfold shared at h
  obtain ⟨b, s1, h1, h2⟩ := M.bind_ok.1 h
  rw [lift_eq, Prod.mk.injEq] at h1
  obtain ⟨h1, rfl⟩ := h1
  obtain ⟨u, s2, h3, h4⟩ := M.bind_ok.1 h2
  cases h3
  obtain ⟨body, s3, h5, h6⟩ := M.bind_ok.1 h4
  obtain ⟨h7, rfl⟩ := M.orThrow_ok.1 h5
  obtain ⟨h8, rfl⟩ := M.orThrow_ok.1 h6
  exact ⟨_, rfl, b, body, bootstrap_ok h1, rfl, h7, h8⟩

theorem fleet_ok {a : Around} {o : Options} {id : String} {t : Tls} (hc : o.rootCa = true → o.credentials ≠ []) (h : fleet a o id = .ok t) :
    FromFleet a o id t [] := by
  unfold fleet at h
  obtain ⟨_, -, h2⟩ := exc_bind_ok.1 h
  obtain ⟨_, -, h3⟩ := exc_bind_ok.1 h2
  obtain ⟨_, -, h4⟩ := exc_bind_ok.1 h3
  obtain ⟨key, k1, h5⟩ := exc_bind_ok.1 h4
  obtain ⟨ca, k2, h6⟩ := exc_bind_ok.1 h5
  obtain ⟨signer, k3, h7⟩ := exc_bind_ok.1 h6
  obtain ⟨text, k4, h8⟩ := exc_bind_ok.1 h7
  obtain ⟨server, k5, h9⟩ := exc_bind_ok.1 h8
  have g1 : a.newKey (o.bits.getD 2048) = some key := by
    revert k1; cases a.newKey (o.bits.getD 2048) <;> intro k1 <;> cases k1; rfl
  have g2 : a.readCert (a.file o.fleetCa) = some ca := by
    revert k2; cases a.readCert (a.file o.fleetCa) <;> intro k2 <;> cases k2; rfl
  have g3 : a.readKey (a.file o.fleetCaKey) = some signer := by
    revert k3; cases a.readKey (a.file o.fleetCaKey) <;> intro k3 <;> cases k3; rfl
  cases h9
  split at k4
  swap_goal
  · cases k4
  rename_i tx0 hw
  cases k4
  refine ⟨rfl, _, ca.2, hw, rfl, rfl, g2, g3, rfl, rfl, rfl, rfl, g1, fun hr => ⟨hc hr, fun tx ht hne => ?_, fun hn => ?_⟩⟩
  · rw [hr] at k5
    have : readServerCa a o.credentials = tx := by
      unfold readServerCa
      rw [SecOst.readFile_has ht]
    rw [this, if_neg (by simp), if_pos hne] at k5
    cases k5
    rfl
  · have : readServerCa a o.credentials = "" := by
      unfold readServerCa
      cases hx : SecOst.readFile (a.archive o.credentials) "server_ca.pem" with
      | error e => rfl
      | ok s => exact absurd (SecOst.readFile_readable hx) hn
    rw [hr, this, if_neg (by simp), if_neg (by simp)] at k5
    cases hb : bootstrap a o.credentials with
    | error e => rw [hb] at k5; cases k5
    | ok b =>
      rw [hb] at k5
      cases k5
      exact ⟨b, bootstrap_ok hb, rfl⟩

theorem choose_ok {a : Around} {o : Options} {p : Places} (hd : (o.directory.isSome && !o.config.isEmpty) = false) (h : choose a o = .ok p) : BelongsAt a o p := by
  unfold choose at h
  split at h
  · rename_i hc
    cases h
    refine .inl ⟨hc, o.directory.getD "/var/sota/import".toList, ?_, rfl, rfl, rfl, rfl⟩
    cases o.directory with
    | none => exact .inr ⟨rfl, rfl⟩
    | some d => exact .inl rfl
  · rename_i hc
    obtain ⟨c, h1, h2⟩ := exc_bind_ok.1 h
    cases h2
    refine .inr ⟨hc, ?_, c, h1, ?_⟩
    · cases hx : o.directory with
      | none => rfl
      | some d =>
        rw [hx] at hd
        cases hl : o.config with
        | nil => exact absurd hl hc
        | cons _ _ => rw [hl] at hd; cases hd
    · rintro base rfl hb
      unfold places
      dsimp only
      rw [if_pos hb]
      refine ⟨fun hp => ?_, fun hp => ?_, fun hr hp => ?_, fun hu hp => ?_⟩
      · unfold orElse; rw [if_neg hp]
      · unfold orElse; rw [if_neg hp]
      · unfold orElse; rw [if_pos hr, if_neg hp]
      · rw [if_pos (by rw [hu]; simpa using hp)]

/-! ### The program -/

theorem shared_err {a : Around} {o : Options} {url : Txt} {id : String} {e : Err} {s s' : St} (h : shared a o url id s = (.error e, s')) :
    s' = s ∨ ∃ b, SharedCreds a o b ∧ s' = { s with requests := s.requests ++ [⟨url ++ "/devices".toList, id, b⟩] } := by
  unfold shared at h
  rcases M.bind_cases h with ⟨b, s1, h1, h2⟩ | ⟨e, h1, -⟩
  · rw [lift_eq, Prod.mk.injEq] at h1
    obtain ⟨h1, rfl⟩ := h1
    refine .inr ⟨b, bootstrap_ok h1, ?_⟩
    rcases M.bind_cases h2 with ⟨u, s2, h3, h4⟩ | ⟨e, h3, -⟩
    · cases h3
      rcases M.bind_cases h4 with ⟨body, s3, h5, h6⟩ | ⟨e, h5, -⟩
      · obtain ⟨-, rfl⟩ := M.orThrow_ok.1 h5
        exact ((Prod.ext_iff.1 h6).2.symm).trans M.orThrow_snd
      · exact ((Prod.ext_iff.1 h5).2.symm).trans M.orThrow_snd
    · cases h3
  · exact .inl ((Prod.ext_iff.1 h1).2.symm)

/-- What `main` has done before the files are written. -/
theorem main_parts {a : Around} {o : Options} {s s' : St} {r : Except Err Unit} (h : main a o s = (r, s')) :
    (∃ e, r = .error e ∧ s'.disk = s.disk ∧ s'.remote = s.remote ∧
      (s'.requests = s.requests ∨ (o.fleetCa = [] ∧ ∃ id b url, Identity a o id ∧ SharedCreds a o b ∧ ServerUrl a o url ∧
        s'.requests = s.requests ++ [⟨url ++ "/devices".toList, id, b⟩]))) ∨
    ∃ id url p t new, Identity a o id ∧ ServerUrl a o url ∧ BelongsAt a o p ∧ Obtained a o id url t new ∧
      (o.localDir ≠ [] ∨ o.target ≠ []) ∧
      deliver a o (output o p t url) { s with requests := s.requests ++ new } = (r, s') := by
  have early : ∀ e, s' = s → r = .error e → ∃ e, r = .error e ∧ s'.disk = s.disk ∧ s'.remote = s.remote ∧
      (s'.requests = s.requests ∨ (o.fleetCa = [] ∧ ∃ id b url, Identity a o id ∧ SharedCreds a o b ∧ ServerUrl a o url ∧
        s'.requests = s.requests ++ [⟨url ++ "/devices".toList, id, b⟩])) := by
    rintro e rfl rfl
    exact ⟨e, rfl, rfl, rfl, .inl rfl⟩
  unfold main at h
  rcases M.bind_cases h with ⟨_, s1, h1, h2⟩ | ⟨e, h1, hr⟩
  swap_goal
  · exact .inl (early e (Prod.ext_iff.1 h1).2.symm hr)
  obtain ⟨-, rfl⟩ := throwWhen_ok.1 h1
  rcases M.bind_cases h2 with ⟨_, s1, k1, h3⟩ | ⟨e, k1, hr⟩
  swap_goal
  · exact .inl (early e (Prod.ext_iff.1 k1).2.symm hr)
  obtain ⟨hdir, rfl⟩ := throwWhen_ok.1 k1
  rcases M.bind_cases h3 with ⟨_, s1, k2, h4⟩ | ⟨e, k2, hr⟩
  swap_goal
  · exact .inl (early e (Prod.ext_iff.1 k2).2.symm hr)
  obtain ⟨hout, rfl⟩ := throwWhen_ok.1 k2
  rcases M.bind_cases h4 with ⟨_, s1, k3, h5⟩ | ⟨e, k3, hr⟩
  swap_goal
  · exact .inl (early e (Prod.ext_iff.1 k3).2.symm hr)
  obtain ⟨hcred, rfl⟩ := throwWhen_ok.1 k3
  dsimp only at h5
  rcases M.bind_cases h5 with ⟨id, s1, k4, h6⟩ | ⟨e, k4, hr⟩
  swap_goal
  · exact .inl (early e (Prod.ext_iff.1 k4).2.symm hr)
  rw [lift_eq, Prod.mk.injEq] at k4
  obtain ⟨k4, rfl⟩ := k4
  rcases M.bind_cases h6 with ⟨p, s1, k5, h7⟩ | ⟨e, k5, hr⟩
  swap_goal
  · exact .inl (early e (Prod.ext_iff.1 k5).2.symm hr)
  rw [lift_eq, Prod.mk.injEq] at k5
  obtain ⟨k5, rfl⟩ := k5
  have hid := deviceId_ok k4
  have hurl := readServerUrl_ok a o
  have hplace := choose_ok hdir k5
  have hwhere : o.localDir ≠ [] ∨ o.target ≠ [] := by
    rcases Classical.em (o.localDir = []) with h | h
    · refine .inr fun ht => ?_
      rw [h, ht] at hout
      cases hout
    · exact .inl h
  rcases M.bind_cases h7 with ⟨t, s1, k6, h8⟩ | ⟨e, k6, hr⟩
  · by_cases hf : o.fleetCa = []
    · rw [if_pos hf] at k6
      obtain ⟨new, rfl, hfs⟩ := shared_ok k6
      exact .inr ⟨id, _, p, t, new, hid, hurl, hplace, by rw [Obtained, if_pos hf]; exact hfs, hwhere, h8⟩
    · rw [if_neg hf, lift_eq, Prod.mk.injEq] at k6
      obtain ⟨k6, rfl⟩ := k6
      refine .inr ⟨id, _, p, t, [], hid, hurl, hplace, ?_, hwhere, ?_⟩
      · rw [Obtained, if_neg hf]
        refine fleet_ok (fun hr hc => ?_) k6
        rw [hr, hc] at hcred
        simp at hcred
      · rw [List.append_nil]
        exact h8
  · by_cases hf : o.fleetCa = []
    · rw [if_pos hf] at k6
      rcases shared_err k6 with rfl | ⟨b, hb, rfl⟩
      · exact .inl (early e rfl hr)
      · exact .inl ⟨e, hr, rfl, rfl, .inr ⟨hf, id, b, _, hid, hb, hurl, rfl⟩⟩
    · rw [if_neg hf] at k6
      exact .inl (early e (Prod.ext_iff.1 k6).2.symm hr)

theorem id_map {α β : Type} (l : List (α × β)) : l.map (fun x => (id x.1, x.2)) = l := by simp

/-- What delivering leaves. -/
theorem deliver_ok {a : Around} {o : Options} {p : Places} {t : Tls} {url : Txt} {s s' : St} (h : deliver a o (output o p t url) s = (.ok (), s')) :
    s'.requests = s.requests ∧
    (o.localDir ≠ [] → (Apart (join o.localDir) o p → FilesAre s'.disk (join o.localDir) o p t url) ∧
      ∀ q, ¬ AskedFor (join o.localDir) o p q → s'.disk q = s.disk q) ∧
    (o.localDir = [] → s'.disk = s.disk) ∧
    (o.target ≠ [] → (Apart id o p → (∀ q, a.transfers q = .works) → FilesAre s'.remote id o p t url) ∧
      ∀ q, ¬ AskedFor id o p q → s'.remote q = s.remote q) ∧
    (o.target = [] → s'.remote = s.remote) := by
  unfold deliver at h
  obtain ⟨u, s1, h1, h2⟩ := M.bind_ok.1 h
  have hlocal : s1.requests = s.requests ∧ s1.remote = s.remote ∧
      (o.localDir ≠ [] → (Apart (join o.localDir) o p → FilesAre s1.disk (join o.localDir) o p t url) ∧
        ∀ q, ¬ AskedFor (join o.localDir) o p q → s1.disk q = s.disk q) ∧ (o.localDir = [] → s1.disk = s.disk) := by
    by_cases hl : o.localDir = []
    · rw [if_neg (by simpa using hl)] at h1
      cases h1
      exact ⟨rfl, rfl, fun hn => absurd hl hn, fun _ => rfl⟩
    · rw [if_pos hl] at h1
      have hs := copyAll_ok _ h1
      subst hs
      refine ⟨rfl, rfl, fun _ => ⟨fun ha => output_written ha _, fun q hq => fold_put_not_mem _ _ ?_⟩, fun hn => absurd hn hl⟩
      rw [output_asked]
      exact hq
  obtain ⟨l1, l2, l3, l4⟩ := hlocal
  by_cases ht : o.target = []
  · rw [if_neg (by simpa using ht)] at h2
    cases h2
    exact ⟨l1, l3, l4, fun hn => absurd ht hn, fun _ => l2⟩
  · rw [if_pos ht] at h2
    obtain ⟨r, q1, q2, q3⟩ := transferAll_state (a := a) (output o p t url) s1
    have hs : s' = { s1 with remote := r } := by
      unfold catchStd at h2
      split at h2
      · rename_i e w heq
        rw [heq] at q1 q3
        rw [if_pos (q3 e rfl)] at h2
        cases h2
        exact q1
      · rw [h2] at q1
        exact q1
    refine ⟨by rw [hs]; exact l1, by rw [hs]; exact l3, by rw [hs]; exact l4, fun _ => ⟨fun ha hw => ?_, fun q hq => ?_⟩, fun hn => absurd hn ht⟩
    · rw [transferAll_ok _ (fun q _ => hw q)] at q1
      have hx := output_written (t := t) (url := url) ha s1.remote
      rw [id_map] at hx
      rw [hs]
      have : r = List.foldl (fun fs f => put fs f.1 (some f.2)) s1.remote (output o p t url) := (congrArg St.remote q1).symm
      rw [this]
      exact hx
    · rw [hs, ← l2]
      refine q2 q fun hm => hq ?_
      rw [← output_asked (t := t) (url := url), id_map]
      exact hm

theorem deliver_err {a : Around} {o : Options} {p : Places} {t : Tls} {url : Txt} {s s' : St} {e : Err}
    (h : deliver a o (output o p t url) s = (.error e, s')) :
    o.localDir ≠ [] ∧ (∃ q left, a.copies q = .fails left ∧ AskedFor (join o.localDir) o p q) ∧ s'.remote = s.remote ∧ s'.requests = s.requests ∧
      ∀ q, ¬ AskedFor (join o.localDir) o p q → s'.disk q = s.disk q := by
  unfold deliver at h
  rcases M.bind_cases h with ⟨u, s1, h1, h2⟩ | ⟨e, h1, -⟩
  · exfalso
    split at h2
    · obtain ⟨r, q1, q2, q3⟩ := transferAll_state (a := a) (output o p t url) s1
      unfold catchStd at h2
      split at h2
      · rename_i e' w heq
        rw [heq] at q3
        rw [if_pos (q3 e' rfl)] at h2
        cases h2
      · rename_i hne
        exact hne _ _ h2
    · cases h2
  · by_cases hl : o.localDir = []
    · rw [if_neg (by simpa using hl)] at h1
      cases h1
    · rw [if_pos hl] at h1
      obtain ⟨⟨q, left, g1, g2⟩, g3, g4, g5⟩ := copyAll_err _ h1
      refine ⟨hl, ⟨q, left, g1, output_asked.1 g2⟩, g3, g4, fun q hq => g5 q fun hm => hq (output_asked.1 hm)⟩

/-- Success with a local directory: the files asked for are there, with credentials for the device that come from the server, or from
the fleet CA; no other file changed, and nothing on the device if it is not a target. -/
theorem C78_local {a : Around} {o : Options} {s s' : St} (h : main a o s = (.ok (), s')) (hl : o.localDir ≠ []) :
    ∃ id url p t new, Identity a o id ∧ ServerUrl a o url ∧ BelongsAt a o p ∧ Obtained a o id url t new ∧ s'.requests = s.requests ++ new ∧
      (Apart (join o.localDir) o p → FilesAre s'.disk (join o.localDir) o p t url) ∧
      (∀ q, ¬ AskedFor (join o.localDir) o p q → s'.disk q = s.disk q) ∧ (o.target = [] → s'.remote = s.remote) := by
  rcases main_parts h with ⟨e, hr, -⟩ | ⟨id, url, p, t, new, h1, h2, h3, h4, -, h5⟩
  · cases hr
  · obtain ⟨g1, g2, -, -, g5⟩ := deliver_ok h5
    exact ⟨id, url, p, t, new, h1, h2, h3, h4, g1, (g2 hl).1, (g2 hl).2, g5⟩

/-- Success with a target, if every transfer works. Without this condition the claim is false (`C78_failure_hidden`). -/
theorem C78_target_partial {a : Around} {o : Options} {s s' : St} (h : main a o s = (.ok (), s')) (ht : o.target ≠ [])
    (hw : ∀ q, a.transfers q = .works) :
    ∃ id url p t new, Identity a o id ∧ ServerUrl a o url ∧ BelongsAt a o p ∧ Obtained a o id url t new ∧ s'.requests = s.requests ++ new ∧
      (Apart _root_.id o p → FilesAre s'.remote _root_.id o p t url) ∧
      (∀ q, ¬ AskedFor _root_.id o p q → s'.remote q = s.remote q) ∧ (o.localDir = [] → s'.disk = s.disk) := by
  rcases main_parts h with ⟨e, hr, -⟩ | ⟨id, url, p, t, new, h1, h2, h3, h4, -, h5⟩
  · cases hr
  · obtain ⟨g1, -, g3, g4, -⟩ := deliver_ok h5
    exact ⟨id, url, p, t, new, h1, h2, h3, h4, g1, fun ha => (g4 ht).1 ha hw, (g4 ht).2, g3⟩

/-- Failure: nothing on the device changed, and no file here unless copying one of those asked for failed. -/
theorem C78_failure {a : Around} {o : Options} {s s' : St} {e : Err} (h : main a o s = (.error e, s')) :
    s'.remote = s.remote ∧
    (s'.disk = s.disk ∨ ∃ p, BelongsAt a o p ∧ (∃ q left, a.copies q = .fails left ∧ AskedFor (join o.localDir) o p q) ∧
      ∀ q, ¬ AskedFor (join o.localDir) o p q → s'.disk q = s.disk q) := by
  rcases main_parts h with ⟨e', -, h1, h2, -⟩ | ⟨id, url, p, t, new, h1, h2, h3, h4, -, h5⟩
  · exact ⟨h2, .inl h1⟩
  · obtain ⟨-, g1, g2, -, g4⟩ := deliver_err h5
    exact ⟨g2, .inr ⟨p, h3, g1, g4⟩⟩

/-- The server is asked at most once, for the device and with the shared credentials, and never if there is a fleet CA. -/
theorem C78_requests {a : Around} {o : Options} {s s' : St} {r : Except Err Unit} (h : main a o s = (r, s')) :
    s'.requests = s.requests ∨ (o.fleetCa = [] ∧ ∃ id b url, Identity a o id ∧ SharedCreds a o b ∧ ServerUrl a o url ∧
      s'.requests = s.requests ++ [⟨url ++ "/devices".toList, id, b⟩]) := by
  rcases main_parts h with ⟨e', -, -, -, h3⟩ | ⟨id, url, p, t, new, h1, h2, h3, h4, -, h5⟩
  · exact h3
  · have hq : s'.requests = s.requests ++ new := by
      cases r with
      | ok u => exact (deliver_ok h5).1
      | error e => exact (deliver_err h5).2.2.2.1
    unfold Obtained at h4
    split at h4
    · rename_i hf
      obtain ⟨b, body, k1, rfl, -⟩ := h4
      exact .inr ⟨hf, id, b, url, h1, k1, h2, hq⟩
    · rw [h4.1, List.append_nil] at hq
      exact .inl hq

end CertProv

end Aktualizr
