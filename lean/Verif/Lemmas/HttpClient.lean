import Verif.Model.HttpClient
import Verif.Lemmas.DirectorUpdate

/-! What the calls to the HTTP client do to it, whatever their outcome. -/

namespace Aktualizr.Curl

open M (gets modify throw throwWhen catchStd Preserves IsPre)

/-- Only the credentials differ from a new handle. -/
def BaseH (h : Handle) : Prop := { h with caInfo := none, cert := none, key := none, engine := false } = fresh

/-- What `setCerts` may change: the credentials. -/
def CredsOnly (c d : Client) : Prop :=
  d.headers = c.headers ∧ d.proxy = c.proxy ∧ d.proxyUser = c.proxyUser ∧ d.proxyPwd = c.proxyPwd ∧ d.ocsp = c.ocsp ∧
  d.bandwidth = c.bandwidth ∧ d.flying = c.flying ∧ d.sent = c.sent ∧ (BaseH c.curl → BaseH d.curl)

theorem credsOnly_pre : IsPre CredsOnly where
  refl := fun _ => ⟨rfl, rfl, rfl, rfl, rfl, rfl, rfl, rfl, id⟩
  trans := fun _ _ _ h1 h2 => ⟨h2.1.trans h1.1, h2.2.1.trans h1.2.1, h2.2.2.1.trans h1.2.2.1, h2.2.2.2.1.trans h1.2.2.2.1,
    h2.2.2.2.2.1.trans h1.2.2.2.2.1, h2.2.2.2.2.2.1.trans h1.2.2.2.2.2.1, h2.2.2.2.2.2.2.1.trans h1.2.2.2.2.2.2.1,
    h2.2.2.2.2.2.2.2.1.trans h1.2.2.2.2.2.2.2.1, fun h => h2.2.2.2.2.2.2.2.2 (h1.2.2.2.2.2.2.2.2 h)⟩

theorem setopt_credsOnly {f : Handle → Handle} (hf : ∀ h, BaseH h → BaseH (f h)) : Preserves CredsOnly (setopt f) :=
  fun _ => ⟨rfl, rfl, rfl, rfl, rfl, rfl, rfl, rfl, hf _⟩

theorem setCerts_credsOnly (k : Certs) (g : Grants) : Preserves CredsOnly (setCerts k g) := by
  have hR := credsOnly_pre
  have hs1 : Preserves CredsOnly (setopt (fun h => { h with verifyPeer := true, verifyHost := true })) :=
    setopt_credsOnly (fun h hb => by unfold BaseH at hb ⊢; simp only [fresh, Handle.mk.injEq] at hb ⊢; simp [hb])
  have hs2 : ∀ b, Preserves CredsOnly (setopt (fun h => { h with caInfo := b })) :=
    fun b => setopt_credsOnly (fun h hb => hb)
  have hs3 : ∀ b, Preserves CredsOnly (setopt (fun h => { h with cert := b })) :=
    fun b => setopt_credsOnly (fun h hb => hb)
  have hs4 : ∀ b, Preserves CredsOnly (setopt (fun h => { h with key := b })) :=
    fun b => setopt_credsOnly (fun h hb => hb)
  have hs5 : ∀ b, Preserves CredsOnly (setopt (fun h => { h with engine := true, key := b })) :=
    fun b => setopt_credsOnly (fun h hb => hb)
  unfold setCerts
  refine Preserves.bind hR (Preserves.modify fun w => ⟨rfl, rfl, rfl, rfl, rfl, rfl, rfl, rfl, id⟩) fun _ => ?_
  refine Preserves.bind hR hs1 fun _ => Preserves.bind hR (Preserves.throwWhen hR) fun _ =>
    Preserves.bind hR (Preserves.throwWhen hR) fun _ => Preserves.bind hR (hs2 _) fun _ => ?_
  refine Preserves.bind hR ?_ fun _ => ?_
  · unfold useCert
    split
    · exact hs3 _
    · exact Preserves.bind hR (Preserves.throwWhen hR) fun _ => hs3 _
  refine Preserves.bind hR (Preserves.modify fun w => ⟨rfl, rfl, rfl, rfl, rfl, rfl, rfl, rfl, id⟩) fun _ => ?_
  refine Preserves.bind hR ?_ fun _ => Preserves.modify fun w => ⟨rfl, rfl, rfl, rfl, rfl, rfl, rfl, rfl, id⟩
  unfold useKey
  split
  · exact Preserves.bind hR (Preserves.throwWhen hR) fun _ => hs5 _
  · exact Preserves.bind hR (Preserves.throwWhen hR) fun _ => hs4 _

/-- The system grants what these credentials need, and the certificate authority is in a file. -/
def Granted (k : Certs) (g : Grants) : Prop :=
  k.caSource = .file ∧ g.ca = true ∧ (k.certSource = .file → g.cert = true) ∧ (k.keySource = .file → g.key = true) ∧
  (k.keySource = .pkcs11 → g.engine = true)

/-- What a handle is told of a credential. -/
def told (s : Source) (b : Bytes) : Source × Bytes := (s, match s with | .file => b | .pkcs11 => cstr b)

/-- The client uses these credentials. -/
structure Uses (k : Certs) (c : Client) : Prop where
  certs : c.certs = some k
  ca : c.curl.caInfo = some k.ca
  cert : c.curl.cert = some (told k.certSource k.cert)
  key : c.curl.key = some (told k.keySource k.key)
  pCert : c.pkcs11Cert = (k.certSource == .pkcs11)
  pKey : c.pkcs11Key = (k.keySource == .pkcs11)

theorem setCerts_uses {k : Certs} {g : Grants} (h : Granted k g) (c : Client) :
    (setCerts k g c).1 = .ok () ∧ Uses k (setCerts k g c).2 := by
  obtain ⟨h1, h2, h3, h4, h5⟩ := h
  rcases k with ⟨ca, cas, cert, certs, key, keys⟩
  rcases g with ⟨gca, gcert, gkey, geng⟩
  dsimp only at h1 h2 h3 h4 h5
  subst h1 h2
  cases certs <;> cases keys <;>
    simp only [forall_const, reduceCtorEq, false_implies] at h3 h4 h5 <;>
    subst_vars <;>
    exact ⟨rfl, rfl, rfl, rfl, rfl, rfl, rfl⟩

/-- No credentials have been set. -/
structure Bare (c : Client) : Prop where
  certs : c.certs = none
  ca : c.curl.caInfo = none
  cert : c.curl.cert = none
  key : c.curl.key = none
  pCert : c.pkcs11Cert = false
  pKey : c.pkcs11Key = false

/-- `dup`. -/
theorem dup_eq (e : Bool) (c : Client) : dup e c =
    (if c.pkcs11Key && !e then .error (.std "curl_easy_setopt error") else .ok { c.curl with engine := c.pkcs11Key }, c) := by
  unfold dup
  refine (M.run_bind (m := gets id) (w1 := c) (a := c) rfl).trans ?_
  cases h : (c.pkcs11Key && !e) with
  | false =>
    refine (M.run_bind (w1 := c) (a := ()) ?_).trans ?_
    · simp [throwWhen]
    · rfl
  | true =>
    refine (M.run_bind_err (w1 := c) (e := .std "curl_easy_setopt error") ?_).trans ?_
    · simp [throwWhen]
    · rfl

/-- The handle a request ends up with (`perform`). -/
def final (c : Client) (h : Handle) (limit : Int) : Handle :=
  let h := if limit ≥ 0 then { h with maxFileSize := some limit } else h
  let h := optProxy c (optSpeed c h)
  if c.ocsp then { h with verifyStatus := true } else h

def getHandle (c : Client) (url : Bytes) (limit : Int) : Handle :=
  let h := { c.curl with engine := c.pkcs11Key, headers := c.headers }
  let h := if c.pkcs11Cert then { h with cert := h.cert.map (fun x => (.pkcs11, x.2)) } else h
  final c { postFields [] (optProxy c h) with url := cstr url, method := .get } limit

def postHandle (c : Client) (url ctype data : Bytes) : Handle :=
  let h := optProxy c { c.curl with engine := c.pkcs11Key, headers := c.headers ++ [cstr (contentType ++ ctype)] }
  final c (postFields data { h with url := cstr url, method := .post }) respLimit

def putHandle (c : Client) (url ctype data : Bytes) : Handle :=
  let h := optProxy c { c.curl with engine := c.pkcs11Key, headers := c.headers ++ [cstr (contentType ++ ctype)] }
  final c { postFields data { h with url := cstr url } with custom := some namePut } respLimit

def downloadHandle (c : Client) (url : Bytes) (resume : Int) : Handle :=
  { optSpeed c { optProxy c { c.curl with engine := c.pkcs11Key } with url := cstr url, method := .get, follow := true } with
    resumeFrom := resume }

/-- A request is recorded. -/
def record (c : Client) (h : Handle) : Client := { c with sent := c.sent ++ h.request.toList }

theorem get_eq (u : Bytes) (l : Int) (e : Bool) (c : Client) : get u l e c =
    if c.pkcs11Key && !e then (.error (.std "curl_easy_setopt error"), c) else (.ok (), record c (getHandle c u l)) := by
  unfold get
  split
  · exact M.run_bind_err (by rw [dup_eq, if_pos (by assumption)])
  · refine (M.run_bind (w1 := c) (a := { c.curl with engine := c.pkcs11Key }) (by rw [dup_eq, if_neg (by assumption)])).trans ?_
    rfl

theorem post_eq (u t d : Bytes) (e : Bool) (c : Client) : post u t d e c =
    if c.pkcs11Key && !e then (.error (.std "curl_easy_setopt error"), c) else (.ok (), record c (postHandle c u t d)) := by
  unfold post
  split
  · exact M.run_bind_err (by rw [dup_eq, if_pos (by assumption)])
  · refine (M.run_bind (w1 := c) (a := { c.curl with engine := c.pkcs11Key }) (by rw [dup_eq, if_neg (by assumption)])).trans ?_
    rfl

theorem put_eq (u t d : Bytes) (e : Bool) (c : Client) : put u t d e c =
    if c.pkcs11Key && !e then (.error (.std "curl_easy_setopt error"), c) else (.ok (), record c (putHandle c u t d)) := by
  unfold put
  split
  · exact M.run_bind_err (by rw [dup_eq, if_pos (by assumption)])
  · refine (M.run_bind (w1 := c) (a := { c.curl with engine := c.pkcs11Key }) (by rw [dup_eq, if_neg (by assumption)])).trans ?_
    rfl

theorem dropHandle_eq (c : Client) : dropHandle c =
    if c.flying = some false then (.error (.ub "curl_easy_cleanup of a handle in use"), c) else (.ok (), { c with flying := none }) := by
  unfold dropHandle
  refine (M.run_bind (m := gets id) (w1 := c) (a := c) rfl).trans ?_
  rcases h : c.flying with _ | _ | _ <;> simp

theorem startDownload_eq (u : Bytes) (r : Int) (s e : Bool) (c : Client) : startDownload u r s e c =
    if c.pkcs11Key && !e then (.error (.std "curl_easy_setopt error"), c)
    else if c.flying = some false then (.error (.ub "curl_easy_cleanup of a handle in use"), c)
    else (.ok (), { record c (downloadHandle c u r) with flying := some s }) := by
  unfold startDownload
  split
  · exact M.run_bind_err (by rw [dup_eq, if_pos (by assumption)])
  · refine (M.run_bind (w1 := c) (a := { c.curl with engine := c.pkcs11Key }) (by rw [dup_eq, if_neg (by assumption)])).trans ?_
    split
    · exact M.run_bind_err (by rw [dropHandle_eq, if_pos (by assumption)])
    · refine (M.run_bind (w1 := { c with flying := none }) (a := ()) (by rw [dropHandle_eq, if_neg (by assumption)])).trans ?_
      rfl

/-- `reset` when the handle may be dropped. -/
theorem reset_eq (g : Grants) (c : Client) : reset g c =
    if c.flying = some false then (.error (.ub "curl_easy_cleanup of a handle in use"), c)
    else match c.certs with
      | some k => setCerts k g { c with flying := none, curl := fresh }
      | none => (.ok (), { c with flying := none, curl := fresh }) := by
  unfold reset
  split
  · exact M.run_bind_err (by rw [dropHandle_eq, if_pos (by assumption)])
  · refine (M.run_bind (w1 := { c with flying := none }) (a := ()) (by rw [dropHandle_eq, if_neg (by assumption)])).trans ?_
    refine (M.run_bind (m := setopt (fun _ => fresh)) (w1 := { c with flying := none, curl := fresh }) (a := ()) rfl).trans ?_
    refine (M.run_bind (m := gets id) (w1 := { c with flying := none, curl := fresh }) (a := { c with flying := none, curl := fresh }) rfl).trans ?_
    cases h : c.certs <;> simp

theorem updateHeader_eq (n v : Bytes) (c : Client) : updateHeader n v c =
    (.ok (replaceHeader (n ++ [58, 32]) v c.headers).2, { c with headers := (replaceHeader (n ++ [58, 32]) v c.headers).1 }) := rfl

/-- After a call whose exception, if any, was caught, the others run on what it left. -/
theorem run_cons {x : HttpCall} {xs : List HttpCall} {c d : Client} (h : run (x :: xs) c = (.ok (), d)) :
    run xs (step x c).2 = (.ok (), d) := by
  unfold run at h
  obtain ⟨_, c1, h1, h2⟩ := M.bind_ok.1 h
  have : c1 = (step x c).2 := by
    unfold catchStd at h1
    split at h1
    · rename_i e w' heq
      split at h1
      · cases h1; rw [heq]
      · cases h1
    · rw [h1]
  rw [← this]
  exact h2

theorem run_append {xs ys : List HttpCall} {c d : Client} (h : run (xs ++ ys) c = (.ok (), d)) :
    ∃ c1, run xs c = (.ok (), c1) ∧ run ys c1 = (.ok (), d) := by
  induction xs generalizing c with
  | nil => exact ⟨c, rfl, h⟩
  | cons x xs ih =>
    rw [List.cons_append] at h
    unfold run at h
    obtain ⟨_, c1, h1, h2⟩ := M.bind_ok.1 h
    obtain ⟨c2, h3, h4⟩ := ih h2
    refine ⟨c2, ?_, h4⟩
    unfold run
    exact M.bind_ok.2 ⟨_, c1, h1, h3⟩

end Aktualizr.Curl
