import Verif.Lemmas.HttpClient
import Verif.Props.C33

/-!
# C84: a request carries what the client was last told, and nothing else
-/

namespace Aktualizr.Spec.Web

open Aktualizr.Curl (HttpCall Certs Grants Source)

abbrev Bytes := List UInt8

/-- The last value a sequence of calls sets, or the one before. -/
def last {α : Type} (f : HttpCall → Option α) (d : α) (h : List HttpCall) : α := h.foldl (fun a x => (f x).getD a) d

def proxy : List HttpCall → Bytes := last (fun | .setProxy p => some p | _ => none) []
def login : List HttpCall → Bytes × Bytes := last (fun | .setProxyCredentials u p => some (u, p) | _ => none) ([], [])
def ocsp : List HttpCall → Bool := last (fun | .setOcsp b => some b | _ => none) false
def speed : List HttpCall → Int := last (fun | .setBandwidth n => some n | _ => none) 0

/-- A header. -/
structure Header where
  name : Bytes
  value : Bytes
  deriving DecidableEq

/-- As it is sent. -/
def Header.text (x : Header) : Bytes := x.name ++ [58, 32] ++ x.value

/-- Names have no colon; neither has a zero byte. -/
def Header.Fine (x : Header) : Prop := 58 ∉ x.name ∧ 0 ∉ x.name ∧ 0 ∉ x.value

/-- The first header of this name gets this value. -/
def replace (n v : Bytes) : List Header → List Header
  | [] => []
  | x :: xs => if x.name = n then ⟨n, v⟩ :: xs else x :: replace n v xs

/-- The headers after a sequence of calls. -/
def headers (init : List Header) : List HttpCall → List Header
  | [] => init
  | .updateHeader n v :: xs => headers (replace n v init) xs
  | _ :: xs => headers init xs

/-- The credentials the caller has the client use: those of the last `setCerts`, if that and the resets after it were granted what they
need; none, if it was never called. -/
inductive InUse : List HttpCall → Option Certs → Prop
  | none {h : List HttpCall} (hn : ∀ k g, HttpCall.setCerts k g ∉ h) : InUse h none
  | some {h1 h2 : List HttpCall} {k : Certs} {g : Grants} (hg : Curl.Granted k g) (hn : ∀ k' g', HttpCall.setCerts k' g' ∉ h2)
      (hr : ∀ g', HttpCall.reset g' ∈ h2 → Curl.Granted k g') : InUse (h1 ++ HttpCall.setCerts k g :: h2) (some k)

/-- Login as curl and the proxy read it: name and password, each encoded, with a colon in between. -/
def readLogin (b : Bytes) : Option (Bytes × Bytes) := do
  let u ← Spec.percentDecode (b.takeWhile (· != 58))
  let p ← Spec.percentDecode ((b.dropWhile (· != 58)).drop 1)
  return (u, p)

/-- No reset and no new download while a download is under way. -/
def Orderly : Bool → List HttpCall → Prop
  | _, [] => True
  | busy, .reset _ :: xs => busy = false ∧ Orderly false xs
  | busy, .startDownload _ _ _ _ :: xs => busy = false ∧ Orderly true xs
  | _, .endDownload :: xs => Orderly false xs
  | busy, _ :: xs => Orderly busy xs

/-- `"Accept: */*"`. -/
def accept : Header := ⟨[65, 99, 99, 101, 112, 116], [42, 47, 42]⟩

/-- `"Content-Type"`. -/
def contentType (t : Bytes) : Header := ⟨[67, 111, 110, 116, 101, 110, 116, 45, 84, 121, 112, 101], t⟩

/-- What goes with every request after the calls `h`: how the server is checked, the credentials, the speed, the proxy. -/
structure Standard (h : List HttpCall) (k : Option Certs) (s : Curl.Sent) : Prop where
  peer : s.verifyPeer = true
  host : s.verifyHost = true
  ca : s.ca = k.map (·.ca)
  cert : s.cert = k.map (fun k => (k.certSource, k.cert))
  key : s.key = k.map (fun k => (k.keySource, k.key))
  proxy : s.proxy = if Web.proxy h = [] then none else some (Web.proxy h)
  login : if Web.proxy h = [] ∨ Web.login h = ([], []) then s.login = none else s.login.bind readLogin = some (Web.login h)
  speed : s.maxSpeed = if Web.speed h > 0 then some (Web.speed h) else none

end Aktualizr.Spec.Web

namespace Aktualizr.Curl

open Spec.Web (Header Standard InUse Orderly)

/-! ### Texts -/

theorem cstr_id {b : Bytes} (h : (0 : UInt8) ∉ b) : cstr b = b := by
  unfold cstr
  induction b with
  | nil => rfl
  | cons x b ih =>
    have hx : x ≠ 0 := fun e => h (e ▸ List.mem_cons_self)
    rw [List.takeWhile_cons_of_pos (by simpa using hx), ih (fun hb => h (List.mem_cons_of_mem _ hb))]

theorem sep_prefix {n : Bytes} {a m b : Bytes} (hn : (58 : UInt8) ∉ n) (hm : (58 : UInt8) ∉ m)
    (h : n ++ 58 :: a = m ++ 58 :: b) : n = m := by
  induction n generalizing m with
  | nil =>
    cases m with
    | nil => rfl
    | cons y m => exact absurd ((List.cons.inj h).1 ▸ List.mem_cons_self) hm
  | cons x n ih =>
    cases m with
    | nil => exact absurd ((List.cons.inj h).1 ▸ List.mem_cons_self) hn
    | cons y m =>
      obtain ⟨h1, h2⟩ := List.cons.inj h
      rw [h1, ih (fun e => hn (List.mem_cons_of_mem _ e)) (fun e => hm (List.mem_cons_of_mem _ e)) h2]

theorem text_zero {x : Header} (h : x.Fine) : (0 : UInt8) ∉ x.text := by
  intro e
  unfold Spec.Web.Header.text at e
  simp only [List.mem_append, List.mem_cons, List.not_mem_nil, or_false] at e
  rcases e with (e | e | e) | e
  · exact h.2.1 e
  · exact absurd e (by decide)
  · exact absurd e (by decide)
  · exact h.2.2 e

theorem same_iff {n : Bytes} {x : Header} (hc : (58 : UInt8) ∉ n) (hz : (0 : UInt8) ∉ n) (hx : x.Fine) :
    sameUpTo (n ++ [58, 32]).length (n ++ [58, 32]) x.text = true ↔ x.name = n := by
  unfold sameUpTo
  rw [cstr_id (text_zero hx), cstr_id (b := n ++ [58, 32]) (by simp [hz]), decide_eq_true_iff, List.take_length]
  constructor
  · intro h
    have h2 := List.take_append_drop (n ++ [58, 32]).length x.text
    rw [← h] at h2
    unfold Spec.Web.Header.text at h2
    simp only [List.append_assoc, List.cons_append, List.nil_append] at h2
    exact (sep_prefix hc hx.1 h2).symm
  · intro h
    subst h
    unfold Spec.Web.Header.text
    exact List.take_left.symm

theorem replaceHeader_spec {n v : Bytes} (hc : (58 : UInt8) ∉ n) (hz : (0 : UInt8) ∉ n) (hv : (0 : UInt8) ∉ v) :
    ∀ {l : List Header}, (∀ x ∈ l, x.Fine) →
      (replaceHeader (n ++ [58, 32]) v (l.map Header.text)).1 = (Spec.Web.replace n v l).map Header.text ∧
      (replaceHeader (n ++ [58, 32]) v (l.map Header.text)).2 = l.any (fun x => x.name == n) ∧
      ∀ x ∈ Spec.Web.replace n v l, x.Fine := by
  intro l
  induction l with
  | nil => intro _; exact ⟨rfl, rfl, fun _ h => nomatch h⟩
  | cons x xs ih =>
    intro hl
    have hx := hl x List.mem_cons_self
    obtain ⟨i1, i2, i3⟩ := ih (fun y hy => hl y (List.mem_cons_of_mem _ hy))
    simp only [List.map_cons, replaceHeader, Spec.Web.replace]
    by_cases e : x.name = n
    · rw [if_pos ((same_iff hc hz hx).2 e), if_pos e]
      refine ⟨?_, by simp [e], ?_⟩
      · rw [cstr_id]
        · rfl
        · simp [hz, hv]
      · intro y hy
        rcases List.mem_cons.1 hy with rfl | hy
        · exact ⟨hc, hz, hv⟩
        · exact hl y (List.mem_cons_of_mem _ hy)
    · rw [if_neg (fun h => e ((same_iff hc hz hx).1 h)), if_neg e]
      refine ⟨by simp [i1], by simp [i2, e], ?_⟩
      intro y hy
      rcases List.mem_cons.1 hy with rfl | hy
      · exact hx
      · exact i3 y hy

/-! ### What a sequence of calls leaves -/

/-- The settings, apart from credentials and headers. -/
structure Set (c : Client) (proxy user pwd : Bytes) (ocsp : Bool) (speed : Int) : Prop where
  base : BaseH c.curl
  proxy : c.proxy = proxy
  user : c.proxyUser = user
  pwd : c.proxyPwd = pwd
  ocsp : c.ocsp = ocsp
  speed : c.bandwidth = speed

theorem set_same {c d : Client} (hb : BaseH c.curl) (h : CredsOnly c d) :
    Set d c.proxy c.proxyUser c.proxyPwd c.ocsp c.bandwidth :=
  ⟨h.2.2.2.2.2.2.2.2 hb, h.2.1, h.2.2.1, h.2.2.2.1, h.2.2.2.2.1, h.2.2.2.2.2.1⟩

theorem base_fresh : BaseH fresh := rfl

theorem reset_set (g : Grants) (c : Client) (hb : BaseH c.curl) :
    Set (reset g c).2 c.proxy c.proxyUser c.proxyPwd c.ocsp c.bandwidth ∧ (reset g c).2.headers = c.headers ∧
      (reset g c).2.sent = c.sent := by
  rw [reset_eq]
  split
  · exact ⟨⟨hb, rfl, rfl, rfl, rfl, rfl⟩, rfl, rfl⟩
  · split
    · rename_i k _
      have h := setCerts_credsOnly k g { c with flying := none, curl := fresh }
      exact ⟨set_same (c := { c with flying := none, curl := fresh }) base_fresh h, h.1, h.2.2.2.2.2.2.2.1⟩
    · exact ⟨⟨base_fresh, rfl, rfl, rfl, rfl, rfl⟩, rfl, rfl⟩

/-- Requests leave the client as it is, but for the record and what is under way. -/
theorem request_frame (x : HttpCall) (c : Client)
    (hx : (∃ u l e, x = .get u l e) ∨ (∃ u t d e, x = .post u t d e) ∨ (∃ u t d e, x = .put u t d e) ∨
      (∃ u r s e, x = .startDownload u r s e) ∨ x = .endDownload) :
    ∃ f s, (step x c).2 = { c with flying := f, sent := s } := by
  rcases hx with ⟨u, l, e, rfl⟩ | ⟨u, t, d, e, rfl⟩ | ⟨u, t, d, e, rfl⟩ | ⟨u, r, s, e, rfl⟩ | rfl
  · refine ⟨c.flying, (step (.get u l e) c).2.sent, ?_⟩
    simp only [step, get_eq]; split <;> rfl
  · refine ⟨c.flying, (step (.post u t d e) c).2.sent, ?_⟩
    simp only [step, post_eq]; split <;> rfl
  · refine ⟨c.flying, (step (.put u t d e) c).2.sent, ?_⟩
    simp only [step, put_eq]; split <;> rfl
  · refine ⟨(step (.startDownload u r s e) c).2.flying, (step (.startDownload u r s e) c).2.sent, ?_⟩
    simp only [step, startDownload_eq]; split <;> first | rfl | (split <;> rfl)
  · exact ⟨none, c.sent, rfl⟩

theorem run_set (h : List HttpCall) : ∀ {c d : Client}, run h c = (.ok (), d) → BaseH c.curl →
    Set d (Spec.Web.last (fun | .setProxy p => some p | _ => none) c.proxy h)
      (Spec.Web.last (fun | .setProxyCredentials u p => some (u, p) | _ => none) (c.proxyUser, c.proxyPwd) h).1
      (Spec.Web.last (fun | .setProxyCredentials u p => some (u, p) | _ => none) (c.proxyUser, c.proxyPwd) h).2
      (Spec.Web.last (fun | .setOcsp b => some b | _ => none) c.ocsp h)
      (Spec.Web.last (fun | .setBandwidth n => some n | _ => none) c.bandwidth h) := by
  induction h with
  | nil => intro c d hr hb; cases hr; exact ⟨hb, rfl, rfl, rfl, rfl, rfl⟩
  | cons x h ih =>
    intro c d hr hb
    have h2 := ih (run_cons hr)
    have key : ∀ {f s}, (step x c).2 = { c with flying := f, sent := s } → BaseH (step x c).2.curl ∧
        (step x c).2.proxy = c.proxy ∧ (step x c).2.proxyUser = c.proxyUser ∧ (step x c).2.proxyPwd = c.proxyPwd ∧
        (step x c).2.ocsp = c.ocsp ∧ (step x c).2.bandwidth = c.bandwidth := by
      intro f s e; rw [e]; exact ⟨hb, rfl, rfl, rfl, rfl, rfl⟩
    have key2 : ∀ {e : Client}, (step x c).2 = e → Set e c.proxy c.proxyUser c.proxyPwd c.ocsp c.bandwidth →
        BaseH (step x c).2.curl ∧
        (step x c).2.proxy = c.proxy ∧ (step x c).2.proxyUser = c.proxyUser ∧ (step x c).2.proxyPwd = c.proxyPwd ∧
        (step x c).2.ocsp = c.ocsp ∧ (step x c).2.bandwidth = c.bandwidth := by
      intro e he hs; rw [he]; exact ⟨hs.base, hs.proxy, hs.user, hs.pwd, hs.ocsp, hs.speed⟩
    cases x with
    | setProxy p => exact h2 hb
    | setProxyCredentials u p => exact h2 hb
    | setOcsp b => exact h2 hb
    | setBandwidth n => exact h2 hb
    | updateHeader n v => exact h2 hb
    | setCerts k g =>
      obtain ⟨k1, k2, k3, k4, k5, k6⟩ := key2 rfl (set_same hb (setCerts_credsOnly k g c))
      have h3 := h2 k1; rw [k2, k3, k4, k5, k6] at h3; exact h3
    | reset g =>
      obtain ⟨k1, k2, k3, k4, k5, k6⟩ := key2 rfl (reset_set g c hb).1
      have h3 := h2 k1; rw [k2, k3, k4, k5, k6] at h3; exact h3
    | get u l e =>
      obtain ⟨f, s, e⟩ := request_frame (.get u l e) c (.inl ⟨_, _, _, rfl⟩)
      obtain ⟨k1, k2, k3, k4, k5, k6⟩ := key e
      have h3 := h2 k1; rw [k2, k3, k4, k5, k6] at h3; exact h3
    | post u t d e =>
      obtain ⟨f, s, e⟩ := request_frame (.post u t d e) c (.inr (.inl ⟨_, _, _, _, rfl⟩))
      obtain ⟨k1, k2, k3, k4, k5, k6⟩ := key e
      have h3 := h2 k1; rw [k2, k3, k4, k5, k6] at h3; exact h3
    | put u t d e =>
      obtain ⟨f, s, e⟩ := request_frame (.put u t d e) c (.inr (.inr (.inl ⟨_, _, _, _, rfl⟩)))
      obtain ⟨k1, k2, k3, k4, k5, k6⟩ := key e
      have h3 := h2 k1; rw [k2, k3, k4, k5, k6] at h3; exact h3
    | startDownload u r sh e =>
      obtain ⟨f, s, e⟩ := request_frame (.startDownload u r sh e) c (.inr (.inr (.inr (.inl ⟨_, _, _, _, rfl⟩))))
      obtain ⟨k1, k2, k3, k4, k5, k6⟩ := key e
      have h3 := h2 k1; rw [k2, k3, k4, k5, k6] at h3; exact h3
    | endDownload => exact h2 hb

theorem run_headers (h : List HttpCall) (hf : ∀ n v, HttpCall.updateHeader n v ∈ h → Header.Fine ⟨n, v⟩) :
    ∀ {c d : Client} {l : List Header}, run h c = (.ok (), d) → BaseH c.curl → c.headers = l.map Header.text →
      (∀ x ∈ l, x.Fine) → d.headers = (Spec.Web.headers l h).map Header.text := by
  induction h with
  | nil => intro c d l hr _ hl _; cases hr; exact hl
  | cons x h ih =>
    intro c d l hr hb hl hx
    have h1 := run_cons hr
    have ih := fun {c d l} => @ih (fun n v hm => hf n v (List.mem_cons_of_mem _ hm)) c d l
    have other : (step x c).2.headers = c.headers → BaseH (step x c).2.curl →
        d.headers = (Spec.Web.headers l h).map Header.text := fun e1 e2 => ih h1 e2 (e1.trans hl) hx
    have frame : (∃ f s, (step x c).2 = { c with flying := f, sent := s }) →
        d.headers = (Spec.Web.headers l h).map Header.text := by
      rintro ⟨f, s, e⟩; exact other (by rw [e]) (by rw [e]; exact hb)
    cases x with
    | setProxy p => exact other rfl hb
    | setProxyCredentials u p => exact other rfl hb
    | setOcsp b => exact other rfl hb
    | setBandwidth n => exact other rfl hb
    | updateHeader n v =>
      have hn := hf n v List.mem_cons_self
      obtain ⟨r1, _, r3⟩ := replaceHeader_spec hn.1 hn.2.1 hn.2.2 hx
      refine ih (l := Spec.Web.replace n v l) h1 hb ?_ r3
      show (replaceHeader (n ++ [58, 32]) v c.headers).1 = _
      rw [hl]; exact r1
    | setCerts k g =>
      have hs := setCerts_credsOnly k g c
      exact other hs.1 (hs.2.2.2.2.2.2.2.2 hb)
    | reset g =>
      obtain ⟨r1, r2, _⟩ := reset_set g c hb
      exact other r2 r1.base
    | get u l e => exact frame (request_frame _ c (.inl ⟨_, _, _, rfl⟩))
    | post u t d e => exact frame (request_frame _ c (.inr (.inl ⟨_, _, _, _, rfl⟩)))
    | put u t d e => exact frame (request_frame _ c (.inr (.inr (.inl ⟨_, _, _, _, rfl⟩))))
    | startDownload u r sh e => exact frame (request_frame _ c (.inr (.inr (.inr (.inl ⟨_, _, _, _, rfl⟩)))))
    | endDownload => exact other rfl hb

theorem run_bare (h : List HttpCall) (hn : ∀ k g, HttpCall.setCerts k g ∉ h) :
    ∀ {c d : Client}, run h c = (.ok (), d) → Bare c → Bare d := by
  induction h with
  | nil => intro c d hr hb; cases hr; exact hb
  | cons x h ih =>
    intro c d hr hb
    refine ih (fun k g hm => hn k g (List.mem_cons_of_mem _ hm)) (run_cons hr) ?_
    have frame : (∃ f s, (step x c).2 = { c with flying := f, sent := s }) → Bare (step x c).2 := by
      rintro ⟨f, s, e⟩; rw [e]; exact ⟨hb.certs, hb.ca, hb.cert, hb.key, hb.pCert, hb.pKey⟩
    cases x with
    | setProxy p => exact ⟨hb.certs, hb.ca, hb.cert, hb.key, hb.pCert, hb.pKey⟩
    | setProxyCredentials u p => exact ⟨hb.certs, hb.ca, hb.cert, hb.key, hb.pCert, hb.pKey⟩
    | setOcsp b => exact ⟨hb.certs, hb.ca, hb.cert, hb.key, hb.pCert, hb.pKey⟩
    | setBandwidth n => exact ⟨hb.certs, hb.ca, hb.cert, hb.key, hb.pCert, hb.pKey⟩
    | updateHeader n v => exact ⟨hb.certs, hb.ca, hb.cert, hb.key, hb.pCert, hb.pKey⟩
    | setCerts k g => exact absurd List.mem_cons_self (hn k g)
    | reset g =>
      show Bare (reset g c).2
      have h1 := hb.certs
      rw [reset_eq]
      split
      · exact hb
      · split
        · rename_i h2; rw [h1] at h2; cases h2
        · exact ⟨h1, rfl, rfl, rfl, hb.pCert, hb.pKey⟩
    | get u l e => exact frame (request_frame _ c (.inl ⟨_, _, _, rfl⟩))
    | post u t d e => exact frame (request_frame _ c (.inr (.inl ⟨_, _, _, _, rfl⟩)))
    | put u t d e => exact frame (request_frame _ c (.inr (.inr (.inl ⟨_, _, _, _, rfl⟩))))
    | startDownload u r sh e => exact frame (request_frame _ c (.inr (.inr (.inr (.inl ⟨_, _, _, _, rfl⟩)))))
    | endDownload => exact ⟨hb.certs, hb.ca, hb.cert, hb.key, hb.pCert, hb.pKey⟩

theorem run_uses {k : Certs} (h : List HttpCall) (hn : ∀ k' g', HttpCall.setCerts k' g' ∉ h)
    (hr : ∀ g', HttpCall.reset g' ∈ h → Granted k g') :
    ∀ {c d : Client}, run h c = (.ok (), d) → Uses k c → Uses k d := by
  induction h with
  | nil => intro c d hr hb; cases hr; exact hb
  | cons x h ih =>
    intro c d hrun hb
    refine ih (fun k g hm => hn k g (List.mem_cons_of_mem _ hm)) (fun g hm => hr g (List.mem_cons_of_mem _ hm))
      (run_cons hrun) ?_
    have frame : (∃ f s, (step x c).2 = { c with flying := f, sent := s }) → Uses k (step x c).2 := by
      rintro ⟨f, s, e⟩; rw [e]; exact ⟨hb.certs, hb.ca, hb.cert, hb.key, hb.pCert, hb.pKey⟩
    cases x with
    | setProxy p => exact ⟨hb.certs, hb.ca, hb.cert, hb.key, hb.pCert, hb.pKey⟩
    | setProxyCredentials u p => exact ⟨hb.certs, hb.ca, hb.cert, hb.key, hb.pCert, hb.pKey⟩
    | setOcsp b => exact ⟨hb.certs, hb.ca, hb.cert, hb.key, hb.pCert, hb.pKey⟩
    | setBandwidth n => exact ⟨hb.certs, hb.ca, hb.cert, hb.key, hb.pCert, hb.pKey⟩
    | updateHeader n v => exact ⟨hb.certs, hb.ca, hb.cert, hb.key, hb.pCert, hb.pKey⟩
    | setCerts k g => exact absurd List.mem_cons_self (hn k g)
    | reset g =>
      show Uses k (reset g c).2
      rw [reset_eq, hb.certs]
      split
      · exact hb
      · exact (setCerts_uses (hr g List.mem_cons_self) _).2
    | get u l e => exact frame (request_frame _ c (.inl ⟨_, _, _, rfl⟩))
    | post u t d e => exact frame (request_frame _ c (.inr (.inl ⟨_, _, _, _, rfl⟩)))
    | put u t d e => exact frame (request_frame _ c (.inr (.inr (.inl ⟨_, _, _, _, rfl⟩))))
    | startDownload u r sh e => exact frame (request_frame _ c (.inr (.inr (.inr (.inl ⟨_, _, _, _, rfl⟩)))))
    | endDownload => exact ⟨hb.certs, hb.ca, hb.cert, hb.key, hb.pCert, hb.pKey⟩

/-- The state of the credentials. -/
def CredState (c : Client) : Option Certs → Prop
  | none => Bare c
  | some k => Uses k c

theorem run_creds {h : List HttpCall} {k : Option Certs} (hk : InUse h k) {extra : List Bytes} {c : Client}
    (hr : run h (new extra) = (.ok (), c)) : CredState c k := by
  cases hk with
  | none hn => exact run_bare h hn hr ⟨rfl, rfl, rfl, rfl, rfl, rfl⟩
  | some hg hn hres =>
    obtain ⟨c1, _, h2⟩ := run_append hr
    exact run_uses _ hn hres (run_cons h2) (setCerts_uses hg c1).2

/-- Credentials that this client can use: no certificate in the device without the key in it; no zero byte in what names them there. -/
def Usable : Option Certs → Prop
  | none => True
  | some k => (k.certSource = .pkcs11 → k.keySource = .pkcs11 ∧ (0 : UInt8) ∉ k.cert) ∧
    (k.keySource = .pkcs11 → (0 : UInt8) ∉ k.key)

/-- The engine is there for the request if it is needed. -/
def Engine (k : Option Certs) (e : Bool) : Prop := ∀ k', k = some k' → k'.keySource = .pkcs11 → e = true

theorem told_eq {s : Source} {b : Bytes} (h : s = .pkcs11 → (0 : UInt8) ∉ b) : told s b = (s, b) := by
  cases s with
  | file => rfl
  | pkcs11 => unfold told; rw [cstr_id (h rfl)]

/-- What the credentials of a handle come to. -/
structure Fit (c : Client) (k : Option Certs) (e : Bool) : Prop where
  ca : c.curl.caInfo = k.map (·.ca)
  cert : c.curl.cert = k.map (fun k => (k.certSource, k.cert))
  key : c.curl.key = k.map (fun k => (k.keySource, k.key))
  again : c.pkcs11Cert = true → c.curl.cert.map (fun x => (Source.pkcs11, x.2)) = c.curl.cert
  engine : (!c.pkcs11Key && (c.curl.cert.any (·.1 == .pkcs11) || c.curl.key.any (·.1 == .pkcs11))) = false
  goes : (c.pkcs11Key && !e) = false

theorem fit {c : Client} {k : Option Certs} {e : Bool} (hc : CredState c k) (hu : Usable k) (he : Engine k e) : Fit c k e := by
  cases k with
  | none =>
    have hc : Bare c := hc
    exact ⟨hc.ca, hc.cert, hc.key, fun h => (by rw [hc.pCert] at h; cases h), by rw [hc.cert, hc.key, hc.pKey]; rfl, by rw [hc.pKey]; rfl⟩
  | some k =>
    have hc : Uses k c := hc
    have h1 : c.curl.cert = some (k.certSource, k.cert) := by rw [hc.cert, told_eq (fun h => (hu.1 h).2)]
    have h2 : c.curl.key = some (k.keySource, k.key) := by rw [hc.key, told_eq hu.2]
    refine ⟨hc.ca, h1, h2, ?_, ?_, ?_⟩
    · rw [hc.pCert, h1]; intro h
      have : k.certSource = .pkcs11 := by simpa using h
      rw [this]; rfl
    · rw [h1, h2, hc.pKey]
      cases hs : k.certSource with
      | file => cases hk : k.keySource <;> rfl
      | pkcs11 => rw [(hu.1 hs).1]; rfl
    · rw [hc.pKey]
      cases hk : k.keySource with
      | file => rfl
      | pkcs11 => rw [he k rfl hk]; rfl

def proxyOpt (c : Client) (d : Option Bytes) : Option Bytes := if c.proxy = [] then d else some (cstr c.proxy)

def loginOpt (c : Client) (d : Option Bytes) : Option Bytes :=
  if c.proxy = [] ∨ c.proxyUser = [] ∨ c.proxyPwd = [] then d
  else some (Util.urlEncode c.proxyUser ++ [58] ++ Util.urlEncode c.proxyPwd)

def speedOpt (c : Client) (d : Option Int) : Option Int := if c.bandwidth > 0 then some c.bandwidth else d

theorem optProxy_eq (c : Client) (h : Handle) :
    optProxy c h = { h with proxy := proxyOpt c h.proxy, proxyUserPwd := loginOpt c h.proxyUserPwd } := by
  unfold optProxy proxyOpt loginOpt
  by_cases h1 : c.proxy = []
  · simp [h1]
  · by_cases h2 : c.proxyUser = []
    · simp [h1, h2]
    · by_cases h3 : c.proxyPwd = []
      · simp [h1, h3]
      · simp [h1, h2, h3]

theorem optSpeed_eq (c : Client) (h : Handle) : optSpeed c h = { h with maxSpeed := speedOpt c h.maxSpeed } := by
  unfold optSpeed speedOpt; split <;> rfl

theorem final_eq (c : Client) (h : Handle) (l : Int) : final c h l =
    { h with maxFileSize := if l ≥ 0 then some l else h.maxFileSize, maxSpeed := speedOpt c h.maxSpeed,
             proxy := proxyOpt c h.proxy, proxyUserPwd := loginOpt c h.proxyUserPwd,
             verifyStatus := c.ocsp || h.verifyStatus } := by
  unfold final
  simp only [optProxy_eq, optSpeed_eq]
  cases c.ocsp <;> by_cases hl : l ≥ 0 <;> simp [hl]

theorem proxyOpt_twice (c : Client) (d : Option Bytes) : proxyOpt c (proxyOpt c d) = proxyOpt c d := by
  unfold proxyOpt; split <;> simp_all

theorem loginOpt_twice (c : Client) (d : Option Bytes) : loginOpt c (loginOpt c d) = loginOpt c d := by
  unfold loginOpt; split <;> simp_all

/-- A handle that differs from a new one only in credentials. -/
theorem base_eq {h : Handle} (hb : BaseH h) :
    h = { fresh with caInfo := h.caInfo, cert := h.cert, key := h.key, engine := h.engine } := by
  rcases h with ⟨⟩
  unfold BaseH fresh at hb
  simp only [Handle.mk.injEq] at hb
  simp only [fresh, Handle.mk.injEq]
  simp [hb]

/-- The login is read as it was set. -/
theorem login_reads (u p : Bytes) :
    Spec.Web.readLogin (Util.urlEncode u ++ [58] ++ Util.urlEncode p) = some (u, p) := by
  have hno : ∀ b, (58 : UInt8) ∉ Util.urlEncode b := by
    intro b hb
    rcases C34_safe b _ hb with h | h | h
    · exact absurd h (by decide +kernel)
    · exact absurd h (by decide)
    · exact absurd h (by decide)
  have ht : ∀ (a b : Bytes), (58 : UInt8) ∉ a → (a ++ [58] ++ b).takeWhile (· != 58) = a ∧
      (a ++ [58] ++ b).dropWhile (· != 58) = 58 :: b := by
    intro a b ha
    induction a with
    | nil => exact ⟨rfl, rfl⟩
    | cons x a ih =>
      have hx : x ≠ 58 := fun e => ha (e ▸ List.mem_cons_self)
      obtain ⟨i1, i2⟩ := ih (fun h => ha (List.mem_cons_of_mem _ h))
      have hx' : (x != 58) = true := by simpa using hx
      constructor
      · rw [List.cons_append, List.cons_append, List.takeWhile_cons_of_pos (p := (· != (58 : UInt8))) hx', i1]
      · rw [List.cons_append, List.cons_append, List.dropWhile_cons_of_pos (p := (· != (58 : UInt8))) hx', i2]
  obtain ⟨h1, h2⟩ := ht (Util.urlEncode u) (Util.urlEncode p) (hno u)
  unfold Spec.Web.readLogin
  rw [h1, h2]
  simp [C34_decodes]

/-- The login has a name and a password, or neither. -/
def LoginWhole (h : List HttpCall) : Prop := (Spec.Web.login h).1 = [] ↔ (Spec.Web.login h).2 = []

/-- What the settings of the client come to in a request. -/
theorem standard {h : List HttpCall} {k : Option Certs} {c : Client} {e : Bool}
    (hs : Set c (Spec.Web.proxy h) (Spec.Web.login h).1 (Spec.Web.login h).2 (Spec.Web.ocsp h) (Spec.Web.speed h))
    (hf : Fit c k e) (hp : (0 : UInt8) ∉ Spec.Web.proxy h) (hl : LoginWhole h) {s : Sent}
    (h1 : s.verifyPeer = true) (h2 : s.verifyHost = true) (h3 : s.ca = c.curl.caInfo) (h4 : s.cert = c.curl.cert)
    (h5 : s.key = c.curl.key) (h6 : s.proxy = proxyOpt c none) (h7 : s.login = loginOpt c none)
    (h8 : s.maxSpeed = speedOpt c none) : Standard h k s := by
  refine ⟨h1, h2, h3.trans hf.ca, h4.trans hf.cert, h5.trans hf.key, ?_, ?_, ?_⟩
  · rw [h6, proxyOpt, hs.proxy, cstr_id hp]
  · rw [h7, loginOpt, hs.proxy, hs.user, hs.pwd]
    by_cases hq : Spec.Web.proxy h = []
    · simp [hq]
    · by_cases hu : (Spec.Web.login h).1 = []
      · have hw := hl.1 hu
        have : Spec.Web.login h = ([], []) := Prod.ext hu hw
        simp [this]
      · have hw : (Spec.Web.login h).2 ≠ [] := fun e => hu (hl.2 e)
        have hne : Spec.Web.login h ≠ ([], []) := fun e => hu (by rw [e])
        rw [if_neg (by simp [hq, hne]), if_neg (by simp [hq, hu, hw])]
        exact login_reads _ _
  · rw [h8, speedOpt, hs.speed]

theorem new_base (extra : List Bytes) : BaseH (new extra).curl := base_fresh

/-- What is known of a client after the calls `h`. -/
theorem prep {h : List HttpCall} {k : Option Certs} {extra : List Header} {c : Client} {e : Bool}
    (hr : run h (new (extra.map Header.text)) = (.ok (), c)) (hk : InUse h k) (hu : Usable k) (he : Engine k e)
    (hx : ∀ x ∈ extra, x.Fine) (hh : ∀ n v, HttpCall.updateHeader n v ∈ h → Header.Fine ⟨n, v⟩) :
    Set c (Spec.Web.proxy h) (Spec.Web.login h).1 (Spec.Web.login h).2 (Spec.Web.ocsp h) (Spec.Web.speed h) ∧
    Fit c k e ∧ c.headers = (Spec.Web.headers (Spec.Web.accept :: extra) h).map Header.text := by
  refine ⟨run_set h hr (new_base _), fit (run_creds hk hr) hu he, run_headers h hh hr (new_base _) ?_ ?_⟩
  · show accept :: (extra.map Header.text).map cstr = _
    rw [List.map_cons]
    congr 1
    rw [List.map_map]
    exact List.map_congr_left (fun x hm => cstr_id (text_zero (hx x hm)))
  · intro x hm
    rcases List.mem_cons.1 hm with rfl | hm
    · exact ⟨by decide, by decide, by decide⟩
    · exact hx x hm

theorem sent_some {h : Handle} (hl : h.lacksEngine = false) (c : Client) :
    record c h = { c with sent := c.sent ++ [h.describes] } := by
  unfold record Handle.request
  rw [hl]
  rfl

theorem nameGet_eq : nameGet = "GET".toUTF8.data.toList := by decide +kernel
theorem namePost_eq : namePost = "POST".toUTF8.data.toList := by decide +kernel
theorem namePut_eq : namePut = "PUT".toUTF8.data.toList := by decide +kernel

/-- A GET after any sequence of calls. Partial: the certificate authorities of the system are trusted besides the one that is set
(`C84_more_trusted`); what else the hypotheses exclude is shown below. -/
theorem C84_get_partial {h : List HttpCall} {k : Option Certs} {extra : List Header} {c : Client} {e : Bool} {url : Bytes}
    {limit : Int} (hr : run h (new (extra.map Header.text)) = (.ok (), c)) (hk : InUse h k) (hu : Usable k) (he : Engine k e)
    (hx : ∀ x ∈ extra, x.Fine) (hh : ∀ n v, HttpCall.updateHeader n v ∈ h → Header.Fine ⟨n, v⟩)
    (hp : (0 : UInt8) ∉ Spec.Web.proxy h) (hl : LoginWhole h) (hurl : (0 : UInt8) ∉ url) :
    ∃ s, step (.get url limit e) c = (.ok (), { c with sent := c.sent ++ [s] }) ∧ Standard h k s ∧
      s.method = "GET".toUTF8.data.toList ∧ s.url = url ∧ s.body = none ∧
      s.headers = (Spec.Web.headers (Spec.Web.accept :: extra) h).map Header.text ∧
      s.verifyStatus = Spec.Web.ocsp h ∧ s.resumeFrom = 0 ∧ s.follow = false ∧
      s.maxFileSize = (if limit ≥ 0 then some limit else none) := by
  obtain ⟨hs, hf, hhd⟩ := prep hr hk hu he hx hh
  have hb := base_eq hs.base
  have hH : getHandle c url limit = { fresh with
      caInfo := c.curl.caInfo, cert := c.curl.cert, key := c.curl.key, engine := c.pkcs11Key, headers := c.headers,
      url := url, postFields := some [], method := .get, maxFileSize := if limit ≥ 0 then some limit else none,
      maxSpeed := speedOpt c none, proxy := proxyOpt c none, proxyUserPwd := loginOpt c none, verifyStatus := c.ocsp } := by
    unfold getHandle
    rw [final_eq]
    simp only [optProxy_eq, postFields, cstr_id hurl]
    have hq : (if c.pkcs11Cert = true then { c.curl with engine := c.pkcs11Key, headers := c.headers, cert := c.curl.cert.map (fun x => (Source.pkcs11, x.2)) } else { c.curl with engine := c.pkcs11Key, headers := c.headers })
        = { c.curl with engine := c.pkcs11Key, headers := c.headers } := by
      split
      · rename_i h1; rw [hf.again h1]
      · rfl
    rw [hq, hb]
    simp only [fresh, proxyOpt_twice, loginOpt_twice, Bool.or_false]
    rfl
  refine ⟨(getHandle c url limit).describes, ?_, ?_⟩
  · simp only [step]
    rw [get_eq, hf.goes, if_neg (by simp), sent_some (by rw [hH]; exact hf.engine)]
  · rw [hH]
    exact ⟨standard hs hf hp hl rfl rfl rfl rfl rfl rfl rfl rfl, nameGet_eq, rfl, rfl, hhd, hs.ocsp, rfl, rfl, rfl⟩

/-- A POST after any sequence of calls; partial as `C84_get_partial`. -/
theorem C84_post_partial {h : List HttpCall} {k : Option Certs} {extra : List Header} {c : Client} {e : Bool}
    {url ctype data : Bytes} (hr : run h (new (extra.map Header.text)) = (.ok (), c)) (hk : InUse h k) (hu : Usable k)
    (he : Engine k e) (hx : ∀ x ∈ extra, x.Fine) (hh : ∀ n v, HttpCall.updateHeader n v ∈ h → Header.Fine ⟨n, v⟩)
    (hp : (0 : UInt8) ∉ Spec.Web.proxy h) (hl : LoginWhole h) (hurl : (0 : UInt8) ∉ url) (ht : (0 : UInt8) ∉ ctype)
    (hd : (0 : UInt8) ∉ data) :
    ∃ s, step (.post url ctype data e) c = (.ok (), { c with sent := c.sent ++ [s] }) ∧ Standard h k s ∧
      s.method = "POST".toUTF8.data.toList ∧ s.url = url ∧ s.body = some data ∧
      s.headers = (Spec.Web.headers (Spec.Web.accept :: extra) h ++ [Spec.Web.contentType ctype]).map Header.text ∧
      s.verifyStatus = Spec.Web.ocsp h ∧ s.resumeFrom = 0 ∧ s.follow = false ∧ s.maxFileSize = some 65536 := by
  obtain ⟨hs, hf, hhd⟩ := prep hr hk hu he hx hh
  have hb := base_eq hs.base
  have htext : cstr (contentType ++ ctype) = (Spec.Web.contentType ctype).text :=
    cstr_id (text_zero (x := Spec.Web.contentType ctype) ⟨by simp [Spec.Web.contentType], by simp [Spec.Web.contentType], ht⟩)
  have hH : postHandle c url ctype data = { fresh with
      caInfo := c.curl.caInfo, cert := c.curl.cert, key := c.curl.key, engine := c.pkcs11Key,
      headers := c.headers ++ [(Spec.Web.contentType ctype).text],
      url := url, postFields := some data, method := .post, maxFileSize := some 65536,
      maxSpeed := speedOpt c none, proxy := proxyOpt c none, proxyUserPwd := loginOpt c none, verifyStatus := c.ocsp } := by
    unfold postHandle
    rw [final_eq]
    simp only [optProxy_eq, postFields, cstr_id hurl, cstr_id hd, htext]
    rw [hb]
    simp only [fresh, proxyOpt_twice, loginOpt_twice, Bool.or_false]
    rfl
  refine ⟨(postHandle c url ctype data).describes, ?_, ?_⟩
  · simp only [step]
    rw [post_eq, hf.goes, if_neg (by simp), sent_some (by rw [hH]; exact hf.engine)]
  · rw [hH]
    refine ⟨standard hs hf hp hl rfl rfl rfl rfl rfl rfl rfl rfl, namePost_eq, rfl, rfl, ?_, hs.ocsp, rfl, rfl, rfl⟩
    rw [List.map_append, ← hhd]; rfl

/-- A PUT after any sequence of calls; partial as `C84_get_partial`. -/
theorem C84_put_partial {h : List HttpCall} {k : Option Certs} {extra : List Header} {c : Client} {e : Bool}
    {url ctype data : Bytes} (hr : run h (new (extra.map Header.text)) = (.ok (), c)) (hk : InUse h k) (hu : Usable k)
    (he : Engine k e) (hx : ∀ x ∈ extra, x.Fine) (hh : ∀ n v, HttpCall.updateHeader n v ∈ h → Header.Fine ⟨n, v⟩)
    (hp : (0 : UInt8) ∉ Spec.Web.proxy h) (hl : LoginWhole h) (hurl : (0 : UInt8) ∉ url) (ht : (0 : UInt8) ∉ ctype)
    (hd : (0 : UInt8) ∉ data) :
    ∃ s, step (.put url ctype data e) c = (.ok (), { c with sent := c.sent ++ [s] }) ∧ Standard h k s ∧
      s.method = "PUT".toUTF8.data.toList ∧ s.url = url ∧ s.body = some data ∧
      s.headers = (Spec.Web.headers (Spec.Web.accept :: extra) h ++ [Spec.Web.contentType ctype]).map Header.text ∧
      s.verifyStatus = Spec.Web.ocsp h ∧ s.resumeFrom = 0 ∧ s.follow = false ∧ s.maxFileSize = some 65536 := by
  obtain ⟨hs, hf, hhd⟩ := prep hr hk hu he hx hh
  have hb := base_eq hs.base
  have htext : cstr (contentType ++ ctype) = (Spec.Web.contentType ctype).text :=
    cstr_id (text_zero (x := Spec.Web.contentType ctype) ⟨by simp [Spec.Web.contentType], by simp [Spec.Web.contentType], ht⟩)
  have hH : putHandle c url ctype data = { fresh with
      caInfo := c.curl.caInfo, cert := c.curl.cert, key := c.curl.key, engine := c.pkcs11Key,
      headers := c.headers ++ [(Spec.Web.contentType ctype).text], custom := some namePut,
      url := url, postFields := some data, method := .post, maxFileSize := some 65536,
      maxSpeed := speedOpt c none, proxy := proxyOpt c none, proxyUserPwd := loginOpt c none, verifyStatus := c.ocsp } := by
    unfold putHandle
    rw [final_eq]
    simp only [optProxy_eq, postFields, cstr_id hurl, cstr_id hd, htext]
    rw [hb]
    simp only [fresh, proxyOpt_twice, loginOpt_twice, Bool.or_false]
    rfl
  refine ⟨(putHandle c url ctype data).describes, ?_, ?_⟩
  · simp only [step]
    rw [put_eq, hf.goes, if_neg (by simp), sent_some (by rw [hH]; exact hf.engine)]
  · rw [hH]
    refine ⟨standard hs hf hp hl rfl rfl rfl rfl rfl rfl rfl rfl, namePut_eq, rfl, rfl, ?_, hs.ocsp, rfl, rfl, rfl⟩
    rw [List.map_append, ← hhd]; rfl

/-- A download after any sequence of calls, when none is under way; it follows redirections. Partial as `C84_get_partial`, and without the
headers and the check of revocation (`C84_download_lacks`). -/
theorem C84_download_partial {h : List HttpCall} {k : Option Certs} {extra : List Header} {c : Client} {e shared : Bool}
    {url : Bytes} {resume : Int} (hr : run h (new (extra.map Header.text)) = (.ok (), c)) (hk : InUse h k) (hu : Usable k)
    (he : Engine k e) (hx : ∀ x ∈ extra, x.Fine) (hh : ∀ n v, HttpCall.updateHeader n v ∈ h → Header.Fine ⟨n, v⟩)
    (hp : (0 : UInt8) ∉ Spec.Web.proxy h) (hl : LoginWhole h) (hurl : (0 : UInt8) ∉ url) (hfree : c.flying ≠ some false) :
    ∃ s, step (.startDownload url resume shared e) c =
        (.ok (), { c with sent := c.sent ++ [s], flying := some shared }) ∧ Standard h k s ∧
      s.method = "GET".toUTF8.data.toList ∧ s.url = url ∧ s.body = none ∧ s.resumeFrom = resume ∧ s.follow = true ∧
      s.maxFileSize = none := by
  obtain ⟨hs, hf, hhd⟩ := prep hr hk hu he hx hh
  have hb := base_eq hs.base
  have hH : downloadHandle c url resume = { fresh with
      caInfo := c.curl.caInfo, cert := c.curl.cert, key := c.curl.key, engine := c.pkcs11Key,
      url := url, method := .get, follow := true, resumeFrom := resume,
      maxSpeed := speedOpt c none, proxy := proxyOpt c none, proxyUserPwd := loginOpt c none } := by
    unfold downloadHandle
    simp only [optProxy_eq, optSpeed_eq, cstr_id hurl]
    rw [hb]
    rfl
  refine ⟨(downloadHandle c url resume).describes, ?_, ?_⟩
  · simp only [step]
    rw [startDownload_eq, hf.goes, if_neg (by simp), if_neg hfree, sent_some (by rw [hH]; exact hf.engine)]
  · rw [hH]
    exact ⟨standard hs hf hp hl rfl rfl rfl rfl rfl rfl rfl rfl, nameGet_eq, rfl, rfl, rfl, rfl, rfl⟩

/-! ### Whatever happens -/

/-- All requests so far checked the certificate and the name of the server, and the next will. -/
def Checked (c : Client) : Prop := BaseH c.curl ∧ ∀ s ∈ c.sent, s.verifyPeer = true ∧ s.verifyHost = true

theorem step_checked (x : HttpCall) (c : Client) (hc : Checked c) : Checked (step x c).2 := by
  have hb := base_eq hc.1
  have req : ∀ (h : Handle), h.verifyPeer = true → h.verifyHost = true → Checked (record c h) := by
    intro h h1 h2
    refine ⟨hc.1, fun s hs => ?_⟩
    unfold record at hs
    rcases List.mem_append.1 hs with hs | hs
    · exact hc.2 s hs
    · unfold Handle.request at hs
      split at hs
      · cases hs
      · simp only [Option.toList, List.mem_singleton] at hs
        subst hs
        exact ⟨h1, h2⟩
  cases x with
  | setProxy p => exact hc
  | setProxyCredentials u p => exact hc
  | setOcsp b => exact hc
  | setBandwidth n => exact hc
  | updateHeader n v => exact hc
  | endDownload => exact hc
  | setCerts k g =>
    have hs := setCerts_credsOnly k g c
    refine ⟨hs.2.2.2.2.2.2.2.2 hc.1, ?_⟩
    show ∀ s ∈ (setCerts k g c).2.sent, _
    rw [hs.2.2.2.2.2.2.2.1]; exact hc.2
  | reset g =>
    obtain ⟨r1, _, r3⟩ := reset_set g c hc.1
    refine ⟨r1.base, ?_⟩
    show ∀ s ∈ (reset g c).2.sent, _
    rw [r3]; exact hc.2
  | get u l e =>
    simp only [step, get_eq]
    split
    · exact hc
    · refine req _ ?_ ?_ <;> unfold getHandle <;> rw [final_eq] <;> simp only [optProxy_eq, postFields] <;> split <;>
        simp only [] <;> rw [hb] <;> rfl
  | post u t d e =>
    simp only [step, post_eq]
    split
    · exact hc
    · refine req _ ?_ ?_ <;> unfold postHandle <;> rw [final_eq] <;> simp only [optProxy_eq, postFields] <;> rw [hb] <;> rfl
  | put u t d e =>
    simp only [step, put_eq]
    split
    · exact hc
    · refine req _ ?_ ?_ <;> unfold putHandle <;> rw [final_eq] <;> simp only [optProxy_eq, postFields] <;> rw [hb] <;> rfl
  | startDownload u r s e =>
    simp only [step, startDownload_eq]
    split
    · exact hc
    · split
      · exact hc
      · exact req (downloadHandle c u r)
          (by unfold downloadHandle; simp only [optProxy_eq, optSpeed_eq]; rw [hb]; rfl)
          (by unfold downloadHandle; simp only [optProxy_eq, optSpeed_eq]; rw [hb]; rfl)

/-- No request is ever made without checking the certificate and the name of the server: for every sequence of calls, also if some of them
fail half way. -/
theorem C84_server_checked (h : List HttpCall) (extra : List Bytes) :
    ∀ s ∈ (run h (new extra) ).2.sent, s.verifyPeer = true ∧ s.verifyHost = true := by
  have hR : M.IsPre (fun a b : Client => Checked a → Checked b) := ⟨fun _ => id, fun _ _ _ h1 h2 h => h2 (h1 h)⟩
  have key : ∀ h : List HttpCall, M.Preserves (fun a b : Client => Checked a → Checked b) (run h) := by
    intro h
    induction h with
    | nil => exact M.Preserves.pure hR
    | cons x h ih =>
      unfold run
      exact M.Preserves.bind hR (M.Preserves.catchStd hR (fun c hc => step_checked x c hc) (fun _ => M.Preserves.pure hR)) (fun _ => ih)
  exact (key h (new extra) ⟨new_base _, fun _ hs => nomatch hs⟩).2

/-! ### No undefined behaviour -/

/-- Only exceptions that the caller can catch. -/
def OnlyStd {α : Type} (m : C α) : Prop := ∀ c d e, m c = (.error e, d) → e.isStd = true

theorem OnlyStd.bind {α β : Type} {m : C α} {f : α → C β} (h1 : OnlyStd m) (h2 : ∀ a, OnlyStd (f a)) : OnlyStd (m >>= f) := by
  intro c d e h
  rcases M.bind_cases h with ⟨a, w, _, h4⟩ | ⟨e', h3, h4⟩
  · exact h2 a w d e h4
  · cases h4; exact h1 c d e h3

theorem onlyStd_throwWhen (b : Bool) (s : String) : OnlyStd (M.throwWhen b (.std s)) := by
  intro c d e h; cases b <;> cases h; rfl

theorem onlyStd_modify (f : Client → Client) : OnlyStd (M.modify f) := by intro c d e h; cases h
theorem onlyStd_setopt (f : Handle → Handle) : OnlyStd (setopt f) := by intro c d e h; cases h

theorem onlyStd_setCerts (k : Certs) (g : Grants) : OnlyStd (setCerts k g) := by
  unfold setCerts
  refine (onlyStd_modify _).bind fun _ => (onlyStd_setopt _).bind fun _ => (onlyStd_throwWhen _ _).bind fun _ =>
    (onlyStd_throwWhen _ _).bind fun _ => (onlyStd_setopt _).bind fun _ => OnlyStd.bind ?_ fun _ =>
    (onlyStd_modify _).bind fun _ => OnlyStd.bind ?_ fun _ => onlyStd_modify _
  · unfold useCert; split
    · exact onlyStd_setopt _
    · exact (onlyStd_throwWhen _ _).bind fun _ => onlyStd_setopt _
  · unfold useKey; split
    · exact (onlyStd_throwWhen _ _).bind fun _ => onlyStd_setopt _
    · exact (onlyStd_throwWhen _ _).bind fun _ => onlyStd_setopt _

theorem run_next {x : HttpCall} {xs : List HttpCall} {c : Client} (h : ∀ e, (step x c).1 = .error e → e.isStd = true) :
    run (x :: xs) c = run xs (step x c).2 := by
  show (M.catchStd (step x) (fun _ => pure ()) >>= fun _ => run xs) c = _
  refine M.run_bind (a := ()) (w1 := (step x c).2) ?_
  unfold M.catchStd
  split
  · rename_i e w heq
    rw [heq] at h
    rw [if_pos (h e rfl)]
    simp [heq]
  · rename_i hne
    cases hs : step x c with
    | mk o w =>
      cases o with
      | ok u => rfl
      | error e => exact absurd hs (hne e w)

/-- Calls that do not reset the client and start no other download while a download is under way end without undefined behaviour. Partial:
for `reset` the library promises that it may be called then (`C84_reset_undefined`). -/
theorem C84_defined_partial (h : List HttpCall) : ∀ {b : Bool} {c : Client}, Orderly b h → (c.flying = none ∨ b = true) →
    (run h c).1 = .ok () := by
  induction h with
  | nil => intro b c _ _; rfl
  | cons x h ih =>
    intro b c ho hf
    cases x with
    | setProxy p => rw [run_next (fun e he => by cases he)]; exact ih (b := b) ho hf
    | setProxyCredentials u p => rw [run_next (fun e he => by cases he)]; exact ih (b := b) ho hf
    | setOcsp v => rw [run_next (fun e he => by cases he)]; exact ih (b := b) ho hf
    | setBandwidth n => rw [run_next (fun e he => by cases he)]; exact ih (b := b) ho hf
    | updateHeader n v => rw [run_next (fun e he => by cases he)]; exact ih (b := b) ho hf
    | endDownload => rw [run_next (fun e he => by cases he)]; exact ih (b := false) ho (.inl rfl)
    | setCerts k g =>
      rw [run_next (x := .setCerts k g) (c := c) (fun e he => onlyStd_setCerts k g c (setCerts k g c).2 e (Prod.ext he rfl))]
      refine ih (b := b) ho ?_
      rw [show (step (.setCerts k g) c).2.flying = c.flying from (setCerts_credsOnly k g c).2.2.2.2.2.2.1]
      exact hf
    | reset g =>
      obtain ⟨rfl, ho⟩ := ho
      have hn : c.flying = none := hf.resolve_right (by simp)
      have he : step (.reset g) c = match c.certs with
          | some k => setCerts k g { c with flying := none, curl := fresh }
          | none => (.ok (), { c with flying := none, curl := fresh }) := by
        show reset g c = _
        rw [reset_eq, if_neg (by simp [hn])]
        cases c.certs <;> rfl
      cases hk : c.certs with
      | none =>
        rw [hk] at he
        rw [run_next (fun e h => by rw [he] at h; cases h), he]
        exact ih (b := false) ho (.inl rfl)
      | some k =>
        rw [hk] at he
        rw [run_next (fun e h => by rw [he] at h; exact onlyStd_setCerts k g _ _ e (Prod.ext h rfl)), he]
        refine ih (b := false) ho (.inl ?_)
        exact (setCerts_credsOnly k g { c with flying := none, curl := fresh }).2.2.2.2.2.2.1
    | get u l e =>
      have hs : (step (.get u l e) c).2.flying = c.flying := by simp only [step, get_eq]; split <;> rfl
      rw [run_next (fun e' h => by simp only [step, get_eq] at h; split at h <;> cases h; rfl)]
      exact ih (b := b) ho (hs ▸ hf)
    | post u t d e =>
      have hs : (step (.post u t d e) c).2.flying = c.flying := by simp only [step, post_eq]; split <;> rfl
      rw [run_next (fun e' h => by simp only [step, post_eq] at h; split at h <;> cases h; rfl)]
      exact ih (b := b) ho (hs ▸ hf)
    | put u t d e =>
      have hs : (step (.put u t d e) c).2.flying = c.flying := by simp only [step, put_eq]; split <;> rfl
      rw [run_next (fun e' h => by simp only [step, put_eq] at h; split at h <;> cases h; rfl)]
      exact ih (b := b) ho (hs ▸ hf)
    | startDownload u r sh e =>
      obtain ⟨rfl, ho⟩ := ho
      have hn : c.flying = none := hf.resolve_right (by simp)
      rw [run_next (fun e' h => by
        simp only [step, startDownload_eq, hn] at h
        split at h
        · cases h; rfl
        · rw [if_neg (by simp)] at h; cases h)]
      exact ih (b := true) ho (.inr rfl)

/-! ### What does not hold -/

/-- Certificate, key and authority in files. -/
def toyCerts : Certs := { ca := [1], cert := [2], key := [3] }

/-- The last request of a client. -/
def lastSent (h : List HttpCall) (extra : List Bytes) : Option Sent := (run h (new extra)).2.sent.getLast?

/-- `reset`, which is how `setDownloadBandwidth(…, true)` is to interrupt a download that is under way (aktualizr.h:342-348), frees the
handle the other thread is using. -/
theorem C84_reset_undefined :
    (run [.startDownload [120] 0 false true, .setBandwidth 1000, .reset {}] (new [])).1 =
      .error (.ub "curl_easy_cleanup of a handle in use") := by
  decide +kernel

/-- After an attempt to change the credentials that fails the client still uses the old ones (first part), or the new certificate with the
old key (second part), and after a reset none (third part). -/
theorem C84_failed_change :
    (lastSent [.setCerts toyCerts {}, .setCerts { toyCerts with caSource := .pkcs11, cert := [5] } {}, .get [120] 0 true] []).map
      (fun s => (s.cert, s.key)) = some (some (.file, [2]), some (.file, [3])) ∧
    (lastSent [.setCerts toyCerts {}, .setCerts { toyCerts with cert := [5], key := [6] } { key := false }, .get [120] 0 true] []).map
      (fun s => (s.cert, s.key)) = some (some (.file, [5]), some (.file, [3])) ∧
    (lastSent [.setCerts toyCerts {}, .setCerts { toyCerts with caSource := .pkcs11, cert := [5] } {}, .reset {}, .get [120] 0 true]
      []).map (fun s => (s.cert, s.key)) = some (none, none) := by
  refine ⟨?_, ?_, ?_⟩ <;> decide +kernel

/-- Besides the authority that is set, those of the system are trusted to vouch for the server. -/
theorem C84_more_trusted :
    (lastSent [.setCerts toyCerts {}, .get [120] 0 true] []).map (fun s => (s.ca, s.caPath)) = some (some [1], true) := by
  decide +kernel

/-- A name for the proxy without a password, which may be empty (aktualizr.h:338), is not sent. -/
theorem C84_login_lost :
    (lastSent [.setProxy [112], .setProxyCredentials [117] [], .get [120] 0 true] []).map (fun s => (s.proxy, s.login)) =
      some (some [112], none) := by
  decide +kernel

/-- A body is cut at the first zero byte. -/
theorem C84_body_cut :
    (lastSent [.post [120] [116] [1, 0, 2] true] []).map (·.body) = some (some [1]) := by
  decide +kernel

/-- Downloads have neither the headers nor the check of revocation that other requests have. -/
theorem C84_download_lacks :
    (lastSent [.setOcsp true, .startDownload [120] 0 false true] [[97, 58, 32, 98]]).map (fun s => (s.headers, s.verifyStatus)) =
      some ([], false) ∧
    (lastSent [.setOcsp true, .get [120] 0 true] [[97, 58, 32, 98]]).map (fun s => (s.headers, s.verifyStatus)) =
      some ([accept, [97, 58, 32, 98]], true) := by
  decide +kernel

/-- With a certificate in the device and a key in a file no request is made, although setting them succeeds. -/
theorem C84_cert_in_device :
    (run [.setCerts { toyCerts with certSource := .pkcs11 } {}, .get [120] 0 true, .put [120] [116] [] true] (new [])).1 = .ok () ∧
    lastSent [.setCerts { toyCerts with certSource := .pkcs11 } {}, .get [120] 0 true, .put [120] [116] [] true] [] = none := by
  decide +kernel

/-- A copy of a client with a key in the device takes the certificate in a file for one in the device when it makes a GET, though not when
it makes a PUT. After a reset it has no credentials. -/
theorem C84_copy :
    let c := copy (run [.setCerts { toyCerts with keySource := .pkcs11 } {}] (new [])).2
    ((run [.get [120] 0 true] c).2.sent.getLast?).map (·.cert) = some (some (.pkcs11, [2])) ∧
    ((run [.put [120] [116] [] true] c).2.sent.getLast?).map (·.cert) = some (some (.file, [2])) ∧
    ((run [.reset {}, .put [120] [116] [] true] c).2.sent.getLast?).map (·.cert) = some none := by
  decide +kernel

/-! ### A case -/

/-- Two changes of the credentials, of which the first fails, a reset, a download, other headers. -/
def toyCalls : List HttpCall :=
  [.setCerts { toyCerts with caSource := .pkcs11 } {}, .setProxy [112], .setProxyCredentials [117, 58] [119],
   .startDownload [120] 7 false true, .setBandwidth 5, .endDownload, .setCerts { toyCerts with keySource := .pkcs11, cert := [9] } {},
   .updateHeader [97] [99], .reset {}, .setOcsp true]

/-- Not vacuous: the hypotheses of the theorems hold of these calls, and the request is as expected. -/
example : InUse toyCalls (some { toyCerts with keySource := .pkcs11, cert := [9] }) ∧
    Usable (some { toyCerts with keySource := .pkcs11, cert := [9] }) ∧ Orderly false toyCalls ∧ LoginWhole toyCalls ∧
    (0 : UInt8) ∉ Spec.Web.proxy toyCalls ∧ (∀ n v, HttpCall.updateHeader n v ∈ toyCalls → Header.Fine ⟨n, v⟩) ∧
    (run toyCalls (new [[97, 58, 32, 98]])).1 = .ok () ∧ (run toyCalls (new [[97, 58, 32, 98]])).2.flying = none ∧
    lastSent (toyCalls ++ [.put [121] [116] [100] true]) [[97, 58, 32, 98]] = some {
      verifyPeer := true, verifyHost := true, verifyStatus := true, caPath := true, ca := some [1],
      cert := some (.file, [9]), key := some (.pkcs11, [3]), method := [80, 85, 84], url := [121],
      headers := [accept, [97, 58, 32, 99], contentType ++ [116]], body := some [100], proxy := some [112],
      login := some [117, 37, 51, 65, 58, 119], maxSpeed := some 5, resumeFrom := 0, follow := false, maxFileSize := some 65536 } := by
  refine ⟨InUse.some (h1 := toyCalls.take 6) (h2 := toyCalls.drop 7) (g := {}) (by unfold Granted; decide)
    (by intro k g h; simp [toyCalls] at h) (by intro g h; simp only [toyCalls, List.drop, List.mem_cons, reduceCtorEq,
      HttpCall.reset.injEq, List.not_mem_nil, or_false, false_or] at h; subst h; unfold Granted; decide),
    ⟨by decide, by decide⟩, ?_, ?_, by decide +kernel, ?_, by decide +kernel⟩
  · simp [Orderly, toyCalls]
  · unfold LoginWhole; decide +kernel
  · intro n v h
    simp [toyCalls] at h
    obtain ⟨rfl, rfl⟩ := h
    exact ⟨by decide, by decide, by decide⟩

end Aktualizr.Curl
