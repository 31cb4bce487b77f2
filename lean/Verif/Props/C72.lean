import Verif.Lemmas.Tools
import Verif.Props.C39

/-!
# C72: where the publishing tools send what they know
-/

namespace Aktualizr.Tools

open M _root_.Aktualizr.Tools.Spec

/-- A request that may be made with the credentials: the one for a token, or one to Treehub or to the TUF
repository, with the proof of identity that goes with the credentials. -/
def Spec.MaySend (a : Around) (c : Creds) (r : Req) : Prop := IsTokenRequest c r ∨ ToServer a c r

theorem walkServer_sent {src : Source} {ref : Txt} {steps : List Treehub.Step} {sv : Server} {b : Bool} {P : Req → Prop}
    (h : ∀ o url, address sv.root (src.path o) = .ok url → P ⟨.head, url, sv.auth, []⟩) : Preserves (OnlySent P) (walkServer src ref steps sv b) := by
  have hp := onlySent_pre P
  unfold walkServer
  split
  · exact Preserves.throw hp
  · split
    · exact Preserves.throw hp
    · rename_i root _
      refine lift_sent (fun q hq => Preserves.bind hp (sends_sent q.log (fun o url _ => h o url)
        (fun o url ho => absurd ho (Treehub.C39_dry_run_sends_nothing (.inr rfl) hq o))) (fun _ => ?_))
      split
      · exact Preserves.pure hp
      · exact Preserves.throw hp

theorem sent_of {P : Req → Prop} {α : Type} {m : M St α} {o : Except Err α} {st : St} (hm : Preserves (OnlySent P) m) (h : m {} = (o, st)) :
    ∀ r ∈ st.sent, P r := by
  obtain ⟨more, h1, h2⟩ := hm {}
  rw [h] at h1
  intro r hr
  rw [h1] at hr
  exact h2 r (by simpa using hr)

/-- **C72** Whatever `garage-push` sends, however it ends: the secret of the client goes to the authorization
server only, everything else to the two servers named by the credentials. -/
theorem C72_push {a : Around} {o : PushOpts} {cred : File} {src : Source} {steps : List Treehub.Step} {c : Creds} {out : Except Err Bool} {st : St}
    (hc : readCredentials a.readJson cred = .ok c) (hb : NoBlanks c.ostreeServer) (hb' : NoBlanks c.repoUrl)
    (h : garagePush a o cred src steps {} = (out, st)) : ∀ r ∈ st.sent, MaySend a c r := by
  refine sent_of ?_ h
  have hp := onlySent_pre (MaySend a c)
  unfold garagePush
  split
  · exact Preserves.pure hp
  · split
    · exact Preserves.pure hp
    · refine lift_sent (fun v _ => ?_)
      split
      · exact Preserves.pure hp
      · rename_i hash content
        rw [hc]
        refine after_auth (fun r hr => .inl hr) (Preserves.pure hp) (fun sv hsv => ?_)
        refine Preserves.bind hp (upload_sent (fun o url ha => .inr (hsv.toServer hb hb' (tuf := false) ha))
          (fun _ o url ha => .inr (hsv.toServer hb hb' (tuf := false) ha)) (fun root q hm hq => Treehub.C39_dry_run_sends_nothing hm hq)) (fun ok => ?_)
        split
        · unfold pushRest
          refine Preserves.bind hp ?_ (fun go => ?_)
          · split
            · split
              · exact Preserves.bind hp (request_sent (fun url ha => .inr (hsv.toServer hb hb' ha))) (fun _ => Preserves.pure hp)
              · exact Preserves.pure hp
            · exact Preserves.pure hp
          · split
            · exact Preserves.pure hp
            · split
              · split
                · exact Preserves.bind hp (request_sent (fun url ha => .inr (hsv.toServer hb hb' ha))) (fun _ => Preserves.pure hp)
                · exact Preserves.pure hp
              · exact Preserves.pure hp
        · exact Preserves.pure hp

/-- **C72** The same for `garage-check`. -/
theorem C72_check {a : Around} {ref : Txt} {w : Bool} {jobs : Int} {cred : File} {src : Source} {steps : List Treehub.Step} {c : Creds}
    {out : Except Err Bool} {st : St} (hc : readCredentials a.readJson cred = .ok c) (hb : NoBlanks c.ostreeServer) (hb' : NoBlanks c.repoUrl)
    (h : garageCheck a ref w jobs cred src steps {} = (out, st)) : ∀ r ∈ st.sent, MaySend a c r := by
  refine sent_of ?_ h
  have hp := onlySent_pre (MaySend a c)
  unfold garageCheck
  split
  · exact Preserves.pure hp
  · rw [hc]
    refine Preserves.catchStd hp (after_auth (fun r hr => .inl hr) (Preserves.pure hp) (fun sv hsv => ?_)) (fun _ => Preserves.pure hp)
    exact check_sent (fun verb tuf suffix url _ ha => .inr (hsv.toServer hb hb' ha))
      (fun b => walkServer_sent (fun o url ha => .inr (hsv.toServer hb hb' (tuf := false) ha)))

theorem sysAll_sent {a : Around} {P : Req → Prop} : ∀ (l : List Txt), Preserves (OnlySent P) (sysAll a l)
  | [] => Preserves.pure (onlySent_pre P)
  | c :: cs => by
    unfold sysAll
    refine Preserves.bind (onlySent_pre P) (fun s => ⟨[], by simp [sys], by simp⟩) (fun b => ?_)
    split
    · exact sysAll_sent cs
    · exact Preserves.pure (onlySent_pre P)

/-- **C72** The same for `garage-deploy`, with the credentials of the source for its authorization server
only. -/
theorem C72_deploy {a : Around} {o : DeployOpts} {fetch push : File} {src : Source} {steps : List Treehub.Step} {cf c : Creds}
    {out : Except Err Bool} {st : St} (hf : readCredentials a.readJson fetch = .ok cf) (hc : readCredentials a.readJson push = .ok c)
    (hb : NoBlanks c.ostreeServer) (hb' : NoBlanks c.repoUrl) (h : garageDeploy a o fetch push src steps {} = (out, st)) :
    ∀ r ∈ st.sent, IsTokenRequest cf r ∨ MaySend a c r := by
  refine sent_of ?_ h
  have hp := onlySent_pre (fun r => IsTokenRequest cf r ∨ MaySend a c r)
  unfold garageDeploy
  split
  · exact Preserves.pure hp
  · refine lift_sent (fun v hv => ?_)
    unfold uncaught at hv
    rw [hf] at hv
    cases hv
    refine after_auth (fun r hr => .inl hr) (Preserves.pure hp) (fun _ _ => ?_)
    refine lift_sent (fun v hv => ?_)
    unfold uncaught at hv
    rw [hc] at hv
    cases hv
    refine after_auth (fun r hr => .inr (.inl hr)) (Preserves.pure hp) (fun sv hsv => ?_)
    dsimp only
    split
    · exact Preserves.pure hp
    · refine Preserves.bind hp (upload_sent (fun o url ha => .inr (.inr (hsv.toServer hb hb' (tuf := false) ha)))
          (fun _ o url ha => .inr (.inr (hsv.toServer hb hb' (tuf := false) ha))) (fun root q hm hq => Treehub.C39_dry_run_sends_nothing hm hq)) (fun ok => ?_)
      split
      · split
        · exact Preserves.pure hp
        · split
          · exact Preserves.pure hp
          · refine Preserves.bind hp (sysAll_sent _) (fun b => ?_)
            split
            · exact check_sent (fun verb tuf suffix url _ ha => .inr (.inr (hsv.toServer hb hb' ha))) (fun b => Preserves.pure hp)
            · exact Preserves.pure hp
      · exact Preserves.pure hp

/-! ### Where the credentials come from -/

theorem dropWhile_parts {p : Char → Bool} : ∀ s : Txt, ∃ l, s = l ++ s.dropWhile p ∧ (∀ c ∈ l, p c = true) ∧ ∀ c, (s.dropWhile p).head? = some c → p c = false
  | [] => ⟨[], rfl, (by simp), by simp⟩
  | x :: s => by
    cases hx : p x with
    | false => exact ⟨[], (by simp [List.dropWhile, hx]), (by simp), fun c hc => by simp [List.dropWhile, hx] at hc; rw [← hc]; exact hx⟩
    | true =>
      obtain ⟨l, h1, h2, h3⟩ := dropWhile_parts (p := p) s
      refine ⟨x :: l, ?_, ?_, ?_⟩
      · rw [List.dropWhile_cons, if_pos hx, List.cons_append, ← h1]
      · intro c hc
        rcases List.mem_cons.1 hc with rfl | hc
        · exact hx
        · exact h2 c hc
      · rw [List.dropWhile_cons, if_pos hx]
        exact h3

theorem isBlank_true {c : Char} (h : isBlank c = true) : c = ' ' ∨ c = '\t' ∨ c = '\r' ∨ c = '\n' := by
  unfold isBlank at h
  simp only [Bool.or_eq_true, beq_iff_eq] at h
  rcases h with ((h | h) | h) | h
  · exact .inl h
  · exact .inr (.inl h)
  · exact .inr (.inr (.inl h))
  · exact .inr (.inr (.inr h))

theorem not_blank {c : Char} (h : isBlank c = false) : c ≠ ' ' ∧ c ≠ '\t' ∧ c ≠ '\r' ∧ c ≠ '\n' := by
  unfold isBlank at h
  simp only [Bool.or_eq_false_iff, beq_eq_false_iff_ne] at h
  exact ⟨h.1.1.1, h.1.1.2, h.1.2, h.2⟩

theorem trim_trimmed (s : Txt) : Trimmed s (trim s) := by
  obtain ⟨l, h1, h2, h3⟩ := dropWhile_parts (p := isBlank) s
  obtain ⟨r, k1, k2, k3⟩ := dropWhile_parts (p := isBlank) (s.dropWhile isBlank).reverse
  have hs : s.dropWhile isBlank = trim s ++ r.reverse := by
    unfold trim
    rw [← List.reverse_append, ← k1, List.reverse_reverse]
  refine ⟨l, r.reverse, by rw [List.append_assoc, ← hs, ← h1], ?_, ?_⟩
  · intro c hc
    rcases List.mem_append.1 hc with hc | hc
    · exact isBlank_true (h2 c hc)
    · exact isBlank_true (k2 c (List.mem_reverse.1 hc))
  · intro c hc
    refine not_blank ?_
    rcases hc with hc | hc
    · refine h3 c ?_
      rw [hs, List.head?_append, hc]
      rfl
    · refine k3 c ?_
      unfold trim at hc
      rwa [List.getLast?_reverse] at hc

theorem lastEntry_cons {es : List (String × Option String)} {e : String × Option String} {name content : String}
    (h : LastEntry es name content) : LastEntry (e :: es) name content := by
  obtain ⟨pre, post, rfl, h2⟩ := h
  exact ⟨e :: pre, post, rfl, h2⟩

/-- The value from the last entry of a name, or the old one. -/
def Latest {α : Type} (es : List (String × Option String)) (name : String) (f : String → α) (old new : α) : Prop :=
  (∃ s, LastEntry es name s ∧ new = f s) ∨ (∀ e ∈ es, e.1 ≠ name) ∧ new = old

theorem latest_hit {α : Type} {es : List (String × Option String)} {name s : String} {f : String → α} {old new : α}
    (h : Latest es name f (f s) new) : Latest ((name, some s) :: es) name f old new := by
  rcases h with ⟨s', h, e⟩ | ⟨h, e⟩
  · exact .inl ⟨s', lastEntry_cons h, e⟩
  · exact .inl ⟨s, ⟨[], es, rfl, h⟩, e⟩

theorem latest_miss {α : Type} {es : List (String × Option String)} {name : String} {f : String → α} {old new : α} {e : String × Option String}
    (hn : e.1 ≠ name) (h : Latest es name f old new) : Latest (e :: es) name f old new := by
  rcases h with ⟨s', h, e'⟩ | ⟨h, e'⟩
  · exact .inl ⟨s', lastEntry_cons h, e'⟩
  · refine .inr ⟨fun x hx => ?_, e'⟩
    rcases List.mem_cons.1 hx with rfl | hx
    · exact hn
    · exact h x hx

theorem readEntries_ok : ∀ {es : List (String × Option String)} {c c' : Creds} {j j' : Option String}, readEntries c j es = .ok (c', j') →
    Latest es "treehub.json" some j j' ∧ Latest es "tufrepo.url" (fun s => trim s.toList) c.repoUrl c'.repoUrl ∧
    Latest es "client_auth.p12" (fun s => (Method.tls, s.toList)) (c.method, c.p12) (c'.method, c'.p12)
  | [], c, c', j, j', h => by
    cases h
    exact ⟨.inr ⟨(by simp), rfl⟩, .inr ⟨(by simp), rfl⟩, .inr ⟨(by simp), rfl⟩⟩
  | (name, content) :: es, c, c', j, j', h => by
    unfold readEntries at h
    by_cases h1 : name = "treehub.json"
    · subst h1
      rw [if_pos rfl] at h
      cases content with
      | none => cases h
      | some s =>
        obtain ⟨k1, k2, k3⟩ := readEntries_ok h
        exact ⟨latest_hit k1, latest_miss (by dsimp only; decide) k2, latest_miss (by dsimp only; decide) k3⟩
    · rw [if_neg h1] at h
      by_cases h2 : name = "client_auth.p12"
      · subst h2
        rw [if_pos rfl] at h
        cases content with
        | none => cases h
        | some s =>
          obtain ⟨k1, k2, k3⟩ := readEntries_ok h
          exact ⟨latest_miss (by dsimp only; decide) k1, latest_miss (by dsimp only; decide) k2, latest_hit k3⟩
      · rw [if_neg h2] at h
        by_cases h3 : name = "tufrepo.url"
        · subst h3
          rw [if_pos rfl] at h
          cases content with
          | none => cases h
          | some s =>
            obtain ⟨k1, k2, k3⟩ := readEntries_ok h
            exact ⟨latest_miss (by dsimp only; decide) k1, latest_hit k2, latest_miss (by dsimp only; decide) k3⟩
        · rw [if_neg h3] at h
          obtain ⟨k1, k2, k3⟩ := readEntries_ok h
          exact ⟨latest_miss h1 k1, latest_miss h3 k2, latest_miss h2 k3⟩

theorem fromTree_login {c : Creds} {t : Ptree} (hm : c.method = .none) : Login t (fromTree c t) := by
  unfold fromTree
  rw [hm]
  simp only [reduceCtorEq, if_false]
  cases h1 : t.child "oauth2" with
  | some o => exact .oauth2 o h1 rfl rfl rfl rfl rfl
  | none =>
    cases h2 : t.child "basic_auth" with
    | some b => exact .basic b h1 h2 rfl rfl rfl
    | none => exact .none h1 h2 hm

theorem fromTree_tls {c : Creds} {t : Ptree} (hm : c.method = .tls) : (fromTree c t).method = .tls ∧ (fromTree c t).p12 = c.p12 := by
  unfold fromTree
  rw [hm]
  exact ⟨hm, rfl⟩

theorem fromTree_repo (c : Creds) (t : Ptree) : (fromTree c t).repoUrl = c.repoUrl := by
  unfold fromTree
  dsimp only
  split
  · rfl
  · split
    · rfl
    · split <;> rfl

/-- **C72** Credentials that are accepted come from an archive that closes without error, and say what its
entries say: a certificate goes before OAuth2, OAuth2 before a password; or the file is no archive but the
property tree itself. -/
theorem C72_credentials {readJson : String → Option Ptree} {f : File} {c : Creds} (h : readCredentials readJson f = .ok c) :
    (∃ es, f.archive = some es ∧ f.closes = true ∧ FromArchive readJson es c) ∨
    f.archive = none ∧ ∃ t, readJson f.text = some t ∧ Login t c ∧ c.repoUrl = [] ∧
      c.ostreeServer = ((t.child "ostree").map (fun o => o.text "server")).getD [] := by
  unfold readCredentials at h
  cases ha : f.archive with
  | none =>
    rw [ha] at h
    dsimp only at h
    cases ht : readJson f.text with
    | none => rw [ht] at h; cases h
    | some t =>
      rw [ht] at h
      cases h
      exact .inr ⟨rfl, t, rfl, fromTree_login rfl, fromTree_repo _ _, rfl⟩
  | some es =>
    rw [ha] at h
    dsimp only at h
    cases he : readEntries {} none es with
    | error e => rw [he] at h; cases h
    | ok p =>
      obtain ⟨c0, j⟩ := p
      rw [he] at h
      dsimp only at h
      cases hcl : f.closes with
      | false => rw [hcl] at h; cases h
      | true =>
        rw [hcl] at h
        cases j with
        | none => cases h
        | some s =>
          dsimp only at h
          rw [if_neg (by simp)] at h
          cases ht : readJson s with
          | none => rw [ht] at h; cases h
          | some t =>
            rw [ht] at h
            cases h
            obtain ⟨k1, k2, k3⟩ := readEntries_ok he
            refine .inl ⟨es, rfl, rfl, ⟨⟨s, t, ?_, ht, rfl, ?_⟩, ?_⟩⟩
            · rcases k1 with ⟨s', h1, e⟩ | ⟨_, e⟩
              · cases e; exact h1
              · cases e
            · rcases k3 with ⟨p, h1, e⟩ | ⟨h1, e⟩
              · injection e with e1 e2
                obtain ⟨m1, m2⟩ := fromTree_tls (t := t) e1
                exact .inl ⟨p, h1, m1, m2.trans e2⟩
              · injection e with e1 e2
                exact .inr ⟨h1, fromTree_login e1⟩
            · rw [fromTree_repo]
              rcases k2 with ⟨u, h1, e⟩ | ⟨h1, e⟩
              · rw [e]
                exact .inl ⟨u, h1, trim_trimmed _⟩
              · exact .inr ⟨h1, e⟩

end Aktualizr.Tools
