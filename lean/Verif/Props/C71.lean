import Verif.Lemmas.Tools
import Verif.Props.C39
import Verif.Props.C72

/-!
# C71: what the exit status of the publishing tools means
-/

namespace Aktualizr.Tools

open M _root_.Aktualizr.Tools.Spec

open Aktualizr.Spec (At)

/-! ### The Targets -/

theorem listed_true {ref : String} : ∀ {l : List Json}, listed ref l = .ok true → ∃ t h, t ∈ l ∧ At t ["hashes", "sha256"] h ∧ h.asString = .ok ref
  | [], h => by cases h
  | t :: ts, h => by
    unfold listed at h
    obtain ⟨hs, h1, h⟩ := exc_bind_ok.1 h
    obtain ⟨d, h2, h⟩ := exc_bind_ok.1 h
    obtain ⟨x, h3, h⟩ := exc_bind_ok.1 h
    by_cases hx : x = ref
    · exact ⟨t, d, by simp, ⟨hs, h1, d, h2, rfl⟩, by rw [h3, hx]⟩
    · rw [if_neg hx] at h
      obtain ⟨t', h', i1, i2⟩ := listed_true h
      exact ⟨t', h', List.mem_cons_of_mem _ i1, i2⟩

/-- The document can be read up to the entry in question. -/
def Spec.Readable (l : List Json) : Prop := ∀ t ∈ l, ∃ h s, At t ["hashes", "sha256"] h ∧ h.asString = .ok s

theorem listed_of {ref : String} : ∀ {l : List Json}, Readable l → (∃ t h, t ∈ l ∧ At t ["hashes", "sha256"] h ∧ h.asString = .ok ref) →
    listed ref l = .ok true
  | [], _, h => by obtain ⟨t, _, h, _⟩ := h; cases h
  | t :: ts, hr, h => by
    obtain ⟨d, x, ⟨hs, h1, d', h2, rfl⟩, h3⟩ := hr t (by simp)
    unfold listed
    refine exc_bind_ok.2 ⟨hs, h1, exc_bind_ok.2 ⟨_, h2, exc_bind_ok.2 ⟨x, h3, ?_⟩⟩⟩
    by_cases hx : x = ref
    · rw [if_pos hx]; rfl
    · rw [if_neg hx]
      refine listed_of (fun t ht => hr t (List.mem_cons_of_mem _ ht)) ?_
      obtain ⟨t', h', i1, ⟨hs', j1, d', j2, rfl⟩, i3⟩ := h
      rcases List.mem_cons.1 i1 with rfl | i1
      · exfalso
        rw [h1] at j1
        cases j1
        rw [h2] at j2
        cases j2
        rw [h3] at i3
        cases i3
        exact hx rfl
      · exact ⟨t', _, i1, ⟨hs', j1, _, j2, rfl⟩, i3⟩

theorem checkTargets_true {a : Around} {ref : Txt} {text : String} (h : checkTargets a ref text = .ok true) : ∃ e t ts,
    (∃ v, At (a.parseJson text) ["signed", "expires"] v ∧ v.asString = .ok e) ∧ TimeStamp.parse e = some t ∧ t.isExpiredAt a.now = false ∧
    At (a.parseJson text) ["signed", "targets"] ts ∧ listed (String.ofList ref) ts.elems = .ok true := by
  unfold checkTargets at h
  obtain ⟨sg, h1, h⟩ := exc_bind_ok.1 h
  obtain ⟨v, h2, h⟩ := exc_bind_ok.1 h
  obtain ⟨e, h3, h⟩ := exc_bind_ok.1 h
  cases ht : TimeStamp.parse e with
  | none => rw [ht] at h; cases h
  | some t =>
    rw [ht] at h
    dsimp only at h
    cases hx : t.isExpiredAt a.now with
    | true => rw [hx, if_pos rfl] at h; cases h
    | false =>
      rw [hx, if_neg (by simp)] at h
      obtain ⟨ts, h4, h⟩ := exc_bind_ok.1 h
      exact ⟨e, t, ts, ⟨v, ⟨sg, h1, v, h2, rfl⟩, h3⟩, ht, hx, ⟨sg, h1, ts, h4, rfl⟩, h⟩

theorem commitPath_eq {ref path : Txt} (h : commitPath ref = .ok path) :
    path = "objects/".toList ++ ref.take 2 ++ ['/'] ++ ref.drop 2 ++ ".commit".toList := by
  unfold commitPath at h
  split at h
  · cases h
  · cases h; rfl

theorem commitPath_head {ref : Txt} : ("objects/".toList ++ ref.take 2 ++ ['/'] ++ ref.drop 2 ++ ".commit".toList).head? ≠ some '/' := by
  have : "objects/".toList = ['o', 'b', 'j', 'e', 'c', 't', 's', '/'] := by decide
  rw [this]
  simp

theorem targets_tail : (if "/api/v1/user_repo/targets.json".toList.head? = some '/' then "/api/v1/user_repo/targets.json".toList.tail
    else "/api/v1/user_repo/targets.json".toList) = "api/v1/user_repo/targets.json".toList := by decide

/-! ### The check of a commit -/

theorem address_suffix {u suffix url : Txt} (hb : NoBlanks u) (ha : address (withSlash u) suffix = .ok url) :
    AddressOf u (if suffix.head? = some '/' then suffix.tail else suffix) url := by
  by_cases h0 : u = []
  · subst h0; cases ha
  · obtain ⟨url', h1, h2⟩ := address_spec (suffix := suffix) h0 hb
    rw [h1] at ha
    cases ha
    exact h2

theorem check_inv {a : Around} {c : Creds} {sv : Server} {ref : Txt} {w : Bool} {walk : Server → Bool → M St Unit} {s s' : St}
    (hsv : Prepared a c sv) (hb : NoBlanks c.ostreeServer) (hb' : NoBlanks c.repoUrl)
    (hw : ∀ b, Preserves (fun x y => ∃ more, y.sent = x.sent ++ more) (walk sv b))
    (h : checkRefValid a sv ref w walk s = (.ok true, s')) : ∃ r1 mid, (w = false → mid = []) ∧ r1.verb = .head ∧
      AddressOf c.ostreeServer ("objects/".toList ++ ref.take 2 ++ ['/'] ++ ref.drop 2 ++ ".commit".toList) r1.url ∧
      ((∃ r2, s'.sent = s.sent ++ [r1] ++ mid ++ [r2] ∧ Confirmed a c ref s.sent r1 mid r2) ∨
        w = true ∧ Answered a s.sent r1 404 ∧ s'.sent = s.sent ++ [r1] ++ mid) := by
  unfold checkRefValid at h
  obtain ⟨path, s1, h1, h⟩ := bind_ok.1 h
  rw [lift_eq] at h1
  injection h1 with h1 h1'
  subst h1'
  obtain ⟨r, s2, h2, h⟩ := bind_ok.1 h
  rcases request_inv h2 with ⟨e, _, he, _⟩ | ⟨url, ha, ho, rfl⟩
  · cases he
  · injection ho with ho
    have hpath := commitPath_eq h1
    rw [if_neg (by simp), hsv.root] at ha
    have haddr := address_suffix hb ha
    rw [hpath, if_neg commitPath_head] at haddr
    have hok : r.ok = true := by
      cases hr : r.ok with
      | true => rfl
      | false => rw [hr] at h; simp at h
    rw [hok] at h
    simp only [Bool.not_true, Bool.false_eq_true, if_false] at h
    by_cases hcode : r.code ≠ 200 ∧ (r.code ≠ 404 ∨ (!w) = true)
    · rw [if_pos hcode] at h; cases h
    · rw [if_neg hcode] at h
      have rest : ∀ {x : St}, (if r.code = 200 then do
            let t ← request a sv .get true "/api/v1/user_repo/targets.json".toList
            if !t.ok then return false
            else if t.code ≠ 200 then return false
            else lift (checkTargets a ref t.body)
          else return true : M St Bool) x = (.ok true, s') → ∀ mid, x.sent = s.sent ++ [⟨.head, url, sv.auth, []⟩] ++ mid →
          (∃ r2, s'.sent = s.sent ++ [⟨.head, url, sv.auth, []⟩] ++ mid ++ [r2] ∧ Confirmed a c ref s.sent ⟨.head, url, sv.auth, []⟩ mid r2) ∨
            w = true ∧ Answered a s.sent ⟨.head, url, sv.auth, []⟩ 404 ∧ s'.sent = s.sent ++ [⟨.head, url, sv.auth, []⟩] ++ mid := by
        intro x hx mid hm
        by_cases h200 : r.code = 200
        · rw [if_pos h200] at hx
          obtain ⟨t, s3, h3, hx⟩ := bind_ok.1 hx
          rcases request_inv h3 with ⟨e, _, he, _⟩ | ⟨url2, ha2, ho2, rfl⟩
          · cases he
          · injection ho2 with ho2
            rw [if_pos rfl, hsv.repo] at ha2
            have haddr2 := address_suffix hb' ha2
            rw [targets_tail] at haddr2
            have hok2 : t.ok = true := by
              cases hr : t.ok with
              | true => rfl
              | false => rw [hr] at hx; simp at hx
            rw [hok2] at hx
            simp only [Bool.not_true, Bool.false_eq_true, if_false] at hx
            by_cases h2002 : t.code = 200
            · simp only [h2002, ne_eq, not_true_eq_false, if_false] at hx
              rw [lift_eq] at hx
              injection hx with hx hx'
              obtain ⟨e, tt, ts, ⟨v, i1, i2⟩, i3, i4, i5, i6⟩ := checkTargets_true hx
              obtain ⟨t', h', j1, j2, j3⟩ := listed_true i6
              left
              refine ⟨_, by rw [← hx']; show x.sent ++ _ = _; rw [hm], ?_⟩
              rw [ho2] at i1 i5 hok2 h2002
              exact {
                head := rfl
                get := rfl
                commit := haddr
                targets := haddr2
                found := ⟨by rw [← ho]; exact hok, by rw [← ho]; exact h200⟩
                got := by rw [← hm]; exact ⟨hok2, h2002⟩
                lists := by rw [← hm]; exact ⟨⟨v, e, tt, i1, i2, i3, i4⟩, ⟨ts, t', h', i5, j1, j2, j3⟩⟩ }
            · simp only [ne_eq, h2002, not_false_eq_true, if_true] at hx
              cases hx
        · rw [if_neg h200] at hx
          cases hx
          right
          have h404 : r.code = 404 ∧ w = true := by
            by_cases h4 : r.code = 404
            · refine ⟨h4, ?_⟩
              cases w with
              | true => rfl
              | false => exact absurd ⟨h200, .inr rfl⟩ hcode
            · exact absurd ⟨h200, .inl h4⟩ hcode
          exact ⟨h404.2, ⟨by rw [← ho]; exact hok, by rw [← ho]; exact h404.1⟩, hm⟩
      cases w with
      | false =>
        refine ⟨_, [], fun _ => rfl, rfl, haddr, rest h [] (by simp)⟩
      | true =>
        rw [if_pos rfl] at h
        obtain ⟨u, s3, h3, h⟩ := bind_ok.1 h
        have hm := hw (r.code == 200) { s with sent := s.sent ++ [⟨.head, url, sv.auth, []⟩] }
        rw [h3] at hm
        obtain ⟨mid, hm⟩ := hm
        exact ⟨_, mid, Bool.noConfusion, rfl, haddr, rest h mid hm⟩

/-- **C71** `garage-check` succeeds only if Treehub has the commit and the Targets of the TUF repository, not
expired, list it; it has sent nothing but the request for a token before. -/
theorem C71_check {a : Around} {ref : Txt} {jobs : Int} {cred : File} {src : Source} {steps : List Treehub.Step} {c : Creds} {st : St}
    (hc : readCredentials a.readJson cred = .ok c) (hb : NoBlanks c.ostreeServer) (hb' : NoBlanks c.repoUrl)
    (h : garageCheck a ref false jobs cred src steps {} = (.ok true, st)) :
    ∃ pre r1 r2, (pre = [] ∨ ∃ r, pre = [r] ∧ IsTokenRequest c r) ∧ st.sent = pre ++ [r1, r2] ∧ Confirmed a c ref pre r1 [] r2 := by
  unfold garageCheck at h
  split at h
  · cases h
  · rw [hc] at h
    dsimp only [catchStd] at h
    split at h
    · split at h <;> cases h
    · rename_i _ hh
      obtain ⟨v, s1, h1, hr⟩ := bind_ok.1 h
      cases v with
      | none => cases hr
      | some sv =>
        obtain ⟨p1, -, pre, p2, p3⟩ := authenticate_prepared h1
        have hw : ∀ b, Preserves (fun (x y : St) => ∃ more, y.sent = x.sent ++ more) (walkServer src ref steps sv b) := by
          intro b w
          obtain ⟨m, hm, -⟩ := walkServer_sent (src := src) (ref := ref) (steps := steps) (sv := sv) (b := b) (P := fun _ => True) (fun _ _ _ => trivial) w
          exact ⟨m, hm⟩
        obtain ⟨r1, mid, m1, -, -, hk | ⟨hk, -⟩⟩ := check_inv p1 hb hb' hw hr
        · obtain ⟨r2, k1, k2⟩ := hk
          cases m1 rfl
          have e : s1.sent = pre := by simpa using p2
          rw [e] at k1 k2
          exact ⟨pre, r1, r2, p3, by simpa using k1, k2⟩
        · cases hk

/-- The servers have the commit and list it, whatever was asked before; a token is issued. -/
structure Spec.Serves (a : Around) (c : Creds) (ref : Txt) : Prop where
  token : ∀ before r, IsTokenRequest c r → (a.web before r).code = 200 ∧ (a.readJson (a.web before r).body).isSome = true
  commit : ∀ before r, r.verb = .head → AddressOf c.ostreeServer ("objects/".toList ++ ref.take 2 ++ ['/'] ++ ref.drop 2 ++ ".commit".toList) r.url →
    Answered a before r 200
  targets : ∀ before r, r.verb = .get → AddressOf c.repoUrl "api/v1/user_repo/targets.json".toList r.url → Answered a before r 200 ∧
    ListsCommit a (a.web before r).body (String.ofList ref) ∧
    ∀ ts, At (a.parseJson (a.web before r).body) ["signed", "targets"] ts → Readable ts.elems

theorem at_unique : ∀ {ks : List String} {j x y : Json}, At j ks x → At j ks y → x = y
  | [], _, _, _, h1, h2 => by rw [← h1, ← h2]
  | _ :: _, _, _, _, ⟨a, h1, h2⟩, ⟨b, h3, h4⟩ => by
    rw [h1] at h3
    cases h3
    exact at_unique h2 h4

theorem checkTargets_of {a : Around} {ref : Txt} {text : String} (h : ListsCommit a text (String.ofList ref))
    (hr : ∀ ts, At (a.parseJson text) ["signed", "targets"] ts → Readable ts.elems) : checkTargets a ref text = .ok true := by
  obtain ⟨⟨v, e, t, ⟨sg, h1, v', h2, rfl⟩, h3, h4, h5⟩, ⟨ts, x, d, ⟨sg', i1, ts', i2, rfl⟩, i3, i4, i5⟩⟩ := h
  rw [h1] at i1
  cases i1
  unfold checkTargets
  refine exc_bind_ok.2 ⟨sg, h1, exc_bind_ok.2 ⟨_, h2, exc_bind_ok.2 ⟨e, h3, ?_⟩⟩⟩
  rw [h4]
  dsimp only
  rw [h5, if_neg (by simp)]
  exact exc_bind_ok.2 ⟨_, i2, listed_of (hr _ ⟨sg, h1, _, i2, rfl⟩) ⟨x, d, i3, i4, i5⟩⟩

theorem authenticate_of {a : Around} {c : Creds} (h : ∀ before r, IsTokenRequest c r → (a.web before r).code = 200 ∧ (a.readJson (a.web before r).body).isSome = true)
    (s : St) : ∃ sv s', authenticate a c s = (.ok (some sv), s') := by
  unfold authenticate
  cases hm : c.method with
  | none => exact ⟨_, _, rfl⟩
  | basic => exact ⟨_, _, rfl⟩
  | tls => exact ⟨_, _, rfl⟩
  | oauth2 =>
    dsimp only
    split
    · obtain ⟨h1, h2⟩ := h s.sent (tokenRequest c) (tokenRequest_is hm)
      obtain ⟨t, ht⟩ := Option.isSome_iff_exists.1 h2
      have hg : getToken a c s = (.ok (some (t.text "access_token")), { s with sent := s.sent ++ [tokenRequest c] }) := by
        unfold getToken
        rw [run_bind perform_eq]
        simp only [h1, if_true, ht]
        rfl
      rw [run_bind hg]
      exact ⟨_, _, rfl⟩
    · exact ⟨_, _, rfl⟩

theorem check_of {a : Around} {c : Creds} {sv : Server} {ref : Txt} {walk : Server → Bool → M St Unit} (hsv : Prepared a c sv) (hs : Serves a c ref)
    (hu : c.ostreeServer ≠ []) (hu' : c.repoUrl ≠ []) (hb : NoBlanks c.ostreeServer) (hb' : NoBlanks c.repoUrl) (hl : 2 ≤ ref.length) (s : St) :
    ∃ s', checkRefValid a sv ref false walk s = (.ok true, s') := by
  unfold checkRefValid
  have hp : commitPath ref = .ok ("objects/".toList ++ ref.take 2 ++ ['/'] ++ ref.drop 2 ++ ".commit".toList) := by
    unfold commitPath
    rw [if_neg (by omega)]
  rw [run_bind (a := _) (w1 := s) (by rw [lift_eq, hp])]
  obtain ⟨url, h1, h2⟩ := address_spec (suffix := "objects/".toList ++ ref.take 2 ++ ['/'] ++ ref.drop 2 ++ ".commit".toList) hu hb
  rw [if_neg commitPath_head] at h2
  rw [run_bind (request_ok (by rw [if_neg (by simp), hsv.root]; exact h1))]
  obtain ⟨k1, k2⟩ := hs.commit s.sent ⟨.head, url, sv.auth, []⟩ rfl h2
  obtain ⟨url2, i1, i2⟩ := address_spec (suffix := "/api/v1/user_repo/targets.json".toList) hu' hb'
  rw [targets_tail] at i2
  obtain ⟨⟨j1, j2⟩, j3, j4⟩ := hs.targets (s.sent ++ [⟨.head, url, sv.auth, []⟩]) ⟨.get, url2, sv.auth, []⟩ rfl i2
  simp only [k1, k2, Bool.not_true, Bool.false_eq_true, if_false, ne_eq, not_true_eq_false, false_and, if_true]
  rw [run_bind (request_ok (by rw [if_pos rfl, hsv.repo]; exact i1))]
  simp only [j1, j2, Bool.not_true, Bool.false_eq_true, if_false, not_true_eq_false]
  rw [lift_eq, checkTargets_of j3 j4]
  exact ⟨_, rfl⟩

/-- **C71** And it succeeds if that is so. -/
theorem C71_check_succeeds {a : Around} {ref : Txt} {jobs : Int} {cred : File} {src : Source} {steps : List Treehub.Step} {c : Creds}
    (hc : readCredentials a.readJson cred = .ok c) (hu : c.ostreeServer ≠ []) (hu' : c.repoUrl ≠ []) (hb : NoBlanks c.ostreeServer)
    (hb' : NoBlanks c.repoUrl) (hl : 2 ≤ ref.length) (hj : 1 ≤ jobs) (hs : Serves a c ref) (s : St) :
    ∃ st, garageCheck a ref false jobs cred src steps s = (.ok true, st) := by
  unfold garageCheck
  rw [if_neg (by omega), hc]
  obtain ⟨sv, s1, h1⟩ := authenticate_of hs.token s
  obtain ⟨s2, h2⟩ := check_of (walk := walkServer src ref steps) (authenticate_prepared h1).1 hs hu hu' hb hb' hl s1
  refine ⟨s2, ?_⟩
  show catchStd _ _ s = _
  unfold catchStd
  rw [run_bind h1]
  dsimp only
  rw [h2]

/-! ### Pushing -/

/-- A commit was uploaded: the requests `reqs` for its objects were sent, children first and nothing but
objects of the commit, and the server has confirmed the commit itself. -/
structure Spec.Uploaded (c : Creds) (src : Source) (hash : List Nat) (reqs : List Req) : Prop where
  run : ∃ root auth log, src.commit hash = some root ∧ ObjectRequests c src auth log reqs ∧ Shows c auth ∧
    Treehub.Ordered src.repo.refs log ∧ (∀ o, .put o ∈ log → Treehub.Reach src.repo.refs root o) ∧ .seen root ∈ log

theorem upload_ok {a : Around} {c : Creds} {sv : Server} {src : Source} {hash : List Nat} {steps : List Treehub.Step} {s s' : St}
    (hsv : Prepared a c sv) (hp : ObjectPaths src) (hu : c.ostreeServer ≠ []) (hb : NoBlanks c.ostreeServer)
    (h : uploadToTreehub src sv hash .default steps s = (.ok true, s')) :
    ∃ reqs, Uploaded c src hash reqs ∧ s' = { s with sent := s.sent ++ reqs } := by
  unfold uploadToTreehub at h
  cases hroot : src.commit hash with
  | none => rw [hroot] at h; cases h
  | some root =>
    rw [hroot] at h
    dsimp only at h
    obtain ⟨q, s1, h1, h⟩ := bind_ok.1 h
    rw [lift_eq] at h1
    injection h1 with h1 h1'
    subst h1'
    obtain ⟨reqs, k1, k2⟩ := sends_requests (c := c) hp hu hb hsv.root q.log s
    rw [run_bind k2] at h
    split at h
    · cases h
    · injection h with h h'
      injection h with h
      exact ⟨reqs, ⟨root, sv.auth, q.log, hroot, k1, hsv.shows, Treehub.C39_children_first h1,
        fun o ho => Treehub.C39_only_the_commit h1 ho, Treehub.C39_success h1 h⟩, h'.symm⟩

theorem theCommit_names {o : PushOpts} {hash : List Nat} {content : Option Txt} (h : theCommit o = .ok (some (hash, content))) : Names o hash content := by
  unfold theCommit at h
  split at h
  · rename_i file hf
    split at h
    · rename_i hash' hh
      injection h with h
      injection h with h
      injection h with h1 h2
      subst h1; subst h2
      exact ⟨file, hf, rfl, hh⟩
    · cases h
  · rename_i hf
    split at h
    · rename_i hash' hh
      injection h with h
      injection h with h
      injection h with h1 h2
      subst h1; subst h2
      exact ⟨hf, hh⟩
    · cases h

/-- The ref was accepted by the server: its content is the commit. -/
structure Spec.RefPushed (a : Around) (c : Creds) (o : PushOpts) (content : Txt) (before : List Req) (r : Req) : Prop where
  verb : r.verb = .post
  address : AddressOf c.ostreeServer ("refs/heads/".toList ++ o.ref) r.url
  body : r.body = content
  answer : (a.web before r).ok = true ∧ 200 ≤ (a.web before r).code ∧ (a.web before r).code < 400

theorem refs_head {name : Txt} : ("refs/heads/".toList ++ name).head? ≠ some '/' := by
  have : "refs/heads/".toList = ['r', 'e', 'f', 's', '/', 'h', 'e', 'a', 'd', 's', '/'] := by decide
  rw [this]
  simp

theorem pushRootRef_ok {a : Around} {c : Creds} {sv : Server} {o : PushOpts} {content : Txt} {s s' : St} (hsv : Prepared a c sv) (hb : NoBlanks c.ostreeServer)
    (h : pushRootRef a sv o.ref content s = (.ok true, s')) :
    ∃ r, RefPushed a c o content s.sent r ∧ s' = { s with sent := s.sent ++ [r] } := by
  unfold pushRootRef at h
  obtain ⟨t, s1, h1, h⟩ := bind_ok.1 h
  rcases request_inv h1 with ⟨e, _, he, _⟩ | ⟨url, ha, ho, rfl⟩
  · cases he
  · injection ho with ho
    rw [if_neg (by simp), hsv.root] at ha
    have haddr := address_suffix hb ha
    rw [if_neg refs_head] at haddr
    injection h with h h'
    injection h with h
    rw [Bool.and_eq_true, Bool.and_eq_true, decide_eq_true_iff, decide_eq_true_iff, ho] at h
    exact ⟨_, ⟨rfl, haddr, rfl, h.1.1, h.1.2, h.2⟩, h'.symm⟩

/-- **C71** `garage-push` succeeds only if the commit was uploaded, children first, and confirmed by the
server, and after that, if a branch was named, the server has accepted it; the commit is the one
named. -/
theorem C71_push {a : Around} {o : PushOpts} {cred : File} {src : Source} {steps : List Treehub.Step} {c : Creds} {st : St}
    (hc : readCredentials a.readJson cred = .ok c) (hp : ObjectPaths src) (hu : c.ostreeServer ≠ []) (hb : NoBlanks c.ostreeServer)
    (hd : o.dryRun = false) (hw : o.walkTree = false) (h : garagePush a o cred src steps {} = (.ok true, st)) :
    ∃ hash content pre reqs rest, Names o hash content ∧ (pre = [] ∨ ∃ r, pre = [r] ∧ IsTokenRequest c r) ∧ Uploaded c src hash reqs ∧
      st.sent = pre ++ reqs ++ rest ∧ st.ran = [] ∧
      (∀ t, content = some t → ∃ r more, rest = r :: more ∧ RefPushed a c o t (pre ++ reqs) r ∧ ∀ x ∈ more, x.verb = .put) ∧
      (content = none → ∀ x ∈ rest, x.verb = .put) := by
  have hmode : o.mode = .default := by unfold PushOpts.mode; rw [hd, hw]; rfl
  unfold garagePush at h
  split at h
  · cases h
  · split at h
    · cases h
    · obtain ⟨v, s1, h1, h⟩ := bind_ok.1 h
      rw [lift_eq] at h1
      injection h1 with h1 h1'
      subst h1'
      cases v with
      | none => cases h
      | some p =>
        obtain ⟨hash, content⟩ := p
        have hn := theCommit_names h1
        dsimp only at h
        rw [hc] at h
        dsimp only at h
        obtain ⟨v, s2, h2, h⟩ := bind_ok.1 h
        cases v with
        | none => cases h
        | some sv =>
          obtain ⟨p1, p4, pre, p2, p3⟩ := authenticate_prepared h2
          have p2' : s2.sent = pre := by simpa using p2
          dsimp only at h
          obtain ⟨ok, s3, h3, h⟩ := bind_ok.1 h
          cases ok with
          | false => cases h
          | true =>
            rw [hmode] at h3
            obtain ⟨reqs, k1, rfl⟩ := upload_ok p1 hp hu hb h3
            rw [if_pos rfl] at h
            unfold pushRest at h
            rw [hmode] at h
            simp only [ne_eq, reduceCtorEq, not_false_eq_true, if_true] at h
            obtain ⟨go, s4, h4, h⟩ := bind_ok.1 h
            cases go with
            | false => cases h
            | true =>
              simp only [Bool.not_true, Bool.false_eq_true, if_false] at h
              have hman : ∃ more, st.sent = s4.sent ++ more ∧ st.ran = s4.ran ∧ ∀ x ∈ more, x.verb = .put := by
                cases hm : o.manifest with
                | none => rw [hm] at h; cases h; exact ⟨[], by simp, rfl, by simp⟩
                | some m =>
                  rw [hm] at h
                  dsimp only at h
                  obtain ⟨t, s5, h5, h⟩ := bind_ok.1 h
                  cases h
                  rcases request_inv h5 with ⟨e, _, he, _⟩ | ⟨url, _, _, rfl⟩
                  · cases he
                  · exact ⟨[_], rfl, rfl, fun x hx => by rw [List.mem_singleton] at hx; subst hx; rfl⟩
              obtain ⟨more, m1, m2, m3⟩ := hman
              cases content with
              | none =>
                cases h4
                refine ⟨hash, none, pre, reqs, more, hn, p3, k1, by rw [m1]; show (s2.sent ++ reqs) ++ more = _; rw [p2'], by rw [m2]; exact p4,
                  (fun t ht => by cases ht), fun _ => m3⟩
              | some t =>
                obtain ⟨r, i1, rfl⟩ := pushRootRef_ok p1 hb h4
                refine ⟨hash, some t, pre, reqs, r :: more, hn, p3, k1, ?_, by rw [m2]; exact p4, fun t' ht => ?_, fun hf => by cases hf⟩
                · rw [m1]
                  show (s2.sent ++ reqs) ++ [r] ++ more = _
                  rw [p2']
                  simp
                · cases ht
                  rw [show ({ s2 with sent := s2.sent ++ reqs } : St).sent = pre ++ reqs from by show s2.sent ++ reqs = _; rw [p2']] at i1
                  exact ⟨r, more, rfl, i1, m3⟩

/-- **C71** A dry run without `--walk-tree` asks which objects are there, and sends nothing else. -/
theorem C71_dry_run_partial {a : Around} {o : PushOpts} {cred : File} {src : Source} {steps : List Treehub.Step} {c : Creds} {out : Except Err Bool} {st : St}
    (hc : readCredentials a.readJson cred = .ok c) (hd : o.dryRun = true) (hw : o.walkTree = false)
    (h : garagePush a o cred src steps {} = (out, st)) : ∀ r ∈ st.sent, r.verb = .head ∨ IsTokenRequest c r := by
  have hmode : o.mode = .dryRun := by unfold PushOpts.mode; rw [hd, hw]; rfl
  refine sent_of ?_ h
  have hp := onlySent_pre (fun r : Req => r.verb = .head ∨ IsTokenRequest c r)
  unfold garagePush
  split
  · exact Preserves.pure hp
  · split
    · exact Preserves.pure hp
    · refine lift_sent (fun v _ => ?_)
      split
      · exact Preserves.pure hp
      · rename_i hash content
        rw [hc, hmode]
        refine after_auth (fun r hr => .inr hr) (Preserves.pure hp) (fun sv hsv => ?_)
        refine Preserves.bind hp (upload_sent (fun o url ha => .inl rfl) (fun hm => ?_)
          (fun root q hm hq => Treehub.C39_dry_run_sends_nothing hm hq)) (fun ok => ?_)
        · rcases hm with hm | hm <;> cases hm
        · split
          · unfold pushRest
            rw [hmode]
            simp only [ne_eq, not_true_eq_false, if_false]
            refine Preserves.bind hp (Preserves.pure hp) (fun go => ?_)
            split
            · exact Preserves.pure hp
            · split <;> exact Preserves.pure hp
          · exact Preserves.pure hp

/-! ### Deploying -/

theorem sysAll_ok {a : Around} : ∀ {l : List Txt} {s s' : St}, sysAll a l s = (.ok true, s') →
    s' = { s with ran := s.ran ++ l } ∧ ∀ pre cmd post, l = pre ++ cmd :: post → a.shell (s.ran ++ pre) cmd = true
  | [], s, s', h => by
    cases h
    exact ⟨by simp, fun pre cmd post hl => by cases pre <;> cases hl⟩
  | x :: l, s, s', h => by
    unfold sysAll at h
    have hx : sys a x s = (.ok (a.shell s.ran x), { s with ran := s.ran ++ [x] }) := rfl
    rw [run_bind hx] at h
    cases hb : a.shell s.ran x with
    | false => rw [hb] at h; cases h
    | true =>
      rw [hb, if_pos rfl] at h
      obtain ⟨h1, h2⟩ := sysAll_ok h
      refine ⟨by rw [h1]; simp, fun pre cmd post hl => ?_⟩
      cases pre with
      | nil => cases hl; simpa using hb
      | cons y pre =>
        cases hl
        simpa using h2 pre cmd post rfl

/-- **C71** `garage-deploy` succeeds only if the commit was uploaded and confirmed, all commands that sign and
publish the Targets succeeded in order, and after that the commit was found on Treehub and in the
Targets. -/
theorem C71_deploy {a : Around} {o : DeployOpts} {fetch push : File} {src : Source} {steps : List Treehub.Step} {c : Creds} {st : St}
    (hc : readCredentials a.readJson push = .ok c) (hp : ObjectPaths src) (hu : c.ostreeServer ≠ []) (hb : NoBlanks c.ostreeServer)
    (hb' : NoBlanks c.repoUrl) (hd : o.dryRun = false) (h : garageDeploy a o fetch push src steps {} = (.ok true, st)) :
    ∃ hash pre reqs r1 r2, parseHash o.commit = some hash ∧ Uploaded c src hash reqs ∧ st.sent = pre ++ reqs ++ [r1, r2] ∧
      Confirmed a c o.commit (pre ++ reqs) r1 [] r2 ∧ st.ran = signCommands o.path o.name (showHash hash) o.hardwareids ∧
      ∀ before cmd after, st.ran = before ++ cmd :: after → a.shell before cmd = true := by
  unfold garageDeploy at h
  split at h
  · cases h
  · obtain ⟨cf, s0, h0, h⟩ := bind_ok.1 h
    rw [lift_eq] at h0
    injection h0 with h0 h0'
    subst h0'
    obtain ⟨v, s1, h1, h⟩ := bind_ok.1 h
    cases v with
    | none => cases h
    | some svf =>
      obtain ⟨-, q4, -⟩ := authenticate_prepared h1
      dsimp only at h
      obtain ⟨c', s1', h1', h⟩ := bind_ok.1 h
      rw [lift_eq] at h1'
      injection h1' with e1 e2
      subst e2
      unfold uncaught at e1
      rw [hc] at e1
      cases e1
      obtain ⟨v, s2, h2, h⟩ := bind_ok.1 h
      cases v with
      | none => cases h
      | some sv =>
        obtain ⟨p1, p4, -⟩ := authenticate_prepared h2
        dsimp only at h
        cases hh : parseHash o.commit with
        | none => rw [hh] at h; cases h
        | some hash =>
          rw [hh] at h
          dsimp only at h
          rw [hd] at h
          obtain ⟨ok, s3, h3, h⟩ := bind_ok.1 h
          cases ok with
          | false => cases h
          | true =>
            rw [if_neg (by simp)] at h3
            obtain ⟨reqs, k1, rfl⟩ := upload_ok p1 hp hu hb h3
            rw [if_pos rfl, if_neg (by simp)] at h
            split at h
            · cases h
            · obtain ⟨b, s4, h4, h⟩ := bind_ok.1 h
              cases b with
              | false => cases h
              | true =>
                obtain ⟨j1, j2⟩ := sysAll_ok h4
                rw [if_pos rfl] at h
                obtain ⟨r1, mid, m1, -, -, hk | ⟨hk, -⟩⟩ := check_inv p1 hb hb' (fun _ w => ⟨[], by simp⟩) h
                · obtain ⟨r2, i1, i2⟩ := hk
                  cases m1 rfl
                  have hran : s2.ran = [] := by rw [p4, q4]
                  have e4 : s4.sent = s2.sent ++ reqs := by rw [j1]
                  have e5 : st.ran = signCommands o.path o.name (showHash hash) o.hardwareids := by
                    have : st.ran = s4.ran := check_ran h
                    rw [this, j1]
                    show s2.ran ++ _ = _
                    rw [hran, List.nil_append]
                  rw [e4] at i1 i2
                  refine ⟨hash, s2.sent, reqs, r1, r2, rfl, k1, by simpa using i1, i2, e5, fun before cmd after hb => ?_⟩
                  rw [e5] at hb
                  have := j2 before cmd after hb
                  rw [show ({ s2 with sent := s2.sent ++ reqs } : St).ran = [] from hran] at this
                  simpa using this
                · cases hk
where
  check_ran {sv : Server} {s s' : St} {ref : Txt} {x : Except Err Bool} (h : checkRefValid a sv ref false (fun _ _ => pure ()) s = (x, s')) : s'.ran = s.ran := by
    have hR : IsPre (fun x y : St => y.ran = x.ran) := ⟨fun _ => rfl, fun _ _ _ h1 h2 => h2.trans h1⟩
    have hreq : ∀ verb tuf suffix, Preserves (fun x y : St => y.ran = x.ran) (request a sv verb tuf suffix []) := by
      intro verb tuf suffix s
      cases he : request a sv verb tuf suffix [] s with
      | mk o s' => rcases request_inv he with ⟨e, _, _, rfl⟩ | ⟨url, _, _, rfl⟩ <;> rfl
    have : Preserves (fun x y : St => y.ran = x.ran) (checkRefValid a sv ref false (fun _ _ => pure ())) := by
      unfold checkRefValid
      refine Preserves.bind hR (Preserves.lift hR) (fun path => Preserves.bind hR (hreq _ _ _) (fun r => ?_))
      split
      · exact Preserves.pure hR
      · split
        · exact Preserves.pure hR
        · rw [if_neg (by simp)]
          dsimp only
          split
          · refine Preserves.bind hR (hreq _ _ _) (fun t => ?_)
            split
            · exact Preserves.pure hR
            · split
              · exact Preserves.pure hR
              · exact Preserves.lift hR
          · exact Preserves.pure hR
    have := this s
    rw [h] at this
    exact this

end Aktualizr.Tools
