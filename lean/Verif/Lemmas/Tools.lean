import Verif.Spec.Tools
import Verif.Lemmas.Monad
import Verif.Lemmas.Treehub

/-!
# Lemmas about the publishing tools
-/

namespace Aktualizr.Tools

open M _root_.Aktualizr.Tools.Spec

/-! ### Addresses -/

theorem isBlank_false {c : Char} (h : c ≠ ' ' ∧ c ≠ '\t' ∧ c ≠ '\r' ∧ c ≠ '\n') : isBlank c = false := by
  simp [isBlank, h.1, h.2.1, h.2.2.1, h.2.2.2]

theorem dropWhile_none {p : Char → Bool} : ∀ {l : Txt}, (∀ c ∈ l, p c = false) → l.dropWhile p = l
  | [], _ => rfl
  | c :: l, h => by rw [List.dropWhile_cons, h c (by simp)]; rfl

theorem trim_none {l : Txt} (h : ∀ c ∈ l, isBlank c = false) : trim l = l := by
  unfold trim
  rw [dropWhile_none h, dropWhile_none (fun c hc => h c (List.mem_reverse.1 hc)), List.reverse_reverse]

theorem withSlash_spec {u : Txt} (h : u ≠ []) : ∃ stem, (u = stem ∧ stem.getLast? ≠ some '/' ∨ u = stem ++ ['/']) ∧ withSlash u = stem ++ ['/'] := by
  unfold withSlash
  by_cases hl : u.getLast? = some '/'
  · rw [if_pos (.inr hl)]
    obtain ⟨l, rfl⟩ := List.getLast?_eq_some_iff.1 hl
    exact ⟨l, .inr rfl, rfl⟩
  · rw [if_neg (by simp [h, hl])]
    exact ⟨u, .inl ⟨rfl, hl⟩, rfl⟩

/-- Addresses of components given with or without a leading slash. -/
theorem address_spec {u suffix : Txt} (h : u ≠ []) (hb : NoBlanks u) : ∃ url, address (withSlash u) suffix = .ok url ∧
    AddressOf u (if suffix.head? = some '/' then suffix.tail else suffix) url := by
  obtain ⟨stem, h1, h2⟩ := withSlash_spec h
  have hs : ∀ c ∈ stem, isBlank c = false := by
    intro c hc
    refine isBlank_false (hb c ?_)
    rcases h1 with ⟨rfl, -⟩ | rfl
    · exact hc
    · simp [hc]
  have hs' : ∀ c ∈ stem ++ ['/'], isBlank c = false := by
    intro c hc
    rcases List.mem_append.1 hc with hc | hc
    · exact hs c hc
    · rw [List.mem_singleton] at hc; subst hc; rfl
  have hl : (stem ++ ['/']).getLast? = some '/' := by simp
  unfold address
  rw [h2, if_neg (by simp)]
  simp only [hl, not_true_eq_false, false_and, if_false, true_and]
  by_cases hh : suffix.head? = some '/'
  · rw [if_pos hh, if_pos hh, List.dropLast_concat, trim_none hs]
    obtain ⟨l, rfl⟩ := List.head?_eq_some_iff.1 hh
    exact ⟨_, rfl, stem, h1, rfl⟩
  · rw [if_neg hh, if_neg hh, trim_none hs']
    exact ⟨_, rfl, stem, h1, by simp⟩

/-! ### Authentication -/

theorem endsWith_iff {s e : Txt} : endsWith s e = true ↔ ∃ stem, s = stem ++ e := by
  unfold endsWith
  rw [Bool.and_eq_true, decide_eq_true_iff, beq_iff_eq]
  constructor
  · rintro ⟨_, h⟩
    exact ⟨s.take (s.length - e.length), by conv => lhs; rw [← List.take_append_drop (s.length - e.length) s, h]⟩
  · rintro ⟨stem, rfl⟩
    simp

theorem tokenRequest_is {c : Creds} (h : c.method = .oauth2) : IsTokenRequest c (tokenRequest c) := by
  refine ⟨h, rfl, rfl, ?_⟩
  unfold tokenRequest
  by_cases he : endsWith c.authServer "/token".toList = true
  · left
    simp only [he, if_true]
    exact ⟨trivial, endsWith_iff.1 he, trivial⟩
  · right
    simp only [he]
    exact ⟨rfl, fun hn => he (endsWith_iff.2 hn), rfl⟩

theorem perform_eq {a : Around} {r : Req} {s : St} : perform a r s = (.ok (a.web s.sent r), { s with sent := s.sent ++ [r] }) := rfl

/-- What authentication sends and gives. -/
theorem authenticate_inv {a : Around} {c : Creds} {s s' : St} {o : Except Err (Option Server)} (h : authenticate a c s = (o, s')) :
    ∃ pre, s'.sent = s.sent ++ pre ∧ s'.ran = s.ran ∧ (pre = [] ∨ ∃ r, pre = [r] ∧ IsTokenRequest c r) ∧ ∃ v, o = .ok v ∧
      ∀ sv, v = some sv → sv.root = withSlash c.ostreeServer ∧ sv.repo = withSlash c.repoUrl ∧ Shows c sv.auth ∧
        ∀ tok, sv.auth = .bearer tok → ∃ r t, pre = [r] ∧ (a.web s.sent r).code = 200 ∧ a.readJson (a.web s.sent r).body = some t ∧ tok = t.text "access_token" := by
  unfold authenticate at h
  cases hm : c.method with
  | none =>
    rw [hm] at h
    cases h
    exact ⟨[], by simp, rfl, .inl rfl, _, rfl, fun sv hv => by cases hv; exact ⟨rfl, rfl, .inl hm, fun _ h => by cases h⟩⟩
  | basic =>
    rw [hm] at h
    cases h
    exact ⟨[], by simp, rfl, .inl rfl, _, rfl, fun sv hv => by cases hv; exact ⟨rfl, rfl, ⟨hm, rfl, rfl⟩, fun _ h => by cases h⟩⟩
  | tls =>
    rw [hm] at h
    cases h
    exact ⟨[], by simp, rfl, .inl rfl, _, rfl, fun sv hv => by cases hv; exact ⟨rfl, rfl, ⟨hm, rfl⟩, fun _ h => by cases h⟩⟩
  | oauth2 =>
    rw [hm] at h
    by_cases hc : c.clientId = []
    · simp only [hc, ne_eq, not_true_eq_false, if_false] at h
      cases h
      exact ⟨[], by simp, rfl, .inl rfl, _, rfl, fun sv hv => by cases hv; exact ⟨rfl, rfl, .inr ⟨hm, hc⟩, fun _ h => by cases h⟩⟩
    · simp only [ne_eq, hc, not_false_eq_true, if_true] at h
      refine ⟨[tokenRequest c], ?_⟩
      have hg : ∃ v, getToken a c s = (.ok v, { s with sent := s.sent ++ [tokenRequest c] }) ∧
          ∀ tok, v = some tok → ∃ t, (a.web s.sent (tokenRequest c)).code = 200 ∧ a.readJson (a.web s.sent (tokenRequest c)).body = some t ∧ tok = t.text "access_token" := by
        unfold getToken
        rw [run_bind perform_eq]
        by_cases h200 : (a.web s.sent (tokenRequest c)).code = 200
        · simp only [h200, if_true]
          cases hj : a.readJson (a.web s.sent (tokenRequest c)).body with
          | none => exact ⟨none, rfl, fun _ h => by cases h⟩
          | some t => exact ⟨some (t.text "access_token"), rfl, fun tok h => by cases h; exact ⟨t, trivial, rfl, rfl⟩⟩
        · simp only [h200, if_false]
          exact ⟨none, rfl, fun _ h => by cases h⟩
      obtain ⟨v, h1, h2⟩ := hg
      rw [run_bind h1] at h
      cases v with
      | none =>
        cases h
        exact ⟨rfl, rfl, .inr ⟨_, rfl, tokenRequest_is hm⟩, _, rfl, fun sv hv => by cases hv⟩
      | some tok =>
        cases h
        refine ⟨rfl, rfl, .inr ⟨_, rfl, tokenRequest_is hm⟩, _, rfl, fun sv hv => ?_⟩
        cases hv
        refine ⟨rfl, rfl, ⟨hm, hc⟩, fun tok' ht => ?_⟩
        cases ht
        obtain ⟨t, i1, i2, i3⟩ := h2 tok rfl
        exact ⟨_, t, rfl, i1, i2, i3⟩

/-! ### Requests -/

theorem request_ok {a : Around} {sv : Server} {verb : Verb} {tuf : Bool} {suffix body url : Txt} {s : St}
    (h : address (if tuf then sv.repo else sv.root) suffix = .ok url) :
    request a sv verb tuf suffix body s = (.ok (a.web s.sent ⟨verb, url, sv.auth, body⟩), { s with sent := s.sent ++ [⟨verb, url, sv.auth, body⟩] }) := by
  unfold request
  rw [run_bind (a := url) (w1 := s) (by rw [lift_eq, h])]
  rfl

theorem request_inv {a : Around} {sv : Server} {verb : Verb} {tuf : Bool} {suffix body : Txt} {s s' : St} {o : Except Err Res}
    (h : request a sv verb tuf suffix body s = (o, s')) :
    (∃ e, address (if tuf then sv.repo else sv.root) suffix = .error e ∧ o = .error e ∧ s' = s) ∨
    ∃ url, address (if tuf then sv.repo else sv.root) suffix = .ok url ∧ o = .ok (a.web s.sent ⟨verb, url, sv.auth, body⟩) ∧
      s' = { s with sent := s.sent ++ [⟨verb, url, sv.auth, body⟩] } := by
  cases ha : address (if tuf then sv.repo else sv.root) suffix with
  | error e =>
    unfold request at h
    rw [run_bind_err (e := e) (w1 := s) (by rw [lift_eq, ha])] at h
    cases h
    exact .inl ⟨e, rfl, rfl, rfl⟩
  | ok url =>
    rw [request_ok ha] at h
    cases h
    exact .inr ⟨url, rfl, rfl, rfl⟩

/-! ### Everything that is sent -/

/-- Only requests with property `P` were sent. -/
def OnlySent (P : Req → Prop) (s s' : St) : Prop := ∃ more, s'.sent = s.sent ++ more ∧ ∀ r ∈ more, P r

theorem onlySent_pre (P : Req → Prop) : IsPre (OnlySent P) where
  refl s := ⟨[], by simp, by simp⟩
  trans := by
    rintro a b c ⟨m, h1, h2⟩ ⟨n, h3, h4⟩
    refine ⟨m ++ n, by rw [h3, h1, List.append_assoc], fun r hr => ?_⟩
    rcases List.mem_append.1 hr with hr | hr
    · exact h2 r hr
    · exact h4 r hr

theorem authenticate_sent {a : Around} {c : Creds} {P : Req → Prop} (h : ∀ r, IsTokenRequest c r → P r) : Preserves (OnlySent P) (authenticate a c) := by
  intro s
  cases he : authenticate a c s with
  | mk o s' =>
    obtain ⟨pre, h1, -, h2, -⟩ := authenticate_inv he
    refine ⟨pre, h1, fun r hr => ?_⟩
    rcases h2 with rfl | ⟨r', rfl, h3⟩
    · cases hr
    · rw [List.mem_singleton] at hr; subst hr; exact h _ h3

theorem request_sent {a : Around} {sv : Server} {verb : Verb} {tuf : Bool} {suffix body : Txt} {P : Req → Prop}
    (h : ∀ url, address (if tuf then sv.repo else sv.root) suffix = .ok url → P ⟨verb, url, sv.auth, body⟩) :
    Preserves (OnlySent P) (request a sv verb tuf suffix body) := by
  intro s
  cases he : request a sv verb tuf suffix body s with
  | mk o s' =>
    rcases request_inv he with ⟨e, _, _, rfl⟩ | ⟨url, h1, _, rfl⟩
    · exact (onlySent_pre P).refl _
    · exact ⟨[_], rfl, fun r hr => by rw [List.mem_singleton] at hr; subst hr; exact h url h1⟩

theorem sendObject_sent {src : Source} {sv : Server} {P : Req → Prop} {verb : Verb} {o : Treehub.Obj}
    (h : ∀ url, address sv.root (src.path o) = .ok url → P ⟨verb, url, sv.auth, []⟩) : Preserves (OnlySent P) (sendObject src sv verb o) := by
  intro s
  unfold sendObject
  cases ha : address sv.root (src.path o) with
  | error e =>
    rw [run_bind_err (e := e) (w1 := s) (by rw [lift_eq])]
    exact (onlySent_pre P).refl _
  | ok url =>
    rw [run_bind (a := url) (w1 := s) (by rw [lift_eq])]
    exact ⟨[_], rfl, fun x hx => by rw [List.mem_singleton] at hx; subst hx; exact h url ha⟩

theorem sends_sent {src : Source} {sv : Server} {P : Req → Prop} :
    ∀ (log : List Treehub.Event), (∀ o url, .head o ∈ log → address sv.root (src.path o) = .ok url → P ⟨.head, url, sv.auth, []⟩) →
      (∀ o url, .put o ∈ log → address sv.root (src.path o) = .ok url → P ⟨.put, url, sv.auth, []⟩) → Preserves (OnlySent P) (sends src sv log)
  | [], _, _ => Preserves.pure (onlySent_pre P)
  | e :: es, hh, hp => by
    have ih := sends_sent es (fun o url ho => hh o url (List.mem_cons_of_mem _ ho)) (fun o url ho => hp o url (List.mem_cons_of_mem _ ho))
    cases e with
    | head o => exact Preserves.bind (onlySent_pre P) (sendObject_sent (fun url => hh o url List.mem_cons_self)) (fun _ => ih)
    | put o => exact Preserves.bind (onlySent_pre P) (sendObject_sent (fun url => hp o url List.mem_cons_self)) (fun _ => ih)
    | seen o => exact ih

/-- What the walk over the objects sends. -/
theorem sends_requests {c : Creds} {src : Source} {sv : Server} (hs : ObjectPaths src) (hu : c.ostreeServer ≠ []) (hb : NoBlanks c.ostreeServer)
    (hr : sv.root = withSlash c.ostreeServer) : ∀ (log : List Treehub.Event) (s : St),
      ∃ reqs, ObjectRequests c src sv.auth log reqs ∧ sends src sv log s = (.ok (), { s with sent := s.sent ++ reqs })
  | [], s => ⟨[], .nil, by simp [sends]⟩
  | e :: es, s => by
    have one : ∀ (verb : Verb) o, ∃ url, AddressOf c.ostreeServer (src.path o) url ∧
        sendObject src sv verb o s = (.ok (), { s with sent := s.sent ++ [⟨verb, url, sv.auth, []⟩] }) := by
      intro verb o
      obtain ⟨url, h1, h2⟩ := address_spec (suffix := src.path o) hu hb
      obtain ⟨p, hp⟩ := hs o
      rw [if_neg (by rw [hp]; simp)] at h2
      refine ⟨url, h2, ?_⟩
      unfold sendObject
      rw [run_bind (a := url) (w1 := s) (by rw [lift_eq, hr, h1])]
      rfl
    cases e with
    | head o =>
      obtain ⟨url, h1, h2⟩ := one .head o
      obtain ⟨reqs, h3, h4⟩ := sends_requests hs hu hb hr es { s with sent := s.sent ++ [⟨.head, url, sv.auth, []⟩] }
      refine ⟨_, .head h1 h3, ?_⟩
      unfold sends
      rw [run_bind h2, h4]
      simp
    | put o =>
      obtain ⟨url, h1, h2⟩ := one .put o
      obtain ⟨reqs, h3, h4⟩ := sends_requests hs hu hb hr es { s with sent := s.sent ++ [⟨.put, url, sv.auth, []⟩] }
      refine ⟨_, .put h1 h3, ?_⟩
      unfold sends
      rw [run_bind h2, h4]
      simp
    | seen o =>
      obtain ⟨reqs, h3, h4⟩ := sends_requests hs hu hb hr es s
      exact ⟨reqs, .seen h3, h4⟩

theorem upload_sent {src : Source} {sv : Server} {hash : List Nat} {mode : Treehub.Mode} {steps : List Treehub.Step} {P : Req → Prop}
    (hh : ∀ o url, address sv.root (src.path o) = .ok url → P ⟨.head, url, sv.auth, []⟩)
    (hp : (mode = .default ∨ mode = .pushTree) → ∀ o url, address sv.root (src.path o) = .ok url → P ⟨.put, url, sv.auth, []⟩)
    (hd : ∀ root q, (mode = .dryRun ∨ mode = .walkTree) → Treehub.run src.repo mode (Treehub.start root) steps = .ok q → ∀ o, .put o ∉ q.log) :
    Preserves (OnlySent P) (uploadToTreehub src sv hash mode steps) := by
  unfold uploadToTreehub
  cases src.commit hash with
  | none => exact Preserves.pure (onlySent_pre P)
  | some root =>
    intro s
    cases hr : Treehub.run src.repo mode (Treehub.start root) steps with
    | error e =>
      dsimp only
      rw [run_bind_err (e := e) (w1 := s) (by rw [lift_eq, hr])]
      exact (onlySent_pre P).refl _
    | ok q =>
      dsimp only
      rw [run_bind (a := q) (w1 := s) (by rw [lift_eq, hr])]
      refine Preserves.bind (onlySent_pre P) (sends_sent q.log (fun o url _ => hh o url) (fun o url ho ha => ?_)) (fun _ => ?_) s
      · cases mode with
        | default => exact hp (.inl rfl) o url ha
        | pushTree => exact hp (.inr rfl) o url ha
        | dryRun => exact absurd ho (hd root q (.inl rfl) hr o)
        | walkTree => exact absurd ho (hd root q (.inr rfl) hr o)
      · split
        · exact Preserves.throw (onlySent_pre P)
        · exact Preserves.pure (onlySent_pre P)

/-- A server as authentication prepares it. -/
structure Prepared (a : Around) (c : Creds) (sv : Server) : Prop where
  root : sv.root = withSlash c.ostreeServer
  repo : sv.repo = withSlash c.repoUrl
  shows : Shows c sv.auth
  token : ∀ tok, sv.auth = .bearer tok → ∃ before r0 t, IsTokenRequest c r0 ∧ (a.web before r0).code = 200 ∧
    a.readJson (a.web before r0).body = some t ∧ tok = t.text "access_token"

theorem authenticate_prepared {a : Around} {c : Creds} {s s' : St} {sv : Server} (h : authenticate a c s = (.ok (some sv), s')) :
    Prepared a c sv ∧ s'.ran = s.ran ∧ ∃ pre, s'.sent = s.sent ++ pre ∧ (pre = [] ∨ ∃ r, pre = [r] ∧ IsTokenRequest c r) := by
  obtain ⟨pre, h1, h2, h3, v, h4, h5⟩ := authenticate_inv h
  cases h4
  obtain ⟨i1, i2, i3, i4⟩ := h5 sv rfl
  refine ⟨⟨i1, i2, i3, fun tok ht => ?_⟩, h2, pre, h1, h3⟩
  obtain ⟨r, t, rfl, j2, j3, j4⟩ := i4 tok ht
  rcases h3 with h3 | ⟨r', h3, h6⟩
  · cases h3
  · cases h3
    exact ⟨_, _, t, h6, j2, j3, j4⟩

theorem after_auth {a : Around} {c : Creds} {P : Req → Prop} {β : Type} {f : Option Server → M St β} (ht : ∀ r, IsTokenRequest c r → P r)
    (hn : Preserves (OnlySent P) (f none)) (hs : ∀ sv, Prepared a c sv → Preserves (OnlySent P) (f (some sv))) :
    Preserves (OnlySent P) (authenticate a c >>= f) := by
  intro s
  have h1 := authenticate_sent (a := a) ht s
  cases he : authenticate a c s with
  | mk o s' =>
    rw [he] at h1
    cases o with
    | error e => rw [run_bind_err he]; exact h1
    | ok v =>
      rw [run_bind he]
      cases v with
      | none => exact (onlySent_pre P).trans _ _ _ h1 (hn s')
      | some sv => exact (onlySent_pre P).trans _ _ _ h1 (hs sv (authenticate_prepared he).1 s')

theorem Prepared.toServer {a : Around} {c : Creds} {sv : Server} (h : Prepared a c sv) (hb : NoBlanks c.ostreeServer) (hb' : NoBlanks c.repoUrl)
    {verb : Verb} {tuf : Bool} {suffix url body : Txt} (ha : address (if tuf then sv.repo else sv.root) suffix = .ok url) :
    ToServer a c ⟨verb, url, sv.auth, body⟩ := by
  refine ⟨h.shows, h.token, ?_⟩
  have key : ∀ u, NoBlanks u → address (withSlash u) suffix = .ok url → ∃ path, AddressOf u path url := by
    intro u hu ha
    by_cases h0 : u = []
    · subst h0; cases ha
    · obtain ⟨url', h1, h2⟩ := address_spec (suffix := suffix) h0 hu
      rw [h1] at ha
      cases ha
      exact ⟨_, h2⟩
  cases tuf with
  | true =>
    rw [if_pos rfl, h.repo] at ha
    obtain ⟨path, hp⟩ := key _ hb' ha
    exact ⟨path, .inr hp⟩
  | false =>
    rw [if_neg (by simp), h.root] at ha
    obtain ⟨path, hp⟩ := key _ hb ha
    exact ⟨path, .inl hp⟩

theorem lift_sent {P : Req → Prop} {α β : Type} {x : Except Err α} {f : α → M St β} (h : ∀ v, x = .ok v → Preserves (OnlySent P) (f v)) :
    Preserves (OnlySent P) (lift x >>= f) := by
  intro s
  cases hx : x with
  | error e => rw [run_bind_err (e := e) (w1 := s) (by rw [lift_eq])]; exact (onlySent_pre P).refl _
  | ok v => rw [run_bind (a := v) (w1 := s) (by rw [lift_eq])]; exact h v hx s

theorem check_sent {a : Around} {sv : Server} {ref : Txt} {w : Bool} {walk : Server → Bool → M St Unit} {P : Req → Prop}
    (hr : ∀ verb (tuf : Bool) suffix url, (verb = .head ∨ verb = .get) → address (if tuf then sv.repo else sv.root) suffix = .ok url → P ⟨verb, url, sv.auth, []⟩)
    (hw : ∀ b, Preserves (OnlySent P) (walk sv b)) : Preserves (OnlySent P) (checkRefValid a sv ref w walk) := by
  have hp := onlySent_pre P
  unfold checkRefValid
  refine lift_sent (fun path _ => Preserves.bind hp (request_sent (fun url h => hr _ _ _ url (.inl rfl) h)) (fun r => ?_))
  split
  · exact Preserves.pure hp
  · split
    · exact Preserves.pure hp
    · have rest : Preserves (OnlySent P) (if r.code = 200 then do
          let t ← request a sv .get true "/api/v1/user_repo/targets.json".toList
          if !t.ok then return false
          else if t.code ≠ 200 then return false
          else lift (checkTargets a ref t.body)
        else return true) := by
        split
        · refine Preserves.bind hp (request_sent (fun url h => hr _ _ _ url (.inr rfl) h)) (fun t => ?_)
          split
          · exact Preserves.pure hp
          · split
            · exact Preserves.pure hp
            · exact Preserves.lift hp
        · exact Preserves.pure hp
      cases w with
      | true => exact Preserves.bind hp (hw _) (fun _ => rest)
      | false => exact rest

end Aktualizr.Tools
