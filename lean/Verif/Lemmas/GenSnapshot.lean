import Verif.Lemmas.GenDir

/-! # Lemmas on the generator: Snapshot and Timestamp -/

namespace Aktualizr.Gen

open Spec

theorem dotJson_inj {a b : String} (h : a ++ ".json" = b ++ ".json") : a = b := by
  have := congrArg String.toList h
  rw [String.toList_append, String.toList_append] at this
  exact String.toList_inj.1 (List.append_cancel_right this)

/-- The roles a Snapshot lists besides Root. -/
def Listed (role : Role) : Prop := role = Role.targets ∨ Role.delegation role.name = .ok role

theorem Listed.name {role : Role} (h : Listed role) : role.name ≠ "root" := by
  rcases h with rfl | h
  · decide
  · intro hn
    rw [hn] at h
    cases h

theorem delegation_ok {n : String} {role : Role} (h : Role.delegation n = .ok role) : role = ⟨.delegation, n⟩ ∧ Role.isReserved (lower n) = false := by
  unfold Role.delegation at h
  split at h
  · cases h
  · rename_i hr
    cases h
    exact ⟨rfl, by simpa using hr⟩

theorem asUInt_int {i : Int} (h0 : 0 ≤ i) (h1 : i ≤ 4294967295) : asUInt (.int i) = .ok i := by
  show (if 0 ≤ i ∧ i ≤ 4294967295 then Except.ok i else _) = _
  rw [if_pos ⟨h0, h1⟩]

theorem asUInt_range {j : Json} {i : Int} (h : asUInt j = .ok i) : 0 ≤ i ∧ i ≤ 4294967295 := by
  unfold asUInt Json.asIntIn at h
  split at h
  · cases h; decide
  · cases h; split <;> decide
  · split at h
    · cases h; assumption
    · cases h
  · split at h
    · cases h; assumption
    · cases h
  · cases h

/-- The content of a listed role: none, or as the tool writes it. -/
theorem Base.role {g : GenEnv} (hg : Sound g) {d : Dir} (hb : Base g d) {role : Role} (hr : Listed role) :
    (∃ j v e, d.signed g (pathOf role) = .ok j ∧ TargetsBody j v e) ∨
    (d.signed g (pathOf role) = .ok .null ∧ d.files.lookup (pathOf role) = none ∧ role ≠ Role.targets) := by
  rcases hr with rfl | hr
  · obtain ⟨text, j, v, e, h1, h2, h3⟩ := hb.targets
    exact .inl ⟨j, v, e, Dir.signed_of hg h1 h2, h3⟩
  · obtain ⟨hrole, -⟩ := delegation_ok hr
    have hp : pathOf role = .delegation role.name := by rw [hrole]; rfl
    rw [hp]
    cases hl : d.files.lookup (.delegation role.name) with
    | none => exact .inr ⟨by simp [Dir.signed, Dir.json, hl, Json.get], rfl, by rw [hrole]; intro h; cases h⟩
    | some text =>
      obtain ⟨-, j, v, e, h2, h3⟩ := hb.delegated _ _ hl
      exact .inl ⟨j, v, e, Dir.signed_of hg hl h2, h3⟩

theorem setPath_version {c x : Json} (hc : c = .null ∨ ∃ v, c = .obj [("version", v)]) : setPath c ["version"] x = .ok (.obj [("version", x)]) := by
  rcases hc with rfl | ⟨v, rfl⟩ <;> rfl

theorem snapshot_set (e : String) (m : List (String × Json)) (v : Int) (k : String) (x : Json)
    (hc : m.lookup k = none ∨ ∃ w, m.lookup k = some (.obj [("version", w)])) :
    setPath (snapshotWith e m v) ["meta", k, "version"] x = .ok (snapshotWith e (insertKey k (.obj [("version", x)]) m) v) := by
  have h1 : (snapshotWith e m v).get "meta" = .ok (.obj m) := rfl
  have h2 : ∀ y, setKey (snapshotWith e m v) "meta" (.obj y) = .ok (snapshotWith e y v) := fun _ => rfl
  unfold setPath
  rw [h1, exc_bind_of_ok]
  unfold setPath
  have h3 : Json.get (.obj m) k = .ok ((m.lookup k).getD .null) := rfl
  rw [h3, exc_bind_of_ok, setPath_version, exc_bind_of_ok]
  · show (setKey (.obj m) k _ >>= _) = _
    rw [show ∀ y, setKey (.obj m) k y = .ok (.obj (insertKey k y m)) from fun _ => rfl, exc_bind_of_ok]
    exact h2 _
  · rcases hc with hc | ⟨w, hc⟩
    · rw [hc]; exact .inl rfl
    · rw [hc]; exact .inr ⟨w, rfl⟩

theorem snapshotWith_canonical {e : String} {m : List (String × Json)} {v : Int} (hm : Canonical (.obj m)) (h0 : 0 ≤ v) (h1 : v ≤ 4294967295) :
    Canonical (snapshotWith e m v) := by
  refine .obj (by simp; decide) ?_
  intro kv hkv
  simp at hkv
  rcases hkv with rfl | rfl | rfl | rfl
  · exact .str _
  · exact .str _
  · exact hm
  · exact .int (by omega) (by omega)

theorem versionObj_canonical {v : Int} (h : 0 ≤ v ∧ v ≤ 4294967295) : Canonical (.obj [("version", .int v)]) := by
  refine .obj (by simp) ?_
  intro kv hkv
  rw [List.mem_singleton.1 hkv]
  exact .int (by omega) (by omega)

/-- What `addToSnapshot` does to the entries `m`. -/
structure Adds (g : GenEnv) (d : Dir) (m m' : List (String × Json)) : Prop where
  true' : MetaTrue g d m'
  canonical : Canonical (.obj m')
  keeps : ∀ k, (∃ x, m.lookup k = some x) → ∃ x, m'.lookup k = some x

theorem Adds.trans {g : GenEnv} {d : Dir} {a b c : List (String × Json)} (h1 : Adds g d a b) (h2 : Adds g d b c) : Adds g d a c :=
  ⟨h2.true', h2.canonical, fun k h => h2.keeps k (h1.keeps k h)⟩

theorem addEntry {g : GenEnv} {d : Dir} {m : List (String × Json)} {role : Role} {v : Int} (hr : Listed role) (hm : MetaTrue g d m)
    (hc : Canonical (.obj m)) (hv : 0 ≤ v ∧ v ≤ 4294967295) (hh : HasVersion g d role v ∨ (d.files.lookup (pathOf role) = none ∧ v = 0)) :
    Adds g d m (insertKey (role.name ++ ".json") (.obj [("version", .int v)]) m) where
  true' := by
    intro kv hkv
    rcases insertKey_mem hkv with rfl | hkv
    · exact .inr ⟨role, v, hr, rfl, rfl, hh⟩
    · exact hm kv hkv
  canonical := by
    refine .obj (insertKey_sorted hc.sorted) ?_
    intro kv hkv
    rcases insertKey_mem hkv with rfl | hkv
    · exact versionObj_canonical hv
    · exact hc.members kv hkv
  keeps := by
    intro k ⟨x, hx⟩
    by_cases hk : k = role.name ++ ".json"
    · subst hk
      exact ⟨_, lookup_insertKey_same⟩
    · rw [lookup_insertKey_other hk]
      exact ⟨x, hx⟩

theorem meta_entry {g : GenEnv} {d : Dir} {m : List (String × Json)} (hm : MetaTrue g d m) {role : Role} (hr : Listed role) :
    m.lookup (role.name ++ ".json") = none ∨ ∃ w, m.lookup (role.name ++ ".json") = some (.obj [("version", w)]) := by
  cases hl : m.lookup (role.name ++ ".json") with
  | none => exact .inl rfl
  | some x =>
    right
    rcases hm _ (lookup_mem hl) with ⟨h1, -⟩ | ⟨role', v, -, -, h3, -⟩
    · exact absurd (dotJson_inj (h1.trans (show "root.json" = "root" ++ ".json" from rfl))) hr.name
    · exact ⟨.int v, by rw [show x = _ from h3]⟩

/-- All roles of a list, with those below them, are among the entries. -/
def AllIn (g : GenEnv) (d : Dir) (l : List Json) (m : List (String × Json)) : Prop :=
  ∀ r ∈ l, ∀ nj n role q, r.get "name" = .ok nj → nj.asString = .ok n → Role.delegation n = .ok role → Under g d role q → ∃ x, m.lookup (q.name ++ ".json") = some x

theorem addToSnapshot_ok {g : GenEnv} (hg : Sound g) {d : Dir} (hb : Base g d) {e : String} {ver : Int} : ∀ (n : Nat),
    (∀ {m : List (String × Json)} {role : Role} {sn : Json}, Listed role → MetaTrue g d m → Canonical (.obj m) →
      addToSnapshot g d n (snapshotWith e m ver) role = .ok sn →
      ∃ m', sn = snapshotWith e m' ver ∧ Adds g d m m' ∧ ∀ q, Under g d role q → ∃ x, m'.lookup (q.name ++ ".json") = some x) ∧
    (∀ (l : List Json) {m : List (String × Json)} {sn : Json}, MetaTrue g d m → Canonical (.obj m) →
      addAllToSnapshot (addToSnapshot g d n) (snapshotWith e m ver) l = .ok sn → ∃ m', sn = snapshotWith e m' ver ∧ Adds g d m m' ∧ AllIn g d l m') := by
  have step : ∀ n, (∀ {m : List (String × Json)} {role : Role} {sn : Json}, Listed role → MetaTrue g d m → Canonical (.obj m) →
      addToSnapshot g d n (snapshotWith e m ver) role = .ok sn →
      ∃ m', sn = snapshotWith e m' ver ∧ Adds g d m m' ∧ ∀ q, Under g d role q → ∃ x, m'.lookup (q.name ++ ".json") = some x) →
      (∀ (l : List Json) {m : List (String × Json)} {sn : Json}, MetaTrue g d m → Canonical (.obj m) →
      addAllToSnapshot (addToSnapshot g d n) (snapshotWith e m ver) l = .ok sn → ∃ m', sn = snapshotWith e m' ver ∧ Adds g d m m' ∧ AllIn g d l m') := by
    intro n first l
    induction l with
    | nil =>
      intro m sn hm hc h
      unfold addAllToSnapshot at h
      cases h
      exact ⟨m, rfl, ⟨hm, hc, fun _ h => h⟩, fun r hr => by cases hr⟩
    | cons r rs ih =>
      intro m sn hm hc h
      unfold addAllToSnapshot at h
      obtain ⟨nj, hnj, h⟩ := exc_bind_ok.1 h
      obtain ⟨nm, hnm, h⟩ := exc_bind_ok.1 h
      obtain ⟨role, hrole, h⟩ := exc_bind_ok.1 h
      obtain ⟨sn1, hsn1, h⟩ := exc_bind_ok.1 h
      have hl : Listed role := .inr (by
        have := (delegation_ok hrole).1
        rw [this] at hrole ⊢
        exact hrole)
      obtain ⟨m1, rfl, hadd, hall⟩ := first hl hm hc hsn1
      obtain ⟨m2, h1, h2, h3⟩ := ih hadd.true' hadd.canonical h
      refine ⟨m2, h1, hadd.trans h2, ?_⟩
      intro r' hr' nj' n' role' q a1 a2 a3 a4
      rcases List.mem_cons.1 hr' with rfl | hr'
      · rw [hnj] at a1
        cases a1
        rw [hnm] at a2
        cases a2
        rw [hrole] at a3
        cases a3
        exact h2.keeps _ (hall q a4)
      · exact h3 r' hr' nj' n' role' q a1 a2 a3 a4
  intro n
  induction n with
  | zero =>
    have first : ∀ {m : List (String × Json)} {role : Role} {sn : Json}, Listed role → MetaTrue g d m → Canonical (.obj m) →
      addToSnapshot g d 0 (snapshotWith e m ver) role = .ok sn →
      ∃ m', sn = snapshotWith e m' ver ∧ Adds g d m m' ∧ ∀ q, Under g d role q → ∃ x, m'.lookup (q.name ++ ".json") = some x := by
      intro m role sn hr hm hc h
      unfold addToSnapshot at h
      cases h
    exact ⟨first, step 0 first⟩
  | succ n ih =>
    have first : ∀ {m : List (String × Json)} {role : Role} {sn : Json}, Listed role → MetaTrue g d m → Canonical (.obj m) →
      addToSnapshot g d (n + 1) (snapshotWith e m ver) role = .ok sn →
      ∃ m', sn = snapshotWith e m' ver ∧ Adds g d m m' ∧ ∀ q, Under g d role q → ∃ x, m'.lookup (q.name ++ ".json") = some x := by
      intro m role sn hr hm hc h
      unfold addToSnapshot at h
      obtain ⟨s, hs, h⟩ := exc_bind_ok.1 h
      obtain ⟨vj, hvj, h⟩ := exc_bind_ok.1 h
      obtain ⟨v, hv, h⟩ := exc_bind_ok.1 h
      rw [snapshot_set _ _ _ _ _ (meta_entry hm hr), exc_bind_of_ok] at h
      have hh : HasVersion g d role v ∨ (d.files.lookup (pathOf role) = none ∧ v = 0) := by
        rcases hb.role hg hr with ⟨j, v', e', h1, h2⟩ | ⟨h1, h2, -⟩
        · rw [h1] at hs
          cases hs
          rw [h2.version] at hvj
          cases hvj
          rw [asUInt_int h2.range.1 h2.range.2] at hv
          cases hv
          exact .inl ⟨_, h1, h2.version, h2.range⟩
        · rw [h1] at hs
          cases hs
          cases hvj
          cases hv
          exact .inr ⟨h2, rfl⟩
      have hadd := addEntry hr hm hc (asUInt_range hv) hh
      obtain ⟨dl, hdl, h⟩ := exc_bind_ok.1 h
      split at h
      · obtain ⟨rs, hrs, h⟩ := exc_bind_ok.1 h
        obtain ⟨m', h1, h2, h3⟩ := ih.2 _ hadd.true' hadd.canonical h
        refine ⟨m', h1, hadd.trans h2, ?_⟩
        intro q hq
        cases hq with
        | refl => exact h2.keeps _ ⟨_, lookup_insertKey_same⟩
        | step hl hu =>
          obtain ⟨s0, dl0, rs0, r, nj, n, a1, a2, a3, a4, a5, a6, a7⟩ := hl
          rw [hs] at a1
          cases a1
          rw [hdl] at a2
          cases a2
          rw [hrs] at a3
          cases a3
          exact h3 r a4 nj n _ q a5 a6 a7 hu
      · rename_i hobj
        cases h
        refine ⟨_, rfl, hadd, ?_⟩
        intro q hq
        cases hq with
        | refl => exact ⟨_, lookup_insertKey_same⟩
        | step hl hu =>
          obtain ⟨s0, dl0, rs0, r, nj, n, a1, a2, a3, a4, a5, a6, a7⟩ := hl
          rw [hs] at a1
          cases a1
          rw [hdl] at a2
          cases a2
          cases dl with
          | obj kvs => exact absurd rfl hobj
          | null =>
            cases a3
            simp [Json.elems, Json.entries] at a4
          | _ => cases a3
    exact ⟨first, step _ first⟩

/-- What stays when Snapshot and Timestamp are rewritten. -/
structure Resync (d d' : Dir) : Prop where
  keys : d'.keys = d.keys
  files : ∀ p, p ≠ .snapshot → p ≠ .timestamp → d'.files.lookup p = d.files.lookup p

theorem Resync.signed {g : GenEnv} {d d' : Dir} (h : Resync d d') {p : Path} (h1 : p ≠ .snapshot) (h2 : p ≠ .timestamp) :
    d'.signed g p = d.signed g p := by
  unfold Dir.signed Dir.json
  rw [h.files p h1 h2]

theorem pathOf_ne (role : Role) : pathOf role ≠ .snapshot ∧ pathOf role ≠ .timestamp := by
  unfold pathOf
  split <;> exact ⟨(by intro h; cases h), (by intro h; cases h)⟩

theorem Resync.version {g : GenEnv} {d d' : Dir} (h : Resync d d') {role : Role} {v : Int} (hv : HasVersion g d role v) : HasVersion g d' role v := by
  obtain ⟨j, h1, h2⟩ := hv
  exact ⟨j, (h.signed (pathOf_ne role).1 (pathOf_ne role).2).trans h1, h2⟩

theorem Resync.true' {g : GenEnv} {d d' : Dir} (h : Resync d d') {m : List (String × Json)} (hm : MetaTrue g d m) : MetaTrue g d' m := by
  intro kv hkv
  rcases hm kv hkv with ⟨h1, a, b, v, h2, ⟨j, h3, h4⟩, h5⟩ | ⟨role, v, h1, h2, h3, h4⟩
  · exact .inl ⟨h1, a, b, v, h2, ⟨j, (h.signed (by simp) (by simp)).trans h3, h4⟩, h5⟩
  · refine .inr ⟨role, v, h1, h2, h3, ?_⟩
    rcases h4 with h4 | ⟨h4, h5⟩
    · exact .inl (h.version h4)
    · exact .inr ⟨(h.files _ (pathOf_ne role).1 (pathOf_ne role).2).trans h4, h5⟩

theorem timestampWith_canonical {e : String} {a b : String} {l w v : Int} (hl : 0 ≤ l ∧ l ≤ 4294967295) (hw : 0 ≤ w ∧ w ≤ 4294967295)
    (hv : 0 ≤ v ∧ v ≤ 4294967295) : Canonical (timestampWith e (.str a) (.str b) (.int l) (.int w) v) := by
  refine .obj (by simp; decide) ?_
  intro kv hkv
  simp at hkv
  rcases hkv with rfl | rfl | rfl | rfl
  · exact .str _
  · exact .str _
  · refine .obj (by simp) ?_
    intro kv hkv
    rw [List.mem_singleton.1 hkv]
    refine .obj (by simp; decide) ?_
    intro kv hkv
    simp at hkv
    rcases hkv with rfl | rfl | rfl
    · refine .obj (by simp; decide) ?_
      intro kv hkv
      simp at hkv
      rcases hkv with rfl | rfl <;> exact .str _
    · exact .int (by omega) (by omega)
    · exact .int (by omega) (by omega)
  · exact .int (by omega) (by omega)

theorem newTimestamp_ok {g : GenEnv} {d : Dir} {text : String} {w : Int} {e : String} {a b l x : Json} {v : Int} {ts : Json}
    (hd : d.signed g .timestamp = .ok (timestampWith e a b l x v)) (hv : 0 ≤ v ∧ v ≤ 4294967295) (hw : 0 ≤ w ∧ w ≤ 4294967295)
    (h : newTimestamp g d text (.int w) = .ok ts) :
    v + 1 ≤ 4294967295 ∧ ts = timestampWith e (.str (lower (g.env.sha256 text))) (.str (lower (g.env.sha512 text)))
      (.int ((text.utf8ByteSize : Int) % 4294967296)) (.int w) (v + 1) := by
  unfold newTimestamp at h
  rw [hd, exc_bind_of_ok] at h
  unfold bump at h
  have h1 : (timestampWith e a b l x v).get "version" = .ok (.int v) := rfl
  rw [h1, exc_bind_of_ok, asUInt_int hv.1 hv.2, exc_bind_of_ok] at h
  obtain ⟨y, hy, h⟩ := exc_bind_ok.1 h
  obtain ⟨_, ht, hy⟩ := exc_bind_ok.1 hy
  rw [throwIf_ok] at ht
  have hne : v ≠ 4294967295 := by simpa using ht
  have h2 : setKey (timestampWith e a b l x v) "version" (.int (v + 1)) = .ok (timestampWith e a b l x (v + 1)) := rfl
  rw [h2] at hy
  cases hy
  rw [show ∀ z, setPath (timestampWith e a b l x (v + 1)) ["meta", "snapshot.json", "hashes", "sha256"] z = .ok (timestampWith e z b l x (v + 1)) from fun _ => rfl,
    exc_bind_of_ok,
    show ∀ z z', setPath (timestampWith e z b l x (v + 1)) ["meta", "snapshot.json", "hashes", "sha512"] z' = .ok (timestampWith e z z' l x (v + 1)) from fun _ _ => rfl,
    exc_bind_of_ok,
    show ∀ z z' z'', setPath (timestampWith e z z' l x (v + 1)) ["meta", "snapshot.json", "length"] z'' = .ok (timestampWith e z z' z'' x (v + 1)) from fun _ _ _ => rfl,
    exc_bind_of_ok, asUInt_int hw.1 hw.2, exc_bind_of_ok] at h
  have h3 : ∀ z z' z'' u, setPath (timestampWith e z z' z'' x (v + 1)) ["meta", "snapshot.json", "version"] u = .ok (timestampWith e z z' z'' u (v + 1)) := fun _ _ _ _ => rfl
  rw [h3] at h
  cases h
  exact ⟨by omega, rfl⟩

/-- The document at `p` has version `v`. -/
def VersionAt (g : GenEnv) (d : Dir) (p : Path) (v : Int) : Prop :=
  ∃ j, d.signed g p = .ok j ∧ j.get "version" = .ok (.int v) ∧ 0 ≤ v ∧ v ≤ 4294967295

/-- From `d` to `d'` the file `p` stays or is replaced by one of a higher version. -/
def Later (g : GenEnv) (p : Path) (d d' : Dir) : Prop :=
  d'.files.lookup p = d.files.lookup p ∨ ∃ v v', VersionAt g d p v ∧ VersionAt g d' p v' ∧ v < v'

theorem signed_congr {g : GenEnv} {d d' : Dir} {p : Path} (h : d'.files.lookup p = d.files.lookup p) : d'.signed g p = d.signed g p := by
  unfold Dir.signed Dir.json
  rw [h]

theorem VersionAt.congr {g : GenEnv} {d d' : Dir} {p : Path} {v : Int} (h : d'.files.lookup p = d.files.lookup p) (hv : VersionAt g d p v) : VersionAt g d' p v := by
  obtain ⟨j, h1, h2⟩ := hv
  exact ⟨j, (signed_congr h).trans h1, h2⟩

theorem VersionAt.unique {g : GenEnv} {d : Dir} {p : Path} {v w : Int} (h1 : VersionAt g d p v) (h2 : VersionAt g d p w) : v = w := by
  obtain ⟨j, a, b, -⟩ := h1
  obtain ⟨k, c, e, -⟩ := h2
  rw [a] at c
  cases c
  rw [b] at e
  cases e
  rfl

theorem Later.refl {g : GenEnv} {p : Path} {d : Dir} : Later g p d d := .inl rfl

theorem Later.trans {g : GenEnv} {p : Path} {a b c : Dir} (h1 : Later g p a b) (h2 : Later g p b c) : Later g p a c := by
  rcases h1 with h1 | ⟨v, v', h3, h4, h5⟩
  · rcases h2 with h2 | ⟨w, w', h6, h7, h8⟩
    · exact .inl (h2.trans h1)
    · exact .inr ⟨w, w', h6.congr h1.symm, h7, h8⟩
  · rcases h2 with h2 | ⟨w, w', h6, h7, h8⟩
    · exact .inr ⟨v, v', h3, h4.congr h2, h5⟩
    · have := h4.unique h6
      exact .inr ⟨v, w', h3, h7, by omega⟩

theorem Resync.base_roots {g : GenEnv} {d d' : Dir} (h : Resync d d') {tab : List (String × Json)} {top : Int} (hr : RootFiles g d tab top) :
    RootFiles g d' tab top where
  table := by rw [h.keys]; exact hr.table
  one := hr.one
  range := hr.range
  all := by
    intro v h1 h2
    rw [h.files _ (by simp) (by simp), h.keys]
    exact hr.all v h1 h2
  none := by
    intro v hv
    rw [h.files _ (by simp) (by simp)]
    exact hr.none v hv
  last := by
    rw [h.files _ (by simp) (by simp), h.files _ (by simp) (by simp)]
    exact hr.last

theorem newSnapshot_ok {g : GenEnv} (hg : Sound g) {d : Dir} (hb : Base g d) {sn : Json} (h : newSnapshot g d = .ok sn) :
    ∃ m v e, sn = snapshotWith e m v ∧ IsTime e ∧ 0 ≤ v ∧ v ≤ 4294967295 ∧ MetaTrue g d m ∧ Canonical (.obj m) ∧
      VersionAt g d .snapshot (v - 1) ∧ ∀ role, Under g d Role.targets role → ∃ x, m.lookup (role.name ++ ".json") = some x := by
  unfold newSnapshot at h
  obtain ⟨text, m0, v, e, h1, h2, h3, h4, h5⟩ := hb.snapshot
  rw [Dir.signed_of hg h1 h2, exc_bind_of_ok] at h
  rw [show (snapshotWith e m0 v).get "version" = .ok (.int v) from rfl, exc_bind_of_ok, asUInt_int h4 h5, exc_bind_of_ok] at h
  obtain ⟨_, ht, h⟩ := exc_bind_ok.1 h
  rw [throwIf_ok] at ht
  have hne : v ≠ 4294967295 := by simpa using ht
  rw [show (snapshotWith e m0 v).get "expires" = .ok (.str e) from rfl, exc_bind_of_ok] at h
  obtain ⟨rt, hrt, h⟩ := exc_bind_ok.1 h
  obtain ⟨rvj, hrvj, h⟩ := exc_bind_ok.1 h
  obtain ⟨rv, hrv, h⟩ := exc_bind_ok.1 h
  rw [show setPath (.obj [("_type", .str "Snapshot"), ("expires", .str e), ("version", .int (v + 1))]) ["meta", "root.json", "version"] (.int rv) =
    .ok (snapshotWith e [("root.json", .obj [("version", .int rv)])] (v + 1)) from rfl, exc_bind_of_ok] at h
  have hr := asUInt_range hrv
  have hroot : RootVersion g d rv := by
    obtain ⟨tab, top, hroots⟩ := hb.roots
    obtain ⟨e', text', a1, a2, a3⟩ := hroots.all top hroots.one (Int.le_refl _)
    have hsig := Dir.signed_of hg (hroots.last.trans a1) a2
    refine ⟨_, hsig, ?_, hr⟩
    rw [hrt] at hsig
    cases hsig
    cases hrvj
    have hrv' : asUInt (.int top) = .ok rv := hrv
    have h1 := hroots.one
    rw [asUInt_int (by omega) hroots.range] at hrv'
    cases hrv'
    rfl
  obtain ⟨m', h6, h7, h8⟩ := (addToSnapshot_ok hg hb _).1 (.inl rfl) (m := [("root.json", .obj [("version", .int rv)])])
    (by
      intro kv hkv
      rw [List.mem_singleton.1 hkv]
      exact .inl ⟨rfl, [], [], rv, rfl, hroot, .inl rfl, .inl rfl⟩)
    (.obj (by simp) (by
      intro kv hkv
      rw [List.mem_singleton.1 hkv]
      exact versionObj_canonical hr)) h
  exact ⟨m', v + 1, e, h6, h3, by omega, by omega, h7.true', h7.canonical,
    ⟨_, Dir.signed_of hg h1 h2, by rw [show v + 1 - 1 = v by omega]; rfl, by omega, by omega⟩, h8⟩

/-- `updateRepo` brings Snapshot and Timestamp up to date and changes nothing else. -/
theorem updateRepo_ok {g : GenEnv} (hg : Sound g) {d d' : Dir} (hb : Base g d) (h : updateRepo g d = .ok d') :
    Base g d' ∧ Synced g d' ∧ Resync d d' ∧ Later g .snapshot d d' ∧ Later g .timestamp d d' := by
  unfold updateRepo at h
  obtain ⟨sn, hsn, h⟩ := exc_bind_ok.1 h
  obtain ⟨m, v, e, rfl, h1, h2, h3, h4, h5, hold, h6⟩ := newSnapshot_ok hg hb hsn
  obtain ⟨⟨d1, text⟩, hw, h⟩ := exc_bind_ok.1 h
  obtain ⟨w1, w2, w3, w4⟩ := writeSigned_ok hw (snapshotWith_canonical h5 h2 h3)
  dsimp only at h
  rw [show (snapshotWith e m v).get "version" = .ok (.int v) from rfl, exc_bind_of_ok] at h
  obtain ⟨ts, hts, h⟩ := exc_bind_ok.1 h
  obtain ⟨textT, a, b, l, x, vt, et, t1, t2, t3, t4, t5⟩ := hb.timestamp
  have hsig : d1.signed g .timestamp = .ok (timestampWith et a b l x vt) := Dir.signed_of hg ((w4 _ (by simp)).trans t1) t2
  obtain ⟨u1, rfl⟩ := newTimestamp_ok hsig ⟨t4, t5⟩ ⟨h2, h3⟩ hts
  obtain ⟨⟨d2, text2⟩, hw2, h⟩ := exc_bind_ok.1 h
  cases h
  have hlen : (0 : Int) ≤ (text.utf8ByteSize : Int) % 4294967296 ∧ (text.utf8ByteSize : Int) % 4294967296 ≤ 4294967295 := by omega
  obtain ⟨x1, x2, x3, x4⟩ := writeSigned_ok hw2 (timestampWith_canonical hlen ⟨h2, h3⟩ ⟨by omega, u1⟩)
  have hrs : Resync d d2 := ⟨x2.trans w2, fun p hp1 hp2 => (x4 p hp2).trans (w4 p hp1)⟩
  have hsnap : d2.files.lookup .snapshot = some text := (x4 _ (by simp)).trans w3
  have hk1 : Wrote g d2.keys "snapshot" (snapshotWith e m v) text := by rw [hrs.keys]; exact w1
  have hk2 := x1
  rw [w2, ← hrs.keys] at hk2
  refine ⟨?_, ⟨text, m, v, e, text2, vt + 1, et, hsnap, hk1, hrs.true' h4, (fun role hr => h6 role (hr.congr (fun q => hrs.files _ (pathOf_ne q).1 (pathOf_ne q).2))), x3, hk2⟩, hrs,
    .inr ⟨_, v, hold, ⟨_, Dir.signed_of hg hsnap hk1, rfl, h2, h3⟩, by omega⟩,
    .inr ⟨vt, vt + 1, ⟨_, Dir.signed_of hg t1 t2, rfl, t4, t5⟩, ⟨_, Dir.signed_of hg x3 hk2, rfl, by omega, u1⟩, by omega⟩⟩
  constructor
  · rw [hrs.keys]; exact hb.good
  · rw [hrs.keys]; exact hb.four
  · obtain ⟨tab, top, hr⟩ := hb.roots
    exact ⟨tab, top, hrs.base_roots hr⟩
  · rw [hrs.keys, hrs.files _ (by simp) (by simp)]; exact hb.targets
  · intro n
    rw [hrs.keys, hrs.files _ (by simp) (by simp)]
    exact hb.delegated n
  · rw [hrs.files _ (by simp) (by simp)]; exact hb.staging
  · exact ⟨text, m, v, e, hsnap, hk1, h1, h2, h3⟩
  · exact ⟨text2, _, _, _, _, vt + 1, et, x3, hk2, t3, by omega, u1⟩

end Aktualizr.Gen
