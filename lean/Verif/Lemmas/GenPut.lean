import Verif.Lemmas.GenTargets

/-! # Lemmas on the generator: writing one role -/

namespace Aktualizr.Gen

open Spec

theorem reserved_top {n : String} (h : n ∈ topRoles) : Role.isReserved (lower n) = true := by
  simp only [topRoles, List.mem_cons, List.not_mem_nil, or_false] at h
  rcases h with rfl | rfl | rfl | rfl <;> decide

theorem Listed.cases {role : Role} (h : Listed role) : role = Role.targets ∨ (pathOf role = .delegation role.name ∧ Role.isReserved (lower role.name) = false) := by
  rcases h with rfl | h
  · exact .inl rfl
  · obtain ⟨h1, h2⟩ := delegation_ok h
    refine .inr ⟨?_, h2⟩
    unfold pathOf Role.isDelegation
    rw [h1]; rfl

theorem listed_of {n : String} {role : Role} (h : Role.delegation n = .ok role) : Listed role ∧ role.name = n := by
  have := (delegation_ok h).1
  subst this
  exact ⟨.inr h, rfl⟩

/-- Every delegated role with a key has a file, except `skip`. -/
def Keyed (skip : Option String) (d : Dir) : Prop :=
  ∀ n kp, d.keys.lookup n = some kp → n ∉ topRoles → some n ≠ skip → ∃ text, d.files.lookup (.delegation n) = some text

/-- How the Roots may change: more of them. -/
def RootsMore (g : GenEnv) (d d' : Dir) : Prop :=
  ∀ tab top, RootFiles g d tab top → ∃ top', top ≤ top' ∧ RootFiles g d' tab top' ∧ ∀ v, v ≤ top → d'.files.lookup (.numbered v) = d.files.lookup (.numbered v)

theorem RootsMore.trans {g : GenEnv} {a b c : Dir} (h1 : RootsMore g a b) (h2 : RootsMore g b c) : RootsMore g a c := by
  intro tab top h
  obtain ⟨t1, a1, a2, a3⟩ := h1 tab top h
  obtain ⟨t2, b1, b2, b3⟩ := h2 tab t1 a2
  exact ⟨t2, by omega, b2, fun v hv => (b3 v (by omega)).trans (a3 v hv)⟩

theorem roleEntry_congr {g : GenEnv} {k k' : List (String × KeyPair)} {r : String} (h : k'.lookup r = k.lookup r) :
    roleEntry g { keys := k' } r = roleEntry g { keys := k } r := by
  unfold roleEntry
  rw [h]

theorem rootWith_congr {g : GenEnv} {tab : List (String × Json)} {k k' : List (String × KeyPair)} {v : Int} {e : String}
    (h : ∀ r ∈ topRoles, k'.lookup r = k.lookup r) : rootWith g tab k' v e = rootWith g tab k v e := by
  unfold rootWith
  rw [roleEntry_congr (h "root" (by decide)), roleEntry_congr (h "snapshot" (by decide)), roleEntry_congr (h "targets" (by decide)),
    roleEntry_congr (h "timestamp" (by decide))]

theorem RootFiles.congr {g : GenEnv} {d d' : Dir} {tab : List (String × Json)} {top : Int} (h : RootFiles g d tab top)
    (hk : ∀ r ∈ topRoles, d'.keys.lookup r = d.keys.lookup r) (hn : ∀ v, d'.files.lookup (.numbered v) = d.files.lookup (.numbered v))
    (hr : d'.files.lookup .root = d.files.lookup .root) : RootFiles g d' tab top where
  table := ⟨fun r hr kp hkp => h.table.has r hr kp ((hk r hr).symm.trans hkp), h.table.only, h.table.sorted⟩
  one := h.one
  range := h.range
  all := by
    intro v h1 h2
    obtain ⟨e, text, a, b, c⟩ := h.all v h1 h2
    exact ⟨e, text, (hn v).trans a, by rw [rootWith_congr hk]; exact b.keys (hk "root" (by decide)), c⟩
  none := fun v hv => (hn v).trans (h.none v hv)
  last := by rw [hr, hn]; exact h.last

theorem RootsMore.of_same {g : GenEnv} {d d' : Dir} (hk : ∀ r ∈ topRoles, d'.keys.lookup r = d.keys.lookup r)
    (hn : ∀ v, d'.files.lookup (.numbered v) = d.files.lookup (.numbered v)) (hr : d'.files.lookup .root = d.files.lookup .root) : RootsMore g d d' :=
  fun _ top h => ⟨top, Int.le_refl _, h.congr hk hn hr, fun v _ => hn v⟩

/-- What is good about a step from one state of the directory to the next. -/
structure Good (g : GenEnv) (d d' : Dir) : Prop where
  base : Base g d'
  keyed : Keyed none d'
  roots : RootsMore g d d'
  laterS : Later g .snapshot d d'
  laterT : Later g .timestamp d d'

theorem Good.trans {g : GenEnv} {a b c : Dir} (h1 : Good g a b) (h2 : Good g b c) : Good g a c :=
  ⟨h2.base, h2.keyed, h1.roots.trans h2.roots, h1.laterS.trans h2.laterS, h1.laterT.trans h2.laterT⟩

theorem Good.refl {g : GenEnv} {d : Dir} (h : Base g d) (hk : Keyed none d) : Good g d d :=
  ⟨h, hk, .of_same (fun _ _ => rfl) (fun _ => rfl) rfl, .refl, .refl⟩

theorem updateRepo_good {g : GenEnv} (hg : Sound g) {d d' : Dir} (hb : Base g d) (hk : Keyed none d) (h : updateRepo g d = .ok d') :
    Good g d d' ∧ Synced g d' ∧ Resync d d' := by
  obtain ⟨h1, h2, h3, h4, h5⟩ := updateRepo_ok hg hb h
  refine ⟨⟨h1, ?_, .of_same (fun _ _ => by rw [h3.keys]) (fun _ => h3.files _ (by simp) (by simp)) (h3.files _ (by simp) (by simp)), h4, h5⟩, h2, h3⟩
  intro n kp a b c
  rw [h3.files _ (by simp) (by simp)]
  exact hk n kp (h3.keys ▸ a) b c

/-- Files and keys other than those of roles with other names and the file `p` are as before. -/
structure Only (p : Path) (d d' : Dir) : Prop where
  keys : d'.keys = d.keys
  files : ∀ q, q ≠ p → d'.files.lookup q = d.files.lookup q

/-- Writing the content of a Targets role. -/
theorem put_ok {g : GenEnv} {d d' : Dir} (hb : Base g d) {role : Role} (hr : Listed role) {s : Json} {v : Int} {e text : String}
    (hs : TargetsBody s v e) (h : writeSigned g d (pathOf role) role.name s = .ok (d', text)) :
    Base g d' ∧ Only (pathOf role) d d' ∧ (d'.files.lookup (pathOf role) = some text ∧ Wrote g d'.keys role.name s text) ∧
      (∀ skip, Keyed skip d → Keyed skip d') := by
  obtain ⟨w1, w2, w3, w4⟩ := writeSigned_ok h hs.canonical
  have hw : Wrote g d'.keys role.name s text := by rw [w2]; exact w1
  refine ⟨?_, ⟨w2, w4⟩, ⟨w3, hw⟩, ?_⟩
  · rcases hr.cases with rfl | ⟨hp, hres⟩
    · have hp : pathOf Role.targets = .targets := rfl
      rw [hp] at w3 w4
      constructor
      · rw [w2]; exact hb.good
      · rw [w2]; exact hb.four
      · obtain ⟨tab, top, hroots⟩ := hb.roots
        exact ⟨tab, top, hroots.congr (fun _ _ => by rw [w2]) (fun _ => w4 _ (by simp)) (w4 _ (by simp))⟩
      · exact ⟨text, s, v, e, w3, hw, hs⟩
      · intro n t ht
        rw [w4 _ (by simp)] at ht
        rw [w2]; exact hb.delegated n t ht
      · rw [w4 _ (by simp)]; exact hb.staging
      · rw [w4 _ (by simp), w2]; exact hb.snapshot
      · rw [w4 _ (by simp), w2]; exact hb.timestamp
    · rw [hp] at w3 w4
      constructor
      · rw [w2]; exact hb.good
      · rw [w2]; exact hb.four
      · obtain ⟨tab, top, hroots⟩ := hb.roots
        exact ⟨tab, top, hroots.congr (fun _ _ => by rw [w2]) (fun _ => w4 _ (by simp)) (w4 _ (by simp))⟩
      · rw [w4 _ (by simp), w2]; exact hb.targets
      · intro n t ht
        by_cases hn : n = role.name
        · subst hn
          rw [w3] at ht
          cases ht
          exact ⟨hres, s, v, e, hw, hs⟩
        · rw [w4 _ (by simpa using hn)] at ht
          rw [w2]; exact hb.delegated n t ht
      · rw [w4 _ (by simp)]; exact hb.staging
      · rw [w4 _ (by simp), w2]; exact hb.snapshot
      · rw [w4 _ (by simp), w2]; exact hb.timestamp
  · intro skip hk n kp a b c
    by_cases hq : Path.delegation n = pathOf role
    · rw [hq]; exact ⟨text, w3⟩
    · rw [w4 _ hq]
      exact hk n kp (w2 ▸ a) b c

theorem Only.roots {g : GenEnv} {p : Path} {d d' : Dir} (h : Only p d d') (h1 : p ≠ .root) (h2 : ∀ v, p ≠ .numbered v) : RootsMore g d d' :=
  .of_same (fun _ _ => by rw [h.keys]) (fun v => h.files _ (fun hh => h2 v hh.symm)) (h.files _ (fun hh => h1 hh.symm))

theorem pathOf_cases (role : Role) : pathOf role = .targets ∨ pathOf role = .delegation role.name := by
  unfold pathOf
  split
  · exact .inr rfl
  · exact .inl rfl

theorem put_good {g : GenEnv} {d d' : Dir} (hb : Base g d) (hk : Keyed none d) {role : Role} (hr : Listed role) {s : Json} {v : Int} {e text : String}
    (hs : TargetsBody s v e) (h : writeSigned g d (pathOf role) role.name s = .ok (d', text)) : Good g d d' := by
  obtain ⟨h1, h2, h3, h4⟩ := put_ok hb hr hs h
  refine ⟨h1, h4 _ hk, h2.roots ?_ ?_, .inl (h2.files _ ?_), .inl (h2.files _ ?_)⟩ <;>
    · rcases pathOf_cases role with hp | hp <;> rw [hp] <;> simp

/-- The content of a role that can be written: it is there. -/
theorem role_there {g : GenEnv} (hg : Sound g) {d d' : Dir} (hb : Base g d) {skip : Option String} (hk : Keyed skip d) {role : Role} (hr : Listed role)
    (hs : some role.name ≠ skip) {s' : Json} {text : String} {dd : Dir} (hkeys : dd.keys = d.keys) (hw : writeSigned g dd (pathOf role) role.name s' = .ok (d', text)) :
    ∃ j v e, d.signed g (pathOf role) = .ok j ∧ TargetsBody j v e := by
  rcases hb.role hg hr with h | ⟨-, h2, h3⟩
  · exact h
  · exfalso
    rcases hr.cases with rfl | ⟨hp, hres⟩
    · exact h3 rfl
    · unfold writeSigned signTuf at hw
      obtain ⟨⟨doc, d1⟩, h1, -⟩ := exc_bind_ok.1 hw
      obtain ⟨m, hm, -⟩ := exc_bind_ok.1 h1
      rw [hkeys] at hm
      cases hl : d.keys.lookup role.name with
      | none => rw [hl] at hm; cases hm
      | some kp =>
        obtain ⟨t, ht⟩ := hk _ kp hl (fun hm => by rw [reserved_top hm] at hres; cases hres) hs
        rw [hp, ht] at h2
        cases h2

theorem signed_at {g : GenEnv} (hg : Sound g) {d : Dir} {p : Path} {role text : String} {s : Json} (h : d.files.lookup p = some text)
    (hw : Wrote g d.keys role s text) {v : Int} (hv : s.get "version" = .ok (.int v)) (hr : 0 ≤ v ∧ v ≤ 4294967295) : VersionAt g d p v :=
  ⟨s, Dir.signed_of hg h hw, hv, hr⟩

theorem pathOf_targets {role : Role} (hr : Listed role) (h : pathOf role = .targets) : role = Role.targets := by
  rcases hr.cases with h1 | ⟨h1, -⟩
  · exact h1
  · rw [h] at h1; cases h1

theorem imageRole_listed {deleg : Option String} {role : Role} (h : imageRole deleg = .ok role) : Listed role := by
  unfold imageRole at h
  split at h
  · cases h; exact .inl rfl
  · split at h
    · cases h; exact .inl rfl
    · exact (listed_of h).1

/-- Adding an image. -/
theorem addImage_ok {g : GenEnv} (hg : Sound g) {d d' : Dir} (hb : Base g d) (hk : Keyed none d) {name hw : String} {target : Json} {deleg : Option String}
    (ht : EntryOk target) (hc : Canonical target) (hh : ∃ x, mkHwId hw = .ok x) (h : addImage g d name target hw deleg = .ok d') :
    Good g d d' ∧ Synced g d' ∧ Later g .targets d d' := by
  unfold addImage at h
  obtain ⟨role, hrole, h⟩ := exc_bind_ok.1 h
  obtain ⟨s, hs, h⟩ := exc_bind_ok.1 h
  obtain ⟨c, h1, h⟩ := exc_bind_ok.1 h
  obtain ⟨hj, h2, h⟩ := exc_bind_ok.1 h
  obtain ⟨hw', h3, h⟩ := exc_bind_ok.1 h
  obtain ⟨t', h4, h⟩ := exc_bind_ok.1 h
  obtain ⟨s1, h5, h⟩ := exc_bind_ok.1 h
  obtain ⟨s2, h6, h⟩ := exc_bind_ok.1 h
  obtain ⟨⟨d1, text⟩, h7, h⟩ := exc_bind_ok.1 h
  dsimp only at h
  obtain ⟨hok, hcan⟩ := withHardware_ok ht hc hh h1 h2 h3 h4
  have hl := imageRole_listed hrole
  obtain ⟨j, v, e, hj, hbody⟩ := role_there hg hb hk hl (by simp) rfl h7
  rw [hs] at hj
  cases hj
  have hb2 := (hbody.withEntry h5 hok hcan).bump' h6
  have hgood := put_good hb hk hl hb2 h7
  obtain ⟨-, p2, p3, -⟩ := put_ok hb hl hb2 h7
  obtain ⟨q1, q2, q3⟩ := updateRepo_good hg hgood.base hgood.keyed h
  refine ⟨hgood.trans q1, q2, ?_⟩
  by_cases hp : pathOf role = .targets
  · rw [hp] at p3 hs
    refine .inr ⟨v, v + 1, ⟨_, hs, hbody.version, hbody.range⟩, ?_, by omega⟩
    exact (signed_at hg p3.1 p3.2 hb2.version hb2.range).congr (q3.files _ (by simp) (by simp))
  · exact .inl ((q3.files _ (by simp) (by simp)).trans (p2.files _ (fun hh => hp hh.symm)))

/-! ### Delegations -/

/-- The keys change, but not those in use. -/
theorem Base.rekey {g : GenEnv} {d : Dir} (hb : Base g d) {keys : List (String × KeyPair)} (hgood : ∀ r kp, keys.lookup r = some kp → GoodKey g kp)
    (htop : ∀ r ∈ topRoles, keys.lookup r = d.keys.lookup r) (hdel : ∀ n text, d.files.lookup (.delegation n) = some text → keys.lookup n = d.keys.lookup n) :
    Base g { d with keys := keys } where
  good := hgood
  four := fun r hr => by
    obtain ⟨kp, h⟩ := hb.four r hr
    exact ⟨kp, (htop r hr).trans h⟩
  roots := by
    obtain ⟨tab, top, h⟩ := hb.roots
    exact ⟨tab, top, h.congr htop (fun _ => rfl) rfl⟩
  targets := by
    obtain ⟨text, j, v, e, h1, h2, h3⟩ := hb.targets
    exact ⟨text, j, v, e, h1, h2.keys (htop _ (by decide)), h3⟩
  delegated := by
    intro n text h
    obtain ⟨h0, j, v, e, h1, h2⟩ := hb.delegated n text h
    exact ⟨h0, j, v, e, h1.keys (hdel n text h), h2⟩
  staging := hb.staging
  snapshot := by
    obtain ⟨text, m, v, e, h1, h2, h3⟩ := hb.snapshot
    exact ⟨text, m, v, e, h1, h2.keys (htop _ (by decide)), h3⟩
  timestamp := by
    obtain ⟨text, a, b, l, w, v, e, h1, h2, h3⟩ := hb.timestamp
    exact ⟨text, a, b, l, w, v, e, h1, h2.keys (htop _ (by decide)), h3⟩

theorem Synced.rekey {g : GenEnv} {d : Dir} (hs : Synced g d) {keys : List (String × KeyPair)} (htop : ∀ r ∈ topRoles, keys.lookup r = d.keys.lookup r) :
    Synced g { d with keys := keys } := by
  obtain ⟨a, m, vs, es, b, vt, et, h1, h2, h3, h4, h5, h6⟩ := hs
  exact ⟨a, m, vs, es, b, vt, et, h1, h2.keys (htop _ (by decide)), h3, (fun role hr => h4 role (Under.congr (d := d) (d' := { d with keys := keys }) (fun _ => rfl) hr)), h5, h6.keys (htop _ (by decide))⟩

theorem lookup_filter_key {r n : String} (h : r ≠ n) : ∀ (l : List (String × KeyPair)), (l.filter (fun k => k.1 ≠ n)).lookup r = l.lookup r
  | [] => rfl
  | a :: l => by
    rw [List.filter_cons]
    by_cases ha : a.1 = n
    · rw [if_neg (by simp [ha]), lookup_filter_key h l, List.lookup_cons, beq_false_of_ne (by rw [ha]; exact h)]
    · rw [if_pos (by simp [ha]), List.lookup_cons, List.lookup_cons, lookup_filter_key h l]

theorem lookup_filter_gone {n : String} (l : List (String × KeyPair)) : (l.filter (fun k => k.1 ≠ n)).lookup n = none := by
  rw [List.lookup_eq_none_iff]
  intro f hf
  have := (List.mem_filter.1 hf).2
  simp only [ne_eq, decide_not, Bool.not_eq_eq_eq_not, Bool.not_true, decide_eq_false_iff_not] at this
  simp
  exact fun hh => this hh.symm

theorem toUptane_back {g : GenEnv} {type : KeyType} {pub : String} (h1 : type ≠ .unknown) (h2 : type = .ed25519 ∨ g.env.rsaType pub = type) :
    PublicKey.ofJson g.env (toUptane ⟨pub, type⟩) = ⟨pub, type⟩ := by
  have hl : lower "ED25519" = "ed25519" := by decide
  have hr : lower "RSA" = "rsa" := by decide
  have hn : ("rsa" : String) ≠ "ed25519" := by decide
  have hk : ∀ (t v : String) (x : KeyType), (x = .ed25519 → t = "ED25519") → (x ≠ .ed25519 → t = "RSA" ∧ g.env.rsaType v = x) →
      PublicKey.ofJson g.env (.obj [("keytype", .str t), ("keyval", .obj [("public", .str v)])]) = ⟨v, x⟩ := by
    intro t v x h3 h4
    have e1 : Json.get (.obj [("keytype", .str t), ("keyval", .obj [("public", .str v)])]) "keytype" = .ok (.str t) := rfl
    have e2 : Json.get (.obj [("keytype", .str t), ("keyval", .obj [("public", .str v)])]) "keyval" = .ok (.obj [("public", .str v)]) := rfl
    have e3 : Json.get (.obj [("public", .str v)]) "public" = .ok (.str v) := rfl
    unfold PublicKey.ofJson
    rw [e1, e2]
    dsimp only
    rw [e3]
    dsimp only
    by_cases hx : x = .ed25519
    · rw [h3 hx, if_pos hl, hx]
    · rw [(h4 hx).1, if_neg (by rw [hr]; exact hn), if_pos hr, (h4 hx).2]
  unfold toUptane
  refine hk _ _ _ ?_ ?_
  · intro hx; rw [show type = _ from hx]
  · intro hx
    refine ⟨?_, h2.resolve_left hx⟩
    cases type <;> first | rfl | exact absurd rfl h1 | exact absurd rfl hx

theorem generateKeyPair_ok {g : GenEnv} {d d' : Dir} {type : KeyType} {pub priv role : String} (hw : Works g ⟨⟨pub, type⟩, priv⟩)
    (h : generateKeyPair g d type pub priv role = .ok d') :
    d' = { d with keys := (role, ⟨⟨pub, type⟩, priv⟩) :: d.keys.filter (fun k => k.1 ≠ role) } ∧ GoodKey g ⟨⟨pub, type⟩, priv⟩ := by
  unfold generateKeyPair at h
  obtain ⟨_, h1, h⟩ := exc_bind_ok.1 h
  obtain ⟨_, h2, h⟩ := exc_bind_ok.1 h
  rw [throwIf_ok] at h1 h2
  cases h
  refine ⟨rfl, hw, toUptane_back (by simpa using h1) ?_⟩
  by_cases ht : type = .ed25519
  · exact .inl ht
  · right
    simpa [ht] using h2

/-- The shape of both changes to the delegations. -/
theorem TargetsBody.redelegate {j j1 j2 dl ks rs dl1 : Json} {v : Int} {e : String} (h : TargetsBody j v e)
    (hdl : j.get "delegations" = .ok dl) (hkeys : setPath dl ["keys"] ks = .ok dl1) (h1 : setKey j "delegations" dl1 = .ok j1)
    (h2 : setPath j1 ["delegations", "roles"] rs = .ok j2)
    (hk : Canonical ks ∧ (ks = .null ∨ ∃ l, ks = .obj l) ∧ ∀ kv ∈ ks.entries, ∃ k : PublicKey, kv.2 = toUptane k ∧ k.type ≠ .unknown)
    (hr : Canonical rs ∧ (rs = .null ∨ ∃ l, rs = .arr l) ∧ ∀ r ∈ rs.elems, ∃ kid name path term,
      r = .obj [("keyids", .arr [.str kid]), ("name", .str name), ("paths", .arr [.str path]), ("terminating", .bool term), ("threshold", .int 1)] ∧
      Role.isReserved (lower name) = false) : TargetsBody j2 v e := by
  obtain ⟨k0, k1, g0, g1, g2⟩ := setPath_cons hkeys
  cases g1
  obtain ⟨a1, a2, a3, a4⟩ := setKey_ok g2
  obtain ⟨b1, b2, b3, b4⟩ := setKey_ok h1
  obtain ⟨dl', dl2, c1, c2, c3⟩ := setPath_cons h2
  rw [b1] at c1
  cases c1
  obtain ⟨x, x', d1, d2, d3⟩ := setPath_cons c2
  cases d2
  obtain ⟨e1, e2, e3, e4⟩ := setKey_ok d3
  obtain ⟨f1, f2, f3, f4⟩ := setKey_ok c3
  have hc1 := a4 (get_canonical h.canonical hdl) hk.1
  have hc2 := e4 hc1 hr.1
  have hget : ∀ k, k ≠ "delegations" → j2.get k = j.get k := fun k hk => (f2 k hk).trans (b2 k hk)
  refine ⟨f4 (b4 h.canonical hc1) hc2, ?_, ?_, h.range, ?_, h.time, ?_, ⟨_, f1, .inr ⟨e3, ⟨_, ?_, hk.2⟩, ⟨_, e1, hr.2⟩⟩⟩, ?_⟩
  · rw [hget _ (by decide)]; exact h.type
  · rw [hget _ (by decide)]; exact h.version
  · rw [hget _ (by decide)]; exact h.expires
  · rw [hget _ (by decide)]; exact h.targets
  · rw [e2 _ (by decide)]; exact a1
  · rw [hget _ (by decide)]; exact h.custom

end Aktualizr.Gen
