import Verif.Spec.HonestTree
import Verif.Lemmas.HonestImage
import Verif.Lemmas.Match

/-! The delegation search against roles that offer genuine metadata: forward execution. -/

namespace Aktualizr

open M Spec

variable {c : Ctx} {stored : List (String × String)} {rawS : String} {q : Target} {sn : Snapshot}

theorem find_listed {cur : Targets} {q t : Target} (h : cur.targets.find? (fun t => t.matchTarget q) = some t) : ListedBy cur q t :=
  ⟨List.mem_of_find?_eq_some h, matchTarget_iff.1 (by simpa using List.find?_some h)⟩

theorem find_unlisted {cur : Targets} {q : Target} (h : cur.targets.find? (fun t => t.matchTarget q) = none) (m : Target) : ¬ ListedBy cur q m := by
  rintro ⟨h1, h2⟩
  have := List.find?_eq_none.1 h m h1
  rw [matchTarget_iff.2 h2] at this
  exact absurd rfl this

theorem covers_iff {env : Env} {cur : Targets} {name file : String} {ps : List String} (h : cur.pathsForRole.lookup name = some ps) :
    DelegatedFor env cur name file ↔ ps.any (fun p => env.fnmatch p file) = true := by
  unfold DelegatedFor
  rw [h, List.any_eq_true]
  constructor
  · rintro ⟨ps', h1, h2⟩
    cases h1
    exact h2
  · exact fun h2 => ⟨ps, rfl, h2⟩

/-! ### One delegated role -/

theorem Spec.HonestRole.verify {cur d : Targets} {name raw : String} {b : Bool} (h : HonestRole c stored rawS cur name raw d b) :
    Image.verifyDelegation c raw ⟨.delegation, name⟩ cur = .ok d := by
  obtain ⟨v, e, h1, h2⟩ := h.reads
  have hu : unpackSignedObject c.env cur.base ⟨.delegation, name⟩ (c.env.parseJson raw) = .ok () :=
    C01_signed_is_accepted _ _ _ _ (.inr rfl) h.signed h.type h.format
  have hb : baseMetaSigned c.env ⟨.delegation, name⟩ (c.env.parseJson raw) cur.base = .ok (v, e) := by
    have hb' := h1
    unfold baseInit at hb'
    simp only [exc_bind_ok, throwIf_ok] at hb'
    obtain ⟨_, h3, x, h4, _, h5, _⟩ := hb'
    unfold baseMetaSigned
    simp only [exc_bind_ok, throwIf_ok]
    exact ⟨(), h3, x, h4, (), h5, (), hu, h1⟩
  unfold Image.verifyDelegation Targets.ofJsonSigned
  rw [hb]
  exact h2

theorem Spec.HonestRole.hashes {cur d : Targets} {name raw : String} {b : Bool} (h : HonestRole c stored rawS cur name raw d b)
    (hS : ReadsAsSnapshot c.env rawS sn) (w : World) :
    Delegation.checkHashes c sn raw ⟨.delegation, name⟩ w = (.ok (), w) := by
  obtain ⟨-, -, hl⟩ := snapshot_lists (role := ⟨.delegation, name⟩) hS h.listed
  have hv : Image.verifyRoleHashes c sn raw ⟨.delegation, name⟩ = .ok () := hl
  unfold Delegation.checkHashes catchStd
  rw [lift_eq, hv]

/-- The role's document is stored: it is used, online and offline. -/
theorem getTrusted_held {cur d : Targets} {name raw : String} {b off : Bool} {w : World} (h : HonestRole c stored rawS cur name raw d b)
    (hS : ReadsAsSnapshot c.env rawS w.img.snapshot) (hw : w.db.loadDelegation name = some raw) :
    Delegation.getTrusted c ⟨.delegation, name⟩ cur off w = (.ok d, w) := by
  have hver := (snapshot_lists (role := ⟨.delegation, name⟩) hS h.listed).1
  have hst : Delegation.stored c ⟨.delegation, name⟩ (w.img.snapshot.versionOf ⟨.delegation, name⟩) w = (.ok (some raw), w) := by
    have hl : loadDelegationM ⟨.delegation, name⟩ w = (.ok (some raw), w) := by
      unfold loadDelegationM
      show readBlob (w.db.loadDelegation name) w = _
      rw [hw]
      exact readBlob_run h.nonempty
    unfold Delegation.stored
    rw [run_bind hl]
    simp only
    rw [run_bind (m := lift (extractVersionUntrusted c.env raw)) (by rw [lift_eq, h.version.run]), hver]
    simp only [gt_iff_lt, Int.lt_irrefl, if_false]
    rfl
  unfold Delegation.getTrusted
  rw [run_bind (by rw [gets_eq]), run_bind hst]
  simp only
  rw [run_bind (h.hashes hS w), lift_eq, h.verify]

/-- The search left everything but the delegated documents stored, which it got from the server
(`v` among them); at most `n` writes were needed. -/
structure Grown (c : Ctx) (w w' : World) (v : List (String × String)) (n : Nat) : Prop where
  dir : w'.dir = w.dir
  img : w'.img = w.img
  rows : w'.db = { w.db with delegations := w'.db.delegations }
  held : ∀ p ∈ v, w'.db.loadDelegation p.1 = some p.2
  served : ∀ p ∈ v, Served c .image ⟨.delegation, p.1⟩ (-1) (8 * 1024 * 1024) p.2
  rest : ∀ x, w'.db.loadDelegation x = w.db.loadDelegation x ∨
    ∃ raw, Served c .image ⟨.delegation, x⟩ (-1) (8 * 1024 * 1024) raw ∧ w'.db.loadDelegation x = some raw
  fuel : w.fuel ≤ w'.fuel + n

theorem served_unique {repo : Repo} {role : Role} {v m m' : Int} {a b : String} (h1 : Served c repo role v m a) (h2 : Served c repo role v m' b) : a = b := by
  have := (h1.answer 0).symm.trans (h2.answer 0)
  exact Option.some.inj this

theorem Grown.refl (w : World) {t n : Nat} : Grown c w { w with tick := t } [] n :=
  ⟨rfl, rfl, rfl, by simp, by simp, fun _ => .inl rfl, by simp⟩

theorem Grown.keeps {w w' : World} {v : List (String × String)} {n : Nat} (h : Grown c w w' v n) {x raw : String}
    (hs : Served c .image ⟨.delegation, x⟩ (-1) (8 * 1024 * 1024) raw) (hw : w.db.loadDelegation x = some raw) :
    w'.db.loadDelegation x = some raw := by
  rcases h.rest x with hr | ⟨raw', h1, h2⟩
  · rw [hr, hw]
  · rw [h2, served_unique hs h1]

theorem Grown.trans {a b d : World} {u v : List (String × String)} {m n : Nat} (h1 : Grown c a b u m) (h2 : Grown c b d v n) :
    Grown c a d (u ++ v) (m + n) where
  dir := h2.dir.trans h1.dir
  img := h2.img.trans h1.img
  rows := by rw [h2.rows, h1.rows]
  held := by
    intro p hp
    rcases List.mem_append.1 hp with hp | hp
    · exact h2.keeps (h1.served p hp) (h1.held p hp)
    · exact h2.held p hp
  served := by
    intro p hp
    rcases List.mem_append.1 hp with hp | hp
    · exact h1.served p hp
    · exact h2.served p hp
  rest := by
    intro x
    rcases h2.rest x with hr | hr
    · rw [hr]; exact h1.rest x
    · exact .inr hr
  fuel := by have := h1.fuel; have := h2.fuel; omega

theorem Grown.le {a b : World} {v : List (String × String)} {m n : Nat} (h : Grown c a b v m) (hn : m ≤ n) : Grown c a b v n :=
  { h with fuel := by have := h.fuel; omega }

/-- What is stored for delegated roles is what was stored, or what the server has. -/
def Fresh (c : Ctx) (stored : List (String × String)) (db : MetaDb) : Prop :=
  ∀ x, db.loadDelegation x = stored.lookup x ∨
    ∃ raw, Served c .image ⟨.delegation, x⟩ (-1) (8 * 1024 * 1024) raw ∧ db.loadDelegation x = some raw

theorem Fresh.grown {w w' : World} {v : List (String × String)} {n : Nat} (h : Fresh c stored w.db) (hg : Grown c w w' v n) : Fresh c stored w'.db := by
  intro x
  rcases hg.rest x with hr | hr
  · rw [hr]; exact h x
  · exact .inr hr

theorem lookup_filter_other {x y : String} (h : y ≠ x) : ∀ l : List (String × String), (l.filter (fun p => p.1 != x)).lookup y = l.lookup y
  | [] => rfl
  | (a, b) :: l => by
    by_cases ha : a = x
    · subst ha
      have hy : (y == a) = false := by simpa using h
      simp [List.lookup_cons, hy, lookup_filter_other h l]
    · have : (a != x) = true := by simpa using ha
      simp only [List.filter_cons, this, if_true, List.lookup_cons, lookup_filter_other h l]

theorem getTrusted_online {cur d : Targets} {name raw : String} {b : Bool} {w : World} (h : HonestRole c stored rawS cur name raw d b)
    (hS : ReadsAsSnapshot c.env rawS w.img.snapshot) (hw : Fresh c stored w.db) (hf : 2 ≤ w.fuel) :
    ∃ w', Delegation.getTrusted c ⟨.delegation, name⟩ cur false w = (.ok d, w') ∧ Grown c w w' [(name, raw)] 2 := by
  have hver := (snapshot_lists (role := ⟨.delegation, name⟩) hS h.listed).1
  -- fetching, from a world `w0` where it is not stored
  have hfetch : ∀ w0 : World, w0.dir = w.dir → w0.img = w.img → w0.db = { w.db with delegations := w0.db.delegations } →
      (∀ x, x ≠ name → w0.db.loadDelegation x = w.db.loadDelegation x) → w.fuel ≤ w0.fuel + 1 →
      Delegation.stored c ⟨.delegation, name⟩ (w.img.snapshot.versionOf ⟨.delegation, name⟩) w = (.ok none, w0) →
      ∃ w', Delegation.getTrusted c ⟨.delegation, name⟩ cur false w = (.ok d, w') ∧ Grown c w w' [(name, raw)] 2 := by
    intro w0 e1 e2 e3 e4 e5 hst
    let w1 : World := { w0 with tick := w0.tick + 1 }
    refine ⟨{ w1 with db := w1.db.storeDelegation raw name, fuel := w1.fuel - 1 }, ?_, ?_⟩
    · have hfe : Delegation.fetch c ⟨.delegation, name⟩ false w0 = (.ok raw, w1) := by
        unfold Delegation.fetch
        rw [run_bind (throwWhen_run rfl)]
        unfold catchStd
        have : fetchLatestRole c kMaxImageTargetsSize .image ⟨.delegation, name⟩ w0 = (.ok raw, w1) := h.served.run w0
        rw [this]
      unfold Delegation.getTrusted
      rw [run_bind (by rw [gets_eq]), run_bind hst]
      simp only
      rw [run_bind hfe, run_bind (h.hashes hS w1), run_bind (m := lift (Image.verifyDelegation c raw ⟨.delegation, name⟩ cur)) (by rw [lift_eq, h.verify]),
        run_bind (throwWhen_run (by rw [hver]; simp)), run_bind (write_run (by show 0 < w0.fuel; omega))]
      rfl
    · exact {
        dir := e1
        img := e2
        rows := by show MetaDb.storeDelegation w0.db raw name = _; rw [e3]; rfl
        held := by
          intro p hp
          rw [List.mem_singleton] at hp
          subst hp
          show List.lookup name ((name, raw) :: _) = _
          simp
        served := by
          intro p hp
          rw [List.mem_singleton] at hp
          subst hp
          exact h.served
        rest := by
          intro x
          by_cases hx : x = name
          · subst hx
            exact .inr ⟨raw, h.served, by show List.lookup x ((x, raw) :: _) = _; simp⟩
          · left
            rw [← e4 x hx]
            show List.lookup x ((name, raw) :: (w0.db.delegations.filter (fun p => p.1 != name))) = List.lookup x w0.db.delegations
            rw [List.lookup_cons, lookup_filter_other hx]
            have : (x == name) = false := by simpa using hx
            rw [this]
        fuel := by show w.fuel ≤ (w0.fuel - 1) + 2; omega }
  have hload : ∀ o, w.db.loadDelegation name = o → (∀ x, o = some x → x ≠ "") → loadDelegationM ⟨.delegation, name⟩ w = (.ok o, w) := by
    intro o ho hx
    unfold loadDelegationM
    show readBlob (w.db.loadDelegation name) w = _
    rw [ho]
    cases o with
    | none => rfl
    | some x => exact readBlob_run (hx x rfl)
  have hold : w.db.loadDelegation name = some raw ∨ w.db.loadDelegation name = none ∨
      ∃ old, w.db.loadDelegation name = some old ∧ old ≠ "" ∧ ∃ v, StatesVersion c.env old v ∧ v < d.base.version := by
    rcases hw name with hx | ⟨raw', h1, h2⟩
    · cases ho : stored.lookup name with
      | none => exact .inr (.inl (hx.trans ho))
      | some old =>
        rcases h.newer old ho with rfl | ⟨h3, h4⟩
        · exact .inl (hx.trans ho)
        · exact .inr (.inr ⟨old, hx.trans ho, h3, h4⟩)
    · exact .inl (by rw [h2, served_unique h.served h1])
  rcases hold with hx | hx | ⟨old, hx, hne, v, hv, hlt⟩
  · exact ⟨w, getTrusted_held h hS hx, rfl, rfl, rfl, fun p hp => by
      rw [List.mem_singleton] at hp; subst hp; exact hx, fun p hp => by
      rw [List.mem_singleton] at hp; subst hp; exact h.served, fun _ => .inl rfl, by omega⟩
  · refine hfetch w rfl rfl rfl (fun _ _ => rfl) (by omega) ?_
    unfold Delegation.stored
    rw [run_bind (hload none hx (by simp))]
    rfl
  · refine hfetch { w with db := w.db.deleteDelegation name, fuel := w.fuel - 1 } rfl rfl rfl (fun x hx => ?_) (by show w.fuel ≤ w.fuel - 1 + 1; omega) ?_
    · show List.lookup x (w.db.delegations.filter (fun p => p.1 != name)) = _
      rw [lookup_filter_other hx]
      rfl
    · unfold Delegation.stored
      rw [run_bind (hload (some old) hx (by rintro x hx; cases hx; exact hne))]
      simp only
      rw [run_bind (m := lift (extractVersionUntrusted c.env old)) (by rw [lift_eq, hv.run]), hver, if_neg (by omega), if_pos hlt,
        run_bind (write_run (by omega))]
      rfl

/-! ### The search -/

/-- The search among the delegations `names` of `cur` visits the roles `v` and ends with `r`. -/
inductive NamesVisit (c : Ctx) (stored : List (String × String)) (rawS file : String) (cur : Targets)
    (sub : Targets → Bool → List (String × String) → Option Target → Prop) : List String → List (String × String) → Option Target → Prop where
  | nil : NamesVisit c stored rawS file cur sub [] [] none
  | skip {name names v r} : Role.isReserved (lower name) = false → ¬ DelegatedFor c.env cur name file →
      NamesVisit c stored rawS file cur sub names v r → NamesVisit c stored rawS file cur sub (name :: names) v r
  | hit {name names raw d b v t} : Role.isReserved (lower name) = false → DelegatedFor c.env cur name file →
      HonestRole c stored rawS cur name raw d b → sub d b v (some t) →
      NamesVisit c stored rawS file cur sub (name :: names) ((name, raw) :: v) (some t)
  | miss {name names raw d b v v' r} : Role.isReserved (lower name) = false → DelegatedFor c.env cur name file →
      HonestRole c stored rawS cur name raw d b → sub d b v none → NamesVisit c stored rawS file cur sub names v' r →
      NamesVisit c stored rawS file cur sub (name :: names) ((name, raw) :: v ++ v') r

/-- The search for `q` from `cur` visits the roles `v` and ends with `r`. -/
def Visit (c : Ctx) (stored : List (String × String)) (rawS : String) (q : Target) : Nat → Targets → Bool → List (String × String) → Option Target → Prop
  | 0, cur, _, v, r => v = [] ∧ r = cur.targets.find? (fun t => t.matchTarget q)
  | n + 1, cur, b, v, r =>
    (∃ t, cur.targets.find? (fun t => t.matchTarget q) = some t ∧ v = [] ∧ r = some t) ∨
    (cur.targets.find? (fun t => t.matchTarget q) = none ∧ b = true ∧ v = [] ∧ r = none) ∨
    (cur.targets.find? (fun t => t.matchTarget q) = none ∧ b = false ∧
      NamesVisit c stored rawS q.filename cur (Visit c stored rawS q n) cur.delegatedRoleNames v r)

theorem namesVisit_exists {cur : Targets} {sub : Targets → Bool → List (String × String) → Option Target → Prop}
    {tree : Targets → Bool → Nat → Prop} (hsub : ∀ d b k, tree d b k → ∃ v r, sub d b v r ∧ v.length ≤ k) {ks : String → Nat} {file : String} :
    ∀ names : List String, (∀ name ∈ names, Role.isReserved (lower name) = false ∧
      (DelegatedFor c.env cur name file → ∃ raw d b', HonestRole c stored rawS cur name raw d b' ∧ tree d b' (ks name))) →
    ∃ v r, NamesVisit c stored rawS file cur sub names v r ∧ v.length ≤ (names.map (fun x => ks x + 1)).sum
  | [], _ => ⟨[], none, .nil, by simp⟩
  | name :: names, h => by
    obtain ⟨v', r', hrest, hlen⟩ := namesVisit_exists hsub names (fun x hx => h x (by simp [hx]))
    obtain ⟨h1, h2⟩ := h name (by simp)
    by_cases hc : DelegatedFor c.env cur name file
    · obtain ⟨raw, d, b, h3, h4⟩ := h2 hc
      obtain ⟨v, r, h5, h6⟩ := hsub d b _ h4
      cases r with
      | some t =>
        refine ⟨_, _, .hit h1 hc h3 h5, ?_⟩
        simp only [List.length_cons, List.map_cons, List.sum_cons]
        omega
      | none =>
        refine ⟨_, _, .miss h1 hc h3 h5 hrest, ?_⟩
        simp only [List.cons_append, List.length_cons, List.length_append, List.map_cons, List.sum_cons]
        omega
    · refine ⟨_, _, .skip h1 hc hrest, ?_⟩
      simp only [List.map_cons, List.sum_cons]
      omega

theorem visit_exists : ∀ (n : Nat) (cur : Targets) (b : Bool) (k : Nat), HonestTree c stored rawS q n cur b k →
    ∃ v r, Visit c stored rawS q n cur b v r ∧ v.length ≤ k
  | 0, cur, b, k, _ => ⟨_, _, ⟨rfl, rfl⟩, by simp⟩
  | n + 1, cur, b, k, h => by
    cases hf : cur.targets.find? (fun t => t.matchTarget q) with
    | some t => exact ⟨[], some t, .inl ⟨t, hf, rfl, rfl⟩, by simp⟩
    | none =>
      cases b with
      | true => exact ⟨[], none, .inr (.inl ⟨hf, rfl, rfl, rfl⟩), by simp⟩
      | false =>
        rcases h with ⟨m, hm⟩ | hb | ⟨ks, hk, h⟩
        · exact absurd hm (find_unlisted hf m)
        · cases hb
        · obtain ⟨v, r, h1, h2⟩ := namesVisit_exists (sub := Visit c stored rawS q n) (visit_exists n) cur.delegatedRoleNames h
          exact ⟨v, r, .inr (.inr ⟨hf, rfl, h1⟩), by omega⟩

theorem namesVisit_found {cur : Targets} {sub : Targets → Bool → List (String × String) → Option Target → Prop} {file : String} {P : Targets → Bool → Target → Prop}
    (hsub : ∀ d b v t, sub d b v (some t) → P d b t) {names : List String} {v : List (String × String)} {r : Option Target} {t : Target}
    (h : NamesVisit c stored rawS file cur sub names v r) (hr : r = some t) :
    ∃ name ∈ names, DelegatedFor c.env cur name file ∧ ∃ raw d b, HonestRole c stored rawS cur name raw d b ∧ P d b t := by
  induction h with
  | nil => cases hr
  | skip _ _ _ ih =>
    obtain ⟨n, h1, h2⟩ := ih hr
    exact ⟨n, by simp [h1], h2⟩
  | hit _ h2 h3 h4 =>
    cases hr
    exact ⟨_, by simp, h2, _, _, _, h3, hsub _ _ _ _ h4⟩
  | miss _ _ _ _ _ ih =>
    obtain ⟨n, h1, h2⟩ := ih hr
    exact ⟨n, by simp [h1], h2⟩

theorem visit_found : ∀ (n : Nat) (cur : Targets) (b : Bool) (v : List (String × String)) (t : Target), Visit c stored rawS q n cur b v (some t) →
    ListedUnder c stored rawS q t n cur b
  | 0, cur, b, v, t, h => find_listed h.2.symm
  | n + 1, cur, b, v, t, h => by
    rcases h with ⟨t', h1, -, h2⟩ | ⟨_, _, _, h⟩ | ⟨h1, h2, h3⟩
    · cases h2
      exact .inl (find_listed h1)
    · cases h
    · exact .inr ⟨find_unlisted h1, h2, namesVisit_found (P := fun d b t => ListedUnder c stored rawS q t n d b) (visit_found n) h3 rfl⟩

theorem readsAsTargets_unique {env : Env} {raw : String} {a b : Targets} (h1 : ReadsAsTargets env raw a) (h2 : ReadsAsTargets env raw b) : a = b := by
  obtain ⟨v, e, h3, h4⟩ := h1
  obtain ⟨v', e', h5, h6⟩ := h2
  have := Except.ok.inj (h3.symm.trans h5)
  cases this
  exact Except.ok.inj (h4.symm.trans h6)

theorem Spec.HonestRole.unique {cur d d' : Targets} {name raw raw' : String} {b b' : Bool} (h : HonestRole c stored rawS cur name raw d b)
    (h' : HonestRole c stored rawS cur name raw' d' b') : raw = raw' ∧ d = d' ∧ b = b' := by
  have := served_unique h.served h'.served
  subst this
  have := readsAsTargets_unique h.reads h'.reads
  subst this
  exact ⟨rfl, rfl, Option.some.inj (h.kind.symm.trans h'.kind)⟩

theorem namesVisit_missed {cur : Targets} {sub : Targets → Bool → List (String × String) → Option Target → Prop} {file : String} {P : Targets → Bool → Prop}
    (hsub : ∀ d b v, sub d b v none → ¬ P d b) {names : List String} {v : List (String × String)} {r : Option Target}
    (h : NamesVisit c stored rawS file cur sub names v r) (hr : r = none) :
    ¬ ∃ name ∈ names, DelegatedFor c.env cur name file ∧ ∃ raw d b, HonestRole c stored rawS cur name raw d b ∧ P d b := by
  induction h with
  | nil => rintro ⟨_, h, _⟩; cases h
  | skip _ hn _ ih =>
    rintro ⟨n, h1, h2, h3⟩
    rcases List.mem_cons.1 h1 with rfl | h1
    · exact hn h2
    · exact ih hr ⟨n, h1, h2, h3⟩
  | hit => cases hr
  | miss _ _ hrole hs _ ih =>
    rintro ⟨n, h1, h2, raw, d, b, h3, h4⟩
    rcases List.mem_cons.1 h1 with rfl | h1
    · obtain ⟨-, rfl, rfl⟩ := hrole.unique h3
      exact hsub _ _ _ hs h4
    · exact ih hr ⟨n, h1, h2, raw, d, b, h3, h4⟩

theorem visit_missed : ∀ (n : Nat) (cur : Targets) (b : Bool) (v : List (String × String)), Visit c stored rawS q n cur b v none →
    ¬ ∃ m, ListedUnder c stored rawS q m n cur b
  | 0, cur, b, v, h => fun ⟨m, hm⟩ => find_unlisted h.2.symm m hm
  | n + 1, cur, b, v, h => by
    rintro ⟨m, hm⟩
    rcases h with ⟨t', _, _, h2⟩ | ⟨h1, h2, _⟩ | ⟨h1, h2, h3⟩
    · cases h2
    · rcases hm with hm | ⟨_, hb, _⟩
      · exact find_unlisted h1 m hm
      · rw [h2] at hb; cases hb
    · rcases hm with hm | ⟨_, _, name, h4, h5, raw, d, b', h6, h7⟩
      · exact find_unlisted h1 m hm
      · exact namesVisit_missed (P := fun d b => ∃ m, ListedUnder c stored rawS q m n d b) (visit_missed n) h3 rfl ⟨name, h4, h5, raw, d, b', h6, m, h7⟩

/-- Where the tree is honest and lists the image, the search finds it. -/
theorem visit_some {n : Nat} {cur : Targets} {b : Bool} {k : Nat} {m : Target} (h : HonestTree c stored rawS q n cur b k)
    (hm : ListedUnder c stored rawS q m n cur b) :
    ∃ v t, Visit c stored rawS q n cur b v (some t) ∧ v.length ≤ k ∧ ListedUnder c stored rawS q t n cur b := by
  obtain ⟨v, r, h1, h2⟩ := visit_exists n cur b k h
  cases r with
  | none => exact absurd ⟨m, hm⟩ (visit_missed n cur b v h1)
  | some t => exact ⟨v, t, h1, h2, visit_found n cur b v t h1⟩

theorem listedUnder_same {q m : Target} : ∀ (n : Nat) (cur : Targets) (b : Bool), ListedUnder c stored rawS q m n cur b → SameContent m q ∧ SameAssignment m q
  | 0, _, _, h => h.2
  | n + 1, _, _, h => by
    rcases h with h | ⟨_, _, _, _, _, _, d, b', _, h⟩
    · exact h.2
    · exact listedUnder_same n d b' h

theorem listedUnder_top {q m m' : Target} {n : Nat} {cur : Targets} {b : Bool} (h : ListedUnder c stored rawS q m n cur b) (hl : ListedBy cur q m') : ListedBy cur q m := by
  cases n with
  | zero => exact h
  | succ n =>
    rcases h with h | ⟨h, _⟩
    · exact h
    · exact absurd hl (h m')

theorem listedUnder_listed {q m : Target} {n : Nat} {cur : Targets} {b : Bool} (hl : ListedBy cur q m) : ListedUnder c stored rawS q m n cur b := by
  cases n with
  | zero => exact hl
  | succ n => exact .inl hl

theorem honestTree_listed {q m : Target} {n : Nat} {cur : Targets} {b : Bool} {k : Nat} (hl : ListedBy cur q m) : HonestTree c stored rawS q n cur b k := by
  cases n with
  | zero => exact trivial
  | succ n => exact .inl ⟨m, hl⟩

theorem namesVisit_congr {cur : Targets} {sub sub' : Targets → Bool → List (String × String) → Option Target → Prop} {file : String}
    (hsub : ∀ d b v r, sub d b v r → sub' d b v r) {names : List String} {v : List (String × String)} {r : Option Target}
    (h : NamesVisit c stored rawS file cur sub names v r) : NamesVisit c stored rawS file cur sub' names v r := by
  induction h with
  | nil => exact .nil
  | skip h1 h2 _ ih => exact .skip h1 h2 ih
  | hit h1 h2 h3 h4 => exact .hit h1 h2 h3 (hsub _ _ _ _ h4)
  | miss h1 h2 h3 h4 _ ih => exact .miss h1 h2 h3 (hsub _ _ _ _ h4) ih

/-- The search does not look at the URI asked for. -/
theorem visit_congr {q q' : Target} (h : ∀ m : Target, m.matchTarget q' = m.matchTarget q) (hn : q'.filename = q.filename) :
    ∀ (n : Nat) (cur : Targets) (b : Bool) (v : List (String × String)) (r : Option Target), Visit c stored rawS q n cur b v r → Visit c stored rawS q' n cur b v r
  | 0, cur, b, v, r, hv => by
    unfold Visit at hv ⊢
    simp only [h]
    exact hv
  | n + 1, cur, b, v, r, hv => by
    unfold Visit at hv ⊢
    simp only [h, hn]
    rcases hv with hv | hv | ⟨h1, h2, h3⟩
    · exact .inl hv
    · exact .inr (.inl hv)
    · exact .inr (.inr ⟨h1, h2, namesVisit_congr (visit_congr h hn n) h3⟩)

/-! ### Running it -/

theorem delegation_run {name : String} (h : Role.isReserved (lower name) = false) (w : World) :
    (lift (Role.delegation name) : U Role) w = (.ok ⟨.delegation, name⟩, w) := by
  rw [lift_eq]
  unfold Role.delegation
  rw [h]
  rfl

theorem searchNames_skip {cur : Targets} {name : String} {names : List String} {off : Bool} {sub : Targets → Bool → U (Option Target)}
    (h1 : Role.isReserved (lower name) = false) (h2 : ¬ DelegatedFor c.env cur name q.filename) (w : World) :
    Delegation.searchNames c q off cur sub (name :: names) w = Delegation.searchNames c q off cur sub names w := by
  conv => lhs; unfold Delegation.searchNames
  rw [run_bind (delegation_run h1 w)]
  simp only
  cases hp : cur.pathsForRole.lookup name with
  | none => rfl
  | some ps =>
    have : ps.any (fun p => c.env.fnmatch p q.filename) = false := by
      cases hx : ps.any (fun p => c.env.fnmatch p q.filename) with
      | false => rfl
      | true => exact absurd ((covers_iff hp).2 hx) h2
    simp only [this, Bool.not_false, if_true]

theorem searchNames_visit {cur d : Targets} {name raw : String} {names : List String} {off b : Bool} {sub : Targets → Bool → U (Option Target)}
    {w w1 w2 : World} {r : Option Target}
    (h1 : Role.isReserved (lower name) = false) (h2 : DelegatedFor c.env cur name q.filename) (hrole : HonestRole c stored rawS cur name raw d b)
    (hg : Delegation.getTrusted c ⟨.delegation, name⟩ cur off w = (.ok d, w1)) (hs : sub d b { w1 with tick := w1.tick + 1 } = (.ok r, w2)) :
    Delegation.searchNames c q off cur sub (name :: names) w =
      match r with
      | some t => (.ok (some t), w2)
      | none => Delegation.searchNames c q off cur sub names w2 := by
  conv => lhs; unfold Delegation.searchNames
  rw [run_bind (delegation_run h1 w)]
  simp only
  obtain ⟨ps, hp, hx⟩ := h2
  have : ps.any (fun p => c.env.fnmatch p q.filename) = true := List.any_eq_true.2 hx
  simp only [hp, this, Bool.not_true, Bool.false_eq_true, if_false]
  rw [run_bind hg, run_bind (now_run c w1)]
  simp only [hrole.fresh w1.tick, Bool.false_eq_true, if_false]
  refine (run_bind (m := orThrow (cur.terminatingRole.lookup name) (.upt .reservedRoleName)) (w := { w1 with tick := w1.tick + 1 }) (by rw [hrole.kind]; rfl)).trans ?_
  refine (run_bind hs).trans ?_
  cases r <;> rfl

theorem names_online {cur : Targets} {sub : Targets → Bool → List (String × String) → Option Target → Prop} {run : Targets → Bool → U (Option Target)}
    (hS : ReadsAsSnapshot c.env rawS sn)
    (hsub : ∀ d b v r w, sub d b v r → w.img.snapshot = sn → Fresh c stored w.db → 2 * v.length ≤ w.fuel →
      ∃ w', run d b w = (.ok r, w') ∧ Grown c w w' v (2 * v.length))
    {names : List String} {v : List (String × String)} {r : Option Target} (h : NamesVisit c stored rawS q.filename cur sub names v r) :
    ∀ w : World, w.img.snapshot = sn → Fresh c stored w.db → 2 * v.length ≤ w.fuel →
      ∃ w', Delegation.searchNames c q false cur run names w = (.ok r, w') ∧ Grown c w w' v (2 * v.length) := by
  induction h with
  | nil => exact fun w _ _ _ => ⟨w, rfl, Grown.refl w⟩
  | skip h1 h2 _ ih =>
    intro w a1 a2 a3
    obtain ⟨w', e, g⟩ := ih w a1 a2 a3
    exact ⟨w', by rw [searchNames_skip h1 h2]; exact e, g⟩
  | @hit name names raw d b v t h1 h2 h3 h4 =>
    intro w a1 a2 a3
    simp only [List.length_cons] at a3 ⊢
    obtain ⟨w1, e1, g1⟩ := getTrusted_online h3 (by rw [a1]; exact hS) a2 (by omega)
    have hf1 := g1.fuel
    have g1' : Grown c w { w1 with tick := w1.tick + 1 } [(name, raw)] 2 := ⟨g1.1, g1.2, g1.3, g1.4, g1.5, g1.6, g1.7⟩
    obtain ⟨w2, e2, g2⟩ := hsub d b v (some t) { w1 with tick := w1.tick + 1 } h4 (by show w1.img.snapshot = sn; rw [g1.img, a1]) (a2.grown g1') (by show _ ≤ w1.fuel; omega)
    exact ⟨w2, by rw [searchNames_visit h1 h2 h3 e1 e2], (g1'.trans g2).le (by omega)⟩
  | @miss name names raw d b v v' r h1 h2 h3 h4 _ ih =>
    intro w a1 a2 a3
    simp only [List.cons_append, List.length_cons, List.length_append] at a3 ⊢
    obtain ⟨w1, e1, g1⟩ := getTrusted_online h3 (by rw [a1]; exact hS) a2 (by omega)
    have hf1 := g1.fuel
    have g1' : Grown c w { w1 with tick := w1.tick + 1 } [(name, raw)] 2 := ⟨g1.1, g1.2, g1.3, g1.4, g1.5, g1.6, g1.7⟩
    obtain ⟨w2, e2, g2⟩ := hsub d b v none { w1 with tick := w1.tick + 1 } h4 (by show w1.img.snapshot = sn; rw [g1.img, a1]) (a2.grown g1') (by show _ ≤ w1.fuel; omega)
    have g12 := g1'.trans g2
    have hf2 := g12.fuel
    obtain ⟨w3, e3, g3⟩ := ih w2 (by rw [g12.img, a1]) (a2.grown g12) (by omega)
    exact ⟨w3, by rw [searchNames_visit h1 h2 h3 e1 e2]; exact e3, (g12.trans g3).le (by omega)⟩

theorem findTarget_online (hS : ReadsAsSnapshot c.env rawS sn) : ∀ (n : Nat) (cur : Targets) (b : Bool) (v : List (String × String)) (r : Option Target) (w : World),
    Visit c stored rawS q n cur b v r → w.img.snapshot = sn → Fresh c stored w.db → 2 * v.length ≤ w.fuel →
    ∃ w', Delegation.findTarget c q false n cur b w = (.ok r, w') ∧ Grown c w w' v (2 * v.length)
  | 0, cur, b, v, r, w, h, _, _, _ => by
    obtain ⟨rfl, rfl⟩ := h
    exact ⟨w, rfl, Grown.refl w⟩
  | n + 1, cur, b, v, r, w, h, h1, h2, h3 => by
    unfold Delegation.findTarget
    rcases h with ⟨t, hf, rfl, rfl⟩ | ⟨hf, rfl, rfl, rfl⟩ | ⟨hf, rfl, hv⟩
    · rw [hf]
      exact ⟨w, rfl, Grown.refl w⟩
    · rw [hf]
      exact ⟨w, rfl, Grown.refl w⟩
    · rw [hf]
      simp only [Bool.false_eq_true, if_false]
      exact names_online hS (fun d b v r w => findTarget_online hS n d b v r w) hv w h1 h2 h3

theorem names_offline {cur : Targets} {sub : Targets → Bool → List (String × String) → Option Target → Prop} {run : Targets → Bool → U (Option Target)}
    (hS : ReadsAsSnapshot c.env rawS sn)
    (hsub : ∀ d b v r (w : World), sub d b v r → w.img.snapshot = sn → (∀ p ∈ v, w.db.loadDelegation p.1 = some p.2) →
      ∃ t, run d b w = (.ok r, { w with tick := t }))
    {names : List String} {v : List (String × String)} {r : Option Target} (h : NamesVisit c stored rawS q.filename cur sub names v r) :
    ∀ w : World, w.img.snapshot = sn → (∀ p ∈ v, w.db.loadDelegation p.1 = some p.2) →
      ∃ t, Delegation.searchNames c q true cur run names w = (.ok r, { w with tick := t }) := by
  induction h with
  | nil => exact fun w _ _ => ⟨w.tick, rfl⟩
  | skip h1 h2 _ ih =>
    intro w a1 a2
    obtain ⟨w', e⟩ := ih w a1 a2
    exact ⟨w', by rw [searchNames_skip h1 h2]; exact e⟩
  | @hit name names raw d b v t h1 h2 h3 h4 =>
    intro w a1 a2
    have e1 := getTrusted_held (off := true) h3 (by rw [a1]; exact hS) (a2 (name, raw) (by simp))
    obtain ⟨k, e2⟩ := hsub d b v (some t) { w with tick := w.tick + 1 } h4 a1 (fun p hp => a2 p (by simp [hp]))
    exact ⟨k, by rw [searchNames_visit h1 h2 h3 e1 e2]⟩
  | @miss name names raw d b v v' r h1 h2 h3 h4 _ ih =>
    intro w a1 a2
    have e1 := getTrusted_held (off := true) h3 (by rw [a1]; exact hS) (a2 (name, raw) (by simp))
    obtain ⟨k, e2⟩ := hsub d b v none { w with tick := w.tick + 1 } h4 a1 (fun p hp => a2 p (by simp [hp]))
    obtain ⟨k', e3⟩ := ih { w with tick := k } a1 (fun p hp => a2 p (by simp [hp]))
    exact ⟨k', by rw [searchNames_visit h1 h2 h3 e1 e2]; exact e3⟩

theorem findTarget_offline (hS : ReadsAsSnapshot c.env rawS sn) : ∀ (n : Nat) (cur : Targets) (b : Bool) (v : List (String × String)) (r : Option Target) (w : World),
    Visit c stored rawS q n cur b v r → w.img.snapshot = sn → (∀ p ∈ v, w.db.loadDelegation p.1 = some p.2) →
    ∃ t, Delegation.findTarget c q true n cur b w = (.ok r, { w with tick := t })
  | 0, cur, b, v, r, w, h, _, _ => by
    obtain ⟨rfl, rfl⟩ := h
    exact ⟨w.tick, rfl⟩
  | n + 1, cur, b, v, r, w, h, h1, h2 => by
    unfold Delegation.findTarget
    rcases h with ⟨t, hf, rfl, rfl⟩ | ⟨hf, rfl, rfl, rfl⟩ | ⟨hf, rfl, hv⟩
    · rw [hf]
      exact ⟨w.tick, rfl⟩
    · rw [hf]
      exact ⟨w.tick, rfl⟩
    · rw [hf]
      simp only [Bool.false_eq_true, if_false]
      exact names_offline hS (fun d b v r w => findTarget_offline hS n d b v r w) hv w h1 h2

/-- What the online search has visited is stored. -/
def Held (c : Ctx) (stored : List (String × String)) (rawS : String) (its : Targets) (db : MetaDb) (t m : Target) : Prop :=
  ∃ v, Visit c stored rawS t Delegation.kMaxDepth its false v (some m) ∧ ∀ p ∈ v, db.loadDelegation p.1 = some p.2 ∧
    Served c .image ⟨.delegation, p.1⟩ (-1) (8 * 1024 * 1024) p.2

theorem Held.grown {its : Targets} {w w' : World} {t m : Target} {v : List (String × String)} {n : Nat} (h : Held c stored rawS its w.db t m)
    (hg : Grown c w w' v n) : Held c stored rawS its w'.db t m := by
  obtain ⟨v, h1, h2⟩ := h
  exact ⟨v, h1, fun p hp => ⟨hg.keeps (h2 p hp).2 (h2 p hp).1, (h2 p hp).2⟩⟩

theorem findInTree_online {its : Targets} {w : World} {k : Nat} (hS : ReadsAsSnapshot c.env rawS w.img.snapshot)
    (hi : w.img.targets = some its) (h : Attainable c stored rawS its k q) (hfr : Fresh c stored w.db) (hf : 2 * k ≤ w.fuel) :
    ∃ m' v w', Listed c stored rawS its q m' ∧ Held c stored rawS its w'.db q m' ∧
      Delegation.findInTree c q false w = (.ok (some m'), w') ∧ Grown c w w' v (2 * k) := by
  obtain ⟨htree, m, hm⟩ := h
  obtain ⟨v, t, h1, h2, h3⟩ := visit_some htree hm
  obtain ⟨w', e, g⟩ := findTarget_online hS _ its false v (some t) w h1 rfl hfr (by omega)
  refine ⟨t, v, w', h3, ⟨v, h1, fun p hp => ⟨g.held p hp, g.served p hp⟩⟩, ?_, g.le (by omega)⟩
  unfold Delegation.findInTree
  rw [run_bind (by rw [gets_eq])]
  simp only [hi]
  exact e

theorem Held.same {its : Targets} {db : MetaDb} {t m : Target} (h : Held c stored rawS its db t m) : SameContent m t ∧ SameAssignment m t := by
  obtain ⟨v, h1, -⟩ := h
  exact listedUnder_same _ _ _ (visit_found _ _ _ _ _ h1)

theorem attainable_listed {its : Targets} {k : Nat} {t m : Target} (h : ListedBy its t m) : Attainable c stored rawS its k t :=
  ⟨honestTree_listed h, m, listedUnder_listed h⟩

theorem findInTree_offline {its : Targets} {w : World} {m t : Target} (hS : ReadsAsSnapshot c.env rawS w.img.snapshot)
    (hi : w.img.targets = some its) (hheld : Held c stored rawS its w.db t m) (hq : ∀ m : Target, m.matchTarget q = m.matchTarget t) (hn : q.filename = t.filename) :
    ∃ k, Delegation.findInTree c q true w = (.ok (some m), { w with tick := k }) := by
  obtain ⟨v, h1, h2⟩ := hheld
  obtain ⟨k, e⟩ := findTarget_offline hS _ its false v (some m) w (visit_congr hq hn _ _ _ _ _ h1) rfl (fun p hp => (h2 p hp).1)
  refine ⟨k, ?_⟩
  unfold Delegation.findInTree
  rw [run_bind (by rw [gets_eq])]
  simp only [hi]
  exact e

end Aktualizr
