import Verif.Spec.Generator
import Verif.Props.C70

/-!
# C73 The commands of the repository generator do what they say and nothing else
-/

namespace Aktualizr

open Spec

namespace Gen

/-- The state of the generator after any commands. -/
def Reached (g : GenEnv) (r : Repos) : Prop :=
  ∃ kd ki expires later cor r0 cs, kd.Ok g ∧ ki.Ok g ∧ IsTime later ∧ generate g kd ki expires later cor = .ok r0 ∧
    (∀ c ∈ cs, c.Sensible g) ∧ runAll g r0 cs = .ok r

theorem Reached.sane {g : GenEnv} (hg : Sound g) {r : Repos} (h : Reached g r) : Sane g r := by
  obtain ⟨kd, ki, _, _, _, r0, cs, h1, h2, h3, h4, h5, h6⟩ := h
  exact (runAll_ok hg cs (generate_ok hg h1 h2 h3 h4) h5 h6).sane

theorem at_one {j x : Json} {k : String} (h : j.get k = .ok x) : At j [k] x := ⟨x, h, rfl⟩

theorem signed_text {g : GenEnv} {d : Dir} {p : Path} {text : String} {b : Json} (h : d.files.lookup p = some text) (hs : d.signed g p = .ok b) : Signed g d p b := by
  refine ⟨text, h, ?_⟩
  unfold Dir.signed Dir.json at hs
  rw [h] at hs
  exact at_one hs

theorem signed_wrote {g : GenEnv} (hg : Sound g) {d : Dir} {p : Path} {keys : List (String × KeyPair)} {role text : String} {b : Json}
    (h : d.files.lookup p = some text) (hw : Wrote g keys role b text) : Signed g d p b := signed_text h (Dir.signed_of hg h hw)

theorem signed_same {g : GenEnv} {d d' : Dir} {p : Path} {b : Json} (h : Signed g d p b) (he : d'.files.lookup p = d.files.lookup p) : Signed g d' p b := by
  obtain ⟨t, h1, h2⟩ := h
  exact ⟨t, he.trans h1, h2⟩

/-- A role with content has a file. -/
theorem role_signed {g : GenEnv} {d : Dir} {p : Path} {b : Json} {v : Int} {e : String} (hs : d.signed g p = .ok b) (hb : TargetsBody b v e) : Signed g d p b := by
  cases hf : d.files.lookup p with
  | none =>
    unfold Dir.signed Dir.json at hs
    rw [hf] at hs
    cases hs
    obtain ⟨l, hl⟩ := hb.obj
    cases hl
  | some text => exact signed_text hf hs

theorem setPath_two {j j' v : Json} {a b : String} (h : setPath j [a, b] v = .ok j') :
    ∃ c c', j.get a = .ok c ∧ j'.get a = .ok c' ∧ c'.get b = .ok v ∧ (∀ k, k ≠ b → c'.get k = c.get k) ∧ ∀ k, k ≠ a → j'.get k = j.get k := by
  obtain ⟨c, c', h1, h2, h3⟩ := setPath_cons h
  obtain ⟨x, x', h4, h5, h6⟩ := setPath_cons h2
  cases h5
  exact ⟨c, c', h1, (setKey_ok h3).1, (setKey_ok h6).1, (setKey_ok h6).2.1, (setKey_ok h3).2.1⟩

/-! ### Images -/

theorem addImage_effect {g : GenEnv} (hg : Sound g) {d d' : Dir} (hb : Base g d) (hk : Keyed none d) {name hw : String} {target : Json} {deleg : Option String}
    (ht : EntryOk target) (hc : Canonical target) (hh : ∃ x, mkHwId hw = .ok x) (h : addImage g d name target hw deleg = .ok d') :
    ∃ role b b' c0 h0 hw' t, imageRole deleg = .ok role ∧ Signed g d (pathOf role) b ∧ Signed g d' (pathOf role) b' ∧ EntrySet b b' name t ∧ VersionUp b b' ∧
      SameBut b b' ["targets", "version"] ∧ Unchanged d d' [pathOf role, .snapshot, .timestamp] ∧
      target.get "custom" = .ok c0 ∧ c0.get "hardwareIds" = .ok h0 ∧ setFirst h0 (.str hw) = .ok hw' ∧ setPath target ["custom", "hardwareIds"] hw' = .ok t := by
  unfold addImage at h
  obtain ⟨role, hrole, h⟩ := exc_bind_ok.1 h
  obtain ⟨s, hs, h⟩ := exc_bind_ok.1 h
  obtain ⟨c, h1, h⟩ := exc_bind_ok.1 h
  obtain ⟨hj, h2, h⟩ := exc_bind_ok.1 h
  obtain ⟨hw', h3, h⟩ := exc_bind_ok.1 h
  obtain ⟨t', h4, h⟩ := exc_bind_ok.1 h
  obtain ⟨s1, h5, h⟩ := exc_bind_ok.1 h
  obtain ⟨s2, h6, h⟩ := exc_bind_ok.1 h
  obtain ⟨⟨d1, text⟩, h7, h⟩ := exc_bind_ok.1 h
  dsimp only at h
  obtain ⟨hok, hcan⟩ := withHardware_ok ht hc hh h1 h2 h3 h4
  have hl := imageRole_listed hrole
  obtain ⟨j, v, e, hj', hbody⟩ := role_there hg hb hk hl (by simp) rfl h7
  rw [hs] at hj'
  cases hj'
  have hb1 := hbody.withEntry h5 hok hcan
  have hb2 := hb1.bump' h6
  obtain ⟨hbase, p2, p3, -⟩ := put_ok hb hl hb2 h7
  have hgood := put_good hb hk hl hb2 h7
  obtain ⟨-, -, q3⟩ := updateRepo_good hg hgood.base hgood.keyed h
  obtain ⟨-, hset⟩ := bump_ok hb1.version hb1.range h6
  obtain ⟨ts, ts', t1, t2, t3, t4, t5⟩ := setPath_two h5
  have hpn := pathOf_ne role
  refine ⟨role, s, s2, c, hj, hw', t', hrole, role_signed hs hbody, signed_same (signed_wrote hg p3.1 p3.2) (q3.files _ hpn.1 hpn.2), ?_, ?_, ?_, ?_, h1, h2, h3, h4⟩
  · refine ⟨ts, ts', at_one t1, at_one ?_, at_one t3, fun k hk => t4 k (by simpa using hk)⟩
    rw [(setKey_ok hset).2.1 _ (by decide)]
    exact t2
  · exact ⟨v, at_one hbody.version, at_one hb2.version⟩
  · intro k hk
    rw [(setKey_ok hset).2.1 _ (fun hh => hk (by simp [hh])), t5 _ (fun hh => hk (by simp [hh]))]
  · intro q hq
    rw [q3.files q (fun hh => hq (by simp [hh])) (fun hh => hq (by simp [hh])), p2.files q (fun hh => hq (by simp [hh]))]

theorem findPattern_sound {g : GenEnv} {d : Dir} {name : String} : ∀ (n : Nat),
    (∀ {q : Path} {b : Json} {p : String}, (q = .targets ∨ ∃ m, q = .delegation m) → Signed g d q b → findPattern g d name n b = .ok p → p ≠ "" →
      ∀ image, g.env.fnmatch p image = true → Covers g d name image) ∧
    (∀ {q : Path} {b : Json} {p : String} {rs : Json} (l : List Json), (q = .targets ∨ ∃ m, q = .delegation m) → Signed g d q b → At b ["delegations", "roles"] rs →
      (∀ r ∈ l, r ∈ rs.elems) → findPatternIn g d name (findPattern g d name n) l = .ok p → p ≠ "" →
      ∀ image, g.env.fnmatch p image = true → Covers g d name image) := by
  intro n
  have step : ∀ (k : Nat), (∀ {q : Path} {b : Json} {p : String}, (q = .targets ∨ ∃ m, q = .delegation m) → Signed g d q b → findPattern g d name k b = .ok p → p ≠ "" →
      ∀ image, g.env.fnmatch p image = true → Covers g d name image) →
      ∀ (l : List Json) {q : Path} {b : Json} {p : String} {rs : Json}, (q = .targets ∨ ∃ m, q = .delegation m) → Signed g d q b → At b ["delegations", "roles"] rs →
      (∀ r ∈ l, r ∈ rs.elems) → findPatternIn g d name (findPattern g d name k) l = .ok p → p ≠ "" →
      ∀ image, g.env.fnmatch p image = true → Covers g d name image := by
    intro k ih l
    induction l with
    | nil =>
      intro q b p rs _ _ _ _ h hne
      cases h
      exact absurd rfl hne
    | cons r l ihl =>
      intro q b p rs hq hb hrs hl h hne image hm
      unfold findPatternIn at h
      obtain ⟨nj, h1, h⟩ := exc_bind_ok.1 h
      obtain ⟨rn, h2, h⟩ := exc_bind_ok.1 h
      by_cases hn : rn = name
      · rw [if_pos hn] at h
        obtain ⟨ps, h3, h⟩ := exc_bind_ok.1 h
        obtain ⟨p0, h4, h⟩ := exc_bind_ok.1 h
        split at h
        · cases h
        · injection h with h
          refine ⟨q, b, rs, r, nj, hq, hb, hrs, hl r List.mem_cons_self, at_one h1, by rw [h2, hn], ps, p0, at_one h3, h4, ?_⟩
          by_cases hs : p0.toList.getLast? = some '/'
          · rw [if_pos hs] at h
            exact .inr ⟨by rw [h]; exact hm, hs⟩
          · rw [if_neg hs] at h
            exact .inl ⟨by rw [h]; exact hm, hs⟩
      · rw [if_neg hn] at h
        obtain ⟨s, h3, h⟩ := exc_bind_ok.1 h
        obtain ⟨p1, h4, h⟩ := exc_bind_ok.1 h
        by_cases hp1 : p1 = ""
        · rw [if_neg (by simp [hp1])] at h
          exact ihl hq hb hrs (fun x hx => hl x (List.mem_cons_of_mem _ hx)) h hne image hm
        · rw [if_pos hp1] at h
          cases h
          have hsg : Signed g d (.delegation rn) s := by
            cases hf : d.files.lookup (.delegation rn) with
            | none =>
              unfold Dir.signed Dir.json at h3
              rw [hf] at h3
              cases h3
              cases k with
              | zero => cases h4
              | succ k => cases h4; exact absurd rfl hp1
            | some text => exact signed_text hf h3
          exact ih (.inr ⟨rn, rfl⟩) hsg h4 hne image hm
  have first : ∀ (k : Nat) {q : Path} {b : Json} {p : String}, (q = .targets ∨ ∃ m, q = .delegation m) → Signed g d q b → findPattern g d name k b = .ok p → p ≠ "" →
      ∀ image, g.env.fnmatch p image = true → Covers g d name image := by
    intro k
    induction k with
    | zero => intro q b p _ _ h; cases h
    | succ k ih =>
      intro q b p hq hb h hne image hm
      unfold findPattern at h
      obtain ⟨dl, h1, h⟩ := exc_bind_ok.1 h
      obtain ⟨rs, h2, h⟩ := exc_bind_ok.1 h
      exact step k ih rs.elems hq hb ⟨dl, h1, rs, h2, rfl⟩ (fun r hr => hr) h hne image hm
  exact ⟨first n, fun l hq hb hrs hl h hne => step n (first n) l hq hb hrs hl h hne⟩

theorem checkFor_ok {g : GenEnv} {d : Dir} (hb : Base g d) {deleg : Option String} {name : String} {role : Role} (h : checkFor g d deleg name = .ok ())
    (hr : imageRole deleg = .ok role) : RoleFor g d deleg name (pathOf role) := by
  cases deleg with
  | none => cases hr; exact .inl ⟨rfl, rfl⟩
  | some n =>
    refine .inr ⟨n, rfl, ?_⟩
    obtain ⟨_, h1, h⟩ := exc_bind_ok.1 h
    obtain ⟨_, h2, h⟩ := exc_bind_ok.1 h
    obtain ⟨s, h3, h⟩ := exc_bind_ok.1 h
    obtain ⟨p, h4, h⟩ := exc_bind_ok.1 h
    obtain ⟨_, h5, h⟩ := exc_bind_ok.1 h
    have h6 := throwIf_ok.1 h
    have h5 := throwIf_ok.1 h5
    obtain ⟨text0, j, v, e, k1, k2, hbody⟩ := hb.targets
    have hsg := signed_text k1 h3
    refine ⟨(findPattern_sound _).1 (.inl rfl) hsg h4 (by simpa using h5) name (by simpa using h6), ?_⟩
    unfold imageRole at hr
    by_cases hn : n = ""
    · simp only [hn, if_true] at hr ⊢
      cases hr
      rfl
    · simp only [hn, if_false] at hr ⊢
      have := (delegation_ok hr).1
      subst this
      rfl

theorem binary_entry {g : GenEnv} {content hw url : String} {c0 h0 hw' t : Json} (h1 : (binaryTarget g content url).get "custom" = .ok c0)
    (h2 : c0.get "hardwareIds" = .ok h0) (h3 : setFirst h0 (.str hw) = .ok hw') (h4 : setPath (binaryTarget g content url) ["custom", "hardwareIds"] hw' = .ok t) :
    BinaryEntry g content hw url t := by
  obtain ⟨c, c', s1, s2, s3, s4, s5⟩ := setPath_two h4
  have e1 : (binaryTarget g content url).get "custom" = .ok (.obj ([("targetFormat", .str "BINARY")] ++ (if url = "" then [] else [("uri", .str url)]))) := rfl
  rw [e1] at s1 h1
  cases s1
  cases h1
  have hnull : h0 = .null := by
    by_cases hu : url = ""
    · rw [if_pos hu] at h2; cases h2; rfl
    · rw [if_neg hu] at h2; cases h2; rfl
  subst hnull
  cases h3
  refine ⟨⟨hashesOf g content, ?_, _, rfl, rfl⟩, ⟨hashesOf g content, ?_, _, rfl, rfl⟩, at_one ?_, ⟨c', s2, at_one s3⟩, ⟨c', s2, at_one ?_⟩, ⟨c', s2, at_one ?_⟩⟩
  · rw [s5 _ (by decide)]; rfl
  · rw [s5 _ (by decide)]; rfl
  · rw [s5 _ (by decide)]; rfl
  · rw [s4 _ (by decide)]
    rfl
  · rw [s4 _ (by decide)]
    by_cases hu : url = ""
    · rw [if_pos hu, if_pos hu]; rfl
    · rw [if_neg hu, if_neg hu]; rfl

theorem setFirst_ok {j x j' : Json} (h : setFirst j x = .ok j') : ∃ more, j' = .arr (x :: more) := by
  cases j <;> cases h <;> exact ⟨_, rfl⟩

theorem custom_entry {hash : Hash} {length : Nat} {hw url : String} {custom c0 h0 hw' t0 t : Json} (ht : customTarget hash length url custom = .ok t0)
    (h1 : t0.get "custom" = .ok c0) (h3 : setFirst h0 (.str hw) = .ok hw')
    (h4 : setPath t0 ["custom", "hardwareIds"] hw' = .ok t) : CustomEntry hash length hw url custom t := by
  unfold customTarget at ht
  obtain ⟨t1, a1, ht⟩ := exc_bind_ok.1 ht
  have hh : (hash.type = .sha256 → At t1 ["hashes", "sha256"] (.str hash.hash)) ∧ (hash.type = .sha512 → At t1 ["hashes", "sha512"] (.str hash.hash)) ∧
      t1.get "length" = .ok (.int ((length : Int) % 4294967296)) ∧ t1.get "custom" = .ok custom := by
    cases hty : hash.type with
    | sha256 =>
      rw [hty] at a1
      obtain ⟨c, c', -, b2, b3, -, b5⟩ := setPath_two a1
      exact ⟨fun _ => ⟨c', b2, at_one b3⟩, (fun hx => by cases hx), b5 _ (by decide), b5 _ (by decide)⟩
    | sha512 =>
      rw [hty] at a1
      obtain ⟨c, c', -, b2, b3, -, b5⟩ := setPath_two a1
      exact ⟨(fun hx => by cases hx), fun _ => ⟨c', b2, at_one b3⟩, b5 _ (by decide), b5 _ (by decide)⟩
    | unknown =>
      rw [hty] at a1
      cases a1
      exact ⟨(fun hx => by cases hx), (fun hx => by cases hx), rfl, rfl⟩
  obtain ⟨k1, k2, k3, k4⟩ := hh
  have h2 : (∀ k, k ≠ "custom" → t0.get k = t1.get k) ∧ (url ≠ "" → c0.get "uri" = .ok (.str url)) ∧ (∀ k, (url = "" ∨ k ≠ "uri") → c0.get k = custom.get k) := by
    by_cases hu : url = ""
    · rw [if_pos hu] at ht
      cases ht
      rw [h1] at k4
      cases k4
      exact ⟨fun _ _ => rfl, fun hx => absurd hu hx, fun _ _ => rfl⟩
    · rw [if_neg hu] at ht
      obtain ⟨c, c', b1, b2, b3, b4, b5⟩ := setPath_two ht
      rw [b1] at k4
      cases k4
      rw [h1] at b2
      cases b2
      exact ⟨b5, fun _ => b3, fun k hk => b4 k (hk.resolve_left hu)⟩
  obtain ⟨m1, m2, m3⟩ := h2
  obtain ⟨c, c', s1, s2, s3, s4, s5⟩ := setPath_two h4
  rw [h1] at s1
  cases s1
  have hashes : t.get "hashes" = t1.get "hashes" := (s5 _ (by decide)).trans (m1 _ (by decide))
  refine ⟨?_, ?_, ?_, ?_, ?_, ?_⟩
  · intro hty
    obtain ⟨x, y1, y2⟩ := k1 hty
    exact ⟨x, hashes.trans y1, y2⟩
  · intro hty
    obtain ⟨x, y1, y2⟩ := k2 hty
    exact ⟨x, hashes.trans y1, y2⟩
  · intro hl
    refine at_one ((s5 _ (by decide)).trans ((m1 _ (by decide)).trans ?_))
    rw [k3, show (length : Int) % 4294967296 = length by omega]
  · obtain ⟨more, rfl⟩ := setFirst_ok h3
    exact ⟨more, c', s2, at_one s3⟩
  · intro hu
    exact ⟨c', s2, at_one ((s4 _ (by decide)).trans (m2 hu))⟩
  · refine ⟨c', at_one s2, fun k hk => ?_⟩
    have hk1 : k ≠ "hardwareIds" := fun hh => hk (by simp [hh])
    refine (s4 _ hk1).trans (m3 k ?_)
    by_cases hu : url = ""
    · exact .inl hu
    · exact .inr (fun hh => hk (by simp [hu, hh]))

/-! ### Targets of the Director -/

theorem assigns_of {e t : Json} {hw serial url : String} (h : directorTarget e hw serial url = .ok t) : Assigns e t hw serial url := by
  unfold directorTarget at h
  obtain ⟨c0, h1, h⟩ := exc_bind_ok.1 h
  obtain ⟨c1, h2, h⟩ := exc_bind_ok.1 h
  obtain ⟨c2, h3, h⟩ := exc_bind_ok.1 h
  obtain ⟨c3, h4, h⟩ := exc_bind_ok.1 h
  obtain ⟨x, x', a1, a2, a3⟩ := setPath_cons h3
  obtain ⟨y, y', b1, b2, b3⟩ := setPath_cons a2
  obtain ⟨z, z', -, e2, e3⟩ := setPath_cons b2
  cases e2
  have hu : (∀ k, k ≠ "uri" → c3.get k = c2.get k) ∧ c3.get "uri" = .ok (if url = "" then .null else .str url) := by
    by_cases hu : url = ""
    · rw [if_pos hu] at h4 ⊢
      exact ⟨(removeMember_ok h4).2.1, (removeMember_ok h4).2.2⟩
    · rw [if_neg hu] at h4 ⊢
      exact ⟨(setKey_ok h4).2.1, (setKey_ok h4).1⟩
  have hecu : c3.get "ecuIdentifiers" = .ok x' := (hu.1 _ (by decide)).trans (setKey_ok a3).1
  have hc : t.get "custom" = .ok c3 := (setKey_ok h).1
  refine ⟨fun k hk => (setKey_ok h).2.1 k (by simpa using hk), ⟨c3, hc, x', hecu, y', (setKey_ok b3).1, at_one (setKey_ok e3).1⟩, ?_, ⟨c3, hc, at_one ?_⟩, ⟨c3, hc, at_one hu.2⟩, ?_⟩
  · rintro s v hs ⟨c, k1, i, k2, v', k3, k4⟩
    rw [h1] at k1
    cases k1
    rw [← (removeMember_ok h2).2.1 _ (by decide), a1] at k2
    cases k2
    cases k4
    exact ⟨c3, hc, x', hecu, at_one (((setKey_ok b3).2.1 s hs).trans k3)⟩
  · rw [hu.1 _ (by decide), (setKey_ok a3).2.1 _ (by decide)]
    exact (removeMember_ok h2).2.2
  · refine ⟨c0, c3, at_one h1, at_one hc, fun k hk => ?_⟩
    rw [hu.1 k (fun hh => hk (by simp [hh])), (setKey_ok a3).2.1 _ (fun hh => hk (by simp [hh])), (removeMember_ok h2).2.1 _ (fun hh => hk (by simp [hh]))]

theorem current_of {g : GenEnv} {d : Dir} (hb : Base g d) {s : Json} (h : staged g d = .ok s) : Current g d s := by
  unfold staged at h
  cases hl : d.files.lookup .staging with
  | some text =>
    rw [if_pos (by unfold Dir.has; rw [hl]; rfl)] at h
    cases h
    refine .inl ⟨text, hl, ?_⟩
    unfold Dir.json
    rw [hl]
  | none =>
    rw [if_neg (by unfold Dir.has; rw [hl]; simp)] at h
    obtain ⟨text, j, v, e, h1, h2, h3⟩ := hb.targets
    rw [if_pos (by unfold Dir.has; rw [h1]; rfl)] at h
    exact .inr ⟨hl, signed_text h1 h⟩

theorem next_of {g : GenEnv} (hg : Sound g) {d : Dir} (hb : Base g d) {x b : Json} (h : nextVersion g d = .ok x) (hx : b.get "version" = .ok x) : NextVersion g d b := by
  obtain ⟨v, ⟨j, h1, h2, -⟩, rfl, -⟩ := nextVersion_ok hg hb h
  obtain ⟨text, j', _, _, k1, k2, -⟩ := hb.targets
  exact ⟨j, v, signed_text k1 h1, at_one h2, at_one hx⟩

theorem staged_write {g : GenEnv} (hg : Sound g) {d d' : Dir} {s : Json} (hc : Canonical s) (h : d'.files.lookup .staging = (d.write .staging (g.env.canon s)).files.lookup .staging) :
    Staged g d' s := ⟨_, h.trans lookup_write_same, hg.reads _ hc⟩

theorem listsImage_of {g : GenEnv} {d : Dir} {name : String} {t : Json} (h : FoundIn g d name t) : ∃ p, ListsImage g d p name t := by
  obtain ⟨p, s, ts, h1, h2, h3, h4, h5⟩ := h
  refine ⟨p, s, ts, h1, ?_, at_one h3, h4, at_one h5⟩
  cases hf : d.files.lookup p with
  | none =>
    unfold Dir.signed Dir.json at h2
    rw [hf] at h2
    cases h2
    cases h3
    cases h4
  | some text => exact signed_text hf h2

/-- An entry is sought in Targets first, then in the delegated roles. -/
theorem inDelegations_all {g : GenEnv} {d : Dir} {name : String} {t : Json} : ∀ (fs : List (Path × String)), getTarget.inDelegations g d name fs = .ok t →
    (∀ n b ts, (∃ x, (Path.delegation n, x) ∈ fs) → Role.isReserved n = false → Signed g d (.delegation n) b → At b ["targets"] ts → ts.isMember name ≠ .ok true) ∨ FoundIn g d name t
  | [], _ => .inl (fun n b ts ⟨x, hx⟩ => by cases hx)
  | (p, x) :: fs, h => by
    have ih := inDelegations_all (g := g) (d := d) (name := name) (t := t) fs
    have skip : getTarget.inDelegations g d name fs = .ok t →
        (∀ n b ts, p = .delegation n → Role.isReserved n = false → Signed g d (.delegation n) b → At b ["targets"] ts → ts.isMember name ≠ .ok true) →
        (∀ n b ts, (∃ y, (Path.delegation n, y) ∈ (p, x) :: fs) → Role.isReserved n = false → Signed g d (.delegation n) b → At b ["targets"] ts → ts.isMember name ≠ .ok true) ∨ FoundIn g d name t := by
      intro h0 hp
      refine (ih h0).imp ?_ id
      rintro hall n b ts ⟨y, hy⟩ hr hb hts
      rcases List.mem_cons.1 hy with hy | hy
      · cases hy; exact hp n b ts rfl hr hb hts
      · exact hall n b ts ⟨y, hy⟩ hr hb hts
    cases p with
    | delegation n =>
      unfold getTarget.inDelegations at h
      by_cases hr : Role.isReserved n = true
      · rw [if_pos hr] at h
        exact skip h (fun m _ _ hm hr' => by cases hm; rw [hr] at hr'; cases hr')
      · rw [if_neg hr] at h
        obtain ⟨s, h1, h⟩ := exc_bind_ok.1 h
        obtain ⟨ts, h2, h⟩ := exc_bind_ok.1 h
        obtain ⟨b, h3, h⟩ := exc_bind_ok.1 h
        cases b with
        | true => exact .inr ⟨_, s, ts, .inr ⟨n, rfl⟩, h1, h2, h3, h⟩
        | false =>
          refine skip h ?_
          rintro m b ts' hm - ⟨text, k1, k2, k3, k4⟩ ⟨y, k5, k6⟩
          cases hm
          cases k4
          cases k6
          unfold Dir.signed Dir.json at h1
          rw [k1] at h1
          rw [h1] at k3
          cases k3
          rw [h2] at k5
          cases k5
          rw [h3]
          simp
    | _ => exact skip h (fun m _ _ hm => by cases hm)

theorem at_det {j x y : Json} : ∀ {p : List String}, At j p x → At j p y → x = y
  | [], h1, h2 => by cases h1; cases h2; rfl
  | k :: p, ⟨c, a1, a2⟩, ⟨c', b1, b2⟩ => by
    rw [a1] at b1
    cases b1
    exact at_det a2 b2

theorem signed_det {g : GenEnv} {d : Dir} {p : Path} {b b' : Json} (h1 : Signed g d p b) (h2 : Signed g d p b') : b = b' := by
  obtain ⟨t, a1, a2⟩ := h1
  obtain ⟨t', b1, b2⟩ := h2
  rw [a1] at b1
  cases b1
  exact at_det a2 b2

theorem isMember_total {ts : Json} (h : ts = .null ∨ ∃ l, ts = .obj l) (k : String) : ∃ m, ts.isMember k = .ok m := by
  rcases h with rfl | ⟨l, rfl⟩ <;> exact ⟨_, rfl⟩

theorem get_total {ts : Json} (h : ts = .null ∨ ∃ l, ts = .obj l) (k : String) : ∃ x, ts.get k = .ok x := by
  rcases h with rfl | ⟨l, rfl⟩ <;> exact ⟨_, rfl⟩

theorem reserved_lower {n : String} (h : Role.isReserved n = true) : Role.isReserved (lower n) = true := by
  have : n = "root" ∨ n = "targets" ∨ n = "snapshot" ∨ n = "timestamp" := by
    unfold Role.isReserved at h
    simpa [or_assoc] using h
  rcases this with rfl | rfl | rfl | rfl <;> decide

theorem mem_lookup {l : List (Path × String)} {p : Path} {x : String} (h : (p, x) ∈ l) : ∃ y, l.lookup p = some y := by
  induction l with
  | nil => cases h
  | cons a l ih =>
    obtain ⟨q, z⟩ := a
    by_cases hq : p = q
    · exact ⟨z, by simp [hq]⟩
    · rcases List.mem_cons.1 h with h | h
      · cases h; exact absurd rfl hq
      · obtain ⟨y, hy⟩ := ih h
        exact ⟨y, by rw [List.lookup_cons, beq_false_of_ne hq]; exact hy⟩

theorem file_mem {l : List (Path × String)} {p : Path} {y : String} (h : l.lookup p = some y) : (p, y) ∈ l := by
  induction l with
  | nil => cases h
  | cons a l ih =>
    obtain ⟨q, z⟩ := a
    by_cases hq : p = q
    · subst hq
      simp at h
      subst h
      exact List.mem_cons_self
    · rw [List.lookup_cons, beq_false_of_ne hq] at h
      exact List.mem_cons_of_mem _ (ih h)

theorem inDelegations_total {g : GenEnv} (hg : Sound g) {d : Dir} (hb : Base g d) {name : String} : ∀ (fs : List (Path × String)), (∀ p x, (p, x) ∈ fs → (p, x) ∈ d.files) →
    ∃ t, getTarget.inDelegations g d name fs = .ok t
  | [], _ => ⟨_, rfl⟩
  | (p, x) :: fs, h => by
    obtain ⟨t, ih⟩ := inDelegations_total hg hb (name := name) fs (fun p x hx => h p x (List.mem_cons_of_mem _ hx))
    cases p with
    | delegation n =>
      unfold getTarget.inDelegations
      obtain ⟨y, hy⟩ := mem_lookup (h _ _ List.mem_cons_self)
      obtain ⟨-, j, v, e, h1, h2⟩ := hb.delegated _ _ hy
      obtain ⟨ts, t1, t2, -⟩ := h2.targets
      obtain ⟨m, hm⟩ := isMember_total t2 name
      obtain ⟨z, hz⟩ := get_total t2 name
      rw [Dir.signed_of hg hy h1, exc_bind_of_ok, t1, exc_bind_of_ok, hm, exc_bind_of_ok, ih, hz]
      split
      · exact ⟨_, rfl⟩
      · cases m <;> exact ⟨_, rfl⟩
    | _ => exact ⟨t, ih⟩

end Gen

open Gen

/-- **C73** `image`: the role asked for, which has a pattern that fits, lists the file with its digests and length for the
hardware given, in a version one higher; the other images and members, the other files but Snapshot and
Timestamp, and the Director stay. -/
theorem C73_image {g : GenEnv} (hg : Sound g) {r r' : Repos} (hr : Reached g r) {content name hw url : String} {deleg : Option String}
    (hc : (Cmd.image content name hw url deleg).Sensible g) (h : run g r (.image content name hw url deleg) = .ok r') :
    ∃ p b b' t, RoleFor g r.image deleg name p ∧ Signed g r.image p b ∧ Signed g r'.image p b' ∧ EntrySet b b' name t ∧ BinaryEntry g content hw url t ∧ VersionUp b b' ∧
      SameBut b b' ["targets", "version"] ∧ Unchanged r.image r'.image [p, .snapshot, .timestamp] ∧ r'.director = r.director := by
  have hs := hr.sane hg
  obtain ⟨_, h1, h⟩ := exc_bind_ok.1 h
  obtain ⟨d', h2, h⟩ := exc_bind_ok.1 h
  cases h
  obtain ⟨b1, b2⟩ := binaryTarget_ok g url hc.2
  obtain ⟨role, b, b', c0, h0, hw', t, e1, e2, e3, e4, e5, e6, e7, e8, e9, e10, e11⟩ := addImage_effect hg hs.image.base hs.image.keyed b1 b2 (hwid_ok hc.1) h2
  exact ⟨pathOf role, b, b', t, checkFor_ok hs.image.base h1 e1, e2, e3, e4, binary_entry e8 e9 e10 e11, e5, e6, e7, rfl⟩

/-- **C73** `image` without a file: the same, with the hash, the length and the custom part given. -/
theorem C73_custom_image {g : GenEnv} (hg : Sound g) {r r' : Repos} (hr : Reached g r) {name hw url : String} {hash : Hash} {length : Nat} {deleg : Option String} {custom : Json}
    (hc : (Cmd.customImage name hash length hw url deleg custom).Sensible g) (h : run g r (.customImage name hash length hw url deleg custom) = .ok r') :
    ∃ p b b' t, RoleFor g r.image deleg name p ∧
      Signed g r.image p b ∧ Signed g r'.image p b' ∧ EntrySet b b' name t ∧ CustomEntry hash length hw url custom t ∧ VersionUp b b' ∧
      SameBut b b' ["targets", "version"] ∧ Unchanged r.image r'.image [p, .snapshot, .timestamp] ∧ r'.director = r.director := by
  have hs := hr.sane hg
  obtain ⟨_, h1, h⟩ := exc_bind_ok.1 h
  obtain ⟨t0, h2, h⟩ := exc_bind_ok.1 h
  obtain ⟨d', h3, h⟩ := exc_bind_ok.1 h
  cases h
  obtain ⟨c0, k1, k2⟩ := (ofJson_iff.1 hc.2.2).custom
  cases k1
  obtain ⟨b1, b2⟩ := customTarget_ok k2 hc.2.1 h2
  obtain ⟨role, b, b', c0, h0, hw', t, e1, e2, e3, e4, e5, e6, e7, e8, e9, e10, e11⟩ := addImage_effect hg hs.image.base hs.image.keyed b1 b2 (hwid_ok hc.1) h3
  exact ⟨pathOf role, b, b', t, checkFor_ok hs.image.base h1 e1, e2, e3, e4, custom_entry h2 e8 e10 e11, e5, e6, e7, rfl⟩

/-- **C73** `addtarget`: what is staged (or else published) for the Director gets the Image repository's entry, made for
the ECU given, in the version after the published one; what is published stays. -/
theorem C73_add_target {g : GenEnv} (hg : Sound g) {r r' : Repos} (hr : Reached g r) {name hw serial url expires : String}
    (hc : (Cmd.addTarget name hw serial url expires).Sensible g) (h : run g r (.addTarget name hw serial url expires) = .ok r') :
    ∃ p e b b' t, ListsImage g r.image p name e ∧ Assigns e t hw serial url ∧ Current g r.director b ∧ Staged g r'.director b' ∧ EntrySet b b' name t ∧
      NextVersion g r.director b' ∧ (expires ≠ "" → At b' ["expires"] (.str expires)) ∧
      SameBut b b' (["targets", "version"] ++ if expires = "" then [] else ["expires"]) ∧
      Unchanged r.director r'.director [.staging, .snapshot, .timestamp] ∧ r'.image = r.image := by
  obtain ⟨hd, hp, hi⟩ := hr.sane hg
  obtain ⟨x, h1, h⟩ := exc_bind_ok.1 h
  obtain ⟨e, h2, h⟩ := exc_bind_ok.1 h
  obtain ⟨_, h3, h⟩ := exc_bind_ok.1 h
  obtain ⟨d', h4, h⟩ := exc_bind_ok.1 h
  cases h
  have hl : ∃ p, ListsImage g r.image p name e := by
    rcases getTarget_found h2 with rfl | hf
    · exact absurd (throwIf_ok.1 h3) (by decide)
    · exact listsImage_of hf
  obtain ⟨p, hl⟩ := hl
  obtain ⟨b1, b2⟩ := getTarget_ok hg hi.base h2
  have he : expires ≠ "" → IsTime expires := by
    intro hne
    unfold expirationTime at h1
    rw [if_neg hne] at h1
    split at h1
    · rename_i ht; exact isTime_ok ht
    · cases h1
  unfold addTarget at h4
  obtain ⟨s, a1, h4⟩ := exc_bind_ok.1 h4
  obtain ⟨s1, a2, h4⟩ := exc_bind_ok.1 h4
  obtain ⟨t, a3, h4⟩ := exc_bind_ok.1 h4
  obtain ⟨s2, a4, h4⟩ := exc_bind_ok.1 h4
  obtain ⟨x, a5, h4⟩ := exc_bind_ok.1 h4
  obtain ⟨s3, a6, hup⟩ := exc_bind_ok.1 h4
  obtain ⟨⟨v, e0, hbody⟩, -⟩ := staged_ok hg hd.base a1
  obtain ⟨hok, hcan⟩ := directorTarget_ok b1 b2 (serial_ok hc.2.1 hc.2.2) (hwid_ok hc.1) a3
  have hb1 : (∃ e, TargetsBody s1 v e) ∧ (expires ≠ "" → s1.get "expires" = .ok (.str expires)) ∧ ∀ k, (expires = "" ∨ k ≠ "expires") → s1.get k = s.get k := by
    by_cases hne : expires = ""
    · rw [if_pos hne] at a2
      cases a2
      exact ⟨⟨_, hbody⟩, fun hx => absurd hne hx, fun _ _ => rfl⟩
    · rw [if_neg hne] at a2
      exact ⟨⟨_, hbody.withExpires a2 (he hne)⟩, fun _ => (setKey_ok a2).1, fun k hk => (setKey_ok a2).2.1 k (hk.resolve_left hne)⟩
  obtain ⟨⟨e1, hb1⟩, hex, hsame⟩ := hb1
  obtain ⟨w, hw', rfl, hrange⟩ := nextVersion_ok hg hd.base a5
  have hb3 := (hb1.withEntry a4 hok hcan).withVersion a6 hrange
  have hgood := stage_ok hd.base hd.keyed hb3
  obtain ⟨-, -, q3⟩ := updateRepo_good hg hgood.base hgood.keyed hup
  obtain ⟨ts, ts', t1, t2, t3, t4, t5⟩ := setPath_two a4
  have hver := (setKey_ok a6).1
  have hoth := (setKey_ok a6).2.1
  refine ⟨p, e, s, s3, t, hl, assigns_of a3, current_of hd.base a1, staged_write hg hb3.canonical (q3.files _ (by simp) (by simp)), ?_, next_of hg hd.base a5 hver, ?_, ?_, ?_, rfl⟩
  · exact ⟨ts, ts', at_one ((hsame _ (.inr (by decide))).symm.trans t1), at_one ((hoth _ (by decide)).trans t2), at_one t3, fun k hk => t4 k (by simpa using hk)⟩
  · intro hne
    exact at_one ((hoth _ (by decide)).trans ((t5 _ (by decide)).trans (hex hne)))
  · intro k hk
    rw [hoth k (fun hh => hk (by simp [hh])), t5 k (fun hh => hk (by simp [hh])), hsame k]
    by_cases hne : expires = ""
    · exact .inl hne
    · exact .inr (fun hh => hk (by simp [hh, hne]))
  · intro q hq
    rw [q3.files q (fun hh => hq (by simp [hh])) (fun hh => hq (by simp [hh])), lookup_write_other (fun hh => hq (by simp [hh]))]

/-- **C73** `Repo::getTarget`: an image that some role of the Image repository lists is found, the entry of the top-level
Targets first. -/
theorem C73_get_target {g : GenEnv} (hg : Sound g) {r : Repos} (hr : Reached g r) {p : Gen.Path} {name : String} {e : Json} (hl : ListsImage g r.image p name e) :
    ∃ q e', getTarget g r.image name = .ok e' ∧ ListsImage g r.image q name e' ∧ (p = .targets → e' = e) := by
  obtain ⟨-, -, hi⟩ := hr.sane hg
  obtain ⟨text0, j, v, e0, k1, k2, hbody⟩ := hi.base.targets
  have hsig := Dir.signed_of hg k1 k2
  obtain ⟨ts, t1, t2, -⟩ := hbody.targets
  obtain ⟨m, hm⟩ := isMember_total t2 name
  obtain ⟨x, hx⟩ := inDelegations_total hg hi.base (name := name) r.image.files (fun _ _ h => h)
  obtain ⟨b, ts', l1, l2, l3, l4, l5⟩ := hl
  have heq : getTarget g r.image name = if m then ts.get name else .ok x := by
    unfold getTarget
    rw [hsig, exc_bind_of_ok, t1, exc_bind_of_ok, hm, exc_bind_of_ok, hx]
  cases m with
  | true =>
    obtain ⟨y, hy⟩ := get_total t2 name
    refine ⟨.targets, y, heq.trans hy, ⟨j, ts, .inl rfl, signed_wrote hg k1 k2, at_one t1, hm, at_one hy⟩, ?_⟩
    rintro rfl
    have := signed_det l2 (signed_wrote hg k1 k2)
    subst this
    have := at_det l3 (at_one t1)
    subst this
    exact at_det (at_one hy) l5
  | false =>
    have hpn : p ≠ .targets := by
      rintro rfl
      have := signed_det l2 (signed_wrote hg k1 k2)
      subst this
      have := at_det l3 (at_one t1)
      subst this
      rw [hm] at l4
      cases l4
    rcases inDelegations_all _ hx with hall | hf
    · exfalso
      rcases l1 with l1 | ⟨n, rfl⟩
      · exact hpn l1
      · obtain ⟨y, y1, -⟩ := id l2
        refine hall n b ts' ⟨y, file_mem y1⟩ ?_ l2 l3 l4
        cases hres : Role.isReserved n with
        | false => rfl
        | true =>
          have := (hi.base.delegated _ _ y1).1
          rw [reserved_lower hres] at this
          cases this
    · obtain ⟨q, hq⟩ := listsImage_of hf
      exact ⟨q, x, heq, hq, fun hh => absurd hh hpn⟩

/-- **C73** `signtargets`: what was staged is published as it was, and no longer staged. -/
theorem C73_sign_targets {g : GenEnv} (hg : Sound g) {r r' : Repos} (hr : Reached g r) (h : run g r .signTargets = .ok r') :
    ∃ b, Current g r.director b ∧ Signed g r'.director .targets b ∧ r'.director.files.lookup .staging = none ∧
      Unchanged r.director r'.director [.targets, .staging, .snapshot, .timestamp] ∧ r'.image = r.image := by
  obtain ⟨hd, hp, hi⟩ := hr.sane hg
  obtain ⟨d', hx, h'⟩ := exc_bind_ok.1 h
  cases h'
  have h := hx
  unfold signTargets at h
  obtain ⟨s, h1, h⟩ := exc_bind_ok.1 h
  obtain ⟨⟨d1, text⟩, h2, h⟩ := exc_bind_ok.1 h
  dsimp only at h
  obtain ⟨⟨v, e, hbody⟩, -⟩ := staged_ok hg hd.base h1
  have h2' : writeSigned g r.director (pathOf Role.targets) Role.targets.name s = .ok (d1, text) := h2
  have hgood := put_good hd.base hd.keyed (.inl rfl) hbody h2'
  obtain ⟨-, p2, p3, -⟩ := put_ok hd.base (.inl rfl) hbody h2'
  have ho : ∀ q, q ≠ Path.staging → (d1.remove .staging).files.lookup q = d1.files.lookup q := fun q hq => lookup_remove_other hq
  have hk2 : Keyed none (d1.remove .staging) := by
    intro n kp a b c
    rw [ho _ (by simp)]
    exact hgood.keyed n kp a b c
  obtain ⟨-, -, q3⟩ := updateRepo_good hg (hgood.base.remove (.inr rfl)) hk2 h
  refine ⟨s, current_of hd.base h1, signed_same (signed_wrote hg p3.1 p3.2) ((q3.files _ (by simp) (by simp)).trans (ho _ (by simp))),
    (q3.files _ (by simp) (by simp)).trans lookup_remove_same, ?_, rfl⟩
  intro q hq
  rw [q3.files q (fun hh => hq (by simp [hh])) (fun hh => hq (by simp [hh])), ho q (fun hh => hq (by simp [hh])), p2.files q (fun hh => hq (by rw [hh]; exact List.mem_cons_self))]

/-- **C73** `emptytargets`: an empty list is staged, in the version after the published one, with the expiry time and the
correlation id given; nothing else changes. -/
theorem C73_empty_targets {g : GenEnv} (hg : Sound g) {r r' : Repos} (hr : Reached g r) {expires later correlation : String}
    (hc : (Cmd.emptyTargets expires later correlation).Sensible g) (h : run g r (.emptyTargets expires later correlation) = .ok r') :
    ∃ b, Staged g r'.director b ∧ At b ["targets"] (.obj []) ∧ At b ["_type"] (.str "Targets") ∧ NextVersion g r.director b ∧
      At b ["expires"] (.str (if expires = "" then later else expires)) ∧ (correlation ≠ "" → At b ["custom", "correlationId"] (.str correlation)) ∧
      Unchanged r.director r'.director [.staging] ∧ r'.image = r.image := by
  obtain ⟨hd, hp, hi⟩ := hr.sane hg
  obtain ⟨e, he, h⟩ := exc_bind_ok.1 h
  obtain ⟨d', hy, h'⟩ := exc_bind_ok.1 h
  cases h'
  have h := hy
  have hee : e = if expires = "" then later else expires := by
    unfold expirationTime at he
    by_cases hx : expires = ""
    · rw [if_pos hx] at he ⊢; cases he; rfl
    · rw [if_neg hx] at he ⊢
      split at he
      · cases he; rfl
      · cases he
  have htime := expirationTime_ok hc he
  unfold emptyTargets at h
  obtain ⟨s1, h1, h⟩ := exc_bind_ok.1 h
  obtain ⟨s2, h2, h⟩ := exc_bind_ok.1 h
  obtain ⟨x, hx, h⟩ := exc_bind_ok.1 h
  obtain ⟨s3, h3, h⟩ := exc_bind_ok.1 h
  obtain ⟨s4, h4, h⟩ := exc_bind_ok.1 h
  obtain ⟨s5, h5, h⟩ := exc_bind_ok.1 h
  injection h with h
  subst h
  obtain ⟨w, hw, rfl, hr⟩ := nextVersion_ok hg hd.base hx
  have h0 : r.director.json g .staging = .null ∨ ∃ v e, TargetsBody (r.director.json g .staging) v e := by
    unfold Dir.json
    cases hl : r.director.files.lookup .staging with
    | none => exact .inl rfl
    | some text =>
      obtain ⟨j, v, e, rfl, hj⟩ := hd.base.staging _ hl
      refine .inr ⟨v, e, ?_⟩
      dsimp only
      rw [hg.reads _ hj.canonical]
      exact hj
  obtain ⟨hbody, -⟩ := emptied_body h0 htime hr h1 h2 h3 h4 h5
  have ht : s5.get "targets" = .ok (.obj []) ∧ (correlation ≠ "" → At s5 ["custom", "correlationId"] (.str correlation)) := by
    by_cases hcor : correlation = ""
    · rw [if_pos hcor] at h5
      cases h5
      exact ⟨(setKey_ok h4).1, fun hx => absurd hcor hx⟩
    · rw [if_neg hcor] at h5
      obtain ⟨c, c', k1, k2, k3, k4, k5⟩ := setPath_two h5
      exact ⟨(k5 _ (by decide)).trans (setKey_ok h4).1, fun _ => ⟨c', k2, at_one k3⟩⟩
  exact ⟨s5, staged_write hg hbody.canonical rfl, at_one ht.1, at_one hbody.type, next_of hg hd.base hx hbody.version, by rw [← hee]; exact at_one hbody.expires, ht.2,
    (fun q hq => lookup_write_other (by simpa using hq)), rfl⟩

/-- **C73** `oldtargets`: what is published is staged again. -/
theorem C73_old_targets {g : GenEnv} (hg : Sound g) {r r' : Repos} (hr : Reached g r) (h : run g r .oldTargets = .ok r') :
    ∃ b, Signed g r.director .targets b ∧ Staged g r'.director b ∧ Unchanged r.director r'.director [.staging] ∧ r'.image = r.image := by
  obtain ⟨hd, hp, hi⟩ := hr.sane hg
  obtain ⟨d', hx, h'⟩ := exc_bind_ok.1 h
  cases h'
  have h := hx
  unfold oldTargets at h
  obtain ⟨_, h1, h⟩ := exc_bind_ok.1 h
  obtain ⟨s, h2, h⟩ := exc_bind_ok.1 h
  cases h
  obtain ⟨text0, j, v, e, k1, k2, hbody⟩ := hd.base.targets
  have hsig := Dir.signed_of hg k1 k2
  rw [h2] at hsig
  cases hsig
  exact ⟨s, signed_text k1 h2, staged_write hg hbody.canonical rfl, (fun q hq => lookup_write_other (by simpa using hq)), rfl⟩

namespace Gen

theorem refreshed_effect {s s' : Json} {now : TimeStamp} {soon e : String} {v : Int} (he : s.get "expires" = .ok (.str e)) (hv : s.get "version" = .ok (.int v))
    (hr : 0 ≤ v ∧ v ≤ 4294967295) (h : refreshed s now soon = .ok s') : Refreshed now soon s s' := by
  unfold refreshed at h
  rw [he, exc_bind_of_ok, show (Json.str e).asString = .ok e from rfl, exc_bind_of_ok] at h
  cases ht : TimeStamp.parse e with
  | none => rw [ht] at h; cases h
  | some t =>
    rw [ht] at h
    dsimp only at h
    obtain ⟨s1, h1, h⟩ := exc_bind_ok.1 h
    by_cases hx : t.isExpiredAt now = true
    · rw [if_pos hx] at h1
      obtain ⟨a, b⟩ := bump_ok (by rw [(setKey_ok h1).2.1 _ (by decide)]; exact hv) hr h
      refine ⟨⟨v, at_one hv, at_one (setKey_ok b).1⟩, ?_, e, t, at_one he, ht, ?_⟩
      · intro k hk
        rw [(setKey_ok b).2.1 k (fun hh => hk (by simp [hh])), (setKey_ok h1).2.1 k (fun hh => hk (by simp [hh]))]
      · rw [if_pos hx]
        exact at_one (((setKey_ok b).2.1 _ (by decide)).trans (setKey_ok h1).1)
    · rw [if_neg hx] at h1
      cases h1
      obtain ⟨a, b⟩ := bump_ok hv hr h
      refine ⟨⟨v, at_one hv, at_one (setKey_ok b).1⟩, fun k hk => (setKey_ok b).2.1 k (fun hh => hk (by simp [hh])), e, t, at_one he, ht, ?_⟩
      rw [if_neg hx]
      exact at_one (((setKey_ok b).2.1 _ (by decide)).trans he)

theorem refresh_targets {g : GenEnv} (hg : Sound g) {repo : Repo} {d d' : Dir} (hb : Base g d) (hk : Keyed none d) {soon : String} {now : TimeStamp} (hs : IsTime soon)
    (h : refresh g repo d (Role.ofName "targets") now soon = .ok d') :
    (∃ b b', Signed g d .targets b ∧ Signed g d' .targets b' ∧ Refreshed now soon b b') ∧ Unchanged d d' [.targets, .snapshot, .timestamp] := by
  unfold refresh at h
  obtain ⟨_, h1, h⟩ := exc_bind_ok.1 h
  obtain ⟨s0, h2, h⟩ := exc_bind_ok.1 h
  obtain ⟨s, h3, h⟩ := exc_bind_ok.1 h
  obtain ⟨⟨d1, text⟩, h4, h⟩ := exc_bind_ok.1 h
  dsimp only at h
  obtain ⟨vj, h5, h⟩ := exc_bind_ok.1 h
  obtain ⟨v, h6, hup⟩ := exc_bind_ok.1 h
  obtain ⟨text0, j, v0, e, a1, a2, a3⟩ := hb.targets
  have hsig := Dir.signed_of hg a1 a2
  rw [show d.signed g .targets = .ok s0 from h2] at hsig
  cases hsig
  have hs' : ∃ e', TargetsBody s (v0 + 1) e' := by
    obtain ⟨b1, b2⟩ := refreshed_ok a3.expires a3.version a3.range h3
    have hr := a3.range
    rcases b2 with b2 | ⟨s1, b2, b3⟩
    · exact ⟨e, a3.withVersion b2 ⟨by omega, b1⟩⟩
    · exact ⟨soon, (a3.withExpires b2 hs).withVersion b3 ⟨by omega, b1⟩⟩
  obtain ⟨e', hb2⟩ := hs'
  have h4' : writeSigned g d (pathOf Role.targets) Role.targets.name s = .ok (d1, text) := h4
  have hgood := put_good hb hk (.inl rfl) hb2 h4'
  obtain ⟨-, p2, p3, -⟩ := put_ok hb (.inl rfl) hb2 h4'
  have hup : updateRepo g d1 = .ok d' := hup
  obtain ⟨-, -, q3⟩ := updateRepo_good hg hgood.base hgood.keyed hup
  refine ⟨⟨s0, s, signed_text a1 h2, signed_same (signed_wrote hg p3.1 p3.2) (q3.files _ (by simp) (by simp)), refreshed_effect a3.expires a3.version a3.range h3⟩, ?_⟩
  intro q hq
  rw [q3.files q (fun hh => hq (by simp [hh])) (fun hh => hq (by simp [hh])), p2.files q (fun hh => hq (by rw [hh]; exact List.mem_cons_self))]

theorem refresh_root {g : GenEnv} (hg : Sound g) {repo : Repo} {d d' : Dir} (hb : Base g d) (hk : Keyed none d) {soon : String} {now : TimeStamp} (hs : IsTime soon)
    (h : refresh g repo d (Role.ofName "root") now soon = .ok d') :
    ∃ b b' v, Signed g d .root b ∧ Signed g d' .root b' ∧ Refreshed now soon b b' ∧ At b' ["version"] (.int v) ∧
      d'.files.lookup (.numbered v) = d'.files.lookup .root ∧ Unchanged d d' [.root, .numbered v, .snapshot, .timestamp] := by
  unfold refresh at h
  obtain ⟨_, h1, h⟩ := exc_bind_ok.1 h
  obtain ⟨s0, h2, h⟩ := exc_bind_ok.1 h
  obtain ⟨s, h3, h⟩ := exc_bind_ok.1 h
  obtain ⟨⟨d1, text⟩, h4, h⟩ := exc_bind_ok.1 h
  dsimp only at h
  obtain ⟨vj, h5, h⟩ := exc_bind_ok.1 h
  obtain ⟨v, h6, hup⟩ := exc_bind_ok.1 h
  obtain ⟨tab, top, hr⟩ := hb.roots
  have hone := hr.one
  obtain ⟨e, text0, a1, a2, a3⟩ := hr.all top hr.one (Int.le_refl _)
  have hroot := hr.last.trans a1
  have hsig := Dir.signed_of hg hroot a2
  rw [show d.signed g .root = .ok s0 from h2] at hsig
  cases hsig
  have heff := refreshed_effect (e := e) (v := top) rfl rfl ⟨by omega, hr.range⟩ h3
  have hs' : ∃ e', IsTime e' ∧ s = rootWith g tab d.keys (top + 1) e' ∧ top + 1 ≤ 4294967295 := by
    obtain ⟨b1, b2⟩ := refreshed_ok (e := e) (v := top) rfl rfl ⟨by omega, hr.range⟩ h3
    rcases b2 with b2 | ⟨s1, b2, b3⟩
    · cases b2; exact ⟨e, a3, rfl, b1⟩
    · cases b2; cases b3; exact ⟨soon, hs, rfl, b1⟩
  obtain ⟨e', he', rfl, htop⟩ := hs'
  cases h5
  have h6' : asUInt (.int (top + 1)) = .ok v := h6
  rw [asUInt_int (by omega) htop] at h6'
  cases h6'
  have hgood := newRoot_good hg hb hk hr he' htop h4
  have hup : updateRepo g (d1.write (.numbered (top + 1)) text) = .ok d' := hup
  obtain ⟨-, -, q3⟩ := updateRepo_good hg hgood.1.base hgood.1.keyed hup
  obtain ⟨w1, w2, w3, w4⟩ := writeSigned_ok h4 (rootWith_canonical hr.table (by omega) htop)
  have f1 : d'.files.lookup .root = some text := (q3.files _ (by simp) (by simp)).trans ((lookup_write_other (by simp)).trans w3)
  refine ⟨_, _, top + 1, signed_text hroot h2, signed_wrote hg f1 w1, heff, at_one rfl, ?_, ?_⟩
  · rw [f1]
    exact (q3.files _ (by simp) (by simp)).trans lookup_write_same
  · intro q hq
    rw [q3.files q (fun hh => hq (by simp [hh])) (fun hh => hq (by simp [hh])), lookup_write_other (fun hh => hq (by simp [hh])), w4 q (fun hh => hq (by simp [hh]))]

theorem expirationTime_eq {expires later e : String} (h : expirationTime expires later = .ok e) : e = if expires = "" then later else expires := by
  unfold expirationTime at h
  by_cases hx : expires = ""
  · rw [if_pos hx] at h ⊢; cases h; rfl
  · rw [if_neg hx] at h ⊢
    split at h
    · cases h; rfl
    · cases h

theorem writeSigned_other {g : GenEnv} {d d' : Dir} {p q : Path} {role text : String} {j : Json} (h : writeSigned g d p role j = .ok (d', text)) (hq : q ≠ p) :
    d'.files.lookup q = d.files.lookup q := by
  unfold writeSigned signTuf at h
  obtain ⟨⟨doc, d1⟩, h1, h⟩ := exc_bind_ok.1 h
  cases h
  obtain ⟨m, hm, h1⟩ := exc_bind_ok.1 h1
  cases h1
  exact lookup_write_other hq

theorem generateRepo_effect {g : GenEnv} (hg : Sound g) {repo : Repo} {d : Dir} {k : NewKeys} {e cor : String} (hk : k.Ok g) (he : IsTime e)
    (h : generateRepo g repo {} k e cor = .ok d) :
    ∃ b, Signed g d .targets b ∧ At b ["targets"] (.obj []) ∧ At b ["version"] (.int 1) ∧ At b ["expires"] (.str e) ∧
      At b ["delegations"] .null ∧ At b ["custom"] (if repo = .director ∧ cor ≠ "" then .obj [("correlationId", .str cor)] else .null) ∧
      d.files.lookup .staging = none ∧ ∀ n, d.files.lookup (.delegation n) = none := by
  unfold generateRepo at h
  obtain ⟨d0, h0, h⟩ := exc_bind_ok.1 h
  obtain ⟨rfl, hgood⟩ := generateRepoKeys_ok hk h0
  obtain ⟨⟨d1, root⟩, h1, h⟩ := exc_bind_ok.1 h
  dsimp only at h
  obtain ⟨⟨d2, ttext⟩, h2, h⟩ := exc_bind_ok.1 h
  dsimp only at h
  obtain ⟨⟨d3, sn⟩, h3, h⟩ := exc_bind_ok.1 h
  dsimp only at h
  obtain ⟨⟨d4, ts⟩, h4, h⟩ := exc_bind_ok.1 h
  have hd : d4 = d := by injection h
  subst hd
  obtain ⟨hbody, hdel⟩ := newBody (repo := repo) (cor := cor) he
  have o1 : ∀ q, q ≠ Path.root → d1.files.lookup q = none := fun q hq => (writeSigned_other h1 hq).trans rfl
  have gone : ∀ q : Path, q ≠ .root → q ≠ .numbered 1 → q ≠ .targets → q ≠ .snapshot → q ≠ .timestamp → d4.files.lookup q = none := by
    intro q a1 a2 a3 a4 a5
    rw [writeSigned_other h4 a5, writeSigned_other h3 a4, writeSigned_other h2 a3, lookup_write_other a2]
    exact o1 q a1
  obtain ⟨w2, -, f2, -⟩ := writeSigned_ok h2 hbody.canonical
  have htg : d4.files.lookup .targets = some ttext := by
    rw [writeSigned_other h4 (by simp), writeSigned_other h3 (by simp)]; exact f2
  refine ⟨_, signed_wrote hg htg w2, at_one ?_, at_one hbody.version, at_one hbody.expires, at_one hdel, at_one ?_,
    gone _ (by simp) (by simp) (by simp) (by simp) (by simp), fun n => gone _ (by simp) (by simp) (by simp) (by simp) (by simp)⟩
  · unfold customPart
    split <;> rfl
  · unfold customPart
    split <;> rfl

end Gen

/-- **C73** `refresh` of Targets: the same content in the next version, valid again if it had expired. -/
theorem C73_refresh_targets {g : GenEnv} (hg : Sound g) {r r' : Repos} (hr : Reached g r) {repo : Repo} {now : TimeStamp} {soon : String}
    (hc : (Cmd.refresh repo "targets" now soon).Sensible g) (h : run g r (.refresh repo "targets" now soon) = .ok r') :
    (∃ b b', Signed g (dirOf r repo) .targets b ∧ Signed g (dirOf r' repo) .targets b' ∧ Refreshed now soon b b') ∧
      Unchanged (dirOf r repo) (dirOf r' repo) [.targets, .snapshot, .timestamp] ∧ ∀ other, other ≠ repo → dirOf r' other = dirOf r other := by
  have hs := hr.sane hg
  match repo with
  | .director =>
    obtain ⟨d', hx, h'⟩ := exc_bind_ok.1 h
    cases h'
    obtain ⟨h1, h2⟩ := refresh_targets hg hs.director.base hs.director.keyed hc hx
    exact ⟨h1, h2, (fun o ho => by cases o <;> first | exact absurd rfl ho | rfl)⟩
  | .image =>
    obtain ⟨d', hx, h'⟩ := exc_bind_ok.1 h
    cases h'
    obtain ⟨h1, h2⟩ := refresh_targets hg hs.image.base hs.image.keyed hc hx
    exact ⟨h1, h2, (fun o ho => by cases o <;> first | exact absurd rfl ho | rfl)⟩

/-- **C73** `refresh` of the Root: the same content in the next version, valid again if it had expired, kept under its
number too. -/
theorem C73_refresh_root {g : GenEnv} (hg : Sound g) {r r' : Repos} (hr : Reached g r) {repo : Repo} {now : TimeStamp} {soon : String}
    (hc : (Cmd.refresh repo "root" now soon).Sensible g) (h : run g r (.refresh repo "root" now soon) = .ok r') :
    (∃ b b' v, Signed g (dirOf r repo) .root b ∧ Signed g (dirOf r' repo) .root b' ∧ Refreshed now soon b b' ∧ At b' ["version"] (.int v) ∧
      (dirOf r' repo).files.lookup (.numbered v) = (dirOf r' repo).files.lookup .root ∧
      Unchanged (dirOf r repo) (dirOf r' repo) [.root, .numbered v, .snapshot, .timestamp]) ∧ ∀ other, other ≠ repo → dirOf r' other = dirOf r other := by
  have hs := hr.sane hg
  match repo with
  | .director =>
    obtain ⟨d', hx, h'⟩ := exc_bind_ok.1 h
    cases h'
    exact ⟨refresh_root hg hs.director.base hs.director.keyed hc hx, (fun o ho => by cases o <;> first | exact absurd rfl ho | rfl)⟩
  | .image =>
    obtain ⟨d', hx, h'⟩ := exc_bind_ok.1 h
    cases h'
    exact ⟨refresh_root hg hs.image.base hs.image.keyed hc hx, (fun o ho => by cases o <;> first | exact absurd rfl ho | rfl)⟩

/-- **C73** `generate`: both repositories start with no targets, in version 1, with the expiry time given; only the Director
names the correlation id. -/
theorem C73_generate {g : GenEnv} (hg : Sound g) {kd ki : NewKeys} (hd : kd.Ok g) (hi : ki.Ok g) {expires later correlation : String} (hl : IsTime later) {r : Repos}
    (h : generate g kd ki expires later correlation = .ok r) (repo : Repo) :
    ∃ b, Signed g (dirOf r repo) .targets b ∧ At b ["targets"] (.obj []) ∧ At b ["version"] (.int 1) ∧ At b ["expires"] (.str (if expires = "" then later else expires)) ∧
      At b ["delegations"] .null ∧ At b ["custom"] (if repo = .director ∧ correlation ≠ "" then .obj [("correlationId", .str correlation)] else .null) ∧
      (dirOf r repo).files.lookup .staging = none ∧ ∀ n, (dirOf r repo).files.lookup (.delegation n) = none := by
  unfold generate at h
  obtain ⟨e, h1, h⟩ := exc_bind_ok.1 h
  obtain ⟨d, h2, h⟩ := exc_bind_ok.1 h
  obtain ⟨i, h3, h⟩ := exc_bind_ok.1 h
  cases h
  have he := expirationTime_ok hl h1
  rw [← expirationTime_eq h1]
  match repo with
  | .director => exact generateRepo_effect hg hd he h2
  | .image => exact generateRepo_effect hg hi he h3

end Aktualizr
