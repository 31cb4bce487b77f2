import Verif.Lemmas.Frame
import Verif.Lemmas.UpdateRoot
import Verif.Spec.Metadata

/-! The Director's online and offline checks. -/

namespace Aktualizr

open Spec M

theorem properTargets : ProperRole Role.targets := by simp [ProperRole]
theorem properTimestamp : ProperRole Role.timestamp := by simp [ProperRole]
theorem properSnapshot : ProperRole Role.snapshot := by simp [ProperRole]

theorem baseMetaSigned_ok {env : Env} {role : Role} {j : Json} {signer : MetaWithKeys} {p : Int × TimeStamp}
    (hrole : ProperRole role) (h : baseMetaSigned env role j signer = .ok p) :
    SignedToThreshold env signer role.name j ∧ DeclaresType role j ∧ baseInit j = .ok p := by
  unfold baseMetaSigned at h
  simp only [exc_bind_ok, throwIf_ok] at h
  obtain ⟨_, _, _, _, _, _, _, h1, h2⟩ := h
  have := C01_accepted_is_signed _ _ _ _ hrole h1
  exact ⟨this.1, this.2, h2⟩

theorem Targets.ofJsonSigned_ok {env : Env} {role : Role} {raw : String} {signer : MetaWithKeys} {ts : Targets}
    (hrole : ProperRole role) (h : Targets.ofJsonSigned env role (env.parseJson raw) signer = .ok ts) :
    SignedToThreshold env signer role.name (env.parseJson raw) ∧ DeclaresType role (env.parseJson raw) ∧
    ReadsAsTargets env raw ts := by
  unfold Targets.ofJsonSigned at h
  simp only [exc_bind_ok] at h
  obtain ⟨⟨v, e⟩, h1, h2⟩ := h
  obtain ⟨a, b, c⟩ := baseMetaSigned_ok hrole h1
  exact ⟨a, b, v, e, c, h2⟩

theorem parseKeysLoop_version {env : Env} {l : List (String × Json)} {m m' : MetaWithKeys}
    (h : parseKeysLoop env m l = .ok m') : m'.version = m.version ∧ m'.expiry = m.expiry := by
  induction l generalizing m with
  | nil => simp [parseKeysLoop] at h; subst h; exact ⟨rfl, rfl⟩
  | cons a l ih =>
    obtain ⟨k, j⟩ := a
    simp only [parseKeysLoop, exc_bind_ok] at h
    obtain ⟨_, _, _, _, _, _, h⟩ := h
    have := ih h
    exact this

theorem parseRole_version {m m' : MetaWithKeys} {j : Json} {role : Role} (h : parseRole m j role = .ok m') :
    m'.version = m.version ∧ m'.expiry = m.expiry := by
  unfold parseRole at h
  split at h
  · simp at h; subst h; exact ⟨rfl, rfl⟩
  · simp only [exc_bind_ok, exc_pure_ok] at h
    obtain ⟨_, _, _, _, _, _, _, _, _, _, _, _, rfl⟩ := h
    exact ⟨rfl, rfl⟩

theorem parseDelegRoles_base {l : List Json} {ts ts' : Targets} (h : parseDelegRoles ts l = .ok ts') :
    ts'.base.version = ts.base.version ∧ ts'.base.expiry = ts.base.expiry ∧ ts'.targets = ts.targets := by
  induction l generalizing ts with
  | nil => simp [parseDelegRoles] at h; subst h; exact ⟨rfl, rfl, rfl⟩
  | cons a l ih =>
    simp only [parseDelegRoles, exc_bind_ok] at h
    obtain ⟨_, _, _, _, _, _, m, hm, _, _, _, _, _, _, _, _, h⟩ := h
    obtain ⟨h1, h2, h3⟩ := ih h
    obtain ⟨g1, g2⟩ := parseRole_version hm
    exact ⟨h1.trans g1, h2.trans g2, h3⟩

theorem targetsInit_base {env : Env} {m : MetaWithKeys} {j : Json} {ts : Targets} (h : targetsInit env m j = .ok ts) :
    ts.base.version = m.version ∧ ts.base.expiry = m.expiry := by
  unfold targetsInit at h
  simp only [exc_bind_ok, exc_pure_ok] at h
  obtain ⟨_, _, s, hs, _, _, _, _, _, _, tl, htl, d, hd, ts1, h1, _, _, _, _, rfl⟩ := h
  show ts1.base.version = _ ∧ ts1.base.expiry = _
  split at h1
  · simp only [exc_bind_ok] at h1
    obtain ⟨_, _, m1, hm1, _, _, h1⟩ := h1
    have a := parseDelegRoles_base h1
    have b := parseKeysLoop_version hm1
    exact ⟨a.1.trans b.1, a.2.1.trans b.2⟩
  · simp at h1
    subst h1
    exact ⟨rfl, rfl⟩

theorem baseInit_version {j : Json} {v : Int} {e : TimeStamp} (h : baseInit j = .ok (v, e)) :
    ∃ s x, j.get "signed" = .ok s ∧ s.get "version" = .ok x ∧ x.asInt = .ok v := by
  unfold baseInit at h
  simp only [exc_bind_ok] at h
  obtain ⟨_, _, _, _, _, _, s, hs, x, hx, v', hv, ej, _, e', _, h⟩ := h
  refine ⟨s, x, hs, hx, ?_⟩
  split at h
  · simp at h
  · simp at h; rw [hv, h.1]

theorem Spec.StatesVersion.extract {env : Env} {raw : String} {v : Int} (h : StatesVersion env raw v) :
    extractVersionUntrusted env raw = .ok v := by
  obtain ⟨s, j, h1, h2, h3, h4⟩ := h
  simp [extractVersionUntrusted, h1, h2, h3, h4]

theorem extract_states {env : Env} {raw : String} {v : Int} (h : extractVersionUntrusted env raw = .ok v)
    (hv : v ≠ -1) : StatesVersion env raw v := by
  simp only [extractVersionUntrusted, exc_bind_ok] at h
  obtain ⟨s, hs, j, hj, h⟩ := h
  split at h
  · simp at h; omega
  · rename_i hi
    exact ⟨s, j, hs, hj, by simpa using hi, h⟩

theorem Spec.ReadsAsTargets.version {env : Env} {raw : String} {ts : Targets} {v : Int} (h : ReadsAsTargets env raw ts)
    (hv : StatesVersion env raw v) : ts.base.version = v := by
  obtain ⟨v', e, h1, h2⟩ := h
  obtain ⟨s, j, g1, g2, _, g4⟩ := hv
  obtain ⟨s', x, k1, k2, k3⟩ := baseInit_version h1
  have e1 : s = s' := by simpa using g1.symm.trans k1
  subst e1
  have e2 : j = x := by simpa using g2.symm.trans k2
  subst e2
  have e3 : v = v' := by simpa using g4.symm.trans k3
  subst e3
  exact (targetsInit_base h2).1

theorem loadNonRoot_some {repo : Repo} {t : RoleKind} {w w' : World} {raw : String}
    (h : loadNonRoot repo t w = (.ok (some raw), w')) : w' = w ∧ raw ≠ "" ∧ Stored w.db repo t raw := by
  unfold loadNonRoot readBlob at h
  split at h
  · simp at h
  · rename_i s hs
    split at h
    · simp at h
    · rename_i hne
      simp at h
      obtain ⟨rfl, rfl⟩ := h
      simp at hs
      exact ⟨rfl, hne, hs⟩

theorem loadNonRoot_none {repo : Repo} {t : RoleKind} {w w' : World}
    (h : loadNonRoot repo t w = (.ok none, w')) : w' = w ∧ w.db.latestOf repo t = none := by
  unfold loadNonRoot readBlob at h
  split at h
  · rename_i hs
    simp at h hs
    exact ⟨h.symm, hs⟩
  · split at h <;> simp at h

theorem Spec.Stored.unique {db : MetaDb} {repo : Repo} {t : RoleKind} {a b : String} (h : Stored db repo t a)
    (h' : Stored db repo t b) : a = b := by
  obtain ⟨r, h1, rfl⟩ := h
  obtain ⟨r', h2, rfl⟩ := h'
  rw [h1] at h2
  cases h2
  rfl

theorem stored_storeNonRoot (db : MetaDb) (repo : Repo) (t : RoleKind) (raw : String) :
    Stored (db.storeNonRoot raw repo t) repo t raw := by
  refine ⟨⟨repo, t, -1, raw⟩, ?_, rfl⟩
  rw [MetaDb.latestOf_only, MetaDb.only_storeNonRoot_same]
  rfl

/-! ### No rotation, no change -/

theorem rotateLoop_quiet (c : Ctx) (repo : Repo) (n : Nat) (v : Int) (w w' : World) (o : Except Err Unit) (row : MetaRow)
    (h : rotateLoop c repo n v w = (o, w')) (hs : Synced c.env repo w row) (hv : v = (getRoot repo w).base.version + 1)
    (hn : kMaxRotations ≤ v + n) (hq : rootRows repo w'.db = rootRows repo w.db) : w'.db = w.db := by
  -- after a store, the newest Root would have a higher version
  have bump : ∀ (l : List MetaRow) (raw : String) (r' : Root), ReadsAsRoot c.env raw r' →
      r'.base.version = (getRoot repo w).base.version + 1 → (x : MetaRow) → NewestRoot l x → x.data = raw →
      FiledSanely c.env x → RootsGrow c.env l (rootRows repo w'.db) → False := by
    intro l raw r' hr' hver x hx hxd hxf hg
    obtain ⟨raws, row', hc, hn', hd, _, _, he, _, _⟩ := hg x hx hxf
    rw [hq] at hn'
    have e : row' = row := by
      have := hn'.symm.trans hs.newest
      simpa using this
    subst e
    have hreads := hs.reads
    rw [hd, hxd] at hreads
    rw [hxd] at hc
    cases raws with
    | nil =>
      have : getRoot repo w = r' := by
        have := hreads.symm.trans hr'
        simpa [lastOf] using this
      rw [this] at hver
      omega
    | cons b raws =>
      have hmem : lastOf raw (b :: raws) ∈ b :: raws := by
        have : ∀ (a : String) (l : List String), l ≠ [] → lastOf a l ∈ l := by
          intro a l
          induction l generalizing a with
          | nil => simp
          | cons y l ih =>
            intro _
            cases l with
            | nil => simp [lastOf]
            | cons z l => exact List.mem_cons_of_mem _ (ih y (by simp))
        exact this _ _ (by simp)
      have := hc.version_gt hr' hmem hreads
      omega
  cases n with
  | zero =>
    simp [rotateLoop] at h
    rw [h.2]
  | succ n =>
    rw [rotateLoop] at h
    have same := tryFetchRoot_same c repo v
    rcases bind_cases h with ⟨ans, w1, h1, h⟩ | ⟨e, h1, rfl⟩
    · have hm := same.of_eq h1
      have hr1 : getRoot repo w1 = getRoot repo w := hm.getRoot repo
      cases ans with
      | none =>
        simp at h
        rw [← h.2, hm.1]
      | some raw =>
        have hp1 : (getRoot repo w1).policy = .check := by rw [hr1]; exact hs.policy
        rcases bind_cases h with ⟨_, w2, h2, h⟩ | ⟨e, h2, rfl⟩
        · obtain ⟨hdb2, hok⟩ := verifyRoot_cases hp1 h2
          obtain ⟨r', hr', hso, hsn, hver, rfl⟩ := hok rfl
          rw [hr1] at hso hver
          have hvr : v = r'.base.version := by omega
          have hst := rootsGrow_store (repo := repo) hs.newest hs.reads hs.filed hr' hver hso hsn
          have rows3 : rootRows repo (w.db.storeRoot raw repo v) =
              ⟨repo, .root, r'.base.version, raw⟩ :: (rootRows repo w.db).filter (fun x => x.version != r'.base.version) := by
            rw [hvr]; exact MetaDb.only_storeRoot_same _ _ _ _
          rw [← rows3] at hst
          rcases bind_cases h with ⟨_, w3, h3, h⟩ | ⟨e, h3, rfl⟩
          · exfalso
            rcases write_cases h3 with ⟨_, hdb3, hd3, hi3⟩ | ⟨h3, _⟩
            · have hdb3' : w3.db = w.db.storeRoot raw repo v := by rw [hdb3, hdb2, hm.1]
              have hr3 : getRoot repo w3 = r' := by
                cases repo
                · show w3.img.root = r'; rw [hi3]; rfl
                · show w3.dir.root = r'; rw [hd3]; rfl
              rcases bind_cases h with ⟨_, w4, h4, h⟩ | ⟨e, h4, rfl⟩
              · rcases write_cases h4 with ⟨_, hdb4, hd4, hi4⟩ | ⟨h4, _⟩
                · have rows4 : rootRows repo w4.db = rootRows repo (w.db.storeRoot raw repo v) := by
                    rw [hdb4, hdb3']; exact MetaDb.only_clearNonRoot_root _ _ _
                  have hr4 : getRoot repo w4 = r' := by
                    rw [← hr3]
                    cases repo
                    · show w4.img.root = w3.img.root; rw [hi4]
                    · show w4.dir.root = w3.dir.root; rw [hd4]
                  have hs4 : Synced c.env repo w4 ⟨repo, .root, r'.base.version, raw⟩ :=
                    ⟨by rw [rows4]; exact hst.2.1, by rw [hr4]; exact hr', hst.2.2, by rw [hr4]; exact Root.ofJson_policy hr', by rw [hr4]; exact hsn⟩
                  have g := (rotateLoop_spec c repo n (v + 1) w4 w' o _ h hs4 (by rw [hr4]; omega) (by omega)).1
                  exact bump _ raw r' hr' hver _ hs4.newest rfl hst.2.2 g
                · simp at h4
              · rcases write_cases h4 with ⟨h4, _⟩ | ⟨_, rfl⟩
                · simp at h4
                · refine bump _ raw r' hr' hver _ hst.2.1 rfl hst.2.2 ?_
                  rw [hdb3']; exact rootsGrow_refl _ _
            · simp at h3
          · rcases write_cases h3 with ⟨h3, _⟩ | ⟨_, rfl⟩
            · simp at h3
            · rw [hdb2, hm.1]
        · rw [(verifyRoot_cases hp1 h2).1, hm.1]
    · rw [(same.of_eq h1).1]

/-- If the stored Roots are the same after `updateRoot` as before, nothing at all was written. -/
theorem updateRoot_quiet {c : Ctx} {repo : Repo} {w w' : World} {o : Except Err Unit}
    (h : updateRoot c repo w = (o, w')) (hf : ∀ row, NewestRoot (rootRows repo w.db) row → FiledSanely c.env row)
    (hq : rootRows repo w'.db = rootRows repo w.db) : w'.db = w.db := by
  unfold updateRoot at h
  -- writes of the loading phase show in the rows
  have load : ∀ o1 w1, loadOrFetchRoot c repo w = (o1, w1) → rootRows repo w1.db = rootRows repo w.db → w1.db = w.db := by
    intro o1 w1 h1 hrows
    unfold loadOrFetchRoot at h1
    rcases bind_cases h1 with ⟨ans, w2, h2, h1'⟩ | ⟨e, h2, rfl⟩
    · clear h1
      cases ans with
      | some raw =>
        obtain ⟨rfl, _⟩ := loadLatestRoot_some h2
        exact (initRoot_cases h1').1
      | none =>
        obtain ⟨rfl, hnone⟩ := loadLatestRoot_none h2
        rcases bind_cases h1' with ⟨raw, w3, h3, h1⟩ | ⟨e, h3, rfl⟩
        · have hm := (fetchRole_same c kMaxRootSize repo Role.root 1).of_eq h3
          rcases bind_cases h1 with ⟨_, w4, h4, h1⟩ | ⟨e, h4, rfl⟩
          · have hdb := (initRoot_cases h4).1
            rcases write_cases h1 with ⟨_, hdb5, _⟩ | ⟨_, rfl⟩
            · have hr : rootRows repo w1.db = [⟨repo, .root, 1, raw⟩] := by
                rw [hdb5, hdb, hm.1]; exact rootRows_store repo w2.db raw 1 hnone
              rw [hr] at hrows
              have hempty : rootRows repo w2.db = [] := MetaDb.latest_none.1 hnone
              rw [hempty] at hrows
              simp at hrows
            · rw [hdb, hm.1]
          · rw [(initRoot_cases h4).1, hm.1]
        · exact (fetchRole_same c kMaxRootSize repo Role.root 1).of_eq h3 |>.1
    · rw [(loadLatestRoot_same repo).of_eq h2]
  rcases bind_cases h with ⟨_, w1, h1, h⟩ | ⟨e, h1, rfl⟩
  · obtain ⟨hrows, hok, _⟩ := loadOrFetchRoot_spec h1
    obtain ⟨row, hn, hr, hss0, hp⟩ := hok rfl
    rcases hrows with hrows | ⟨he, raw, _, hrows⟩
    · rw [hrows] at hn
      have hw1 := load _ _ h1 hrows
      have hs : Synced c.env repo w1 row := ⟨by rw [hw1]; exact hn, hr, hf row hn, hp, hss0⟩
      rcases bind_cases h with ⟨r, w2, h2, h⟩ | ⟨e, h2, _⟩
      · simp at h2
        obtain ⟨rfl, rfl⟩ := h2
        rcases bind_cases h with ⟨first, w3, h3, h⟩ | ⟨e, h3, rfl⟩
        · simp at h3
          obtain ⟨h3, rfl⟩ := h3
          have hf1 := (succInt_ok h3).1
          rcases bind_cases h with ⟨_, w4, h4, h⟩ | ⟨e, h4, rfl⟩
          · have hdb : w'.db = w4.db := by
              have : Preserves SameDb (checkRootExpired c repo) := by
                have := checkRootExpired_pres (P := fun d d' => d' = d) ⟨fun _ => rfl, fun _ _ _ a b => b.trans a⟩ c repo
                exact this
              exact this.of_eq h
            rw [hdb] at hq ⊢
            rw [← hw1]
            exact rotateLoop_quiet c repo _ _ _ _ _ row h4 hs hf1 (by omega) (by rw [hw1]; exact hq)
          · rw [← hw1]
            exact rotateLoop_quiet c repo _ _ _ _ _ row h4 hs hf1 (by omega) (by rw [hw1]; exact hq)
        · simp at h3
          rw [← h3.2, hw1]
      · simp at h2
    · -- a first Root was stored: it cannot disappear again
      exfalso
      have hne : rootRows repo w1.db ≠ [] := by rw [hrows]; simp
      have hP : DbPre (fun d d' => rootRows repo d ≠ [] → rootRows repo d' ≠ []) :=
        ⟨fun _ h => h, fun _ _ _ h1 h2 h => h2 (h1 h)⟩
      have hrot := rotateLoop_pres hP c repo
        (by intro d raw v _ h0
            have := MetaDb.only_storeRoot_same d raw v repo
            rw [show (d.storeRoot raw repo v).only repo .root = rootRows repo (d.storeRoot raw repo v) from rfl, h0] at this
            simp at this)
        (by intro d h0
            have := MetaDb.only_clearNonRoot_root d repo repo
            rw [show rootRows repo (d.clearNonRoot repo) = (d.clearNonRoot repo).only repo .root from rfl, this]
            exact h0)
      have hexp := checkRootExpired_pres hP c repo
      have hall : Preserves (onDb (fun d d' => rootRows repo d ≠ [] → rootRows repo d' ≠ [])) (do
          let r ← gets (getRoot repo)
          let first ← lift (succInt r.base.version)
          rotateLoop c repo (kMaxRotations - first).toNat first
          checkRootExpired c repo : U Unit) := by
        pres hP
        exact hrot _ _
      have := hall.of_eq h hne
      rw [hq] at this
      exact this he
  · obtain ⟨hrows, _, _⟩ := loadOrFetchRoot_spec h1
    exact load _ _ h1 hq

end Aktualizr
