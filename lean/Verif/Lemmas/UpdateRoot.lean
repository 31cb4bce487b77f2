import Verif.Lemmas.Roots

/-! `updateRoot` as a whole. -/

namespace Aktualizr

open Spec M

theorem rootRows_store (repo : Repo) (db : MetaDb) (raw : String) (v : Int) (h : db.latestOf repo .root = none) :
    rootRows repo (db.storeRoot raw repo v) = [⟨repo, .root, v, raw⟩] := by
  have h0 : db.only repo .root = [] := MetaDb.latest_none.1 h
  have := MetaDb.only_storeRoot_same db raw v repo
  rw [h0] at this
  exact this

theorem write_tick {f : MetaDb → MetaDb} {w w' : World} {o : Except Err Unit} (h : write f w = (o, w')) :
    w'.tick = w.tick := by
  unfold write at h; split at h <;> simp at h <;> rw [← h.2]

/-- The two ways `loadOrFetchRoot` can go. -/
theorem loadOrFetchRoot_spec {c : Ctx} {repo : Repo} {w w' : World} {o : Except Err Unit}
    (h : loadOrFetchRoot c repo w = (o, w')) :
    (rootRows repo w'.db = rootRows repo w.db ∨
      (rootRows repo w.db = [] ∧ ∃ raw, SelfSigned c.env raw ∧ rootRows repo w'.db = [⟨repo, .root, 1, raw⟩])) ∧
    (o = .ok () → ∃ row, NewestRoot (rootRows repo w'.db) row ∧ ReadsAsRoot c.env row.data (getRoot repo w') ∧
      SignedToThreshold c.env (getRoot repo w').base "root" (c.env.parseJson row.data) ∧
      (getRoot repo w').policy = .check) ∧
    (w'.tick = w.tick ∨ (rootRows repo w.db = [] ∧ w'.tick = w.tick + 1)) := by
  unfold loadOrFetchRoot at h
  rcases bind_cases h with ⟨ans, w1, h1, h'⟩ | ⟨e, h1, rfl⟩
  · clear h
    have h := h'
    clear h'
    cases ans with
    | some raw =>
      obtain ⟨rfl, _, row, hrow, rfl⟩ := loadLatestRoot_some h1
      obtain ⟨hdb, hok⟩ := initRoot_cases h
      have htick : w'.tick = w1.tick := by
        have : Preserves SameTick (initRoot c repo row.data) := by
          unfold initRoot
          exact .bind sameTick_pre (.lift sameTick_pre) fun _ => .bind sameTick_pre (.modify (by intro w; cases repo <;> rfl)) fun _ =>
            .bind sameTick_pre (.lift sameTick_pre) fun _ => .modify (by intro w; cases repo <;> rfl)
        exact this.of_eq h
      refine ⟨.inl (by rw [hdb]), ?_, .inl htick⟩
      rintro rfl
      obtain ⟨r, hr, hs, rfl⟩ := hok rfl
      refine ⟨row, by rw [setRoot_db]; exact hrow, ?_⟩
      rw [getRoot_setRoot]
      exact ⟨hr, hs, Root.ofJson_policy hr⟩
    | none =>
      obtain ⟨rfl, hnone⟩ := loadLatestRoot_none h1
      have hempty : rootRows repo w1.db = [] := MetaDb.latest_none.1 hnone
      rcases bind_cases h with ⟨raw, w2, h2, h⟩ | ⟨e, h2, rfl⟩
      · have hm := (fetchRole_same c kMaxRootSize repo Role.root 1).of_eq h2
        have ht : w2.tick = w1.tick + 1 := by
          simp only [fetchRole] at h2
          split at h2
          · split at h2 <;> (simp at h2; try (rw [← h2.2]))
          · simp at h2
        rcases bind_cases h with ⟨_, w3, h3, h⟩ | ⟨e, h3, rfl⟩
        · obtain ⟨hdb, hok⟩ := initRoot_cases h3
          obtain ⟨r, hr, hs, rfl⟩ := hok rfl
          have ht3 : (setRoot repo r w2).tick = w2.tick := by cases repo <;> rfl
          have ht4 : w'.tick = (setRoot repo r w2).tick := by
            unfold write at h; split at h <;> simp at h <;> rw [← h.2]
          rcases write_cases h with ⟨rfl, hdb4, hd4, hi4⟩ | ⟨rfl, rfl⟩
          · have hrows : rootRows repo w'.db = [⟨repo, .root, 1, raw⟩] := by
              rw [hdb4, hdb, hm.1]; exact rootRows_store repo w1.db raw 1 hnone
            have hr4 : getRoot repo w' = r := by
              cases repo
              · show w'.img.root = r; rw [hi4]; rfl
              · show w'.dir.root = r; rw [hd4]; rfl
            refine ⟨.inr ⟨hempty, raw, ⟨r, hr, hs⟩, hrows⟩, fun _ => ⟨⟨repo, .root, 1, raw⟩, ?_, ?_⟩, .inr ⟨hempty, by omega⟩⟩
            · rw [hrows]; rfl
            · rw [hr4]; exact ⟨hr, hs, Root.ofJson_policy hr⟩
          · exact ⟨.inl (by rw [hdb, hm.1]), by simp, .inr ⟨hempty, by omega⟩⟩
        · obtain ⟨hdb, _⟩ := initRoot_cases h3
          refine ⟨.inl (by rw [hdb, hm.1]), by simp, .inr ⟨hempty, ?_⟩⟩
          have : Preserves SameTick (initRoot c repo raw) := by
            unfold initRoot
            exact .bind sameTick_pre (.lift sameTick_pre) fun _ => .bind sameTick_pre (.modify (by intro w; cases repo <;> rfl)) fun _ =>
              .bind sameTick_pre (.lift sameTick_pre) fun _ => .modify (by intro w; cases repo <;> rfl)
          have := this.of_eq h3
          simp only [SameTick] at this
          omega
      · have hm := (fetchRole_same c kMaxRootSize repo Role.root 1).of_eq h2
        refine ⟨.inl (by rw [hm.1]), by simp, .inr ⟨hempty, ?_⟩⟩
        simp only [fetchRole] at h2
        split at h2
        · split at h2 <;> (simp at h2; try (rw [← h2.2]))
        · simp at h2; rw [← h2.2]
  · have := (loadLatestRoot_same repo).of_eq h1
    subst this
    exact ⟨.inl rfl, by simp, .inl rfl⟩

/-- The part of `updateRoot` after loading. -/
theorem rotate_spec {c : Ctx} {repo : Repo} {w w' : World} {o : Except Err Unit} {row : MetaRow}
    (h : (do
      let r ← gets (getRoot repo)
      let first ← lift (succInt r.base.version)
      rotateLoop c repo (kMaxRotations - first).toNat first
      checkRootExpired c repo : U Unit) w = (o, w'))
    (hs : Synced c.env repo w row) :
    RootsGrow c.env (rootRows repo w.db) (rootRows repo w'.db) ∧
    w'.tick ≤ w.tick + (kMaxRotations - ((getRoot repo w).base.version + 1)).toNat + 1 ∧
    (o = .ok () → ∃ row', Synced c.env repo w' row' ∧
      (row' = row ∨ row'.version = (getRoot repo w').base.version) ∧ 0 < w'.tick ∧
      (getRoot repo w').base.expiry.isExpiredAt (c.clock (w'.tick - 1)) = false ∧
      RotationEnded c repo ((getRoot repo w').base.version + 1) w'.tick) := by
  rcases bind_cases h with ⟨r, w1, h1, h⟩ | ⟨e, h1, rfl⟩
  · simp at h1
    obtain ⟨rfl, rfl⟩ := h1
    rcases bind_cases h with ⟨first, w2, h2, h⟩ | ⟨e, h2, rfl⟩
    · simp at h2
      obtain ⟨h2, rfl⟩ := h2
      have hf := (succInt_ok h2).1
      rcases bind_cases h with ⟨_, w3, h3, h⟩ | ⟨e, h3, rfl⟩
      · obtain ⟨g, t, k⟩ := rotateLoop_spec c repo _ _ _ _ _ row h3 hs hf (by omega)
        obtain ⟨⟨row', hs', he⟩, hend⟩ := k rfl
        unfold checkRootExpired at h
        simp only [bind, gets, now] at h
        have hw : w' = { w3 with tick := w3.tick + 1 } := by
          have := congrArg Prod.snd h
          simp at this
          exact this.symm
        subst hw
        have hr : getRoot repo { w3 with tick := w3.tick + 1 } = getRoot repo w3 := by cases repo <;> rfl
        refine ⟨g, by show w3.tick + 1 ≤ _; rw [hf] at t; omega, ?_⟩
        rintro rfl
        rw [throwWhen_ok] at h
        refine ⟨row', ⟨hs'.newest, by rw [hr]; exact hs'.reads, hs'.filed, by rw [hr]; exact hs'.policy, by rw [hr]; exact hs'.selfSigned⟩, by rw [hr]; exact he, ?_, ?_, ?_⟩
        · show 0 < w3.tick + 1; omega
        · rw [hr]; exact h.1
        · rw [hr]
          rcases hend with he | ⟨t0, ht0, hx⟩
          · exact .inl he
          · exact .inr ⟨t0, Nat.lt_succ_of_lt ht0, hx⟩
      · obtain ⟨g, t, _⟩ := rotateLoop_spec c repo _ _ _ _ _ row h3 hs hf (by omega)
        refine ⟨g, by rw [hf] at t; omega, by simp⟩
    · simp at h2
      obtain ⟨_, rfl⟩ := h2
      exact ⟨rootsGrow_refl _ _, by omega, by simp⟩
  · simp at h1

theorem rotateLoop_tick (c : Ctx) (repo : Repo) : ∀ (n : Nat) (v : Int) (w w' : World) (o : Except Err Unit),
    rotateLoop c repo n v w = (o, w') → w'.tick ≤ w.tick + n
  | 0, v, w, w', o, h => by
    simp [rotateLoop] at h
    obtain ⟨_, rfl⟩ := h
    omega
  | n + 1, v, w, w', o, h => by
    rw [rotateLoop] at h
    rcases bind_cases h with ⟨ans, w1, h1, h⟩ | ⟨e, h1, rfl⟩
    · have t1 := tick_le_tryFetch h1
      cases ans with
      | none => simp at h; obtain ⟨_, rfl⟩ := h; omega
      | some raw =>
        rcases bind_cases h with ⟨_, w2, h2, h⟩ | ⟨e, h2, rfl⟩
        · have t2 := verifyRoot_tick h2
          rcases bind_cases h with ⟨_, w3, h3, h⟩ | ⟨e, h3, rfl⟩
          · have t3 := write_tick h3
            rcases bind_cases h with ⟨_, w4, h4, h⟩ | ⟨e, h4, rfl⟩
            · have t4 := write_tick h4
              have := rotateLoop_tick c repo n _ _ _ _ h
              omega
            · have t4 := write_tick h4
              omega
          · have t3 := write_tick h3
            omega
        · have t2 := verifyRoot_tick h2
          omega
    · have t1 := tick_le_tryFetch h1
      omega

theorem rotate_tick {c : Ctx} {repo : Repo} {w w' : World} {o : Except Err Unit}
    (h : (do
      let r ← gets (getRoot repo)
      let first ← lift (succInt r.base.version)
      rotateLoop c repo (kMaxRotations - first).toNat first
      checkRootExpired c repo : U Unit) w = (o, w')) :
    w'.tick ≤ w.tick + (kMaxRotations - ((getRoot repo w).base.version + 1)).toNat + 1 := by
  rcases bind_cases h with ⟨r, w1, h1, h⟩ | ⟨e, h1, rfl⟩
  · simp at h1
    obtain ⟨rfl, rfl⟩ := h1
    rcases bind_cases h with ⟨first, w2, h2, h⟩ | ⟨e, h2, rfl⟩
    · simp at h2
      obtain ⟨h2, rfl⟩ := h2
      have hf := (succInt_ok h2).1
      rcases bind_cases h with ⟨_, w3, h3, h⟩ | ⟨e, h3, rfl⟩
      · have t := rotateLoop_tick _ _ _ _ _ _ _ h3
        unfold checkRootExpired at h
        simp only [bind, gets, now] at h
        have hw := congrArg Prod.snd h
        simp at hw
        subst hw
        show w3.tick + 1 ≤ _
        rw [hf] at t
        omega
      · have t := rotateLoop_tick _ _ _ _ _ _ _ h3
        rw [hf] at t
        omega
    · simp at h2
      obtain ⟨_, rfl⟩ := h2
      omega
  · simp at h1

theorem updateRoot_evolve {c : Ctx} {repo : Repo} {w w' : World} {o : Except Err Unit}
    (h : updateRoot c repo w = (o, w')) : RootsEvolve c.env repo (rootRows repo w.db) (rootRows repo w'.db) := by
  unfold updateRoot at h
  rcases bind_cases h with ⟨_, w1, h1, h⟩ | ⟨e, h1, rfl⟩
  · obtain ⟨hrows, hok, _⟩ := loadOrFetchRoot_spec h1
    obtain ⟨row, hn, hr, hss0, hp⟩ := hok rfl
    have hg : RootsGrow c.env (rootRows repo w1.db) (rootRows repo w'.db) := by
      intro row2 hn2 hf2
      have e : row2 = row := by
        have := hn2.symm.trans hn
        simpa using this
      subst e
      exact (rotate_spec h ⟨hn, hr, hf2, hp, hss0⟩).1 row2 hn2 hf2
    rcases hrows with hrows | ⟨he, raw, hss, hrows⟩
    · rw [← hrows]
      refine ⟨hg, fun h0 => ?_⟩
      rw [h0] at hn
      simp [NewestRoot, MetaDb.latest] at hn
    · rw [he]
      refine ⟨?_, fun _ => .inr ⟨raw, hss, hrows ▸ hg⟩⟩
      intro row hn
      simp [NewestRoot, MetaDb.latest] at hn
  · obtain ⟨hrows, _, _⟩ := loadOrFetchRoot_spec h1
    rcases hrows with hrows | ⟨he, raw, hss, hrows⟩
    · rw [hrows]; exact rootsEvolve_refl _ _ _
    · rw [he, hrows]
      refine ⟨?_, fun _ => .inr ⟨raw, hss, rootsGrow_refl _ _⟩⟩
      intro row hn
      simp [NewestRoot, MetaDb.latest] at hn

/-- The Root in memory was read from a document signed to threshold by the Root's own keys. -/
def RootInUse (env : Env) (r : Root) : Prop :=
  r.policy = .check ∧ ∃ raw, ReadsAsRoot env raw r ∧ SignedToThreshold env r.base "root" (env.parseJson raw)

theorem write_getRoot {f : MetaDb → MetaDb} {w w' : World} {o : Except Err Unit} (h : write f w = (o, w')) (repo : Repo) :
    getRoot repo w' = getRoot repo w := by
  rcases write_cases h with ⟨_, _, hd, hi⟩ | ⟨_, rfl⟩
  · cases repo
    · show w'.img.root = _; rw [hi]; rfl
    · show w'.dir.root = _; rw [hd]; rfl
  · rfl

theorem rotateLoop_inUse (c : Ctx) (repo : Repo) : ∀ (n : Nat) (v : Int) (w w' : World),
    rotateLoop c repo n v w = (.ok (), w') → RootInUse c.env (getRoot repo w) → RootInUse c.env (getRoot repo w')
  | 0, v, w, w', h, hu => by
    simp [rotateLoop] at h
    subst h
    exact hu
  | n + 1, v, w, w', h, hu => by
    rw [rotateLoop] at h
    obtain ⟨ans, w1, h1, h'⟩ := M.bind_ok.1 h
    have hm := (tryFetchRoot_same c repo v).of_eq h1
    have hr1 : getRoot repo w1 = getRoot repo w := hm.getRoot repo
    cases ans with
    | none =>
      simp at h'
      subst h'
      rw [hr1]; exact hu
    | some raw =>
      obtain ⟨_, w2, h2, h3⟩ := M.bind_ok.1 h'
      obtain ⟨_, w3, h3, h4⟩ := M.bind_ok.1 h3
      obtain ⟨_, w4, h4, h5⟩ := M.bind_ok.1 h4
      obtain ⟨_, hok⟩ := verifyRoot_cases (by rw [hr1]; exact hu.1) h2
      obtain ⟨r, hr, _, hs, _, rfl⟩ := hok rfl
      refine rotateLoop_inUse c repo n _ _ _ h5 ?_
      rw [write_getRoot h4, write_getRoot h3, getRoot_setRoot]
      exact ⟨Root.ofJson_policy hr, raw, hr, hs⟩

/-- After a successful `updateRoot` the Root in use is signed by its own keys and was not
expired at the last reading of the clock. -/
theorem updateRoot_inUse {c : Ctx} {repo : Repo} {w w' : World} (h : updateRoot c repo w = (.ok (), w')) :
    RootInUse c.env (getRoot repo w') ∧ 0 < w'.tick ∧
      (getRoot repo w').base.expiry.isExpiredAt (c.clock (w'.tick - 1)) = false := by
  unfold updateRoot at h
  simp only [M.bind_ok, gets_eq, lift_eq, Prod.mk.injEq, Except.ok.injEq] at h
  obtain ⟨_, w1, h1, r, w2, ⟨rfl, rfl⟩, first, w3, ⟨_, rfl⟩, _, w4, h4, h5⟩ := h
  obtain ⟨_, hok, _⟩ := loadOrFetchRoot_spec h1
  obtain ⟨row, _, hr, hs, hp⟩ := hok rfl
  have hu := rotateLoop_inUse c repo _ _ _ _ h4 ⟨hp, row.data, hr, hs⟩
  unfold checkRootExpired at h5
  simp only [M.bind_ok, gets_eq, now, throwWhen_ok, Prod.mk.injEq, Except.ok.injEq] at h5
  obtain ⟨_, _, ⟨rfl, rfl⟩, _, _, ⟨rfl, rfl⟩, h5, rfl⟩ := h5
  have hg : getRoot repo { w4 with tick := w4.tick + 1 } = getRoot repo w4 := by cases repo <;> rfl
  rw [hg]
  exact ⟨hu, Nat.succ_pos _, h5⟩

end Aktualizr
