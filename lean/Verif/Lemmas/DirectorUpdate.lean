import Verif.Lemmas.Director

/-! Inversion of the Director's online check. -/

namespace Aktualizr

open Spec M

macro "swap_goal" : tactic => `(tactic| rotate_left)

/-- Director Targets in memory unchanged. -/
def SameDirTargets (w w' : World) : Prop := w'.dir.targets = w.dir.targets ∧ w'.dir.latest = w.dir.latest

theorem sameDirTargets_pre : IsPre SameDirTargets :=
  ⟨fun _ => ⟨rfl, rfl⟩, fun _ _ _ h1 h2 => ⟨h2.1.trans h1.1, h2.2.trans h1.2⟩⟩

/-- Structural steps of a preservation proof for an arbitrary preorder on worlds. -/
macro "wpres_step" h:term : tactic => `(tactic| with_reducible first
  | assumption
  | exact Preserves.pure $h
  | exact Preserves.throw $h
  | exact Preserves.lift $h
  | exact Preserves.gets $h
  | exact Preserves.throwWhen $h
  | exact Preserves.orThrow $h
  | refine Preserves.bind $h ?_ (fun _ => ?_)
  | refine Preserves.map ?_
  | refine Preserves.catchStd $h ?_ (fun _ => ?_)
  | refine Preserves.catchUpt $h ?_ (fun _ => ?_)
  | refine Preserves.modify (fun w => ?_)
  | split)

macro "wpres" h:term : tactic => `(tactic| repeat' wpres_step $h)

theorem setRoot_dirTargets (repo : Repo) (r : Root) (w : World) : SameDirTargets w (setRoot repo r w) := by
  cases repo <;> exact ⟨rfl, rfl⟩

theorem write_sameDirTargets (f : MetaDb → MetaDb) : Preserves SameDirTargets (write f) := by
  intro w; unfold write; split <;> exact ⟨rfl, rfl⟩

theorem sameMem_dirTargets {α : Type} {m : U α} (h : Preserves SameMem m) : Preserves SameDirTargets m := by
  intro w
  have := (h w).2.1
  exact ⟨by rw [this], by rw [this]⟩

theorem eq_dirTargets {α : Type} {m : U α} (h : Preserves Eq m) : Preserves SameDirTargets m := by
  intro w
  rw [← h w]; exact ⟨rfl, rfl⟩

theorem updateRoot_dirTargets (c : Ctx) (repo : Repo) : Preserves SameDirTargets (updateRoot c repo) := by
  have hloop : ∀ n v, Preserves SameDirTargets (rotateLoop c repo n v) := by
    intro n
    induction n with
    | zero => intro v; unfold rotateLoop; wpres sameDirTargets_pre
    | succ n ih =>
      intro v
      unfold rotateLoop verifyRoot
      wpres sameDirTargets_pre
      · exact sameMem_dirTargets (tryFetchRoot_same c repo v)
      · exact setRoot_dirTargets _ _ _
      · exact write_sameDirTargets _
      · exact write_sameDirTargets _
      · exact ih _
  unfold updateRoot loadOrFetchRoot initRoot checkRootExpired
  wpres sameDirTargets_pre
  · exact eq_dirTargets (loadLatestRoot_same _)
  · exact setRoot_dirTargets _ _ _
  · exact setRoot_dirTargets _ _ _
  · exact sameMem_dirTargets (fetchRole_same _ _ _ _ _)
  · exact setRoot_dirTargets _ _ _
  · exact setRoot_dirTargets _ _ _
  · exact write_sameDirTargets _
  · exact hloop _ _
  · exact sameMem_dirTargets (now_same _)

theorem fetchRole_ok {c : Ctx} {m : Int} {repo : Repo} {role : Role} {v : Int} {w w' : World} {raw : String}
    (h : fetchRole c m repo role v w = (.ok raw, w')) :
    c.net w.tick repo role.name v = some raw ∧ (c.limited = false ∨ (raw.utf8ByteSize : Int) ≤ m) ∧ w' = { w with tick := w.tick + 1 } := by
  simp only [fetchRole] at h
  split at h
  · split at h
    · simp at h
      obtain ⟨rfl, rfl⟩ := h
      exact ⟨by assumption, by assumption, rfl⟩
    · simp at h
  · simp at h

namespace Director

/-- What `verifyTargets` leaves in memory. -/
def afterVerify (d : DirectorRepo) (ts : Targets) : DirectorRepo :=
  if !d.targets.targets.isEmpty && ts.targets.isEmpty then { d with latest := ts }
  else { d with latest := ts, targets := ts }

theorem verifyTargets_cases {c : Ctx} {raw : String} {w w' : World} {o : Except Err Unit}
    (h : verifyTargets c raw w = (o, w')) :
    (∃ ts, o = .ok () ∧ Targets.ofJsonSigned c.env Role.targets (c.env.parseJson raw) w.dir.root.base = .ok ts ∧
      w' = { w with dir := afterVerify w.dir ts }) ∨
    (∃ e, o = .error e ∧ w' = w) := by
  unfold verifyTargets at h
  rcases bind_cases h with ⟨d, w1, h1, h⟩ | ⟨e, h1, rfl⟩
  · simp at h1
    obtain ⟨rfl, rfl⟩ := h1
    rcases bind_cases h with ⟨ts, w2, h2, h⟩ | ⟨e, h2, rfl⟩
    · simp at h2
      obtain ⟨h2, rfl⟩ := h2
      rcases bind_cases h with ⟨_, w3, h3, h⟩ | ⟨e, h3, rfl⟩
      · simp at h3
        subst h3
        rw [modify_eq] at h
        injection h with ho hw
        refine .inl ⟨ts, ho.symm, h2, ?_⟩
        rw [← hw]
        simp only [usePreviousTargets, afterVerify]
        by_cases hc : (!w.dir.targets.targets.isEmpty && ts.targets.isEmpty) = true
        · simp only [hc, if_true]
        · simp only [hc]; simp
      · simp at h3
    · simp at h2
      exact .inr ⟨e, rfl, h2.2.symm⟩
  · simp at h1

/-- After the stored Targets have been considered: nothing stored, or its version is known and
it is in memory if it verified. -/
theorem loadStored_cases {c : Ctx} {w w' : World} {v : Int}
    (h : loadStoredTargets c w = (.ok v, w')) :
    (w.db.latestOf .director .targets = none ∧ v = -1 ∧ w' = w) ∨
    (∃ stored, Stored w.db .director .targets stored ∧ extractVersionUntrusted c.env stored = .ok v ∧
      (w' = w ∨ ∃ ts, Targets.ofJsonSigned c.env Role.targets (c.env.parseJson stored) w.dir.root.base = .ok ts ∧
        w' = { w with dir := afterVerify w.dir ts })) := by
  unfold loadStoredTargets at h
  rw [M.bind_ok] at h
  obtain ⟨ans, w1, h1, h⟩ := h
  cases ans with
  | none =>
    obtain ⟨rfl, hn⟩ := loadNonRoot_none h1
    simp at h
    exact .inl ⟨hn, h.1.symm, h.2.symm⟩
  | some stored =>
    obtain ⟨rfl, _, hs⟩ := loadNonRoot_some h1
    rw [M.bind_ok] at h
    obtain ⟨v', w2, h2, h⟩ := h
    simp at h2
    obtain ⟨h2, rfl⟩ := h2
    rw [M.bind_ok] at h
    obtain ⟨_, w3, h3, h⟩ := h
    simp at h
    obtain ⟨rfl, rfl⟩ := h
    refine .inr ⟨stored, hs, h2, ?_⟩
    unfold catchStd at h3
    split at h3
    · rename_i e w4 he
      split at h3
      · simp at h3
        subst h3
        rcases verifyTargets_cases he with ⟨ts, h, _⟩ | ⟨_, _, rfl⟩
        · simp at h
        · exact .inl rfl
      · simp at h3
    · rcases verifyTargets_cases h3 with ⟨ts, _, hts, hw⟩ | ⟨e, h, _⟩
      · exact .inr ⟨ts, hts, hw⟩
      · simp at h

/-- Everything a successful online check of the Director establishes. `w1` is the state after
Root rotation. -/
structure Success (c : Ctx) (w w1 w' : World) (raw : String) : Prop where
  rootOk : updateRoot c .director { w with dir := { root := { policy := .acceptAll } } } = (.ok (), w1)
  served : c.net w1.tick .director "targets" (-1) = some raw
  root : w'.dir.root = w1.dir.root
  latest : Targets.ofJsonSigned c.env Role.targets (c.env.parseJson raw) w'.dir.root.base = .ok w'.dir.latest
  used : w'.dir.targets = w'.dir.latest ∨
    (w'.dir.latest.targets = [] ∧ w'.dir.targets.targets ≠ [] ∧ w'.db = w1.db ∧ ∃ stored, Stored w1.db .director .targets stored ∧
      Targets.ofJsonSigned c.env Role.targets (c.env.parseJson stored) w'.dir.root.base = .ok w'.dir.targets)
  order : ∃ vr, extractVersionUntrusted c.env raw = .ok vr ∧
    (∀ stored, Stored w1.db .director .targets stored → ∃ vs, extractVersionUntrusted c.env stored = .ok vs ∧ vs ≤ vr)
  ticks : w'.tick = w1.tick + 2
  fresh : 0 < w'.tick ∧ w'.dir.latest.base.expiry.isExpiredAt (c.clock (w'.tick - 1)) = false
  noDelegations : w'.dir.latest.delegatedRoleNames = []
  noRepeat : repeatedEcu [] (w'.dir.targets.targets.flatMap (fun t => t.ecus.map Prod.fst)) = false

theorem updateMeta_success {c : Ctx} {w w' : World} (h : updateMeta c w = (.ok (), w')) :
    ∃ w1 raw, Success c w w1 w' raw := by
  unfold updateMeta at h
  simp only [M.bind_ok] at h
  obtain ⟨_, w0, h0, _, w1, h1, raw, w2, h2, vr, w3, h3, vl, w4, h4, _, w5, h5, _, w6, h6, _, w7, h7, h8⟩ := h
  simp only [resetMeta, modify_eq, Prod.mk.injEq, true_and] at h0
  subst h0
  obtain ⟨hs, _, rfl⟩ := fetchRole_ok h2
  simp only [lift_eq, Prod.mk.injEq] at h3
  obtain ⟨h3, rfl⟩ := h3
  have hdt := (updateRoot_dirTargets c .director).of_eq h1
  have ht1 : w1.dir.targets.targets = [] := by rw [hdt.1]
  -- after the final verification
  have h5' : ∃ ts, Targets.ofJsonSigned c.env Role.targets (c.env.parseJson raw) w4.dir.root.base = .ok ts ∧
      w5 = { w4 with dir := afterVerify w4.dir ts } := by
    rcases verifyTargets_cases h5 with ⟨ts, _, hts, rfl⟩ | ⟨e, he, _⟩
    · exact ⟨ts, hts, rfl⟩
    · simp at he
  obtain ⟨ts, hts, rfl⟩ := h5'
  -- comparison
  have hcmp : vl ≤ vr ∧ (w6.db = w1.db ∨ usePreviousTargets (afterVerify w4.dir ts) = false) ∧
      w6.dir = afterVerify w4.dir ts ∧ w6.tick = w4.tick := by
    have hdb4 : w4.db = w1.db := by
      rcases loadStored_cases h4 with ⟨_, _, rfl⟩ | ⟨stored, _, _, rfl | ⟨ts', _, rfl⟩⟩ <;> rfl
    unfold compareAndStore at h6
    simp only [M.bind_ok, gets_eq, Prod.mk.injEq, Except.ok.injEq] at h6
    obtain ⟨d, w5', ⟨rfl, rfl⟩, h6⟩ := h6
    simp only [ite_app] at h6
    split at h6
    · simp at h6
    · rename_i hle
      split at h6
      · rename_i hlt
        simp only [Bool.and_eq_true, Bool.not_eq_true'] at hlt
        have ht := write_tick h6
        rcases write_cases h6 with ⟨_, _, hd, _⟩ | ⟨h6, _⟩
        · exact ⟨by omega, .inr hlt.2, hd, ht⟩
        · simp at h6
      · simp at h6
        subst h6
        exact ⟨by omega, .inl hdb4, rfl, rfl⟩
  obtain ⟨hle, hprev, hd6, ht6⟩ := hcmp
  -- expiry
  unfold checkTargetsExpired at h7
  simp only [M.bind_ok, gets_eq, Prod.mk.injEq, Except.ok.injEq, now, throwWhen_ok] at h7
  obtain ⟨_, _, ⟨rfl, rfl⟩, _, _, ⟨rfl, rfl⟩, hexp, rfl⟩ := h7
  unfold targetsSanityCheck at h8
  simp only [M.bind_ok, gets_eq, Prod.mk.injEq, Except.ok.injEq, throwWhen_ok] at h8
  obtain ⟨_, _, ⟨rfl, rfl⟩, _, _, ⟨hdel, rfl⟩, hrep, rfl⟩ := h8
  simp only [hd6] at hexp hdel hrep
  have hroot4 : w4.dir.root = w1.dir.root := by
    rcases loadStored_cases h4 with ⟨_, _, rfl⟩ | ⟨stored, _, _, rfl | ⟨ts', _, rfl⟩⟩
    · rfl
    · rfl
    · simp only [afterVerify]; split <;> rfl
  have hroot6 : (afterVerify w4.dir ts).root = w1.dir.root := by
    rw [← hroot4]; simp only [afterVerify]; split <;> rfl
  have hlatest : (afterVerify w4.dir ts).latest = ts := by simp only [afterVerify]; split <;> rfl
  refine ⟨w1, raw, ⟨h1, hs, ?_, ?_, ?_, ⟨vr, h3, ?_⟩, ?_, ⟨Nat.succ_pos _, ?_⟩, ?_, ?_⟩⟩
  · show w6.dir.root = _; rw [hd6, hroot6]
  · show Targets.ofJsonSigned _ _ _ w6.dir.root.base = .ok w6.dir.latest
    rw [hd6, hroot6, hlatest, ← hroot4]; exact hts
  · show w6.dir.targets = w6.dir.latest ∨ _
    show w6.dir.targets = w6.dir.latest ∨ (w6.dir.latest.targets = [] ∧ w6.dir.targets.targets ≠ [] ∧ w6.db = w1.db ∧ ∃ stored, _ ∧
      Targets.ofJsonSigned _ _ _ w6.dir.root.base = .ok w6.dir.targets)
    rw [hd6, hroot6, hlatest]
    by_cases hu : (!w4.dir.targets.targets.isEmpty && ts.targets.isEmpty) = true
    · have ha : afterVerify w4.dir ts = { w4.dir with latest := ts } := by simp only [afterVerify, hu, if_true]
      right
      simp at hu
      have hdbsame : w6.db = w1.db := by
        rcases hprev with h | h
        · exact h
        · simp [usePreviousTargets, ha, hu] at h
      refine ⟨hu.2, by rw [ha]; exact hu.1, hdbsame, ?_⟩
      rcases loadStored_cases h4 with ⟨_, _, rfl⟩ | ⟨stored, hst, _, rfl | ⟨ts', hts', rfl⟩⟩
      · exact absurd ht1 hu.1
      · exact absurd ht1 hu.1
      · refine ⟨stored, hst, ?_⟩
        have : (afterVerify w1.dir ts').targets = ts' := by
          have hf : (!w1.dir.targets.targets.isEmpty && ts'.targets.isEmpty) = false := by simp [ht1]
          simp only [afterVerify, hf]
          simp
        rw [ha]
        show _ = Except.ok (afterVerify w1.dir ts').targets
        rw [this]
        exact hts'
    · left
      simp only [afterVerify, hu]
      simp
  · intro stored hst
    rcases loadStored_cases h4 with ⟨hn, _, _⟩ | ⟨stored', hst', hv, _⟩
    · obtain ⟨row, hr, _⟩ := hst
      have : w1.db.latestOf .director .targets = none := hn
      rw [this] at hr
      simp at hr
    · have : stored = stored' := hst.unique hst'
      subst this
      exact ⟨vl, hv, hle⟩
  · show w6.tick + 1 = w1.tick + 2
    rw [ht6]
    rcases loadStored_cases h4 with ⟨_, _, rfl⟩ | ⟨stored, _, _, rfl | ⟨ts', _, rfl⟩⟩ <;> rfl
  · show w6.dir.latest.base.expiry.isExpiredAt (c.clock w6.tick) = false
    rw [hd6]; exact hexp
  · show w6.dir.latest.delegatedRoleNames = []
    rw [hd6]; simpa using hdel
  · show repeatedEcu [] (w6.dir.targets.targets.flatMap _) = false
    rw [hd6]; exact hrep

/-- The effect on storage, whatever the outcome: that of Root rotation, followed by at most one
write of a fetched Targets document, signed under the Root in use and with a higher version
than what was stored. -/
theorem updateMeta_writes {c : Ctx} {w w' : World} {o : Except Err Unit} (h : updateMeta c w = (o, w')) :
    ∃ w1 o1, updateRoot c .director { w with dir := { root := { policy := .acceptAll } } } = (o1, w1) ∧
      (w'.db = w1.db ∨ ∃ raw vr, w'.db = w1.db.storeNonRoot raw .director .targets ∧ o1 = .ok () ∧
        c.net w1.tick .director "targets" (-1) = some raw ∧
        extractVersionUntrusted c.env raw = .ok vr ∧ SignedFor c.env w1.dir.root Role.targets raw ∧
        (∀ stored, Stored w1.db .director .targets stored → ∃ vs, extractVersionUntrusted c.env stored = .ok vs ∧ vs < vr) ∧
        (w1.db.latestOf .director .targets = none → -1 < vr)) := by
  unfold updateMeta at h
  rcases bind_cases h with ⟨_, w0, h0, h⟩ | ⟨e, h0, rfl⟩
  swap_goal
  · simp [resetMeta] at h0
  simp only [resetMeta, modify_eq, Prod.mk.injEq, true_and] at h0
  subst h0
  rcases bind_cases h with ⟨_, w1, h1, h⟩ | ⟨e, h1, rfl⟩
  swap_goal
  · exact ⟨w', _, h1, .inl rfl⟩
  refine ⟨w1, .ok (), h1, ?_⟩
  rcases bind_cases h with ⟨raw, w2, h2, h⟩ | ⟨e, h2, rfl⟩
  swap_goal
  · exact .inl ((fetchLatestRole_same _ _ _ _).of_eq h2).1
  obtain ⟨hs, _, rfl⟩ := fetchRole_ok h2
  rcases bind_cases h with ⟨vr, w3, h3, h⟩ | ⟨e, h3, rfl⟩
  swap_goal
  · simp at h3; exact .inl (by rw [← h3.2])
  simp only [lift_eq, Prod.mk.injEq] at h3
  obtain ⟨h3, rfl⟩ := h3
  rcases bind_cases h with ⟨vl, w4, h4, h⟩ | ⟨e, h4, rfl⟩
  swap_goal
  · have := (loadStoredTargets_pres (P := fun d d' => d' = d) ⟨fun _ => rfl, fun _ _ _ a b => b.trans a⟩ c).of_eq h4
    exact .inl this
  have hdb4 : w4.db = w1.db := by
    rcases loadStored_cases h4 with ⟨_, _, rfl⟩ | ⟨stored, _, _, rfl | ⟨ts', _, rfl⟩⟩ <;> rfl
  have hroot4 : w4.dir.root = w1.dir.root := by
    rcases loadStored_cases h4 with ⟨_, _, rfl⟩ | ⟨stored, _, _, rfl | ⟨ts', _, rfl⟩⟩
    · rfl
    · rfl
    · simp only [afterVerify]; split <;> rfl
  rcases bind_cases h with ⟨_, w5, h5, h⟩ | ⟨e, h5, rfl⟩
  swap_goal
  · rcases verifyTargets_cases h5 with ⟨_, h, _⟩ | ⟨_, _, rfl⟩
    · simp at h
    · exact .inl hdb4
  have h5' : ∃ ts, Targets.ofJsonSigned c.env Role.targets (c.env.parseJson raw) w4.dir.root.base = .ok ts ∧
      w5 = { w4 with dir := afterVerify w4.dir ts } := by
    rcases verifyTargets_cases h5 with ⟨ts, _, hts, rfl⟩ | ⟨e, he, _⟩
    · exact ⟨ts, hts, rfl⟩
    · simp at he
  obtain ⟨ts, hts, rfl⟩ := h5'
  -- from here only `compareAndStore` writes
  have hrest : ∀ w6, (do checkTargetsExpired c; targetsSanityCheck : U Unit) w6 = (o, w') → w'.db = w6.db := by
    intro w6 h6
    have hP : DbPre (fun d d' => d' = d) := ⟨fun _ => rfl, fun _ _ _ a b => Eq.trans b a⟩
    have : Preserves (onDb (fun d d' => d' = d)) (do checkTargetsExpired c; targetsSanityCheck : U Unit) :=
      .bind hP.isPre (checkTargetsExpired_pres hP c) (fun _ => targetsSanityCheck_pres hP)
    exact this.of_eq h6
  have hcmp : ∀ o6 w6, compareAndStore vl vr raw { w4 with dir := afterVerify w4.dir ts } = (o6, w6) →
      w6.db = w4.db ∨ (vl < vr ∧ w6.db = w4.db.storeNonRoot raw .director .targets) := by
    intro o6 w6 h6
    unfold compareAndStore at h6
    rcases bind_cases h6 with ⟨d, w5', h, h6⟩ | ⟨e, h, _⟩
    · simp only [gets_eq, Prod.mk.injEq, Except.ok.injEq] at h
      obtain ⟨rfl, rfl⟩ := h
      simp only [ite_app] at h6
      split at h6
      · simp at h6; exact .inl (by rw [← h6.2])
      · split at h6
        · rename_i hlt
          simp only [Bool.and_eq_true, decide_eq_true_eq] at hlt
          rcases write_cases h6 with ⟨_, hd, _⟩ | ⟨_, rfl⟩
          · exact .inr ⟨hlt.1, hd⟩
          · exact .inl rfl
        · simp at h6; exact .inl (by rw [← h6.2])
    · simp at h
  have key : ∀ w6 : World, (w6.db = w4.db ∨ (vl < vr ∧ w6.db = w4.db.storeNonRoot raw .director .targets)) → w'.db = w6.db →
      (w'.db = w1.db ∨ ∃ raw vr, w'.db = w1.db.storeNonRoot raw .director .targets ∧ (Except.ok () : Except Err Unit) = .ok () ∧
        c.net w1.tick .director "targets" (-1) = some raw ∧
        extractVersionUntrusted c.env raw = .ok vr ∧ SignedFor c.env w1.dir.root Role.targets raw ∧
        (∀ stored, Stored w1.db .director .targets stored → ∃ vs, extractVersionUntrusted c.env stored = .ok vs ∧ vs < vr) ∧
        (w1.db.latestOf .director .targets = none → -1 < vr)) := by
    intro w6 h6 h7
    rcases h6 with h6 | ⟨hlt, h6⟩
    · exact .inl (by rw [h7, h6, hdb4])
    · refine .inr ⟨raw, vr, by rw [h7, h6, hdb4], rfl, hs, h3, ?_, ?_, ?_⟩
      · rw [← hroot4]
        have := Targets.ofJsonSigned_ok properTargets hts
        exact ⟨this.1, this.2.1⟩
      · intro stored hst
        rcases loadStored_cases h4 with ⟨hn, _, _⟩ | ⟨stored', hst', hv, _⟩
        · obtain ⟨row, hr, _⟩ := hst
          have : w1.db.latestOf .director .targets = none := hn
          rw [this] at hr
          simp at hr
        · have : stored = stored' := hst.unique hst'
          subst this
          exact ⟨vl, hv, hlt⟩
      · intro hnone
        rcases loadStored_cases h4 with ⟨_, rfl, _⟩ | ⟨stored', ⟨row, hr, _⟩, _, _⟩
        · exact hlt
        · have : w1.db.latestOf .director .targets = some row := hr
          rw [hnone] at this
          simp at this
  rcases bind_cases h with ⟨_, w6, h6, h⟩ | ⟨e, h6, rfl⟩
  · exact key w6 (hcmp _ _ h6) (hrest w6 h)
  · exact key w' (hcmp _ _ h6) rfl

end Director

end Aktualizr
