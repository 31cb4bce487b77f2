import Verif.Lemmas.HonestTree
import Verif.Props.C10

/-!
# C61 Genuine metadata is accepted
-/

namespace Aktualizr

open M Spec

namespace Spec

/-- The device has ECU `ecu`, of hardware `hw`. -/
def HasEcu (cl : Client) (ecu hw : String) : Prop :=
  (ecu = cl.primary ∧ hw = cl.primaryHw ∧ hw ≠ "Unknown") ∨
  (ecu ≠ cl.primary ∧ ecu ≠ "" ∧ cl.secondaries.lookup ecu = some hw)

/-- The target is for ECUs of this device, of the right hardware; what is installed there can be
read, and is not another image with the same name. -/
def FitsDevice (env : Env) (cl : Client) (t : Target) : Prop :=
  ∀ p ∈ t.ecus, HasEcu cl p.1 p.2 ∧
    (∃ cur, cl.v.loadCurrent env p.1 = .ok cur ∧ ∀ x, cur = some x → x.filename = t.filename → SameContent x t ∧ SameAssignment x t) ∧
    (p.1 = cl.primary → cl.ostree = true → t.isOstree = true)

/-- On one of its ECUs the target is not installed. -/
def Outdated (env : Env) (cl : Client) (t : Target) : Prop :=
  ∃ p ∈ t.ecus, ∀ x, cl.v.loadCurrent env p.1 = .ok (some x) → ¬ (SameContent x t ∧ SameAssignment x t)

end Spec

/-! ### Which targets are new -/

theorem Spec.HasEcu.run {cl : Client} {ecu hw : String} (h : HasEcu cl ecu hw) : cl.getEcuHwId ecu = some hw := by
  unfold Client.getEcuHwId
  rcases h with ⟨rfl, rfl, h⟩ | ⟨h1, h2, h3⟩
  · rw [if_pos (.inl rfl), if_neg h]
  · rw [if_neg (by simp [h1, h2])]
    exact h3

theorem compareInstalled_run {t : Target} {b : Bool} {cur : Option Target}
    (h : ∀ x, cur = some x → x.filename = t.filename → SameContent x t ∧ SameAssignment x t) : ∃ b', compareInstalled t b cur = .ok b' := by
  unfold compareInstalled
  cases cur with
  | none => exact ⟨_, rfl⟩
  | some x =>
    simp only
    split
    · exact ⟨_, rfl⟩
    · rename_i hm
      split
      · rename_i hf
        exact absurd (matchTarget_iff.2 (h x rfl hf)) hm
      · exact ⟨_, rfl⟩

theorem ecuLoop_run {env : Env} {cl : Client} {t : Target} : ∀ (l : List (String × String)) (b : Bool) (n : Nat),
    (∀ p ∈ l, HasEcu cl p.1 p.2 ∧
      (∃ cur, cl.v.loadCurrent env p.1 = .ok cur ∧ ∀ x, cur = some x → x.filename = t.filename → SameContent x t ∧ SameAssignment x t) ∧
      (p.1 = cl.primary → cl.ostree = true → t.isOstree = true)) → ∃ r, ecuLoop env cl t l b n = .ok r
  | [], b, n, _ => ⟨_, rfl⟩
  | (serial, hw) :: l, b, n, h => by
    obtain ⟨h1, ⟨cur, h2, h3⟩, h4⟩ := h (serial, hw) (by simp)
    obtain ⟨b', hb'⟩ := compareInstalled_run (b := b) h3
    obtain ⟨r, hr⟩ := ecuLoop_run l b' (if b' then n + 1 else n) (fun p hp => h p (by simp [hp]))
    refine ⟨r, ?_⟩
    unfold ecuLoop
    rw [h1.run]
    simp only [exc_bind_ok, throwIf_ok]
    refine ⟨(), by simp, cur, h2, b', hb', (), ?_, hr⟩
    by_cases hp : cl.primary = serial
    · by_cases ho : cl.ostree = true
      · simp [h4 hp.symm ho]
      · simp [ho]
    · simp [hp]

theorem targetLoop_run {env : Env} {cl : Client} : ∀ (ts : List Target) (n : Nat), (∀ t ∈ ts, FitsDevice env cl t) →
    ∃ r, targetLoop env cl ts n = .ok r
  | [], n, _ => ⟨_, rfl⟩
  | t :: ts, n, h => by
    obtain ⟨r, hr⟩ := ecuLoop_run (env := env) (cl := cl) (t := t) t.ecus false n (h t (by simp))
    obtain ⟨s, hs⟩ := targetLoop_run ts r.2 (fun x hx => h x (by simp [hx]))
    unfold targetLoop
    simp only [exc_bind_ok]
    exact ⟨_, r, hr, s, hs, rfl⟩

theorem outdated_iff {env : Env} {cl : Client} {t : Target} :
    (∃ p ∈ t.ecus, ∀ x, cl.v.loadCurrent env p.1 = .ok (some x) → x.matchTarget t = false) ↔ Outdated env cl t := by
  unfold Outdated
  have : ∀ x : Target, x.matchTarget t = false ↔ ¬ (SameContent x t ∧ SameAssignment x t) := by
    intro x
    rw [← matchTarget_iff]
    simp
  simp only [this]

theorem targetLoop_sublist {env : Env} {cl : Client} : ∀ {ts : List Target} {n : Nat} {r : List Target × Nat}, targetLoop env cl ts n = .ok r →
    r.1.Sublist ts
  | [], n, r, h => by
    simp only [targetLoop, Except.ok.injEq] at h
    subst h
    exact .slnil
  | t :: ts, n, r, h => by
    unfold targetLoop at h
    simp only [exc_bind_ok] at h
    obtain ⟨⟨b, n1⟩, _, s, h2, h⟩ := h
    rw [exc_pure_ok] at h
    subst h
    cases b with
    | true => exact (targetLoop_sublist h2).cons_cons t
    | false => exact (targetLoop_sublist h2).cons t

theorem newTargets_run {env : Env} {cl : Client} (h : ∀ t ∈ cl.w.dir.targets.targets, FitsDevice env cl t) :
    ∃ r, cl.getNewTargets env = .ok r ∧ (∀ t, t ∈ r.1 ↔ t ∈ cl.w.dir.targets.targets ∧ Outdated env cl t) ∧
      r.1.Sublist cl.w.dir.targets.targets := by
  obtain ⟨r, hr⟩ := targetLoop_run _ 0 h
  refine ⟨r, hr, fun t => ?_, targetLoop_sublist hr⟩
  rw [← outdated_iff]
  exact (targetLoop_ok (news := r.1) (n' := r.2) hr).2 t

/-! ### Matching -/

theorem inWorld_run {α : Type} {m : U α} {cl : Client} {a : Except Err α} {w' : World} (h : m cl.w = (a, w')) :
    inWorld m cl = (a, { cl with w := w' }) := by
  unfold inWorld zoom
  rw [h]

theorem matchLoop_run {c : Ctx} {stored : List (String × String)} {rawS : String} {its : Targets} {k : Nat} : ∀ (ts : List Target) (cl : Client),
    ReadsAsSnapshot c.env rawS cl.w.img.snapshot → cl.w.img.targets = some its → Fresh c stored cl.w.db →
    (∀ t ∈ ts, Attainable c stored rawS its k t) → 2 * k * ts.length ≤ cl.w.fuel →
    ∃ us w' v, matchLoop c ts cl = (.ok us, { cl with w := w' }) ∧ Grown c cl.w w' v (2 * k * ts.length) ∧ us.map (·.ecus) = ts.map (·.ecus) ∧
      (∀ u ∈ us, ∃ d m, d ∈ ts ∧ Listed c stored rawS its d m ∧ Offers d m u ∧ Held c stored rawS its w'.db d m) ∧
      (∀ d ∈ ts, ∃ u m, u ∈ us ∧ Listed c stored rawS its d m ∧ Offers d m u)
  | [], cl, _, _, _, _, _ => ⟨[], cl.w, [], rfl, Grown.refl cl.w, rfl, by simp, by simp⟩
  | t :: ts, cl, hS, hi, hfr, h, hf => by
    simp only [List.length_cons, Nat.mul_add, Nat.mul_one] at hf ⊢
    obtain ⟨m', v1, w1, hm', hheld, hf', g1⟩ := findInTree_online hS hi (h t (by simp)) hfr (by omega)
    have hf1 := g1.fuel
    obtain ⟨us, w2, v2, h1, g2, h2, h3, h4⟩ := matchLoop_run (c := c) (stored := stored) (rawS := rawS) (its := its) (k := k) ts { cl with w := w1 }
      (by show ReadsAsSnapshot c.env rawS w1.img.snapshot; rw [g1.img]; exact hS) (by show w1.img.targets = _; rw [g1.img]; exact hi) (hfr.grown g1)
      (fun x hx => h x (by simp [hx])) (by show _ ≤ w1.fuel; omega)
    refine ⟨(if t.uri = "" ∧ m'.uri ≠ "" then { t with uri := m'.uri } else t) :: us, w2, v1 ++ v2, ?_, (g1.trans g2).le (by omega),
      by simp only [List.map_cons, h2]; split <;> rfl, ?_, ?_⟩
    · unfold matchLoop
      rw [run_bind (inWorld_run hf')]
      simp only
      rw [run_bind h1]
      rfl
    · intro u hu
      rcases List.mem_cons.1 hu with rfl | hu
      · exact ⟨t, m', by simp, hm', offers_of _ _, hheld.grown g2⟩
      · obtain ⟨d, m, h5, h6⟩ := h3 u hu
        exact ⟨d, m, by simp [h5], h6⟩
    · intro d hd
      rcases List.mem_cons.1 hd with rfl | hd
      · exact ⟨_, m', by simp, hm', offers_of _ _⟩
      · obtain ⟨u, m, h5, h6⟩ := h4 d hd
        exact ⟨u, m, by simp [h5], h6⟩

/-! ### The check -/

theorem Spec.HonestRoots.transfer {c : Ctx} {repo : Repo} {db db' : MetaDb} {first : String} {raws : List String} {last : Root}
    (h : HonestRoots c repo db first raws last) (he : ∀ t, db'.only repo t = db.only repo t) : HonestRoots c repo db' first raws last :=
  { h with start := (show _ ∨ _ from (by
      have := h.start
      simp only [MetaDb.latestOf_only, ← he] at this
      simpa only [MetaDb.latestOf_only] using this)) }

theorem Spec.HonestImage.transfer {c : Ctx} {db db' : MetaDb} {first : String} {raws : List String} {last : Root} {rawT rawS raw : String}
    {t : TimestampMeta} {s : Snapshot} {ts : Targets} (h : HonestImage c db first raws last rawT rawS raw t s ts)
    (he : ∀ t, db'.only .image t = db.only .image t) : HonestImage c db' first raws last rawT rawS raw t s ts :=
  { h with
    roots := h.roots.transfer he
    newerT := Image.newer_mono h.newerT (fun _ ho => (Image.stored_only (he _)).1 ho)
    knownS := fun old ho => h.knownS old ((Image.stored_only (he _)).1 ho)
    newer := Image.newer_mono h.newer (fun _ ho => (Image.stored_only (he _)).1 ho) }

/-- What a successful check leaves. -/
structure Checked (cl cl' : Client) (dRoot : String) (dLast : Root) (dRaw : String) (ts : Targets) (iRoot : String) (iLast : Root)
    (rawT rawS iRaw : String) (tm : TimestampMeta) (sn : Snapshot) (its : Targets) (n : Nat) : Prop where
  same : cl' = { cl with w := cl'.w }
  dir : cl'.w.dir = ⟨dLast, ts, ts⟩
  img : cl'.w.img = ⟨iLast, some its, tm, sn⟩
  dNewest : ∃ row, cl'.w.db.latestOf .director .root = some row ∧ row.data = dRoot ∧ row.version ≤ dLast.base.version + 1
  dStored : Stored cl'.w.db .director .targets dRaw
  iNewest : ∃ row, cl'.w.db.latestOf .image .root = some row ∧ row.data = iRoot ∧ row.version ≤ iLast.base.version + 1
  iStoredT : Stored cl'.w.db .image .timestamp rawT
  iStoredS : Stored cl'.w.db .image .snapshot rawS
  iStored : Stored cl'.w.db .image .targets iRaw
  fuel : cl.w.fuel ≤ cl'.w.fuel + n

theorem fits_world {env : Env} {cl : Client} {w : World} {t : Target} (h : FitsDevice env cl t) : FitsDevice env { cl with w := w } t := h

/-- Nothing is outdated: the check says so. -/
theorem checkUpdates_none {c : Ctx} {cl : Client} {dFirst : String} {dRaws : List String} {dLast : Root} {dRaw : String} {ts : Targets}
    (hd : HonestDirector c cl.w.db dFirst dRaws dLast dRaw ts) (hfit : ∀ t ∈ ts.targets, FitsDevice c.env cl t)
    (hnone : ∀ t ∈ ts.targets, ¬ Outdated c.env cl t) (hf : 2 * dRaws.length + 2 ≤ cl.w.fuel) :
    ∃ res cl', checkUpdates c cl = (.ok res, cl') ∧ res.status = .noUpdates ∧ res.updates = [] ∧
      cl' = { cl with w := cl'.w } ∧ DirectorDone cl.w cl'.w (lastOf dFirst dRaws) dLast dRaw ts (2 * dRaws.length + 2) := by
  obtain ⟨w1, h1, hdone⟩ := Director.updateMeta_run hd hf
  let cl1 : Client := { cl with w := w1 }
  have hts : cl1.w.dir.targets = ts := by show w1.dir.targets = ts; rw [hdone.dir]
  obtain ⟨r, hr, hnew, hsub⟩ := newTargets_run (env := c.env) (cl := cl1) (by rw [hts]; exact hfit)
  have hr0 : r.1 = [] := by
    cases hl : r.1 with
    | nil => rfl
    | cons a l =>
      have := (hnew a).1 (by rw [hl]; simp)
      rw [hts] at this
      exact absurd this.2 (hnone a this.1)
  have hit : uptaneIteration c cl = (.ok r, cl1) := by
    unfold uptaneIteration
    rw [run_bind (inWorld_run h1), run_bind (by rw [gets_eq])]
    refine (run_bind (m := lift (cl1.getNewTargets c.env)) (w := cl1) (by rw [lift_eq, hr])).trans ?_
    simp only [hr0]
    rfl
  refine ⟨⟨[], 0, .noUpdates, c.env.parseJson dRaw, ""⟩, cl1, ?_, rfl, rfl, rfl, hdone⟩
  unfold checkUpdates
  have hc : catchStd (do return some (← uptaneIteration c)) (fun _ => pure none) cl = (.ok (some r), cl1) := by
    unfold catchStd
    have : (do return some (← uptaneIteration c) : C (Option (List Target × Nat))) cl = (.ok (some r), cl1) := by
      rw [run_bind hit]; rfl
    rw [this]
  rw [run_bind hc]
  simp only
  unfold checkMatches
  rw [run_bind (inWorld_run (cl := cl1) (load_run (w := cl1.w) hdone.stored hd.genuine.nonempty))]
  simp only [hr0]
  rfl

theorem checkUpdates_roles {c : Ctx} {cl : Client} {dFirst : String} {dRaws : List String} {dLast : Root} {dRaw : String} {ts : Targets}
    {iFirst : String} {iRaws : List String} {iLast : Root} {rawT rawS iRaw : String} {tm : TimestampMeta} {sn : Snapshot} {its : Targets} {k : Nat}
    (hd : HonestDirector c cl.w.db dFirst dRaws dLast dRaw ts) (hi : HonestImage c cl.w.db iFirst iRaws iLast rawT rawS iRaw tm sn its)
    (hfit : ∀ t ∈ ts.targets, FitsDevice c.env cl t) (hsome : ∃ t ∈ ts.targets, Outdated c.env cl t)
    (hlist : ∀ t ∈ ts.targets, Outdated c.env cl t → Attainable c cl.w.db.delegations rawS its k t)
    (hf : 2 * dRaws.length + 2 * iRaws.length + 6 + 2 * k * ts.targets.length ≤ cl.w.fuel) :
    ∃ res cl', checkUpdates c cl = (.ok res, cl') ∧ res.status = .available ∧ res.targetsMeta = c.env.parseJson dRaw ∧
      (∀ u ∈ res.updates, ∃ d m, d ∈ ts.targets ∧ Outdated c.env cl d ∧ Listed c cl.w.db.delegations rawS its d m ∧ Offers d m u ∧
        Held c cl.w.db.delegations rawS its cl'.w.db d m) ∧
      (∀ d ∈ ts.targets, Outdated c.env cl d → ∃ u m, u ∈ res.updates ∧ Listed c cl.w.db.delegations rawS its d m ∧ Offers d m u) ∧
      (res.updates.map (·.ecus)).Sublist (ts.targets.map (·.ecus)) ∧
      Checked cl cl' (lastOf dFirst dRaws) dLast dRaw ts (lastOf iFirst iRaws) iLast rawT rawS iRaw tm sn its
        (2 * dRaws.length + 2 * iRaws.length + 6 + 2 * k * ts.targets.length) ∧
      Fresh c cl.w.db.delegations cl'.w.db := by
  obtain ⟨w1, h1, hdone⟩ := Director.updateMeta_run hd (by omega)
  have hf1 := hdone.fuel
  let cl1 : Client := { cl with w := w1 }
  have hts : cl1.w.dir.targets = ts := by show w1.dir.targets = ts; rw [hdone.dir]
  obtain ⟨r, hr, hnew, hsub⟩ := newTargets_run (env := c.env) (cl := cl1) (by rw [hts]; exact hfit)
  rw [hts] at hnew
  have hr0 : r.1 ≠ [] := by
    obtain ⟨t, h2, h3⟩ := hsome
    intro he
    have := (hnew t).2 ⟨h2, h3⟩
    rw [he] at this
    cases this
  obtain ⟨w2, h2, hidone⟩ := Image.updateMeta_run (w := w1) (hi.transfer hdone.other) (by omega)
  have hf2 := hidone.fuel
  let cl2 : Client := { cl with w := w2 }
  have hit : uptaneIteration c cl = (.ok r, cl2) := by
    unfold uptaneIteration
    rw [run_bind (inWorld_run h1), run_bind (by rw [gets_eq])]
    refine (run_bind (m := lift (cl1.getNewTargets c.env)) (w := cl1) (by rw [lift_eq, hr])).trans ?_
    have he : r.1.isEmpty = false := by cases hl : r.1 with
      | nil => exact absurd hl hr0
      | cons a l => rfl
    simp only [he, Bool.false_eq_true, if_false]
    rw [run_bind (inWorld_run (cl := cl1) h2)]
    rfl
  rw [hts] at hsub
  have hlen : 2 * k * r.1.length ≤ 2 * k * ts.targets.length := Nat.mul_le_mul_left _ hsub.length_le
  have hdel : w2.db.delegations = cl.w.db.delegations := hidone.delegations.trans hdone.delegations
  obtain ⟨us, w3, v3, hm1, hg, hm2, hm3, hm4⟩ := matchLoop_run (c := c) (stored := cl.w.db.delegations) (rawS := rawS) (its := its) (k := k) r.1 cl2
    (by show ReadsAsSnapshot c.env rawS w2.img.snapshot; rw [hidone.img]; exact hi.readsS) (by show w2.img.targets = _; rw [hidone.img])
    (fun x => .inl (by show List.lookup x w2.db.delegations = _; rw [hdel]))
    (fun t ht => hlist t ((hnew t).1 ht).1 ((hnew t).1 ht).2) (by show _ ≤ w2.fuel; omega)
  have hf3 : w2.fuel ≤ w3.fuel + 2 * k * r.1.length := hg.fuel
  let cl3 : Client := { cl with w := w3 }
  have hrows : w3.db.rows = w2.db.rows := by rw [hg.rows]
  have hst : Stored cl2.w.db .director .targets dRaw := (Image.stored_only (hidone.other _)).2 hdone.stored
  refine ⟨⟨us, r.2, .available, c.env.parseJson dRaw, ""⟩, cl3, ?_, rfl, rfl, ?_, ?_, ?_, ?_, ?_⟩
  · unfold checkUpdates
    have hc : catchStd (do return some (← uptaneIteration c)) (fun _ => pure none) cl = (.ok (some r), cl2) := by
      unfold catchStd
      have : (do return some (← uptaneIteration c) : C (Option (List Target × Nat))) cl = (.ok (some r), cl2) := by
        rw [run_bind hit]; rfl
      rw [this]
    rw [run_bind hc]
    simp only
    unfold checkMatches
    rw [run_bind (inWorld_run (cl := cl2) (load_run (w := cl2.w) hst hd.genuine.nonempty))]
    have he : r.1.isEmpty = false := by cases hl : r.1 with
      | nil => exact absurd hl hr0
      | cons a l => rfl
    simp only [he, Bool.false_eq_true, if_false]
    unfold catchStd
    have : (do
          let l ← matchLoop c r.1
          pure ⟨l, r.2, .available, c.env.parseJson dRaw, ""⟩ : C UpdateCheck) cl2 = (.ok ⟨us, r.2, .available, c.env.parseJson dRaw, ""⟩, cl3) := by
      rw [run_bind hm1]; rfl
    rw [this]
  · intro u hu
    obtain ⟨d, m, h3, h4⟩ := hm3 u hu
    exact ⟨d, m, ((hnew d).1 h3).1, ((hnew d).1 h3).2, h4⟩
  · intro d hd' ho
    exact hm4 d ((hnew d).2 ⟨hd', ho⟩)
  · show (us.map (·.ecus)).Sublist _
    rw [hm2]
    exact hsub.map _
  · obtain ⟨row, hn1, hn2⟩ := hdone.newest
    have hst' : ∀ {repo type raw}, Stored w2.db repo type raw → Stored w3.db repo type raw := by
      rintro repo type raw ⟨row, h5, h6⟩
      exact ⟨row, by unfold MetaDb.latestOf at h5 ⊢; rw [hrows]; exact h5, h6⟩
    have hl' : ∀ repo type, w3.db.latestOf repo type = w2.db.latestOf repo type := by
      intro repo type
      unfold MetaDb.latestOf
      rw [hrows]
    exact {
      same := rfl
      dir := by show w3.dir = _; rw [hg.dir]; show w2.dir = _; rw [hidone.dir, hdone.dir]
      img := by show w3.img = _; rw [hg.img]; exact hidone.img
      dNewest := ⟨row, by
        show w3.db.latestOf .director .root = _
        rw [hl', MetaDb.latestOf_only, hidone.other, ← MetaDb.latestOf_only]; exact hn1, hn2⟩
      dStored := hst' hst
      iNewest := by show ∃ row, w3.db.latestOf .image .root = some row ∧ _; rw [hl']; exact hidone.newest
      iStoredT := hst' hidone.storedT
      iStoredS := hst' hidone.storedS
      iStored := hst' hidone.stored
      fuel := by show cl.w.fuel ≤ w3.fuel + _; omega }
  · intro x
    rcases hg.rest x with h5 | h5
    · left
      show w3.db.loadDelegation x = _
      rw [h5]
      show w2.db.delegations.lookup x = _
      rw [hdel]
    · exact .inr h5

theorem checkUpdates_run {c : Ctx} {cl : Client} {dFirst : String} {dRaws : List String} {dLast : Root} {dRaw : String} {ts : Targets}
    {iFirst : String} {iRaws : List String} {iLast : Root} {rawT rawS iRaw : String} {tm : TimestampMeta} {sn : Snapshot} {its : Targets} {k : Nat}
    (hd : HonestDirector c cl.w.db dFirst dRaws dLast dRaw ts) (hi : HonestImage c cl.w.db iFirst iRaws iLast rawT rawS iRaw tm sn its)
    (hfit : ∀ t ∈ ts.targets, FitsDevice c.env cl t) (hsome : ∃ t ∈ ts.targets, Outdated c.env cl t)
    (hlist : ∀ t ∈ ts.targets, Outdated c.env cl t → Attainable c cl.w.db.delegations rawS its k t)
    (hf : 2 * dRaws.length + 2 * iRaws.length + 6 + 2 * k * ts.targets.length ≤ cl.w.fuel) :
    ∃ res cl', checkUpdates c cl = (.ok res, cl') ∧ res.status = .available ∧ res.targetsMeta = c.env.parseJson dRaw ∧
      (∀ u ∈ res.updates, ∃ d m, d ∈ ts.targets ∧ Outdated c.env cl d ∧ Listed c cl.w.db.delegations rawS its d m ∧ Offers d m u ∧
        Held c cl.w.db.delegations rawS its cl'.w.db d m) ∧
      (∀ d ∈ ts.targets, Outdated c.env cl d → ∃ u m, u ∈ res.updates ∧ Listed c cl.w.db.delegations rawS its d m ∧ Offers d m u) ∧
      (res.updates.map (·.ecus)).Sublist (ts.targets.map (·.ecus)) ∧
      Checked cl cl' (lastOf dFirst dRaws) dLast dRaw ts (lastOf iFirst iRaws) iLast rawT rawS iRaw tm sn its
        (2 * dRaws.length + 2 * iRaws.length + 6 + 2 * k * ts.targets.length) := by
  obtain ⟨res, cl', h1, h2, h3, h4, h5, h6, h7, -⟩ := checkUpdates_roles hd hi hfit hsome hlist hf
  exact ⟨res, cl', h1, h2, h3, h4, h5, h6, h7⟩

/-- **C61** When both repositories offer genuine, fresh metadata, the check succeeds and offers
exactly the targets that are not installed yet, be they listed in the top-level Targets of the Image
repository or in a delegated role; the documents are stored. -/
theorem C61_offered {c : Ctx} {cl : Client} {dFirst : String} {dRaws : List String} {dLast : Root} {dRaw : String} {ts : Targets}
    {iFirst : String} {iRaws : List String} {iLast : Root} {rawT rawS iRaw : String} {tm : TimestampMeta} {sn : Snapshot} {its : Targets} {k : Nat}
    (hd : HonestDirector c cl.w.db dFirst dRaws dLast dRaw ts) (hi : HonestImage c cl.w.db iFirst iRaws iLast rawT rawS iRaw tm sn its)
    (hfit : ∀ t ∈ ts.targets, FitsDevice c.env cl t) (hsome : ∃ t ∈ ts.targets, Outdated c.env cl t)
    (hlist : ∀ t ∈ ts.targets, Outdated c.env cl t → Attainable c cl.w.db.delegations rawS its k t)
    (hf : 2 * dRaws.length + 2 * iRaws.length + 6 + 2 * k * ts.targets.length ≤ cl.w.fuel) :
    ∃ res cl', checkUpdates c cl = (.ok res, cl') ∧ res.status = .available ∧ res.targetsMeta = c.env.parseJson dRaw ∧
      (∀ u ∈ res.updates, ∃ d m, d ∈ ts.targets ∧ Outdated c.env cl d ∧ Listed c cl.w.db.delegations rawS its d m ∧ Offers d m u) ∧
      (∀ d ∈ ts.targets, Outdated c.env cl d → ∃ u m, u ∈ res.updates ∧ Listed c cl.w.db.delegations rawS its d m ∧ Offers d m u) ∧
      Stored cl'.w.db .director .targets dRaw ∧ Stored cl'.w.db .image .timestamp rawT ∧
      Stored cl'.w.db .image .snapshot rawS ∧ Stored cl'.w.db .image .targets iRaw ∧
      (∃ row, cl'.w.db.latestOf .director .root = some row ∧ row.data = lastOf dFirst dRaws) ∧
      (∃ row, cl'.w.db.latestOf .image .root = some row ∧ row.data = lastOf iFirst iRaws) := by
  obtain ⟨res, cl', h1, h2, h3, h4, h5, -, h6⟩ := checkUpdates_run hd hi hfit hsome hlist hf
  exact ⟨res, cl', h1, h2, h3, fun u hu => let ⟨d, m, a1, a2, a3, a4, _⟩ := h4 u hu; ⟨d, m, a1, a2, a3, a4⟩, h5, h6.dStored, h6.iStoredT, h6.iStoredS, h6.iStored,
    h6.dNewest.imp (fun _ h => ⟨h.1, h.2.1⟩), h6.iNewest.imp (fun _ h => ⟨h.1, h.2.1⟩)⟩

/-- **C61** When the Director's metadata is genuine and everything it names is installed, the check
says that there is nothing to do. -/
theorem C61_nothing_new {c : Ctx} {cl : Client} {dFirst : String} {dRaws : List String} {dLast : Root} {dRaw : String} {ts : Targets}
    (hd : HonestDirector c cl.w.db dFirst dRaws dLast dRaw ts) (hfit : ∀ t ∈ ts.targets, FitsDevice c.env cl t)
    (hnone : ∀ t ∈ ts.targets, ¬ Outdated c.env cl t) (hf : 2 * dRaws.length + 2 ≤ cl.w.fuel) :
    ∃ res cl', checkUpdates c cl = (.ok res, cl') ∧ res.status = .noUpdates ∧ res.updates = [] :=
  let ⟨res, cl', h1, h2, h3, _⟩ := checkUpdates_none hd hfit hnone hf
  ⟨res, cl', h1, h2, h3⟩

/-! ### Concrete case -/

namespace Toy

/-- The value of a successful computation. -/
def val {α : Type} (x : Except Err α) (d : α) : α := match x with
  | .ok a => a
  | .error _ => d

theorem val_eq {α : Type} {x : Except Err α} {d : α} (h : x.toBool = true) : x = .ok (val x d) := by
  cases x with
  | ok a => rfl
  | error e => cases h

theorem elems_numbered : ∀ (l : List Json) (n : Nat), (Json.numbered n l).map Prod.snd = l
  | [], _ => rfl
  | x :: l, n => by simp [Json.numbered, elems_numbered l (n + 1)]

theorem elems_arr (l : List Json) : (Json.arr l).elems = l := elems_numbered l 0

theorem wellFormed (id : String) (body : List (String × Json)) (signers : List (String × String)) (h : (signers.map Prod.fst).Nodup) :
    WellFormedSignatures (doc id body signers) := by
  refine ⟨.arr (signers.map (fun p => sig p.1 p.2 id)), rfl, ?_, ?_⟩
  · intro s hs
    rw [elems_arr] at hs
    obtain ⟨p, _, rfl⟩ := List.mem_map.1 hs
    exact ⟨⟨p.1, _, rfl, rfl⟩, ⟨_, _, rfl, rfl⟩, ⟨"ed25519", ⟨_, rfl, rfl⟩, by decide⟩⟩
  · rw [elems_arr, List.pairwise_map]
    have h' : signers.Pairwise (fun a b => a.1 ≠ b.1) := List.pairwise_map.1 h
    refine h'.imp ?_
    rintro ⟨a, a'⟩ ⟨b, b'⟩ hne k ⟨v, hv, hk⟩ ⟨v', hv', hk'⟩
    cases hv
    cases hv'
    cases hk
    cases hk'
    exact hne rfl

theorem genuine {root : Root} {role : Role} {raw id : String} {body : List (String × Json)} {signers : List (String × String)}
    (hdoc : E.parseJson raw = doc id body signers) (hn : (signers.map Prod.fst).Nodup) (hr : ProperRole role) (hne : raw ≠ "")
    (hok : (unpackSignedObject E root.base role (E.parseJson raw)).toBool = true) : Genuine E root role raw where
  signed := by
    have : unpackSignedObject E root.base role (E.parseJson raw) = .ok () := by
      rw [val_eq (d := ()) hok]
    exact C01_accepted_is_signed _ _ _ _ hr this
  format := by rw [hdoc]; exact wellFormed _ _ _ hn
  nonempty := hne

/-- Content of a Root, a Targets, a Timestamp, a Snapshot. -/
def rootOf (raw : String) : Root := val (Root.ofJson E (E.parseJson raw)) {}
def targetsOf (raw : String) (r : Root) : Targets := val (Targets.ofJsonSigned E Role.targets (E.parseJson raw) r.base) {}
def timestampOf (raw : String) (r : Root) : TimestampMeta := val (TimestampMeta.ofJsonSigned E (E.parseJson raw) r.base) {}
def snapshotOf (raw : String) (r : Root) : Snapshot := val (Snapshot.ofJsonSigned E (E.parseJson raw) r.base) {}

/-- The next day: the Director has rotated its keys and assigns `fw2`. -/
def nextDay : List ((Repo × String × Int) × String) :=
  [((.director, "root", 2), "dr2"), ((.director, "targets", -1), "dtB"),
   ((.image, "timestamp", -1), "its2"), ((.image, "snapshot", -1), "isn2"), ((.image, "targets", -1), "it2")]

def seenC : Client := { withFw "abc" with w := { (Director.updateMeta (deleCtx good) { (withFw "abc").w with fuel := 200 }).2 with fuel := 200 } }
def seenW : World := { (Image.updateMeta (deleCtx good) seenC.w).2 with fuel := 100 }

/-- The device: both repositories' first documents are stored, `fw` is installed on `e1`. -/
def day1 : Client := { withFw "abc" with w := seenW }

theorem genuineRoot {raw id : String} {body : List (String × Json)} {signers : List (String × String)}
    (hdoc : E.parseJson raw = doc id body signers) (hn : (signers.map Prod.fst).Nodup) (hne : raw ≠ "")
    (hr : (Root.ofJson E (E.parseJson raw)).toBool = true)
    (hok : (unpackSignedObject E (rootOf raw).base Role.root (E.parseJson raw)).toBool = true) : GenuineRoot E raw (rootOf raw) :=
  ⟨val_eq hr, genuine hdoc hn (.inl (by simp)) hne hok⟩

theorem dr1_genuine : GenuineRoot E "dr1" (rootOf "dr1") :=
  genuineRoot (id := "dr1") (body := rootBody 1 1 dk) (signers := dk) rfl (by decide) (by decide) (by decide +kernel) (by decide +kernel)
theorem dr2_genuine : GenuineRoot E "dr2" (rootOf "dr2") :=
  genuineRoot (id := "dr2") (body := rootBody 2 1 dk2) (signers := dk ++ dk2) rfl (by decide) (by decide) (by decide +kernel) (by decide +kernel)
theorem ir1_genuine : GenuineRoot E "ir1" (rootOf "ir1") :=
  genuineRoot (id := "ir1") (body := rootBody 1 1 ik) (signers := ik) rfl (by decide) (by decide) (by decide +kernel) (by decide +kernel)

theorem signed_of {m : MetaWithKeys} {role : Role} {j : Json} (hp : ProperRole role) (h : (unpackSignedObject E m role j).toBool = true) :
    SignedToThreshold E m role.name j := (C01_accepted_is_signed _ _ _ _ hp (by rw [val_eq (d := ()) h])).1

theorem latest_is {db : MetaDb} {repo : Repo} {type : RoleKind} {raw : String} (h : (db.latestOf repo type).map (·.data) = some raw)
    {old : String} (ho : Stored db repo type old) : old = raw := by
  obtain ⟨row, h1, rfl⟩ := ho
  rw [h1] at h
  simpa using h

theorem readsTargets {raw : String} {r : Root} (h : (Targets.ofJsonSigned E Role.targets (E.parseJson raw) r.base).toBool = true) :
    ReadsAsTargets E raw (targetsOf raw r) := by
  exact (Targets.ofJsonSigned_ok (.inl (by simp)) (val_eq (d := ({} : Targets)) h)).2.2

theorem nextDirector : HonestDirector (deleCtx nextDay) day1.w.db "dr1" ["dr2"] (rootOf "dr2") "dtB" (targetsOf "dtB" (rootOf "dr2")) where
  roots := {
    start := .inl ⟨⟨.director, .root, 1, "dr1"⟩, by decide +kernel, rfl, by
      intro r hr
      rw [reads_unique hr dr1_genuine.reads]
      show (1 : Int) ≤ _
      decide +kernel⟩
    offered := ⟨rootOf "dr1", dr1_genuine, by decide +kernel, by
      have hv : (rootOf "dr1").base.version + 1 = 2 := by decide +kernel
      rw [hv]
      exact ⟨⟨fun _ => rfl, by decide⟩, ⟨_, dr2_genuine, by decide +kernel⟩, fun _ => rfl⟩, by decide +kernel⟩
    chain := ⟨⟨rootOf "dr1", rootOf "dr2", dr1_genuine.reads, dr2_genuine.reads, by decide +kernel,
      signed_of (role := Role.root) (.inl (by simp)) (by decide +kernel), signed_of (role := Role.root) (.inl (by simp)) (by decide +kernel)⟩, trivial⟩
    ends := dr2_genuine.reads
    fresh := fun _ => by
      show TimeStamp.isExpiredAt _ ⟨"2026-01-01T00:00:00Z"⟩ = _
      decide +kernel }
  served := ⟨fun _ => rfl, by decide⟩
  genuine := genuine (id := "dtB") (signers := dk2) rfl (by decide) (.inl (by simp)) (by decide) (by decide +kernel)
  reads := readsTargets (by decide +kernel)
  newer := ⟨4, ⟨_, _, rfl, rfl, rfl, rfl⟩, by decide, fun old ho => .inr (by
    rw [latest_is (raw := "dt1") (by decide +kernel) ho]
    exact ⟨by decide, 1, ⟨_, _, rfl, rfl, rfl, rfl⟩, by decide⟩)⟩
  fresh := fun _ => by
    show TimeStamp.isExpiredAt _ ⟨"2026-01-01T00:00:00Z"⟩ = _
    decide +kernel
  some := by
    intro h
    have : (targetsOf "dtB" (rootOf "dr2")).targets.map (·.filename) = ["fw2"] := by decide +kernel
    rw [h] at this
    cases this
  plain := by decide +kernel
  once := by unfold EcusOnce; decide +kernel

theorem apart {old raw : String} (h1 : upper (E.sha256 (E.canon (E.parseJson old))) ≠ upper (E.sha256 (E.canon (E.parseJson raw))))
    (h2 : upper (E.sha512 (E.canon (E.parseJson old))) ≠ upper (E.sha512 (E.canon (E.parseJson raw)))) (alg : String) :
    upper (digest E alg old) ≠ upper (digest E alg raw) := by
  unfold digest
  by_cases h : alg = "sha256"
  · rw [if_pos h, if_pos h]; exact h1
  · rw [if_neg h, if_neg h]; exact h2

theorem nextImage : HonestImage (deleCtx nextDay) day1.w.db "ir1" [] (rootOf "ir1") "its2" "isn2" "it2"
    (timestampOf "its2" (rootOf "ir1")) (snapshotOf "isn2" (rootOf "ir1")) (targetsOf "it2" (rootOf "ir1")) where
  roots := {
    start := .inl ⟨⟨.image, .root, 1, "ir1"⟩, by decide +kernel, rfl, by
      intro r hr
      rw [reads_unique hr ir1_genuine.reads]
      show (1 : Int) ≤ _
      decide +kernel⟩
    offered := ⟨rootOf "ir1", ir1_genuine, by decide +kernel, by
      have hv : (rootOf "ir1").base.version + 1 = 2 := by decide +kernel
      rw [hv]
      exact fun _ => rfl, by decide +kernel⟩
    chain := trivial
    ends := ir1_genuine.reads
    fresh := fun _ => by
      show TimeStamp.isExpiredAt _ ⟨"2026-01-01T00:00:00Z"⟩ = _
      decide +kernel }
  servedT := ⟨fun _ => rfl, by decide⟩
  genuineT := genuine (id := "its2") (signers := ik) rfl (by decide) (.inl (by simp)) (by decide) (by decide +kernel)
  readsT := ⟨(rootOf "ir1").base, val_eq (by decide +kernel)⟩
  newerT := ⟨2, ⟨_, _, rfl, rfl, rfl, rfl⟩, by decide, fun old ho => .inr (by
    rw [latest_is (raw := "its1") (by decide +kernel) ho]
    exact ⟨by decide, 1, ⟨_, _, rfl, rfl, rfl, rfl⟩, by decide⟩)⟩
  freshT := fun _ => by
    show TimeStamp.isExpiredAt _ ⟨"2026-01-01T00:00:00Z"⟩ = _
    decide +kernel
  servedS := ⟨fun _ => rfl, by decide +kernel⟩
  genuineS := genuine (id := "isn2") (signers := ik) rfl (by decide) (.inl (by simp)) (by decide) (by decide +kernel)
  readsS := ⟨(rootOf "ir1").base, val_eq (by decide +kernel)⟩
  vouched := by
    have hv : (snapshotOf "isn2" (rootOf "ir1")).version = 2 := by decide +kernel
    rw [hv]
    refine ⟨_, _, _, ⟨_, rfl, _, rfl, _, rfl, rfl⟩, rfl, ?_, ⟨("sha256", .str "#isn2!"), by simp [Json.entries], .inl rfl⟩, rfl, rfl⟩
    intro kj hk _
    have hk' : kj = (_, _) := List.mem_singleton.1 hk
    subst hk'
    exact ⟨_, rfl, by decide +kernel⟩
  versionS := by
    have hv : (snapshotOf "isn2" (rootOf "ir1")).version = 2 := by decide +kernel
    rw [hv]
    exact ⟨⟨_, _, rfl, rfl, rfl, rfl⟩, by decide⟩
  knownS := fun old ho => .inr (by
    rw [latest_is (raw := "isn1") (by decide +kernel) ho]
    exact ⟨by decide, apart (by decide +kernel) (by decide +kernel)⟩)
  freshS := fun _ => by
    show TimeStamp.isExpiredAt _ ⟨"2026-01-01T00:00:00Z"⟩ = _
    decide +kernel
  served := ⟨fun _ => rfl, by decide⟩
  genuine := genuine (id := "it2") (signers := ik) rfl (by decide) (.inl (by simp)) (by decide) (by decide +kernel)
  reads := readsTargets (by decide +kernel)
  listed := by
    have hv : (targetsOf "it2" (rootOf "ir1")).base.version = 2 := by decide +kernel
    rw [hv]
    refine ⟨_, ⟨_, rfl, _, rfl, rfl⟩, ⟨("targets.json", _), List.mem_singleton.2 rfl, by decide +kernel⟩, ?_⟩
    intro kj hk _
    have hk' : kj = (_, _) := List.mem_singleton.1 hk
    subst hk'
    refine ⟨⟨_, rfl, ?_⟩, _, rfl, rfl⟩
    intro kj hk _
    have hk' : kj = (_, _) := List.mem_singleton.1 hk
    subst hk'
    exact ⟨_, rfl, by decide +kernel⟩
  newer := ⟨2, ⟨_, _, rfl, rfl, rfl, rfl⟩, by decide, fun old ho => .inr (by
    rw [latest_is (raw := "it1") (by decide +kernel) ho]
    exact ⟨by decide, 1, ⟨_, _, rfl, rfl, rfl, rfl⟩, by decide⟩)⟩
  fresh := fun _ => by
    show TimeStamp.isExpiredAt _ ⟨"2026-01-01T00:00:00Z"⟩ = _
    decide +kernel

theorem map_mem {α β : Type} {f : α → β} {l : List α} {l' : List β} (h : l.map f = l') {a : α} (ha : a ∈ l) : f a ∈ l' := by
  rw [← h]; exact List.mem_map_of_mem ha

/-- What the Director assigns the next day. -/
def assigned : Targets := targetsOf "dtB" (rootOf "dr2")
/-- What the Image repository lists the next day. -/
def listed : Targets := targetsOf "it2" (rootOf "ir1")

theorem assigned_mem {t : Target} (h : t ∈ assigned.targets) : t.filename = "fw2" ∧ t.ecus = [("e1", "h1")] ∧
    t.hashes = [Hash.mk' .sha256 "abd"] ∧ t.length = 3 ∧ t.hwids = [] := by
  have : assigned.targets.map (fun t => (t.filename, t.ecus, t.hashes, t.length, t.hwids)) =
    [("fw2", [("e1", "h1")], [Hash.mk' .sha256 "abd"], 3, [])] := by decide +kernel
  have := map_mem this h
  simpa using this

theorem day1_current : ∃ x, day1.v.loadCurrent E "e1" = .ok (some x) ∧ x.filename = "fw" := by
  have : ((day1.v.loadCurrent E "e1").toOption.getD none).map (·.filename) = some "fw" := by decide +kernel
  cases h : day1.v.loadCurrent E "e1" with
  | error e => rw [h] at this; cases this
  | ok x =>
    rw [h] at this
    cases x with
    | none => cases this
    | some x => exact ⟨x, rfl, Option.some.inj this⟩

theorem fits : ∀ t ∈ assigned.targets, FitsDevice E day1 t := by
  intro t ht p hp
  obtain ⟨h1, h2, _⟩ := assigned_mem ht
  rw [h2] at hp
  simp only [List.mem_singleton] at hp
  subst hp
  obtain ⟨x, hx, hn⟩ := day1_current
  refine ⟨.inl ⟨rfl, rfl, by decide⟩, ⟨_, hx, ?_⟩, fun _ h => by cases h⟩
  intro y hy hf
  cases hy
  rw [hn, h1] at hf
  exact absurd hf (by decide)

theorem outdated : ∀ t ∈ assigned.targets, Outdated E day1 t := by
  intro t ht
  obtain ⟨h1, h2, _⟩ := assigned_mem ht
  obtain ⟨x, hx, hn⟩ := day1_current
  refine ⟨("e1", "h1"), by simp [h2], fun y hy hc => ?_⟩
  rw [hx] at hy
  cases hy
  have := hc.1.1
  rw [hn, h1] at this
  exact absurd this (by decide)

theorem isListed : ∀ t ∈ assigned.targets, ∃ m, ListedBy listed t m := by
  intro t ht
  obtain ⟨h1, h2, h3, h4, h5⟩ := assigned_mem ht
  have hm : listed.targets.map (fun t => (t.filename, t.ecus, t.hashes, t.length, t.hwids)) =
    [("fw2", [], [Hash.mk' .sha256 "abd"], 3, ["h1"])] := by decide +kernel
  cases hl : listed.targets with
  | nil => rw [hl] at hm; cases hm
  | cons m l =>
    rw [hl] at hm
    simp only [List.map_cons, List.cons.injEq, Prod.mk.injEq, List.map_eq_nil_iff] at hm
    obtain ⟨⟨a1, a2, a3, a4, a5⟩, -⟩ := hm
    refine ⟨m, by rw [hl]; simp, ⟨by rw [a1, h1], by rw [a4, h4], ?_, ?_⟩, .inr (.inr ?_)⟩
    · rw [a3, h3]; exact ⟨_, List.mem_singleton.2 rfl, List.mem_singleton.2 rfl⟩
    · rw [a3, h3]
      intro h hh h' hh' _
      rw [List.mem_singleton.1 hh, List.mem_singleton.1 hh']
    · unfold HardwareAllowed
      rw [h2, h5, a2, a5]
      simp

end Toy

/-- The hypotheses of `C61_offered` are met: with the Director's keys rotated and a new version of
everything, the device is offered `fw2`. -/
example : ∃ res cl', checkUpdates (Toy.deleCtx Toy.nextDay) Toy.day1 = (.ok res, cl') ∧ res.status = .available ∧
    res.targetsMeta = Toy.E.parseJson "dtB" ∧ Stored cl'.w.db .director .targets "dtB" ∧ ∃ u ∈ res.updates, u.filename = "fw2" := by
  obtain ⟨res, cl', h1, h2, h3, h4, h5, h6, _⟩ := C61_offered Toy.nextDirector Toy.nextImage Toy.fits
    (by
      cases hl : Toy.assigned.targets with
      | nil => exact absurd hl Toy.nextDirector.some
      | cons t l => exact ⟨t, by show t ∈ Toy.assigned.targets; rw [hl]; simp, Toy.outdated t (by rw [hl]; simp)⟩)
    (k := 0) (fun t ht _ => let ⟨_, hm⟩ := Toy.isListed t ht; attainable_listed hm) (by
      rw [show 2 * 0 * (Toy.targetsOf "dtB" (Toy.rootOf "dr2")).targets.length = 0 from by simp]
      show 8 ≤ 100
      decide)
  refine ⟨res, cl', h1, h2, h3, h6, ?_⟩
  cases hl : Toy.assigned.targets with
  | nil => exact absurd hl Toy.nextDirector.some
  | cons t l =>
    have ht : t ∈ Toy.assigned.targets := by rw [hl]; simp
    obtain ⟨u, m, hu, _, ho⟩ := h5 t ht (Toy.outdated t ht)
    refine ⟨u, hu, ?_⟩
    rw [ho]
    exact (Toy.assigned_mem ht).1

namespace Toy

/-- The same device with `fw2` installed. -/
def day2 : Client := { device (recordAll E { ecus := [⟨"e1", "h1", true⟩, ⟨"e2", "h1", false⟩] } [⟨"e1", targetFor "fw2" "abd" [("e1", "h1")], .current⟩]) with w := seenW }

theorem day2_current : ∃ x, day2.v.loadCurrent E "e1" = .ok (some x) ∧ x.filename = "fw2" ∧ x.ecus = [("e1", "h1")] ∧
    x.hashes = [Hash.mk' .sha256 "abd"] ∧ x.length = 3 ∧ x.hwids = [] := by
  have : ((day2.v.loadCurrent E "e1").toOption.getD none).map (fun x => (x.filename, x.ecus, x.hashes, x.length, x.hwids)) =
    some ("fw2", [("e1", "h1")], [Hash.mk' .sha256 "abd"], 3, []) := by decide +kernel
  cases h : day2.v.loadCurrent E "e1" with
  | error e => rw [h] at this; cases this
  | ok x =>
    rw [h] at this
    cases x with
    | none => cases this
    | some x => exact ⟨x, rfl, by have := Option.some.inj this; simpa using this⟩

theorem installed {t : Target} (ht : t ∈ assigned.targets) : ∃ x, day2.v.loadCurrent E "e1" = .ok (some x) ∧ SameContent x t ∧ SameAssignment x t := by
  obtain ⟨h1, h2, h3, h4, h5⟩ := assigned_mem ht
  obtain ⟨x, hx, a1, a2, a3, a4, a5⟩ := day2_current
  refine ⟨x, hx, ⟨by rw [a1, h1], by rw [a4, h4], ?_, ?_⟩, .inl ⟨by rw [a5, h5], by rw [a2, h2]⟩⟩
  · rw [a3, h3]; exact ⟨_, List.mem_singleton.2 rfl, List.mem_singleton.2 rfl⟩
  · rw [a3, h3]
    intro h hh h' hh' _
    rw [List.mem_singleton.1 hh, List.mem_singleton.1 hh']

end Toy

/-- The hypotheses of `C61_nothing_new` are met. -/
example : ∃ res cl', checkUpdates (Toy.deleCtx Toy.nextDay) Toy.day2 = (.ok res, cl') ∧ res.status = .noUpdates ∧ res.updates = [] := by
  refine C61_nothing_new (cl := Toy.day2) (ts := Toy.assigned) Toy.nextDirector ?_ ?_ (by show 4 ≤ 100; decide)
  · intro t ht p hp
    rw [(Toy.assigned_mem ht).2.1] at hp
    simp only [List.mem_singleton] at hp
    subst hp
    obtain ⟨x, hx, hs⟩ := Toy.installed ht
    exact ⟨.inl ⟨rfl, rfl, by decide⟩, ⟨_, hx, fun y hy _ => by cases hy; exact hs⟩, fun _ h => by cases h⟩
  · rintro t ht ⟨p, hp, h⟩
    rw [(Toy.assigned_mem ht).2.1] at hp
    simp only [List.mem_singleton] at hp
    subst hp
    obtain ⟨x, hx, hs⟩ := Toy.installed ht
    exact h x hx hs

end Aktualizr
