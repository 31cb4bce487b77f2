import Verif.Lemmas.DirectorUpdate
import Verif.Props.C02
import Verif.Spec.ToyRepo

/-!
# C05, C06 (Director), C07 — the Director's Targets
-/

namespace Aktualizr

open Spec M

/-- The stored Roots of `repo` are filed sanely (see `FiledSanely`). -/
def RootsFiledSanely (env : Env) (repo : Repo) (db : MetaDb) : Prop :=
  ∀ row, NewestRoot (rootRows repo db) row → FiledSanely env row

/-- No Root of `repo` was stored between `db` and `db'`. -/
def NoRotation (repo : Repo) (db db' : MetaDb) : Prop := rootRows repo db' = rootRows repo db

theorem rootRows_storeNonRoot (repo repo' : Repo) (db : MetaDb) (raw : String) {t : RoleKind} (ht : t ≠ .root) :
    rootRows repo (db.storeNonRoot raw repo' t) = rootRows repo db :=
  MetaDb.only_storeNonRoot_other _ _ (fun h => ht h.2.symm)

/-- C05. If an online check of the Director succeeds without a Root rotation, the Targets it
uses have a version at least as high as the stored Targets had at the start.

Partial: a Root rotation during the check clears the stored Targets first, so a lower version
is then accepted even if the stored one still verifies under the new Root, see
`C05_rotation_forgets`. -/
theorem C05_no_rollback_partial (c : Ctx) (w w' : World) (h : Director.updateMeta c w = (.ok (), w'))
    (hf : RootsFiledSanely c.env .director w.db) (hq : NoRotation .director w.db w'.db)
    (stored : String) (v : Int) (hst : Stored w.db .director .targets stored)
    (hv : StatesVersion c.env stored v) (hpos : 0 ≤ v) :
    v ≤ w'.dir.targets.base.version ∧ v ≤ w'.dir.latest.base.version := by
  obtain ⟨w1, raw, hs⟩ := Director.updateMeta_success h
  have hrows1 : rootRows .director w1.db = rootRows .director w.db := by
    obtain ⟨w1', o1, h1, h2⟩ := Director.updateMeta_writes h
    rw [hs.rootOk] at h1
    injection h1 with _ h1
    subst h1
    rcases h2 with h2 | ⟨raw, vr, h2, _⟩
    · rw [← h2]; exact hq
    · have := hq
      unfold NoRotation at this
      rw [h2, rootRows_storeNonRoot _ _ _ _ (by decide)] at this
      exact this
  have hdb1 := updateRoot_quiet hs.rootOk hf hrows1
  replace hdb1 : w1.db = w.db := hdb1
  obtain ⟨vr, hvr, hord⟩ := hs.order
  rw [hdb1] at hord
  obtain ⟨vs, hvs, hle⟩ := hord stored hst
  rw [hv.extract] at hvs
  injection hvs with hvs
  subst hvs
  have hvr' := extract_states hvr (by omega)
  have hl := (Targets.ofJsonSigned_ok properTargets hs.latest).2.2.version hvr'
  refine ⟨?_, by omega⟩
  rcases hs.used with hu | ⟨_, _, _, stored', hst', hu⟩
  · rw [hu]; omega
  · rw [hdb1] at hst'
    have := hst.unique hst'
    subst this
    have := (Targets.ofJsonSigned_ok properTargets hu).2.2.version hv
    omega

/-- C05. A properly signed Targets document with a lower version than the stored one is
rejected as a rollback and storage stays as Root rotation left it. -/
theorem C05_rollback_rejected (c : Ctx) (w w1 : World) (raw stored : String) (v vs : Int)
    (hroot : updateRoot c .director { w with dir := { root := { policy := .acceptAll } } } = (.ok (), w1))
    (hserved : c.net w1.tick .director "targets" (-1) = some raw) (hsize : raw.utf8ByteSize ≤ 65536)
    (hsigned : ∃ ts, Targets.ofJsonSigned c.env Role.targets (c.env.parseJson raw) w1.dir.root.base = .ok ts)
    (hv : StatesVersion c.env raw v) (hst : Stored w1.db .director .targets stored) (hne : stored ≠ "")
    (hstored : ∃ ts, Targets.ofJsonSigned c.env Role.targets (c.env.parseJson stored) w1.dir.root.base = .ok ts)
    (hvs : StatesVersion c.env stored vs) (hlt : v < vs) :
    ∃ w', Director.updateMeta c w = (.error (.upt (.security "Rollback attempt")), w') ∧ w'.db = w1.db := by
  obtain ⟨row, hrow, rfl⟩ := hst
  obtain ⟨ts, hts⟩ := hsigned
  obtain ⟨ts0, hts0⟩ := hstored
  have hverify : ∀ (w : World) raw ts, Targets.ofJsonSigned c.env Role.targets (c.env.parseJson raw) w.dir.root.base = .ok ts →
      Director.verifyTargets c raw w = (.ok (), { w with dir := Director.afterVerify w.dir ts }) := by
    intro w raw ts h
    cases hx : Director.verifyTargets c raw w with
    | mk o w2 =>
      rcases Director.verifyTargets_cases hx with ⟨ts', rfl, h', rfl⟩ | ⟨e, rfl, rfl⟩
      · rw [h] at h'
        injection h' with h'
        subst h'
        rfl
      · exfalso
        unfold Director.verifyTargets at hx
        rw [run_bind gets_eq] at hx
        rw [run_bind (a := ts) (by rw [lift_eq, h])] at hx
        rw [run_bind modify_eq] at hx
        simp at hx
  refine ⟨{ w1 with tick := w1.tick + 1, dir := Director.afterVerify (Director.afterVerify w1.dir ts0) ts }, ?_, rfl⟩
  unfold Director.updateMeta
  rw [run_bind (m := Director.resetMeta) (a := ()) (w1 := { w with dir := { root := { policy := .acceptAll } } }) rfl]
  rw [run_bind hroot]
  have hf : fetchLatestRole c kMaxDirectorTargetsSize .director Role.targets w1 = (.ok raw, { w1 with tick := w1.tick + 1 }) := by
    simp only [fetchLatestRole, fetchRole]
    rw [show Role.targets.name = "targets" from rfl, hserved]
    simp only
    rw [if_pos]
    simp only [kMaxDirectorTargetsSize]
    omega
  rw [run_bind hf]
  rw [run_bind (a := v) (by rw [lift_eq, hv.extract])]
  have hl : Director.loadStoredTargets c { w1 with tick := w1.tick + 1 } =
      (.ok vs, { w1 with tick := w1.tick + 1, dir := Director.afterVerify w1.dir ts0 }) := by
    unfold Director.loadStoredTargets
    have hload : loadNonRoot .director .targets { w1 with tick := w1.tick + 1 } = (.ok (some row.data), { w1 with tick := w1.tick + 1 }) := by
      unfold loadNonRoot
      simp only [hrow, Option.map_some, readBlob, hne, if_false]
    rw [run_bind hload]
    show (M.lift (extractVersionUntrusted c.env row.data) >>= _) _ = _
    rw [run_bind (a := vs) (by rw [lift_eq, hvs.extract])]
    have hc : catchStd (Director.verifyTargets c row.data) (fun _ => pure ()) { w1 with tick := w1.tick + 1 } =
        (.ok (), { w1 with tick := w1.tick + 1, dir := Director.afterVerify w1.dir ts0 }) := by
      unfold catchStd
      rw [hverify { w1 with tick := w1.tick + 1 } _ ts0 hts0]
    rw [run_bind hc]
    rfl
  rw [run_bind hl]
  have hroot' : (Director.afterVerify w1.dir ts0).root = w1.dir.root := by
    simp only [Director.afterVerify]; split <;> rfl
  rw [run_bind (hverify _ raw ts (by show Targets.ofJsonSigned _ _ _ (Director.afterVerify w1.dir ts0).root.base = _; rw [hroot']; exact hts))]
  have hcmp : ∀ w2 : World, Director.compareAndStore vs v raw w2 = (.error (.upt (.security "Rollback attempt")), w2) := by
    intro w2
    unfold Director.compareAndStore
    rw [run_bind gets_eq]
    rw [ite_app, if_pos hlt]
    rfl
  exact run_bind_err (hcmp _)

theorem storedVersionGrows_pre (env : Env) (repo : Repo) (t : RoleKind) : DbPre (StoredVersionGrows env repo t) := by
  constructor
  · intro d raw v h hv _
    exact ⟨raw, v, h, hv, by omega, fun _ => rfl⟩
  · intro a b c h1 h2 raw v h hv hp
    obtain ⟨raw1, v1, g1, g2, g3, g4⟩ := h1 raw v h hv hp
    obtain ⟨raw2, v2, k1, k2, k3, k4⟩ := h2 raw1 v1 g1 g2 (by omega)
    refine ⟨raw2, v2, k1, k2, by omega, fun e => ?_⟩
    rw [k4 (by omega), g4 (by omega)]

theorem stored_of_only {d d' : MetaDb} {repo : Repo} {t : RoleKind} (h : d'.only repo t = d.only repo t) (raw : String) :
    Stored d repo t raw → Stored d' repo t raw := by
  rintro ⟨row, h1, h2⟩
  refine ⟨row, ?_, h2⟩
  rw [MetaDb.latestOf_only, h]
  exact h1

theorem storedVersionGrows_of_only {env : Env} {d d' : MetaDb} {repo : Repo} {t : RoleKind}
    (h : d'.only repo t = d.only repo t) : StoredVersionGrows env repo t d d' := by
  intro raw v hs hv _
  exact ⟨raw, v, stored_of_only h raw hs, hv, by omega, fun _ => rfl⟩

/-- A history in which no event rotates the Root of `repo` and, for the Director, the client
does not drop its metadata. -/
def QuietHistory (env : Env) (repo : Repo) : World → List Event → Prop
  | _, [] => True
  | w, e :: es => (repo = .director → e.call ≠ .dropTargets) ∧
      NoRotation repo w.db (e.step env w).db ∧ QuietHistory env repo (e.step env w) es

/-- C05. Over any history without Root rotation, whatever the servers, clocks and crash points,
the version of the stored Director Targets never decreases (and a different document is only
ever stored with a strictly higher version). -/
theorem C05_stored_version_monotone (env : Env) (w : World) (es : List Event)
    (hf : RootsFiledSanely env .director w.db) (hq : QuietHistory env .director w es) :
    StoredVersionGrows env .director .targets w.db (runHistory env w es).db := by
  induction es generalizing w with
  | nil => exact (storedVersionGrows_pre env .director .targets).refl _
  | cons e es ih =>
    obtain ⟨hdrop, hrot, hq⟩ := hq
    have hf' : RootsFiledSanely env .director (e.step env w).db := by
      intro row hrow
      unfold NoRotation at hrot
      rw [hrot] at hrow
      exact hf row hrow
    refine (storedVersionGrows_pre env .director .targets).trans _ _ _ ?_ (ih _ hf' hq)
    rw [step_db]
    unfold NoRotation at hrot
    rw [step_db] at hrot
    -- the calls other than the Director's update do not touch these rows
    have hP : DbPre (fun d d' => MetaDb.only d' .director .targets = MetaDb.only d .director .targets) :=
      ⟨fun _ => rfl, fun _ _ _ a b => Eq.trans b a⟩
    have other : ∀ {m : Ctx → U Unit}, (∀ c, Preserves (onDb (fun d d' => MetaDb.only d' .director .targets = MetaDb.only d .director .targets)) (m c)) →
        ∀ c w0, w0.db = w.db → StoredVersionGrows env .director .targets w.db (m c w0).2.db := by
      intro m hm c w0 h0
      rw [← h0]
      exact storedVersionGrows_of_only (hm c w0)
    cases hc : e.call with
    | updateDirector =>
      have hex : e.exec env w = Director.updateMeta { env := env, net := e.net, clock := e.clock } { w with tick := 0, fuel := e.fuel } := by
        unfold Event.exec; rw [hc]; rfl
      rw [hex] at hrot ⊢
      cases hx : Director.updateMeta { env := env, net := e.net, clock := e.clock } { w with tick := 0, fuel := e.fuel } with
      | mk o w' =>
        rw [hx] at hrot
        obtain ⟨w1, o1, h1, h2⟩ := Director.updateMeta_writes hx
        rcases h2 with h2 | ⟨raw, vr, h2, _, _, hvr, _, hord, _⟩
        · have := updateRoot_quiet h1 hf (by rw [← h2]; exact hrot)
          show StoredVersionGrows env .director .targets w.db w'.db
          rw [h2, this]
          exact (storedVersionGrows_pre env .director .targets).refl _
        · have hw1 := updateRoot_quiet h1 hf (by
            have := hrot
            simp only at this
            rw [h2, rootRows_storeNonRoot _ _ _ _ (by decide)] at this
            exact this)
          replace hw1 : w1.db = w.db := hw1
          show StoredVersionGrows env .director .targets w.db w'.db
          rw [h2, hw1]
          intro stored v hst hv hpos
          rw [hw1] at hord
          obtain ⟨vs, hvs, hlt⟩ := hord stored hst
          have e1 : v = vs := by
            rw [hv.extract] at hvs
            simpa using hvs
          subst e1
          exact ⟨raw, vr, stored_storeNonRoot _ _ _ _, extract_states hvr (by omega), by omega, fun e => by omega⟩
    | updateImage =>
      unfold Event.exec
      rw [hc]
      refine other (m := fun c => Call.updateImage.run c) (fun c => ?_) _ _ rfl
      refine Image.updateMeta_pres hP c ?_ ?_
      · exact updateRoot_pres hP c .image (fun d raw v => MetaDb.only_storeRoot_other _ _ _ (by simp))
          (fun d => MetaDb.only_clearNonRoot_other _ _ (by decide))
      · intro d raw t _
        exact MetaDb.only_storeNonRoot_other _ _ (by simp)
    | offlineDirector =>
      unfold Event.exec
      rw [hc]
      exact other (m := fun c => Call.offlineDirector.run c) (fun c => Director.checkMetaOffline_pres hP c) _ _ rfl
    | offlineImage =>
      unfold Event.exec
      rw [hc]
      exact other (m := fun c => Call.offlineImage.run c) (fun c => Image.checkMetaOffline_pres hP c) _ _ rfl
    | dropTargets => exact (hdrop rfl hc).elim
    | find q offline =>
      unfold Event.exec
      rw [hc]
      refine other (m := fun c => (Call.find q offline).run c) (fun c => ?_) _ _ rfl
      have := Delegation.findInTree_pres hP c q offline (fun _ _ _ => rfl) (fun _ _ => rfl)
      unfold Call.run
      pres hP
    | restart =>
      unfold Event.exec
      rw [hc]
      exact (storedVersionGrows_pre env .director .targets).refl _

/-- C05. A Director that serves a lower version than the stored one never gets its document
accepted or stored, whatever else is true of it. -/
theorem C05_lower_never_accepted (c : Ctx) (w w1 w' : World) (o o1 : Except Err Unit) (raw stored : String) (v vs : Int)
    (hroot : updateRoot c .director { w with dir := { root := { policy := .acceptAll } } } = (o1, w1))
    (hserved : c.net w1.tick .director "targets" (-1) = some raw)
    (hv : StatesVersion c.env raw v) (hst : Stored w1.db .director .targets stored)
    (hvs : StatesVersion c.env stored vs) (hlt : v < vs)
    (h : Director.updateMeta c w = (o, w')) : o ≠ .ok () ∧ w'.db = w1.db := by
  obtain ⟨w1', o1', h1, h2⟩ := Director.updateMeta_writes h
  rw [hroot] at h1
  injection h1 with h0 h1
  subst h0; subst h1
  refine ⟨?_, ?_⟩
  · rintro rfl
    obtain ⟨w1', raw', hs⟩ := Director.updateMeta_success h
    have h1 := hroot.symm.trans hs.rootOk
    injection h1 with _ h1
    subst h1
    have e : raw = raw' := by simpa using hserved.symm.trans hs.served
    subst e
    obtain ⟨vr, hvr, hord⟩ := hs.order
    obtain ⟨vs', hvs', hle⟩ := hord stored hst
    have e1 : v = vr := by simpa using hv.extract.symm.trans hvr
    have e2 : vs = vs' := by simpa using hvs.extract.symm.trans hvs'
    omega
  · rcases h2 with h2 | ⟨raw', vr, h2, _, hserved', hvr, _, hord, _⟩
    · exact h2
    · exfalso
      have e : raw = raw' := by simpa using hserved.symm.trans hserved'
      subst e
      obtain ⟨vs', hvs', hle⟩ := hord stored hst
      have e1 : v = vr := by simpa using hv.extract.symm.trans hvr
      have e2 : vs = vs' := by simpa using hvs.extract.symm.trans hvs'
      omega

/-! ### C06 for the Director, C07 -/

/-- C06, Director. After a successful online check: the Root in use is signed to threshold by
its own keys and was unexpired when checked in this call; the Targets just fetched (`latest`)
is signed to threshold under that Root, was served in this call and is unexpired; the Targets
in use (`targets`) is signed to threshold under that Root and is either the fetched document
or — when the fetched one lists no target — the stored previous one.

Partial: in the last case the previous document's expiry is *not* checked, see
`C06_director_previous_may_be_expired`. -/
theorem C06_director_partial (c : Ctx) (w w' : World) (h : Director.updateMeta c w = (.ok (), w')) :
    RootInUse c.env w'.dir.root ∧
    (∃ t < w'.tick, w'.dir.root.base.expiry.isExpiredAt (c.clock t) = false) ∧
    (∃ raw, (∃ t < w'.tick, c.net t .director "targets" (-1) = some raw) ∧
      ReadsAsTargets c.env raw w'.dir.latest ∧ SignedFor c.env w'.dir.root Role.targets raw) ∧
    (∃ t < w'.tick, w'.dir.latest.base.expiry.isExpiredAt (c.clock t) = false) ∧
    (w'.dir.targets = w'.dir.latest ∨
      (w'.dir.latest.targets = [] ∧ ∃ raw, Stored w'.db .director .targets raw ∧
        ReadsAsTargets c.env raw w'.dir.targets ∧ SignedFor c.env w'.dir.root Role.targets raw)) := by
  obtain ⟨w1, raw, hs⟩ := Director.updateMeta_success h
  obtain ⟨hu, hpos, hexp⟩ := updateRoot_inUse hs.rootOk
  have hr : getRoot .director w1 = w'.dir.root := hs.root.symm
  rw [hr] at hu hexp
  have hl := Targets.ofJsonSigned_ok properTargets hs.latest
  have ht := hs.ticks
  refine ⟨hu, ⟨w1.tick - 1, by omega, hexp⟩, ⟨raw, ⟨w1.tick, by omega, hs.served⟩, hl.2.2, hl.1, hl.2.1⟩,
    ⟨w'.tick - 1, by have := hs.fresh.1; omega, hs.fresh.2⟩, ?_⟩
  rcases hs.used with hu | ⟨h1, _, h2, stored, h3, h4⟩
  · exact .inl hu
  · have k := Targets.ofJsonSigned_ok properTargets h4
    exact .inr ⟨h1, stored, h2 ▸ h3, k.2.2, k.1, k.2.1⟩

theorem repeatedEcu_nodup {seen l : List String} (h : Director.repeatedEcu seen l = false) :
    l.Nodup ∧ ∀ x ∈ l, x ∉ seen := by
  induction l generalizing seen with
  | nil => simp
  | cons a l ih =>
    simp only [Director.repeatedEcu] at h
    split at h
    · simp at h
    · rename_i hc
      obtain ⟨h1, h2⟩ := ih h
      refine ⟨List.nodup_cons.2 ⟨fun hm => ?_, h1⟩, ?_⟩
      · have := h2 a hm; simp at this
      · intro x hx
        rcases List.mem_cons.1 hx with rfl | hx
        · simpa using hc
        · have := h2 x hx; simp at this; exact this.2

/-- The ECU serials named by a target. -/
def Spec.ecuNames (t : Target) : List String := t.ecus.map Prod.fst

/-- C07. After a successful Director check no ECU serial occurs twice in the Targets in use —
so no two targets are assigned to one ECU — and the fetched Targets contains no delegation.

Partial: when the fetched document lists no target the previous one stays in use, and *that*
one may contain delegations, see `C07_previous_may_delegate`. -/
theorem C07_sane_partial (c : Ctx) (w w' : World) (h : Director.updateMeta c w = (.ok (), w')) :
    (w'.dir.targets.targets.flatMap ecuNames).Nodup ∧
    w'.dir.targets.targets.Pairwise (fun a b => ∀ e ∈ ecuNames a, e ∉ ecuNames b) ∧
    w'.dir.latest.delegatedRoleNames = [] ∧
    (w'.dir.latest.targets ≠ [] → w'.dir.targets.delegatedRoleNames = []) := by
  obtain ⟨w1, raw, hs⟩ := Director.updateMeta_success h
  have hn := (repeatedEcu_nodup hs.noRepeat).1
  refine ⟨hn, ?_, hs.noDelegations, fun hne => ?_⟩
  · have hn' : (w'.dir.targets.targets.flatMap ecuNames).Nodup := hn
    revert hn'
    generalize w'.dir.targets.targets = l
    intro hn'
    induction l with
    | nil => exact .nil
    | cons a l ih =>
      rw [List.flatMap_cons, List.nodup_append] at hn'
      obtain ⟨_, h2, h3⟩ := hn'
      refine .cons ?_ (ih h2)
      intro b hb e he heb
      exact h3 e he e (List.mem_flatMap.2 ⟨b, hb, heb⟩) rfl
  · rcases hs.used with hu | ⟨h1, _⟩
    · rw [hu]; exact hs.noDelegations
    · exact (hne h1).elim

/-! ### Concrete cases -/

open Toy

/-- A Director server with Root 1 and the given Targets. -/
def dirServer (targets : String) : List ((Repo × String × Int) × String) :=
  [((.director, "root", 1), "dr1"), ((.director, "targets", -1), targets)]

/-- The context of one check against such a server. -/
def dirCtx (targets : String) : Ctx :=
  { env := E, net := net (dirServer targets), clock := clock "2026-01-01T00:00:00Z" }

/-- State after checks against servers with these Targets in turn, starting with nothing. -/
def dirAfter (ts : List String) : World := runHistory E (boot {}) (ts.map (fun t => ev .updateDirector (dirServer t)))

/-- An ordinary check from stored Targets 1 to Targets 2 succeeds, without a Root rotation. -/
example : (Director.updateMeta (dirCtx "dt2") { dirAfter ["dt1"] with tick := 0, fuel := 10 }).1 = .ok () ∧
    (rootRows .director (dirAfter ["dt1", "dt2"]).db = rootRows .director (dirAfter ["dt1"]).db) ∧
    (dirAfter ["dt1"]).db.latestOf .director .targets = some ⟨.director, .targets, -1, "dt1"⟩ ∧
    (dirAfter ["dt1", "dt2"]).db.latestOf .director .targets = some ⟨.director, .targets, -1, "dt2"⟩ := by
  decide +kernel

/-- Going back from 2 to 1 is refused as a rollback and 2 stays stored. -/
example : (Director.updateMeta (dirCtx "dt1") { dirAfter ["dt2"] with tick := 0, fuel := 10 }).1 =
      .error (.upt (.security "Rollback attempt")) ∧
    (dirAfter ["dt2", "dt1"]).db.latestOf .director .targets = some ⟨.director, .targets, -1, "dt2"⟩ := by
  decide +kernel

/-- The hypotheses about stated versions are met. -/
example : StatesVersion E "dt2" 2 := by
  refine ⟨_, _, rfl, rfl, ?_, ?_⟩ <;> decide +kernel

example : QuietHistory E .director (dirAfter ["dt1"]) [ev .updateDirector (dirServer "dt2"), ev .offlineDirector []] := by
  refine ⟨by simp [ev], ?_, by simp [ev], ?_, trivial⟩ <;> (unfold NoRotation; decide +kernel)

/-- Limit of C05: it is about the *stored* version. Targets 9 lists no target, is accepted but
not stored; later Targets 3 (< 9) is accepted. -/
theorem C05_accepted_version_may_decrease :
    (dirAfter ["dt2", "dt9e"]).dir.latest.base.version = 9 ∧
    (Director.updateMeta (dirCtx "dt9e") { dirAfter ["dt2"] with tick := 0, fuel := 10 }).1 = .ok () ∧
    (Director.updateMeta (dirCtx "dt3") { dirAfter ["dt2", "dt9e"] with tick := 0, fuel := 10 }).1 = .ok () ∧
    (dirAfter ["dt2", "dt9e", "dt3"]).dir.latest.base.version = 3 := by decide +kernel

/-- Why C05 is partial: the new Root 2 has the same keys, so the stored Targets 2 still verifies
under it; but rotation has cleared it and Targets 1 is accepted. -/
theorem C05_rotation_forgets :
    let c : Ctx := { env := E, net := net (((.director, "root", 2), "dr2s") :: dirServer "dt1"), clock := clock "2026-01-01T00:00:00Z" }
    let r := Director.updateMeta c { dirAfter ["dt2"] with tick := 0, fuel := 10 }
    (dirAfter ["dt2"]).db.latestOf .director .targets = some ⟨.director, .targets, -1, "dt2"⟩ ∧
    r.1 = .ok () ∧ r.2.dir.targets.base.version = 1 ∧
    (match Targets.ofJsonSigned E Role.targets (E.parseJson "dt2") r.2.dir.root.base with
      | .ok ts => decide (ts.base.version = 2) | .error _ => false) = true := by decide +kernel

/-- Why C06 is partial: Targets 2, expired in 2025, is stored although the check fails; a later
check that gets an empty Targets 3 succeeds and leaves the expired Targets 2 in use. -/
theorem C06_director_previous_may_be_expired :
    (Director.updateMeta (dirCtx "dt2old") { dirAfter [] with tick := 0, fuel := 10 }).1 =
      .error (.upt (.expiredMetadata "targets")) ∧
    (Director.updateMeta (dirCtx "dt3e") { dirAfter ["dt2old"] with tick := 0, fuel := 10 }).1 = .ok () ∧
    (dirAfter ["dt2old", "dt3e"]).dir.targets.base.expiry = ⟨"2025-01-01T00:00:00Z"⟩ ∧
    (dirAfter ["dt2old", "dt3e"]).dir.targets.targets.length = 1 := by decide +kernel

/-- Why C07 is partial: Targets 2 with a delegation is stored although the check fails; a later
check that gets an empty Targets 3 succeeds and leaves the delegating Targets 2 in use. -/
theorem C07_previous_may_delegate :
    (Director.updateMeta (dirCtx "dt2del") { dirAfter [] with tick := 0, fuel := 10 }).1 =
      .error (.upt (.invalidMetadata "targets")) ∧
    (Director.updateMeta (dirCtx "dt3e") { dirAfter ["dt2del"] with tick := 0, fuel := 10 }).1 = .ok () ∧
    (dirAfter ["dt2del", "dt3e"]).dir.targets.delegatedRoleNames = ["other"] := by decide +kernel

/-- One ECU named by two targets is refused. -/
example : (Director.updateMeta (dirCtx "dt2rep") { dirAfter [] with tick := 0, fuel := 10 }).1 =
    .error (.upt (.invalidMetadata "targets")) := by decide +kernel

end Aktualizr
