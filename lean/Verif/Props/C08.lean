import Verif.Lemmas.Hashes
import Verif.Props.C05

/-!
# C06 (Image repository), C08, C09
-/

namespace Aktualizr

open Spec M

/-- C06, Image repository. After a successful online check the Root in use is signed by its own
keys, the Timestamp, Snapshot and Targets in use are each signed to threshold for their role
under that Root, and each of the four was unexpired when this check looked at the clock. -/
theorem C06_image (c : Ctx) (w w' : World) (h : Image.updateMeta c w = (.ok (), w')) :
    RootInUse c.env w'.img.root ∧
    (∃ t < w'.tick, w'.img.root.base.expiry.isExpiredAt (c.clock t) = false) ∧
    (∃ raw, ReadsAsTimestamp c.env raw w'.img.timestamp ∧ SignedFor c.env w'.img.root Role.timestamp raw) ∧
    (∃ t < w'.tick, w'.img.timestamp.expiry.isExpiredAt (c.clock t) = false) ∧
    (∃ raw, ReadsAsSnapshot c.env raw w'.img.snapshot ∧ SignedFor c.env w'.img.root Role.snapshot raw) ∧
    (∃ t < w'.tick, w'.img.snapshot.expiry.isExpiredAt (c.clock t) = false) ∧
    (∃ ts, w'.img.targets = some ts ∧
      (∃ raw, ReadsAsTargets c.env raw ts ∧ SignedFor c.env w'.img.root Role.targets raw) ∧
      (∃ t < w'.tick, ts.base.expiry.isExpiredAt (c.clock t) = false)) := by
  obtain ⟨w1, w2, w3, rawT, rawS, raw, t, s, ts, hs⟩ := Image.updateMeta_success h
  obtain ⟨hu, hpos, hexp⟩ := updateRoot_inUse hs.rootOk
  have hr : getRoot .image w1 = w1.img.root := rfl
  rw [hr] at hu hexp
  have t1 := hs.timestamp.tick
  have t2 := hs.snapshot.tick
  have t3 := hs.targets.tick
  have k1 := TimestampMeta.ofJsonSigned_ok hs.timestamp.parsed
  have k2 := Snapshot.ofJsonSigned_ok hs.snapshot.verified.parsed
  have k3 := Targets.ofJsonSigned_ok properTargets hs.targets.verified.parsed
  have r2 : w2.img.root = w1.img.root := by rw [hs.timestamp.img]
  have r3 : w3.img.root = w1.img.root := by rw [hs.snapshot.img, hs.timestamp.img]
  rw [r2] at k2
  rw [r3] at k3
  rw [hs.img]
  refine ⟨hu, ⟨w1.tick - 1, by omega, hexp⟩, ⟨rawT, k1.2.2.1, k1.1, k1.2.1⟩, ⟨w1.tick + 1, by omega, hs.timestamp.fresh⟩,
    ⟨rawS, k2.2.2.1, k2.1, k2.2.1⟩, ⟨w3.tick - 1, by omega, hs.snapshot.fresh⟩, ts, rfl, ⟨raw, k3.2.2, k3.1, k3.2.1⟩,
    ⟨w'.tick - 1, by omega, hs.targets.fresh⟩⟩

/-- C08. After a successful online check of the Image repository there is an unbroken chain
from the Timestamp in use — a document the server served during this very check — to the
Snapshot in use and on to the Targets in use: versions as announced, and every listed hash of
a supported kind agrees (for the Snapshot there is at least one). -/
theorem C08_chain (c : Ctx) (w w' : World) (h : Image.updateMeta c w = (.ok (), w')) :
    ∃ rawT rawS raw ts, ReadsAsTimestamp c.env rawT w'.img.timestamp ∧ ReadsAsSnapshot c.env rawS w'.img.snapshot ∧
      w'.img.targets = some ts ∧ ReadsAsTargets c.env raw ts ∧
      (∃ t < w'.tick, c.net t .image "timestamp" (-1) = some rawT) ∧
      TimestampVouches c.env rawT rawS w'.img.snapshot.version ∧
      SnapshotVouches c.env rawS "targets" raw ts.base.version := by
  obtain ⟨w1, w2, w3, rawT, rawS, raw, t, s, ts, hs⟩ := Image.updateMeta_success h
  have k1 := TimestampMeta.ofJsonSigned_ok hs.timestamp.parsed
  have k2 := Snapshot.ofJsonSigned_ok hs.snapshot.verified.parsed
  have k3 := Targets.ofJsonSigned_ok properTargets hs.targets.verified.parsed
  have i2 := hs.timestamp.img
  have i3 := hs.snapshot.img
  have t1 := hs.timestamp.tick
  have t2 := hs.snapshot.tick
  have t3 := hs.targets.tick
  refine ⟨rawT, rawS, raw, ts, ?_⟩
  rw [hs.img]
  refine ⟨k1.2.2.1, k2.2.2.1, rfl, k3.2.2, ⟨w1.tick, by omega, hs.timestamp.served⟩, ?_, ?_⟩
  · have hv := hs.snapshot.verified.version
    have hh := hs.snapshot.verified.hashes
    rw [i2] at hv hh
    show TimestampVouches c.env rawT rawS s.version
    rw [hv]
    exact timestamp_vouches hs.timestamp.parsed hh
  · have hv := hs.targets.verified.version
    have hh := hs.targets.verified.hashes
    rw [i3] at hv hh
    rw [hv]
    exact snapshot_vouches hs.snapshot.verified.parsed hh

theorem stored_other {db : MetaDb} {raw raw' : String} {t t' : RoleKind} (h : t ≠ t') (hs : Stored db .image t raw) :
    Stored (db.storeNonRoot raw' .image t') .image t raw := by
  refine stored_of_only ?_ raw hs
  exact MetaDb.only_storeNonRoot_other _ _ (by simp [h])

/-- C08, storage. After a successful online check the Snapshot and Targets in use are the
stored ones, provided they state non-negative integer versions. -/
theorem C08_in_use_is_stored (c : Ctx) (w w' : World) (h : Image.updateMeta c w = (.ok (), w')) :
    ∃ rawS raw ts, ReadsAsSnapshot c.env rawS w'.img.snapshot ∧ w'.img.targets = some ts ∧ ReadsAsTargets c.env raw ts ∧
      ((∃ v, 0 ≤ v ∧ StatesVersion c.env rawS v) → Stored w'.db .image .snapshot rawS) ∧
      ((∃ v, 0 ≤ v ∧ StatesVersion c.env raw v) → Stored w'.db .image .targets raw) := by
  obtain ⟨w1, w2, w3, rawT, rawS, raw, t, s, ts, hs⟩ := Image.updateMeta_success h
  have k2 := Snapshot.ofJsonSigned_ok hs.snapshot.verified.parsed
  have k3 := Targets.ofJsonSigned_ok properTargets hs.targets.verified.parsed
  refine ⟨rawS, raw, ts, ?_⟩
  rw [hs.img]
  refine ⟨k2.2.2.1, rfl, k3.2.2, fun hv => ?_, fun hv => ?_⟩
  · have h3 : Stored w3.db .image .snapshot rawS := by
      rcases hs.snapshot.source with ⟨hst, hdb⟩ | ⟨_, hdb | ⟨_, hno⟩⟩
      · rw [hdb]; exact hst
      · rw [hdb]; exact stored_storeNonRoot _ _ _ _
      · exact (hno hv).elim
    rcases hs.targets.source with ⟨_, hdb⟩ | ⟨_, hdb | ⟨hdb, _⟩⟩
    · rw [hdb]; exact h3
    · rw [hdb]; exact stored_other (by decide) h3
    · rw [hdb]; exact h3
  · rcases hs.targets.source with ⟨hst, hdb⟩ | ⟨_, hdb | ⟨_, hno⟩⟩
    · rw [hdb]; exact hst
    · rw [hdb]; exact stored_storeNonRoot _ _ _ _
    · exact (hno hv).elim

/-! ### C09 -/

/-- The Timestamp block never lowers the stored Timestamp's version, whatever its outcome. -/
theorem Image.updateTimestamp_grows (c : Ctx) : Preserves (onDb (StoredVersionGrows c.env .image .timestamp)) (Image.updateTimestamp c) := by
  have hP := storedVersionGrows_pre c.env .image .timestamp
  intro w
  generalize hx : Image.updateTimestamp c w = x
  obtain ⟨o, w'⟩ := x
  show StoredVersionGrows c.env .image .timestamp w.db w'.db
  unfold updateTimestamp at hx
  rcases bind_cases hx with ⟨raw, w1, h1, h⟩ | ⟨e, h1, rfl⟩
  swap_goal
  · have := ((fetchLatestRole_same _ _ _ _).of_eq h1).1
    rw [this]; exact hP.refl _
  clear hx
  obtain ⟨_, _, rfl⟩ := fetchRole_ok h1
  rcases bind_cases h with ⟨vr, w2, h2, h⟩ | ⟨e, h2, rfl⟩
  swap_goal
  · simp at h2; rw [← h2.2]; exact hP.refl _
  simp only [lift_eq, Prod.mk.injEq] at h2
  obtain ⟨h2, rfl⟩ := h2
  rcases bind_cases h with ⟨lv, w3, h3, h⟩ | ⟨e, h3, rfl⟩
  swap_goal
  · have : Preserves (onDb (fun d d' : MetaDb => d' = d)) (do match ← loadNonRoot .image .timestamp with
                   | some stored => lift (extractVersionUntrusted c.env stored)
                   | none => pure (-1) : U Int) := by
      have hQ : DbPre (fun d d' : MetaDb => d' = d) := ⟨fun _ => rfl, fun _ _ _ a b => b.trans a⟩
      pres hQ
    have := this.of_eq h3
    have hd : w'.db = w.db := this
    rw [hd]; exact hP.refl _
  have hl : w3 = { w with tick := w.tick + 1 } ∧ (∀ s, Stored w.db .image .timestamp s → extractVersionUntrusted c.env s = .ok lv) := by
    obtain ⟨ans, w4, h4, h3⟩ := M.bind_ok.1 h3
    cases ans with
    | some stored =>
      obtain ⟨rfl, _, hs⟩ := loadNonRoot_some h4
      simp at h3
      exact ⟨h3.2.symm, fun s h' => by rw [h'.unique hs]; exact h3.1⟩
    | none =>
      obtain ⟨rfl, hn⟩ := loadNonRoot_none h4
      simp at h3
      refine ⟨h3.2.symm, ?_⟩
      rintro s ⟨row, hr, _⟩
      have hn : w.db.latestOf .image .timestamp = none := hn
      rw [hn] at hr
      simp at hr
  obtain ⟨rfl, hl⟩ := hl
  rcases bind_cases h with ⟨_, w5, h5, h⟩ | ⟨e, h5, rfl⟩
  swap_goal
  · rcases verifyTimestamp_cases h5 with ⟨_, hh, _⟩ | ⟨_, _, rfl⟩
    · simp at hh
    · exact hP.refl _
  rcases verifyTimestamp_cases h5 with ⟨t, _, ht, rfl⟩ | ⟨e, he, _⟩
  swap_goal
  · simp at he
  have grow : ∀ o6 w6, compareAndStore lv vr raw .timestamp
      { w with img := { w.img with timestamp := t }, tick := w.tick + 1 } = (o6, w6) → StoredVersionGrows c.env .image .timestamp w.db w6.db := by
    intro o6 w6 h6
    rcases compareAndStore_cases h6 with ⟨hlt, _, hdb, _⟩ | ⟨_, _, rfl⟩ | ⟨_, rfl⟩
    · rw [hdb]
      intro s v hs hv hpos
      have := hl s hs
      have e1 : v = lv := by simpa using hv.extract.symm.trans this
      exact ⟨raw, vr, stored_storeNonRoot _ _ _ _, extract_states h2 (by omega), by omega, fun e => by omega⟩
    · exact hP.refl _
    · exact hP.refl _
  rcases bind_cases h with ⟨_, w6, h6, h⟩ | ⟨e, h6, rfl⟩
  · have hd : w'.db = w6.db := by
      have := (checkTimestampExpired_pres (P := fun d d' : MetaDb => d' = d) ⟨fun _ => rfl, fun _ _ _ a b => b.trans a⟩ c).of_eq h
      exact this
    rw [hd]
    exact grow _ _ h6
  · exact grow _ _ h6

/-- One online check of the Image repository that does not rotate its Root never lowers the
stored Timestamp's version. -/
theorem Image.updateMeta_timestamp_grows {c : Ctx} {w w' : World} {o : Except Err Unit}
    (h : Image.updateMeta c w = (o, w')) (hf : RootsFiledSanely c.env .image w.db)
    (hq : NoRotation .image w.db w'.db) : StoredVersionGrows c.env .image .timestamp w.db w'.db := by
  have hP := storedVersionGrows_pre c.env .image .timestamp
  unfold updateMeta at h
  rcases bind_cases h with ⟨_, w0, h0, h⟩ | ⟨e, h0, rfl⟩
  swap_goal
  · simp [resetMeta] at h0
  simp only [resetMeta, modify_eq, Prod.mk.injEq, true_and] at h0
  subst h0
  -- what comes after Root rotation leaves the Roots alone and grows the Timestamp
  have rest : Preserves (onDb (fun d d' => rootRows .image d' = rootRows .image d ∧ StoredVersionGrows c.env .image .timestamp d d'))
      (do updateTimestamp c; updateSnapshot c; updateTargets c) := by
    have hQ : DbPre (fun d d' => rootRows .image d' = rootRows .image d ∧ StoredVersionGrows c.env .image .timestamp d d') :=
      ⟨fun _ => ⟨rfl, hP.refl _⟩, fun _ _ _ a b => ⟨b.1.trans a.1, hP.trans _ _ _ a.2 b.2⟩⟩
    have hR : DbPre (fun d d' : MetaDb => rootRows .image d' = rootRows .image d) := ⟨fun _ => rfl, fun _ _ _ a b => Eq.trans b a⟩
    have h1 : Preserves (onDb (fun d d' => rootRows .image d' = rootRows .image d ∧ StoredVersionGrows c.env .image .timestamp d d')) (updateTimestamp c) := by
      intro w
      exact ⟨updateTimestamp_pres hR c (fun d raw => rootRows_storeNonRoot _ _ _ _ (by decide)) w, updateTimestamp_grows c w⟩
    have h2 := updateSnapshot_pres hQ c (fun d raw => ⟨rootRows_storeNonRoot _ _ _ _ (by decide),
      storedVersionGrows_of_only (MetaDb.only_storeNonRoot_other _ _ (by simp))⟩)
    have h3 := updateTargets_pres hQ c (fun d raw => ⟨rootRows_storeNonRoot _ _ _ _ (by decide),
      storedVersionGrows_of_only (MetaDb.only_storeNonRoot_other _ _ (by simp))⟩)
    pres hQ
  rcases bind_cases h with ⟨_, w1, h1, h⟩ | ⟨e, h1, rfl⟩
  · have hr := rest.of_eq h
    have hw1 := updateRoot_quiet h1 hf (hr.1.symm.trans hq)
    replace hw1 : w1.db = w.db := hw1
    have := hr.2
    rw [hw1] at this
    exact this
  · have hw1 := updateRoot_quiet h1 hf hq
    replace hw1 : w'.db = w.db := hw1
    rw [hw1]; exact hP.refl _

/-- C09, Timestamp. Over any history in which the Image repository's Root does not rotate,
whatever the servers, clocks and crash points, the version of the stored Timestamp never
decreases.

Partial: the corresponding claims for Snapshot and Targets are false, see
`C09_snapshot_rollback_accepted`. -/
theorem C09_timestamp_monotone_partial (env : Env) (w : World) (es : List Event)
    (hf : RootsFiledSanely env .image w.db) (hq : QuietHistory env .image w es) :
    StoredVersionGrows env .image .timestamp w.db (runHistory env w es).db := by
  have hP := storedVersionGrows_pre env .image .timestamp
  induction es generalizing w with
  | nil => exact hP.refl _
  | cons e es ih =>
    obtain ⟨_, hrot, hq⟩ := hq
    have hf' : RootsFiledSanely env .image (e.step env w).db := by
      intro row hrow
      unfold NoRotation at hrot
      rw [hrot] at hrow
      exact hf row hrow
    refine hP.trans _ _ _ ?_ (ih _ hf' hq)
    rw [step_db]
    unfold NoRotation at hrot
    rw [step_db] at hrot
    have hQ : DbPre (fun d d' => MetaDb.only d' .image .timestamp = MetaDb.only d .image .timestamp) :=
      ⟨fun _ => rfl, fun _ _ _ a b => Eq.trans b a⟩
    have other : ∀ {m : Ctx → U Unit}, (∀ c, Preserves (onDb (fun d d' => MetaDb.only d' .image .timestamp = MetaDb.only d .image .timestamp)) (m c)) →
        ∀ c w0, w0.db = w.db → StoredVersionGrows env .image .timestamp w.db (m c w0).2.db := by
      intro m hm c w0 h0
      rw [← h0]
      exact storedVersionGrows_of_only (hm c w0)
    cases hc : e.call with
    | updateImage =>
      have hex : e.exec env w = Image.updateMeta { env := env, net := e.net, clock := e.clock } { w with tick := 0, fuel := e.fuel } := by
        unfold Event.exec; rw [hc]; rfl
      rw [hex] at hrot ⊢
      exact Image.updateMeta_timestamp_grows (c := { env := env, net := e.net, clock := e.clock })
        (w := { w with tick := 0, fuel := e.fuel }) rfl hf hrot
    | updateDirector =>
      unfold Event.exec
      rw [hc]
      refine other (m := fun c => Call.updateDirector.run c) (fun c => ?_) _ _ rfl
      refine Director.updateMeta_pres hQ c ?_ ?_
      · exact updateRoot_pres hQ c .director (fun d raw v => MetaDb.only_storeRoot_other _ _ _ (by simp))
          (fun d => MetaDb.only_clearNonRoot_other _ _ (by decide))
      · intro d raw
        exact MetaDb.only_storeNonRoot_other _ _ (by simp)
    | offlineDirector =>
      unfold Event.exec
      rw [hc]
      exact other (m := fun c => Call.offlineDirector.run c) (fun c => Director.checkMetaOffline_pres hQ c) _ _ rfl
    | offlineImage =>
      unfold Event.exec
      rw [hc]
      exact other (m := fun c => Call.offlineImage.run c) (fun c => Image.checkMetaOffline_pres hQ c) _ _ rfl
    | dropTargets =>
      unfold Event.exec
      rw [hc]
      refine other (m := fun c => Call.dropTargets.run c) (fun c => ?_) _ _ rfl
      exact Director.dropTargets_pres hQ (fun d => MetaDb.only_clearNonRoot_other _ _ (by decide))
    | find q offline =>
      unfold Event.exec
      rw [hc]
      refine other (m := fun c => (Call.find q offline).run c) (fun c => ?_) _ _ rfl
      have := Delegation.findInTree_pres hQ c q offline (fun _ _ _ => rfl) (fun _ _ => rfl)
      unfold Call.run
      pres hQ
    | restart =>
      unfold Event.exec
      rw [hc]
      exact hP.refl _

/-- C09, what does hold for Snapshot and Targets: after a successful check the stored Snapshot
has the version the Timestamp of this check announces, and the stored Targets the version that
Snapshot announces — so they go back only if the (newer) Timestamp or the Snapshot it vouches
for says so. -/
theorem C09_stored_follow_timestamp_partial (c : Ctx) (w w' : World) (h : Image.updateMeta c w = (.ok (), w'))
    (rawS raw : String) (v v' : Int) (hS : Stored w'.db .image .snapshot rawS) (hT : Stored w'.db .image .targets raw)
    (hint : ∀ x, (∃ t, c.net t .image "snapshot" (-1) = some x) ∨ (∃ t, c.net t .image "targets" (-1) = some x) → ∃ v, 0 ≤ v ∧ StatesVersion c.env x v)
    (hv : StatesVersion c.env rawS v) (hv' : StatesVersion c.env raw v') :
    v = w'.img.timestamp.snapshotVersion ∧ v' = w'.img.snapshot.versionOf Role.targets ∧ w'.img.snapshot.version = v := by
  obtain ⟨w1, w2, w3, rawT, rawS', raw', t, s, ts, hs⟩ := Image.updateMeta_success h
  have hS' : Stored w'.db .image .snapshot rawS' := by
    have h3 : Stored w3.db .image .snapshot rawS' := by
      rcases hs.snapshot.source with ⟨hst, hdb⟩ | ⟨_, hdb | ⟨_, hno⟩⟩
      · rw [hdb]; exact hst
      · rw [hdb]; exact stored_storeNonRoot _ _ _ _
      · exact (hno (hint _ (.inl ⟨_, by assumption⟩))).elim
    rcases hs.targets.source with ⟨_, hdb⟩ | ⟨_, hdb | ⟨hdb, _⟩⟩
    · rw [hdb]; exact h3
    · rw [hdb]; exact stored_other (by decide) h3
    · rw [hdb]; exact h3
  have hT' : Stored w'.db .image .targets raw' := by
    rcases hs.targets.source with ⟨hst, hdb⟩ | ⟨_, hdb | ⟨_, hno⟩⟩
    · rw [hdb]; exact hst
    · rw [hdb]; exact stored_storeNonRoot _ _ _ _
    · exact (hno (hint _ (.inr ⟨_, by assumption⟩))).elim
  have e1 := hS.unique hS'
  have e2 := hT.unique hT'
  subst e1; subst e2
  obtain ⟨_, _, _, e, hb⟩ := Snapshot.ofJsonSigned_ok hs.snapshot.verified.parsed
  have a1 := baseInit_states hb hv
  have a2 := (Targets.ofJsonSigned_ok properTargets hs.targets.verified.parsed).2.2.version hv'
  have b1 := hs.snapshot.verified.version
  have b2 := hs.targets.verified.version
  rw [hs.timestamp.img] at b1
  rw [hs.snapshot.img] at b2
  rw [hs.img]
  exact ⟨a1.trans b1, a2.symm.trans b2, a1.symm⟩

/-! ### Concrete cases -/

open Toy

/-- An Image server with Root 1 and the given other documents. -/
def imgServer (t s ts : String) : List ((Repo × String × Int) × String) :=
  [((.image, "root", 1), "ir1"), ((.image, "timestamp", -1), t), ((.image, "snapshot", -1), s), ((.image, "targets", -1), ts)]

def imgCtx (t s ts : String) : Ctx := { env := E, net := net (imgServer t s ts), clock := clock "2026-01-01T00:00:00Z" }

def imgAfter (l : List (String × String × String)) : World :=
  runHistory E (boot {}) (l.map (fun x => ev .updateImage (imgServer x.1 x.2.1 x.2.2)))

/-- Ordinary progress: version 1, then version 2, all documents stored. -/
example : (Image.updateMeta (imgCtx "its2" "isn2" "it2") { imgAfter [("its1", "isn1", "it1")] with tick := 0, fuel := 10 }).1 = .ok () ∧
    Stored (imgAfter [("its1", "isn1", "it1"), ("its2", "isn2", "it2")]).db .image .snapshot "isn2" ∧
    rootRows .image (imgAfter [("its1", "isn1", "it1"), ("its2", "isn2", "it2")]).db =
      rootRows .image (imgAfter [("its1", "isn1", "it1")]).db := by
  refine ⟨by decide +kernel, ⟨⟨.image, .snapshot, -1, "isn2"⟩, by decide +kernel, rfl⟩, by decide +kernel⟩

/-- The cached documents are used when still current: nothing is fetched but the Timestamp. -/
example : (Image.updateMeta (imgCtx "its1" "" "") { imgAfter [("its1", "isn1", "it1")] with tick := 0, fuel := 10 }).1 = .ok () := by
  decide +kernel

example : QuietHistory E .image (imgAfter [("its1", "isn1", "it1")]) [ev .updateImage (imgServer "its2" "isn2" "it2"), ev .dropTargets []] := by
  refine ⟨by simp, ?_, by simp, ?_, trivial⟩ <;> (unfold NoRotation; decide +kernel)

example : StatesVersion E "isn2" 2 ∧ StatesVersion E "it2" 2 ∧ StatesVersion E "its2" 2 := by
  refine ⟨⟨_, _, rfl, rfl, ?_, ?_⟩, ⟨_, _, rfl, rfl, ?_, ?_⟩, ⟨_, _, rfl, rfl, ?_, ?_⟩⟩ <;> decide +kernel

/-- The documents this server serves state versions. -/
example : ∀ x, (∃ t, (imgCtx "its2" "isn2" "it2").net t .image "snapshot" (-1) = some x) ∨
    (∃ t, (imgCtx "its2" "isn2" "it2").net t .image "targets" (-1) = some x) → ∃ v, 0 ≤ v ∧ StatesVersion E x v := by
  have h2 : ∀ x, x = "isn2" ∨ x = "it2" → ∃ v, 0 ≤ v ∧ StatesVersion E x v := by
    rintro x (rfl | rfl)
    · exact ⟨2, by decide, _, _, rfl, rfl, by decide +kernel, by decide +kernel⟩
    · exact ⟨2, by decide, _, _, rfl, rfl, by decide +kernel, by decide +kernel⟩
  rintro x (⟨t, h⟩ | ⟨t, h⟩)
  · exact h2 x (.inl (by have e : some "isn2" = some x := h; simpa using e.symm))
  · exact h2 x (.inr (by have e : some "it2" = some x := h; simpa using e.symm))

/-- A Timestamp with a lower version is refused. -/
example : (Image.updateMeta (imgCtx "its1" "isn1" "it1") { imgAfter [("its2", "isn2", "it2")] with tick := 0, fuel := 10 }).1 =
    .error (.upt (.security "Rollback attempt")) := by decide +kernel

/-- Why C09 is partial: with Snapshot 2 and Targets 2 stored, a new Timestamp (version 3) that
vouches for Snapshot 1 is accepted, Snapshot 1 and Targets 1 replace the stored newer ones and
the check succeeds. The local version compared against is -1, because the stored Snapshot
fails the hash check before `snapshot` is assigned. -/
theorem C09_snapshot_rollback_accepted :
    (Image.updateMeta (imgCtx "its3" "isn1" "it1") { imgAfter [("its2", "isn2", "it2")] with tick := 0, fuel := 10 }).1 = .ok () ∧
    NoRotation .image (imgAfter [("its2", "isn2", "it2")]).db (imgAfter [("its2", "isn2", "it2"), ("its3", "isn1", "it1")]).db ∧
    Stored (imgAfter [("its2", "isn2", "it2")]).db .image .snapshot "isn2" ∧ StatesVersion E "isn2" 2 ∧
    Stored (imgAfter [("its2", "isn2", "it2"), ("its3", "isn1", "it1")]).db .image .snapshot "isn1" ∧ StatesVersion E "isn1" 1 ∧
    Stored (imgAfter [("its2", "isn2", "it2")]).db .image .targets "it2" ∧ StatesVersion E "it2" 2 ∧
    Stored (imgAfter [("its2", "isn2", "it2"), ("its3", "isn1", "it1")]).db .image .targets "it1" ∧ StatesVersion E "it1" 1 := by
  refine ⟨by decide +kernel, by unfold NoRotation; decide +kernel, ⟨⟨.image, .snapshot, -1, "isn2"⟩, by decide +kernel, rfl⟩, ?_,
    ⟨⟨.image, .snapshot, -1, "isn1"⟩, by decide +kernel, rfl⟩, ?_, ⟨⟨.image, .targets, -1, "it2"⟩, by decide +kernel, rfl⟩, ?_,
    ⟨⟨.image, .targets, -1, "it1"⟩, by decide +kernel, rfl⟩, ?_⟩ <;>
  exact ⟨_, _, rfl, rfl, by decide +kernel, by decide +kernel⟩

end Aktualizr
