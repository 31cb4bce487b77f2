import Verif.Lemmas.HonestImage

/-! Checking stored genuine metadata again, without the network, succeeds. -/

namespace Aktualizr

open M Spec

namespace Spec

/-- Genuine Director metadata is stored. -/
structure KeepsDirector (c : Ctx) (db : MetaDb) (rootRaw : String) (last : Root) (raw : String) (ts : Targets) : Prop where
  root : Stored db .director .root rootRaw
  genuineR : GenuineRoot c.env rootRaw last
  freshR : Unexpired c last.base.expiry
  stored : Stored db .director .targets raw
  genuine : Genuine c.env last Role.targets raw
  reads : ReadsAsTargets c.env raw ts
  fresh : Unexpired c ts.base.expiry
  some : ts.targets ≠ []
  plain : ts.delegatedRoleNames = []
  once : EcusOnce ts

/-- Genuine Image metadata is stored. -/
structure KeepsImage (c : Ctx) (db : MetaDb) (rootRaw : String) (last : Root) (rawT rawS raw : String) (t : TimestampMeta) (s : Snapshot)
    (ts : Targets) : Prop where
  root : Stored db .image .root rootRaw
  genuineR : GenuineRoot c.env rootRaw last
  freshR : Unexpired c last.base.expiry
  storedT : Stored db .image .timestamp rawT
  genuineT : Genuine c.env last Role.timestamp rawT
  readsT : ReadsAsTimestamp c.env rawT t
  freshT : Unexpired c t.expiry
  storedS : Stored db .image .snapshot rawS
  genuineS : Genuine c.env last Role.snapshot rawS
  readsS : ReadsAsSnapshot c.env rawS s
  vouched : TimestampVouches c.env rawT rawS s.version
  freshS : Unexpired c s.expiry
  stored : Stored db .image .targets raw
  genuine : Genuine c.env last Role.targets raw
  reads : ReadsAsTargets c.env raw ts
  listed : SnapshotLists c.env rawS "targets" raw ts.base.version
  fresh : Unexpired c ts.base.expiry

end Spec

theorem loadRoot_run {repo : Repo} {w : World} {raw : String} (h : Stored w.db repo .root raw) (hne : raw ≠ "") :
    loadLatestRoot repo w = (.ok (some raw), w) := load_run h hne

theorem orThrow_run {σ α : Type} {a : α} {e : Err} {w : σ} : (orThrow (some a) e : M σ α) w = (.ok a, w) := rfl

theorem Director.checkMetaOffline_run {c : Ctx} {w : World} {rootRaw : String} {last : Root} {raw : String} {ts : Targets}
    (h : KeepsDirector c w.db rootRaw last raw ts) :
    ∃ n, Director.checkMetaOffline c w = (.ok (), { w with dir := ⟨last, ts, ts⟩, tick := n }) := by
  let w0 : World := { w with dir := { root := { policy := .acceptAll }, targets := {}, latest := {} } }
  let w1 : World := { w with dir := { root := last, targets := {}, latest := {} } }
  let w2 : World := { w1 with tick := w1.tick + 1 }
  let w3 : World := { w2 with dir := ⟨last, ts, ts⟩ }
  let w4 : World := { w3 with tick := w3.tick + 1 }
  have h1 : initRoot c .director rootRaw w0 = (.ok (), w1) := initRoot_run h.genuineR w0
  have h2 : checkRootExpired c .director w1 = (.ok (), w2) := by
    unfold checkRootExpired
    rw [run_bind (by rw [gets_eq]), run_bind (now_run c w1)]
    exact throwWhen_run (h.freshR _)
  have h3 : Director.verifyTargets c raw w2 = (.ok (), w3) := Director.verifyTargets_run h.genuine h.reads h.some
  have h4 : Director.checkTargetsExpired c w3 = (.ok (), w4) := by
    unfold Director.checkTargetsExpired
    rw [run_bind (by rw [gets_eq]), run_bind (now_run c w3)]
    exact throwWhen_run (h.fresh _)
  have h5 : Director.targetsSanityCheck w4 = (.ok (), w4) := by
    unfold Director.targetsSanityCheck
    rw [run_bind (by rw [gets_eq]), run_bind (throwWhen_run (by show (ts.delegatedRoleNames != []) = false; simp [h.plain]))]
    exact throwWhen_run (repeatedEcu_none _ _ h.once (by simp))
  refine ⟨w4.tick, ?_⟩
  unfold Director.checkMetaOffline
  rw [run_bind (m := Director.resetMeta) (w1 := w0) (by unfold Director.resetMeta; rw [modify_eq]),
    run_bind (loadRoot_run (w := w0) h.root h.genuineR.genuine.nonempty), run_bind orThrow_run, run_bind h1, run_bind h2,
    run_bind (load_run (w := w2) h.stored h.genuine.nonempty), run_bind orThrow_run, run_bind h3, run_bind h4]
  exact h5

theorem Image.checkMetaOffline_run {c : Ctx} {w : World} {rootRaw : String} {last : Root} {rawT rawS raw : String} {t : TimestampMeta}
    {s : Snapshot} {ts : Targets} (h : KeepsImage c w.db rootRaw last rawT rawS raw t s ts) :
    ∃ n, Image.checkMetaOffline c w = (.ok (), { w with img := ⟨last, some ts, t, s⟩, tick := n }) := by
  let w0 : World := { w with img := { root := { policy := .acceptAll }, targets := none, timestamp := {}, snapshot := {} } }
  let w1 : World := { w with img := { root := last, targets := none, timestamp := {}, snapshot := {} } }
  let w2 : World := { w1 with tick := w1.tick + 1 }
  let w3 : World := { w2 with img := { w2.img with timestamp := t } }
  let w4 : World := { w3 with tick := w3.tick + 1 }
  let w5 : World := { w4 with img := { w4.img with snapshot := s } }
  let w6 : World := { w5 with tick := w5.tick + 1 }
  let w7 : World := { w6 with img := { w6.img with targets := some ts } }
  let w8 : World := { w7 with tick := w7.tick + 1 }
  obtain ⟨hver, hloop, -⟩ := timestamp_hashes h.readsT h.vouched
  obtain ⟨hver', -, hloop'⟩ := snapshot_lists (role := Role.targets) h.readsS h.listed
  have h1 : initRoot c .image rootRaw w0 = (.ok (), w1) := initRoot_run h.genuineR w0
  have h2 : checkRootExpired c .image w1 = (.ok (), w2) := by
    unfold checkRootExpired
    rw [run_bind (by rw [gets_eq]), run_bind (now_run c w1)]
    exact throwWhen_run (h.freshR _)
  have h3 : Image.verifyTimestamp c rawT w2 = (.ok (), w3) := Image.verifyTimestamp_run h.genuineT h.readsT
  have h4 : Image.checkTimestampExpired c w3 = (.ok (), w4) := Image.checkTimestampExpired_run h.freshT
  have h5 : Image.verifySnapshot c rawS w4 = (.ok (), w5) := Image.verifySnapshot_run h.genuineS h.readsS hver hloop
  have h6 : Image.checkSnapshotExpired c w5 = (.ok (), w6) := Image.checkSnapshotExpired_run h.freshS
  have h7 : Image.verifyTargets c raw w6 = (.ok (), w7) := Image.verifyTargets_run h.genuine h.reads hver' hloop'
  have h8 : Image.checkTargetsExpired c w7 = (.ok (), w8) := Image.checkTargetsExpired_run rfl h.fresh
  refine ⟨w8.tick, ?_⟩
  unfold Image.checkMetaOffline
  rw [run_bind (m := Image.resetMeta) (w1 := w0) (by unfold Image.resetMeta; rw [modify_eq]),
    run_bind (loadRoot_run (w := w0) h.root h.genuineR.genuine.nonempty), run_bind orThrow_run, run_bind h1, run_bind h2,
    run_bind (load_run (w := w2) h.storedT h.genuineT.nonempty), run_bind orThrow_run, run_bind h3, run_bind h4,
    run_bind (load_run (w := w4) h.storedS h.genuineS.nonempty), run_bind orThrow_run, run_bind h5, run_bind h6,
    run_bind (load_run (w := w6) h.stored h.genuine.nonempty), run_bind orThrow_run, run_bind h7]
  exact h8

end Aktualizr
