import Verif.Props.C20
import Verif.Props.C58

/-!
# C59 How an update ended is reported in the same cycle
-/

namespace Aktualizr

open M Spec

namespace Spec

/-- The manifest carries a report with this result of the whole device. -/
def ReportsResult (r : InstResult) (m : Manifest) : Prop :=
  ∃ r' raw cid items, m.report = some (r', raw, cid, items) ∧ SameResult r r'

/-- Between `d` and `d'` a manifest with this result was sent, after everything else; if the server did
not acknowledge it, the result is still stored. -/
def ReportedAtEnd (r : InstResult) (d d' : Dev) : Prop :=
  ∃ new m ok, d'.log = d.log ++ new ++ [.sent m ok] ∧ ReportsResult r m ∧
    (ok = false → ∃ row, d'.cl.devResult = some row ∧ StoredAs row.result r)

/-- The Director's Targets in use are the stored ones. -/
def TargetsInUseStored (env : Env) (cl : Client) : Prop :=
  ∃ raw, Stored cl.w.db .director .targets raw ∧ ReadsAsTargets env raw cl.w.dir.targets

/-- The Director numbers its Targets: what it serves states a version, and if this is the version of the
stored Targets, it is the stored document. -/
def NumbersTargets (c : Ctx) (db : MetaDb) : Prop :=
  ∀ n raw, c.net n .director "targets" (-1) = some raw →
    ∃ v, 0 ≤ v ∧ StatesVersion c.env raw v ∧ ∀ stored, Stored db .director .targets stored → StatesVersion c.env stored v → stored = raw

end Spec

/-! ### Sending -/

/-- If nothing is pending and no exception stops it, a manifest is sent. -/
theorem putManifestSimple_sends {env : Env} {p : Peers} {d d' : Dev} {b : Bool} (h : putManifestSimple env p d = (.ok b, d'))
    (hp : d.cl.hasPendingUpdates = false) :
    ∃ new m, d'.log = d.log ++ new ++ [.sent m b] ∧ (b = false → d'.cl.devResult = d.cl.devResult) ∧
      ∀ row, d.cl.devResult = some row → ∃ r items, row.result.read = .ok r ∧ m.report = some (r, row.raw, row.correlationId, items) := by
  unfold putManifestSimple at h
  obtain ⟨_, _, g1, h⟩ := M.bind_ok.1 h
  simp only [gets_eq, Prod.mk.injEq, Except.ok.injEq, id] at g1
  obtain ⟨rfl, rfl⟩ := g1
  rw [if_neg (by simp [hp])] at h
  obtain ⟨m, d1, g2, h⟩ := M.bind_ok.1 h
  obtain ⟨ok, d2, g3, h⟩ := M.bind_ok.1 h
  simp only [ask_eq, Prod.mk.injEq, Except.ok.injEq] at g3
  obtain ⟨g3, rfl⟩ := g3
  obtain ⟨_, d3, g4, h⟩ := M.bind_ok.1 h
  obtain ⟨s1, _, _, n1, s4, _⟩ := (assembleManifest_still env p).of_eq g2
  have k4 : d3.log = d1.log ++ [.sent m ok] ∧ d3.cl.devResult = d1.cl.devResult := by
    unfold act at g4
    split at g4
    · simp at g4
    · simp only [Prod.mk.injEq] at g4
      obtain ⟨_, rfl⟩ := g4
      exact ⟨rfl, rfl⟩
  have rep : ∀ row, d.cl.devResult = some row → ∃ r items, row.result.read = .ok r ∧ m.report = some (r, row.raw, row.correlationId, items) := by
    intro row hrow
    obtain ⟨r, items, k1, k2, _⟩ := assembleManifest_reports g2 hrow
    exact ⟨r, items, k1, k2⟩
  cases ok with
  | true =>
    rw [if_pos rfl] at h
    obtain ⟨_, d4, g5, h⟩ := M.bind_ok.1 h
    obtain ⟨cl4, _, rfl⟩ := inClient_ok.1 g5
    simp only [pure_eq, Prod.mk.injEq, Except.ok.injEq] at h
    obtain ⟨rfl, rfl⟩ := h
    exact ⟨n1, m, by show d3.log = _; rw [k4.1, s4], by simp, rep⟩
  | false =>
    rw [if_neg (by simp)] at h
    simp only [pure_eq, Prod.mk.injEq, Except.ok.injEq] at h
    obtain ⟨rfl, rfl⟩ := h
    exact ⟨n1, m, by rw [k4.1, s4], fun _ => by rw [k4.2, s1], rep⟩

theorem reportedAtEnd {env : Env} {p : Peers} {d d' : Dev} {b : Bool} {row : DeviceRow} {r : InstResult}
    (h : putManifestSimple env p d = (.ok b, d')) (hp : d.cl.hasPendingUpdates = false) (hrow : d.cl.devResult = some row)
    (hr : StoredAs row.result r) : ReportedAtEnd r d d' := by
  obtain ⟨new, m, h1, h2, h3⟩ := putManifestSimple_sends h hp
  obtain ⟨r', items, h4, h5⟩ := h3 row hrow
  exact ⟨new, m, b, h1, ⟨r', _, _, items, h5, read_stored hr h4⟩, fun hb => ⟨row, by rw [h2 hb, hrow], hr⟩⟩

/-! ### Storing -/

/-- The recorded versions are the same. -/
def SameV (a b : Client) : Prop := b.v = a.v

theorem sameV_cl : ClPre SameV := ⟨⟨fun _ => rfl, fun _ _ _ h1 h2 => Eq.trans h2 h1⟩, fun _ _ => rfl⟩

theorem storeDeviceResult_ok {r : InstResult} {raw cid : String} {cl cl' : Client} {u : Unit}
    (h : storeDeviceResult r raw cid cl = (.ok u, cl')) :
    ∃ row, r.toRow = .ok row ∧ cl'.devResult = some ⟨row, raw, cid⟩ ∧ cl'.v = cl.v := by
  unfold storeDeviceResult at h
  obtain ⟨row, cl1, g1, h⟩ := M.bind_ok.1 h
  simp only [lift_eq, Prod.mk.injEq] at g1
  obtain ⟨g1, rfl⟩ := g1
  unfold cwrite at h
  split at h
  · simp at h
  · simp only [Prod.mk.injEq] at h
    obtain ⟨_, rfl⟩ := h
    exact ⟨row, g1, rfl, rfl⟩

theorem storeInstallationFailure_ok {r : InstResult} {cl cl' : Client} {u : Unit} (h : storeInstallationFailure r cl = (.ok u, cl')) :
    ∃ row, r.toRow = .ok row ∧ (∃ cid, cl'.devResult = some ⟨row, "", cid⟩) ∧ cl'.v = cl.v := by
  unfold storeInstallationFailure at h
  obtain ⟨_, _, g1, h⟩ := M.bind_ok.1 h
  simp only [gets_eq, Prod.mk.injEq, Except.ok.injEq, id] at g1
  obtain ⟨rfl, rfl⟩ := g1
  obtain ⟨_, cl1, g2, h⟩ := M.bind_ok.1 h
  obtain ⟨row, k1, k2, k3⟩ := storeDeviceResult_ok g2
  obtain ⟨w, _, rfl⟩ := inWorld_ok.1 h
  exact ⟨row, k1, ⟨_, k2⟩, k3⟩

/-! ### What the check leaves behind -/

theorem fetchMeta_offers {c : Ctx} {p : Peers} {d d' : Dev} {r : UpdateCheck} (h : fetchMeta c p d = (.ok r, d'))
    (hm : r.updates ≠ [] ∨ r.message = "Target mismatch.") :
    d'.cl.hasPendingUpdates = false ∧ ∃ (d1 : Dev) (cl' : Client), checkUpdates c d1.cl = (.ok r, cl') ∧ d' = { d1 with cl := cl' } := by
  unfold fetchMeta at h
  obtain ⟨_, _, g1, h⟩ := M.bind_ok.1 h
  simp only [gets_eq, Prod.mk.injEq, Except.ok.injEq, id] at g1
  obtain ⟨rfl, rfl⟩ := g1
  have key : ∀ d0, (do
        let d ← gets id
        if d.cl.hasPendingUpdates then
          pure ⟨[], 0, .error, .null, "There are pending updates, no new updates are checked"⟩
        else do
          let _ ← putManifestSimple c.env p
          inClient (checkUpdates c) : D UpdateCheck) d0 = (.ok r, d') →
      d'.cl.hasPendingUpdates = false ∧ ∃ (d1 : Dev) (cl' : Client), checkUpdates c d1.cl = (.ok r, cl') ∧ d' = { d1 with cl := cl' } := by
    intro d0 h
    obtain ⟨_, _, g1, h⟩ := M.bind_ok.1 h
    simp only [gets_eq, Prod.mk.injEq, Except.ok.injEq, id] at g1
    obtain ⟨rfl, rfl⟩ := g1
    split at h
    · simp only [pure_eq, Prod.mk.injEq, Except.ok.injEq] at h
      obtain ⟨rfl, _⟩ := h
      rcases hm with hm | hm
      · exact absurd rfl hm
      · simp at hm
    next hp =>
    obtain ⟨_, d1, g2, h⟩ := M.bind_ok.1 h
    obtain ⟨cl', g3, rfl⟩ := inClient_ok.1 h
    refine ⟨?_, d1, cl', g3, rfl⟩
    have e1 : d1.cl.v = d0.cl.v := by
      rcases putManifestSimple_cases g2 with k | ⟨_, m, ok, d2, k1, _, k3, _⟩
      · exact k.2.2.1
      · rw [k3]; exact ((assembleManifest_still c.env p).of_eq k1).2.2.1
    have e2 : cl'.v = d1.cl.v := (sameV_cl.checkUpdates (fun _ _ => rfl) c).of_eq g3
    show cl'.v.hasPendingInstall = false
    rw [e2, e1]
    exact Bool.eq_false_iff.2 hp
  split at h
  · obtain ⟨_, d0, _, h⟩ := M.bind_ok.1 h
    exact key d0 h
  · exact key d h

theorem downloadImages_v (c : Ctx) (f : Fetched) (ts : List Target) : Preserves (fun a b : Dev => b.cl.v = a.cl.v) (downloadImages c f ts) := by
  have hpre : IsPre (fun a b : Dev => b.cl.v = a.cl.v) := ⟨fun _ => rfl, fun _ _ _ h1 h2 => Eq.trans h2 h1⟩
  have hc : ∀ {α : Type} {m : C α}, Preserves SameV m → Preserves (fun a b : Dev => b.cl.v = a.cl.v) (inClient m) := fun hm d => hm d.cl
  have hs : ∀ r, Preserves SameV (storeInstallationFailure r) := by
    intro r
    unfold storeInstallationFailure
    wpres sameV_cl.pre
    · exact sameV_cl.storeDeviceResult (fun _ _ => rfl) _ _ _
    · exact sameV_cl.inWorld _
  have he : ∀ ts, Preserves (fun a b : Dev => b.cl.v = a.cl.v) (downloadEach f ts) := by
    intro ts
    induction ts with
    | nil => exact .pure hpre
    | cons t ts ih =>
      unfold downloadEach
      wpres hpre
      exact fun _ => rfl
  unfold downloadImages downloadResult recheck
  wpres hpre
  all_goals first
    | exact hc (.catchStd sameV_cl.pre (sameV_cl.checkUpdatesOffline _ _) (fun _ => .pure sameV_cl.pre))
    | exact hc (hs _)
    | exact he _

/-! ### Targets in use and stored Targets -/

theorem updateMeta_stored {c : Ctx} {w w' : World} (h : Director.updateMeta c w = (.ok (), w')) :
    (∃ raw, Stored w'.db .director .targets raw ∧ ReadsAsTargets c.env raw w'.dir.targets) ∨
    (∃ raw v n, c.net n .director "targets" (-1) = some raw ∧ extractVersionUntrusted c.env raw = .ok v ∧
      ReadsAsTargets c.env raw w'.dir.targets ∧
      ((∃ stored, Stored w'.db .director .targets stored ∧ extractVersionUntrusted c.env stored = .ok v) ∨ v ≤ -1)) := by
  obtain ⟨w1, raw, hs⟩ := Director.updateMeta_success h
  rcases hs.used with hu | ⟨_, _, hdb, stored, h1, h2⟩
  swap_goal
  · exact .inl ⟨stored, hdb ▸ h1, (Targets.ofJsonSigned_ok properTargets h2).2.2⟩
  have hreads : ReadsAsTargets c.env raw w'.dir.targets := by
    rw [hu]; exact (Targets.ofJsonSigned_ok properTargets hs.latest).2.2
  unfold Director.updateMeta at h
  simp only [M.bind_ok] at h
  obtain ⟨_, w0, h0, _, w1', h1, raw', w2, h2, vr, w3, h3, vl, w4, h4, _, w5, h5, _, w6, h6, _, w7, h7, h8⟩ := h
  simp only [Director.resetMeta, modify_eq, Prod.mk.injEq, true_and] at h0
  subst h0
  have e1 := hs.rootOk.symm.trans h1
  cases e1
  obtain ⟨hsv, _, rfl⟩ := fetchRole_ok h2
  have e2 := hs.served.symm.trans hsv
  cases e2
  simp only [lift_eq, Prod.mk.injEq] at h3
  obtain ⟨h3, rfl⟩ := h3
  have hdb4 : w4.db = w1.db := by
    rcases Director.loadStored_cases h4 with ⟨_, _, rfl⟩ | ⟨stored, _, _, rfl | ⟨ts', _, rfl⟩⟩ <;> rfl
  have hdb5 : w5.db = w1.db := by
    rcases Director.verifyTargets_cases h5 with ⟨ts, _, _, rfl⟩ | ⟨e, he, _⟩
    · exact hdb4
    · simp at he
  have hd7 : w7.db = w6.db := by
    unfold Director.checkTargetsExpired at h7
    simp only [M.bind_ok, gets_eq, Prod.mk.injEq, Except.ok.injEq, now, throwWhen_ok] at h7
    obtain ⟨_, _, ⟨rfl, rfl⟩, _, _, ⟨rfl, rfl⟩, _, rfl⟩ := h7
    rfl
  have hd8 : w' = w7 := by
    unfold Director.targetsSanityCheck at h8
    simp only [M.bind_ok, gets_eq, Prod.mk.injEq, Except.ok.injEq, throwWhen_ok] at h8
    obtain ⟨_, _, ⟨rfl, rfl⟩, _, _, ⟨_, rfl⟩, _, rfl⟩ := h8
    rfl
  have hdir : w6.dir = w5.dir ∧ w'.dir = w6.dir := by
    unfold Director.checkTargetsExpired at h7
    simp only [M.bind_ok, gets_eq, Prod.mk.injEq, Except.ok.injEq, now, throwWhen_ok] at h7
    obtain ⟨_, _, ⟨rfl, rfl⟩, _, _, ⟨rfl, rfl⟩, _, rfl⟩ := h7
    refine ⟨?_, by rw [hd8]⟩
    unfold Director.compareAndStore at h6
    simp only [M.bind_ok, gets_eq, Prod.mk.injEq, Except.ok.injEq] at h6
    obtain ⟨d, w5', ⟨rfl, rfl⟩, h6⟩ := h6
    simp only [ite_app] at h6
    split at h6
    · simp at h6
    split at h6
    · rcases write_cases h6 with ⟨_, _, hd, _⟩ | ⟨h6, _⟩
      · exact hd
      · simp at h6
    · simp at h6
      rw [h6]
  unfold Director.compareAndStore at h6
  simp only [M.bind_ok, gets_eq, Prod.mk.injEq, Except.ok.injEq] at h6
  obtain ⟨d, w5', ⟨rfl, rfl⟩, h6⟩ := h6
  simp only [ite_app] at h6
  split at h6
  · simp at h6
  rename_i hle
  split at h6
  · rcases write_cases h6 with ⟨_, hw, _⟩ | ⟨h6, _⟩
    · refine .inl ⟨raw, ?_, hreads⟩
      rw [hd8, hd7, hw]
      exact stored_storeNonRoot _ _ _ _
    · simp at h6
  · rename_i hlt
    simp at h6
    subst h6
    refine .inr ⟨raw, vr, _, hsv, h3, hreads, ?_⟩
    have hlt' : ¬ vl < vr ∨ Director.usePreviousTargets w5.dir = true := by
      simp only [Bool.and_eq_true, Bool.not_eq_true', decide_eq_true_eq, not_and, Bool.not_eq_false] at hlt
      by_cases hv : vl < vr
      · exact .inr (hlt hv)
      · exact .inl hv
    rcases hlt' with hv | hprev
    swap_goal
    · -- the previous Targets would be in use
      exfalso
      have e3 : w'.dir = w5.dir := hdir.2
      unfold Director.usePreviousTargets at hprev
      rw [← e3, hu] at hprev
      simp at hprev
    have hve : vl = vr := by omega
    rcases Director.loadStored_cases h4 with ⟨_, rfl, _⟩ | ⟨stored, h1, h2, _⟩
    · exact .inr (by omega)
    · refine .inl ⟨stored, ?_, hve ▸ h2⟩
      rw [hd8, hd7, hdb5]
      exact h1

/-- The relation between databases that have the same Director Targets. -/
def SameDirTargetsDb (a b : MetaDb) : Prop := b.latestOf .director .targets = a.latestOf .director .targets

theorem sameDirTargetsDb_pre : DbPre SameDirTargetsDb := ⟨fun _ => rfl, fun _ _ _ h1 h2 => Eq.trans h2 h1⟩

theorem imageMeta_sameDirTargets (c : Ctx) : Preserves (onDb SameDirTargetsDb) (Image.updateMeta c) := by
  refine Image.updateMeta_pres sameDirTargetsDb_pre c (updateRoot_pres sameDirTargetsDb_pre c _ ?_ ?_) ?_
  · intro d raw v
    unfold SameDirTargetsDb
    rw [MetaDb.latestOf_only, MetaDb.latestOf_only, MetaDb.only_storeRoot_other _ _ _ (by simp)]
  · intro d
    unfold SameDirTargetsDb
    rw [MetaDb.latestOf_only, MetaDb.latestOf_only, MetaDb.only_clearNonRoot_other _ _ (by simp)]
  · intro d raw t ht
    unfold SameDirTargetsDb
    rw [MetaDb.latestOf_only, MetaDb.latestOf_only, MetaDb.only_storeNonRoot_other _ _ (by simp)]

theorem clSameDirTargets_pre : IsPre (clDb SameDirTargetsDb) :=
  ⟨fun _ => sameDirTargetsDb_pre.refl _, fun _ _ _ h1 h2 => sameDirTargetsDb_pre.trans _ _ _ h1 h2⟩

theorem matchLoop_sameDirTargets (c : Ctx) : ∀ ts, Preserves (clDb SameDirTargetsDb) (matchLoop c ts)
  | [] => .pure clSameDirTargets_pre
  | t :: ts => by
    have ih := matchLoop_sameDirTargets c ts
    have hpre := clSameDirTargets_pre
    unfold matchLoop
    wpres hpre
    exact fun cl => Delegation.findInTree_pres sameDirTargetsDb_pre c t false (fun _ _ _ => rfl) (fun _ _ => rfl) cl.w

/-- If the Director numbers its Targets, those that offered an update are the stored ones. -/
theorem targetsInUseStored {c : Ctx} {cl cl' : Client} {r : UpdateCheck} (h : checkUpdates c cl = (.ok r, cl')) (hne : r.updates ≠ [])
    (hn : NumbersTargets c cl'.w.db) : TargetsInUseStored c.env cl' := by
  have hne' : r.status ≠ .error := checkUpdates_status h hne
  obtain ⟨w1, news, n, hdm, hn1, ⟨_, hr', _⟩ | ⟨hnews, _, _, w2, hi, hm⟩⟩ := checkUpdates_ok h hne'
  · exact absurd hr' hne
  have hdir : cl'.w.dir = w1.dir := by
    obtain ⟨_, rawTop, top, rawS, hT⟩ := check_trusted hdm hi (steady_pre.refl _)
    obtain ⟨st, ⟨w3, hw3⟩, _⟩ := matchLoop_ok hT.2.2.1 (cl := { cl with w := w2 }) hT.2.1 hT.2.2.2.2.1 hm
    rw [hw3] at st ⊢
    exact Eq.trans st.2.1 ((Image.updateMeta_keepsDir c).of_eq hi).1
  have hdb : cl'.w.db.latestOf .director .targets = w1.db.latestOf .director .targets :=
    Eq.trans ((matchLoop_sameDirTargets c news).of_eq hm) ((imageMeta_sameDirTargets c).of_eq hi)
  have hsto : ∀ raw, Stored w1.db .director .targets raw → Stored cl'.w.db .director .targets raw := by
    rintro raw ⟨row, h1, h2⟩
    exact ⟨row, hdb.trans h1, h2⟩
  rcases updateMeta_stored hdm with ⟨raw, h1, h2⟩ | ⟨raw, v, k, h1, h2, h3, h4⟩
  · exact ⟨raw, hsto raw h1, hdir ▸ h2⟩
  obtain ⟨v', h5, h6, h7⟩ := hn k raw h1
  have : v = v' := by simpa using h2.symm.trans h6.extract
  subst this
  rcases h4 with ⟨stored, h8, h9⟩ | h4
  · have : stored = raw := h7 stored (hsto _ h8) (extract_states h9 (by omega))
    subst this
    exact ⟨_, hsto _ h8, hdir ▸ h3⟩
  · omega

/-! ### Downloads -/

/-- How a download ends: nothing to do, everything obtained, or a stored failure. -/
theorem downloadImages_cases {c : Ctx} {f : Fetched} {ts : List Target} {d d' : Dev} {r : Downloaded}
    (h : downloadImages c f ts d = (.ok r, d')) :
    (r.status = .nothing ∧ recheck c ts d = (.ok .noUpdates, d')) ∨
    (r.status = .success ∧ r.updates = ts ∧ ∀ t ∈ ts, ∃ n, f n t = true) ∨
    ((r.status = .error ∨ r.status = .partialSuccess) ∧ ∃ res row, (res = .ofCode .downloadFailed "Target download failed." ∨
        res = .ofCode .internalError "Error rechecking stored metadata.") ∧
      d'.cl.devResult = some row ∧ StoredAs row.result res) := by
  have hsucc := fun hs => downloadImages_success h hs
  unfold downloadImages at h
  obtain ⟨s, d1, g1, h⟩ := M.bind_ok.1 h
  cases s with
  | noUpdates =>
    simp only [pure_eq, Prod.mk.injEq, Except.ok.injEq] at h
    obtain ⟨rfl, rfl⟩ := h
    exact .inl ⟨rfl, g1⟩
  | error =>
    obtain ⟨_, d2, g2, h⟩ := M.bind_ok.1 h
    simp only [pure_eq, Prod.mk.injEq, Except.ok.injEq] at h
    obtain ⟨rfl, rfl⟩ := h
    obtain ⟨cl', g3, rfl⟩ := inClient_ok.1 g2
    obtain ⟨row, k1, ⟨cid, k2⟩, _⟩ := storeInstallationFailure_ok g3
    exact .inr (.inr ⟨.inl rfl, _, _, .inr rfl, k2, k1, by decide, by decide⟩)
  | available =>
    obtain ⟨got, d2, g2, h⟩ := M.bind_ok.1 h
    unfold downloadResult at h
    split at h
    · simp only [pure_eq, Prod.mk.injEq, Except.ok.injEq] at h
      obtain ⟨rfl, _⟩ := h
      exact .inr (.inl ⟨rfl, hsucc rfl⟩)
    · obtain ⟨_, d3, g3, h⟩ := M.bind_ok.1 h
      simp only [pure_eq, Prod.mk.injEq, Except.ok.injEq] at h
      obtain ⟨rfl, rfl⟩ := h
      obtain ⟨cl', g4, rfl⟩ := inClient_ok.1 g3
      obtain ⟨row, k1, ⟨cid, k2⟩, _⟩ := storeInstallationFailure_ok g4
      refine .inr (.inr ⟨?_, _, _, .inl rfl, k2, k1, by decide, by decide⟩)
      show (if got.isEmpty = true then DownloadStatus.error else DownloadStatus.partialSuccess) = _ ∨ (if got.isEmpty = true then DownloadStatus.error else DownloadStatus.partialSuccess) = _
      split
      · exact .inl rfl
      · exact .inr rfl

theorem ecuLoop_congr {env : Env} {a b : Client} (h1 : a.v = b.v) (h2 : a.primary = b.primary) (h3 : a.primaryHw = b.primaryHw)
    (h4 : a.secondaries = b.secondaries) (h5 : a.ostree = b.ostree) (t : Target) :
    ∀ l isNew n, ecuLoop env a t l isNew n = ecuLoop env b t l isNew n
  | [], _, _ => rfl
  | (s, hw) :: l, isNew, n => by
    unfold ecuLoop
    simp only [Client.getEcuHwId, h1, h2, h3, h4, h5, ecuLoop_congr h1 h2 h3 h4 h5 t l]

theorem targetLoop_congr {env : Env} {a b : Client} (h1 : a.v = b.v) (h2 : a.primary = b.primary) (h3 : a.primaryHw = b.primaryHw)
    (h4 : a.secondaries = b.secondaries) (h5 : a.ostree = b.ostree) : ∀ ts n, targetLoop env a ts n = targetLoop env b ts n
  | [], _ => rfl
  | t :: ts, n => by
    unfold targetLoop
    simp only [ecuLoop_congr h1 h2 h3 h4 h5, targetLoop_congr h1 h2 h3 h4 h5 ts]

/-- `inWorld` code leaves everything but the metadata alone. -/
def SameRest (a b : Client) : Prop :=
  b.v = a.v ∧ b.primary = a.primary ∧ b.primaryHw = a.primaryHw ∧ b.secondaries = a.secondaries ∧ b.ostree = a.ostree

theorem sameRest_cl : ClPre SameRest :=
  ⟨⟨fun _ => ⟨rfl, rfl, rfl, rfl, rfl⟩, fun _ _ _ ⟨h1, h2, h3, h4, h5⟩ ⟨g1, g2, g3, g4, g5⟩ =>
    ⟨g1.trans h1, g2.trans h2, g3.trans h3, g4.trans h4, g5.trans h5⟩⟩, fun _ _ => ⟨rfl, rfl, rfl, rfl, rfl⟩⟩

/-- What was offered is still new when the stored metadata is looked at again, provided this is the
metadata it was taken from. -/
theorem recheck_not_nothing {c : Ctx} {cl cl' : Client} {r : UpdateCheck} (h : checkUpdates c cl = (.ok r, cl')) (hne : r.updates ≠ [])
    (hst : TargetsInUseStored c.env cl') {d d' : Dev} (hcl : d.cl = cl') (ts : List Target) : recheck c ts d ≠ (.ok .noUpdates, d') := by
  intro hx
  subst hcl
  unfold recheck at hx
  obtain ⟨cl1, hx, _⟩ := inClient_ok.1 hx
  rcases catchStd_ok.1 hx with hx | ⟨_, _, _, _, hx⟩
  swap_goal
  · simp at hx
  unfold checkUpdatesOffline at hx
  obtain ⟨_, _, g1, hx⟩ := M.bind_ok.1 hx
  simp only [gets_eq, Prod.mk.injEq, Except.ok.injEq, id] at g1
  obtain ⟨rfl, rfl⟩ := g1
  split at hx
  · simp at hx
  split at hx
  · simp at hx
  obtain ⟨rn, cl2, g2, hx⟩ := M.bind_ok.1 hx
  unfold uptaneOfflineIteration at g2
  obtain ⟨_, cl3, g3, g2⟩ := M.bind_ok.1 g2
  obtain ⟨wd, hd, rfl⟩ := inWorld_ok.1 g3
  obtain ⟨_, _, g4, g2⟩ := M.bind_ok.1 g2
  simp only [gets_eq, Prod.mk.injEq, Except.ok.injEq, id] at g4
  obtain ⟨rfl, rfl⟩ := g4
  obtain ⟨rn', _, g5, g2⟩ := M.bind_ok.1 g2
  simp only [lift_eq, Prod.mk.injEq] at g5
  obtain ⟨hn, rfl⟩ := g5
  -- the same Targets
  obtain ⟨rawD, hv⟩ := C25_director c _ _ hd
  have hdb : wd.db = d.cl.w.db := by
    have : Preserves (onDb Eq) (Director.checkMetaOffline c) := Director.checkMetaOffline_pres ⟨fun _ => rfl, fun _ _ _ h1 h2 => h1.trans h2⟩ c
    exact (this.of_eq hd).symm
  obtain ⟨raw, hs, hr⟩ := hst
  have heq : rawD = raw := (hdb ▸ hv.stored : Stored d.cl.w.db .director .targets rawD).unique hs
  subst heq
  have htg : wd.dir.targets = d.cl.w.dir.targets := by
    obtain ⟨v1, e1, a1, b1⟩ := hv.reads
    obtain ⟨v2, e2, a2, b2⟩ := hr
    rw [a1] at a2
    cases a2
    rw [b1] at b2
    exact Except.ok.inj b2
  -- nothing new in them is a contradiction
  have hne' : r.status ≠ .error := checkUpdates_status h hne
  obtain ⟨w1, news, n, hdm, hn1, ⟨_, hr', _⟩ | ⟨hnews, _, _, w2, hi, hm⟩⟩ := checkUpdates_ok h hne'
  · exact hne hr'
  have hdir : d.cl.w.dir = w1.dir := by
    obtain ⟨_, rawTop, top, rawS, hT⟩ := check_trusted hdm hi (steady_pre.refl _)
    obtain ⟨st, ⟨w3, hw3⟩, _⟩ := matchLoop_ok hT.2.2.1 (cl := { cl with w := w2 }) hT.2.1 hT.2.2.2.2.1 hm
    rw [hw3] at st ⊢
    exact Eq.trans st.2.1 ((Image.updateMeta_keepsDir c).of_eq hi).1
  have hsame : SameRest cl d.cl := (sameRest_cl.checkUpdates (fun _ _ => ⟨rfl, rfl, rfl, rfl, rfl⟩) c).of_eq h
  unfold Client.getNewTargets at hn hn1
  simp only [htg, hdir] at hn hn1
  rw [targetLoop_congr (a := { d.cl with w := wd }) (b := { cl with w := w1 }) hsame.1 hsame.2.1 hsame.2.2.1 hsame.2.2.2.1 hsame.2.2.2.2, hn1] at hn
  cases hn
  rw [if_neg (by simpa using hnews)] at g2
  obtain ⟨_, cl5, _, g2⟩ := M.bind_ok.1 g2
  simp only [pure_eq, Prod.mk.injEq, Except.ok.injEq] at g2
  obtain ⟨rfl, _⟩ := g2
  rw [if_neg (by simpa using hnews)] at hx
  obtain ⟨_, cl6, _, hx⟩ := M.bind_ok.1 hx
  simp at hx

/-! ### Installations -/

/-- A number that the database can hold. -/
def Fits (r : InstResult) : Prop := -2147483648 ≤ r.code.num ∧ r.code.num ≤ 2147483647

theorem fits_code {code : ResultCode} {s : String} (h1 : -2147483648 ≤ code.num) (h2 : code.num ≤ 2147483647) : Fits (.ofCode code s) := ⟨h1, h2⟩

theorem computeDeviceResult_fits {cl : Client} {r : InstResult × String} (h : cl.computeDeviceResult = .ok r) : Fits r.1 := by
  obtain ⟨res, raw⟩ := r
  rcases computeDeviceResult_ok h with ⟨_, rfl⟩ | ⟨_, _, _, _, _, _, _, _, _, _, h6⟩
  · exact fits_code (by decide) (by decide)
  · rcases h6 with ⟨_, rfl⟩ | ⟨_, _, rfl⟩ | ⟨_, _, _, _, _, rfl⟩ | ⟨_, _, _, _, _, _, rfl⟩
    · exact ⟨by show (_ : Int) ≤ 4; decide, by show (4 : Int) ≤ _; decide⟩
    · exact fits_code (by decide) (by decide)
    · exact fits_code (by decide) (by decide)
    · exact ⟨by show (_ : Int) ≤ 21; decide, by show (21 : Int) ≤ _; decide⟩

theorem installBody_fits {c : Ctx} {p : Peers} {ts : List Target} {d d' : Dev} {r : InstallReport × String}
    (h : installBody c p ts d = (.ok r, d')) : Fits r.1.device := by
  unfold installBody at h
  obtain ⟨s, d1, _, h⟩ := M.bind_ok.1 h
  cases s with
  | noUpdates =>
    simp only [pure_eq, Prod.mk.injEq, Except.ok.injEq] at h
    obtain ⟨rfl, _⟩ := h
    exact ⟨by decide, by decide⟩
  | error =>
    simp only [pure_eq, Prod.mk.injEq, Except.ok.injEq] at h
    obtain ⟨rfl, _⟩ := h
    exact ⟨by decide, by decide⟩
  | available =>
    obtain ⟨good, d2, _, h⟩ := M.bind_ok.1 h
    split at h
    · simp only [pure_eq, Prod.mk.injEq, Except.ok.injEq] at h
      obtain ⟨rfl, _⟩ := h
      exact ⟨by decide, by decide⟩
    unfold installVerified at h
    obtain ⟨ok, d3, _, h⟩ := M.bind_ok.1 h
    split at h
    · simp only [pure_eq, Prod.mk.injEq, Except.ok.injEq] at h
      obtain ⟨rfl, _⟩ := h
      exact ⟨by decide, by decide⟩
    obtain ⟨m, d4, g4, h⟩ := M.bind_ok.1 h
    split at h
    · simp only [pure_eq, Prod.mk.injEq, Except.ok.injEq] at h
      obtain ⟨rfl, _⟩ := h
      unfold sendMetadataToEcus at g4
      obtain ⟨failed, d5, _, g4⟩ := M.bind_ok.1 g4
      split at g4
      · simp only [pure_eq, Prod.mk.injEq, Except.ok.injEq] at g4
        obtain ⟨rfl, _⟩ := g4
        exact ⟨by decide, by decide⟩
      · simp only [pure_eq, Prod.mk.injEq, Except.ok.injEq] at g4
        obtain ⟨rfl, _⟩ := g4
        exact ⟨by show (_ : Int) ≤ 3; decide, by show (3 : Int) ≤ _; decide⟩
    obtain ⟨_, d5, _, h⟩ := M.bind_ok.1 h
    obtain ⟨_, d6, _, h⟩ := M.bind_ok.1 h
    obtain ⟨_, _, g7, h⟩ := M.bind_ok.1 h
    simp only [gets_eq, Prod.mk.injEq, Except.ok.injEq, id] at g7
    obtain ⟨rfl, rfl⟩ := g7
    obtain ⟨res, _, g8, h⟩ := M.bind_ok.1 h
    simp only [lift_eq, Prod.mk.injEq] at g8
    obtain ⟨g8, rfl⟩ := g8
    simp only [pure_eq, Prod.mk.injEq, Except.ok.injEq] at h
    obtain ⟨rfl, _⟩ := h
    exact computeDeviceResult_fits g8

theorem uptaneInstall_stores {c : Ctx} {p : Peers} {ts : List Target} {d d' : Dev} {rep : InstallReport}
    (h : uptaneInstall c p ts d = (.ok rep, d')) : ∃ row, d'.cl.devResult = some row ∧ StoredAs row.result rep.device := by
  unfold uptaneInstall at h
  obtain ⟨r, d1, g1, h⟩ := M.bind_ok.1 h
  obtain ⟨_, _, g2, h⟩ := M.bind_ok.1 h
  simp only [gets_eq, Prod.mk.injEq, Except.ok.injEq, id] at g2
  obtain ⟨rfl, rfl⟩ := g2
  obtain ⟨_, d2, g3, h⟩ := M.bind_ok.1 h
  simp only [pure_eq, Prod.mk.injEq, Except.ok.injEq] at h
  obtain ⟨rfl, rfl⟩ := h
  obtain ⟨cl', g4, rfl⟩ := inClient_ok.1 g3
  obtain ⟨row, k1, k2, _⟩ := storeDeviceResult_ok g4
  have := installBody_fits g1
  exact ⟨_, k2, k1, this.1, this.2⟩

/-! ### C59 -/

theorem getPendingEcus_nil {db : VersionDb} (h : db.hasPendingInstall = false) : db.getPendingEcus = .ok [] := by
  unfold VersionDb.hasPendingInstall at h
  unfold VersionDb.getPendingEcus
  rw [List.filter_eq_nil_iff.2 (by simpa using h)]
  rfl

/-- C59, installations. If a cycle in which the images of all offered updates were obtained ends normally, an
installation of all of them has been tried, and when nothing is pending afterwards, the cycle ends with
a manifest that reports how it went (kept for later when the server does not acknowledge it). While
something is pending, nothing is sent: the result is not known yet. -/
theorem C59_installation_reported (c : Ctx) (p : Peers) (f : Fetched) (force : Bool) (d d' d1 d2 : Dev) (b : Bool) (r : UpdateCheck) (got : Downloaded)
    (h : uptaneCycle c p f force d = (.ok b, d')) (h1 : fetchMeta c p d = (.ok r, d1)) (hne : r.updates ≠ [])
    (h2 : downloadImages c f r.updates d1 = (.ok got, d2)) (hs : got.status = .success) :
    ∃ rep d3, uptaneInstall c p r.updates d2 = (.ok rep, d3) ∧
      (d3.cl.hasPendingUpdates = true → d' = d3) ∧
      (d3.cl.hasPendingUpdates = false → ReportedAtEnd rep.device d3 d') := by
  unfold uptaneCycle at h
  rw [run_bind h1] at h
  unfold cycleDownload at h
  rw [if_neg (by simpa using hne), run_bind h2] at h
  obtain ⟨hall, _⟩ := downloadImages_success h2 hs
  unfold cycleInstall at h
  rw [if_neg (by simp [hs, hall, hne]), hall] at h
  obtain ⟨rep, d3, g3, h⟩ := M.bind_ok.1 h
  refine ⟨rep, d3, g3, ?_⟩
  unfold cycleEnd at h
  obtain ⟨need, d4, g4, h⟩ := M.bind_ok.1 h
  unfold completionRequired at g4
  obtain ⟨_, _, g5, g4⟩ := M.bind_ok.1 g4
  simp only [gets_eq, Prod.mk.injEq, Except.ok.injEq, id] at g5
  obtain ⟨rfl, rfl⟩ := g5
  obtain ⟨l, _, g6, g4⟩ := M.bind_ok.1 g4
  simp only [lift_eq, Prod.mk.injEq] at g6
  obtain ⟨g6, rfl⟩ := g6
  simp only [pure_eq, Prod.mk.injEq, Except.ok.injEq] at g4
  obtain ⟨rfl, rfl⟩ := g4
  split at h
  · next hneed =>
    simp only [pure_eq, Prod.mk.injEq, Except.ok.injEq] at h
    obtain ⟨_, rfl⟩ := h
    refine ⟨fun _ => rfl, fun hp => ?_⟩
    rw [getPendingEcus_nil hp] at g6
    cases g6
    simp at hneed
  · obtain ⟨_, _, g7, h⟩ := M.bind_ok.1 h
    simp only [gets_eq, Prod.mk.injEq, Except.ok.injEq, id] at g7
    obtain ⟨rfl, rfl⟩ := g7
    split at h
    · next hp =>
      simp only [pure_eq, Prod.mk.injEq, Except.ok.injEq] at h
      obtain ⟨_, rfl⟩ := h
      exact ⟨fun _ => rfl, fun hc => by rw [hp] at hc; cases hc⟩
    · next hp =>
      obtain ⟨ok, d5, g8, h⟩ := M.bind_ok.1 h
      simp only [pure_eq, Prod.mk.injEq, Except.ok.injEq] at h
      obtain ⟨_, rfl⟩ := h
      refine ⟨fun hc => absurd hc hp, fun hc => ?_⟩
      obtain ⟨row, k1, k2⟩ := uptaneInstall_stores g3
      exact reportedAtEnd g8 hc k1 k2

/-- C59, downloads. If in a cycle that ends normally some image of an offered update cannot be obtained at
any time, no ECU is touched and the cycle ends with a manifest that reports a failure.

Partial: this supposes that the Director changes its Targets only together with their version number.
Otherwise nothing may be reported, see `C59_same_version_unreported`. -/
theorem C59_failed_download_partial (c : Ctx) (p : Peers) (f : Fetched) (force : Bool) (d d' d1 : Dev) (b : Bool) (r : UpdateCheck)
    (h : uptaneCycle c p f force d = (.ok b, d')) (h1 : fetchMeta c p d = (.ok r, d1))
    (t : Target) (ht : t ∈ r.updates) (hf : ∀ n, f n t = false) (hnum : NumbersTargets c d1.cl.w.db) :
    Quietly d d' ∧ ∃ res : InstResult, res.success = false ∧ ReportedAtEnd res d d' := by
  have hne : r.updates ≠ [] := List.ne_nil_of_mem ht
  obtain ⟨hp, d0, cl', hcheck, hd1⟩ := fetchMeta_offers h1 (.inl hne)
  unfold uptaneCycle at h
  rw [run_bind h1] at h
  unfold cycleDownload at h
  rw [if_neg (by simpa using hne)] at h
  obtain ⟨got, d2, h2, h⟩ := M.bind_ok.1 h
  have hcl : d1.cl = cl' := by rw [hd1]
  rcases downloadImages_cases h2 with ⟨_, hx⟩ | ⟨_, _, hall⟩ | ⟨hbad, res, row, hres, hrow, hsto⟩
  · exact absurd hx (recheck_not_nothing hcheck hne (targetsInUseStored hcheck hne (hcl ▸ hnum)) hcl _)
  · obtain ⟨n, hn⟩ := hall t ht
    rw [hf n] at hn; cases hn
  unfold cycleInstall at h
  rw [if_pos (.inl (by rcases hbad with h | h <;> rw [h] <;> simp)), if_pos (by rcases hbad with h | h <;> rw [h] <;> simp)] at h
  obtain ⟨ok, d3, g3, h⟩ := M.bind_ok.1 h
  simp only [pure_eq, Prod.mk.injEq, Except.ok.injEq] at h
  obtain ⟨_, rfl⟩ := h
  have q1 := (fetchMeta_quiet c p).of_eq h1
  have q2 := (downloadImages_quiet c f _).of_eq h2
  refine ⟨quietly_pre.trans _ _ _ q1 (quietly_pre.trans _ _ _ q2 ((putManifestSimple_quiet c.env p).of_eq g3)), res, ?_, ?_⟩
  · rcases hres with rfl | rfl <;> rfl
  have hp2 : d2.cl.hasPendingUpdates = false := by
    show d2.cl.v.hasPendingInstall = false
    rw [(downloadImages_v c f _).of_eq h2]; exact hp
  obtain ⟨new, m, ok', k1, k2, k3⟩ := reportedAtEnd g3 hp2 hrow hsto
  obtain ⟨_, _, n1, l1, _⟩ := quietly_pre.trans _ _ _ q1 q2
  exact ⟨n1 ++ new, m, ok', by rw [k1, l1]; simp [List.append_assoc], k2, k3⟩

/-- C59, checks. If the check of a cycle that ends normally finds that the two repositories do not agree, no
ECU is touched and the cycle ends with a manifest that reports it. -/
theorem C59_mismatch_reported (c : Ctx) (p : Peers) (f : Fetched) (force : Bool) (d d' d1 : Dev) (b : Bool) (r : UpdateCheck)
    (h : uptaneCycle c p f force d = (.ok b, d')) (h1 : fetchMeta c p d = (.ok r, d1)) (hm : r.message = "Target mismatch.") :
    Quietly d d' ∧ ReportedAtEnd (.ofCode .verificationFailed "Metadata verification failed.") d d' := by
  obtain ⟨hp, d0, cl', hcheck, hd1⟩ := fetchMeta_offers h1 (.inr hm)
  have key : r.updates = [] ∧ r.status = .error ∧ ∃ row, cl'.devResult = some row ∧
      StoredAs row.result (.ofCode .verificationFailed "Metadata verification failed.") := by
    unfold checkUpdates at hcheck
    obtain ⟨o, cl1, _, hcheck⟩ := M.bind_ok.1 hcheck
    cases o with
    | none =>
      simp only [pure_eq, Prod.mk.injEq, Except.ok.injEq] at hcheck
      obtain ⟨rfl, _⟩ := hcheck
      simp at hm
    | some x =>
      dsimp only at hcheck
      unfold checkMatches at hcheck
      obtain ⟨o, cl2, _, hcheck⟩ := M.bind_ok.1 hcheck
      cases o with
      | none =>
        simp only [pure_eq, Prod.mk.injEq, Except.ok.injEq] at hcheck
        obtain ⟨rfl, _⟩ := hcheck
        simp at hm
      | some raw =>
        dsimp only at hcheck
        split at hcheck
        · simp only [pure_eq, Prod.mk.injEq, Except.ok.injEq] at hcheck
          obtain ⟨rfl, _⟩ := hcheck
          simp at hm
        rcases catchStd_ok.1 hcheck with g | ⟨_, cl3, _, _, g⟩
        · obtain ⟨l, _, _, g⟩ := M.bind_ok.1 g
          simp only [pure_eq, Prod.mk.injEq, Except.ok.injEq] at g
          obtain ⟨rfl, _⟩ := g
          simp at hm
        · obtain ⟨_, cl4, g1, g⟩ := M.bind_ok.1 g
          simp only [pure_eq, Prod.mk.injEq, Except.ok.injEq] at g
          obtain ⟨rfl, rfl⟩ := g
          obtain ⟨row, k1, ⟨cid, k2⟩, _⟩ := storeInstallationFailure_ok g1
          exact ⟨rfl, rfl, _, k2, k1, by decide, by decide⟩
  obtain ⟨e1, e2, row, hrow, hsto⟩ := key
  unfold uptaneCycle at h
  rw [run_bind h1] at h
  unfold cycleDownload at h
  rw [if_pos (by simp [e1]), if_pos e2] at h
  obtain ⟨ok, d3, g3, h⟩ := M.bind_ok.1 h
  simp only [pure_eq, Prod.mk.injEq, Except.ok.injEq] at h
  obtain ⟨_, rfl⟩ := h
  have q1 := (fetchMeta_quiet c p).of_eq h1
  refine ⟨quietly_pre.trans _ _ _ q1 ((putManifestSimple_quiet c.env p).of_eq g3), ?_⟩
  obtain ⟨new, m, ok', k1, k2, k3⟩ := reportedAtEnd g3 hp (by rw [hd1]; exact hrow) hsto
  obtain ⟨_, _, n1, l1, _⟩ := q1
  exact ⟨n1 ++ new, m, ok', by rw [k1, l1]; simp [List.append_assoc], k2, k3⟩
namespace Toy

/-- The servers of `Toy.good` with another Director Targets. -/
def directing (doc : String) : List ((Repo × String × Int) × String) := ((.director, "targets", -1), doc) :: good

/-- The device after its first start. -/
def started : Dev := boots.step E Dev.fresh

/-- The device ready for the cycle of a turn. -/
def ready (t : Turn) (d : Dev) : Dev := { d with cl := { d.cl with w := { d.cl.w with fuel := t.fuel, tick := 0 } } }

/-- What the outside is in a turn. -/
def outside (t : Turn) : Ctx := { env := E, net := t.net, clock := t.clock }

/-- How the check of a turn ends, and the device then. -/
def checks (t : Turn) (d : Dev) : Option UpdateCheck × Dev :=
  match fetchMeta (outside t) t.peers (ready t d) with
  | (.ok r, d) => (some r, d)
  | (_, d) => (none, d)

/-- How the cycle of a turn ends, and the device then. -/
def cycles (t : Turn) (d : Dev) : Option Bool × Dev :=
  match t.run E true d with
  | (.ok b, d) => (some b, d)
  | (_, d) => (none, d)

/-- The results in the reports of the manifests sent. -/
def codes (log : List Action) : List (Option Int) := (sends log).map (fun s => s.2.map (·.1))

end Toy

theorem cycles_some {t : Turn} {d : Dev} {b : Bool} (h : (Toy.cycles t d).1 = some b) :
    t.run Toy.E true d = (.ok b, (Toy.cycles t d).2) := by
  unfold Toy.cycles at h ⊢
  cases hx : t.run Toy.E true d with
  | mk o d' => rw [hx] at h; cases o <;> simp_all

theorem checks_some {t : Turn} {d : Dev} {P : UpdateCheck → Prop} (h : ∃ r, (Toy.checks t d).1 = some r ∧ P r) :
    ∃ r, fetchMeta (Toy.outside t) t.peers (Toy.ready t d) = (.ok r, (Toy.checks t d).2) ∧ P r := by
  obtain ⟨r, h, hp⟩ := h
  refine ⟨r, ?_, hp⟩
  unfold Toy.checks at h ⊢
  cases hx : fetchMeta (Toy.outside t) t.peers (Toy.ready t d) with
  | mk o d' => rw [hx] at h; cases o <;> simp_all

/-- The hypotheses of the theorems hold: after a start, a cycle obtains and installs an update, another
cannot obtain the image, and in a third the Image repository does not know the image. The manifests at
the end report code 0, 5 and 3. -/
example :
    Toy.codes (Toy.cycles (Toy.cycleWith (Toy.directing "dt3") (Toy.peers .good)) Toy.started).2.log = [none, some 0] ∧
    Toy.codes (Toy.cycles (Toy.cycleWith (Toy.directing "dt3") (Toy.peers .good) (got := false)) Toy.started).2.log = [none, some 5] ∧
    Toy.codes (Toy.cycles (Toy.cycleWith (Toy.directing "dt2") (Toy.peers .good)) Toy.started).2.log = [none, some 3] := by
  decide +kernel

/-- The case of `C59_failed_download_partial` in full: the updates are offered, the image is not
there, and the Director numbers its Targets. -/
example :
    let t := Toy.cycleWith (Toy.directing "dt3") (Toy.peers .good) (got := false)
    t.run Toy.E true Toy.started = (.ok true, (Toy.cycles t Toy.started).2) ∧
    ∃ r, fetchMeta (Toy.outside t) t.peers (Toy.ready t Toy.started) = (.ok r, (Toy.checks t Toy.started).2) ∧
      (∃ u, r.updates = [u] ∧ u.filename = "fw") ∧ NumbersTargets (Toy.outside t) (Toy.checks t Toy.started).2.cl.w.db := by
  intro t
  refine ⟨cycles_some (by decide +kernel), ?_⟩
  have hname : (Toy.checks t Toy.started).1.map (fun r => r.updates.map (·.filename)) = some ["fw"] := by decide +kernel
  obtain ⟨r, h1, h2⟩ := checks_some (t := t) (d := Toy.started) (P := fun r => r.updates.map (·.filename) = ["fw"]) (by
    cases hx : (Toy.checks t Toy.started).1 with
    | none => rw [hx] at hname; cases hname
    | some r => rw [hx] at hname; exact ⟨r, rfl, by simpa using hname⟩)
  refine ⟨r, h1, ?_, ?_⟩
  · cases hu : r.updates with
    | nil => rw [hu] at h2; cases h2
    | cons u us =>
      rw [hu] at h2
      cases us with
      | nil => exact ⟨u, rfl, by simpa using h2⟩
      | cons _ _ => simp at h2
  · intro n raw hraw
    have e1 : (some "dt3" : Option String) = some raw := hraw
    cases e1
    refine ⟨3, by decide, ⟨_, _, rfl, rfl, rfl, rfl⟩, ?_⟩
    rintro stored ⟨row, h3, rfl⟩ _
    have e2 : ((Toy.checks t Toy.started).2.cl.w.db.latestOf .director .targets).map (·.data) = some "dt3" := by decide +kernel
    rw [h3] at e2
    simpa using e2

/-- Finding. When the check fails for any other reason, nothing is reported: here the Director's Targets
are signed with unknown keys, and then they have expired. The cycle sends a second manifest to "inform
the backend immediately" (aktualizr.cc:42-46), but it carries no report, since `checkUpdates`
(sotauptaneclient.cc:845-907) records a failure only when the two repositories do not agree. -/
theorem C59_bad_metadata_unreported : ∀ doc ∈ ["dtB", "dt2old"],
    (Toy.cycles (Toy.cycleWith (Toy.directing doc) (Toy.peers .good)) Toy.started).1 = some true ∧
    ((Toy.checks (Toy.cycleWith (Toy.directing doc) (Toy.peers .good)) Toy.started).1.map (·.message)) = some "Could not update metadata." ∧
    Toy.codes (Toy.cycles (Toy.cycleWith (Toy.directing doc) (Toy.peers .good)) Toy.started).2.log = [none, none] := by
  decide +kernel

/-- Finding. The Director first has no updates, then, under the same version number, an update for the
Primary. It is offered, but the stored Targets are still the old ones: the download finds nothing to do,
nothing is installed, and nothing is reported, in this and all like cycles. -/
theorem C59_same_version_unreported :
    let d := (Toy.cycles (Toy.cycleWith (Toy.directing "dt3e") (Toy.peers .good)) Toy.started).2
    let t := Toy.cycleWith (Toy.directing "dt3") (Toy.peers .good)
    ((Toy.checks t d).1.map (fun r => r.updates.map (·.filename))) = some ["fw"] ∧
    (Toy.cycles t d).1 = some true ∧
    (Toy.cycles t d).2.log.map Toy.tag = d.log.map Toy.tag ++ [("signed", "e1"), ("sent", "ok")] ∧
    Toy.codes (Toy.cycles t (Toy.cycles t d).2).2.log = [none, none, none] := by
  decide +kernel

end Aktualizr
