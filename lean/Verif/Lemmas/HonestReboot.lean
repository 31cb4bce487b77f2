import Verif.Lemmas.HonestCycle
import Verif.Props.C21

/-! Installations that wait for a reboot of the Primary, and the start after it: forward execution. -/

namespace Aktualizr

open M Spec

section Waits

variable {c : Ctx} {p : Peers} {P : VersionRow → Prop} {K : Client} {L : List Action} {ts : Targets} {wait done : List (String × Target)} {acts : List Action} {d : Dev}
  {dLast iLast : Root} {us : List Target}

theorem installBoth_waits {env : Env} {t : Target} (hp : Supports c p dLast iLast) (hi : ∀ n t, AsksReboot (p.install n t)) (hpl : Planned K us)
    (h : Progress P K L ts [] [] acts d) (hf : us.find? (fun t => t.isForEcu K.primary) = some t)
    (hk : ∀ t ∈ us, ∀ cid, RowSafe env P { t with correlationId := cid }) :
    WillAt (6 + 4 * (assignments us).length) d (do
      let first ← installPrimary env p us
      let others ← sendImagesToEcus env p us
      pure (first ++ others)) (fun _ d' => ∃ done, AllDone P K L ts us [(K.primary, { t with correlationId := ts.correlationId })] done d') := by
  obtain ⟨x0, hx0, h2, h3⟩ := primary_assigned (List.mem_of_find?_eq_some hf) (by simpa using List.find?_some hf)
  have he : K.primary ≠ "" := by rw [← h3]; exact (hpl.ecu x0 hx0).2.1
  have hcost : 6 + 4 * (assignments us).length = 6 + (4 * (assignments us).length + 0) := by omega
  rw [hcost]
  refine WillAt.bind (n := 6) ((installPrimary_waits hi h hf he hk).more (by omega)) ?_
  intro first d1 h1
  refine WillAt.bind (n := 4 * (assignments us).length) (k := 0)
    (Q := fun _ d' => ∃ done, AllDone P K L ts us [(K.primary, { t with correlationId := ts.correlationId })] done d') ?_ (fun _ d2 h2 => WillAt.pure h2)
  refine sendImages_will hp hpl h1 hk ?_ (by simp) (fun x hx hprm => ?_)
  · intro x hx
    rw [List.append_nil] at hx
    rw [List.mem_singleton.1 hx]
    exact ⟨rfl, x0, hx0, h3⟩
  · have : x = x0 := nodup_map_inj hpl.once hx hx0 (by rw [hprm, h3])
    subst this
    subst h2
    rw [hprm]
    exact ⟨.inl (by simp), by simp⟩

theorem installVerified_waits {t : Target} {dRoot iRoot : String} (hp : Supports c p dLast iLast) (hi : ∀ n t, AsksReboot (p.install n t))
    (hd : Stored K.w.db .director .root dRoot) (hdg : GenuineRoot c.env dRoot dLast) (hir : Stored K.w.db .image .root iRoot)
    (hig : GenuineRoot c.env iRoot iLast) (hpl : Planned K us) (hser : ∀ e ∈ K.v.ecus, mkEcuSerial e.serial = .ok e.serial)
    (hf : us.find? (fun t => t.isForEcu K.primary) = some t)
    (hk : ∀ t ∈ us, ∀ cid, RowSafe c.env P { t with correlationId := cid }) (h : Progress P K L ts [] [] acts d) :
    WillAt (installCost dLast iLast us) d (installVerified c p us)
      (fun r d' => (∃ s, r.1.device = .ofCode .needCompletion s) ∧
        ∃ done, AllDone P K L ts us [(K.primary, { t with correlationId := ts.correlationId })] done d') := by
  unfold installVerified
  refine (WillAt.bind (n := 0) (k := installCost dLast iLast us) (waitReachable_will hp.toObliges h) ?_).more (by omega)
  rintro ok d1 ⟨rfl, h1⟩
  simp only [Bool.not_true, Bool.false_eq_true, if_false]
  refine (WillAt.bind (n := (assignments us).length * (dLast.base.version.toNat + iLast.base.version.toNat + 1)) (k := 6 + 4 * (assignments us).length)
    (sendMetadataToEcus_will hp.toObliges hd hdg hir hig h1) ?_).more (by unfold installCost; omega)
  rintro m d2 ⟨hm, h2⟩
  simp only [hm, Bool.not_true, Bool.false_eq_true, if_false]
  intro hn
  obtain ⟨l, d3, h3, ⟨done, h4⟩, h5⟩ := installBoth_waits (env := c.env) hp hi hpl h2 hf hk hn
  rw [bind_ok] at h3
  obtain ⟨a, d4, h6, h7⟩ := h3
  rw [bind_ok] at h7
  obtain ⟨b, d5, h8, h9⟩ := h7
  have h9' : d5 = d3 := by cases h9; rfl
  subst h9'
  rw [run_bind h6, run_bind h8]
  obtain ⟨acts', hpr, -⟩ := h4.progress
  obtain ⟨s, raw, hdev⟩ := hpr.deviceWaits hser (fun x hx => by
    obtain ⟨y, hy, he⟩ := h4.only x hx
    rw [← he]
    exact ⟨(hpl.ecu y hy).2.2, _, (hpl.ecu y hy).1⟩) (by simp) h4.apart
  refine ⟨(⟨.ofCode .needCompletion s, a ++ b⟩, raw), d5, ?_, ⟨⟨s, rfl⟩, done, h4⟩, h5⟩
  rw [run_bind (by rw [gets_eq])]
  refine (run_bind (m := lift d5.cl.computeDeviceResult) (w := d5) (by rw [lift_eq, hdev])).trans ?_
  rfl

variable {dRoot dRaw iRoot rawT rawS iRaw : String} {tm : TimestampMeta} {sn : Snapshot} {its : Targets}

theorem uptaneInstall_waits {t : Target} (hp : Supports c p dLast iLast) (hi : ∀ n t, AsksReboot (p.install n t))
    (h : Authorised c d dRoot dLast dRaw ts iRoot iLast rawT rawS iRaw tm sn its us)
    (hf : us.find? (fun t => t.isForEcu d.cl.primary) = some t) (hk : ∀ t ∈ us, ∀ cid, RowSafe c.env P { t with correlationId := cid })
    (hleg : ∀ r ∈ d.cl.v.rows, P r) (hempty : d.cl.ecuResults = []) :
    WillAt (installCost dLast iLast us + 1) d (uptaneInstall c p us)
      (fun _ d' => ∃ done, AllDone P d.cl d.log ts us [(d.cl.primary, { t with correlationId := ts.correlationId })] done d') := by
  intro hn
  obtain ⟨w', h1, h2, h3, h4⟩ := h.recheck
  have hpr : Progress P d.cl d.log ts [] [] [] { d with cl := { d.cl with w := w' } } :=
    ⟨rfl, rfl, rfl, rfl, h2, h3, rfl, h.ordered, (fun r hr hpend => by rw [h.idle r hr] at hpend; cases hpend), by simp, by simp, (by
      intro y hy
      change y ∈ d.cl.ecuResults at hy
      rw [hempty] at hy
      cases hy), ⟨[], by simp, by simp⟩, by simp, hleg⟩
  have hbody : WillAt (installCost dLast iLast us) d (installBody c p us)
      (fun r d' => (∃ s, r.1.device = .ofCode .needCompletion s) ∧
        ∃ done, AllDone P d.cl d.log ts us [(d.cl.primary, { t with correlationId := ts.correlationId })] done d') := by
    intro hn
    have : WillAt (installCost dLast iLast us) { d with cl := { d.cl with w := w' } } (do
        let good ← verifyAll p us
        if !good then pure (⟨⟨false, .internalError, ""⟩, []⟩, "Downloaded target is invalid")
        else installVerified c p us)
        (fun r d' => (∃ s, r.1.device = .ofCode .needCompletion s) ∧
          ∃ done, AllDone P d.cl d.log ts us [(d.cl.primary, { t with correlationId := ts.correlationId })] done d') := by
      refine (WillAt.bind (n := 0) (k := installCost dLast iLast us) (verifyAll_will hp.toObliges us hpr) ?_).more (by omega)
      rintro ok d1 ⟨rfl, h5⟩
      simp only [Bool.not_true, Bool.false_eq_true, if_false]
      exact installVerified_waits hp hi h.director.root h.director.genuineR h.image.root h.image.genuineR h.planned h.serials hf hk h5
    obtain ⟨r, d', h5, h6, h7⟩ := this (by show _ ≤ w'.fuel; omega)
    refine ⟨r, d', ?_, h6, ?_⟩
    · unfold installBody
      rw [run_bind h1]
      exact h5
    · have : d.cl.w.fuel = w'.fuel := h4.symm
      show d.cl.w.fuel ≤ _
      rw [this]
      exact h7
  refine WillAt.bind (n := installCost dLast iLast us) (k := 1) hbody ?_ hn
  rintro ⟨r, raw⟩ d1 ⟨⟨s, h5⟩, done, h7⟩
  obtain ⟨acts, h8, h9⟩ := h7.progress
  refine WillAt.gets ?_
  simp only at h5
  simp only [id, h5, h8.dir]
  have hrow : ∃ row, (InstResult.ofCode .needCompletion s).toRow = .ok row := ⟨_, rfl⟩
  obtain ⟨row, hrow⟩ := hrow
  refine WillAt.bind (n := 1) (k := 0)
    (Q := fun _ d' => ∃ done, AllDone P d.cl d.log ts us [(d.cl.primary, { t with correlationId := ts.correlationId })] done d') ?_ (fun _ d2 h => WillAt.pure h)
  intro hn
  have hw : inClient (storeDeviceResult (.ofCode .needCompletion s) raw ts.correlationId) d1 =
      inClient (cwrite (fun cl => { cl with devResult := some ⟨row, raw, ts.correlationId⟩ })) d1 := by
    rw [inClient_eq, inClient_eq]
    unfold storeDeviceResult
    rw [run_bind (m := lift (InstResult.ofCode .needCompletion s).toRow) (w := d1.cl) (by rw [lift_eq, hrow])]
  rw [hw]
  refine WillAt.cwrite (f := fun cl => { cl with devResult := some ⟨row, raw, ts.correlationId⟩ })
    (Q := fun _ d' => ∃ done, AllDone P d.cl d.log ts us [(d.cl.primary, { t with correlationId := ts.correlationId })] done d')
    (fun k => ⟨done, ⟨⟨acts, ?_, h9⟩, h7.covers, h7.only, h7.apart⟩⟩) hn
  exact ⟨h8.1, h8.2, h8.3, h8.4, h8.5, h8.6, h8.7, h8.8, h8.9, h8.10, h8.11, h8.12, h8.13, h8.14, h8.15⟩

theorem pendingLoop_run {q : String} (hq : mkEcuSerial q = .ok q) : ∀ (l : List VersionRow), (∀ r ∈ l, r.ecu = q) →
    ∃ out, VersionDb.pendingLoop l = .ok out ∧ out.length = l.length ∧ ∀ x ∈ out, x.1 = q
  | [], _ => ⟨[], rfl, rfl, by simp⟩
  | r :: l, h => by
    obtain ⟨out, h1, h2, h3⟩ := pendingLoop_run hq l (fun r hr => h r (by simp [hr]))
    refine ⟨(q, Hash.mk' .sha256 r.sha256) :: out, ?_, by simp [h2], ?_⟩
    · unfold VersionDb.pendingLoop
      rw [h r (by simp), hq]
      show (VersionDb.pendingLoop l >>= _) = _
      rw [h1]
      rfl
    · intro x hx
      rcases List.mem_cons.1 hx with rfl | hx
      · rfl
      · exact h3 x hx

theorem cycleEnd_waits {force : Bool} {t : Target} (hq : mkEcuSerial K.primary = .ok K.primary)
    (h : AllDone P K L ts us [(K.primary, t)] done d) : cycleEnd c p force d = (.ok (!force), d) := by
  obtain ⟨acts, hpr, -⟩ := h.progress
  obtain ⟨⟨row, hrow, -, hpend⟩, -⟩ := hpr.waiting (K.primary, t) (by simp)
  have hall : ∀ r ∈ d.cl.v.rows.filter (·.isPending), r.ecu = K.primary := by
    intro r hr
    obtain ⟨h1, h2⟩ := List.mem_filter.1 hr
    simpa using hpr.idle r h1 h2
  obtain ⟨out, h1, h2, h3⟩ := pendingLoop_run hq _ hall
  have hany : out.any (fun e => e.1 == d.cl.primary) = true := by
    cases out with
    | nil =>
      have : row ∈ d.cl.v.rows.filter (·.isPending) := List.mem_filter.2 ⟨hrow, hpend⟩
      rw [List.length_nil, eq_comm, List.length_eq_zero_iff] at h2
      rw [h2] at this
      cases this
    | cons x l =>
      rw [List.any_eq_true]
      exact ⟨x, by simp, by rw [h3 x (by simp), hpr.primary]; simp⟩
  have hreq : completionRequired force d = (.ok force, d) := by
    unfold completionRequired
    rw [run_bind (by rw [gets_eq])]
    refine (run_bind (m := lift d.cl.v.getPendingEcus) (w := d) (a := out) (by rw [lift_eq]; unfold VersionDb.getPendingEcus; rw [h1])).trans ?_
    simp only [id, hany, Bool.true_and]
    rfl
  have hp' : d.cl.hasPendingUpdates = true := by
    unfold Client.hasPendingUpdates VersionDb.hasPendingInstall
    exact List.any_eq_true.2 ⟨row, hrow, hpend⟩
  unfold cycleEnd
  rw [run_bind hreq]
  cases force
  · simp only [Bool.false_eq_true, if_false]
    rw [run_bind (by rw [gets_eq])]
    simp only [id, hp', if_true]
    rfl
  · rfl

theorem cycleDownload_waits {f : Fetched} {force : Bool} {r : UpdateCheck} {t : Target} (hfetch : ∀ n t, f n t = true) (hp : Supports c p dLast iLast)
    (hi : ∀ n t, AsksReboot (p.install n t)) (h : Authorised c d dRoot dLast dRaw ts iRoot iLast rawT rawS iRaw tm sn its r.updates)
    (hf : r.updates.find? (fun t => t.isForEcu d.cl.primary) = some t) (hk : ∀ t ∈ r.updates, ∀ cid, RowSafe c.env P { t with correlationId := cid })
    (hleg : ∀ r ∈ d.cl.v.rows, P r) (hempty : d.cl.ecuResults = []) :
    WillAt (installCost dLast iLast r.updates + 1) d (cycleDownload c p f force r) (fun b d' => b = !force ∧
      ∃ done, AllDone P d.cl d.log ts r.updates [(d.cl.primary, { t with correlationId := ts.correlationId })] done d') := by
  intro hn
  obtain ⟨w', n, h1, h2, h3⟩ := downloadImages_run hfetch h
  let d1 : Dev := { d with cl := { d.cl with w := w' }, n := n }
  have h' : Authorised c d1 dRoot dLast dRaw ts iRoot iLast rawT rawS iRaw tm sn its r.updates := h.world h2
  have hne : r.updates.isEmpty = false := by
    have := h.nonempty
    cases hr : r.updates with
    | nil => exact absurd hr this
    | cons a l => rfl
  obtain ⟨x0, hx0, h5, h6⟩ := primary_assigned (List.mem_of_find?_eq_some hf) (by simpa using List.find?_some hf)
  have hq : mkEcuSerial d.cl.primary = .ok d.cl.primary := by
    obtain ⟨e, he, hs⟩ := (h.planned.ecu x0 hx0).2.2
    rw [h6] at hs
    rw [← hs]
    exact h.serials e he
  have hrun : WillAt (installCost dLast iLast r.updates + 1) d1 (do
      let _ ← uptaneInstall c p r.updates
      cycleEnd c p force) (fun b d' => b = !force ∧
        ∃ done, AllDone P d.cl d.log ts r.updates [(d.cl.primary, { t with correlationId := ts.correlationId })] done d') := by
    refine (WillAt.bind (k := 0) (uptaneInstall_waits hp hi h' hf hk hleg hempty) ?_).more (by omega)
    rintro _ d2 ⟨done, h5⟩ hn
    refine ⟨!force, d2, cycleEnd_waits (K := d1.cl) hq h5, ⟨rfl, done, ?_⟩, by omega⟩
    obtain ⟨⟨acts, hp, ha⟩, h5, h6, h7⟩ := h5
    exact ⟨⟨acts, ⟨hp.1, hp.2, hp.3, hp.4, hp.5.trans h2, hp.6, hp.7, hp.8, hp.9, hp.10, hp.11, hp.12, hp.13, hp.14, hp.15⟩, ha⟩, h5, h6, h7⟩
  obtain ⟨b, d', h4, h5, h6⟩ := hrun (by show _ ≤ w'.fuel; omega)
  refine ⟨b, d', ?_, h5, by rw [← h3]; exact h6⟩
  unfold cycleDownload
  rw [hne]
  simp only [Bool.false_eq_true, if_false]
  rw [run_bind h1]
  unfold cycleInstall
  simp only [hne, ne_eq, not_true_eq_false, Bool.false_eq_true, or_self, if_false]
  exact h4

end Waits

/-! ### The start after the reboot -/

namespace Spec

/-- The custom data of the target can be read again. -/
def CustomRereads (env : Env) (t : Target) : Prop :=
  env.canon t.custom = "" ∨ ∀ t0 : Target, ∃ t', t0.updateCustom (env.parseJson (env.canon t.custom)) = .ok t'

/-- A row of `installed_versions` that can be read back. -/
def Legible (env : Env) (r : VersionRow) : Prop := ∃ t, (WellHashed t ∧ CustomRereads env t) ∧ RecordOf env t r

/-- The device is configured with the ECUs it is registered with. -/
structure Configured (cl : Client) (cfg : EcuConfig) : Prop where
  primary : cl.primary = cfg.primary.1
  hw : cl.primaryHw = cfg.primary.2
  secs : cl.secondaries = cfg.secondaries
  ecus : cl.v.ecus.map (fun e => (e.serial, e.hwid)) = cfg.serials
  hwids : ∀ e ∈ cl.v.ecus, e.hwid.utf8ByteSize ≤ 200

end Spec

theorem rowSafe_legible {env : Env} {t : Target} (h : WellHashed t ∧ CustomRereads env t) (cid : String) :
    RowSafe env (Legible env) { t with correlationId := cid } := by
  intro db e mode hdb
  exact record_origin (l := [⟨e, { t with correlationId := cid }, mode⟩]) (S := fun t => WellHashed t ∧ CustomRereads env t) hdb (by
    intro r hr
    rw [List.mem_singleton.1 hr]
    exact h)

theorem readTarget_legible {env : Env} {r : VersionRow} (h : Legible env r) (ecus : List (String × String)) :
    ∃ t, VersionDb.readTarget env ecus r = .ok t ∧ t.filename = r.name ∧ t.sha256Hash = r.sha256 ∧ t.correlationId = r.correlationId := by
  obtain ⟨t0, ⟨h1, h2⟩, h3⟩ := h
  have hread : ∃ t, VersionDb.readTarget env ecus r = .ok t := by
    unfold VersionDb.readTarget
    simp only [h3.2.2.2.2]
    split
    · exact ⟨_, rfl⟩
    · next hc =>
      rcases h2 with h2 | h2
      · exact absurd h2 hc
      · exact h2 _
  obtain ⟨t, ht⟩ := hread
  obtain ⟨a, b, -⟩ := Boot.read_sha h1 h3 ht
  exact ⟨t, ht, a, b, (readTarget_of_record h3 ht).2.2.1⟩

theorem loadPending_run {env : Env} {v : VersionDb} {e : String} {t : Target} (he : e ≠ "") (hl : ∀ r ∈ v.rows, r.isPending = true → Legible env r)
    (hser : ∀ e ∈ v.ecus, mkEcuSerial e.serial = .ok e.serial) (hhw : ∀ e ∈ v.ecus, mkHwId e.hwid = .ok e.hwid) (h : RecordedPending v e t) :
    ∃ t', v.loadPending env e = .ok (some t') ∧ t'.filename = t.filename ∧ t'.sha256Hash = t.sha256Hash ∧ t'.correlationId = t.correlationId := by
  have hreal : v.realSerial e = e := by simp [VersionDb.realSerial, he]
  have hmap : ∃ m, v.ecuMap e = .ok m := by
    unfold VersionDb.ecuMap
    rw [if_neg he]
    cases hf : v.ecus.find? (fun x => x.serial == e) with
    | none => exact ⟨_, rfl⟩
    | some x =>
      have h1 := List.mem_of_find?_eq_some hf
      have h2 : x.serial = e := by simpa using List.find?_some hf
      have h3 := hser x h1
      rw [h2] at h3
      simp only [h3, hhw x h1]
      exact ⟨_, rfl⟩
  obtain ⟨m, hm⟩ := hmap
  obtain ⟨⟨row, h1, h2, h3⟩, h4, -⟩ := h
  cases hr : v.pendingRow e with
  | none =>
    unfold VersionDb.pendingRow at hr
    have := List.find?_eq_none.1 hr row h1
    simp [h2, h3] at this
  | some r =>
    unfold VersionDb.pendingRow at hr
    have h5 := List.mem_of_find?_eq_some hr
    have h6 : r.ecu = e ∧ r.isPending = true := by simpa using List.find?_some hr
    obtain ⟨t', h7, h8, h9, h10⟩ := readTarget_legible (hl r h5 h6.2) m
    obtain ⟨a1, a2, a3⟩ := h4 r h5 h6.1 h6.2
    refine ⟨t', ?_, h8.trans a1, h9.trans a2, h10.trans a3⟩
    unfold VersionDb.loadPending
    rw [hreal]
    show (v.ecuMap e >>= fun ecus => VersionDb.readRow env ecus (v.pendingRow e)) = _
    rw [hm]
    show VersionDb.readRow env m (v.pendingRow e) = _
    unfold VersionDb.pendingRow
    rw [hr]
    show (VersionDb.readTarget env m r >>= _) = _
    rw [h7]
    rfl

section Reboot

variable {p : Peers} {P : VersionRow → Prop} {K : Client} {L : List Action} {ts : Targets} {wait done : List (String × Target)} {acts : List Action} {d : Dev}

/-- What does not concern the versions and the results. -/
theorem Progress.reset (h : Progress P K L ts wait done acts d) {d' : Dev} (hv : d'.cl.v = d.cl.v) (hr : d'.cl.ecuResults = d.cl.ecuResults) (hl : d'.log = d.log) :
    Progress P d'.cl L d'.cl.w.dir.targets wait done acts d' := by
  refine ⟨rfl, rfl, rfl, rfl, rfl, rfl, rfl, ?_, ?_, ?_, ?_, ?_, ?_, ?_, ?_⟩
  · rw [hv]; exact h.ordered
  · rw [hv]; exact h.idle
  · rw [hv]; exact h.current
  · rw [hr]; exact h.reported
  · rw [hr]; exact h.good
  · rw [hl]; exact h.log
  · rw [hv]; exact h.waiting
  · rw [hv]; exact h.legible

/-- The pending version has become the current one, and the result is recorded. -/
theorem Progress.completed {env : Env} {e desc : String} {t t' : Target} {row : ResultRow} {k : Nat} (h : Progress P K L ts [(e, t)] done acts d) (he : e ≠ "")
    (hnew : e ∉ done.map Prod.fst) (hrow : (⟨true, .ok, desc⟩ : InstResult).toRow = .ok row) (hn : t'.filename = t.filename) (hs : t'.sha256Hash = t.sha256Hash) :
    Progress (fun _ => True) K L ts [] ((e, t) :: done) acts { d with cl := { d.cl with
      v := d.cl.v.saveInstalledVersion env e t' .current, ecuResults := upsert e row d.cl.ecuResults, w := { d.cl.w with fuel := k } } } := by
  have hother : ∀ x ∈ done, e ≠ x.1 := by
    rintro x hx rfl
    exact hnew (List.mem_map_of_mem hx)
  have hreal : d.cl.v.realSerial e = e := by simp [VersionDb.realSerial, he]
  refine ⟨h.1, h.2, h.3, h.4, h.5, h.6, ?_, ?_, ?_, ?_, ?_, ?_, h.13, by simp, fun _ _ => trivial⟩
  · exact (VersionDb.save_ecus ..).trans h.ecus
  · exact VersionDb.save_ordered _ _ _ h.ordered
  · intro r hr hpend
    exfalso
    change r ∈ (d.cl.v.saveInstalledVersion env e t' .current).rows at hr
    rw [VersionDb.save_rows, hreal] at hr
    rcases List.mem_append.1 hr with hr | hr
    · obtain ⟨r0, h0, rfl⟩ := List.mem_map.1 hr
      by_cases hre : r0.ecu = e
      · rcases VersionDb.save1_isPending hre hpend with ⟨h1, -⟩ | ⟨h1, -, -⟩
        · cases h1
        · first | exact absurd h1 (by simp) | simp at h1
      · have := VersionDb.save1_other (t := t') h.ordered .current h0 hre
        rw [this] at hpend
        have := h.idle r0 h0 hpend
        exact hre (by simpa using this)
    · split at hr
      · cases hr
      · simp only [List.mem_singleton] at hr
        subst hr
        cases hpend
  · intro x hx
    rcases List.mem_cons.1 hx with rfl | hx
    · have := save_recorded (env := env) he t' h.ordered
      unfold RecordedCurrent at this ⊢
      rw [← hn, ← hs]
      exact this
    · exact recordedCurrent_congr (save_versionsOf t' .current h.ordered he (hother x hx)) (h.current x hx)
  · intro x hx
    rw [List.nil_append] at hx
    by_cases hxe : x.1 = e
    · exact ⟨row, by show (x.1, row) ∈ upsert _ _ _; rw [mem_upsert_iff, hxe]; exact .inr rfl⟩
    · have hx' : x ∈ [(e, t)] ++ done := by
        rcases List.mem_cons.1 hx with rfl | hx
        · exact absurd rfl hxe
        · exact List.mem_append.2 (.inr hx)
      obtain ⟨row', h1⟩ := h.reported x hx'
      exact ⟨row', mem_upsert_iff.2 (.inl ⟨h1, hxe⟩)⟩
  · intro y hy
    rcases mem_upsert_iff.1 hy with ⟨h1, h2⟩ | rfl
    · rcases h.good y h1 with ⟨h3, h4⟩ | ⟨h3, -⟩
      · exact .inl ⟨by simp [h3], h4⟩
      · exact absurd (by simpa using h3) h2
    · exact .inl ⟨by simp, desc, hrow⟩

theorem hasEcu_congr {a b : Client} {ecu hw : String} (h : HasEcu a ecu hw) (h1 : b.primary = a.primary) (h2 : b.primaryHw = a.primaryHw)
    (h3 : b.secondaries = a.secondaries) : HasEcu b ecu hw := by
  unfold HasEcu at *
  rw [h1, h2, h3]
  exact h

/-- The installation after the reboot, and the report. -/
theorem finalize_will {env : Env} {t : Target} (hh : Hears p) (hfin : ∀ n t, Installed (p.finalize n t))
    (h : Progress (Legible env) K L ts [(K.primary, t)] done acts d) (hnew : K.primary ∉ done.map Prod.fst) (he : K.primary ≠ "")
    (hser : ∀ e ∈ K.v.ecus, mkEcuSerial e.serial = .ok e.serial) (hhw : ∀ e ∈ K.v.ecus, mkHwId e.hwid = .ok e.hwid)
    (hreg : ∀ x ∈ (K.primary, t) :: done, (∃ e ∈ K.v.ecus, e.serial = x.1) ∧ ∃ hw, HasEcu K x.1 hw) (hc : ∀ x ∈ K.counters, x.2 < int64Max) :
    WillAt (K.secondaries.length + 10) d (finalizeAfterReboot env p) (fun _ d' => ∃ d1 r raw items,
      Progress (fun _ => True) d1.cl L d1.cl.w.dir.targets [] ((K.primary, t) :: done) acts d1 ∧
      Sent d1 d' (some (r, raw, t.correlationId, items)) ∧ Read r ∧ (∀ y ∈ items, Read y.2) ∧
      ∀ x ∈ (K.primary, t) :: done, x.1 ∈ items.map Prod.fst) := by
  obtain ⟨⟨row, hrow, -, hpend⟩, -⟩ := h.waiting (K.primary, t) (by simp)
  have hp' : d.cl.hasPendingUpdates = true := by
    unfold Client.hasPendingUpdates VersionDb.hasPendingInstall
    exact List.any_eq_true.2 ⟨row, hrow, hpend⟩
  obtain ⟨t', hl, hn, hs, hcid⟩ := loadPending_run he (fun r hr _ => h.legible r hr) (by rw [h.ecus]; exact hser) (by rw [h.ecus]; exact hhw) (h.waiting (K.primary, t) (by simp))
  unfold finalizeAfterReboot
  refine WillAt.gets ?_
  simp only [id, hp', Bool.not_true, Bool.false_eq_true, if_false, h.primary]
  refine WillAt.liftBind (a := some t') hl ?_
  simp only
  refine (WillAt.bind (n := 1) (k := K.secondaries.length + 9) (h.act _) (fun _ d1 h1 => WillAt.askBind ?_)).more (by omega)
  replace h1 := h1.forget (acts' := acts) (fun a ha => List.mem_cons_of_mem _ ha)
  obtain ⟨desc, hr⟩ := hfin d1.n t'
  refine WillAt.liftBind (a := ⟨true, .ok, desc⟩) hr ?_
  refine WillAt.liftBind (a := false) (by show ResultCode.ok.same .needCompletion = _; decide +kernel) ?_
  simp only [Bool.false_eq_true, if_false, if_true]
  have hrow' : ∃ row, (⟨true, .ok, desc⟩ : InstResult).toRow = .ok row := ⟨_, rfl⟩
  obtain ⟨row', hrow'⟩ := hrow'
  let d1' : Dev := { d1 with n := d1.n + 1 }
  have h1' : Progress (Legible env) K L ts [(K.primary, t)] done acts d1' := h1.asked
  have hw : ∀ d : Dev, inClient (saveEcuResult K.primary ⟨true, .ok, desc⟩) d =
      inClient (cwrite (fun cl => { cl with ecuResults := upsert K.primary row' cl.ecuResults })) d := by
    intro d
    rw [inClient_eq, inClient_eq]
    unfold saveEcuResult
    rw [run_bind (m := lift (InstResult.toRow ⟨true, .ok, desc⟩)) (w := d.cl) (by rw [lift_eq, hrow'])]
  refine (WillAt.bind (n := 1) (k := K.secondaries.length + 8) (Q := fun _ d2 => ∃ k, d2 = { d1' with cl := { d1'.cl with
    ecuResults := upsert K.primary row' d1'.cl.ecuResults, w := { d1'.cl.w with fuel := k } } }) ?_ ?_).more (by omega)
  · intro hn
    rw [hw]
    exact WillAt.cwrite (Q := fun _ d2 => ∃ k, d2 = { d1' with cl := { d1'.cl with
      ecuResults := upsert K.primary row' d1'.cl.ecuResults, w := { d1'.cl.w with fuel := k } } }) (fun k => ⟨k, rfl⟩) hn
  rintro _ _ ⟨k, rfl⟩
  refine (WillAt.bind (n := 1) (k := K.secondaries.length + 7) (Q := fun _ d2 => Progress (fun _ => True) K L ts [] ((K.primary, t) :: done) acts d2) ?_ ?_).more (by omega)
  · unfold saveVersion
    exact WillAt.cwrite (fun k' => h1'.completed (k := k') (env := env) he hnew hrow' hn hs)
  intro _ d2 h2
  have hdrop : WillAt 1 d2 (inClient (inWorld Director.dropTargets)) (fun _ d3 => d3.cl = { d2.cl with w := d3.cl.w } ∧ d3.log = d2.log) := by
    intro hn
    obtain ⟨k, hk⟩ : ∃ k, d2.cl.w.fuel = k + 1 := ⟨d2.cl.w.fuel - 1, by omega⟩
    obtain ⟨dir, hd⟩ := dropTargets_run hk
    exact ⟨(), _, inClient_ok.2 ⟨_, inWorld_run hd, rfl⟩, ⟨rfl, rfl⟩, by show _ ≤ k + 1; omega⟩
  refine (WillAt.bind (n := 1) (k := K.secondaries.length + 6) hdrop ?_).more (by omega)
  rintro _ d3 ⟨h3, hlog⟩
  have hp3 : d3.cl.primary = K.primary := by rw [h3]; exact h2.primary
  have hh3 : d3.cl.primaryHw = K.primaryHw := by rw [h3]; exact h2.hw
  have hs3 : d3.cl.secondaries = K.secondaries := by rw [h3]; exact h2.secs
  have he3 : d3.cl.v.ecus = K.v.ecus := by rw [h3]; exact h2.ecus
  have hc3 : d3.cl.counters = K.counters := by rw [h3]; exact h2.counters
  have hpr := h2.reset (d' := d3) (by rw [h3]) (by rw [h3]) hlog
  have hdev := hpr.device (by rw [he3]; exact hser) (fun x hx => by
    obtain ⟨a, hw, b⟩ := hreg x hx
    exact ⟨by rw [he3]; exact a, hw, hasEcu_congr b hp3 hh3 hs3⟩) (by simp)
  refine WillAt.gets ?_
  simp only [id]
  refine WillAt.liftBind hdev ?_
  obtain ⟨row3, hrow3, hread⟩ := installedResult_row
  have hw3 : ∀ d : Dev, inClient (storeDeviceResult installedResult "Installation succesful" t'.correlationId) d =
      inClient (cwrite (fun cl => { cl with devResult := some ⟨row3, "Installation succesful", t'.correlationId⟩ })) d := by
    intro d
    rw [inClient_eq, inClient_eq]
    unfold storeDeviceResult
    rw [run_bind (m := lift installedResult.toRow) (w := d.cl) (by rw [lift_eq, hrow3])]
  refine (WillAt.bind (n := 1) (k := K.secondaries.length + 5) (Q := fun _ d4 => ∃ k, d4 = { d3 with cl := { d3.cl with
    devResult := some ⟨row3, "Installation succesful", t'.correlationId⟩, w := { d3.cl.w with fuel := k } } }) ?_ ?_).more (by omega)
  · intro hn
    rw [hw3]
    exact WillAt.cwrite (Q := fun _ d4 => ∃ k, d4 = { d3 with cl := { d3.cl with
      devResult := some ⟨row3, "Installation succesful", t'.correlationId⟩, w := { d3.cl.w with fuel := k } } }) (fun k => ⟨k, rfl⟩) hn
  rintro _ d4 ⟨k4, h4⟩
  have hp4 := hpr.reset (d' := d4) (by rw [h4]) (by rw [h4]) (by rw [h4])
  have he4 : d4.cl.v.ecus = K.v.ecus := by rw [h4]; exact he3
  obtain ⟨items, hi1, hi2, hi3⟩ := hp4.results (by rw [he4]; exact hser) (fun x hx => by rw [he4]; exact (hreg x hx).1) (by simp)
  have hload : d4.cl.loadDeviceResult = .ok (some (⟨true, ⟨0, "OK"⟩, "Device has been successfully installed"⟩, "Installation succesful", t'.correlationId)) := by
    unfold Client.loadDeviceResult
    rw [h4]
    simp only
    rw [hread]
    rfl
  have hput := putManifest_will (env := env) hh (idle_pending hp4.still) (by rw [h4]; show ∀ x ∈ d3.cl.counters, _; rw [hc3]; exact hc) hload hi1
  have hs4 : d4.cl.secondaries = K.secondaries := by rw [h4]; exact hs3
  rw [hs4] at hput
  refine (WillAt.bind (n := K.secondaries.length + 5) (k := 0) hput ?_)
  intro _ d5 h5
  refine WillAt.pure ⟨d4, ⟨true, ⟨0, "OK"⟩, "Device has been successfully installed"⟩, "Installation succesful", items, hp4, ?_, ⟨rfl, rfl⟩, fun y hy => (hi2 y hy).1, fun x hx => hi3 x hx⟩
  rw [← hcid]
  exact h5

end Reboot

/-! ### Starting up -/

theorem loadSerials_run : ∀ (l : List EcuRow), (∀ e ∈ l, mkEcuSerial e.serial = .ok e.serial) → (∀ e ∈ l, mkHwId e.hwid = .ok e.hwid) →
    VersionDb.loadSerialsLoop l = .ok (l.map (fun e => (e.serial, e.hwid)))
  | [], _, _ => rfl
  | e :: l, h1, h2 => by
    have := loadSerials_run l (fun e he => h1 e (by simp [he])) (fun e he => h2 e (by simp [he]))
    unfold VersionDb.loadSerialsLoop
    rw [h1 e (by simp), h2 e (by simp)]
    show (VersionDb.loadSerialsLoop l >>= _) = _
    rw [this]
    rfl

theorem mapM_serials {α : Type} : ∀ (l : List (String × α)), (∀ x ∈ l, mkEcuSerial x.1 = .ok x.1) →
    ∃ out, (l.mapM (fun p => mkEcuSerial p.1) : Except Err (List String)) = .ok out
  | [], _ => ⟨[], rfl⟩
  | x :: l, h => by
    obtain ⟨out, h1⟩ := mapM_serials l (fun y hy => h y (by simp [hy]))
    refine ⟨x.1 :: out, ?_⟩
    rw [List.mapM_cons, h x (by simp), h1]
    rfl

theorem loadEcuSerials_run {v : VersionDb} {cfg : EcuConfig} (hser : ∀ e ∈ v.ecus, mkEcuSerial e.serial = .ok e.serial)
    (hhw : ∀ e ∈ v.ecus, mkHwId e.hwid = .ok e.hwid) (he : v.ecus.map (fun e => (e.serial, e.hwid)) = cfg.serials) :
    v.loadEcuSerials = .ok (some (cfg.primary :: cfg.secondaries)) := by
  unfold VersionDb.loadEcuSerials
  rw [loadSerials_run _ hser hhw, he]
  rfl

/-- What registration may do on a device that is registered. -/
structure Inited (cl cl' : Client) : Prop where
  same : cl' = { cl with w := { cl.w with fuel := cl'.w.fuel }, counters := cl'.counters }
  counters : ∀ x ∈ cl'.counters, x ∈ cl.counters ∨ x.2 = 0
  fuel : cl.w.fuel ≤ cl'.w.fuel + 1

theorem initEcus_run {cl : Client} {cfg : EcuConfig} {ok : Bool} (hser : ∀ e ∈ cl.v.ecus, mkEcuSerial e.serial = .ok e.serial)
    (hhw : ∀ e ∈ cl.v.ecus, mkHwId e.hwid = .ok e.hwid) (he : cl.v.ecus.map (fun e => (e.serial, e.hwid)) = cfg.serials) (hf : 1 ≤ cl.w.fuel) :
    ∃ cl', initEcus cfg ok cl = (.ok (), cl') ∧ Inited cl cl' := by
  have hload := loadEcuSerials_run hser hhw he
  have hp : ∃ e ∈ cl.v.ecus, (e.serial, e.hwid) = cfg.primary := by
    have : cfg.primary ∈ cl.v.ecus.map (fun e => (e.serial, e.hwid)) := by rw [he]; simp [EcuConfig.serials]
    obtain ⟨e, h1, h2⟩ := List.mem_map.1 this
    exact ⟨e, h1, h2⟩
  obtain ⟨e, h1, h2⟩ := hp
  have hs : mkEcuSerial cfg.primary.1 = .ok cfg.primary.1 := by rw [← h2]; exact hser e h1
  have hh : mkHwId cfg.primary.2 = .ok cfg.primary.2 := by rw [← h2]; exact hhw e h1
  have hneed : needsRegistration (some (cfg.primary :: cfg.secondaries)) cfg = false := by
    unfold needsRegistration EcuConfig.serials
    simp
    exact fun a b h _ => h
  have hcnt : ∃ cl', initReportCounter cl = (.ok (), cl') ∧ Inited cl cl' := by
    obtain ⟨out, hm⟩ := mapM_serials cl.loadCounters (fun x hx => by
      obtain ⟨⟨e, he, hs⟩, -⟩ := mem_joinEcus hx
      rw [← hs]
      exact hser e he)
    unfold initReportCounter
    rw [run_bind (by rw [gets_eq])]
    simp only [id]
    rw [run_bind (m := lift (cl.loadCounters.mapM (fun p => mkEcuSerial p.1))) (w := cl) (by rw [lift_eq, hm])]
    split
    · exact ⟨cl, rfl, rfl, fun x hx => .inl hx, by omega⟩
    · obtain ⟨k, hk⟩ : ∃ k, cl.w.fuel = k + 1 := ⟨cl.w.fuel - 1, by omega⟩
      refine ⟨{ cl with counters := upsert cfg.primary.1 0 cl.counters, w := { cl.w with fuel := k } }, ?_, rfl, ?_, by show _ ≤ k + 1; omega⟩
      · rw [run_bind (m := lift cl.v.loadEcuSerials) (w := cl) (by rw [lift_eq, hload])]
        simp only
        unfold cwrite
        simp only [hk]
      · intro x hx
        rcases mem_upsert_iff.1 hx with ⟨h, -⟩ | rfl
        · exact .inl h
        · exact .inr rfl
  obtain ⟨cl', hc1, hc2⟩ := hcnt
  refine ⟨cl', ?_, hc2⟩
  unfold initEcus
  rw [run_bind (by rw [gets_eq])]
  simp only [id]
  rw [run_bind (m := lift cl.v.loadEcuSerials) (w := cl) (by rw [lift_eq, hload])]
  rw [run_bind (m := lift (mkEcuSerial cfg.primary.1)) (w := cl) (by rw [lift_eq, hs])]
  rw [run_bind (m := lift (mkHwId cfg.primary.2)) (w := cl) (by rw [lift_eq, hh])]
  rw [hneed]
  simp only [Bool.false_eq_true, if_false]
  exact hc1

/-- The process starts on a device whose Primary was waiting for the reboot. -/
theorem startUp_will {env : Env} {p : Peers} {K : Client} {L : List Action} {ts : Targets} {done : List (String × Target)} {acts : List Action} {d d0 : Dev}
    {cfg : EcuConfig} {ok : Bool} {t : Target} (hh : Hears p) (hfin : ∀ n t, Installed (p.finalize n t))
    (h : Progress (Legible env) K L ts [(K.primary, t)] done acts d) (hnew : K.primary ∉ done.map Prod.fst) (he : K.primary ≠ "")
    (hser : ∀ e ∈ K.v.ecus, mkEcuSerial e.serial = .ok e.serial) (hcfg : Configured K cfg)
    (hreg : ∀ x ∈ (K.primary, t) :: done, (∃ e ∈ K.v.ecus, e.serial = x.1) ∧ ∃ hw, HasEcu K x.1 hw) (hc : ∀ x ∈ K.counters, x.2 < int64Max)
    (hv : d0.cl.v = d.cl.v) (hr : d0.cl.ecuResults = d.cl.ecuResults) (hl : d0.log = d.log) (hcn : d0.cl.counters = d.cl.counters) :
    WillAt (K.secondaries.length + 11) d0 (startUp env p cfg ok) (fun _ d' => ∃ d1 r raw items,
      Progress (fun _ => True) d1.cl L d1.cl.w.dir.targets [] ((K.primary, t) :: done) acts d1 ∧
      Sent d1 d' (some (r, raw, t.correlationId, items)) ∧ Read r ∧ (∀ y ∈ items, Read y.2) ∧
      ∀ x ∈ (K.primary, t) :: done, x.1 ∈ items.map Prod.fst) := by
  intro hn
  have hhw : ∀ e ∈ K.v.ecus, mkHwId e.hwid = .ok e.hwid := by
    intro e he
    unfold mkHwId
    rw [if_neg (by have := hcfg.hwids e he; omega)]
  have hve : d0.cl.v.ecus = K.v.ecus := by rw [hv]; exact h.ecus
  let cl1 : Client := { d0.cl with secondaries := cfg.secondaries }
  obtain ⟨cl2, h1, h2⟩ := initEcus_run (cl := cl1) (cfg := cfg) (ok := ok) (by show ∀ e ∈ d0.cl.v.ecus, _; rw [hve]; exact hser)
    (by show ∀ e ∈ d0.cl.v.ecus, _; rw [hve]; exact hhw) (by show d0.cl.v.ecus.map _ = _; rw [hve]; exact hcfg.ecus) (by show 1 ≤ d0.cl.w.fuel; omega)
  have hv2 : cl2.v = d.cl.v := by rw [h2.same]; exact hv
  have hload : cl2.v.loadEcuSerials = .ok (some (cfg.primary :: cfg.secondaries)) := by
    rw [hv2]
    exact loadEcuSerials_run (by rw [h.ecus]; exact hser) (by rw [h.ecus]; exact hhw) (by rw [h.ecus]; exact hcfg.ecus)
  let d3 : Dev := { d0 with cl := { cl2 with primary := cfg.primary.1, primaryHw := cfg.primary.2 }, cache := addSecondaryRows cfg.secondaries d0.cache }
  have hp3 : d3.cl.primary = K.primary := hcfg.primary.symm
  have hs3 : d3.cl.secondaries = K.secondaries := by
    show cl2.secondaries = _
    rw [h2.same]
    exact hcfg.secs.symm
  have he3 : d3.cl.v.ecus = K.v.ecus := by
    show cl2.v.ecus = _
    rw [hv2]
    exact h.ecus
  have hpr := h.reset (d' := d3) hv2 (by show cl2.ecuResults = _; rw [h2.same]; exact hr) hl
  rw [← hp3] at hpr
  have hfz := finalize_will hh hfin hpr (by rw [hp3]; exact hnew) (by rw [hp3]; exact he) (by rw [he3]; exact hser) (by rw [he3]; exact hhw)
    (by
      intro x hx
      rw [hp3] at hx
      obtain ⟨a, hw, b⟩ := hreg x hx
      exact ⟨by rw [he3]; exact a, hw, hasEcu_congr b hp3 hcfg.hw.symm hs3⟩)
    (by
      intro x hx
      rcases h2.counters x hx with hx | hx
      · have hx : x ∈ d0.cl.counters := hx
        rw [hcn, h.counters] at hx
        exact hc x hx
      · rw [hx]; decide)
  have hfu : d0.cl.w.fuel ≤ cl2.w.fuel + 1 := h2.fuel
  rw [hs3, hp3] at hfz
  obtain ⟨u, d', h4, h5, h6⟩ := hfz (by show _ ≤ cl2.w.fuel; omega)
  have h6' : cl2.w.fuel ≤ d'.cl.w.fuel + (K.secondaries.length + 10) := h6
  refine ⟨u, d', ?_, h5, by omega⟩
  unfold startUp
  rw [run_bind (inClient_ok.2 ⟨cl1, by rw [modify_eq], rfl⟩)]
  rw [run_bind (inClient_ok.2 ⟨cl2, h1, rfl⟩)]
  rw [run_bind (by rw [modify_eq])]
  rw [run_bind (by rw [gets_eq])]
  refine (run_bind (m := lift cl2.v.loadEcuSerials) (by rw [lift_eq, hload])).trans ?_
  simp only
  rw [run_bind (inClient_ok.2 ⟨{ cl2 with primary := cfg.primary.1, primaryHw := cfg.primary.2 }, by rw [modify_eq], rfl⟩)]
  exact h4

end Aktualizr
