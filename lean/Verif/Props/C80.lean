import Verif.Props.C62
import Verif.Lemmas.HonestReboot

/-!
# C80 An update that needs a reboot of the Primary is completed after it

As C62, but the Primary's package manager answers that the installation needs a reboot. The cycle
leaves the Primary's version pending and sends no success; after the reboot the first start of the
process records it as current and reports the success of the whole installation, under the
correlation id of the Director's metadata, although that metadata is not at hand any more.
-/

namespace Aktualizr

open M Spec

theorem Progress.relog {P : VersionRow → Prop} {K : Client} {L : List Action} {ts : Targets} {wait done : List (String × Target)} {acts : List Action} {d : Dev}
    (h : Progress P K L ts wait done acts d) : Progress P K d.log ts wait done [] d :=
  ⟨h.1, h.2, h.3, h.4, h.5, h.6, h.7, h.8, h.9, h.10, h.11, h.12, ⟨[], by simp, by simp⟩, h.14, h.15⟩

/-- **C80** A genuine update whose installation on the Primary needs a reboot. The cycle installs it on
the Secondaries, records it as pending on the Primary, and ends (asking for a reboot if configured so).
The next start of the process records it as current on every ECU, sends the report of the success for the device
and all these ECUs, under the Director's correlation id, and nothing is left pending or to report. -/
theorem C80_completed {c : Ctx} {p p2 : Peers} {f : Fetched} {force : Bool} {d : Dev}
    {dFirst : String} {dRaws : List String} {dLast : Root} {dRaw : String} {ts : Targets}
    {iFirst : String} {iRaws : List String} {iLast : Root} {rawT rawS iRaw : String} {tm : TimestampMeta} {sn : Snapshot} {its : Targets} {k : Nat}
    {cfg : EcuConfig} {ok : Bool} {net : Nat → Repo → String → Int → Option String} {clock : Nat → TimeStamp} {fuel : Nat}
    (hd : HonestDirector c d.cl.w.db dFirst dRaws dLast dRaw ts) (hi : HonestImage c d.cl.w.db iFirst iRaws iLast rawT rawS iRaw tm sn its)
    (hfit : ∀ t ∈ ts.targets, FitsDevice c.env d.cl t)
    (hprm : ∃ t ∈ ts.targets, Outdated c.env d.cl t ∧ ∃ hw, (d.cl.primary, hw) ∈ t.ecus)
    (hlist : ∀ t ∈ ts.targets, Outdated c.env d.cl t → Attainable c d.cl.w.db.delegations rawS its k t)
    (hone : ∀ t ∈ ts.targets, OneHashEach t) (hreg : ∀ t ∈ ts.targets, ∀ e ∈ t.ecus, ∃ row ∈ d.cl.v.ecus, row.serial = e.1)
    (hsound : ∀ t ∈ ts.targets, WellHashed t ∧ CustomRereads c.env t) (hleg : ∀ r ∈ d.cl.v.rows, Legible c.env r)
    (hkept : WellKept d.cl) (hp : Supports c p dLast iLast) (hreboot : ∀ n t, AsksReboot (p.install n t)) (hfetch : ∀ n t, f n t = true)
    (hfuel : cycleCost d.cl.secondaries.length dRaws.length iRaws.length k dLast iLast ts ≤ d.cl.w.fuel)
    (hcfg : Configured d.cl cfg) (hh : Hears p2) (hfin : ∀ n t, Installed (p2.finalize n t)) (hfuel2 : d.cl.secondaries.length + 11 ≤ fuel) :
    ∃ d1 mid1, uptaneCycle c p f force d = (.ok (!force), d1) ∧ d1.log = d.log ++ mid1 ∧ d1.cl.hasPendingUpdates = true ∧
      (∀ t ∈ ts.targets, Outdated c.env d.cl t →
        (∀ e ∈ t.ecus, e.1 = d.cl.primary → RecordedPending d1.cl.v e.1 { t with correlationId := ts.correlationId }) ∧
        (∀ e ∈ t.ecus, e.1 ≠ d.cl.primary → RecordedCurrent d1.cl.v e.1 t) ∧
        ∃ l u, Listed c d.cl.w.db.delegations rawS its t l ∧ Offers t l u ∧ ∀ e ∈ t.ecus, InstallsOn d.cl.primary e.1 ts.correlationId u ∈ mid1) ∧
      ∃ d2 mid2 m r raw items, startUp c.env p2 cfg ok ((⟨.init cfg ok, net, clock, p2, fuel⟩ : DevEvent).start d1) = (.ok (), d2) ∧
        (∀ t ∈ ts.targets, Outdated c.env d.cl t → ∀ e ∈ t.ecus, RecordedCurrent d2.cl.v e.1 t) ∧
        d2.log = d1.log ++ mid2 ++ [.sent m true] ∧
        m.report = some (r, raw, ts.correlationId, items) ∧ r.success = true ∧ r.code.num = 0 ∧ (∀ y ∈ items, y.2.success = true) ∧
        (∀ t ∈ ts.targets, Outdated c.env d.cl t → ∀ e ∈ t.ecus, ∃ y ∈ items, y.1 = e.1) ∧
        d2.cl.devResult = none ∧ d2.cl.ecuResults = [] ∧ d2.cl.hasPendingUpdates = false := by
  obtain ⟨tp, htp, hop, hwp, hep⟩ := hprm
  unfold cycleCost at hfuel
  obtain ⟨res, d0, e1, hprep⟩ := fetchMeta_prepares (k := k) hd hi hfit ⟨tp, htp, hop⟩ hlist hone hreg hkept hp.toHears (by omega)
  have hcost := installCost_le hprep.sublist dLast iLast
  have hcl := hprep.client
  have h5 := hprep.offers
  have hsecs : d0.cl.secondaries = d.cl.secondaries := by rw [hcl]
  have hprim : d0.cl.primary = d.cl.primary := by rw [hcl]
  have hhwp : d0.cl.primaryHw = d.cl.primaryHw := by rw [hcl]
  have hv0 : d0.cl.v = d.cl.v := by rw [hcl]
  have hf7 := hprep.fuel
  -- the Primary's target
  obtain ⟨up, mp, hup, -, hoffp⟩ := h5 tp htp hop
  have hfind : ∃ u, res.updates.find? (fun t => t.isForEcu d0.cl.primary) = some u := by
    cases hf : res.updates.find? (fun t => t.isForEcu d0.cl.primary) with
    | some u => exact ⟨u, rfl⟩
    | none =>
      refine absurd ?_ (List.find?_eq_none.1 hf up hup)
      unfold Target.isForEcu
      refine List.any_eq_true.2 ⟨(d.cl.primary, hwp), by rw [hoffp]; exact hep, by simp [hprim]⟩
  obtain ⟨u, hf⟩ := hfind
  have hsafe : ∀ t ∈ res.updates, ∀ cid, RowSafe c.env (Legible c.env) { t with correlationId := cid } := by
    intro t ht cid
    obtain ⟨t0, l, h0, -, ho⟩ := hprep.only t ht
    rw [ho]
    exact rowSafe_legible (t := { t0 with uri := _ }) (hsound t0 h0) cid
  obtain ⟨b, d1, e3, ⟨rfl, done, hall⟩, -⟩ := cycleDownload_waits (force := force) hfetch hp hreboot hprep.authorised hf hsafe
    (by rw [hv0]; exact hleg) (by rw [hcl]) (by omega)
  obtain ⟨acts, hpr, hacts⟩ := hall.progress
  obtain ⟨m1, k1, hlog1⟩ := hprep.log
  obtain ⟨l, hl, hin⟩ := hpr.log
  have hplan := hprep.authorised.planned
  have hregA : ∀ x ∈ (d0.cl.primary, { u with correlationId := ts.correlationId }) :: done, (∃ e ∈ d0.cl.v.ecus, e.serial = x.1) ∧ ∃ hw, HasEcu d0.cl x.1 hw := by
    intro x hx
    obtain ⟨y, hy, he⟩ := hall.only x hx
    rw [← he]
    exact ⟨(hplan.ecu y hy).2.2, _, (hplan.ecu y hy).1⟩
  have hmem : ∀ t ∈ ts.targets, Outdated c.env d.cl t → ∀ e ∈ t.ecus, (e.1 = d0.cl.primary ∧ u.filename = t.filename ∧ u.sha256Hash = t.sha256Hash) ∨
      ∃ x ∈ done, x.1 = e.1 ∧ x.2.filename = t.filename ∧ x.2.sha256Hash = t.sha256Hash := by
    intro t ht ho e he
    obtain ⟨v, mm, hv, -, hoff⟩ := h5 t ht ho
    have hx : (v, e.1, e.2) ∈ assignments res.updates := mem_assignments.2 ⟨hv, by rw [hoff]; exact he⟩
    rcases hall.covers _ hx with h2 | h1
    · rw [List.mem_singleton, Prod.mk.injEq] at h2
      have h1 := h2.1
      have hfn : v.filename = u.filename := by have := congrArg Target.filename h2.2; exact this
      have hha : v.sha256Hash = u.sha256Hash := by have := congrArg Target.sha256Hash h2.2; exact this
      refine .inl ⟨h1, ?_, ?_⟩
      · rw [← hfn, hoff]
      · rw [← hha, hoff]; rfl
    · exact .inr ⟨_, h1, rfl, by rw [hoff], by rw [hoff]; rfl⟩
  have hcur : ∀ (v : VersionDb) (s : String) (a b : Target), RecordedCurrent v s a → a.filename = b.filename → a.sha256Hash = b.sha256Hash → RecordedCurrent v s b := by
    intro v s a b h1 h2 h3
    unfold RecordedCurrent at *
    rw [← h2, ← h3]
    exact h1
  have hwait := hpr.waiting (d0.cl.primary, { u with correlationId := ts.correlationId }) (by simp)
  refine ⟨d1, [.signed d.cl.primary k1, .sent m1 true] ++ l, ?_, ?_, ?_, ?_, ?_⟩
  · unfold uptaneCycle
    rw [run_bind e1]
    exact e3
  · rw [hl, hlog1]
    simp
  · obtain ⟨⟨row, hrow, -, hpend⟩, -⟩ := hwait
    unfold Client.hasPendingUpdates VersionDb.hasPendingInstall
    exact List.any_eq_true.2 ⟨row, hrow, hpend⟩
  · intro t ht ho
    refine ⟨?_, ?_, ?_⟩
    · intro e he hep
      rcases hmem t ht ho e he with ⟨-, h2, h3⟩ | ⟨x, hx, h1, -⟩
      · have := hwait
        unfold RecordedPending at this ⊢
        have h3' : ({ t with correlationId := ts.correlationId } : Target).sha256Hash = ({ u with correlationId := ts.correlationId } : Target).sha256Hash := h3.symm
        rw [h3', hep, ← hprim]
        show (_ ∧ (∀ row ∈ d1.cl.v.rows, _ → _ → row.name = t.filename ∧ _) ∧ _)
        rw [← h2]
        exact this
      · refine absurd (List.mem_map_of_mem (f := Prod.fst) hx) ?_
        rw [h1, hep, ← hprim]
        exact hall.apart _ (List.mem_singleton.2 rfl)
    · intro e he hep
      rcases hmem t ht ho e he with ⟨h1, -⟩ | ⟨x, hx, h1, h2, h3⟩
      · exact absurd (h1.trans hprim) hep
      · have := hpr.current x hx
        rw [h1] at this
        exact hcur _ _ _ _ this h2 h3
    · obtain ⟨v, mm, hv, hlst, hoff⟩ := h5 t ht ho
      refine ⟨mm, v, hlst, hoff, fun e he => ?_⟩
      have hx : (v, e.1, e.2) ∈ assignments res.updates := mem_assignments.2 ⟨hv, by rw [hoff]; exact he⟩
      obtain ⟨ha, hb⟩ := hacts _ hx
      refine List.mem_append.2 (.inr (hin _ ?_))
      unfold InstallsOn
      split
      · next h => exact ha (h.trans hprim.symm)
      · next h => exact hb (fun h' => h (h'.trans hprim))
  · have hpne : d0.cl.primary ≠ "" := by
      obtain ⟨x0, hx0, -, h3⟩ := primary_assigned (List.mem_of_find?_eq_some hf) (by simpa using List.find?_some hf)
      rw [← h3]
      exact (hplan.ecu x0 hx0).2.1
    have hstart := startUp_will (env := c.env) (ok := ok) (cfg := cfg) (d0 := (⟨.init cfg ok, net, clock, p2, fuel⟩ : DevEvent).start d1) hh hfin hpr.relog
      (hall.apart _ (List.mem_singleton.2 rfl)) hpne hprep.authorised.serials
      ⟨by rw [hprim]; exact hcfg.primary, by rw [hhwp]; exact hcfg.hw, by rw [hsecs]; exact hcfg.secs, by rw [hv0]; exact hcfg.ecus, by rw [hv0]; exact hcfg.hwids⟩
      hregA (fun x hx => by
        obtain ⟨y, hy, hxy⟩ := hprep.counters x hx
        have := hkept.counters y hy
        omega) rfl rfl rfl rfl
    obtain ⟨_, d2, e4, ⟨d3, r, raw, items, hp3, hsent, hr, hit, hcov⟩, -⟩ := hstart (by rw [hsecs]; exact hfuel2)
    obtain ⟨m, k2, hlog2, hm⟩ := hsent.log
    obtain ⟨l2, hl2, -⟩ := hp3.log
    have hv2 : d2.cl.v = d3.cl.v := by rw [hsent.cl]
    refine ⟨d2, l2 ++ [.signed d3.cl.primary k2], m, r, raw, items, e4, ?_, ?_, hm, hr.1, by rw [hr.2], fun y hy => (hit y hy).1, ?_, by rw [hsent.cl], by rw [hsent.cl], ?_⟩
    · intro t ht ho e he
      rw [hv2]
      rcases hmem t ht ho e he with ⟨h1, h2, h3⟩ | ⟨x, hx, h1, h2, h3⟩
      · have := hp3.current (d0.cl.primary, { u with correlationId := ts.correlationId }) (by simp)
        rw [h1]
        exact hcur _ _ _ _ this h2 h3
      · have := hp3.current x (List.mem_cons_of_mem _ hx)
        rw [h1] at this
        exact hcur _ _ _ _ this h2 h3
    · rw [hlog2, hl2]
      simp
    · intro t ht ho e he
      rcases hmem t ht ho e he with ⟨h1, -⟩ | ⟨x, hx, h1, -⟩
      · have := hcov (d0.cl.primary, { u with correlationId := ts.correlationId }) (by simp)
        rw [← h1] at this
        exact List.mem_map.1 this
      · have := hcov x (List.mem_cons_of_mem _ hx)
        rw [h1] at this
        exact List.mem_map.1 this
    · refine idle_pending (fun r hr => hp3.still r ?_)
      rw [← hv2]
      exact hr

/-! ### Concrete case -/

namespace Toy

/-- As `helpful`, but the Primary's package manager needs a reboot. -/
def needsReboot : Peers := { helpful with install := fun _ _ => .ok ⟨false, .needCompletion, "reboot"⟩ }

theorem needsReboot_is : Supports (deleCtx both) needsReboot (rootOf "dr1") (rootOf "ir1") :=
  have h := helpful_is.toSupports
  { secManifest := h.secManifest, secKey := h.secKey, putManifest := h.putManifest, verify := h.verify, reachable := h.reachable,
    dRoots := h.dRoots, iRoots := h.iRoots, putRoot := h.putRoot, putMetadata := h.putMetadata, sendFirmware := h.sendFirmware, secInstall := h.secInstall }

/-- The configuration of the device. -/
def bothEcus : EcuConfig := ⟨("e1", "h1"), [("e2", "h1")]⟩

theorem forBoth_sound : ∀ t ∈ forBoth.targets, WellHashed t ∧ CustomRereads E t := by
  intro t ht
  have h := (forBoth_mem ht).2.2.1
  refine ⟨⟨?_, ?_, ?_⟩, .inr ?_⟩
  · rw [h]
    intro x hx
    rw [List.mem_singleton.1 hx]
    refine ⟨.inl rfl, by decide +kernel, by decide +kernel, by decide +kernel⟩
  · rw [h]
    exact ⟨_, List.mem_singleton.2 rfl, rfl⟩
  · rw [h]
    rfl
  · have h1 : forBoth.targets.map (fun t => E.canon t.custom) = ["?"] := by decide +kernel
    have h1 := map_mem h1 ht
    rw [List.mem_singleton.1 h1]
    have h2 : E.parseJson "?" = .null := by
      have h3 : (docs.lookup "?").isNone = true := by decide +kernel
      show (docs.lookup "?").getD .null = .null
      rw [Option.isNone_iff_eq_none.1 h3]
      rfl
    rw [h2]
    exact fun t0 => ⟨_, rfl⟩

theorem newDevice_configured : Configured newDevice.cl bothEcus where
  primary := rfl
  hw := rfl
  secs := rfl
  ecus := rfl
  hwids := by
    intro e he
    have : e = ⟨"e1", "h1", true⟩ ∨ e = ⟨"e2", "h1", false⟩ := by simpa [newDevice, device] using he
    rcases this with rfl | rfl <;> decide

end Toy

/-- The hypotheses of `C80_completed` are met: a new device with a Secondary gets its first update,
its Primary needs a reboot; after the start that follows both ECUs have it and it is reported. -/
example : ∃ d1 d2 m r raw items, uptaneCycle (Toy.deleCtx Toy.both) Toy.needsReboot (fun _ _ => true) true Toy.newDevice = (.ok false, d1) ∧
    (∃ row ∈ d1.cl.v.rows, row.ecu = "e1" ∧ row.isPending = true) ∧
    startUp Toy.E Toy.helpful Toy.bothEcus false ((⟨.init Toy.bothEcus false, fun _ _ _ _ => none, fun _ => ⟨""⟩, Toy.helpful, 20⟩ : DevEvent).start d1) = (.ok (), d2) ∧
    (∀ e, e = "e1" ∨ e = "e2" → ∃ row ∈ d2.cl.v.rows, row.ecu = e ∧ row.isCurrent = true ∧ row.name = "fw" ∧ row.sha256 = "abc") ∧
    .sent m true ∈ d2.log ∧ m.report = some (r, raw, Toy.forBoth.correlationId, items) ∧ r.success = true := by
  obtain ⟨t, ht⟩ : ∃ t, t ∈ Toy.forBoth.targets := by
    cases hl : Toy.forBoth.targets with
    | nil => exact absurd hl Toy.firstDirector.some
    | cons t l => exact ⟨t, by simp⟩
  have hout : ∀ t ∈ Toy.forBoth.targets, Outdated Toy.E Toy.newDevice.cl t := fun t ht => ⟨("e1", "h1"), by simp [(Toy.forBoth_mem ht).2.1], by
    intro x hx
    cases hx⟩
  have hecu : ∀ t ∈ Toy.forBoth.targets, ∀ e ∈ t.ecus, e = ("e1", "h1") ∨ e = ("e2", "h1") := by
    intro t ht e he
    rw [(Toy.forBoth_mem ht).2.1] at he
    simpa using he
  obtain ⟨d1, mid, h1, -, -, hw, d2, mid2, m, r, raw, items, h2, h3, h4, h5, h6, -⟩ := C80_completed (p := Toy.needsReboot) (p2 := Toy.helpful)
    (f := fun _ _ => true) (force := true) (d := Toy.newDevice) (cfg := Toy.bothEcus) (ok := false) (net := fun _ _ _ _ => none) (clock := fun _ => ⟨""⟩) (fuel := 20)
    Toy.firstDirector Toy.firstImage
    (by
      intro t ht e he
      rcases hecu t ht e he with rfl | rfl
      · exact ⟨.inl ⟨rfl, rfl, by decide⟩, ⟨none, rfl, fun _ h => by cases h⟩, fun _ h => by cases h⟩
      · exact ⟨.inr ⟨by decide, by decide, rfl⟩, ⟨none, rfl, fun _ h => by cases h⟩, fun _ h => by cases h⟩)
    ⟨t, ht, hout t ht, "h1", by rw [(Toy.forBoth_mem ht).2.1]; exact List.mem_cons_self ..⟩
    (by
      intro t ht _
      obtain ⟨h1, h2, h3, h4, h5, -⟩ := Toy.forBoth_mem ht
      have hm : Toy.fwListed.targets.map (fun t => (t.filename, t.ecus, t.hashes, t.length, t.hwids)) =
        [("fw", [], [Hash.mk' .sha256 "abc"], 3, ["h1", "h2"])] := by decide +kernel
      cases hl : Toy.fwListed.targets with
      | nil => rw [hl] at hm; cases hm
      | cons m l =>
        rw [hl] at hm
        simp only [List.map_cons, List.cons.injEq, Prod.mk.injEq, List.map_eq_nil_iff] at hm
        obtain ⟨⟨a1, a2, a3, a4, a5⟩, -⟩ := hm
        refine attainable_listed (k := 0) (m := m) ⟨by rw [hl]; simp, ⟨by rw [a1, h1], by rw [a4, h4], ?_, ?_⟩, .inr (.inr ?_)⟩
        · rw [a3, h3]; exact ⟨_, List.mem_singleton.2 rfl, List.mem_singleton.2 rfl⟩
        · rw [a3, h3]
          intro h hh h' hh' _
          rw [List.mem_singleton.1 hh, List.mem_singleton.1 hh']
        · unfold HardwareAllowed
          rw [h2, h5, a2, a5]
          refine ⟨rfl, by simp, rfl, by simp, fun ecu hw h => ?_⟩
          simp only [List.mem_cons, Prod.mk.injEq, List.not_mem_nil, or_false] at h
          rcases h with ⟨-, rfl⟩ | ⟨-, rfl⟩ <;> simp)
    (by
      intro t ht h hh h' hh' _
      rw [(Toy.forBoth_mem ht).2.2.1] at hh hh'
      rw [List.mem_singleton.1 hh, List.mem_singleton.1 hh'])
    (by
      intro t ht e he
      rcases hecu t ht e he with rfl | rfl
      · exact ⟨⟨"e1", "h1", true⟩, by decide, rfl⟩
      · exact ⟨⟨"e2", "h1", false⟩, by decide, rfl⟩)
    Toy.forBoth_sound (fun r hr => by cases hr)
    Toy.newDevice_kept Toy.needsReboot_is (fun _ _ => ⟨_, rfl⟩) (fun _ _ => rfl) (by decide +kernel)
    Toy.newDevice_configured Toy.helpful_is.toHears (fun _ _ => ⟨_, rfl⟩) (by decide +kernel)
  obtain ⟨a1, a2, -, -, -, a6⟩ := Toy.forBoth_mem ht
  refine ⟨d1, d2, m, r, raw, items, h1, ?_, h2, ?_, by rw [h4]; simp, h5, h6⟩
  · exact (((hw t ht (hout t ht)).1 ("e1", "h1") (by rw [a2]; simp) rfl)).1
  · intro e he
    have : (e, "h1") ∈ t.ecus := by rw [a2]; rcases he with rfl | rfl <;> simp
    obtain ⟨⟨row, b1, b2, b3, b4, b5⟩, -⟩ := h3 t ht (hout t ht) _ this
    exact ⟨row, b1, b2, b3, by rw [b4, a1], by rw [b5, a6]⟩

end Aktualizr
