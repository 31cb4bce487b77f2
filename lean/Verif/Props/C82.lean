import Verif.Props.C80
import Verif.Lemmas.HonestPolls

/-!
# C82 An update that ECUs complete later is completed and reported once all have it

As C62, but any of the ECUs may answer that the installation is completed later: the Primary because
it needs a reboot, a Secondary because it installs at its next start. The cycle leaves those pending.
Until the last of them has the image, restarts of the process and checks for updates report nothing and
look for no other update; then the success of the whole installation is reported under the
correlation id of the Director's metadata.
-/

namespace Aktualizr

open M Spec

namespace Spec

/-- What the device is told while ECUs wait: the process is restarted with the same configuration (the Primary's package
manager then completes its installation, if it has one), or asked to check for updates. -/
inductive WhileWaiting (cl : Client) (ev : DevEvent) : Prop where
  | restart {cfg : EcuConfig} {ok : Bool} (call : ev.call = .init cfg ok) (same : Configured cl cfg) (finalize : ∀ n t, Installed (ev.peers.finalize n t)) :
    WhileWaiting cl ev
  | check (call : ev.call = .fetchMeta) : WhileWaiting cl ev

/-- The call goes well, sends no report and looks for no update. -/
def Idles (env : Env) (ev : DevEvent) (d d' : Dev) : Prop :=
  (∃ mid, d'.log = d.log ++ mid ∧ ∀ m ok, Action.sent m ok ∉ mid) ∧
  ((∃ cfg ok, ev.call = .init cfg ok ∧ startUp env ev.peers cfg ok (ev.start d) = (.ok (), d')) ∨
   (ev.call = .fetchMeta ∧ ∃ r, fetchMeta { env := env, net := ev.net, clock := ev.clock } ev.peers (ev.start d) = (.ok r, d') ∧ r.updates = [] ∧ r.status = .error))

/-- All these calls, one after the other. -/
def Idle (env : Env) : List DevEvent → Dev → Dev → Prop
  | [], d, d' => d' = d
  | ev :: evs, d, d' => ∃ d1, Idles env ev d d1 ∧ Idle env evs d1 d'

/-- After the report `m`, which tells of the success on all ECUs of the targets. -/
structure Reported (env : Env) (cl : Client) (ts : Targets) (m : Manifest) (d : Dev) : Prop where
  current : ∀ t ∈ ts.targets, Outdated env cl t → ∀ e ∈ t.ecus, RecordedCurrent d.cl.v e.1 t
  report : ∃ r raw items, m.report = some (r, raw, ts.correlationId, items) ∧ r.success = true ∧ r.code.num = 0 ∧ (∀ y ∈ items, y.2.success = true) ∧
    ∀ t ∈ ts.targets, Outdated env cl t → ∀ e ∈ t.ecus, ∃ y ∈ items, y.1 = e.1
  noResult : d.cl.devResult = none
  noResults : d.cl.ecuResults = []
  nonePending : d.cl.hasPendingUpdates = false

end Spec

/-- The waiting and the completed ECUs, in terms of the Director's targets. -/
structure Accounts (env : Env) (cl : Client) (ts : Targets) (later : String → Bool) (wait done : List (String × Target)) : Prop where
  forth : ∀ t ∈ ts.targets, Outdated env cl t → ∀ e ∈ t.ecus, ∃ x, x.1 = e.1 ∧ x.2.filename = t.filename ∧ x.2.sha256Hash = t.sha256Hash ∧
    if later e.1 then x ∈ wait ∧ x.2.correlationId = ts.correlationId else x ∈ done
  back : ∀ x ∈ wait, later x.1 = true ∧ ∃ t ∈ ts.targets, Outdated env cl t ∧ x.2.sha256Hash = t.sha256Hash ∧ ∃ e ∈ t.ecus, x.1 = e.1

theorem start_between {ev : DevEvent} {d : Dev} (h : ev.call = .fetchMeta) : (ev.start d).cl = { d.cl with w := (ev.start d).cl.w } ∧ (ev.start d).log = d.log := by
  unfold DevEvent.start
  rw [h]
  exact ⟨rfl, rfl⟩

theorem start_fuel {ev : DevEvent} {d : Dev} : (ev.start d).cl.w.fuel = ev.fuel := rfl

section Waiting

variable {env : Env} {cl : Client} {cid : String} {wait done : List (String × Target)} {d : Dev}

theorem idle_will {s : String × Target} : ∀ (evs : List DevEvent) {wait done : List (String × Target)} {d : Dev}, cl.primary ≠ "" → Standing env cl cid wait done d → s ∈ wait → s.1 ≠ cl.primary →
    (∀ ev ∈ evs, WhileWaiting cl ev ∧ Hears ev.peers ∧ 4 * cl.secondaries.length + 11 ≤ ev.fuel ∧ (ev.call = .fetchMeta → ShowsOther ev.peers s.1 s.2)) →
    ∃ d' wait' done', Idle env evs d d' ∧ Standing env cl cid wait' done' d' ∧ Moves wait done wait' done' ∧ s ∈ wait' ∧
      ((∃ ev ∈ evs, ev.call.isInit = true) → ∀ x ∈ wait', x.1 ≠ cl.primary)
  | [], wait, done, d, _, h, hs, _, _ => ⟨d, wait, done, rfl, h, Moves.refl, hs, by rintro ⟨ev, h, -⟩; cases h⟩
  | ev :: evs, wait, done, d, he, h, hs, hsp, hev => by
    have hstep : ∃ d1 wait1 done1, Idles env ev d d1 ∧ Standing env cl cid wait1 done1 d1 ∧ Moves wait done wait1 done1 ∧ s ∈ wait1 ∧
        (ev.call.isInit = true → ∀ x ∈ wait1, x.1 ≠ cl.primary) := by
      obtain ⟨h1, hh, hf, hso⟩ := hev ev (by simp)
      cases h1 with
      | restart call same finalize =>
        rename_i cfg ok
        have hne : wait ≠ [] := by rintro rfl; cases hs
        have hst : ev.start d = { d.off with cl := { d.off.cl with w := { d.off.cl.w with fuel := ev.fuel, tick := 0 } } } := by
          unfold DevEvent.start
          rw [call]
          rfl
        obtain ⟨_, d', h2, ⟨d1, w', dn, mid, h3, h4, h5, h6, h7, h8, -⟩, -⟩ := restart_will (ok := ok) (d0 := ev.start d) hh finalize h hne he same
          (by rw [hst]; rfl) (by rw [hst]; rfl) (by rw [hst]; rfl) (by rw [hst]; rfl) (by rw [start_fuel]; omega)
        have hs' : s ∈ w' := (h5 s).2 ⟨hs, hsp⟩
        have h8 := h8 (by rintro rfl; cases hs')
        subst h8
        exact ⟨d', w', dn, ⟨⟨mid, h6, h7⟩, .inl ⟨cfg, ok, call, h2⟩⟩, h3, h4, hs', fun _ x hx => ((h5 x).1 hx).2⟩
      | check call =>
        obtain ⟨hb, hl⟩ := start_between (d := d) call
        have h' := h.between (d' := ev.start d) hb
        obtain ⟨r, d', h2, ⟨rfl, h3, w', dn, h4, h5, h6, -⟩, -⟩ := pollEarly_will (c := { env := env, net := ev.net, clock := ev.clock }) hh h' ⟨s, hs, .inr (hso call)⟩ (by rw [start_fuel]; omega)
        refine ⟨d', w', dn, ⟨⟨[], by rw [h3, hl]; simp, by simp⟩, .inr ⟨call, _, h2, rfl, rfl⟩⟩, h4, h5, h6 s hs (.inr (hso call)), ?_⟩
        rw [call]
        intro h
        cases h
    obtain ⟨d1, w1, n1, h1, h2, h3, h4, h5⟩ := hstep
    obtain ⟨d2, w2, n2, h6, h7, h8, h9, h10⟩ := idle_will evs he h2 h4 hsp (fun e he => hev e (by simp [he]))
    refine ⟨d2, w2, n2, ⟨d1, h1, h6⟩, h7, h3.trans h8, h9, ?_⟩
    rintro ⟨e, hm, hi⟩
    rcases List.mem_cons.1 hm with rfl | hm
    · exact fun x hx => h5 hi x (h8.less x hx)
    · exact h10 ⟨e, hm, hi⟩

theorem checks_will {s : String × Target} : ∀ (evs : List DevEvent) {wait done : List (String × Target)} {d : Dev}, Standing env cl cid wait done d → s ∈ wait → s.1 = cl.primary →
    (∀ ev ∈ evs, ev.call = .fetchMeta ∧ Hears ev.peers ∧ 4 * cl.secondaries.length + 11 ≤ ev.fuel) →
    ∃ d' wait' done', Idle env evs d d' ∧ Standing env cl cid wait' done' d' ∧ Moves wait done wait' done' ∧ s ∈ wait' ∧
      ∀ x ∈ wait', x.1 ≠ cl.primary → ∀ ev ∈ evs, ¬ ShowsImage env ev.peers x.1 x.2
  | [], wait, done, d, h, hs, _, _ => ⟨d, wait, done, rfl, h, Moves.refl, hs, fun _ _ _ _ h => by cases h⟩
  | ev :: evs, wait, done, d, h, hs, hsp, hev => by
    obtain ⟨call, hh, hf⟩ := hev ev (by simp)
    obtain ⟨hb, hl⟩ := start_between (d := d) call
    have h' := h.between (d' := ev.start d) hb
    obtain ⟨r, d1, h2, ⟨rfl, h3, w', dn, h4, h5, h6, h7⟩, -⟩ := pollEarly_will (c := { env := env, net := ev.net, clock := ev.clock }) hh h' ⟨s, hs, .inl hsp⟩ (by rw [start_fuel]; omega)
    obtain ⟨d2, w2, n2, i1, i2, i3, i4, i5⟩ := checks_will evs h4 (h6 s hs (.inl hsp)) hsp (fun e he => hev e (by simp [he]))
    refine ⟨d2, w2, n2, ⟨d1, ⟨⟨[], by rw [h3, hl]; simp, by simp⟩, .inr ⟨call, _, h2, rfl, rfl⟩⟩, i1⟩, i2, h5.trans i3, i4, ?_⟩
    intro x hx hxp e he
    rcases List.mem_cons.1 he with rfl | he
    · exact fun h => h7 x (h5.less x (i3.less x hx)) hxp h (i3.less x hx)
    · exact i5 x hx hxp e he

end Waiting

section Cycle

variable {c : Ctx} {p : Peers} {f : Fetched} {force : Bool} {d : Dev}
    {dFirst : String} {dRaws : List String} {dLast : Root} {dRaw : String} {ts : Targets}
    {iFirst : String} {iRaws : List String} {iLast : Root} {rawT rawS iRaw : String} {tm : TimestampMeta} {sn : Snapshot} {its : Targets} {k : Nat}
    {later : String → Bool}

/-- The cycle. -/
theorem cycle_leaves
    (hd : HonestDirector c d.cl.w.db dFirst dRaws dLast dRaw ts) (hi : HonestImage c d.cl.w.db iFirst iRaws iLast rawT rawS iRaw tm sn its)
    (hfit : ∀ t ∈ ts.targets, FitsDevice c.env d.cl t)
    (hsome : ∃ t ∈ ts.targets, Outdated c.env d.cl t ∧ ∃ e ∈ t.ecus, later e.1 = true)
    (hlist : ∀ t ∈ ts.targets, Outdated c.env d.cl t → Attainable c d.cl.w.db.delegations rawS its k t)
    (hone : ∀ t ∈ ts.targets, OneHashEach t) (hreg : ∀ t ∈ ts.targets, ∀ e ∈ t.ecus, ∃ row ∈ d.cl.v.ecus, row.serial = e.1)
    (hsound : ∀ t ∈ ts.targets, WellHashed t ∧ CustomRereads c.env t) (hleg : ∀ r ∈ d.cl.v.rows, Legible c.env r)
    (hwide : ∀ e ∈ d.cl.v.ecus, e.hwid.utf8ByteSize ≤ 200)
    (hkept : WellKept d.cl) (hp : Obliges c p dLast iLast) (hr : Reacts p d.cl.primary later) (hfetch : ∀ n t, f n t = true)
    (hfuel : cycleCost d.cl.secondaries.length dRaws.length iRaws.length k dLast iLast ts ≤ d.cl.w.fuel) :
    ∃ b d1 mid wait done, uptaneCycle c p f force d = (.ok b, d1) ∧ (later d.cl.primary = false → b = true) ∧ d1.log = d.log ++ mid ∧
      (∀ t ∈ ts.targets, Outdated c.env d.cl t → ∃ l u, Listed c d.cl.w.db.delegations rawS its t l ∧ Offers t l u ∧
        ∀ e ∈ t.ecus, InstallsOn d.cl.primary e.1 ts.correlationId u ∈ mid) ∧
      Standing c.env d.cl ts.correlationId wait done d1 ∧ Accounts c.env d.cl ts later wait done := by
  obtain ⟨tp, htp, hop, ep, hep, hlp⟩ := hsome
  unfold cycleCost at hfuel
  obtain ⟨res, d0, e1, hprep⟩ := fetchMeta_prepares (k := k) hd hi hfit ⟨tp, htp, hop⟩ hlist hone hreg hkept hp.toHears (by omega)
  have hcost := installCost_le hprep.sublist dLast iLast
  have hcl := hprep.client
  have h5 := hprep.offers
  have hsecs : d0.cl.secondaries = d.cl.secondaries := by rw [hcl]
  have hprim : d0.cl.primary = d.cl.primary := by rw [hcl]
  have hhwp : d0.cl.primaryHw = d.cl.primaryHw := by rw [hcl]
  have hv0 : d0.cl.v = d.cl.v := by rw [hcl]
  have hf7 := hprep.fuel
  have hw : ∃ x ∈ assignments res.updates, later x.2.1 = true := by
    obtain ⟨up, mp, hup, -, hoffp⟩ := h5 tp htp hop
    exact ⟨(up, ep.1, ep.2), mem_assignments.2 ⟨hup, by rw [hoffp]; exact hep⟩, hlp⟩
  have hsafe : ∀ t ∈ res.updates, ∀ cid, RowSafe c.env (Legible c.env) { t with correlationId := cid } := by
    intro t ht cid
    obtain ⟨t0, l, h0, -, ho⟩ := hprep.only t ht
    rw [ho]
    exact rowSafe_legible (t := { t0 with uri := _ }) (hsound t0 h0) cid
  obtain ⟨b, d1, e3, ⟨hb, wait, done, hall, hsplit, hids⟩, -⟩ := cycleDownload_mixed (force := force) hfetch hp (by rw [hprim]; exact hr) hprep.authorised hw hsafe
    (by rw [hv0]; exact hleg) (by rw [hcl]) (by omega)
  obtain ⟨acts, hpr, hacts⟩ := hall.progress
  obtain ⟨m1, k1, hlog1⟩ := hprep.log
  obtain ⟨l, hl, hin⟩ := hpr.log
  have hplan := hprep.authorised.planned
  have hassigned : ∀ x ∈ wait ++ done, ∃ y ∈ assignments res.updates, y.2.1 = x.1 := hall.only
  have hcov : ∀ x ∈ assignments res.updates, if later x.2.1 then (x.2.1, { x.1 with correlationId := ts.correlationId }) ∈ wait else (x.2.1, x.1) ∈ done := by
    intro x hx
    rcases hall.covers x hx with h | h
    · have := hsplit.1 _ h
      rw [this]
      exact h
    · have := hsplit.2 _ h
      rw [this]
      simpa using h
  refine ⟨b, d1, [.signed d.cl.primary k1, .sent m1 true] ++ l, wait, done, ?_, by rw [← hprim]; exact hb, ?_, ?_, ⟨⟨?_, ?_, ?_, ?_, ?_⟩, ?_⟩, ⟨?_, ?_⟩⟩
  · unfold uptaneCycle
    rw [run_bind e1]
    exact e3
  · rw [hl, hlog1]
    simp
  · intro t ht ho
    obtain ⟨v, mm, hv, hlst, hoff⟩ := h5 t ht ho
    refine ⟨mm, v, hlst, hoff, fun e he => ?_⟩
    have hx : (v, e.1, e.2) ∈ assignments res.updates := mem_assignments.2 ⟨hv, by rw [hoff]; exact he⟩
    obtain ⟨ha, hb⟩ := hacts _ hx
    refine List.mem_append.2 (.inr (hin _ ?_))
    unfold InstallsOn
    split
    · next h => exact ha (h.trans hprim.symm)
    · next h => exact hb (fun h' => h (h'.trans hprim))
  · exact hpr.primary.trans hprim
  · exact hpr.hw.trans hhwp
  · exact hpr.secs.trans hsecs
  · rw [hpr.ecus, hv0]
  · intro x hx
    rw [hpr.counters] at hx
    obtain ⟨y, hy, hxy⟩ := hprep.counters x hx
    have := hkept.counters y hy
    omega
  · have haw : Awaits c.env d0.cl d0.log ts ts.correlationId wait done acts d1 := by
      refine ⟨⟨hpr.1, hpr.2, hpr.3, hpr.4, hpr.5, hpr.6, hpr.7, hpr.8, hpr.9, hpr.10, hpr.11, hpr.12, hpr.13, hpr.14, fun r hr _ => hpr.15 r hr⟩, hall.apart, hids.1, hids.2, ?_,
        hprep.authorised.serials, ?_, ?_⟩
      · intro x hx
        obtain ⟨y, hy, he⟩ := hassigned x (List.mem_append.2 (.inl hx))
        rw [← he]
        exact (hplan.ecu y hy).2.1
      · rw [hv0]
        intro e he
        unfold mkHwId
        rw [if_neg (by have := hwide e he; omega)]
      · intro x hx
        obtain ⟨y, hy, he⟩ := hassigned x hx
        rw [← he]
        exact ⟨(hplan.ecu y hy).2.2, _, (hplan.ecu y hy).1⟩
    exact haw.restand rfl rfl hpr.primary hpr.hw hpr.secs
  · intro t ht ho e he
    obtain ⟨v, mm, hv, -, hoff⟩ := h5 t ht ho
    have hx : (v, e.1, e.2) ∈ assignments res.updates := mem_assignments.2 ⟨hv, by rw [hoff]; exact he⟩
    have := hcov _ hx
    simp only at this
    split at this
    · next hl =>
      refine ⟨(e.1, { v with correlationId := ts.correlationId }), rfl, ?_, ?_, ?_⟩
      · show v.filename = _
        rw [hoff]
      · show v.sha256Hash = _
        rw [hoff]
        rfl
      · rw [if_pos hl]
        exact ⟨this, rfl⟩
    · next hl =>
      refine ⟨(e.1, v), rfl, ?_, ?_, ?_⟩
      · rw [hoff]
      · show v.sha256Hash = _
        rw [hoff]
        rfl
      · rw [if_neg hl]
        exact this
  · intro x hx
    refine ⟨hsplit.1 x hx, ?_⟩
    obtain ⟨y, hy, he⟩ := hassigned x (List.mem_append.2 (.inl hx))
    obtain ⟨hy1, hy2⟩ := mem_assignments.1 hy
    obtain ⟨t, l, h0, h1, ho⟩ := hprep.only y.1 hy1
    have hc := hcov y hy
    rw [he, if_pos (hsplit.1 x hx)] at hc
    have : x = (x.1, { y.1 with correlationId := ts.correlationId }) := hids.2 x hx _ hc rfl
    refine ⟨t, h0, h1, ?_, (y.2.1, y.2.2), ?_, he.symm⟩
    · rw [this]
      show y.1.sha256Hash = _
      rw [ho]
      rfl
    · rw [ho] at hy2
      exact hy2

end Cycle

theorem recorded_alike {v : VersionDb} {s : String} {a b : Target} (h1 : RecordedCurrent v s a) (h2 : a.filename = b.filename) (h3 : a.sha256Hash = b.sha256Hash) :
    RecordedCurrent v s b := by
  unfold RecordedCurrent at *
  rw [← h2, ← h3]
  exact h1

theorem reported_of {env : Env} {cl : Client} {ts : Targets} {later : String → Bool} {wait done done' : List (String × Target)} {d1 d2 : Dev}
    {r : InstResult} {raw : String} {items : List (String × InstResult)} (htr : Accounts env cl ts later wait done) (hst : Standing env cl ts.correlationId [] done' d1)
    (hmv : Moves wait done [] done') (hs : Sent d1 d2 (some (r, raw, ts.correlationId, items))) (hr : Read r) (hi : ∀ y ∈ items, Read y.2)
    (hc : ∀ x ∈ done', x.1 ∈ items.map Prod.fst) : ∃ m mid, d2.log = d1.log ++ mid ++ [.sent m true] ∧ (∀ m ok, Action.sent m ok ∉ mid) ∧ Reported env cl ts m d2 := by
  obtain ⟨m, k2, hlog, hm⟩ := hs.log
  have hv : d2.cl.v = d1.cl.v := by rw [hs.cl]
  have hin : ∀ t ∈ ts.targets, Outdated env cl t → ∀ e ∈ t.ecus, ∃ x ∈ done', x.1 = e.1 ∧ x.2.filename = t.filename ∧ x.2.sha256Hash = t.sha256Hash := by
    intro t ht ho e he
    obtain ⟨x, h1, h2, h3, h4⟩ := htr.forth t ht ho e he
    refine ⟨x, ?_, h1, h2, h3⟩
    split at h4
    · rcases hmv.kept x h4.1 with h | h
      · cases h
      · exact h
    · exact hmv.more x h4
  refine ⟨m, [.signed d1.cl.primary k2], hlog, by simp, ⟨?_, ⟨r, raw, items, hm, hr.1, by rw [hr.2], fun y hy => (hi y hy).1, ?_⟩, by rw [hs.cl], by rw [hs.cl], ?_⟩⟩
  · intro t ht ho e he
    obtain ⟨x, h1, h2, h3, h4⟩ := hin t ht ho e he
    rw [hv, ← h2]
    exact recorded_alike (hst.awaits.progress.current x h1) h3 h4
  · intro t ht ho e he
    obtain ⟨x, h1, h2, -⟩ := hin t ht ho e he
    rw [← h2]
    exact List.mem_map.1 (hc x h1)
  · refine idle_pending (fun r hr => hst.awaits.progress.still r ?_)
    rw [← hv]
    exact hr

theorem pending_alike {v : VersionDb} {s cid : String} {a b : Target} (h1 : RecordedPending v s a) (h2 : a.filename = b.filename) (h3 : a.sha256Hash = b.sha256Hash)
    (h4 : a.correlationId = cid) : RecordedPending v s { b with correlationId := cid } := by
  unfold RecordedPending at *
  refine ⟨h1.1, fun row hr he hp => ?_, h1.2.2⟩
  obtain ⟨i1, i2, i3⟩ := h1.2.1 row hr he hp
  exact ⟨i1.trans h2, i2.trans h3, i3.trans h4⟩

/-- **C82** A genuine update that ECUs complete later, at least the Secondary `e0` with the target `t0`. The cycle installs it, records it as current on the ECUs that have
completed it and as pending on the others. While `e0` shows another image, the process can be restarted and asked for updates any number of times: it sends no report and
looks for no update. When then all waiting Secondaries show their images (and there was a restart, if the Primary needed one), a check for updates
first records the update as current on every ECU and reports the success for the device and all ECUs, under the Director's correlation id. -/
theorem C82_completed {c : Ctx} {p : Peers} {f : Fetched} {force : Bool} {d : Dev}
    {dFirst : String} {dRaws : List String} {dLast : Root} {dRaw : String} {ts : Targets}
    {iFirst : String} {iRaws : List String} {iLast : Root} {rawT rawS iRaw : String} {tm : TimestampMeta} {sn : Snapshot} {its : Targets} {k : Nat}
    {later : String → Bool} {t0 : Target} {e0 : String × String} {early : List DevEvent} {last : DevEvent}
    (hd : HonestDirector c d.cl.w.db dFirst dRaws dLast dRaw ts) (hi : HonestImage c d.cl.w.db iFirst iRaws iLast rawT rawS iRaw tm sn its)
    (hfit : ∀ t ∈ ts.targets, FitsDevice c.env d.cl t)
    (ht0 : t0 ∈ ts.targets) (ho0 : Outdated c.env d.cl t0) (he0 : e0 ∈ t0.ecus) (hl0 : later e0.1 = true) (hp0 : e0.1 ≠ d.cl.primary)
    (hlist : ∀ t ∈ ts.targets, Outdated c.env d.cl t → Attainable c d.cl.w.db.delegations rawS its k t)
    (hone : ∀ t ∈ ts.targets, OneHashEach t) (hreg : ∀ t ∈ ts.targets, ∀ e ∈ t.ecus, ∃ row ∈ d.cl.v.ecus, row.serial = e.1)
    (hsound : ∀ t ∈ ts.targets, WellHashed t ∧ CustomRereads c.env t) (hleg : ∀ r ∈ d.cl.v.rows, Legible c.env r)
    (hwide : ∀ e ∈ d.cl.v.ecus, e.hwid.utf8ByteSize ≤ 200) (hnamed : d.cl.primary ≠ "")
    (hkept : WellKept d.cl) (hp : Obliges c p dLast iLast) (hr : Reacts p d.cl.primary later) (hfetch : ∀ n t, f n t = true)
    (hfuel : cycleCost d.cl.secondaries.length dRaws.length iRaws.length k dLast iLast ts ≤ d.cl.w.fuel)
    (hearly : ∀ ev ∈ early, WhileWaiting d.cl ev ∧ Hears ev.peers ∧ 4 * d.cl.secondaries.length + 11 ≤ ev.fuel ∧ (ev.call = .fetchMeta → ShowsOther ev.peers e0.1 t0))
    (hboot : later d.cl.primary = true → ∃ ev ∈ early, ev.call.isInit = true)
    (hlast : last.call = .fetchMeta) (hhears : Hears last.peers) (hfuel2 : 4 * d.cl.secondaries.length + 8 ≤ last.fuel)
    (hshow : ∀ t ∈ ts.targets, Outdated c.env d.cl t → ∀ e ∈ t.ecus, later e.1 = true → e.1 ≠ d.cl.primary → ShowsImage c.env last.peers e.1 t) :
    ∃ b d1 mid, uptaneCycle c p f force d = (.ok b, d1) ∧ (later d.cl.primary = false → b = true) ∧ d1.log = d.log ++ mid ∧
      (∀ t ∈ ts.targets, Outdated c.env d.cl t →
        (∀ e ∈ t.ecus, later e.1 = true → RecordedPending d1.cl.v e.1 { t with correlationId := ts.correlationId }) ∧
        (∀ e ∈ t.ecus, later e.1 = false → RecordedCurrent d1.cl.v e.1 t) ∧
        ∃ l u, Listed c d.cl.w.db.delegations rawS its t l ∧ Offers t l u ∧ ∀ e ∈ t.ecus, InstallsOn d.cl.primary e.1 ts.correlationId u ∈ mid) ∧
      ∃ d2, Idle c.env early d1 d2 ∧ RecordedPending d2.cl.v e0.1 { t0 with correlationId := ts.correlationId } ∧
        ∃ d3 mid3 m, fetchMeta { env := c.env, net := last.net, clock := last.clock } last.peers (last.start d2) = inClient (checkUpdates { env := c.env, net := last.net, clock := last.clock }) d3 ∧
          d3.log = d2.log ++ mid3 ++ [.sent m true] ∧ (∀ m ok, Action.sent m ok ∉ mid3) ∧ Reported c.env d.cl ts m d3 := by
  obtain ⟨b, d1, mid, wait, done, h1, h2, h3, h4, hst, htr⟩ := cycle_leaves (force := force) hd hi hfit ⟨t0, ht0, ho0, e0, he0, hl0⟩ hlist hone hreg hsound hleg hwide hkept hp hr hfetch hfuel
  obtain ⟨s, s1, s2, s3, s4⟩ := htr.forth t0 ht0 ho0 e0 he0
  rw [if_pos hl0] at s4
  obtain ⟨s4, s5⟩ := s4
  have hso : ∀ ev : DevEvent, ShowsOther ev.peers e0.1 t0 → ShowsOther ev.peers s.1 s.2 := by
    intro ev h
    unfold ShowsOther
    rw [s1, s3]
    exact h
  obtain ⟨d2, wait2, done2, hidle, hst2, hmv, hs2, hprm⟩ := idle_will early hnamed hst s4 (by rw [s1]; exact hp0)
    (fun ev hev => ⟨(hearly ev hev).1, (hearly ev hev).2.1, (hearly ev hev).2.2.1, fun h => hso ev ((hearly ev hev).2.2.2 h)⟩)
  refine ⟨b, d1, mid, h1, h2, h3, fun t ht ho => ⟨?_, ?_, h4 t ht ho⟩, d2, hidle, ?_, ?_⟩
  · intro e he hl
    obtain ⟨x, x1, x2, x3, x4⟩ := htr.forth t ht ho e he
    rw [if_pos hl] at x4
    rw [← x1]
    exact pending_alike (hst.awaits.progress.waiting x x4.1) x2 x3 x4.2
  · intro e he hl
    obtain ⟨x, x1, x2, x3, x4⟩ := htr.forth t ht ho e he
    rw [if_neg (by rw [hl]; simp)] at x4
    rw [← x1]
    exact recorded_alike (hst.awaits.progress.current x x4) x2 x3
  · rw [← s1]
    exact pending_alike (hst2.awaits.progress.waiting s hs2) s2 s3 s5
  · obtain ⟨hb, hl⟩ := start_between (d := d2) hlast
    have hne : wait2 ≠ [] := by rintro rfl; cases hs2
    obtain ⟨d3, d4, done3, r, raw, items, e1, e2, e3, e4, e5, e6, e7, e8⟩ := pollFinal_will (c := { env := c.env, net := last.net, clock := last.clock }) hhears (hst2.between (d' := last.start d2) hb) hne
      (by
        intro x hx
        obtain ⟨x1, t, x2, x3, x4, e, x5, x6⟩ := htr.back x (hmv.less x hx)
        have hxp : x.1 ≠ d.cl.primary := by
          cases hlp : later d.cl.primary with
          | true => exact hprm (hboot hlp) x hx
          | false =>
            intro h
            rw [h, hlp] at x1
            cases x1
        refine ⟨hxp, ?_⟩
        have := hshow t x2 x3 e x5 (by rw [← x6]; exact x1) (by rw [← x6]; exact hxp)
        unfold ShowsImage at this ⊢
        rw [x6, x4]
        exact this) (by rw [start_fuel]; exact hfuel2)
    obtain ⟨m, mid3, f1, f2, f3⟩ := reported_of htr e2 (hmv.trans e4) e5 e6 e7 e8
    exact ⟨d4, mid3, m, e1, by rw [f1, e3, hl], f2, f3⟩

/-- **C82** As `C82_completed`, with the Primary as the last one: it needs a reboot, and each of the Secondaries that complete the update later shows its image at one of the
checks for updates before it. None of these sends a report or looks for updates; the first start after the reboot records the update as current on every ECU and reports the success. -/
theorem C82_rebooted {c : Ctx} {p : Peers} {f : Fetched} {force : Bool} {d : Dev}
    {dFirst : String} {dRaws : List String} {dLast : Root} {dRaw : String} {ts : Targets}
    {iFirst : String} {iRaws : List String} {iLast : Root} {rawT rawS iRaw : String} {tm : TimestampMeta} {sn : Snapshot} {its : Targets} {k : Nat}
    {later : String → Bool} {t0 : Target} {e0 : String × String} {checks : List DevEvent} {boot : DevEvent} {cfg : EcuConfig} {ok : Bool}
    (hd : HonestDirector c d.cl.w.db dFirst dRaws dLast dRaw ts) (hi : HonestImage c d.cl.w.db iFirst iRaws iLast rawT rawS iRaw tm sn its)
    (hfit : ∀ t ∈ ts.targets, FitsDevice c.env d.cl t)
    (ht0 : t0 ∈ ts.targets) (ho0 : Outdated c.env d.cl t0) (he0 : e0 ∈ t0.ecus) (hl0 : later e0.1 = true) (hp0 : e0.1 = d.cl.primary)
    (hlist : ∀ t ∈ ts.targets, Outdated c.env d.cl t → Attainable c d.cl.w.db.delegations rawS its k t)
    (hone : ∀ t ∈ ts.targets, OneHashEach t) (hreg : ∀ t ∈ ts.targets, ∀ e ∈ t.ecus, ∃ row ∈ d.cl.v.ecus, row.serial = e.1)
    (hsound : ∀ t ∈ ts.targets, WellHashed t ∧ CustomRereads c.env t) (hleg : ∀ r ∈ d.cl.v.rows, Legible c.env r)
    (hnamed : d.cl.primary ≠ "")
    (hkept : WellKept d.cl) (hp : Obliges c p dLast iLast) (hr : Reacts p d.cl.primary later) (hfetch : ∀ n t, f n t = true)
    (hfuel : cycleCost d.cl.secondaries.length dRaws.length iRaws.length k dLast iLast ts ≤ d.cl.w.fuel)
    (hchecks : ∀ ev ∈ checks, ev.call = .fetchMeta ∧ Hears ev.peers ∧ 4 * d.cl.secondaries.length + 11 ≤ ev.fuel)
    (hshow : ∀ t ∈ ts.targets, Outdated c.env d.cl t → ∀ e ∈ t.ecus, later e.1 = true → e.1 ≠ d.cl.primary → ∃ ev ∈ checks, ShowsImage c.env ev.peers e.1 t)
    (hboot : boot.call = .init cfg ok) (hcfg : Configured d.cl cfg) (hfin : ∀ n t, Installed (boot.peers.finalize n t)) (hhears : Hears boot.peers)
    (hfuel2 : d.cl.secondaries.length + 11 ≤ boot.fuel) :
    ∃ b d1 mid, uptaneCycle c p f force d = (.ok b, d1) ∧ d1.log = d.log ++ mid ∧
      (∀ t ∈ ts.targets, Outdated c.env d.cl t →
        (∀ e ∈ t.ecus, later e.1 = true → RecordedPending d1.cl.v e.1 { t with correlationId := ts.correlationId }) ∧
        (∀ e ∈ t.ecus, later e.1 = false → RecordedCurrent d1.cl.v e.1 t) ∧
        ∃ l u, Listed c d.cl.w.db.delegations rawS its t l ∧ Offers t l u ∧ ∀ e ∈ t.ecus, InstallsOn d.cl.primary e.1 ts.correlationId u ∈ mid) ∧
      ∃ d2, Idle c.env checks d1 d2 ∧ RecordedPending d2.cl.v e0.1 { t0 with correlationId := ts.correlationId } ∧
        ∃ d3 mid3 m, startUp c.env boot.peers cfg ok (boot.start d2) = (.ok (), d3) ∧
          d3.log = d2.log ++ mid3 ++ [.sent m true] ∧ (∀ m ok, Action.sent m ok ∉ mid3) ∧ Reported c.env d.cl ts m d3 := by
  obtain ⟨b, d1, mid, wait, done, h1, -, h3, h4, hst, htr⟩ := cycle_leaves (force := force) hd hi hfit ⟨t0, ht0, ho0, e0, he0, hl0⟩ hlist hone hreg hsound hleg hcfg.hwids hkept hp hr hfetch hfuel
  obtain ⟨s, s1, s2, s3, s4⟩ := htr.forth t0 ht0 ho0 e0 he0
  rw [if_pos hl0] at s4
  obtain ⟨s4, s5⟩ := s4
  obtain ⟨d2, wait2, done2, hidle, hst2, hmv, hs2, hsh⟩ := checks_will checks hst s4 (by rw [s1]; exact hp0) hchecks
  refine ⟨b, d1, mid, h1, h3, fun t ht ho => ⟨?_, ?_, h4 t ht ho⟩, d2, hidle, ?_, ?_⟩
  · intro e he hl
    obtain ⟨x, x1, x2, x3, x4⟩ := htr.forth t ht ho e he
    rw [if_pos hl] at x4
    rw [← x1]
    exact pending_alike (hst.awaits.progress.waiting x x4.1) x2 x3 x4.2
  · intro e he hl
    obtain ⟨x, x1, x2, x3, x4⟩ := htr.forth t ht ho e he
    rw [if_neg (by rw [hl]; simp)] at x4
    rw [← x1]
    exact recorded_alike (hst.awaits.progress.current x x4) x2 x3
  · rw [← s1]
    exact pending_alike (hst2.awaits.progress.waiting s hs2) s2 s3 s5
  · have hne : wait2 ≠ [] := by rintro rfl; cases hs2
    have hb : boot.start d2 = { d2.off with cl := { d2.off.cl with w := { d2.off.cl.w with fuel := boot.fuel, tick := 0 } } } := by
      unfold DevEvent.start
      rw [hboot]
      rfl
    obtain ⟨_, d4, e1, ⟨d3, w3, done3, mid3, e2, e3, e4, e5, e6, -, e7⟩, -⟩ := restart_will (ok := ok) (d0 := boot.start d2) hhears hfin hst2 hne hnamed hcfg
      (by rw [hb]; rfl) (by rw [hb]; rfl) (by rw [hb]; rfl) (by rw [hb]; rfl) (by rw [start_fuel]; omega)
    have hw3 : w3 = [] := by
      cases hw : w3 with
      | nil => rfl
      | cons x l =>
        exfalso
        obtain ⟨x1, x2⟩ := (e4 x).1 (by rw [hw]; simp)
        obtain ⟨y1, t, y2, y3, y4, e, y5, y6⟩ := htr.back x (hmv.less x x1)
        obtain ⟨ev, hev, hsi⟩ := hshow t y2 y3 e y5 (by rw [← y6]; exact y1) (by rw [← y6]; exact x2)
        refine hsh x x1 x2 ev hev ?_
        unfold ShowsImage at hsi ⊢
        rw [y6, y4]
        exact hsi
    subst hw3
    obtain ⟨r, raw, items, f1, f2, f3, f4⟩ := e7 rfl
    obtain ⟨m, mid4, g1, g2, g3⟩ := reported_of htr e2 (hmv.trans e3) f1 f2 f3 f4
    refine ⟨d4, mid3 ++ mid4, m, e1, by rw [g1, e5]; simp, ?_, g3⟩
    intro m ok h
    rcases List.mem_append.1 h with h | h
    · exact e6 m ok h
    · exact g2 m ok h

/-! ### Concrete cases -/

namespace Toy

/-- The Secondary's manifest once it has the image. -/
def updated : Json := .obj [("signatures", .arr [.obj [("sig", .str "k2:?")]]),
  ("signed", .obj [("installed_image", .obj [("fileinfo", .obj [("hashes", .obj [("sha256", .str "abc")])])])])]

/-- Who completes the installation later: the Secondary, and the Primary too if `boot`. -/
def laterThan (boot : Bool) (e : String) : Bool := boot || e != "e1"

/-- As `helpful`, but these complete the installation later. -/
def waitsFor (boot : Bool) : Peers :=
  { helpful with secInstall := fun _ s _ => if laterThan boot s then .ok ⟨false, .needCompletion, "later"⟩ else .ok ⟨true, .ok, "installed"⟩,
                 install := fun _ _ => if boot then .ok ⟨false, .needCompletion, "reboot"⟩ else .ok ⟨true, .ok, "installed"⟩ }

/-- As `helpful`, and the Secondary shows that it has the image. -/
def completed : Peers := { helpful with secManifest := fun _ _ => .ok updated, secKey := fun _ _ => .ok ⟨"k2", .ed25519⟩ }

theorem waitsFor_is (boot : Bool) : Obliges (deleCtx both) (waitsFor boot) (rootOf "dr1") (rootOf "ir1") :=
  have h := helpful_is.toSupports
  { secManifest := h.secManifest, secKey := h.secKey, putManifest := h.putManifest, verify := h.verify, reachable := h.reachable,
    dRoots := h.dRoots, iRoots := h.iRoots, putRoot := h.putRoot, putMetadata := h.putMetadata, sendFirmware := h.sendFirmware }

theorem waitsFor_reacts (boot : Bool) : Reacts (waitsFor boot) newDevice.cl.primary (laterThan boot) where
  primaryLater := by
    intro h n t
    have : boot = true := by
      have h1 : laterThan boot "e1" = true := h
      cases boot with
      | true => rfl
      | false => exact absurd h1 (by decide)
    exact ⟨"reboot", by simp [waitsFor, this]⟩
  primaryNow := by
    intro h n t
    have : boot = false := by
      have h1 : laterThan boot "e1" = false := h
      cases boot with
      | false => rfl
      | true => cases h1
    exact ⟨"installed", by simp [waitsFor, this]⟩
  secLater := fun s h _ _ => ⟨"later", by show (if laterThan boot s then _ else _) = _; rw [if_pos h]⟩
  secNow := fun s h _ _ => ⟨"installed", by show (if laterThan boot s then _ else _) = _; rw [if_neg (by rw [h]; simp)]⟩

theorem completed_hears : Hears completed where
  secManifest := fun _ _ e h => by cases h
  secKey := fun _ _ e h => by cases h
  putManifest := fun _ _ => rfl

theorem completed_shows {s : String} {t : Target} (h : t.sha256Hash = "abc") : ShowsImage E completed s t := by
  refine ⟨updated, ⟨"k2", .ed25519⟩, "abc", ⟨fun _ => rfl, fun _ => rfl⟩, ⟨_, _, _, .str "k2:?", "k2:?", _, rfl, rfl, ⟨_, rfl, rfl⟩, rfl, rfl, .inl ⟨rfl, ?_⟩⟩,
    ⟨.str "abc", ⟨_, rfl, _, rfl, _, rfl, _, rfl, _, rfl, rfl⟩, rfl⟩, by rw [h]⟩
  decide +kernel

theorem forBoth_ecus {t : Target} (ht : t ∈ forBoth.targets) {e : String × String} (he : e ∈ t.ecus) : e = ("e1", "h1") ∨ e = ("e2", "h1") := by
  rw [(forBoth_mem ht).2.1] at he
  simpa using he

theorem forBoth_outdated {t : Target} (ht : t ∈ forBoth.targets) : Outdated E newDevice.cl t :=
  ⟨("e1", "h1"), by simp [(forBoth_mem ht).2.1], fun x hx => by cases hx⟩

theorem forBoth_fits : ∀ t ∈ forBoth.targets, FitsDevice E newDevice.cl t := by
  intro t ht e he
  rcases forBoth_ecus ht he with rfl | rfl
  · exact ⟨.inl ⟨rfl, rfl, by decide⟩, ⟨none, rfl, fun _ h => by cases h⟩, fun _ h => by cases h⟩
  · exact ⟨.inr ⟨by decide, by decide, rfl⟩, ⟨none, rfl, fun _ h => by cases h⟩, fun _ h => by cases h⟩

theorem forBoth_attainable : ∀ t ∈ forBoth.targets, Outdated E newDevice.cl t → Attainable (deleCtx both) newDevice.cl.w.db.delegations "isn1" fwListed 0 t := by
  intro t ht _
  obtain ⟨h1, h2, h3, h4, h5, -⟩ := forBoth_mem ht
  have hm : fwListed.targets.map (fun t => (t.filename, t.ecus, t.hashes, t.length, t.hwids)) =
    [("fw", [], [Hash.mk' .sha256 "abc"], 3, ["h1", "h2"])] := by decide +kernel
  cases hl : fwListed.targets with
  | nil => rw [hl] at hm; cases hm
  | cons m l =>
    rw [hl] at hm
    simp only [List.map_cons, List.cons.injEq, Prod.mk.injEq, List.map_eq_nil_iff] at hm
    obtain ⟨⟨a1, a2, a3, a4, a5⟩, -⟩ := hm
    refine attainable_listed (k := 0) (m := m) ⟨by rw [hl]; simp, ⟨by rw [a1, h1], by rw [a4, h4], ?_, ?_⟩, .inr (.inr ?_)⟩
    · rw [a3, h3]; exact ⟨_, List.mem_singleton.2 rfl, List.mem_singleton.2 rfl⟩
    · rw [a3, h3]
      intro h hh h' hh' _
      rw [List.mem_singleton.1 hh, List.mem_singleton.1 hh']
    · unfold HardwareAllowed
      rw [h2, h5, a2, a5]
      refine ⟨rfl, by simp, rfl, by simp, fun ecu hw h => ?_⟩
      simp only [List.mem_cons, Prod.mk.injEq, List.not_mem_nil, or_false] at h
      rcases h with ⟨-, rfl⟩ | ⟨-, rfl⟩ <;> simp

theorem forBoth_oneHash : ∀ t ∈ forBoth.targets, OneHashEach t := by
  intro t ht h hh h' hh' _
  rw [(forBoth_mem ht).2.2.1] at hh hh'
  rw [List.mem_singleton.1 hh, List.mem_singleton.1 hh']

theorem forBoth_registered : ∀ t ∈ forBoth.targets, ∀ e ∈ t.ecus, ∃ row ∈ newDevice.cl.v.ecus, row.serial = e.1 := by
  intro t ht e he
  rcases forBoth_ecus ht he with rfl | rfl
  · exact ⟨⟨"e1", "h1", true⟩, by decide, rfl⟩
  · exact ⟨⟨"e2", "h1", false⟩, by decide, rfl⟩

theorem forBoth_some : ∃ t, t ∈ forBoth.targets := by
  cases hl : forBoth.targets with
  | nil => exact absurd hl firstDirector.some
  | cons t l => exact ⟨t, by simp⟩

/-- A call with these peers, without any server. -/
def later (call : DevCall) (p : Peers) : DevEvent := ⟨call, fun _ _ _ _ => none, fun _ => ⟨""⟩, p, 20⟩

end Toy

/-- The hypotheses of `C82_completed` are met: the Secondary of a new device completes its first update later. Asked before it has,
also after a restart, the process reports nothing; asked when it has, it reports the success. -/
example : ∃ d1 d2 d3 m, uptaneCycle (Toy.deleCtx Toy.both) (Toy.waitsFor false) (fun _ _ => true) true Toy.newDevice = (.ok true, d1) ∧
    Idle Toy.E [Toy.later .fetchMeta Toy.helpful, Toy.later (.init Toy.bothEcus false) Toy.helpful, Toy.later .fetchMeta Toy.helpful] d1 d2 ∧
    (∃ row ∈ d2.cl.v.rows, row.ecu = "e2" ∧ row.isPending = true) ∧
    .sent m true ∈ d3.log ∧ Reported Toy.E Toy.newDevice.cl Toy.forBoth m d3 := by
  obtain ⟨t, ht⟩ := Toy.forBoth_some
  have hother : ShowsOther Toy.helpful "e2" t := fun n j h hj => by cases hj
  obtain ⟨b, d1, mid, h1, h2, -, -, d2, h3, h4, d3, mid3, m, -, h5, -, h6⟩ := C82_completed (p := Toy.waitsFor false) (f := fun _ _ => true) (force := true) (d := Toy.newDevice)
    (later := Toy.laterThan false) (t0 := t) (e0 := ("e2", "h1"))
    (early := [Toy.later .fetchMeta Toy.helpful, Toy.later (.init Toy.bothEcus false) Toy.helpful, Toy.later .fetchMeta Toy.helpful]) (last := Toy.later .fetchMeta Toy.completed)
    Toy.firstDirector Toy.firstImage Toy.forBoth_fits ht (Toy.forBoth_outdated ht) (by rw [(Toy.forBoth_mem ht).2.1]; simp) (by decide) (by decide)
    Toy.forBoth_attainable Toy.forBoth_oneHash Toy.forBoth_registered Toy.forBoth_sound (fun r hr => by cases hr) Toy.newDevice_configured.hwids (by decide)
    Toy.newDevice_kept (Toy.waitsFor_is false) (Toy.waitsFor_reacts false) (fun _ _ => rfl) (by decide +kernel)
    (by
      intro ev hev
      have hc : WhileWaiting Toy.newDevice.cl ev ∧ ev.peers = Toy.helpful ∧ ev.fuel = 20 := by
        simp only [List.mem_cons, List.not_mem_nil, or_false] at hev
        rcases hev with rfl | rfl | rfl
        · exact ⟨.check rfl, rfl, rfl⟩
        · exact ⟨.restart rfl Toy.newDevice_configured (fun _ _ => ⟨_, rfl⟩), rfl, rfl⟩
        · exact ⟨.check rfl, rfl, rfl⟩
      obtain ⟨hw, hp, hf⟩ := hc
      exact ⟨hw, by rw [hp]; exact Toy.helpful_is.toHears, by rw [hf]; decide +kernel, fun _ => by rw [hp]; exact hother⟩)
    (by decide) rfl Toy.completed_hears (by decide +kernel)
    (by
      intro t ht _ e _ _ _
      exact Toy.completed_shows (Toy.forBoth_mem ht).2.2.2.2.2)
  have hb : b = true := h2 (by decide)
  subst hb
  exact ⟨d1, d2, d3, m, h1, h3, h4.1, by rw [h5]; simp, h6⟩

/-- The hypotheses of `C82_rebooted` are met: both ECUs complete the update later, the Primary last. -/
example : ∃ b d1 d2 d3 m, uptaneCycle (Toy.deleCtx Toy.both) (Toy.waitsFor true) (fun _ _ => true) true Toy.newDevice = (.ok b, d1) ∧
    Idle Toy.E [Toy.later .fetchMeta Toy.helpful, Toy.later .fetchMeta Toy.completed] d1 d2 ∧
    (∃ row ∈ d2.cl.v.rows, row.ecu = "e1" ∧ row.isPending = true) ∧
    startUp Toy.E Toy.helpful Toy.bothEcus false ((Toy.later (.init Toy.bothEcus false) Toy.helpful).start d2) = (.ok (), d3) ∧
    .sent m true ∈ d3.log ∧ Reported Toy.E Toy.newDevice.cl Toy.forBoth m d3 := by
  obtain ⟨t, ht⟩ := Toy.forBoth_some
  obtain ⟨b, d1, mid, h1, -, -, d2, h3, h4, d3, mid3, m, h5, h6, -, h7⟩ := C82_rebooted (p := Toy.waitsFor true) (f := fun _ _ => true) (force := true) (d := Toy.newDevice)
    (later := Toy.laterThan true) (t0 := t) (e0 := ("e1", "h1")) (ok := false) (cfg := Toy.bothEcus)
    (checks := [Toy.later .fetchMeta Toy.helpful, Toy.later .fetchMeta Toy.completed]) (boot := Toy.later (.init Toy.bothEcus false) Toy.helpful)
    Toy.firstDirector Toy.firstImage Toy.forBoth_fits ht (Toy.forBoth_outdated ht) (by rw [(Toy.forBoth_mem ht).2.1]; simp) (by decide) (by decide)
    Toy.forBoth_attainable Toy.forBoth_oneHash Toy.forBoth_registered Toy.forBoth_sound (fun r hr => by cases hr) (by decide)
    Toy.newDevice_kept (Toy.waitsFor_is true) (Toy.waitsFor_reacts true) (fun _ _ => rfl) (by decide +kernel)
    (by
      intro ev hev
      simp only [List.mem_cons, List.not_mem_nil, or_false] at hev
      rcases hev with rfl | rfl
      · exact ⟨rfl, Toy.helpful_is.toHears, by decide +kernel⟩
      · exact ⟨rfl, Toy.completed_hears, by decide +kernel⟩)
    (by
      intro t ht _ e _ _ _
      exact ⟨_, List.mem_cons_of_mem _ (List.mem_singleton.2 rfl), Toy.completed_shows (Toy.forBoth_mem ht).2.2.2.2.2⟩)
    rfl Toy.newDevice_configured (fun _ _ => ⟨_, rfl⟩) Toy.helpful_is.toHears (by decide +kernel)
  exact ⟨b, d1, d2, d3, m, h1, h3, h4.1, h5, by rw [h6]; simp, h7⟩

end Aktualizr
