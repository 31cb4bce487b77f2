import Verif.Lemmas.HonestPending

/-! Polling and restarting while ECUs have installations to complete: forward execution. -/

namespace Aktualizr

open M Spec

section Polls

variable {c : Ctx} {env : Env} {p : Peers} {K : Client} {L : List Action} {ts : Targets} {wait done : List (String × Target)} {acts : List Action} {d : Dev} {cid : String}

/-- The rows that are pending, one for each waiting ECU. -/
theorem Awaits.pendings (h : Awaits env K L ts cid wait done acts d) : ∃ l, d.cl.v.getPendingEcus = .ok l ∧ (l.map Prod.fst).Nodup ∧
    (∀ x ∈ l, ∃ t, (x.1, t) ∈ wait ∧ x.2 = Hash.mk' .sha256 t.sha256Hash) ∧ ∀ x ∈ wait, x.1 ∈ l.map Prod.fst := by
  have hpr := h.progress
  have hs : ∀ x ∈ wait, mkEcuSerial x.1 = .ok x.1 := by
    intro x hx
    obtain ⟨⟨e, he, hs⟩, -⟩ := h.known x (List.mem_append.2 (.inl hx))
    rw [← hs]
    exact h.serials e he
  have hrow : ∀ r ∈ d.cl.v.rows, r.isPending = true → ∃ t, (r.ecu, t) ∈ wait ∧ r.sha256 = t.sha256Hash := by
    intro r hr hp
    obtain ⟨x, hx, he⟩ := List.mem_map.1 (hpr.idle r hr hp)
    refine ⟨x.2, by rw [← he]; exact hx, ((hpr.waiting x hx).2.1 r hr he.symm hp).2.1⟩
  refine ⟨_, hpr.pendingEcus hs, ?_, ?_, ?_⟩
  · rw [List.map_map]
    have ho : (d.cl.v.rows.filter (·.isPending)).Pairwise (fun a b => a.id < b.id) := List.Pairwise.sublist List.filter_sublist hpr.ordered
    unfold List.Nodup
    rw [List.pairwise_map]
    refine List.Pairwise.imp_of_mem ?_ ho
    intro a b ha hb hlt
    obtain ⟨a1, a2⟩ := List.mem_filter.1 ha
    obtain ⟨b1, b2⟩ := List.mem_filter.1 hb
    intro he
    have he : a.ecu = b.ecu := he
    obtain ⟨x, hx, hxe⟩ := List.mem_map.1 (hpr.idle a a1 a2)
    have : a = b := (hpr.waiting x hx).2.2 a a1 b b1 hxe.symm a2 (by rw [← he]; exact hxe.symm) b2
    rw [this] at hlt
    omega
  · intro x hx
    obtain ⟨r, hr, rfl⟩ := List.mem_map.1 hx
    obtain ⟨h1, h2⟩ := List.mem_filter.1 hr
    obtain ⟨t, h3, h4⟩ := hrow r h1 h2
    exact ⟨t, h3, by rw [h4]⟩
  · intro x hx
    obtain ⟨⟨row, h1, h2, h3⟩, -⟩ := hpr.waiting x hx
    rw [List.map_map]
    exact List.mem_map.2 ⟨row, List.mem_filter.2 ⟨h1, h3⟩, h2⟩

/-- Nothing waits any more: the report is sent. -/
theorem Awaits.settle (hh : Hears p) (h : Awaits env K L ts cid [] done acts d) (hne : done ≠ []) (hst : StoredSuccess cid d) (hc : ∀ x ∈ K.counters, x.2 < int64Max) :
    WillAt (K.secondaries.length + 5) d (putManifestSimple env p) (fun _ d' => ∃ r raw items, Sent d d' (some (r, raw, cid, items)) ∧ Read r ∧
      (∀ y ∈ items, Read y.2) ∧ ∀ x ∈ done, x.1 ∈ items.map Prod.fst) := by
  obtain ⟨items, hi1, hi2, hi3⟩ := h.progress.results h.serials (fun x hx => (h.known x (List.mem_append.2 (.inr hx))).1) hne
  obtain ⟨row, hread, hdev⟩ := hst
  have hload : d.cl.loadDeviceResult = .ok (some (⟨true, ⟨0, "OK"⟩, "Device has been successfully installed"⟩, "Installation succesful", cid)) := by
    unfold Client.loadDeviceResult
    rw [hdev]
    simp only
    rw [hread]
    rfl
  have hput := putManifest_will (env := env) hh (idle_pending h.progress.still) (by rw [h.progress.counters]; exact hc) hload hi1
  rw [h.progress.secs] at hput
  refine hput.weaken (by omega) ?_
  intro _ d' h'
  exact ⟨_, _, items, h', ⟨rfl, rfl⟩, fun y hy => (hi2 y hy).1, hi3⟩

/-- The device keeps its ECUs. -/
structure KeepsEcus (K0 : Client) (d : Dev) : Prop where
  primary : d.cl.primary = K0.primary
  hw : d.cl.primaryHw = K0.primaryHw
  secs : d.cl.secondaries = K0.secondaries
  ecus : d.cl.v.ecus = K0.v.ecus
  counters : ∀ x ∈ d.cl.counters, x.2 < int64Max

/-- The device waits, seen from its present state. -/
structure Standing (env : Env) (K0 : Client) (cid : String) (wait done : List (String × Target)) (d : Dev) : Prop where
  same : KeepsEcus K0 d
  awaits : Awaits env d.cl d.log d.cl.w.dir.targets cid wait done [] d

theorem Awaits.restand {d' : Dev} (h : Awaits env K L ts cid wait done acts d) (hv : d'.cl.v = d.cl.v) (hr : d'.cl.ecuResults = d.cl.ecuResults)
    (h1 : d'.cl.primary = K.primary) (h2 : d'.cl.primaryHw = K.primaryHw) (h3 : d'.cl.secondaries = K.secondaries) :
    Awaits env d'.cl d'.log d'.cl.w.dir.targets cid wait done [] d' := by
  have hpr := h.progress
  have he : d'.cl.v.ecus = K.v.ecus := by rw [hv]; exact hpr.ecus
  refine ⟨⟨rfl, rfl, rfl, rfl, rfl, rfl, rfl, ?_, ?_, ?_, ?_, ?_, ⟨[], by simp, by simp⟩, ?_, ?_⟩, h.apart, h.ids, h.once, h.named, ?_, ?_, ?_⟩
  · rw [hv]; exact hpr.ordered
  · rw [hv]; exact hpr.idle
  · rw [hv]; exact hpr.current
  · rw [hr]; exact hpr.reported
  · rw [hr]; exact hpr.good
  · rw [hv]; exact hpr.waiting
  · rw [hv]; exact hpr.legible
  · rw [he]; exact h.serials
  · rw [he]; exact h.hwids
  · intro x hx
    obtain ⟨a, hw, b⟩ := h.known x hx
    exact ⟨by rw [he]; exact a, hw, hasEcu_congr b h1 h2 h3⟩

theorem Awaits.still {K0 : Client} {d0 : Dev} (h : Awaits env d0.cl L ts cid wait done acts d) (hs : KeepsEcus K0 d0) : KeepsEcus K0 d :=
  ⟨h.progress.primary.trans hs.1, h.progress.hw.trans hs.2, h.progress.secs.trans hs.3, h.progress.ecus.trans hs.4, by rw [h.progress.counters]; exact hs.5⟩

/-- How the device can change between two calls. -/
theorem Standing.between {K0 : Client} {d' : Dev} (h : Standing env K0 cid wait done d) (hd : d'.cl = { d.cl with w := d'.cl.w }) :
    Standing env K0 cid wait done d' := by
  refine ⟨⟨?_, ?_, ?_, ?_, ?_⟩, h.awaits.restand (by rw [hd]) (by rw [hd]) (by rw [hd]) (by rw [hd]) (by rw [hd])⟩ <;> rw [hd]
  · exact h.same.1
  · exact h.same.2
  · exact h.same.3
  · exact h.same.4
  · exact h.same.5

theorem hasEcu_secondary {K : Client} {e hw : String} (h : HasEcu K e hw) (hne : e ≠ K.primary) : ∃ s ∈ K.secondaries, s.1 = e := by
  rcases h with ⟨h1, -⟩ | ⟨-, -, h3⟩
  · exact absurd h1 hne
  · rw [List.lookup_eq_some_iff] at h3
    obtain ⟨l1, l2, h3, -⟩ := h3
    exact ⟨(e, hw), by rw [h3]; simp, rfl⟩

/-- One round of asking the waiting Secondaries. -/
theorem checkPending_will (hh : Hears p) (h : Awaits env K L ts cid wait done acts d) (hne : wait ≠ []) :
    WillAt (3 * K.secondaries.length + 3) d (checkAndUpdatePendingSecondaries env p) (fun _ d' => ∃ wait' done', Awaits env K L ts cid wait' done' acts d' ∧ d'.log = d.log ∧
      (∀ x ∈ wait', x ∈ wait) ∧ (∀ x ∈ wait, x ∈ wait' ∨ x ∈ done') ∧ (∀ x ∈ done, x ∈ done') ∧ (∀ x ∈ done', x ∈ done ∨ x ∈ wait) ∧
      (∀ x ∈ wait, x.1 ≠ K.primary → ShowsImage env p x.1 x.2 → x ∉ wait') ∧ (∀ x ∈ wait, x.1 = K.primary → x ∈ wait') ∧ (∀ x ∈ wait, ShowsOther p x.1 x.2 → x ∈ wait') ∧ (wait' = [] → StoredSuccess cid d')) := by
  obtain ⟨l, h1, h2, h3, h4⟩ := h.pendings
  unfold checkAndUpdatePendingSecondaries
  refine WillAt.gets ?_
  simp only [id]
  refine WillAt.liftBind h1 ?_
  have hsec : ∀ x ∈ l, x.1 ≠ K.primary → ∃ s ∈ K.secondaries, s.1 = x.1 := by
    intro x hx hnp
    obtain ⟨t, h5, -⟩ := h3 x hx
    obtain ⟨-, hw, h6⟩ := h.known _ (List.mem_append.2 (.inl h5))
    exact hasEcu_secondary h6 hnp
  have hlen : l.length ≤ K.secondaries.length + 1 := by
    have := nodup_length_le h2 (ys := K.primary :: K.secondaries.map Prod.fst) (fun e he => by
      obtain ⟨x, hx, rfl⟩ := List.mem_map.1 he
      by_cases hp : x.1 = K.primary
      · rw [hp]; simp
      · obtain ⟨s, hs, he⟩ := hsec x hx hp
        rw [← he]
        exact List.mem_cons_of_mem _ (List.mem_map_of_mem hs))
    simpa using this
  refine (pendingLoop_will hh l h (fun h => absurd h hne) h2 (fun x hx => ?_)).weaken (by omega) ?_
  · obtain ⟨t, h5, h6⟩ := h3 x hx
    exact ⟨hsec x hx, t, h5, h6⟩
  · rintro _ d' ⟨w', dn, h5, h6, h7, h8⟩
    exact ⟨w', dn, h5, h6, h7.less, h7.kept, h7.more, h7.only, fun x hx => h7.shown x hx (h4 x hx), h7.primary, h7.other, h8⟩

/-- How the lists of waiting and completed ECUs change. -/
structure Moves (wait done wait' done' : List (String × Target)) : Prop where
  less : ∀ x ∈ wait', x ∈ wait
  kept : ∀ x ∈ wait, x ∈ wait' ∨ x ∈ done'
  more : ∀ x ∈ done, x ∈ done'
  only : ∀ x ∈ done', x ∈ done ∨ x ∈ wait

theorem Moves.refl : Moves wait done wait done := ⟨fun _ h => h, fun _ h => .inl h, fun _ h => h, fun _ h => .inl h⟩

theorem Moves.trans {w1 d1 w2 d2 : List (String × Target)} (h : Moves wait done w1 d1) (h' : Moves w1 d1 w2 d2) : Moves wait done w2 d2 :=
  ⟨fun x hx => h.less x (h'.less x hx), fun x hx => (h.kept x hx).elim (h'.kept x) (fun hx => .inr (h'.more x hx)), fun x hx => h'.more x (h.more x hx),
    fun x hx => (h'.only x hx).elim (h.only x) (fun hx => .inr (h.less x hx))⟩

/-- The answer of `fetchMeta` while updates are pending. -/
def noNews : UpdateCheck := ⟨[], 0, .error, .null, "There are pending updates, no new updates are checked"⟩

variable {K0 : Client}

theorem pollEarly_will (hh : Hears p) (h : Standing c.env K0 cid wait done d) (hx : ∃ x ∈ wait, x.1 = K0.primary ∨ ShowsOther p x.1 x.2) :
    WillAt (3 * K0.secondaries.length + 3) d (fetchMeta c p) (fun r d' => r = noNews ∧ d'.log = d.log ∧ ∃ wait' done', Standing c.env K0 cid wait' done' d' ∧
      Moves wait done wait' done' ∧ (∀ x ∈ wait, x.1 = K0.primary ∨ ShowsOther p x.1 x.2 → x ∈ wait') ∧
      ∀ x ∈ wait, x.1 ≠ K0.primary → ShowsImage c.env p x.1 x.2 → x ∉ wait') := by
  have ha := h.awaits
  obtain ⟨x, hx, hxo⟩ := hx
  have hne : wait ≠ [] := by rintro rfl; cases hx
  unfold fetchMeta
  refine WillAt.gets ?_
  simp only [id, ha.progress.pendingUpdates hne, if_true]
  have hc := checkPending_will hh ha hne
  rw [h.same.secs, h.same.primary] at hc
  refine (WillAt.bind (k := 0) hc ?_).more (by omega)
  rintro _ d' ⟨w', dn, h1, h2, h3, h4, h5, h6, h7, h8, h9, h10⟩
  have hall : ∀ x ∈ wait, x.1 = K0.primary ∨ ShowsOther p x.1 x.2 → x ∈ w' := fun x hx hxo => hxo.elim (h8 x hx) (h9 x hx)
  have hne' : w' ≠ [] := by
    rintro rfl
    cases hall x hx hxo
  refine WillAt.gets ?_
  simp only [id, h1.progress.pendingUpdates hne', if_true]
  exact WillAt.pure ⟨rfl, h2, w', dn, ⟨h1.still h.same, h1.restand rfl rfl h1.progress.primary h1.progress.hw h1.progress.secs⟩, ⟨h3, h4, h5, h6⟩, hall, h7⟩

theorem pollFinal_will (hh : Hears p) (h : Standing c.env K0 cid wait done d) (hne : wait ≠ [])
    (hx : ∀ x ∈ wait, x.1 ≠ K0.primary ∧ ShowsImage c.env p x.1 x.2) (hf : 4 * K0.secondaries.length + 8 ≤ d.cl.w.fuel) :
    ∃ d1 d2 done' r raw items, fetchMeta c p d = inClient (checkUpdates c) d2 ∧ Standing c.env K0 cid [] done' d1 ∧ d1.log = d.log ∧ Moves wait done [] done' ∧
      Sent d1 d2 (some (r, raw, cid, items)) ∧ Read r ∧ (∀ y ∈ items, Read y.2) ∧ ∀ x ∈ done', x.1 ∈ items.map Prod.fst := by
  have ha := h.awaits
  have hc := checkPending_will hh ha hne
  rw [h.same.secs, h.same.primary] at hc
  obtain ⟨_, d1, h0, ⟨w', dn, h1, h2, h3, h4, h5, h6, h7, h8, h9, h10⟩, h11⟩ := hc (by omega)
  have hw : w' = [] := by
    cases hw : w' with
    | nil => rfl
    | cons x l =>
      have hm : x ∈ w' := by rw [hw]; simp
      exact absurd hm (h7 x (h3 x hm) (hx x (h3 x hm)).1 (hx x (h3 x hm)).2)
  subst hw
  have hdn : dn ≠ [] := by
    rintro rfl
    cases wait with
    | nil => exact hne rfl
    | cons x l => rcases h4 x (by simp) with h | h <;> cases h
  have hst : Standing c.env K0 cid [] dn d1 := ⟨h1.still h.same, h1.restand rfl rfl h1.progress.primary h1.progress.hw h1.progress.secs⟩
  have hs := hst.awaits.settle hh hdn (h10 rfl) hst.same.counters
  rw [hst.same.secs] at hs
  obtain ⟨_, d2, h12, ⟨r, raw, items, h13, h14, h15, h16⟩, -⟩ := hs (by omega)
  refine ⟨d1, d2, dn, r, raw, items, ?_, hst, h2, ⟨h3, h4, h5, h6⟩, h13, h14, h15, h16⟩
  unfold fetchMeta
  rw [run_bind (by rw [gets_eq])]
  simp only [id, ha.progress.pendingUpdates hne, if_true]
  rw [run_bind h0, run_bind (by rw [gets_eq])]
  simp only [id, idle_pending h1.progress.still, Bool.false_eq_true, if_false]
  rw [run_bind h12]

theorem loadPending_none {v : VersionDb} {e : String} (he : e ≠ "")
    (hser : ∀ e ∈ v.ecus, mkEcuSerial e.serial = .ok e.serial) (hhw : ∀ e ∈ v.ecus, mkHwId e.hwid = .ok e.hwid) (h : ∀ r ∈ v.rows, r.ecu = e → r.isPending = false) :
    v.loadPending env e = .ok none := by
  have hreal : v.realSerial e = e := by simp [VersionDb.realSerial, he]
  have hmap : ∃ m, v.ecuMap e = .ok m := by
    unfold VersionDb.ecuMap
    rw [if_neg he]
    cases hf : v.ecus.find? (fun x => x.serial == e) with
    | none => exact ⟨_, rfl⟩
    | some x =>
      have h1 := List.mem_of_find?_eq_some hf
      have h2 : x.serial = e := by simpa using List.find?_some hf
      have h3 := hser x h1
      rw [h2] at h3
      simp only [h3, hhw x h1]
      exact ⟨_, rfl⟩
  obtain ⟨m, hm⟩ := hmap
  have hr : v.pendingRow e = none := by
    unfold VersionDb.pendingRow
    refine List.find?_eq_none.2 (fun r hr => ?_)
    by_cases hre : r.ecu = e
    · simp [h r hr hre]
    · simp [hre]
  unfold VersionDb.loadPending
  rw [hreal]
  show (v.ecuMap e >>= fun ecus => VersionDb.readRow env ecus (v.pendingRow e)) = _
  rw [hm]
  show VersionDb.readRow env m (v.pendingRow e) = _
  rw [hr]
  rfl

/-- The first thing after a restart. -/
theorem finalize_mixed (hh : Hears p) (hfin : ∀ n t, Installed (p.finalize n t)) (h : Standing env K0 cid wait done d) (hne : wait ≠ []) (he : K0.primary ≠ "") :
    WillAt (K0.secondaries.length + 10) d (finalizeAfterReboot env p) (fun _ d' => ∃ d1 wait' done' mid, Standing env K0 cid wait' done' d1 ∧
      Moves wait done wait' done' ∧ (∀ x, x ∈ wait' ↔ x ∈ wait ∧ x.1 ≠ K0.primary) ∧ d1.log = d.log ++ mid ∧ (∀ m ok, Action.sent m ok ∉ mid) ∧ (wait' ≠ [] → d' = d1) ∧
      (wait' = [] → ∃ r raw items, Sent d1 d' (some (r, raw, cid, items)) ∧ Read r ∧ (∀ y ∈ items, Read y.2) ∧ ∀ x ∈ done', x.1 ∈ items.map Prod.fst)) := by
  have ha := h.awaits
  have hpr := ha.progress
  unfold finalizeAfterReboot
  refine WillAt.gets ?_
  simp only [id, hpr.pendingUpdates hne, Bool.not_true, Bool.false_eq_true, if_false, h.same.primary]
  by_cases hm : ∃ t, (K0.primary, t) ∈ wait
  · obtain ⟨t, hm⟩ := hm
    obtain ⟨t', hl, hn, hs, hcid⟩ := loadPending_run he (fun r hr hp => hpr.legible r hr hp) ha.serials ha.hwids (hpr.waiting _ hm)
    have hcid' : t'.correlationId = cid := hcid.trans (ha.ids _ hm)
    refine WillAt.liftBind (a := some t') hl ?_
    simp only
    have hact : WillAt 1 d (act (.finalize t')) (fun _ d' => Standing env K0 cid wait done d' ∧ d'.log = d.log ++ [.finalize t']) :=
      WillAt.act (fun _ => ⟨h.between rfl, rfl⟩)
    refine (WillAt.bind (n := 1) (k := K0.secondaries.length + 9) hact (fun _ d1 h1 => WillAt.askBind ?_)).more (by omega)
    obtain ⟨h1, hlog1⟩ := h1
    obtain ⟨desc, hr⟩ := hfin d1.n t'
    refine WillAt.liftBind (a := ⟨true, .ok, desc⟩) hr ?_
    refine WillAt.liftBind (a := false) (by show ResultCode.ok.same .needCompletion = _; decide +kernel) ?_
    simp only [Bool.false_eq_true, if_false, if_true]
    refine ((h1.awaits.asked (n := d1.n + 1)).record (k := K0.secondaries.length + 7) hm hn hs ?_).more (by omega)
    intro d2 h2 hlog2
    have hk2 : KeepsEcus K0 d2 := h2.still h1.same
    have hdrop : WillAt 1 d2 (inClient (inWorld Director.dropTargets)) (fun _ d3 => d3.cl = { d2.cl with w := d3.cl.w } ∧ d3.log = d2.log) := by
      intro hn
      obtain ⟨k, hk⟩ : ∃ k, d2.cl.w.fuel = k + 1 := ⟨d2.cl.w.fuel - 1, by omega⟩
      obtain ⟨dir, hd⟩ := dropTargets_run hk
      exact ⟨(), _, inClient_ok.2 ⟨_, inWorld_run hd, rfl⟩, ⟨rfl, rfl⟩, by show _ ≤ k + 1; omega⟩
    refine (WillAt.bind (n := 1) (k := K0.secondaries.length + 6) hdrop ?_).more (by omega)
    rintro _ d3 ⟨h3, hlog3⟩
    have hst2 : Standing env K0 cid (wait.filter (fun x => x.1 != K0.primary)) ((K0.primary, t) :: done) d2 :=
      ⟨hk2, h2.restand rfl rfl h2.progress.primary h2.progress.hw h2.progress.secs⟩
    have hst3 := hst2.between h3
    refine WillAt.gets ?_
    simp only [id]
    obtain ⟨r, raw, row, hdev, hrow, hsucc⟩ := hst3.awaits.computed (by simp)
    refine WillAt.liftBind hdev ?_
    simp only [hcid']
    refine (WillAt.bind (n := 1) (k := K0.secondaries.length + 5) (hst3.awaits.store hrow) ?_).more (by omega)
    rintro _ d4 ⟨h4, hlog4, hdr⟩
    have hst4 : Standing env K0 cid (wait.filter (fun x => x.1 != K0.primary)) ((K0.primary, t) :: done) d4 :=
      ⟨h4.still hst3.same, h4.restand rfl rfl h4.progress.primary h4.progress.hw h4.progress.secs⟩
    have hlog : d4.log = d.log ++ [.finalize t'] := by rw [hlog4, hlog3, hlog2]; exact hlog1
    have hmem : ∀ x, x ∈ wait.filter (fun x => x.1 != K0.primary) ↔ x ∈ wait ∧ x.1 ≠ K0.primary := by
      intro x
      rw [List.mem_filter, bne_iff_ne]
    have hmv : Moves wait done (wait.filter (fun x => x.1 != K0.primary)) ((K0.primary, t) :: done) := by
      refine ⟨fun x hx => ((hmem x).1 hx).1, fun x hx => ?_, fun x hx => List.mem_cons_of_mem _ hx, fun x hx => ?_⟩
      · by_cases hxp : x.1 = K0.primary
        · right
          rw [ha.once x hx _ hm hxp]
          simp
        · exact .inl ((hmem x).2 ⟨hx, hxp⟩)
      · rcases List.mem_cons.1 hx with rfl | hx
        · exact .inr hm
        · exact .inl hx
    by_cases hw : wait.filter (fun x => x.1 != K0.primary) = []
    · rw [hw] at hst4 hmv
      obtain ⟨h7, hraw⟩ := hsucc hw
      rw [hraw] at hdr
      have hset := hst4.awaits.settle hh (by simp) ⟨row, h7, hdr⟩ hst4.same.counters
      rw [hst4.same.secs] at hset
      refine (WillAt.bind (n := K0.secondaries.length + 5) (k := 0) hset ?_)
      intro _ d5 h5
      refine WillAt.pure ⟨d4, [], _, [.finalize t'], hst4, hmv, by rw [← hw]; exact hmem, hlog, by simp, fun h => absurd rfl h, fun _ => h5⟩
    · have hput : putManifestSimple env p d4 = (.ok false, d4) := by
        unfold putManifestSimple
        rw [run_bind (by rw [gets_eq])]
        simp only [id, h4.progress.pendingUpdates hw, if_true]
        rfl
      intro hf
      refine ⟨(), d4, by rw [run_bind hput]; rfl, ⟨d4, _, _, [.finalize t'], hst4, hmv, hmem, hlog, by simp, fun _ => rfl, fun h => absurd h hw⟩, by omega⟩
  · have hnone : d.cl.v.loadPending env K0.primary = .ok none := loadPending_none he ha.serials ha.hwids (fun r hr hre => by
      cases hp : r.isPending with
      | false => rfl
      | true =>
        obtain ⟨x, hx, hxe⟩ := List.mem_map.1 (hpr.idle r hr hp)
        exact absurd ⟨x.2, by rw [← hre, ← hxe]; exact hx⟩ hm)
    refine WillAt.liftBind hnone ?_
    simp only
    intro _
    refine ⟨(), d, rfl, ⟨d, wait, done, [], h, Moves.refl, fun x => ⟨fun hx => ⟨hx, fun he => hm ⟨x.2, by rw [← he]; exact hx⟩⟩, fun h => h.1⟩,
      by simp, by simp, fun _ => rfl, fun h => absurd h hne⟩, by omega⟩

/-- The process starts on a device where ECUs wait. -/
theorem restart_will {cfg : EcuConfig} {ok : Bool} {d0 : Dev} (hh : Hears p) (hfin : ∀ n t, Installed (p.finalize n t)) (h : Standing env K0 cid wait done d)
    (hne : wait ≠ []) (he : K0.primary ≠ "") (hcfg : Configured K0 cfg)
    (hv : d0.cl.v = d.cl.v) (hr : d0.cl.ecuResults = d.cl.ecuResults) (hl : d0.log = d.log) (hcn : d0.cl.counters = d.cl.counters) :
    WillAt (K0.secondaries.length + 11) d0 (startUp env p cfg ok) (fun _ d' => ∃ d1 wait' done' mid, Standing env K0 cid wait' done' d1 ∧
      Moves wait done wait' done' ∧ (∀ x, x ∈ wait' ↔ x ∈ wait ∧ x.1 ≠ K0.primary) ∧ d1.log = d.log ++ mid ∧ (∀ m ok, Action.sent m ok ∉ mid) ∧ (wait' ≠ [] → d' = d1) ∧
      (wait' = [] → ∃ r raw items, Sent d1 d' (some (r, raw, cid, items)) ∧ Read r ∧ (∀ y ∈ items, Read y.2) ∧ ∀ x ∈ done', x.1 ∈ items.map Prod.fst)) := by
  intro hn
  have hser := h.awaits.serials
  have hhw := h.awaits.hwids
  have hce : d.cl.v.ecus.map (fun e => (e.serial, e.hwid)) = cfg.serials := by rw [h.same.ecus]; exact hcfg.ecus
  let cl1 : Client := { d0.cl with secondaries := cfg.secondaries }
  obtain ⟨cl2, h1, h2⟩ := initEcus_run (cl := cl1) (cfg := cfg) (ok := ok) (by show ∀ e ∈ d0.cl.v.ecus, _; rw [hv]; exact hser)
    (by show ∀ e ∈ d0.cl.v.ecus, _; rw [hv]; exact hhw) (by show d0.cl.v.ecus.map _ = _; rw [hv]; exact hce) (by show 1 ≤ d0.cl.w.fuel; omega)
  have hv2 : cl2.v = d.cl.v := by rw [h2.same]; exact hv
  have hload : cl2.v.loadEcuSerials = .ok (some (cfg.primary :: cfg.secondaries)) := by
    rw [hv2]
    exact loadEcuSerials_run hser hhw hce
  let d3 : Dev := { d0 with cl := { cl2 with primary := cfg.primary.1, primaryHw := cfg.primary.2 }, cache := addSecondaryRows cfg.secondaries d0.cache }
  have hs3 : cl2.secondaries = K0.secondaries := by
    rw [h2.same]
    exact hcfg.secs.symm
  have hst : Standing env K0 cid wait done d3 := by
    refine ⟨⟨hcfg.primary.symm, hcfg.hw.symm, hs3, ?_, ?_⟩, h.awaits.restand hv2 ?_ (hcfg.primary.symm.trans h.same.primary.symm) (hcfg.hw.symm.trans h.same.hw.symm)
      (hs3.trans h.same.secs.symm)⟩
    · show cl2.v.ecus = _
      rw [hv2]
      exact h.same.ecus
    · intro x hx
      rcases h2.counters x hx with hx | hx
      · have hx : x ∈ d0.cl.counters := hx
        rw [hcn] at hx
        exact h.same.counters x hx
      · rw [hx]; decide
    · show cl2.ecuResults = _
      rw [h2.same]
      exact hr
  have hfu : d0.cl.w.fuel ≤ cl2.w.fuel + 1 := h2.fuel
  obtain ⟨u, d', h4, h5, h6⟩ := finalize_mixed hh hfin hst hne he (by show _ ≤ cl2.w.fuel; omega)
  have h6' : cl2.w.fuel ≤ d'.cl.w.fuel + (K0.secondaries.length + 10) := h6
  have hl3 : d3.log = d.log := hl
  rw [hl3] at h5
  refine ⟨u, d', ?_, h5, by omega⟩
  unfold startUp
  rw [run_bind (inClient_ok.2 ⟨cl1, by rw [modify_eq], rfl⟩)]
  rw [run_bind (inClient_ok.2 ⟨cl2, h1, rfl⟩)]
  rw [run_bind (by rw [modify_eq])]
  rw [run_bind (by rw [gets_eq])]
  refine (run_bind (m := lift cl2.v.loadEcuSerials) (by rw [lift_eq, hload])).trans ?_
  simp only
  rw [run_bind (inClient_ok.2 ⟨{ cl2 with primary := cfg.primary.1, primaryHw := cfg.primary.2 }, by rw [modify_eq], rfl⟩)]
  exact h4

end Polls

end Aktualizr
