import Verif.Lemmas.HonestCycle

/-!
# C62 A genuine update is installed

When both repositories offer genuine metadata for this device, the images can be downloaded, and the
package manager and the Secondaries do what they are asked, one update cycle installs the update on
every ECU it is for, records it, and reports the success to the Director.
-/

namespace Aktualizr

open M Spec

namespace Spec

/-- A stored result, as the client writes it. -/
def Written (row : ResultRow) : Prop := ∃ r : InstResult, r.toRow = .ok row ∧ -2147483648 ≤ r.code.num ∧ r.code.num ≤ 2147483647

/-- The tables are as the client keeps them, with no update pending; the counters are not near their
end. -/
structure WellKept (cl : Client) : Prop where
  ordered : cl.v.rows.Pairwise (fun a b => a.id < b.id)
  idle : ∀ r ∈ cl.v.rows, r.isPending = false
  serials : ∀ e ∈ cl.v.ecus, 1 ≤ e.serial.utf8ByteSize ∧ e.serial.utf8ByteSize ≤ 64
  counters : ∀ x ∈ cl.counters, x.2 < int64Max - 1
  device : ∀ row, cl.devResult = some row → Written row.result
  results : ∀ x ∈ cl.ecuResults, Written x.2

end Spec

theorem Spec.Written.read {row : ResultRow} (h : Written row) : ∃ r, row.read = .ok r := by
  obtain ⟨r, h1, h2, h3⟩ := h
  unfold InstResult.toRow at h1
  simp only [exc_bind_ok] at h1
  obtain ⟨repr, h4, h5⟩ := h1
  rw [exc_pure_ok] at h5
  subst h5
  obtain ⟨r', h6, _⟩ := C31_round_trip r.code repr h2 h3 h4
  unfold ResultRow.read
  simp only
  rw [h6]
  exact ⟨_, rfl⟩

theorem readResults_written : ∀ (l : List (String × ResultRow)), (∀ y ∈ l, mkEcuSerial y.1 = .ok y.1 ∧ Written y.2) →
    ∃ out, readResults l = .ok out
  | [], _ => ⟨_, rfl⟩
  | (s, row) :: l, h => by
    obtain ⟨h1, h2⟩ := h (s, row) (by simp)
    obtain ⟨r, hr⟩ := h2.read
    obtain ⟨out, ho⟩ := readResults_written l (fun y hy => h y (by simp [hy]))
    unfold readResults
    rw [hr]
    show ∃ out, (mkEcuSerial s >>= _) = _
    rw [h1]
    show ∃ out, (readResults l >>= _) = _
    rw [ho]
    exact ⟨_, rfl⟩

theorem Spec.WellKept.loads {cl : Client} (h : WellKept cl) : (∃ dev, cl.loadDeviceResult = .ok dev) ∧ ∃ items, cl.loadEcuResults = .ok items := by
  constructor
  · unfold Client.loadDeviceResult
    cases hd : cl.devResult with
    | none => exact ⟨_, rfl⟩
    | some row =>
      obtain ⟨r, hr⟩ := (h.device row hd).read
      simp only
      rw [hr]
      exact ⟨_, rfl⟩
  · obtain ⟨out, ho⟩ := readResults_written (joinEcus cl.v.ecus cl.ecuResults) (fun y hy => by
      obtain ⟨⟨e, he, hs⟩, hm⟩ := mem_joinEcus hy
      obtain ⟨h1, h2⟩ := h.serials e he
      rw [hs] at h1 h2
      exact ⟨mkEcuSerial_run h1 h2, h.results y hm⟩)
    unfold Client.loadEcuResults
    rw [ho]
    exact ⟨_, rfl⟩

theorem rootsOffered_genuine {c : Ctx} {repo : Repo} : ∀ (raws : List String) (v : Int) {first : String} {r0 : Root}, GenuineRoot c.env first r0 →
    RootsOffered c repo v raws → ∃ r, GenuineRoot c.env (lastOf first raws) r
  | [], _, _, r0, h, _ => ⟨r0, h⟩
  | raw :: raws, v, _, _, _, ⟨_, ⟨_, hr, _⟩, ho⟩ => rootsOffered_genuine raws (v + 1) hr ho

theorem Spec.HonestRoots.genuineLast {c : Ctx} {repo : Repo} {db : MetaDb} {first : String} {raws : List String} {last : Root}
    (h : HonestRoots c repo db first raws last) : GenuineRoot c.env (lastOf first raws) last := by
  obtain ⟨r0, h1, -, h2, -⟩ := h.offered
  obtain ⟨r, hr⟩ := rootsOffered_genuine raws _ h1 h2
  rw [reads_unique h.ends hr.reads]
  exact hr

theorem assignments_serials (us : List Target) : (assignments us).map (fun x => x.2.1) = (us.map (·.ecus)).flatMap (fun l => l.map Prod.fst) := by
  unfold assignments
  induction us with
  | nil => rfl
  | cons u us ih => simp [List.flatMap_cons, ih, List.map_append, List.map_map, Function.comp_def]

theorem sublist_flatMap {α β : Type} {f : α → List β} {l l' : List α} (h : l.Sublist l') : (l.flatMap f).Sublist (l'.flatMap f) := by
  induction h with
  | slnil => exact List.Sublist.refl _
  | cons a _ ih => exact ih.trans (by simp [List.flatMap_cons])
  | cons_cons a _ ih => simpa [List.flatMap_cons] using ih

theorem assignments_length_le {us : List Target} {ts : Targets} (h : (us.map (·.ecus)).Sublist (ts.targets.map (·.ecus))) :
    (assignments us).length ≤ (assignments ts.targets).length := by
  have := (sublist_flatMap (f := fun l : List (String × String) => l.map Prod.fst) h).length_le
  rw [← assignments_serials, ← assignments_serials, List.length_map, List.length_map] at this
  exact this

namespace Spec

/-- Enough effects for a whole cycle before the process dies. -/
def cycleCost (secs dRoots iRoots roles : Nat) (dLast iLast : Root) (ts : Targets) : Nat :=
  2 * (secs + 5) + (2 * dRoots + 2 * iRoots + 6 + 2 * roles * ts.targets.length) + ((assignments ts.targets).length * (dLast.base.version.toNat + iLast.base.version.toNat + 5) + 7)

/-- The action that installs `u` on an ECU. -/
def InstallsOn (primary : String) (ecu correlationId : String) (u : Target) : Action :=
  if ecu = primary then .install { u with correlationId := correlationId } else .secInstall ecu u

end Spec

/-- What the first half of the cycle leaves: the updates `us`, which the stored metadata authorises. -/
structure Prepared (c : Ctx) (d : Dev) (dRoot : String) (dLast : Root) (dRaw : String) (ts : Targets) (iRoot : String) (iLast : Root)
    (rawT rawS iRaw : String) (tm : TimestampMeta) (sn : Snapshot) (its : Targets) (us : List Target) (cost : Nat) (d1 : Dev) : Prop where
  authorised : Authorised c d1 dRoot dLast dRaw ts iRoot iLast rawT rawS iRaw tm sn its us
  client : d1.cl = { d.cl with w := d1.cl.w, counters := d1.cl.counters, devResult := none, ecuResults := [] }
  counters : ∀ x ∈ d1.cl.counters, ∃ y ∈ d.cl.counters, x.2 ≤ y.2 + 1
  log : ∃ m k, d1.log = d.log ++ [.signed d.cl.primary k] ++ [.sent m true]
  offers : ∀ t ∈ ts.targets, Outdated c.env d.cl t → ∃ u l, u ∈ us ∧ Listed c d.cl.w.db.delegations rawS its t l ∧ Offers t l u
  only : ∀ u ∈ us, ∃ t l, t ∈ ts.targets ∧ Outdated c.env d.cl t ∧ Offers t l u
  sublist : (us.map (·.ecus)).Sublist (ts.targets.map (·.ecus))
  fuel : d.cl.w.fuel ≤ d1.cl.w.fuel + cost

theorem fetchMeta_prepares {c : Ctx} {p : Peers} {d : Dev}
    {dFirst : String} {dRaws : List String} {dLast : Root} {dRaw : String} {ts : Targets}
    {iFirst : String} {iRaws : List String} {iLast : Root} {rawT rawS iRaw : String} {tm : TimestampMeta} {sn : Snapshot} {its : Targets} {k : Nat}
    (hd : HonestDirector c d.cl.w.db dFirst dRaws dLast dRaw ts) (hi : HonestImage c d.cl.w.db iFirst iRaws iLast rawT rawS iRaw tm sn its)
    (hfit : ∀ t ∈ ts.targets, FitsDevice c.env d.cl t) (hsome : ∃ t ∈ ts.targets, Outdated c.env d.cl t)
    (hlist : ∀ t ∈ ts.targets, Outdated c.env d.cl t → Attainable c d.cl.w.db.delegations rawS its k t)
    (hone : ∀ t ∈ ts.targets, OneHashEach t) (hreg : ∀ t ∈ ts.targets, ∀ e ∈ t.ecus, ∃ row ∈ d.cl.v.ecus, row.serial = e.1)
    (hkept : WellKept d.cl) (hh : Hears p)
    (hfuel : d.cl.secondaries.length + 5 + (2 * dRaws.length + 2 * iRaws.length + 6 + 2 * k * ts.targets.length) ≤ d.cl.w.fuel) :
    ∃ res d1, fetchMeta c p d = (.ok res, d1) ∧ Prepared c d (lastOf dFirst dRaws) dLast dRaw ts (lastOf iFirst iRaws) iLast rawT rawS iRaw tm sn its
      res.updates (d.cl.secondaries.length + 5 + (2 * dRaws.length + 2 * iRaws.length + 6 + 2 * k * ts.targets.length)) d1 := by
  have hpend := idle_pending hkept.idle
  obtain ⟨⟨dev, hdev⟩, items0, hitems0⟩ := hkept.loads
  have hput := putManifest_will (env := c.env) hh hpend (fun x hx => by have := hkept.counters x hx; omega) hdev hitems0
  obtain ⟨b1, d1, e1, s1, f1⟩ := hput (by omega)
  have hfit1 : ∀ t ∈ ts.targets, FitsDevice c.env d1.cl t := by rw [s1.cl]; exact hfit
  have hout : ∀ t, Outdated c.env d1.cl t ↔ Outdated c.env d.cl t := fun t => by rw [s1.cl]; exact Iff.rfl
  have hdel : d1.cl.w.db.delegations = d.cl.w.db.delegations := by rcases s1.db with h | h <;> rw [h] <;> rfl
  obtain ⟨res, cl2, e2, h2, -, h4, h5, h6, h7⟩ := checkUpdates_run (k := k) (hd.dropped s1.db) (hi.dropped s1.db) hfit1
    (by obtain ⟨t, h1, h2⟩ := hsome; exact ⟨t, h1, (hout t).2 h2⟩) (fun t ht ho => by rw [hdel]; exact hlist t ht ((hout t).1 ho)) (by omega)
  rw [hdel] at h4 h5
  have hcl : cl2 = { d.cl with w := cl2.w, counters := d1.cl.counters, devResult := none, ecuResults := [] } := by
    rw [h7.same, s1.cl]
  have hfit2 : ∀ t ∈ ts.targets, FitsDevice c.env cl2 t := by rw [hcl]; exact hfit
  have hout2 : ∀ t, Outdated c.env cl2 t ↔ Outdated c.env d1.cl t := fun t => by rw [hcl, s1.cl]; exact Iff.rfl
  have hecus : ∀ x ∈ assignments res.updates, ∃ t ∈ ts.targets, (x.2.1, x.2.2) ∈ t.ecus := by
    intro x hx
    obtain ⟨h8, h9⟩ := mem_assignments.1 hx
    obtain ⟨t, m, ht, -, -, ho, -⟩ := h4 _ h8
    rw [ho] at h9
    exact ⟨t, ht, h9⟩
  have hauth : Authorised c { d1 with cl := cl2 } (lastOf dFirst dRaws) dLast dRaw ts (lastOf iFirst iRaws) iLast rawT rawS iRaw tm sn its res.updates := by
    refine ⟨?_, ?_, hfit2, hone, ?_, ⟨?_, ?_, ?_⟩, ?_, ?_, ?_⟩
    · exact ⟨h7.dNewest.imp (fun _ h => ⟨h.1, h.2.1⟩), hd.roots.genuineLast, hd.roots.fresh, h7.dStored, hd.genuine, hd.reads, hd.fresh, hd.some, hd.plain, hd.once⟩
    · exact ⟨h7.iNewest.imp (fun _ h => ⟨h.1, h.2.1⟩), hi.roots.genuineLast, hi.roots.fresh, h7.iStoredT, hi.genuineT, hi.readsT, hi.freshT, h7.iStoredS, hi.genuineS, hi.readsS,
        hi.vouched, hi.freshS, h7.iStored, hi.genuine, hi.reads, hi.listed, hi.fresh⟩
    · intro u hu
      obtain ⟨t, m, a1, a2, -, a4, a5⟩ := h4 u hu
      exact ⟨t, m, _, a1, (hout2 t).2 a2, a5, a4⟩
    · intro x hx
      obtain ⟨t, ht, he⟩ := hecus x hx
      refine ⟨(hfit2 t ht _ he).1, ReadsAsTargets.ecus_nonempty hd.reads t ht _ he, ?_⟩
      show ∃ e ∈ cl2.v.ecus, _
      rw [hcl]
      exact hreg t ht _ he
    · rw [assignments_serials]
      refine (sublist_flatMap h6).nodup ?_
      have := hd.once
      unfold EcusOnce at this
      rw [List.flatMap_map]
      exact this
    · obtain ⟨t, ht, ho⟩ := hsome
      obtain ⟨u, m, hu, -, hoff⟩ := h5 t ht ((hout t).2 ho)
      obtain ⟨e, he, -⟩ := ho
      intro hnil
      have : (u, e.1, e.2) ∈ assignments res.updates := mem_assignments.2 ⟨hu, by rw [hoff]; exact he⟩
      rw [hnil] at this
      cases this
    · show ∀ e ∈ cl2.v.ecus, _
      rw [hcl]
      intro e he
      obtain ⟨a, b⟩ := hkept.serials e he
      exact mkEcuSerial_run a b
    · show VersionDb.Ordered cl2.v.rows
      rw [hcl]
      exact hkept.ordered
    · show ∀ r ∈ cl2.v.rows, _
      rw [hcl]
      exact hkept.idle
  have hfetchMeta : fetchMeta c p d = (.ok res, { d1 with cl := cl2 }) := by
    unfold fetchMeta
    rw [run_bind (by rw [gets_eq])]
    simp only [id, hpend, Bool.false_eq_true, if_false]
    refine (run_bind (m := gets id) (w := d) (by rw [gets_eq])).trans ?_
    simp only [id, hpend, Bool.false_eq_true, if_false]
    rw [run_bind e1]
    exact inClient_ok.2 ⟨cl2, e2, rfl⟩
  have hf7 := h7.fuel
  refine ⟨res, { d1 with cl := cl2 }, hfetchMeta, hauth, (by show cl2 = _; rw [hcl]), ?_, ?_, ?_, ?_, h6, ?_⟩
  · show ∀ x ∈ cl2.counters, _
    rw [hcl]
    exact s1.counters
  · obtain ⟨m, k, h, -⟩ := s1.log
    exact ⟨m, k, h⟩
  · exact fun t ht ho => h5 t ht ((hout t).2 ho)
  · intro u hu
    obtain ⟨t, l, a, b, -, e, -⟩ := h4 u hu
    exact ⟨t, l, a, (hout t).1 b, e⟩
  · show d.cl.w.fuel ≤ cl2.w.fuel + _
    omega

theorem installCost_le {us : List Target} {ts : Targets} (h6 : (us.map (·.ecus)).Sublist (ts.targets.map (·.ecus))) (dLast iLast : Root) :
    installCost dLast iLast us ≤ (assignments ts.targets).length * (dLast.base.version.toNat + iLast.base.version.toNat + 5) + 6 := by
  have h8 := Nat.mul_le_mul_right (dLast.base.version.toNat + iLast.base.version.toNat + 5) (assignments_length_le h6)
  have h9 : (assignments us).length * (dLast.base.version.toNat + iLast.base.version.toNat + 5) =
    (assignments us).length * (dLast.base.version.toNat + iLast.base.version.toNat + 1) + (assignments us).length * 4 := by
    rw [← Nat.mul_add]
  unfold installCost
  omega

/-- **C62** A genuine update for this device is installed by one cycle: on every ECU of every target
that is not installed yet (be it listed at the top of the Image repository or in a delegated role),
the image is installed and recorded as current; the last thing sent is a
manifest with the report of a success for the device and all these ECUs, under the Director's
correlation id; nothing is left pending or to report. -/
theorem C62_installed {c : Ctx} {p : Peers} {f : Fetched} {force : Bool} {d : Dev}
    {dFirst : String} {dRaws : List String} {dLast : Root} {dRaw : String} {ts : Targets}
    {iFirst : String} {iRaws : List String} {iLast : Root} {rawT rawS iRaw : String} {tm : TimestampMeta} {sn : Snapshot} {its : Targets} {k : Nat}
    (hd : HonestDirector c d.cl.w.db dFirst dRaws dLast dRaw ts) (hi : HonestImage c d.cl.w.db iFirst iRaws iLast rawT rawS iRaw tm sn its)
    (hfit : ∀ t ∈ ts.targets, FitsDevice c.env d.cl t) (hsome : ∃ t ∈ ts.targets, Outdated c.env d.cl t)
    (hlist : ∀ t ∈ ts.targets, Outdated c.env d.cl t → Attainable c d.cl.w.db.delegations rawS its k t)
    (hone : ∀ t ∈ ts.targets, OneHashEach t) (hreg : ∀ t ∈ ts.targets, ∀ e ∈ t.ecus, ∃ row ∈ d.cl.v.ecus, row.serial = e.1)
    (hkept : WellKept d.cl) (hp : Helpful c p dLast iLast) (hfetch : ∀ n t, f n t = true)
    (hfuel : cycleCost d.cl.secondaries.length dRaws.length iRaws.length k dLast iLast ts ≤ d.cl.w.fuel) :
    ∃ d' mid m r raw items, uptaneCycle c p f force d = (.ok true, d') ∧
      (∀ t ∈ ts.targets, Outdated c.env d.cl t → ∀ e ∈ t.ecus, RecordedCurrent d'.cl.v e.1 t) ∧
      d'.log = d.log ++ mid ++ [.sent m true] ∧
      (∀ t ∈ ts.targets, Outdated c.env d.cl t → ∃ l u, Listed c d.cl.w.db.delegations rawS its t l ∧ Offers t l u ∧
        ∀ e ∈ t.ecus, InstallsOn d.cl.primary e.1 ts.correlationId u ∈ mid) ∧
      m.report = some (r, raw, ts.correlationId, items) ∧ r.success = true ∧ r.code.num = 0 ∧ (∀ y ∈ items, y.2.success = true) ∧
      (∀ t ∈ ts.targets, Outdated c.env d.cl t → ∀ e ∈ t.ecus, ∃ y ∈ items, y.1 = e.1) ∧
      d'.cl.devResult = none ∧ d'.cl.ecuResults = [] ∧ d'.cl.hasPendingUpdates = false := by
  unfold cycleCost at hfuel
  obtain ⟨res, d1, e1, hprep⟩ := fetchMeta_prepares (k := k) hd hi hfit hsome hlist hone hreg hkept hp.toHears (by omega)
  have hcost := installCost_le hprep.sublist dLast iLast
  have hcl := hprep.client
  have h5 := hprep.offers
  have hsecs : d1.cl.secondaries = d.cl.secondaries := by rw [hcl]
  have hprim : d1.cl.primary = d.cl.primary := by rw [hcl]
  have hrest := cycleDownload_will (force := force) hfetch hp hprep.authorised (by rw [hcl]) (by
    intro x hx
    obtain ⟨y, hy, hxy⟩ := hprep.counters x hx
    have := hkept.counters y hy
    omega)
  have hf7 := hprep.fuel
  obtain ⟨b, d', e3, ⟨rfl, d3, done, rep, hall, hsent, hrep⟩, -⟩ := hrest (by rw [hsecs]; omega)
  obtain ⟨acts, hpr, hacts⟩ := hall.progress
  obtain ⟨m, k, hlog, hm⟩ := hsent.log
  obtain ⟨r, raw, items, hr1, hr2, hr3, hr4⟩ := hrep
  obtain ⟨m1, k1, hlog1⟩ := hprep.log
  obtain ⟨l, hl, hin⟩ := hpr.log
  refine ⟨d', [.signed d.cl.primary k1, .sent m1 true] ++ l ++ [.signed d3.cl.primary k], m, r, raw, items, ?_, ?_, ?_, ?_, by rw [hm, hr1], hr2.1,
    by rw [hr2.2], fun y hy => (hr3 y hy).1, ?_, by rw [hsent.cl], by rw [hsent.cl], ?_⟩
  · unfold uptaneCycle
    rw [run_bind e1]
    exact e3
  · intro t ht ho e he
    obtain ⟨u, mm, hu, -, hoff⟩ := h5 t ht ho
    have hx : (u, e.1, e.2) ∈ assignments res.updates := mem_assignments.2 ⟨hu, by rw [hoff]; exact he⟩
    have := hpr.current _ (hall.every _ hx)
    have hv : d'.cl.v = d3.cl.v := by rw [hsent.cl]
    rw [hv]
    rw [hoff] at this
    exact this
  · rw [hlog, hl]
    show d1.log ++ l ++ _ ++ _ = _
    rw [hlog1]
    simp
  · intro t ht ho
    obtain ⟨u, mm, hu, hlst, hoff⟩ := h5 t ht ho
    refine ⟨mm, u, hlst, hoff, fun e he => ?_⟩
    have hx : (u, e.1, e.2) ∈ assignments res.updates := mem_assignments.2 ⟨hu, by rw [hoff]; exact he⟩
    obtain ⟨ha, hb⟩ := hacts _ hx
    refine List.mem_append.2 (.inl (List.mem_append.2 (.inr (hin _ ?_))))
    unfold InstallsOn
    split
    · next h => exact ha (h.trans hprim.symm)
    · next h => exact hb (fun h' => h (h'.trans hprim))
  · intro t ht ho e he
    obtain ⟨u, mm, hu, -, hoff⟩ := h5 t ht ho
    have hx : (u, e.1, e.2) ∈ assignments res.updates := mem_assignments.2 ⟨hu, by rw [hoff]; exact he⟩
    exact List.mem_map.1 (hr4 _ hx)
  · have hv : d'.cl.v = d3.cl.v := by rw [hsent.cl]
    refine idle_pending (fun r hr => hpr.still r ?_)
    rw [← hv]
    exact hr

/-! ### Concrete case -/

namespace Toy

/-- A new device with a Secondary: nothing is installed or stored. -/
def newDevice : Dev := { cl := device {} }

/-- The Director assigns `fw` to both ECUs. -/
def forBoth : Targets := targetsOf "dt4two" (rootOf "dr1")
/-- The Image repository lists `fw`. -/
def fwListed : Targets := targetsOf "it1" (rootOf "ir1")

theorem none_stored {repo : Repo} {type : RoleKind} {old : String} (h : Stored newDevice.cl.w.db repo type old) : False := by
  obtain ⟨row, h1, -⟩ := h
  cases h1

theorem firstDirector : HonestDirector (deleCtx both) newDevice.cl.w.db "dr1" [] (rootOf "dr1") "dt4two" forBoth where
  roots := {
    start := .inr ⟨rfl, fun _ => rfl, by decide⟩
    offered := ⟨rootOf "dr1", dr1_genuine, by decide +kernel, by
      have hv : (rootOf "dr1").base.version + 1 = 2 := by decide +kernel
      rw [hv]
      exact fun _ => rfl, by decide +kernel⟩
    chain := trivial
    ends := dr1_genuine.reads
    fresh := fun _ => by
      show TimeStamp.isExpiredAt _ ⟨"2026-01-01T00:00:00Z"⟩ = _
      decide +kernel }
  served := ⟨fun _ => rfl, by decide⟩
  genuine := genuine (id := "dt4two") (signers := dk) rfl (by decide) (.inl (by simp)) (by decide) (by decide +kernel)
  reads := readsTargets (by decide +kernel)
  newer := ⟨4, ⟨_, _, rfl, rfl, rfl, rfl⟩, by decide, fun old ho => (none_stored ho).elim⟩
  fresh := fun _ => by
    show TimeStamp.isExpiredAt _ ⟨"2026-01-01T00:00:00Z"⟩ = _
    decide +kernel
  some := by
    intro h
    have : forBoth.targets.map (·.filename) = ["fw"] := by decide +kernel
    rw [h] at this
    cases this
  plain := by decide +kernel
  once := by unfold EcusOnce; decide +kernel

theorem firstImage : HonestImage (deleCtx both) newDevice.cl.w.db "ir1" [] (rootOf "ir1") "its1" "isn1" "it1"
    (timestampOf "its1" (rootOf "ir1")) (snapshotOf "isn1" (rootOf "ir1")) fwListed where
  roots := {
    start := .inr ⟨rfl, fun _ => rfl, by decide⟩
    offered := ⟨rootOf "ir1", ir1_genuine, by decide +kernel, by
      have hv : (rootOf "ir1").base.version + 1 = 2 := by decide +kernel
      rw [hv]
      exact fun _ => rfl, by decide +kernel⟩
    chain := trivial
    ends := ir1_genuine.reads
    fresh := fun _ => by
      show TimeStamp.isExpiredAt _ ⟨"2026-01-01T00:00:00Z"⟩ = _
      decide +kernel }
  servedT := ⟨fun _ => rfl, by decide⟩
  genuineT := genuine (id := "its1") (signers := ik) rfl (by decide) (.inl (by simp)) (by decide) (by decide +kernel)
  readsT := ⟨(rootOf "ir1").base, val_eq (by decide +kernel)⟩
  newerT := ⟨1, ⟨_, _, rfl, rfl, rfl, rfl⟩, by decide, fun old ho => (none_stored ho).elim⟩
  freshT := fun _ => by
    show TimeStamp.isExpiredAt _ ⟨"2026-01-01T00:00:00Z"⟩ = _
    decide +kernel
  servedS := ⟨fun _ => rfl, by decide +kernel⟩
  genuineS := genuine (id := "isn1") (signers := ik) rfl (by decide) (.inl (by simp)) (by decide) (by decide +kernel)
  readsS := ⟨(rootOf "ir1").base, val_eq (by decide +kernel)⟩
  vouched := by
    have hv : (snapshotOf "isn1" (rootOf "ir1")).version = 1 := by decide +kernel
    rw [hv]
    refine ⟨_, _, _, ⟨_, rfl, _, rfl, _, rfl, rfl⟩, rfl, ?_, ⟨("sha256", .str "#isn1!"), by simp [Json.entries], .inl rfl⟩, rfl, rfl⟩
    intro kj hk _
    have hk' : kj = (_, _) := List.mem_singleton.1 hk
    subst hk'
    exact ⟨_, rfl, by decide +kernel⟩
  versionS := by
    have hv : (snapshotOf "isn1" (rootOf "ir1")).version = 1 := by decide +kernel
    rw [hv]
    exact ⟨⟨_, _, rfl, rfl, rfl, rfl⟩, by decide⟩
  knownS := fun old ho => (none_stored ho).elim
  freshS := fun _ => by
    show TimeStamp.isExpiredAt _ ⟨"2026-01-01T00:00:00Z"⟩ = _
    decide +kernel
  served := ⟨fun _ => rfl, by decide⟩
  genuine := genuine (id := "it1") (signers := ik) rfl (by decide) (.inl (by simp)) (by decide) (by decide +kernel)
  reads := readsTargets (by decide +kernel)
  listed := by
    have hv : fwListed.base.version = 1 := by decide +kernel
    rw [hv]
    refine ⟨_, ⟨_, rfl, _, rfl, rfl⟩, ⟨("targets.json", _), List.mem_singleton.2 rfl, by decide +kernel⟩, ?_⟩
    intro kj hk _
    have hk' : kj = (_, _) := List.mem_singleton.1 hk
    subst hk'
    refine ⟨⟨_, rfl, ?_⟩, _, rfl, rfl⟩
    intro kj hk _
    have hk' : kj = (_, _) := List.mem_singleton.1 hk
    subst hk'
    exact ⟨_, rfl, by decide +kernel⟩
  newer := ⟨1, ⟨_, _, rfl, rfl, rfl, rfl⟩, by decide, fun old ho => (none_stored ho).elim⟩
  fresh := fun _ => by
    show TimeStamp.isExpiredAt _ ⟨"2026-01-01T00:00:00Z"⟩ = _
    decide +kernel

theorem forBoth_mem {t : Target} (h : t ∈ forBoth.targets) : t.filename = "fw" ∧ t.ecus = [("e1", "h1"), ("e2", "h1")] ∧
    t.hashes = [Hash.mk' .sha256 "abc"] ∧ t.length = 3 ∧ t.hwids = [] ∧ t.sha256Hash = "abc" := by
  have h1 : forBoth.targets.map (fun t => (t.filename, t.ecus, t.hashes, t.length, t.hwids)) =
    [("fw", [("e1", "h1"), ("e2", "h1")], [Hash.mk' .sha256 "abc"], 3, [])] := by decide +kernel
  have h2 : forBoth.targets.map (fun t => t.sha256Hash) = ["abc"] := by decide +kernel
  have h1 := map_mem h1 h
  have h2 := map_mem h2 h
  simp only [List.mem_singleton, Prod.mk.injEq] at h1 h2
  exact ⟨h1.1, h1.2.1, h1.2.2.1, h1.2.2.2.1, h1.2.2.2.2, h2⟩

/-- Everyone does what they are asked; the Secondary already knows both Roots, its manifests cannot be had. -/
def helpful : Peers where
  verify := fun _ _ => .ok .good
  install := fun _ _ => .ok ⟨true, .ok, "installed"⟩
  finalize := fun _ _ => .ok ⟨true, .ok, "installed"⟩
  reachable := fun _ => true
  rootVersion := fun _ _ _ => .ok 1
  putRoot := fun _ _ _ _ => .ok ⟨true, .ok, ""⟩
  putMetadata := fun _ _ _ => .ok ⟨true, .ok, ""⟩
  sendFirmware := fun _ _ _ => .ok ⟨true, .ok, ""⟩
  secInstall := fun _ _ _ => .ok ⟨true, .ok, ""⟩
  secManifest := fun _ _ => .error (.std "unreachable")
  secKey := fun _ _ => .error (.std "unreachable")
  putManifest := fun _ _ => true

theorem helpful_is : Helpful (deleCtx both) helpful (rootOf "dr1") (rootOf "ir1") where
  verify := fun _ _ => rfl
  install := fun _ _ => ⟨_, rfl⟩
  reachable := fun _ => rfl
  dRoots := fun _ _ => ⟨1, rfl, .inr (.inl (by decide +kernel))⟩
  iRoots := fun _ _ => ⟨1, rfl, .inr (.inl (by decide +kernel))⟩
  putRoot := fun _ _ _ _ => ⟨_, rfl, rfl⟩
  putMetadata := fun _ _ _ => ⟨_, rfl, rfl⟩
  sendFirmware := fun _ _ _ => ⟨_, rfl, rfl⟩
  secInstall := fun _ _ _ => ⟨_, rfl⟩
  secManifest := fun _ _ e h => by cases h; rfl
  secKey := fun _ _ e h => by cases h; rfl
  putManifest := fun _ _ => rfl

theorem newDevice_kept : WellKept newDevice.cl where
  ordered := .nil
  idle := by intro r hr; cases hr
  serials := by
    intro e he
    have : e = ⟨"e1", "h1", true⟩ ∨ e = ⟨"e2", "h1", false⟩ := by simpa [newDevice, device] using he
    rcases this with rfl | rfl <;> decide
  counters := by intro x hx; cases hx
  device := by intro r hr; cases hr
  results := by intro x hx; cases hx

end Toy

/-- The hypotheses of `C62_installed` are met: a new device with a Secondary installs its first
update on both ECUs. -/
example : ∃ d' m r raw items, uptaneCycle (Toy.deleCtx Toy.both) Toy.helpful (fun _ _ => true) false Toy.newDevice = (.ok true, d') ∧
    (∀ e, e = "e1" ∨ e = "e2" → ∃ row ∈ d'.cl.v.rows, row.ecu = e ∧ row.isCurrent = true ∧ row.name = "fw" ∧ row.sha256 = "abc") ∧
    .sent m true ∈ d'.log ∧ m.report = some (r, raw, Toy.forBoth.correlationId, items) ∧ r.success = true := by
  obtain ⟨t, ht⟩ : ∃ t, t ∈ Toy.forBoth.targets := by
    cases hl : Toy.forBoth.targets with
    | nil => exact absurd hl Toy.firstDirector.some
    | cons t l => exact ⟨t, by simp⟩
  have hout : ∀ t ∈ Toy.forBoth.targets, Outdated Toy.E Toy.newDevice.cl t := fun t ht => ⟨("e1", "h1"), by simp [(Toy.forBoth_mem ht).2.1], by
    intro x hx
    cases hx⟩
  have hecu : ∀ t ∈ Toy.forBoth.targets, ∀ e ∈ t.ecus, e = ("e1", "h1") ∨ e = ("e2", "h1") := by
    intro t ht e he
    rw [(Toy.forBoth_mem ht).2.1] at he
    simpa using he
  obtain ⟨d', mid, m, r, raw, items, h1, h2, h3, -, h4, h5, -⟩ := C62_installed (p := Toy.helpful) (f := fun _ _ => true) (force := false) (d := Toy.newDevice)
    Toy.firstDirector Toy.firstImage
    (by
      intro t ht e he
      rcases hecu t ht e he with rfl | rfl
      · exact ⟨.inl ⟨rfl, rfl, by decide⟩, ⟨none, rfl, fun _ h => by cases h⟩, fun _ h => by cases h⟩
      · exact ⟨.inr ⟨by decide, by decide, rfl⟩, ⟨none, rfl, fun _ h => by cases h⟩, fun _ h => by cases h⟩)
    ⟨t, ht, hout t ht⟩
    (by
      intro t ht _
      obtain ⟨h1, h2, h3, h4, h5, -⟩ := Toy.forBoth_mem ht
      have hm : Toy.fwListed.targets.map (fun t => (t.filename, t.ecus, t.hashes, t.length, t.hwids)) =
        [("fw", [], [Hash.mk' .sha256 "abc"], 3, ["h1", "h2"])] := by decide +kernel
      cases hl : Toy.fwListed.targets with
      | nil => rw [hl] at hm; cases hm
      | cons m l =>
        rw [hl] at hm
        simp only [List.map_cons, List.cons.injEq, Prod.mk.injEq, List.map_eq_nil_iff] at hm
        obtain ⟨⟨a1, a2, a3, a4, a5⟩, -⟩ := hm
        refine attainable_listed (k := 0) (m := m) ⟨by rw [hl]; simp, ⟨by rw [a1, h1], by rw [a4, h4], ?_, ?_⟩, .inr (.inr ?_)⟩
        · rw [a3, h3]; exact ⟨_, List.mem_singleton.2 rfl, List.mem_singleton.2 rfl⟩
        · rw [a3, h3]
          intro h hh h' hh' _
          rw [List.mem_singleton.1 hh, List.mem_singleton.1 hh']
        · unfold HardwareAllowed
          rw [h2, h5, a2, a5]
          refine ⟨rfl, by simp, rfl, by simp, fun ecu hw h => ?_⟩
          simp only [List.mem_cons, Prod.mk.injEq, List.not_mem_nil, or_false] at h
          rcases h with ⟨-, rfl⟩ | ⟨-, rfl⟩ <;> simp)
    (by
      intro t ht h hh h' hh' _
      rw [(Toy.forBoth_mem ht).2.2.1] at hh hh'
      rw [List.mem_singleton.1 hh, List.mem_singleton.1 hh'])
    (by
      intro t ht e he
      rcases hecu t ht e he with rfl | rfl
      · exact ⟨⟨"e1", "h1", true⟩, by decide, rfl⟩
      · exact ⟨⟨"e2", "h1", false⟩, by decide, rfl⟩)
    Toy.newDevice_kept Toy.helpful_is (fun _ _ => rfl) (by decide +kernel)
  refine ⟨d', m, r, raw, items, h1, ?_, by rw [h3]; simp, h4, h5⟩
  intro e he
  obtain ⟨a1, a2, -, -, -, a6⟩ := Toy.forBoth_mem ht
  have : (e, "h1") ∈ t.ecus := by rw [a2]; rcases he with rfl | rfl <;> simp
  obtain ⟨⟨row, b1, b2, b3, b4, b5⟩, -⟩ := h2 t ht (hout t ht) _ this
  exact ⟨row, b1, b2, b3, by rw [b4, a1], by rw [b5, a6]⟩

end Aktualizr
