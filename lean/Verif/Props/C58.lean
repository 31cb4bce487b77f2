import Verif.Model.Cycle
import Verif.Lemmas.DeviceDb
import Verif.Props.C02
import Verif.Props.C10
import Verif.Props.C19
import Verif.Props.C26

/-!
# C58 Whatever reaches an ECU was authorised under the Roots the device started with
-/

namespace Aktualizr

open M Spec

/-! ### Operations that touch no ECU -/

/-- Nothing was done to an ECU. -/
def Quietly : Dev → Dev → Prop := Logs (fun _ _ a => ¬ Touches a)

theorem quietly_pre : IsPre Quietly := logs_pre _

theorem quietly_client {α : Type} {m : C α} (hm : Preserves SameEcus m) : Preserves Quietly (inClient m) := logs_client hm

theorem quietly_frame : DevFrame SameEcus (fun a => ¬ Touches a) Quietly where
  cl := sameEcus_cl
  versions := fun _ _ _ _ _ => ⟨rfl, rfl⟩
  ecuResult := fun _ _ _ => ⟨rfl, rfl⟩
  devResult := fun _ _ => ⟨rfl, rfl⟩
  pre := quietly_pre
  client := fun _ _ h => ⟨h.1, h.2, [], by simp, by simp⟩
  log := fun _ a ha => ⟨rfl, rfl, [a], rfl, by simpa using ha⟩
  asked := fun _ _ => ⟨rfl, rfl, [], by simp, by simp⟩
  cache := fun _ _ => ⟨rfl, rfl, [], by simp, by simp⟩

theorem assembleManifest_quiet (env : Env) (p : Peers) : Preserves Quietly (assembleManifest env p) := by
  have hf := quietly_frame
  unfold assembleManifest nextCounter
  wpres quietly_pre
  all_goals first
    | exact quietly_client (sameEcus_cl.cwrite (fun _ => ⟨rfl, rfl⟩))
    | exact hf.act (fun h => h)
    | exact hf.secondaryManifests _ _ _
    | exact hf.assembleReport

theorem putManifestSimple_quiet (env : Env) (p : Peers) : Preserves Quietly (putManifestSimple env p) := by
  have hf := quietly_frame
  unfold putManifestSimple clearInstallationResults
  wpres quietly_pre
  all_goals first
    | exact assembleManifest_quiet _ _
    | exact hf.ask _
    | exact hf.act (fun h => h)
    | exact quietly_client (sameEcus_cl.cwrite (fun _ => ⟨rfl, rfl⟩))

theorem fetchMeta_quiet (c : Ctx) (p : Peers) : Preserves Quietly (fetchMeta c p) := by
  have hf := quietly_frame
  unfold fetchMeta
  wpres quietly_pre
  all_goals first
    | exact hf.checkPending _ _
    | exact putManifestSimple_quiet _ _
    | exact quietly_client (sameEcus_cl.checkUpdates (fun _ _ => ⟨rfl, rfl⟩) c)

theorem downloadEach_quiet (f : Fetched) : ∀ ts, Preserves Quietly (downloadEach f ts)
  | [] => .pure quietly_pre
  | t :: ts => by
    have ih := downloadEach_quiet f ts
    unfold downloadEach
    wpres quietly_pre
    exact quietly_frame.ask _

theorem downloadImages_quiet (c : Ctx) (f : Fetched) (ts : List Target) : Preserves Quietly (downloadImages c f ts) := by
  have hf := quietly_frame
  unfold downloadImages downloadResult recheck
  wpres quietly_pre
  all_goals first
    | exact hf.inClient (.catchStd hf.cl.pre (hf.cl.checkUpdatesOffline _ _) (fun _ => .pure hf.cl.pre))
    | exact hf.inClient (hf.storeInstallationFailure _)
    | exact downloadEach_quiet _ _

theorem cycleEnd_quiet (c : Ctx) (p : Peers) (force : Bool) : Preserves Quietly (cycleEnd c p force) := by
  unfold cycleEnd completionRequired
  wpres quietly_pre
  exact putManifestSimple_quiet _ _

/-- What `fetchMeta` returns with updates comes from an online check in this call. -/
theorem fetchMeta_updates {c : Ctx} {p : Peers} {d d' : Dev} {r : UpdateCheck} (h : fetchMeta c p d = (.ok r, d')) (hne : r.updates ≠ []) :
    ∃ d1 cl', checkUpdates c d1.cl = (.ok r, cl') ∧ d' = { d1 with cl := cl' } ∧ Quietly d d1 := by
  have hf := quietly_frame
  unfold fetchMeta at h
  obtain ⟨_, _, g1, h⟩ := M.bind_ok.1 h
  simp only [gets_eq, Prod.mk.injEq, Except.ok.injEq, id] at g1
  obtain ⟨rfl, rfl⟩ := g1
  have key : ∀ d0, Quietly d d0 → (do
        let d ← gets id
        if d.cl.hasPendingUpdates then
          pure ⟨[], 0, .error, .null, "There are pending updates, no new updates are checked"⟩
        else do
          let _ ← putManifestSimple c.env p
          inClient (checkUpdates c) : D UpdateCheck) d0 = (.ok r, d') →
      ∃ d1 cl', checkUpdates c d1.cl = (.ok r, cl') ∧ d' = { d1 with cl := cl' } ∧ Quietly d d1 := by
    intro d0 hq h
    obtain ⟨_, _, g1, h⟩ := M.bind_ok.1 h
    simp only [gets_eq, Prod.mk.injEq, Except.ok.injEq, id] at g1
    obtain ⟨rfl, rfl⟩ := g1
    split at h
    · simp only [pure_eq, Prod.mk.injEq, Except.ok.injEq] at h
      obtain ⟨rfl, _⟩ := h
      exact absurd rfl hne
    · obtain ⟨_, d1, g2, h⟩ := M.bind_ok.1 h
      obtain ⟨cl', g3, rfl⟩ := inClient_ok.1 h
      exact ⟨d1, cl', g3, rfl, quietly_pre.trans _ _ _ hq ((putManifestSimple_quiet _ _).of_eq g2)⟩
  split at h
  · obtain ⟨_, d0, g2, h⟩ := M.bind_ok.1 h
    exact key d0 ((hf.checkPending _ _).of_eq g2) h
  · exact key d (quietly_pre.refl _) h

theorem downloadEach_ok {f : Fetched} : ∀ {ts : List Target} {d d' : Dev} {got : List Target}, downloadEach f ts d = (.ok got, d') →
    got.Sublist ts ∧ (∀ t ∈ got, ∃ n, f n t = true)
  | [], d, d', got, h => by
    simp only [downloadEach, pure_eq, Prod.mk.injEq, Except.ok.injEq] at h
    obtain ⟨rfl, _⟩ := h
    exact ⟨.slnil, by simp⟩
  | t :: ts, d, d', got, h => by
    unfold downloadEach at h
    obtain ⟨ok, d1, g1, h⟩ := M.bind_ok.1 h
    simp only [ask_eq, Prod.mk.injEq, Except.ok.injEq] at g1
    obtain ⟨g1, rfl⟩ := g1
    obtain ⟨l, d2, g2, h⟩ := M.bind_ok.1 h
    obtain ⟨k1, k2⟩ := downloadEach_ok g2
    simp only [pure_eq, Prod.mk.injEq, Except.ok.injEq] at h
    obtain ⟨rfl, rfl⟩ := h
    split
    · next hok =>
      refine ⟨k1.cons₂ _, ?_⟩
      intro x hx
      rcases List.mem_cons.1 hx with rfl | hx
      · exact ⟨_, g1.trans hok⟩
      · exact k2 x hx
    · exact ⟨k1.cons _, k2⟩

/-- A successful download is one of all the targets. -/
theorem downloadImages_success {c : Ctx} {f : Fetched} {ts : List Target} {d d' : Dev} {r : Downloaded}
    (h : downloadImages c f ts d = (.ok r, d')) (hs : r.status = .success) : r.updates = ts ∧ ∀ t ∈ ts, ∃ n, f n t = true := by
  unfold downloadImages at h
  obtain ⟨s, d1, g1, h⟩ := M.bind_ok.1 h
  cases s with
  | noUpdates =>
    simp only [pure_eq, Prod.mk.injEq, Except.ok.injEq] at h
    obtain ⟨rfl, _⟩ := h; cases hs
  | error =>
    obtain ⟨_, d2, _, h⟩ := M.bind_ok.1 h
    simp only [pure_eq, Prod.mk.injEq, Except.ok.injEq] at h
    obtain ⟨rfl, _⟩ := h; cases hs
  | available =>
    obtain ⟨got, d2, g2, h⟩ := M.bind_ok.1 h
    obtain ⟨k1, k2⟩ := downloadEach_ok g2
    unfold downloadResult at h
    split at h
    · next hl =>
      simp only [pure_eq, Prod.mk.injEq, Except.ok.injEq] at h
      obtain ⟨rfl, _⟩ := h
      have := k1.eq_of_length hl.symm
      subst this
      exact ⟨rfl, k2⟩
    · obtain ⟨_, d3, _, h⟩ := M.bind_ok.1 h
      simp only [pure_eq, Prod.mk.injEq, Except.ok.injEq] at h
      obtain ⟨rfl, _⟩ := h
      revert hs
      split <;> simp

namespace Spec

/-- The targets `ts` are approved by the metadata in use: by the Director's Targets, signed under the
Director Root in use, and by the Image repository, through delegations that were unexpired at times
in `times`. -/
def ApprovedOnline (env : Env) (times : TimeStamp → Prop) (w : World) (ts : List Target) : Prop :=
  DirectorTrusted env w.dir ∧
  ∀ u ∈ ts, ∃ d ∈ w.dir.targets.targets, ∃ m, Offers d m u ∧ ImageLists env w.img times u m

end Spec

/-- C58, one cycle. A cycle does nothing to an ECU before, or apart from, one installation of exactly
the updates its own check returned: these were approved by both repositories in that check; every
image was obtained; the stored metadata was verified once more and still lists them; the package
manager found every image the Primary has intact; and after that, only these targets go out, each
only to ECUs it is assigned to. This holds however the cycle ends.

Missing: the gaps of C24 (OSTree targets of Secondaries are not verified) and C25 (expiry and version
of the stored Image repository Targets). -/
theorem C58_cycle_partial (c : Ctx) (p : Peers) (f : Fetched) (force : Bool) (d d' : Dev) (o : Except Err Bool)
    (h : uptaneCycle c p f force d = (o, d')) :
    ∃ before vs rest after, d'.log = d.log ++ before ++ vs ++ rest ++ after ∧ (∀ a ∈ before ++ vs ++ after, ¬ Touches a) ∧
      (rest = [] ∨ ∃ r d1 got d2 cl', fetchMeta c p d = (.ok r, d1) ∧ downloadImages c f r.updates d1 = (.ok got, d2) ∧
        ApprovedOnline c.env (fun x => ∃ t, t < d1.cl.w.tick ∧ x = c.clock t) d1.cl.w r.updates ∧
        (∀ t ∈ r.updates, ∃ n, f n t = true) ∧
        Reverified c r.updates d2.cl cl' ∧
        (∀ t ∈ r.updates, HasImage d.cl.primary t → .verified t .good ∈ vs) ∧
        ∀ a ∈ rest, Asked r.updates d.cl.primary d.cl.secondaries a) := by
  have nothing : Quietly d d' → ∃ before vs rest after, d'.log = d.log ++ before ++ vs ++ rest ++ after ∧
      (∀ a ∈ before ++ vs ++ after, ¬ Touches a) ∧
      (rest = [] ∨ ∃ r d1 got d2 cl', fetchMeta c p d = (.ok r, d1) ∧ downloadImages c f r.updates d1 = (.ok got, d2) ∧
        ApprovedOnline c.env (fun x => ∃ t, t < d1.cl.w.tick ∧ x = c.clock t) d1.cl.w r.updates ∧
        (∀ t ∈ r.updates, ∃ n, f n t = true) ∧
        Reverified c r.updates d2.cl cl' ∧
        (∀ t ∈ r.updates, HasImage d.cl.primary t → .verified t .good ∈ vs) ∧
        ∀ a ∈ rest, Asked r.updates d.cl.primary d.cl.secondaries a) := by
    rintro ⟨_, _, new, h1, h2⟩
    exact ⟨new, [], [], [], by simpa using h1, by simpa using h2, .inl rfl⟩
  unfold uptaneCycle at h
  rcases bind_cases h with ⟨r, d1, h1, h⟩ | ⟨e, h1, rfl⟩
  swap_goal
  · exact nothing ((fetchMeta_quiet c p).of_eq h1)
  have q1 := (fetchMeta_quiet c p).of_eq h1
  have sendq : ∀ {d1 : Dev} {o : Except Err Bool}, (do let _ ← putManifestSimple c.env p; pure true : D Bool) d1 = (o, d') → Quietly d1 d' :=
    fun h => ((putManifestSimple_quiet c.env p).bind quietly_pre (fun _ => .pure quietly_pre)).of_eq h
  unfold cycleDownload at h
  split at h
  · split at h
    · exact nothing (quietly_pre.trans _ _ _ q1 (sendq h))
    · simp only [pure_eq, Prod.mk.injEq] at h
      obtain ⟨_, rfl⟩ := h
      exact nothing q1
  next hne =>
  rcases bind_cases h with ⟨got, d2, h2, h⟩ | ⟨e, h2, rfl⟩
  swap_goal
  · exact nothing (quietly_pre.trans _ _ _ q1 ((downloadImages_quiet _ _ _).of_eq h2))
  have q2 := quietly_pre.trans _ _ _ q1 ((downloadImages_quiet _ _ _).of_eq h2)
  unfold cycleInstall at h
  split at h
  · split at h
    · exact nothing (quietly_pre.trans _ _ _ q2 (sendq h))
    · simp only [pure_eq, Prod.mk.injEq] at h
      obtain ⟨_, rfl⟩ := h
      exact nothing q2
  next hs =>
  have hs : got.status = .success := by
    apply Classical.byContradiction
    intro hc
    exact hs (.inl hc)
  obtain ⟨hall, hgot⟩ := downloadImages_success h2 hs
  rw [hall] at h
  have fin : ∀ d3 (oi : Except Err InstallReport), uptaneInstall c p r.updates d2 = (oi, d3) → Quietly d3 d' →
      ∃ before vs rest after, d'.log = d.log ++ before ++ vs ++ rest ++ after ∧
      (∀ a ∈ before ++ vs ++ after, ¬ Touches a) ∧
      (rest = [] ∨ ∃ r d1 got d2 cl', fetchMeta c p d = (.ok r, d1) ∧ downloadImages c f r.updates d1 = (.ok got, d2) ∧
        ApprovedOnline c.env (fun x => ∃ t, t < d1.cl.w.tick ∧ x = c.clock t) d1.cl.w r.updates ∧
        (∀ t ∈ r.updates, ∃ n, f n t = true) ∧
        Reverified c r.updates d2.cl cl' ∧
        (∀ t ∈ r.updates, HasImage d.cl.primary t → .verified t .good ∈ vs) ∧
        ∀ a ∈ rest, Asked r.updates d.cl.primary d.cl.secondaries a) := by
    intro d3 oi h3 q3
    obtain ⟨vs, rest, k1, k2, k3⟩ := C24_nothing_unverified_partial c p _ _ _ _ h3
    obtain ⟨e1, e2, before, l1, n1⟩ := q2
    obtain ⟨_, _, after, l2, n2⟩ := q3
    refine ⟨before, vs, rest, after, by rw [l2, k1, l1], ?_, ?_⟩
    · intro a ha
      rcases List.mem_append.1 ha with ha | ha
      · rcases List.mem_append.1 ha with ha | ha
        · exact n1 a ha
        · exact k2 a ha
      · exact n2 a ha
    rcases k3 with k3 | ⟨⟨cl', g1⟩, g2, _, g4⟩
    · exact .inl k3
    rw [e1] at g2 g4
    rw [e2] at g4
    obtain ⟨d0, cl1, hcheck, rfl, _⟩ := fetchMeta_updates h1 (by intro hc; simp [hc] at hne)
    refine .inr ⟨r, _, got, d2, cl', h1, h2, ?_, hgot, g1, g2, g4⟩
    have ha := fun u hu => C10_approved c d0.cl cl1 r u hcheck hu
    have : ∃ u, u ∈ r.updates := by
      cases hu : r.updates with
      | nil => simp [hu] at hne
      | cons u l => exact ⟨u, .head _⟩
    obtain ⟨u, hu⟩ := this
    exact ⟨(ha u hu).1, fun u hu => (ha u hu).2⟩
  rcases bind_cases h with ⟨ri, d3, h3, h⟩ | ⟨e, h3, rfl⟩
  · exact fin d3 _ h3 ((cycleEnd_quiet c p force).of_eq h)
  · exact fin d' _ h3 (quietly_pre.refl _)

/-! ### Lives -/

namespace Spec

/-- The action hands over a target to be installed, to the package manager or to a Secondary. -/
def HandsOver (t : Target) : Action → Prop
  | .install t' => t' = t
  | .putMetadata _ t' => t' = t
  | .sendFirmware _ t' => t' = t
  | .secInstall _ t' => t' = t
  | _ => False

/-- `r` is a Root that a chain of Roots, each signed under its predecessor and by itself, connects to
`first`. -/
def AnchoredTo (env : Env) (first : String) (r : Root) : Prop :=
  ∃ raws, RootChain env first raws ∧ ReadsAsRoot env (lastOf first raws) r

/-- The time has not come at some time in `times`. -/
def FreshAt (times : TimeStamp → Prop) (e : TimeStamp) : Prop := ∃ x, times x ∧ e.isExpiredAt x = false

/-- The target is authorised at `times` given the trust anchors `firstD` and `firstI`: the Director
lists it, for exactly these ECUs, in a Targets document signed under an anchored Root; the Image
repository lists the same content through a Timestamp, a Snapshot and Targets signed under an anchored
Root, each vouching for the next, and possibly delegations. The Roots, the Timestamp, the Snapshot and
the Director's Targets are unexpired. -/
def Authorised (env : Env) (times : TimeStamp → Prop) (firstD firstI : String) (t : Target) : Prop :=
  (∃ root raw ts d, AnchoredTo env firstD root ∧ FreshAt times root.base.expiry ∧
    ReadsAsTargets env raw ts ∧ SignedFor env root Role.targets raw ∧ FreshAt times ts.base.expiry ∧
    d ∈ ts.targets ∧ SameContent d t ∧ SameAssignment d t) ∧
  ∃ root rawT tm rawS sn raw ts listed n terminating leaf m, AnchoredTo env firstI root ∧ FreshAt times root.base.expiry ∧
    ReadsAsTimestamp env rawT tm ∧ SignedFor env root Role.timestamp rawT ∧ FreshAt times tm.expiry ∧
    ReadsAsSnapshot env rawS sn ∧ SignedFor env root Role.snapshot rawS ∧ FreshAt times sn.expiry ∧
    TimestampVouches env rawT rawS sn.version ∧
    ReadsAsTargets env raw ts ∧ SignedFor env root Role.targets raw ∧ SnapshotVouches env rawS "targets" raw listed ∧
    n ≤ 5 ∧ Chain env rawS t.filename times ⟨raw, ts⟩ n terminating leaf ∧
    m ∈ leaf.content.targets ∧ SameContent m t ∧ SameAssignment m t

/-- The readings of the clock during an event. -/
def _root_.Aktualizr.LifeEvent.times : LifeEvent → TimeStamp → Prop
  | .call e, x => ∃ k, x = e.clock k
  | .turn t _, x => ∃ k, x = t.clock k

end Spec

/-- The stored Roots lead on from the trust anchor `first`. -/
def Leads (env : Env) (repo : Repo) (first : String) (db : MetaDb) : Prop :=
  ∃ l row, NewestRoot l row ∧ FiledSanely env row ∧ row.data = first ∧ RootsGrow env l (rootRows repo db)

theorem Leads.anchored {env : Env} {repo : Repo} {first : String} {db : MetaDb} {r : Root} (h : Leads env repo first db)
    (hu : NewestRootInUse env db repo r) : AnchoredTo env first r := by
  obtain ⟨l, row0, hn0, hf, rfl, h⟩ := h
  obtain ⟨raws, row', hc, hn, hd, _⟩ := h row0 hn0 hf
  obtain ⟨row, hn', hr, _⟩ := hu
  have : row' = row := by
    unfold NewestRoot at hn hn'
    rw [hn] at hn'
    exact Option.some.inj hn'
  subst this
  rw [hd] at hr
  exact ⟨raws, hc, hr⟩

theorem Spec.FreshBefore.at {c : Ctx} {n : Nat} {e : TimeStamp} {times : TimeStamp → Prop} (h : FreshBefore c n e)
    (ht : ∀ k, times (c.clock k)) : FreshAt times e := by
  obtain ⟨t, _, h⟩ := h
  exact ⟨_, ht t, h⟩

theorem Spec.Reverified.authorised {c : Ctx} {ts : List Target} {cl cl' : Client} {firstD firstI : String} {times : TimeStamp → Prop}
    (h : Reverified c ts cl cl') (ht : ∀ k, times (c.clock k)) (hD : Leads c.env .director firstD cl.w.db)
    (hI : Leads c.env .image firstI cl.w.db) : ∀ t ∈ ts, Authorised c.env times firstD firstI t := by
  intro t hmem
  obtain ⟨wd, wi, rawD, rawT, rawS, raw, ts', listed, h1, e1, e2, h2, e3, e4, _, _, h3⟩ := h
  obtain ⟨⟨dt, hdt, hc1, ha1⟩, n, term, leaf, m, hn, hchain, hm, hc2, ha2⟩ := h3 t hmem
  rw [e2] at hdt
  refine ⟨⟨wd.dir.root, rawD, wd.dir.targets, dt, hD.anchored (e1 ▸ h1.root), h1.rootFresh.at ht, h1.reads, h1.signed, h1.fresh.at ht,
    hdt, hc1, ha1⟩, wi.img.root, rawT, wi.img.timestamp, rawS, wi.img.snapshot, raw, ts', listed, n, term, leaf, m,
    hI.anchored (e3 ▸ h2.root), h2.rootFresh.at ht, h2.readsT, h2.signedT, h2.freshT.at ht, h2.readsS, h2.signedS, h2.freshS.at ht,
    h2.vouchedS, h2.reads, h2.signed, h2.vouched, hn, ?_, hm, hc2, ha2⟩
  exact hchain.mono (by rintro x ⟨k, _, rfl⟩; exact ht k)

/-- The log has grown, but nothing was handed over. -/
def Harmless (d d' : Dev) : Prop := ∃ new, d'.log = d.log ++ new ∧ ∀ a ∈ new, ∀ t, ¬ HandsOver t a

theorem harmless_pre : IsPre Harmless := by
  constructor
  · exact fun d => ⟨[], by simp, by simp⟩
  · rintro a b c ⟨new, h3, h4⟩ ⟨new', g3, g4⟩
    refine ⟨new ++ new', by rw [g3, h3, List.append_assoc], ?_⟩
    intro x hx
    rcases List.mem_append.1 hx with hx | hx
    · exact h4 x hx
    · exact g4 x hx

theorem harmless_client {α : Type} {m : C α} : Preserves Harmless (inClient m) := fun _ => ⟨[], by simp only [inClient, zoom, List.append_nil], by simp⟩

theorem true_cl : ClPre (fun _ _ : Client => True) := ⟨⟨fun _ => trivial, fun _ _ _ _ _ => trivial⟩, fun _ _ => trivial⟩

theorem harmless_frame : DevFrame (fun _ _ => True) (fun a => ∀ t, ¬ HandsOver t a) Harmless where
  cl := true_cl
  versions := fun _ _ _ _ _ => trivial
  ecuResult := fun _ _ _ => trivial
  devResult := fun _ _ => trivial
  pre := harmless_pre
  client := fun _ _ _ => ⟨[], by simp, by simp⟩
  log := fun _ a ha => ⟨[a], rfl, by simpa using ha⟩
  asked := fun _ _ => ⟨[], by simp, by simp⟩
  cache := fun _ _ => ⟨[], by simp, by simp⟩

theorem Quietly.harmless {d d' : Dev} (h : Quietly d d') : Harmless d d' := by
  obtain ⟨_, _, new, h1, h2⟩ := h
  exact ⟨new, h1, fun a ha t ht => h2 a ha (by cases a <;> first | trivial | exact ht)⟩

theorem finalizeAfterReboot_harmless (env : Env) (p : Peers) : Preserves Harmless (finalizeAfterReboot env p) := by
  have hf := harmless_frame
  unfold finalizeAfterReboot
  wpres harmless_pre
  all_goals first
    | exact hf.saveVersion _ _ _ _
    | exact hf.saveEcuResult _ _
    | exact hf.storeDeviceResult _ _ _
    | exact hf.ask _
    | exact harmless_client
    | exact hf.act (fun _ h => h)
    | exact fun d => (putManifestSimple_quiet _ _ d).harmless

theorem startUp_harmless (env : Env) (p : Peers) (cfg : EcuConfig) (ok : Bool) : Preserves Harmless (startUp env p cfg ok) := by
  unfold startUp
  wpres harmless_pre
  all_goals first
    | exact harmless_client
    | exact finalizeAfterReboot_harmless _ _
    | exact ⟨[], by simp, by simp⟩

/-- What one event may do: hand over nothing, or only targets that passed a reverification of what was
stored. -/
def HandsOverReverified (env : Env) (times : TimeStamp → Prop) (d d' : Dev) : Prop :=
  ∃ new, d'.log = d.log ++ new ∧ ((∀ a ∈ new, ∀ t, ¬ HandsOver t a) ∨
    ∃ c ts cl cl', c.env = env ∧ (∀ k, times (c.clock k)) ∧
      (∀ P, Closed env P → P d.cl.w.db cl.w.db ∧ P cl.w.db d'.cl.w.db) ∧ Reverified c ts cl cl' ∧
      ∀ a ∈ new, ∀ t, HandsOver t a → ∃ t0 ∈ ts, t = { t0 with correlationId := t.correlationId })

theorem Harmless.reverified {env : Env} {times : TimeStamp → Prop} {d d' : Dev} (h : Harmless d d') : HandsOverReverified env times d d' := by
  obtain ⟨new, h1, h2⟩ := h
  exact ⟨new, h1, .inl h2⟩

theorem Asked.handsOver {ts : List Target} {prm : String} {secs : List (String × String)} {a : Action} {t : Target}
    (h : Asked ts prm secs a) (ht : HandsOver t a) : ∃ t0 ∈ ts, t = { t0 with correlationId := t.correlationId } := by
  cases a <;> simp only [HandsOver] at ht <;> subst ht
  · obtain ⟨t0, h1, _, h2⟩ := h
    exact ⟨t0, h1, h2⟩
  · exact ⟨_, h.2.1, rfl⟩
  · exact ⟨_, h.2.1, rfl⟩
  · exact ⟨_, h.2.1, rfl⟩

theorem install_reverified {c : Ctx} {p : Peers} {ts : List Target} {d d' : Dev} {o : Except Err InstallReport} (times : TimeStamp → Prop)
    (ht : ∀ k, times (c.clock k)) (h : uptaneInstall c p ts d = (o, d')) : HandsOverReverified c.env times d d' := by
  obtain ⟨vs, rest, k1, k2, k3⟩ := C24_nothing_unverified_partial c p ts d _ _ h
  refine ⟨vs ++ rest, by rw [k1, List.append_assoc], ?_⟩
  have hvs : ∀ a ∈ vs, ∀ t, ¬ HandsOver t a := fun a ha t ht => k2 a ha (by cases a <;> first | trivial | exact ht)
  rcases k3 with rfl | ⟨⟨cl', g1⟩, _, _, g4⟩
  · exact .inl (by simpa using hvs)
  · refine .inr ⟨c, ts, d.cl, cl', rfl, ht, fun P hP => ⟨hP.pre.refl _, (hP.uptaneInstall c p ts).of_eq h⟩, g1, fun a ha t hat => ?_⟩
    rcases List.mem_append.1 ha with ha | ha
    · exact absurd hat (hvs a ha t)
    · exact Asked.handsOver (g4 a ha) hat

theorem cycle_reverified {c : Ctx} {p : Peers} {f : Fetched} {force : Bool} {d d' : Dev} {o : Except Err Bool} (times : TimeStamp → Prop)
    (ht : ∀ k, times (c.clock k)) (h : uptaneCycle c p f force d = (o, d')) : HandsOverReverified c.env times d d' := by
  obtain ⟨before, vs, rest, after, k1, k2, k3⟩ := C58_cycle_partial c p f force d _ _ h
  refine ⟨before ++ vs ++ rest ++ after, by rw [k1]; simp [List.append_assoc], ?_⟩
  have hq : ∀ a, a ∈ before ++ vs ++ after → ∀ t, ¬ HandsOver t a := fun a ha t ht => k2 a ha (by cases a <;> first | trivial | exact ht)
  rcases k3 with rfl | ⟨r, d1, got, d2, cl', h1, h2, _, _, g1, _, g4⟩
  · refine .inl (fun a ha => hq a ?_)
    simpa using ha
  have hand : ∀ a ∈ before ++ vs ++ rest ++ after, ∀ t, HandsOver t a → ∃ t0 ∈ r.updates, t = { t0 with correlationId := t.correlationId } := by
    intro a ha t hat
    by_cases hr : a ∈ rest
    · exact Asked.handsOver (g4 a hr) hat
    · exact absurd hat (hq a (by simp only [List.mem_append] at ha ⊢; grind) t)
  by_cases hne : r.updates.isEmpty
  · refine .inl (fun a ha t hat => ?_)
    obtain ⟨t0, h0, _⟩ := hand a ha t hat
    simp [List.isEmpty_iff.1 hne] at h0
  refine .inr ⟨c, r.updates, d2.cl, cl', rfl, ht, fun P hP => ⟨?_, ?_⟩, g1, hand⟩
  · exact hP.pre.trans _ _ _ ((hP.fetchMeta c rfl p).of_eq h1) ((hP.downloadImages c f _).of_eq h2)
  · unfold uptaneCycle at h
    rw [run_bind h1] at h
    unfold cycleDownload at h
    rw [if_neg hne] at h
    rw [run_bind h2] at h
    have hi : Preserves (devDb P) (cycleInstall c p force got) := by
      unfold cycleInstall cycleEnd completionRequired
      wpres hP.devPre
      all_goals first
        | exact hP.uptaneInstall _ _ _
        | exact hP.putManifestSimple _ _
    exact hi.of_eq h

theorem HandsOverReverified.congr {env : Env} {times : TimeStamp → Prop} {d d' e e' : Dev} (h : HandsOverReverified env times d d')
    (h1 : e.log = d.log) (h2 : e.cl.w.db = d.cl.w.db) (h3 : e'.log = d'.log) (h4 : e'.cl.w.db = d'.cl.w.db) :
    HandsOverReverified env times e e' := by
  unfold HandsOverReverified at h ⊢
  rw [h1, h2, h3, h4]; exact h

theorem step_reverified (env : Env) (d : Dev) (e : LifeEvent) : HandsOverReverified env e.times d (e.step env d) := by
  cases e with
  | call e =>
    show HandsOverReverified env _ d (e.step env d)
    unfold DevEvent.step
    split
    swap_goal
    · exact (harmless_pre.refl _).reverified
    have key : ∀ o d', e.call.run { env := env, net := e.net, clock := e.clock } e.peers (e.start d) = (o, d') →
        HandsOverReverified env (LifeEvent.call e).times (e.start d) d' := by
      intro o d' h
      generalize e.call = call at h
      cases call <;> unfold DevCall.run at h
      · exact ((startUp_harmless _ _ _ _).of_eq h).reverified
      · next ts =>
        have : ∃ o', uptaneInstall { env := env, net := e.net, clock := e.clock } e.peers ts (e.start d) = (o', d') := by
          rcases bind_cases h with ⟨r, d1, h1, h⟩ | ⟨x, h1, rfl⟩
          · simp only [pure_eq, Prod.mk.injEq] at h
            obtain ⟨_, rfl⟩ := h
            exact ⟨_, h1⟩
          · exact ⟨_, h1⟩
        obtain ⟨o', h'⟩ := this
        exact install_reverified _ (fun k => ⟨k, rfl⟩) h'
      · exact (((putManifestSimple_quiet _ _).bind quietly_pre (fun _ => .pure quietly_pre)).of_eq h).harmless.reverified
      · exact (((fetchMeta_quiet _ _).bind quietly_pre (fun _ => .pure quietly_pre)).of_eq h).harmless.reverified
      · exact (harmless_client.bind harmless_pre (fun _ => .pure harmless_pre) |>.of_eq h).reverified
      · exact ((harmless_frame.checkPending _ _).of_eq h).reverified
      · exact (harmless_client.of_eq h).reverified
      · exact (harmless_client.of_eq h).reverified
    have s1 : d.log = (e.start d).log := by unfold DevEvent.start Dev.off; split <;> rfl
    have s2 : d.cl.w.db = (e.start d).cl.w.db := by unfold DevEvent.start Dev.off boot; split <;> rfl
    split
    · next hx => exact (key _ _ hx).congr s1 s2 rfl rfl
    · next hx => exact (key _ _ hx).congr s1 s2 rfl rfl
    · next hx => exact (key _ _ hx).congr s1 s2 rfl rfl
  | turn t force =>
    simp only [LifeEvent.step]
    split
    swap_goal
    · exact (harmless_pre.refl _).reverified
    have key : ∀ o d', t.run env force d = (o, d') → HandsOverReverified env (LifeEvent.turn t force).times d d' := by
      intro o d' h
      exact (cycle_reverified _ (fun k => ⟨k, rfl⟩) h).congr rfl rfl rfl rfl
    split
    · next hx => exact (key _ _ hx).congr rfl rfl rfl rfl
    · next hx => exact (key _ _ hx).congr rfl rfl rfl rfl
    · next hx => exact key _ _ hx

theorem Closed.lifeStep {env : Env} {P : MetaDb → MetaDb → Prop} (h : Closed env P) (d : Dev) (e : LifeEvent) : devDb P d (e.step env d) := by
  cases e with
  | call e => exact h.devStep d e
  | turn t force =>
    simp only [LifeEvent.step]
    split
    swap_goal
    · exact h.devPre.refl _
    have key : ∀ o d', t.run env force d = (o, d') → devDb P d d' := 
      fun o d' hx => (h.uptaneCycle { env := env, net := t.net, clock := t.clock } rfl t.peers t.fetched force).of_eq (w := { d with cl := { d.cl with w := { d.cl.w with fuel := t.fuel, tick := 0 } } }) hx
    split
    · next hx => exact (key _ _ hx : P _ _)
    · next hx => exact (key _ _ hx : P _ _)
    · next hx => exact key _ _ hx

theorem Closed.live {env : Env} {P : MetaDb → MetaDb → Prop} (h : Closed env P) : ∀ (es : List LifeEvent) (d : Dev), devDb P d (live env d es)
  | [], d => h.devPre.refl d
  | e :: es, d => h.devPre.trans _ _ _ (h.lifeStep d e) (Closed.live h es (e.step env d))

theorem Leads.next {env : Env} {repo : Repo} {first : String} {db db' : MetaDb} (h : Leads env repo first db)
    (h' : RootsEvolve env repo (rootRows repo db) (rootRows repo db')) : Leads env repo first db' := by
  obtain ⟨l, row, h1, h2, h3, h4⟩ := h
  exact ⟨l, row, h1, h2, h3, h4.trans h'.1⟩

theorem HandsOverReverified.authorised {env : Env} {times : TimeStamp → Prop} {d d' : Dev} {firstD firstI : String} (h : HandsOverReverified env times d d')
    (hD : Leads env .director firstD d.cl.w.db) (hI : Leads env .image firstI d.cl.w.db) :
    ∃ new, d'.log = d.log ++ new ∧ ∀ a ∈ new, ∀ t, HandsOver t a → Authorised env times firstD firstI t := by
  obtain ⟨new, h1, h2⟩ := h
  refine ⟨new, h1, fun a ha t hat => ?_⟩
  rcases h2 with h2 | ⟨c, ts, cl, cl', rfl, ht, hP, hr, hand⟩
  · exact absurd hat (h2 a ha t)
  · obtain ⟨t0, h0, he⟩ := hand a ha t hat
    have := hr.authorised ht (hD.next (hP _ (rootsEvolve_closed _ _)).1) (hI.next (hP _ (rootsEvolve_closed _ _)).1) t0 h0
    rw [he]; exact this

theorem leads_live {env : Env} {firstD firstI : String} : ∀ (es : List LifeEvent) (d : Dev),
    Leads env .director firstD d.cl.w.db → Leads env .image firstI d.cl.w.db →
    ∃ new, (live env d es).log = d.log ++ new ∧
      ∀ a ∈ new, ∀ t, HandsOver t a → ∃ e ∈ es, Authorised env e.times firstD firstI t
  | [], d, _, _ => ⟨[], by simp [live], by simp⟩
  | e :: es, d, hD, hI => by
    obtain ⟨new, h1, h2⟩ := (step_reverified env d e).authorised hD hI
    obtain ⟨new', h3, h4⟩ := leads_live es (e.step env d) (hD.next ((rootsEvolve_closed env _).lifeStep d e))
      (hI.next ((rootsEvolve_closed env _).lifeStep d e))
    refine ⟨new ++ new', ?_, fun a ha t hat => ?_⟩
    · show (live env (e.step env d) es).log = _
      rw [h3, h1, List.append_assoc]
    · rcases List.mem_append.1 ha with ha | ha
      · exact ⟨e, .head _, h2 a ha t hat⟩
      · obtain ⟨e', he', h'⟩ := h4 a ha t hat
        exact ⟨e', .tail _ he', h'⟩

/-- C58, whole lives. Take a device whose newest stored Roots are `rowD` (Director) and `rowI` (Image
repository), and let it live on with any servers, clocks, Secondaries, package manager, API calls, cycles,
restarts and crashes. Every target that is from then on handed to the package manager for installation, or
whose metadata, image or installation command goes to a Secondary, is authorised at the time of an event
of that life, with those two Roots as trust anchors.

Missing: expiry and version of the Image repository's Targets (C25). -/
theorem C58_lives_partial (env : Env) (d : Dev) (es : List LifeEvent) (rowD rowI : MetaRow)
    (hD : NewestRoot (rootRows .director d.cl.w.db) rowD) (hI : NewestRoot (rootRows .image d.cl.w.db) rowI)
    (fD : FiledSanely env rowD) (fI : FiledSanely env rowI) :
    ∃ new, (live env d es).log = d.log ++ new ∧
      ∀ a ∈ new, ∀ t, HandsOver t a → ∃ e ∈ es, Authorised env e.times rowD.data rowI.data t :=
  leads_live es d ⟨_, rowD, hD, fD, rfl, rootsGrow_refl _ _⟩ ⟨_, rowI, hI, fI, rfl, rootsGrow_refl _ _⟩

namespace Spec

/-- The document, if it is a Root, has a version number that is not negative. -/
def NotNegative (env : Env) (raw : String) : Prop := ∀ r, ReadsAsRoot env raw r → 0 ≤ r.base.version

end Spec

theorem evolve_first {env : Env} {repo : Repo} {db db' : MetaDb} {r : Root} (h : RootsEvolve env repo (rootRows repo db) (rootRows repo db'))
    (h0 : rootRows repo db = []) (hu : NewestRootInUse env db' repo r) :
    ∃ raw, SelfSigned env raw ∧ RootsGrow env [⟨repo, .root, 1, raw⟩] (rootRows repo db') := by
  rcases h.2 h0 with h | h
  · obtain ⟨row, h1, _⟩ := hu
    rw [h] at h1
    cases h1
  · exact h

theorem leads_first {env : Env} {repo : Repo} {raw : String} {db : MetaDb} (h : RootsGrow env [⟨repo, .root, 1, raw⟩] (rootRows repo db))
    (hn : NotNegative env raw) : Leads env repo raw db := by
  refine ⟨[⟨repo, .root, 1, raw⟩], ⟨repo, .root, 1, raw⟩, rfl, ?_, rfl, h⟩
  intro r hr
  have := hn r hr
  show (1 : Int) ≤ _
  omega

theorem first_live (env : Env) (d : Dev) (hD : rootRows .director d.cl.w.db = []) (hI : rootRows .image d.cl.w.db = []) (es : List LifeEvent) :
    ∃ new, (live env d es).log = d.log ++ new ∧
      ((∀ a ∈ new, ∀ t, ¬ HandsOver t a) ∨
        ∃ firstD firstI, SelfSigned env firstD ∧ SelfSigned env firstI ∧
          RootsGrow env [⟨.director, .root, 1, firstD⟩] (rootRows .director (live env d es).cl.w.db) ∧
          RootsGrow env [⟨.image, .root, 1, firstI⟩] (rootRows .image (live env d es).cl.w.db) ∧
          (NotNegative env firstD → NotNegative env firstI →
            ∀ a ∈ new, ∀ t, HandsOver t a → ∃ e ∈ es, Authorised env e.times firstD firstI t)) := by
  induction es using Sec.snoc_ind with
  | h0 => exact ⟨[], by simp [live], .inl (by simp)⟩
  | h1 es e ih =>
    obtain ⟨new, h1, h2⟩ := ih
    have hlive : live env d (es ++ [e]) = e.step env (live env d es) := by simp [live]
    rw [hlive]
    have old := fun repo => (rootsEvolve_closed env repo).live es d
    have now := fun repo => (rootsEvolve_closed env repo).lifeStep (live env d es) e
    have hstep := step_reverified env (live env d es) e
    rcases h2 with h2 | ⟨fD, fI, sD, sI, gD, gI, h2⟩
    swap_goal
    · obtain ⟨_, k0, _⟩ := id hstep
      refine ⟨_, by rw [k0, h1, List.append_assoc], .inr ⟨fD, fI, sD, sI, gD.trans (now _).1, gI.trans (now _).1, fun nD nI a ha t hat => ?_⟩⟩
      obtain ⟨new', k1, k2⟩ := hstep.authorised (leads_first gD nD) (leads_first gI nI)
      have := List.append_cancel_left (k0.symm.trans k1)
      subst this
      rcases List.mem_append.1 ha with ha | ha
      · obtain ⟨e', he', h'⟩ := h2 nD nI a ha t hat
        exact ⟨e', by simp [he'], h'⟩
      · exact ⟨e, by simp, k2 a ha t hat⟩
    · obtain ⟨new', k1, k2⟩ := hstep
      refine ⟨new ++ new', by rw [k1, h1, List.append_assoc], ?_⟩
      rcases k2 with k2 | ⟨c, ts, cl, cl', rfl, ht, hP, hr, hand⟩
      · refine .inl (fun a ha => ?_)
        rcases List.mem_append.1 ha with ha | ha
        · exact h2 a ha
        · exact k2 a ha
      · have hcl := fun repo => hP _ (rootsEvolve_closed c.env repo)
        have inUse := hr
        obtain ⟨wd, wi, _, _, _, _, _, _, v1, e1, _, v2, e2, _⟩ := inUse
        obtain ⟨fD, sD, gD⟩ := evolve_first ((old .director).trans (hcl .director).1) hD (e1 ▸ v1.root)
        obtain ⟨fI, sI, gI⟩ := evolve_first ((old .image).trans (hcl .image).1) hI (e2 ▸ v2.root)
        refine .inr ⟨fD, fI, sD, sI, gD.trans (hcl _).2.1, gI.trans (hcl _).2.1, fun nD nI a ha t hat => ?_⟩
        rcases List.mem_append.1 ha with ha | ha
        · exact absurd hat (h2 a ha t)
        · obtain ⟨t0, h0, he⟩ := hand a ha t hat
          refine ⟨e, by simp, ?_⟩
          rw [he]
          exact hr.authorised ht (leads_first gD nD) (leads_first gI nI) t0 h0

/-- C58 for a device that starts without any Root: whatever is handed over in its life is authorised with
one and the same pair of self-signed Roots as trust anchors: the first Roots it was given. (Their version
numbers must not be negative.) -/
theorem C58_first_partial (env : Env) (d : Dev) (es : List LifeEvent)
    (hD : rootRows .director d.cl.w.db = []) (hI : rootRows .image d.cl.w.db = []) :
    ∃ new, (live env d es).log = d.log ++ new ∧
      ((∀ a ∈ new, ∀ t, ¬ HandsOver t a) ∨
        ∃ firstD firstI, SelfSigned env firstD ∧ SelfSigned env firstI ∧
          (NotNegative env firstD → NotNegative env firstI →
            ∀ a ∈ new, ∀ t, HandsOver t a → ∃ e ∈ es, Authorised env e.times firstD firstI t)) := by
  obtain ⟨new, h1, h2⟩ := first_live env d hD hI es
  refine ⟨new, h1, h2.imp id ?_⟩
  rintro ⟨fD, fI, sD, sI, _, _, h⟩
  exact ⟨fD, fI, sD, sI, h⟩

/-! ### Concrete cases -/

namespace Toy

/-- A cycle with the given servers and package manager, every image available. -/
def cycleWith (servers : List ((Repo × String × Int) × String)) (p : Peers) (got : Bool := true) (fuel : Nat := 1000) : Turn where
  net := net servers
  clock := clock "2026-01-01T00:00:00Z"
  peers := p
  fetched := fun _ _ => got
  fuel := fuel
  exit := false

/-- The start of a process of a device with Primary `e1` and Secondary `e2`. -/
def boots : LifeEvent := .call (event (.init (cfg "e1" ["e2"]) true))

end Toy

/-- The hypotheses of `C58_first_partial` hold for a new device, and in a life with a start and three
cycles, the first of which cannot get the image and the second of which finds it broken, targets are
handed over. -/
example :
    rootRows .director Dev.fresh.cl.w.db = [] ∧ rootRows .image Dev.fresh.cl.w.db = [] ∧
    (live Toy.E Dev.fresh [Toy.boots, .turn (Toy.cycleWith Toy.both (Toy.peers .good) (got := false)) true,
      .turn (Toy.cycleWith Toy.both (Toy.peers .hashMismatch)) true, .turn (Toy.cycleWith Toy.both (Toy.peers .good)) true]).log.map Toy.tag =
    [("signed", "e1"), ("sent", "ok"), ("signed", "e1"), ("sent", "ok"),
     ("signed", "e1"), ("sent", "ok"), ("verified bad", "fw"), ("signed", "e1"), ("sent", "ok"),
     ("signed", "e1"), ("sent", "ok"), ("verified good", "fw"), ("metadata", "e2"), ("notify", ""), ("install", "fw"), ("firmware", "e2"),
     ("secondary install", "e2"), ("signed", "e1"), ("sent", "ok")] := by
  refine ⟨rfl, rfl, ?_⟩
  decide +kernel

/-- The hypotheses of `C58_lives_partial` hold for the device after its first cycle. -/
example :
    let d := live Toy.E Dev.fresh [Toy.boots, .turn (Toy.cycleWith Toy.both (Toy.peers .good) (got := false)) true]
    (∃ row, NewestRoot (rootRows .director d.cl.w.db) row) ∧ (∃ row, NewestRoot (rootRows .image d.cl.w.db) row) := by
  refine ⟨Option.isSome_iff_exists.1 ?_, Option.isSome_iff_exists.1 ?_⟩ <;> decide +kernel

end Aktualizr
