import Verif.Lemmas.HonestInstall

/-! A whole update cycle that goes well: forward execution. -/

namespace Aktualizr

open M Spec

theorem mkEcuSerial_run {s : String} (h1 : 1 ≤ s.utf8ByteSize) (h2 : s.utf8ByteSize ≤ 64) : mkEcuSerial s = .ok s := by
  unfold mkEcuSerial
  rw [if_neg (by omega), if_neg (by omega)]

theorem Spec.HonestDirector.dropped {c : Ctx} {db db' : MetaDb} {first : String} {raws : List String} {last : Root} {raw : String} {ts : Targets}
    (h : HonestDirector c db first raws last raw ts) (he : db' = db ∨ db' = db.clearNonRoot .director) :
    HonestDirector c db' first raws last raw ts := by
  rcases he with rfl | rfl
  · exact h
  · refine { h with
      roots := { h.roots with start := (show _ ∨ _ from (by
        have := h.roots.start
        rw [MetaDb.latestOf_only, MetaDb.only_clearNonRoot_root, ← MetaDb.latestOf_only]
        exact this)) }
      newer := Image.newer_mono h.newer (fun old ho => ?_) }
    obtain ⟨row, h1, _⟩ := ho
    rw [MetaDb.latestOf_only, MetaDb.only_clearNonRoot_same _ _ (by decide)] at h1
    cases h1

theorem Spec.HonestImage.dropped {c : Ctx} {db db' : MetaDb} {first : String} {raws : List String} {last : Root} {rawT rawS raw : String}
    {t : TimestampMeta} {s : Snapshot} {ts : Targets} (h : HonestImage c db first raws last rawT rawS raw t s ts)
    (he : db' = db ∨ db' = db.clearNonRoot .director) : HonestImage c db' first raws last rawT rawS raw t s ts := by
  rcases he with rfl | rfl
  · exact h
  · exact h.transfer (fun t => MetaDb.only_clearNonRoot_other _ _ (by decide))

section Cycle

variable {c : Ctx} {p : Peers} {P : VersionRow → Prop} {K : Client} {L : List Action} {ts : Targets} {wait done : List (String × Target)} {acts : List Action} {d : Dev}
variable {dLast iLast : Root}

theorem verifyAll_will (hp : Obliges c p dLast iLast) : ∀ (us : List Target) {d : Dev}, Progress P K L ts wait done acts d →
    WillAt 0 d (verifyAll p us) (fun b d' => b = true ∧ Progress P K L ts wait done acts d')
  | [], d, h => WillAt.pure ⟨rfl, h⟩
  | u :: us, d, h => by
    unfold verifyAll
    refine WillAt.gets ?_
    split
    · refine WillAt.askBind (WillAt.liftBind (hp.verify _ _) ?_)
      have hm : WillAt 0 { d with n := d.n + 1 } (M.modify (fun d => { d with log := d.log ++ [.verified u .good] }))
          (fun _ d' => Progress P K L ts wait done acts d') := fun _ =>
        ⟨(), _, modify_eq, (h.asked.logged (.verified u .good)).forget (by intro a ha; simp [ha]), Nat.le_refl _⟩
      refine WillAt.bind (n := 0) (k := 0) hm (fun _ d1 h1 => ?_)
      exact verifyAll_will hp us h1
    · exact verifyAll_will hp us h

theorem waitReachable_will (hp : Obliges c p dLast iLast) {us : List Target} (h : Progress P K L ts wait done acts d) :
    WillAt 0 d (waitSecondariesReachable p us) (fun b d' => b = true ∧ Progress P K L ts wait done acts d') := by
  unfold waitSecondariesReachable
  refine WillAt.gets ?_
  split
  · exact fun _ => ⟨_, _, ask_eq _ _, ⟨hp.reachable _, h.asked⟩, Nat.le_refl _⟩
  · exact WillAt.pure ⟨rfl, h⟩

/-- The ECUs of the targets are those of the device, each named once. -/
structure Planned (K : Client) (us : List Target) : Prop where
  ecu : ∀ x ∈ assignments us, HasEcu K x.2.1 x.2.2 ∧ x.2.1 ≠ "" ∧ ∃ e ∈ K.v.ecus, e.serial = x.2.1
  once : ((assignments us).map (fun x => x.2.1)).Nodup
  some : assignments us ≠ []

/-- All is installed, or waits for a reboot. -/
structure AllDone (P : VersionRow → Prop) (K : Client) (L : List Action) (ts : Targets) (us : List Target) (wait done : List (String × Target)) (d : Dev) :
    Prop where
  progress : ∃ acts, Progress P K L ts wait done acts d ∧ ∀ x ∈ assignments us,
    (x.2.1 = K.primary → .install { x.1 with correlationId := ts.correlationId } ∈ acts) ∧ (x.2.1 ≠ K.primary → .secInstall x.2.1 x.1 ∈ acts)
  covers : ∀ x ∈ assignments us, (x.2.1, { x.1 with correlationId := ts.correlationId }) ∈ wait ∨ (x.2.1, x.1) ∈ done
  only : ∀ x ∈ wait ++ done, ∃ y ∈ assignments us, y.2.1 = x.1
  apart : ∀ x ∈ wait, x.1 ∉ done.map Prod.fst

theorem mem_assignments {us : List Target} {x : Target × String × String} : x ∈ assignments us ↔ x.1 ∈ us ∧ (x.2.1, x.2.2) ∈ x.1.ecus := by
  unfold assignments
  rw [List.mem_flatMap]
  constructor
  · rintro ⟨t, ht, hx⟩
    obtain ⟨e, he, rfl⟩ := List.mem_map.1 hx
    exact ⟨ht, he⟩
  · rintro ⟨h1, h2⟩
    exact ⟨x.1, h1, List.mem_map.2 ⟨(x.2.1, x.2.2), h2, rfl⟩⟩

theorem nodup_map_inj {α β : Type} {f : α → β} {l : List α} (h : (l.map f).Nodup) {a b : α} (ha : a ∈ l) (hb : b ∈ l) (he : f a = f b) : a = b := by
  induction l with
  | nil => cases ha
  | cons x l ih =>
    rw [List.map_cons, List.nodup_cons] at h
    rcases List.mem_cons.1 ha with rfl | ha' <;> rcases List.mem_cons.1 hb with rfl | hb'
    · rfl
    · exact absurd (he ▸ List.mem_map_of_mem hb') h.1
    · exact absurd (he ▸ List.mem_map_of_mem ha') h.1
    · exact ih h.2 ha' hb'

theorem mem_forSecondaries {primary : String} {l : List (Target × String × String)} {y : Target × String} :
    y ∈ forSecondaries primary l ↔ ∃ x ∈ l, x.2.1 ≠ primary ∧ y = (x.1, x.2.1) := by
  unfold forSecondaries
  rw [List.mem_map]
  constructor
  · rintro ⟨x, hx, rfl⟩
    obtain ⟨h1, h2⟩ := List.mem_filter.1 hx
    exact ⟨x, h1, by simpa using h2, rfl⟩
  · rintro ⟨x, h1, h2, rfl⟩
    exact ⟨x, List.mem_filter.2 ⟨h1, by simpa using h2⟩, rfl⟩

theorem nodup_forSecondaries {primary : String} {l : List (Target × String × String)} (h : (l.map (fun x => x.2.1)).Nodup) :
    ((forSecondaries primary l).map Prod.snd).Nodup := by
  unfold forSecondaries
  rw [List.map_map]
  exact (List.filter_sublist.map _).nodup h

theorem sendImages_will {env : Env} {us : List Target} (hp : Supports c p dLast iLast) (hpl : Planned K us) (h : Progress P K L ts wait done acts d)
    (hk : ∀ t ∈ us, ∀ cid, RowSafe env P { t with correlationId := cid })
    (hdone : ∀ x ∈ wait ++ done, x.1 = K.primary ∧ ∃ y ∈ assignments us, y.2.1 = x.1) (hapart : ∀ x ∈ wait, x.1 ∉ done.map Prod.fst)
    (hcov : ∀ x ∈ assignments us, x.2.1 = K.primary → ((x.2.1, { x.1 with correlationId := ts.correlationId }) ∈ wait ∨ (x.2.1, x.1) ∈ done) ∧
      .install { x.1 with correlationId := ts.correlationId } ∈ acts) :
    WillAt (4 * (assignments us).length) d (sendImagesToEcus env p us) (fun _ d' => ∃ done', AllDone P K L ts us wait done' d') := by
  have hknown : ∀ x ∈ assignments us, x.2.1 = K.primary ∨ ∃ s ∈ K.secondaries, s.1 = x.2.1 := by
    intro x hx
    rcases (hpl.ecu x hx).1 with ⟨h1, -, -⟩ | ⟨-, -, h1⟩
    · exact .inl h1
    · exact .inr ⟨_, lookup_mem h1, rfl⟩
  unfold sendImagesToEcus
  refine (WillAt.bind (n := 2 * (assignments us).length) (k := 2 * (assignments us).length) (sendAll_will hp _ hknown h) ?_).more (by omega)
  rintro l d2 ⟨h2, h3, h4⟩
  have hlen : l.length ≤ (assignments us).length := by
    have : l.length = (forSecondaries K.primary (assignments us)).length := by rw [← h2, List.length_map]
    rw [this]
    unfold forSecondaries
    rw [List.length_map]
    exact List.length_filter_le _ _
  have hl : ∀ y ∈ l, ∃ x ∈ assignments us, x.2.1 ≠ K.primary ∧ (y.1, y.2.1) = (x.1, x.2.1) := fun y hy =>
    mem_forSecondaries.1 (by rw [← h2]; exact List.mem_map.2 ⟨y, hy, rfl⟩)
  have hser : l.map (fun y => y.2.1) = (forSecondaries K.primary (assignments us)).map Prod.snd := by rw [← h2, List.map_map]; rfl
  have hfst : (l.map (fun y => (y.2.1, y.1))).map Prod.fst = l.map (fun y => y.2.1) := by rw [List.map_map]; rfl
  refine (recordAll_will l h3 ?_ ?_ ?_ h4).weaken (by omega) ?_
  · intro y hy
    obtain ⟨x, hx, hne, he⟩ := hl y hy
    have hy' : y.2.1 = x.2.1 := congrArg Prod.snd he
    rw [hy']
    refine ⟨(hpl.ecu x hx).2.1, ?_⟩
    intro hm
    obtain ⟨z, hz, hze⟩ := List.mem_map.1 hm
    exact hne (hze ▸ (hdone z hz).1)
  · intro y hy cid
    obtain ⟨x, hx, -, he⟩ := hl y hy
    have hy' : y.1 = x.1 := congrArg Prod.fst he
    rw [hy']
    exact hk _ (mem_assignments.1 hx).1 cid
  · rw [hser]
    exact nodup_forSecondaries hpl.once
  · intro _ d3 h5
    refine ⟨_, ⟨_, h5, ?_⟩, ?_, ?_, ?_⟩
    · intro x hx
      refine ⟨fun hprm => List.mem_append.2 (.inr (hcov x hx hprm).2), fun hne => List.mem_append.2 (.inl ?_)⟩
      exact List.mem_map.2 ⟨(x.1, x.2.1), mem_forSecondaries.2 ⟨x, hx, hne, rfl⟩, rfl⟩
    · intro x hx
      by_cases hprm : x.2.1 = K.primary
      · rcases (hcov x hx hprm).1 with h | h
        · exact .inl h
        · exact .inr (List.mem_append.2 (.inr h))
      · refine .inr (List.mem_append.2 (.inl (List.mem_reverse.2 ?_)))
        have : (x.1, x.2.1) ∈ l.map (fun y => (y.1, y.2.1)) := by rw [h2]; exact mem_forSecondaries.2 ⟨x, hx, hprm, rfl⟩
        obtain ⟨y, hy, he⟩ := List.mem_map.1 this
        refine List.mem_map.2 ⟨y, hy, ?_⟩
        rw [Prod.mk.injEq] at he ⊢
        exact ⟨he.2, he.1⟩
    · intro x hx
      rcases List.mem_append.1 hx with hx | hx
      · exact (hdone x (List.mem_append.2 (.inl hx))).2
      rcases List.mem_append.1 hx with hx | hx
      · obtain ⟨y, hy, rfl⟩ := List.mem_map.1 (List.mem_reverse.1 hx)
        obtain ⟨z, hz, _, he⟩ := hl y hy
        exact ⟨z, hz, (congrArg Prod.snd he).symm⟩
      · exact (hdone x (List.mem_append.2 (.inr hx))).2
    · intro x hx hm
      rw [List.map_append, List.mem_append] at hm
      rcases hm with hm | hm
      · rw [List.map_reverse, List.mem_reverse, hfst] at hm
        obtain ⟨y, hy, he⟩ := List.mem_map.1 hm
        obtain ⟨z, hz, hne, he'⟩ := hl y hy
        have : y.2.1 = z.2.1 := congrArg Prod.snd he'
        rw [he, (hdone x (List.mem_append.2 (.inl hx))).1] at this
        exact hne this.symm
      · exact hapart x hx hm

theorem primary_assigned {us : List Target} {t : Target} (ht : t ∈ us) (hf : t.isForEcu K.primary = true) :
    ∃ x ∈ assignments us, x.1 = t ∧ x.2.1 = K.primary := by
  unfold Target.isForEcu at hf
  obtain ⟨e, he, hs⟩ := List.any_eq_true.1 hf
  have hs' : e.1 = K.primary := by simpa using hs
  exact ⟨(t, e.1, e.2), mem_assignments.2 ⟨ht, he⟩, rfl, hs'⟩

theorem installBoth_will {env : Env} {us : List Target} (hp : Helpful c p dLast iLast) (hpl : Planned K us) (h : Progress P K L ts [] [] acts d)
    (hk : ∀ t ∈ us, ∀ cid, RowSafe env P { t with correlationId := cid }) :
    WillAt (6 + 4 * (assignments us).length) d (do
      let first ← installPrimary env p us
      let others ← sendImagesToEcus env p us
      pure (first ++ others)) (fun _ d' => ∃ done, AllDone P K L ts us [] done d') := by
  have hcost : 6 + 4 * (assignments us).length = 6 + (4 * (assignments us).length + 0) := by omega
  rw [hcost]
  refine WillAt.bind (n := 6) (installPrimary_will hp.install h (fun t ht hf => ?_) hk) ?_
  · obtain ⟨x, hx, -, he⟩ := primary_assigned ht hf
    rw [← he]
    exact (hpl.ecu x hx).2.1
  · intro first d1 h1
    refine WillAt.bind (n := 4 * (assignments us).length) (k := 0) (Q := fun _ d' => ∃ done, AllDone P K L ts us [] done d') ?_ (fun _ d2 h2 => WillAt.pure h2)
    rcases h1 with ⟨hf, h1⟩ | ⟨t, hf, h1⟩
    · refine sendImages_will hp.toSupports hpl h1 hk (by simp) (by simp) (fun x hx hprm => ?_)
      have := List.find?_eq_none.1 hf x.1 (mem_assignments.1 hx).1
      refine absurd ?_ this
      unfold Target.isForEcu
      exact List.any_eq_true.2 ⟨_, (mem_assignments.1 hx).2, by simp [hprm]⟩
    · obtain ⟨x0, hx0, h2, h3⟩ := primary_assigned (List.mem_of_find?_eq_some hf) (by simpa using List.find?_some hf)
      refine sendImages_will hp.toSupports hpl h1 hk ?_ (by simp) (fun x hx hprm => ?_)
      · intro x hx
        rw [List.mem_singleton.1 hx]
        exact ⟨rfl, x0, hx0, h3⟩
      · have : x = x0 := nodup_map_inj hpl.once hx hx0 (by rw [hprm, h3])
        subst this
        subst h2
        rw [hprm]
        exact ⟨.inr (by simp), by simp⟩

theorem sendMetadataToEcus_will {us : List Target} {dRoot iRoot : String} (hp : Obliges c p dLast iLast)
    (hd : Stored K.w.db .director .root dRoot) (hdg : GenuineRoot c.env dRoot dLast) (hi : Stored K.w.db .image .root iRoot)
    (hig : GenuineRoot c.env iRoot iLast) (h : Progress P K L ts wait done acts d) :
    WillAt ((assignments us).length * (dLast.base.version.toNat + iLast.base.version.toNat + 1)) d (sendMetadataToEcus c p us)
      (fun r d' => r.1.success = true ∧ Progress P K L ts wait done acts d') := by
  unfold sendMetadataToEcus
  refine WillAt.bind (k := 0) (sendMetadataLoop_will hp hd hdg hi hig _ h) ?_
  rintro r d1 ⟨rfl, h1⟩
  exact WillAt.pure ⟨rfl, h1⟩

/-- Effects of sending metadata and images. -/
def installCost (dLast iLast : Root) (us : List Target) : Nat :=
  (assignments us).length * (dLast.base.version.toNat + iLast.base.version.toNat + 1) + 6 + 4 * (assignments us).length

theorem AllDone.every {us : List Target} (h : AllDone P K L ts us [] done d) : ∀ x ∈ assignments us, (x.2.1, x.1) ∈ done := by
  intro x hx
  rcases h.covers x hx with h | h
  · cases h
  · exact h

theorem Progress.still (h : Progress P K L ts [] done acts d) : ∀ r ∈ d.cl.v.rows, r.isPending = false := by
  intro r hr
  cases hp : r.isPending with
  | false => rfl
  | true => have := h.idle r hr hp; cases this

theorem installVerified_will {us : List Target} {dRoot iRoot : String} (hp : Helpful c p dLast iLast)
    (hd : Stored K.w.db .director .root dRoot) (hdg : GenuineRoot c.env dRoot dLast) (hi : Stored K.w.db .image .root iRoot)
    (hig : GenuineRoot c.env iRoot iLast) (hpl : Planned K us) (hser : ∀ e ∈ K.v.ecus, mkEcuSerial e.serial = .ok e.serial)
    (hk : ∀ t ∈ us, ∀ cid, RowSafe c.env P { t with correlationId := cid }) (h : Progress P K L ts [] [] acts d) :
    WillAt (installCost dLast iLast us) d (installVerified c p us)
      (fun r d' => r.1.device = installedResult ∧ r.2 = "Installation succesful" ∧ ∃ done, AllDone P K L ts us [] done d') := by
  unfold installVerified
  refine (WillAt.bind (n := 0) (k := installCost dLast iLast us) (waitReachable_will hp.toObliges h) ?_).more (by omega)
  rintro ok d1 ⟨rfl, h1⟩
  simp only [Bool.not_true, Bool.false_eq_true, if_false]
  refine (WillAt.bind (n := (assignments us).length * (dLast.base.version.toNat + iLast.base.version.toNat + 1)) (k := 6 + 4 * (assignments us).length)
    (sendMetadataToEcus_will hp.toObliges hd hdg hi hig h1) ?_).more (by unfold installCost; omega)
  rintro m d2 ⟨hm, h2⟩
  simp only [hm, Bool.not_true, Bool.false_eq_true, if_false]
  intro hn
  obtain ⟨l, d3, h3, ⟨done, h4⟩, h5⟩ := installBoth_will (env := c.env) hp hpl h2 hk hn
  rw [bind_ok] at h3
  obtain ⟨a, d4, h6, h7⟩ := h3
  rw [bind_ok] at h7
  obtain ⟨b, d5, h8, h9⟩ := h7
  have h9' : d5 = d3 := by cases h9; rfl
  subst h9'
  rw [run_bind h6, run_bind h8]
  obtain ⟨acts', hpr, -⟩ := h4.progress
  have hdev : d5.cl.computeDeviceResult = .ok (installedResult, "Installation succesful") := hpr.device hser (fun x hx => by
    obtain ⟨y, hy, he⟩ := h4.only x hx
    rw [← he]
    exact ⟨(hpl.ecu y hy).2.2, _, (hpl.ecu y hy).1⟩) (by
    cases ha : assignments us with
    | nil => exact absurd ha hpl.some
    | cons x l =>
      have := h4.every x (by rw [ha]; simp)
      intro he
      rw [he] at this
      cases this)
  refine ⟨(⟨installedResult, a ++ b⟩, "Installation succesful"), d5, ?_, ⟨rfl, rfl, done, h4⟩, h5⟩
  rw [run_bind (by rw [gets_eq])]
  refine (run_bind (m := lift d5.cl.computeDeviceResult) (w := d5) (by rw [lift_eq, hdev])).trans ?_
  rfl

/-- The device is about to install `us`, which the stored metadata authorises. -/
structure Authorised (c : Ctx) (d : Dev) (dRoot : String) (dLast : Root) (dRaw : String) (ts : Targets) (iRoot : String) (iLast : Root)
    (rawT rawS iRaw : String) (tm : TimestampMeta) (sn : Snapshot) (its : Targets) (us : List Target) : Prop where
  director : KeepsDirector c d.cl.w.db dRoot dLast dRaw ts
  image : KeepsImage c d.cl.w.db iRoot iLast rawT rawS iRaw tm sn its
  fits : ∀ t ∈ ts.targets, FitsDevice c.env d.cl t
  one : ∀ t ∈ ts.targets, OneHashEach t
  offered : ∀ u ∈ us, ∃ t m stored, t ∈ ts.targets ∧ Outdated c.env d.cl t ∧ Held c stored rawS its d.cl.w.db t m ∧ Offers t m u
  planned : Planned d.cl us
  serials : ∀ e ∈ d.cl.v.ecus, mkEcuSerial e.serial = .ok e.serial
  ordered : VersionDb.Ordered d.cl.v.rows
  idle : ∀ r ∈ d.cl.v.rows, r.isPending = false

variable {dRoot dRaw iRoot rawT rawS iRaw : String} {tm : TimestampMeta} {sn : Snapshot} {its : Targets} {us : List Target}

theorem idle_pending {cl : Client} (h : ∀ r ∈ cl.v.rows, r.isPending = false) : cl.hasPendingUpdates = false := by
  unfold Client.hasPendingUpdates VersionDb.hasPendingInstall
  rw [List.any_eq_false]
  intro r hr
  simp [h r hr]

theorem Authorised.nonempty (h : Authorised c d dRoot dLast dRaw ts iRoot iLast rawT rawS iRaw tm sn its us) : us ≠ [] := by
  rintro rfl
  exact h.planned.some rfl

theorem Authorised.recheck (h : Authorised c d dRoot dLast dRaw ts iRoot iLast rawT rawS iRaw tm sn its us) :
    ∃ w', Aktualizr.recheck c us d = (.ok .available, { d with cl := { d.cl with w := w' } }) ∧ w'.db = d.cl.w.db ∧ w'.dir.targets = ts ∧
      w'.fuel = d.cl.w.fuel :=
  recheck_run h.director h.image h.fits h.one (idle_pending h.idle) h.nonempty h.offered

theorem Authorised.world (h : Authorised c d dRoot dLast dRaw ts iRoot iLast rawT rawS iRaw tm sn its us) {w : World} (hw : w.db = d.cl.w.db) {n : Nat} :
    Authorised c { d with cl := { d.cl with w := w }, n := n } dRoot dLast dRaw ts iRoot iLast rawT rawS iRaw tm sn its us :=
  ⟨by show KeepsDirector c w.db _ _ _ _; rw [hw]; exact h.1, by show KeepsImage c w.db _ _ _ _ _ _ _ _; rw [hw]; exact h.2, h.3, h.4,
   by show ∀ u ∈ us, ∃ t m stored, _ ∧ _ ∧ Held c stored rawS its w.db t m ∧ _; rw [hw]; exact h.5,
   ⟨h.planned.1, h.planned.2, h.planned.3⟩, h.7, h.8, h.9⟩

theorem downloadEach_run {f : Fetched} (hf : ∀ n t, f n t = true) : ∀ (us : List Target) (d : Dev),
    downloadEach f us d = (.ok us, { d with n := d.n + us.length })
  | [], d => rfl
  | u :: us, d => by
    unfold downloadEach
    rw [run_bind (ask_eq _ _), run_bind (downloadEach_run hf us _)]
    simp only [hf, if_true, List.length_cons]
    show (Except.ok (u :: us), _) = _
    have : d.n + 1 + us.length = d.n + (us.length + 1) := by omega
    simp only [this]

theorem downloadImages_run {f : Fetched} (hf : ∀ n t, f n t = true) (h : Authorised c d dRoot dLast dRaw ts iRoot iLast rawT rawS iRaw tm sn its us) :
    ∃ w' n, downloadImages c f us d = (.ok ⟨us, .success⟩, { d with cl := { d.cl with w := w' }, n := n }) ∧ w'.db = d.cl.w.db ∧
      w'.fuel = d.cl.w.fuel := by
  obtain ⟨w', h1, h2, -, h3⟩ := h.recheck
  refine ⟨w', d.n + us.length, ?_, h2, h3⟩
  unfold downloadImages
  rw [run_bind h1]
  simp only
  rw [run_bind (downloadEach_run hf us _)]
  unfold downloadResult
  rw [if_pos rfl]
  rfl

theorem installedResult_row : ∃ row, installedResult.toRow = .ok row ∧ row.read = .ok ⟨true, ⟨0, "OK"⟩, "Device has been successfully installed"⟩ := by
  have h1 : installedResult = ⟨true, .ok, "Device has been successfully installed"⟩ := rfl
  have hrow : ∃ row, (⟨true, .ok, "Device has been successfully installed"⟩ : InstResult).toRow = .ok row := ⟨_, rfl⟩
  obtain ⟨row, hrow⟩ := hrow
  exact ⟨row, by rw [h1]; exact hrow, read_row hrow⟩

theorem uptaneInstall_will (hp : Helpful c p dLast iLast) (h : Authorised c d dRoot dLast dRaw ts iRoot iLast rawT rawS iRaw tm sn its us)
    (hempty : d.cl.ecuResults = []) :
    WillAt (installCost dLast iLast us + 1) d (uptaneInstall c p us) (fun _ d' => (∃ done, AllDone (fun _ => True) d.cl d.log ts us [] done d') ∧
      ∃ row, row.read = .ok ⟨true, ⟨0, "OK"⟩, "Device has been successfully installed"⟩ ∧
        d'.cl.devResult = some ⟨row, "Installation succesful", ts.correlationId⟩) := by
  intro hn
  obtain ⟨w', h1, h2, h3, h4⟩ := h.recheck
  have hpr : Progress (fun _ => True) d.cl d.log ts [] [] [] { d with cl := { d.cl with w := w' } } :=
    ⟨rfl, rfl, rfl, rfl, h2, h3, rfl, h.ordered, (fun r hr hpend => by rw [h.idle r hr] at hpend; cases hpend), by simp, by simp, (by
      intro y hy
      change y ∈ d.cl.ecuResults at hy
      rw [hempty] at hy
      cases hy), ⟨[], by simp, by simp⟩, by simp, fun _ _ => trivial⟩
  have hbody : WillAt (installCost dLast iLast us) d (installBody c p us)
      (fun r d' => r.1.device = installedResult ∧ r.2 = "Installation succesful" ∧ ∃ done, AllDone (fun _ => True) d.cl d.log ts us [] done d') := by
    intro hn
    have : WillAt (installCost dLast iLast us) { d with cl := { d.cl with w := w' } } (do
        let good ← verifyAll p us
        if !good then pure (⟨⟨false, .internalError, ""⟩, []⟩, "Downloaded target is invalid")
        else installVerified c p us)
        (fun r d' => r.1.device = installedResult ∧ r.2 = "Installation succesful" ∧ ∃ done, AllDone (fun _ => True) d.cl d.log ts us [] done d') := by
      refine (WillAt.bind (n := 0) (k := installCost dLast iLast us) (verifyAll_will hp.toObliges us hpr) ?_).more (by omega)
      rintro ok d1 ⟨rfl, h5⟩
      simp only [Bool.not_true, Bool.false_eq_true, if_false]
      exact installVerified_will hp h.director.root h.director.genuineR h.image.root h.image.genuineR h.planned h.serials (fun _ _ _ _ _ _ _ _ _ => trivial) h5
    obtain ⟨r, d', h5, h6, h7⟩ := this (by show _ ≤ w'.fuel; omega)
    refine ⟨r, d', ?_, h6, ?_⟩
    · unfold installBody
      rw [run_bind h1]
      exact h5
    · have : d.cl.w.fuel = w'.fuel := h4.symm
      show d.cl.w.fuel ≤ _
      rw [this]
      exact h7
  refine WillAt.bind (n := installCost dLast iLast us) (k := 1) hbody ?_ hn
  rintro ⟨r, raw⟩ d1 ⟨h5, h6, done, h7⟩
  obtain ⟨acts, h8, h9⟩ := h7.progress
  refine WillAt.gets ?_
  simp only at h5 h6
  subst h6
  simp only [id, h5, h8.dir]
  obtain ⟨row, hrow, hread⟩ := installedResult_row
  refine WillAt.bind (n := 1) (k := 0) (Q := fun _ d' => (∃ done, AllDone (fun _ => True) d.cl d.log ts us [] done d') ∧
    ∃ row, row.read = .ok ⟨true, ⟨0, "OK"⟩, "Device has been successfully installed"⟩ ∧
      d'.cl.devResult = some ⟨row, "Installation succesful", ts.correlationId⟩) ?_ (fun _ d2 h => WillAt.pure h)
  intro hn
  have hw : inClient (storeDeviceResult installedResult "Installation succesful" ts.correlationId) d1 =
      inClient (cwrite (fun cl => { cl with devResult := some ⟨row, "Installation succesful", ts.correlationId⟩ })) d1 := by
    rw [inClient_eq, inClient_eq]
    unfold storeDeviceResult
    rw [run_bind (m := lift installedResult.toRow) (w := d1.cl) (by rw [lift_eq, hrow])]
  rw [hw]
  refine WillAt.cwrite (f := fun cl => { cl with devResult := some ⟨row, "Installation succesful", ts.correlationId⟩ }) (Q := fun _ d' => (∃ done, AllDone (fun _ => True) d.cl d.log ts us [] done d') ∧
    ∃ row, row.read = .ok ⟨true, ⟨0, "OK"⟩, "Device has been successfully installed"⟩ ∧
      d'.cl.devResult = some ⟨row, "Installation succesful", ts.correlationId⟩) (fun k => ⟨⟨done, ⟨⟨acts, ?_, h9⟩, h7.covers, h7.only, h7.apart⟩⟩, row, hread, rfl⟩) hn
  exact ⟨h8.1, h8.2, h8.3, h8.4, h8.5, h8.6, h8.7, h8.8, h8.9, h8.10, h8.11, h8.12, h8.13, h8.14, h8.15⟩

/-- The report of a successful installation of `us`. -/
def Reports (ts : Targets) (us : List Target) (rep : Option (InstResult × String × String × List (String × InstResult))) : Prop :=
  ∃ r raw items, rep = some (r, raw, ts.correlationId, items) ∧ Read r ∧ (∀ y ∈ items, Read y.2) ∧ ∀ x ∈ assignments us, x.2.1 ∈ items.map Prod.fst

theorem cycleEnd_will {force : Bool} (hp : Helpful c p dLast iLast) (hpl : Planned K us) (hser : ∀ e ∈ K.v.ecus, mkEcuSerial e.serial = .ok e.serial)
    (hc : ∀ x ∈ K.counters, x.2 < int64Max) (h : AllDone P K L ts us [] done d) {row : ResultRow}
    (hread : row.read = .ok ⟨true, ⟨0, "OK"⟩, "Device has been successfully installed"⟩)
    (hdev : d.cl.devResult = some ⟨row, "Installation succesful", ts.correlationId⟩) :
    WillAt (K.secondaries.length + 5) d (cycleEnd c p force) (fun b d' => b = true ∧ ∃ rep, Sent d d' rep ∧ Reports ts us rep) := by
  obtain ⟨acts, hpr, -⟩ := h.progress
  have hpend := idle_pending hpr.still
  have hreq : completionRequired force d = (.ok false, d) := by
    have hl : d.cl.v.getPendingEcus = .ok [] := by
      unfold VersionDb.getPendingEcus
      have : d.cl.v.rows.filter (·.isPending) = [] := by
        rw [List.filter_eq_nil_iff]
        intro r hr
        simp [hpr.still r hr]
      rw [this]
      rfl
    unfold completionRequired
    rw [run_bind (by rw [gets_eq])]
    refine (run_bind (m := lift d.cl.v.getPendingEcus) (w := d) (by rw [lift_eq, hl])).trans ?_
    rfl
  have hne : done ≠ [] := by
    cases ha : assignments us with
    | nil => exact absurd ha hpl.some
    | cons x l =>
      have := h.every x (by rw [ha]; simp)
      intro he
      rw [he] at this
      cases this
  obtain ⟨items, hi1, hi2, hi3⟩ := hpr.results hser (fun x hx => by
    obtain ⟨y, hy, he⟩ := h.only x hx
    rw [← he]
    exact (hpl.ecu y hy).2.2) hne
  have hload : d.cl.loadDeviceResult = .ok (some (⟨true, ⟨0, "OK"⟩, "Device has been successfully installed"⟩, "Installation succesful", ts.correlationId)) := by
    unfold Client.loadDeviceResult
    rw [hdev]
    simp only
    rw [hread]
    rfl
  intro hn
  have hput := putManifest_will (env := c.env) hp.toHears hpend (by rw [hpr.counters]; exact hc) hload hi1
  rw [hpr.secs] at hput
  obtain ⟨b, d', h1, h2, h3⟩ := hput hn
  refine ⟨true, d', ?_, ⟨rfl, _, h2, ⟨_, _, _, rfl, ⟨rfl, rfl⟩, fun y hy => (hi2 y hy).1, fun x hx => hi3 _ (h.every x hx)⟩⟩, h3⟩
  unfold cycleEnd
  rw [run_bind hreq]
  simp only [Bool.false_eq_true, if_false]
  rw [run_bind (by rw [gets_eq])]
  simp only [id, hpend, Bool.false_eq_true, if_false]
  rw [run_bind h1]
  rfl

theorem cycleDownload_will {f : Fetched} {force : Bool} {r : UpdateCheck} (hf : ∀ n t, f n t = true) (hp : Helpful c p dLast iLast)
    (h : Authorised c d dRoot dLast dRaw ts iRoot iLast rawT rawS iRaw tm sn its r.updates) (hempty : d.cl.ecuResults = [])
    (hc : ∀ x ∈ d.cl.counters, x.2 < int64Max) :
    WillAt (installCost dLast iLast r.updates + 1 + (d.cl.secondaries.length + 5)) d (cycleDownload c p f force r) (fun b d' => b = true ∧
      ∃ d1 done rep, AllDone (fun _ => True) d.cl d.log ts r.updates [] done d1 ∧ Sent d1 d' rep ∧ Reports ts r.updates rep) := by
  intro hn
  obtain ⟨w', n, h1, h2, h3⟩ := downloadImages_run hf h
  let d1 : Dev := { d with cl := { d.cl with w := w' }, n := n }
  have h' : Authorised c d1 dRoot dLast dRaw ts iRoot iLast rawT rawS iRaw tm sn its r.updates := h.world h2
  have hne : r.updates.isEmpty = false := by
    have := h.nonempty
    cases hr : r.updates with
    | nil => exact absurd hr this
    | cons a l => rfl
  have hdone : ∀ done d2, AllDone (fun _ => True) d1.cl d1.log ts r.updates [] done d2 → AllDone (fun _ => True) d.cl d.log ts r.updates [] done d2 := by
    rintro done d2 ⟨⟨acts, hp, ha⟩, h5, h6, h7⟩
    exact ⟨⟨acts, ⟨hp.1, hp.2, hp.3, hp.4, hp.5.trans h2, hp.6, hp.7, hp.8, hp.9, hp.10, hp.11, hp.12, hp.13, hp.14, hp.15⟩, ha⟩, h5, h6, h7⟩
  have hrun : WillAt (installCost dLast iLast r.updates + 1 + (d.cl.secondaries.length + 5)) d1 (do
      let _ ← uptaneInstall c p r.updates
      cycleEnd c p force) (fun b d' => b = true ∧
      ∃ d1 done rep, AllDone (fun _ => True) d.cl d.log ts r.updates [] done d1 ∧ Sent d1 d' rep ∧ Reports ts r.updates rep) := by
    refine WillAt.bind (uptaneInstall_will hp h' hempty) ?_
    rintro _ d2 ⟨⟨done, h5⟩, row, h6, h7⟩
    refine (cycleEnd_will (K := d1.cl) (L := d1.log) hp h'.planned h'.serials hc h5 h6 h7).weaken (Nat.le_refl _) ?_
    rintro b d3 ⟨rfl, rep, h8, h9⟩
    exact ⟨rfl, d2, done, rep, hdone _ _ h5, h8, h9⟩
  obtain ⟨b, d', h4, h5, h6⟩ := hrun (by show _ ≤ w'.fuel; omega)
  refine ⟨b, d', ?_, h5, by rw [← h3]; exact h6⟩
  unfold cycleDownload
  rw [hne]
  simp only [Bool.false_eq_true, if_false]
  rw [run_bind h1]
  unfold cycleInstall
  simp only [hne, ne_eq, not_true_eq_false, Bool.false_eq_true, or_self, if_false]
  exact h4

end Cycle

end Aktualizr
