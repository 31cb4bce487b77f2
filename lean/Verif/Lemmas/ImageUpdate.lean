import Verif.Lemmas.DirectorUpdate

/-! Inversion of the Image repository's online check. -/

namespace Aktualizr

open Spec M

/-! ### Documents -/

theorem TimestampMeta.ofJsonSigned_ok {env : Env} {raw : String} {signer : MetaWithKeys} {t : TimestampMeta}
    (h : TimestampMeta.ofJsonSigned env (env.parseJson raw) signer = .ok t) :
    SignedToThreshold env signer "timestamp" (env.parseJson raw) ∧ DeclaresType Role.timestamp (env.parseJson raw) ∧
    ReadsAsTimestamp env raw t ∧ ∃ e, baseInit (env.parseJson raw) = .ok (t.version, e) := by
  refine ⟨?_, ?_, ⟨signer, h⟩, ?_⟩ <;>
  · unfold TimestampMeta.ofJsonSigned at h
    simp only [exc_bind_ok, exc_pure_ok] at h
    obtain ⟨⟨v, e⟩, h1, h2⟩ := h
    obtain ⟨a, b, c⟩ := baseMetaSigned_ok properTimestamp h1
    first
    | exact a
    | exact b
    | obtain ⟨_, _, _, _, _, _, _, _, _, _, _, _, _, _, _, _, _, _, _, _, _, _, rfl⟩ := h2
      exact ⟨_, c⟩

theorem snapshotLoop_version {l : List (String × Json)} {sn sn' : Snapshot} (h : snapshotLoop sn l = .ok sn') :
    sn'.version = sn.version ∧ sn'.expiry = sn.expiry := by
  induction l generalizing sn with
  | nil => simp [snapshotLoop] at h; subst h; exact ⟨rfl, rfl⟩
  | cons a l ih =>
    obtain ⟨k, j⟩ := a
    simp only [snapshotLoop, exc_bind_ok] at h
    obtain ⟨_, _, _, _, _, _, _, _, _, _, _, _, _, _, _, _, h⟩ := h
    have := ih h
    exact this

theorem Snapshot.ofJsonSigned_ok {env : Env} {raw : String} {signer : MetaWithKeys} {s : Snapshot}
    (h : Snapshot.ofJsonSigned env (env.parseJson raw) signer = .ok s) :
    SignedToThreshold env signer "snapshot" (env.parseJson raw) ∧ DeclaresType Role.snapshot (env.parseJson raw) ∧
    ReadsAsSnapshot env raw s ∧ ∃ e, baseInit (env.parseJson raw) = .ok (s.version, e) := by
  refine ⟨?_, ?_, ⟨signer, h⟩, ?_⟩ <;>
  · unfold Snapshot.ofJsonSigned at h
    simp only [exc_bind_ok] at h
    obtain ⟨⟨v, e⟩, h1, h2⟩ := h
    obtain ⟨a, b, c⟩ := baseMetaSigned_ok properSnapshot h1
    first
    | exact a
    | exact b
    | obtain ⟨_, _, _, _, _, _, _, _, h2⟩ := h2
      have := (snapshotLoop_version h2).1
      exact ⟨e, by rw [this]; exact c⟩

theorem baseInit_states {env : Env} {raw : String} {v v' : Int} {e : TimeStamp} (h : baseInit (env.parseJson raw) = .ok (v, e))
    (hv : StatesVersion env raw v') : v' = v := by
  obtain ⟨s, j, g1, g2, _, g4⟩ := hv
  obtain ⟨s', x, k1, k2, k3⟩ := baseInit_version h
  have e1 : s = s' := by simpa using g1.symm.trans k1
  subst e1
  have e2 : j = x := by simpa using g2.symm.trans k2
  subst e2
  simpa using g4.symm.trans k3

namespace Image

/-! ### The verification steps -/

theorem verifyTimestamp_cases {c : Ctx} {raw : String} {w w' : World} {o : Except Err Unit}
    (h : verifyTimestamp c raw w = (o, w')) :
    (∃ t, o = .ok () ∧ TimestampMeta.ofJsonSigned c.env (c.env.parseJson raw) w.img.root.base = .ok t ∧
      w' = { w with img := { w.img with timestamp := t } }) ∨ (∃ e, o = .error e ∧ w' = w) := by
  unfold verifyTimestamp at h
  rcases bind_cases h with ⟨d, w1, h1, h⟩ | ⟨e, h1, rfl⟩
  · simp at h1
    obtain ⟨rfl, rfl⟩ := h1
    rcases bind_cases h with ⟨t, w2, h2, h⟩ | ⟨e, h2, rfl⟩
    · simp at h2
      obtain ⟨h2, rfl⟩ := h2
      simp at h
      obtain ⟨rfl, rfl⟩ := h
      exact .inl ⟨t, rfl, h2, rfl⟩
    · simp at h2
      exact .inr ⟨e, rfl, h2.2.symm⟩
  · simp at h1

/-- What a Snapshot accepted by `verifySnapshot` satisfies. -/
structure SnapshotVerified (env : Env) (img : ImageRepo) (raw : String) (s : Snapshot) : Prop where
  hashes : snapshotHashLoop env (env.canon (env.parseJson raw)) false img.timestamp.snapshotHashes = .ok true
  parsed : Snapshot.ofJsonSigned env (env.parseJson raw) img.root.base = .ok s
  version : s.version = img.timestamp.snapshotVersion

theorem verifySnapshot_cases {c : Ctx} {raw : String} {w w' : World} {o : Except Err Unit}
    (h : verifySnapshot c raw w = (o, w')) :
    (∃ s, o = .ok () ∧ SnapshotVerified c.env w.img raw s ∧ w' = { w with img := { w.img with snapshot := s } }) ∨
    (∃ e, o = .error e ∧ (w' = w ∨ ∃ s, Snapshot.ofJsonSigned c.env (c.env.parseJson raw) w.img.root.base = .ok s ∧
      s.version ≠ w.img.timestamp.snapshotVersion ∧ w' = { w with img := { w.img with snapshot := s } })) := by
  unfold verifySnapshot at h
  rcases bind_cases h with ⟨d, w1, h1, h⟩ | ⟨e, h1, rfl⟩
  swap_goal
  · simp at h1
  simp at h1
  obtain ⟨rfl, rfl⟩ := h1
  rcases bind_cases h with ⟨ex, w2, h2, h⟩ | ⟨e, h2, rfl⟩
  swap_goal
  · simp at h2; exact .inr ⟨e, rfl, .inl h2.2.symm⟩
  simp at h2
  obtain ⟨h2, rfl⟩ := h2
  rcases bind_cases h with ⟨_, w3, h3, h⟩ | ⟨e, h3, rfl⟩
  swap_goal
  · have := congrArg Prod.snd h3; simp at this
    exact .inr ⟨e, rfl, .inl this.symm⟩
  simp only [throwWhen_ok, Bool.not_eq_false'] at h3
  obtain ⟨rfl, rfl⟩ := h3
  rcases bind_cases h with ⟨s, w4, h4, h⟩ | ⟨e, h4, rfl⟩
  swap_goal
  · simp at h4; exact .inr ⟨e, rfl, .inl h4.2.symm⟩
  simp at h4
  obtain ⟨h4, rfl⟩ := h4
  rcases bind_cases h with ⟨_, w5, h5, h⟩ | ⟨e, h5, rfl⟩
  swap_goal
  · simp at h5
  simp at h5
  subst h5
  unfold throwWhen at h
  injection h with ho hw
  subst hw
  split at ho
  · rename_i hne
    exact .inr ⟨_, ho.symm, .inr ⟨s, h4, by simpa using hne, rfl⟩⟩
  · rename_i hne
    exact .inl ⟨s, ho.symm, ⟨h2, h4, by simpa using hne⟩, rfl⟩

/-- What a Targets document accepted by `verifyTargets` satisfies. -/
structure TargetsVerified (env : Env) (img : ImageRepo) (raw : String) (ts : Targets) : Prop where
  hashes : roleHashLoop env (env.canon (env.parseJson raw)) (img.snapshot.hashesOf Role.targets) = .ok ()
  parsed : Targets.ofJsonSigned env Role.targets (env.parseJson raw) img.root.base = .ok ts
  version : ts.base.version = img.snapshot.versionOf Role.targets

theorem verifyTargets_cases {c : Ctx} {raw : String} {w w' : World} {o : Except Err Unit}
    (h : verifyTargets c raw w = (o, w')) :
    (∃ ts, o = .ok () ∧ TargetsVerified c.env w.img raw ts ∧ w' = { w with img := { w.img with targets := some ts } }) ∨
    (∃ e, o = .error e ∧ (w' = w ∨ ∃ ts, Targets.ofJsonSigned c.env Role.targets (c.env.parseJson raw) w.img.root.base = .ok ts ∧
      ts.base.version ≠ w.img.snapshot.versionOf Role.targets ∧ w' = { w with img := { w.img with targets := some ts } })) := by
  unfold verifyTargets at h
  rcases bind_cases h with ⟨d, w1, h1, h⟩ | ⟨e, h1, rfl⟩
  swap_goal
  · simp at h1
  simp at h1
  obtain ⟨rfl, rfl⟩ := h1
  rcases bind_cases h with ⟨ex, w2, h2, h⟩ | ⟨e, h2, rfl⟩
  swap_goal
  · simp at h2; exact .inr ⟨e, rfl, .inl h2.2.symm⟩
  simp at h2
  obtain ⟨h2, rfl⟩ := h2
  rcases bind_cases h with ⟨ts, w4, h4, h⟩ | ⟨e, h4, rfl⟩
  swap_goal
  · simp at h4; exact .inr ⟨e, rfl, .inl h4.2.symm⟩
  simp at h4
  obtain ⟨h4, rfl⟩ := h4
  rcases bind_cases h with ⟨_, w5, h5, h⟩ | ⟨e, h5, rfl⟩
  swap_goal
  · simp at h5
  simp at h5
  subst h5
  unfold throwWhen at h
  injection h with ho hw
  subst hw
  split at ho
  · rename_i hne
    exact .inr ⟨_, ho.symm, .inr ⟨ts, h4, by simpa using hne, rfl⟩⟩
  · rename_i hne
    exact .inl ⟨ts, ho.symm, ⟨h2, h4, by simpa using hne⟩, rfl⟩

theorem compareAndStore_cases {lv rv : Int} {raw : String} {t : RoleKind} {w w' : World} {o : Except Err Unit}
    (h : compareAndStore lv rv raw t w = (o, w')) :
    (lv < rv ∧ o = .ok () ∧ w'.db = w.db.storeNonRoot raw .image t ∧ w'.img = w.img ∧ w'.dir = w.dir ∧ w'.tick = w.tick) ∨
    (lv = rv ∧ o = .ok () ∧ w' = w) ∨ ((∃ e, o = .error e) ∧ w' = w) := by
  unfold compareAndStore at h
  simp only [ite_app] at h
  split at h
  · simp at h; exact .inr (.inr ⟨⟨_, h.1.symm⟩, h.2.symm⟩)
  · split at h
    · rename_i hlt
      have ht := write_tick h
      rcases write_cases h with ⟨ho, hdb, hd, hi⟩ | ⟨ho, rfl⟩
      · exact .inl ⟨hlt, ho, hdb, hi, hd, ht⟩
      · exact .inr (.inr ⟨⟨_, ho⟩, rfl⟩)
    · simp at h
      exact .inr (.inl ⟨by omega, h.1.symm, h.2.symm⟩)

/-! ### The three blocks of a successful check -/

/-- A successful Timestamp block, from state `w` to `w'`. -/
structure TimestampStep (c : Ctx) (w w' : World) (raw : String) (t : TimestampMeta) : Prop where
  served : c.net w.tick .image "timestamp" (-1) = some raw
  parsed : TimestampMeta.ofJsonSigned c.env (c.env.parseJson raw) w.img.root.base = .ok t
  img : w'.img = { w.img with timestamp := t }
  tick : w'.tick = w.tick + 2
  fresh : t.expiry.isExpiredAt (c.clock (w.tick + 1)) = false
  stored : ∀ v, 0 ≤ v → StatesVersion c.env raw v →
    (w'.db = w.db.storeNonRoot raw .image .timestamp ∧
      ∀ s v', Stored w.db .image .timestamp s → StatesVersion c.env s v' → v' < v) ∨
    (w'.db = w.db ∧ ∃ s, Stored w.db .image .timestamp s ∧ StatesVersion c.env s v)

theorem updateTimestamp_ok {c : Ctx} {w w' : World} (h : updateTimestamp c w = (.ok (), w')) :
    ∃ raw t, TimestampStep c w w' raw t := by
  unfold updateTimestamp at h
  simp only [M.bind_ok] at h
  obtain ⟨raw, w1, h1, vr, w2, h2, lv, w3, ⟨ans, w4, h4, h3⟩, _, w5, h5, _, w6, h6, h7⟩ := h
  obtain ⟨hserved, _, rfl⟩ := fetchRole_ok h1
  simp only [lift_eq, Prod.mk.injEq] at h2
  obtain ⟨h2, rfl⟩ := h2
  have hl : w3 = { w with tick := w.tick + 1 } ∧ ((∃ s, Stored w.db .image .timestamp s ∧ extractVersionUntrusted c.env s = .ok lv) ∨
      ((¬ ∃ s, Stored w.db .image .timestamp s) ∧ lv = -1)) := by
    cases ans with
    | some stored =>
      obtain ⟨rfl, _, hs⟩ := loadNonRoot_some h4
      simp at h3
      exact ⟨h3.2.symm, .inl ⟨stored, hs, h3.1⟩⟩
    | none =>
      obtain ⟨rfl, hn⟩ := loadNonRoot_none h4
      simp at h3
      refine ⟨h3.2.symm, .inr ⟨?_, h3.1.symm⟩⟩
      rintro ⟨s, row, hr, _⟩
      have hn : w.db.latestOf .image .timestamp = none := hn
      rw [hn] at hr
      simp at hr
  obtain ⟨rfl, hl⟩ := hl
  rcases verifyTimestamp_cases h5 with ⟨t, _, ht, rfl⟩ | ⟨e, he, _⟩
  swap_goal
  · simp at he
  have h6' := compareAndStore_cases h6
  have himg : w6.img = { w.img with timestamp := t } ∧ w6.tick = w.tick + 1 := by
    rcases h6' with ⟨_, _, _, hi, _, ht⟩ | ⟨_, _, rfl⟩ | ⟨⟨_, he⟩, _⟩
    · exact ⟨hi, ht⟩
    · exact ⟨rfl, rfl⟩
    · simp at he
  unfold checkTimestampExpired at h7
  simp only [M.bind_ok, gets_eq, now, throwWhen_ok, Prod.mk.injEq, Except.ok.injEq] at h7
  obtain ⟨_, _, ⟨rfl, rfl⟩, _, _, ⟨rfl, rfl⟩, h7, rfl⟩ := h7
  rw [himg.1, himg.2] at h7
  refine ⟨raw, t, hserved, ht, himg.1, by show w6.tick + 1 = _; rw [himg.2], h7, ?_⟩
  intro v hv hst
  have e : vr = v := by
    have := hst.extract.symm.trans h2
    simpa using this.symm
  subst e
  rcases h6' with ⟨hlt, _, hdb, _, _, _⟩ | ⟨heq, _, rfl⟩ | ⟨⟨_, he⟩, _⟩
  · refine .inl ⟨hdb, ?_⟩
    intro s v' hs hv'
    rcases hl with ⟨s', hs', hx⟩ | ⟨hn, _⟩
    · have := hs.unique hs'
      subst this
      have : v' = lv := by simpa using hv'.extract.symm.trans hx
      omega
    · exact (hn ⟨s, hs⟩).elim
  · refine .inr ⟨rfl, ?_⟩
    rcases hl with ⟨s', hs', hx⟩ | ⟨_, rfl⟩
    · exact ⟨s', hs', heq ▸ extract_states hx (by omega)⟩
    · omega
  · simp at he

/-- A successful Snapshot block. The Snapshot in use is the stored one, or was served now. -/
structure SnapshotStep (c : Ctx) (w w' : World) (raw : String) (s : Snapshot) : Prop where
  verified : SnapshotVerified c.env w.img raw s
  img : w'.img = { w.img with snapshot := s }
  tick : w.tick < w'.tick
  fresh : s.expiry.isExpiredAt (c.clock (w'.tick - 1)) = false
  source : (Stored w.db .image .snapshot raw ∧ w'.db = w.db) ∨
    (c.net w.tick .image "snapshot" (-1) = some raw ∧
      (w'.db = w.db.storeNonRoot raw .image .snapshot ∨ (w'.db = w.db ∧ ¬ ∃ v, 0 ≤ v ∧ StatesVersion c.env raw v)))

theorem updateSnapshot_ok {c : Ctx} {w w' : World} (hreset : w.img.snapshot.version = -1)
    (h : updateSnapshot c w = (.ok (), w')) : ∃ raw s, SnapshotStep c w w' raw s := by
  unfold updateSnapshot at h
  simp only [M.bind_ok] at h
  obtain ⟨⟨fetch, lv⟩, w1, h1, h⟩ := h
  have h' : ∃ w2, (if fetch = true then fetchSnapshot c lv else pure () : U Unit) w1 = (.ok (), w2) ∧ checkSnapshotExpired c w2 = (.ok (), w') := by
    cases fetch
    · exact ⟨w1, rfl, h⟩
    · obtain ⟨_, w2, h2, h3⟩ := M.bind_ok.1 h
      exact ⟨w2, h2, h3⟩
  obtain ⟨w2, h2, h3⟩ := h'
  -- the stored Snapshot
  have key : (fetch = false ∧ ∃ raw s, Stored w.db .image .snapshot raw ∧ SnapshotVerified c.env w.img raw s ∧
        w1 = { w with img := { w.img with snapshot := s } }) ∨
      (fetch = true ∧ lv ≠ w.img.timestamp.snapshotVersion ∧ ∃ s, w1 = { w with img := { w.img with snapshot := s } }) ∨
      (fetch = true ∧ lv = -1 ∧ w1 = w) := by
    unfold tryStoredSnapshot at h1
    simp only [M.bind_ok] at h1
    obtain ⟨ans, w3, h4, h1⟩ := h1
    cases ans with
    | none =>
      obtain ⟨rfl, _⟩ := loadNonRoot_none h4
      simp at h1
      exact .inr (.inr ⟨h1.1.1, h1.1.2.symm, h1.2.symm⟩)
    | some stored =>
      obtain ⟨rfl, _, hst⟩ := loadNonRoot_some h4
      simp only [M.bind_ok, gets_eq, pure_eq, Prod.mk.injEq, Except.ok.injEq] at h1
      obtain ⟨b, w4, h5, _, _, ⟨rfl, rfl⟩, ⟨rfl, rfl⟩, rfl⟩ := h1
      unfold catchUpt at h5
      split at h5
      · rename_i e w5 he
        split at h5
        · simp at h5
          obtain ⟨rfl, rfl⟩ := h5
          rcases bind_err.1 he with he | ⟨_, _, _, he⟩
          · rcases verifySnapshot_cases he with ⟨_, hx, _⟩ | ⟨_, _, rfl | ⟨s, _, hne, rfl⟩⟩
            · simp at hx
            · exact .inr (.inr ⟨rfl, hreset, rfl⟩)
            · exact .inr (.inl ⟨rfl, hne, s, rfl⟩)
          · simp at he
        · simp at h5
      · rename_i r hr
        simp only [M.bind_ok, pure_eq, Prod.mk.injEq, Except.ok.injEq] at h5
        obtain ⟨_, w5, h6, rfl, rfl⟩ := h5
        rcases verifySnapshot_cases h6 with ⟨s, _, hv, rfl⟩ | ⟨e, he, _⟩
        · exact .inl ⟨rfl, stored, s, hst, hv, rfl⟩
        · simp at he
  unfold checkSnapshotExpired at h3
  simp only [M.bind_ok, gets_eq, now, throwWhen_ok, Prod.mk.injEq, Except.ok.injEq] at h3
  obtain ⟨_, _, ⟨rfl, rfl⟩, _, _, ⟨rfl, rfl⟩, h3, rfl⟩ := h3
  have fetched : fetch = true → (∃ s0, w1 = { w with img := { w.img with snapshot := s0 } }) →
      (lv = -1 ∨ lv ≠ w.img.timestamp.snapshotVersion) →
      ∃ raw s, SnapshotStep c w { w2 with tick := w2.tick + 1 } raw s := by
    rintro rfl ⟨s0, rfl⟩ hlv
    simp only [if_true] at h2
    unfold fetchSnapshot at h2
    simp only [M.bind_ok, gets_eq, Prod.mk.injEq, Except.ok.injEq] at h2
    obtain ⟨_, _, ⟨rfl, rfl⟩, raw, w3, h4, rv, w4, h5, _, w5, h6, h7⟩ := h2
    obtain ⟨hserved, _, rfl⟩ := fetchRole_ok h4
    simp only [lift_eq, Prod.mk.injEq] at h5
    obtain ⟨h5, rfl⟩ := h5
    rcases verifySnapshot_cases h6 with ⟨s, _, hv, rfl⟩ | ⟨e, he, _⟩
    swap_goal
    · simp at he
    have hv' : SnapshotVerified c.env w.img raw s := ⟨hv.hashes, hv.parsed, hv.version⟩
    rcases compareAndStore_cases h7 with ⟨hlt, _, hdb, hi, _, ht⟩ | ⟨heq, _, rfl⟩ | ⟨⟨_, he⟩, _⟩
    · refine ⟨raw, s, hv', ?_, ?_, ?_, .inr ⟨hserved, .inl hdb⟩⟩
      · show w2.img = _; rw [hi]
      · show w.tick < w2.tick + 1; rw [ht]; show w.tick < w.tick + 1 + 1; omega
      · rw [hi] at h3; exact h3
    · refine ⟨raw, s, hv', rfl, ?_, h3, .inr ⟨hserved, .inr ⟨rfl, ?_⟩⟩⟩
      · show w.tick < w.tick + 1 + 1; omega
      · rintro ⟨v, hpos, hst⟩
        have e1 : rv = v := by simpa using h5.symm.trans hst.extract
        obtain ⟨_, _, _, e, hb⟩ := Snapshot.ofJsonSigned_ok hv.parsed
        have e2 := baseInit_states hb hst
        have e3 := hv'.version
        rcases hlv with h | h
        · omega
        · exact h (by omega)
    · simp at he
  rcases key with ⟨rfl, raw, s, hst, hv, rfl⟩ | ⟨hf, hne, hs⟩ | ⟨hf, hm1, rfl⟩
  · simp at h2
    subst h2
    exact ⟨raw, s, hv, rfl, Nat.lt_succ_self _, h3, .inl ⟨hst, rfl⟩⟩
  · exact fetched hf hs (.inr hne)
  · exact fetched hf ⟨w1.img.snapshot, rfl⟩ (.inl hm1)

/-- A successful Targets block. -/
structure TargetsStep (c : Ctx) (w w' : World) (raw : String) (ts : Targets) : Prop where
  verified : TargetsVerified c.env w.img raw ts
  img : w'.img = { w.img with targets := some ts }
  tick : w.tick < w'.tick
  fresh : ts.base.expiry.isExpiredAt (c.clock (w'.tick - 1)) = false
  source : (Stored w.db .image .targets raw ∧ w'.db = w.db) ∨
    (c.net w.tick .image "targets" (-1) = some raw ∧
      (w'.db = w.db.storeNonRoot raw .image .targets ∨ (w'.db = w.db ∧ ¬ ∃ v, 0 ≤ v ∧ StatesVersion c.env raw v)))

theorem updateTargets_ok {c : Ctx} {w w' : World} (hreset : w.img.targets = none)
    (h : updateTargets c w = (.ok (), w')) : ∃ raw ts, TargetsStep c w w' raw ts := by
  unfold updateTargets at h
  simp only [M.bind_ok] at h
  obtain ⟨⟨fetch, lv⟩, w1, h1, h⟩ := h
  have h' : ∃ w2, (if fetch = true then fetchTargets c lv else pure () : U Unit) w1 = (.ok (), w2) ∧ checkTargetsExpired c w2 = (.ok (), w') := by
    cases fetch
    · exact ⟨w1, rfl, h⟩
    · obtain ⟨_, w2, h2, h3⟩ := M.bind_ok.1 h
      exact ⟨w2, h2, h3⟩
  obtain ⟨w2, h2, h3⟩ := h'
  have key : (fetch = false ∧ ∃ raw ts, Stored w.db .image .targets raw ∧ TargetsVerified c.env w.img raw ts ∧
        w1 = { w with img := { w.img with targets := some ts } }) ∨
      (fetch = true ∧ lv ≠ w.img.snapshot.versionOf Role.targets ∧ ∃ ts, w1 = { w with img := { w.img with targets := some ts } }) ∨
      (fetch = true ∧ lv = -1 ∧ w1 = w) := by
    unfold tryStoredTargets at h1
    simp only [M.bind_ok] at h1
    obtain ⟨ans, w3, h4, h1⟩ := h1
    cases ans with
    | none =>
      obtain ⟨rfl, _⟩ := loadNonRoot_none h4
      simp at h1
      exact .inr (.inr ⟨h1.1.1, h1.1.2.symm, h1.2.symm⟩)
    | some stored =>
      obtain ⟨rfl, _, hst⟩ := loadNonRoot_some h4
      simp only [M.bind_ok, gets_eq, pure_eq, Prod.mk.injEq, Except.ok.injEq] at h1
      obtain ⟨b, w4, h5, _, _, ⟨rfl, rfl⟩, ⟨rfl, hlv⟩, rfl⟩ := h1
      unfold catchStd at h5
      split at h5
      · rename_i e w5 he
        split at h5
        · simp at h5
          obtain ⟨rfl, rfl⟩ := h5
          rcases bind_err.1 he with he | ⟨_, _, _, he⟩
          · rcases verifyTargets_cases he with ⟨_, hx, _⟩ | ⟨_, _, rfl | ⟨s, _, hne, rfl⟩⟩
            · simp at hx
            · rw [hreset] at hlv
              exact .inr (.inr ⟨rfl, hlv.symm, rfl⟩)
            · exact .inr (.inl ⟨rfl, hlv ▸ hne, s, rfl⟩)
          · simp at he
        · simp at h5
      · rename_i r hr
        simp only [M.bind_ok, pure_eq, Prod.mk.injEq, Except.ok.injEq] at h5
        obtain ⟨_, w5, h6, rfl, rfl⟩ := h5
        rcases verifyTargets_cases h6 with ⟨s, _, hv, rfl⟩ | ⟨e, he, _⟩
        · exact .inl ⟨rfl, stored, s, hst, hv, rfl⟩
        · simp at he
  have fresh : ∀ ts, w2.img.targets = some ts → w' = { w2 with tick := w2.tick + 1 } ∧
      ts.base.expiry.isExpiredAt (c.clock w2.tick) = false := by
    intro ts hts
    unfold checkTargetsExpired at h3
    simp only [M.bind_ok, gets_eq, Prod.mk.injEq, Except.ok.injEq] at h3
    obtain ⟨_, _, ⟨rfl, rfl⟩, h3⟩ := h3
    rw [hts] at h3
    simp only [M.bind_ok, now, throwWhen_ok, Prod.mk.injEq, Except.ok.injEq] at h3
    obtain ⟨_, _, ⟨rfl, rfl⟩, h3, rfl⟩ := h3
    exact ⟨rfl, h3⟩
  have fetched : fetch = true → (∃ s0, w1 = { w with img := { w.img with targets := s0 } }) →
      (lv = -1 ∨ lv ≠ w.img.snapshot.versionOf Role.targets) →
      ∃ raw ts, TargetsStep c w w' raw ts := by
    rintro rfl ⟨s0, rfl⟩ hlv
    simp only [if_true] at h2
    unfold fetchTargets at h2
    simp only [M.bind_ok, gets_eq, Prod.mk.injEq, Except.ok.injEq] at h2
    obtain ⟨_, _, ⟨rfl, rfl⟩, raw, w3, h4, rv, w4, h5, _, w5, h6, h7⟩ := h2
    obtain ⟨hserved, _, rfl⟩ := fetchRole_ok h4
    simp only [lift_eq, Prod.mk.injEq] at h5
    obtain ⟨h5, rfl⟩ := h5
    rcases verifyTargets_cases h6 with ⟨ts, _, hv, rfl⟩ | ⟨e, he, _⟩
    swap_goal
    · simp at he
    have hv' : TargetsVerified c.env w.img raw ts := ⟨hv.hashes, hv.parsed, hv.version⟩
    rcases compareAndStore_cases h7 with ⟨hlt, _, hdb, hi, _, ht⟩ | ⟨heq, _, rfl⟩ | ⟨⟨_, he⟩, _⟩
    · obtain ⟨rfl, hfr⟩ := fresh ts (by rw [hi])
      refine ⟨raw, ts, hv', ?_, ?_, hfr, .inr ⟨hserved, .inl hdb⟩⟩
      · show w2.img = _; rw [hi]
      · show w.tick < w2.tick + 1; rw [ht]; show w.tick < w.tick + 1 + 1; omega
    · obtain ⟨rfl, hfr⟩ := fresh ts rfl
      refine ⟨raw, ts, hv', rfl, ?_, hfr, .inr ⟨hserved, .inr ⟨rfl, ?_⟩⟩⟩
      · show w.tick < w.tick + 1 + 1; omega
      · rintro ⟨v, hpos, hst⟩
        have e1 : rv = v := by simpa using h5.symm.trans hst.extract
        have e2 := (Targets.ofJsonSigned_ok properTargets hv.parsed).2.2.version hst
        have e3 := hv'.version
        rcases hlv with h | h
        · omega
        · exact h (by omega)
    · simp at he
  rcases key with ⟨rfl, raw, s, hst, hv, rfl⟩ | ⟨hf, hne, ⟨ts, hs⟩⟩ | ⟨hf, hm1, rfl⟩
  · simp at h2
    subst h2
    obtain ⟨rfl, hfr⟩ := fresh s rfl
    exact ⟨raw, s, hv, rfl, Nat.lt_succ_self _, hfr, .inl ⟨hst, rfl⟩⟩
  · exact fetched hf ⟨some ts, hs⟩ (.inr hne)
  · exact fetched hf ⟨w1.img.targets, rfl⟩ (.inl hm1)

/-! ### The whole check -/

/-- The non-Root members of the Image repository object. -/
def SameImg (w w' : World) : Prop :=
  w'.img.targets = w.img.targets ∧ w'.img.timestamp = w.img.timestamp ∧ w'.img.snapshot = w.img.snapshot

theorem sameImg_pre : IsPre SameImg :=
  ⟨fun _ => ⟨rfl, rfl, rfl⟩, fun _ _ _ h1 h2 => ⟨h2.1.trans h1.1, h2.2.1.trans h1.2.1, h2.2.2.trans h1.2.2⟩⟩

theorem updateRoot_sameImg (c : Ctx) (repo : Repo) : Preserves SameImg (updateRoot c repo) := by
  have hw : ∀ f, Preserves SameImg (write f) := by
    intro f w; unfold write; split <;> exact ⟨rfl, rfl, rfl⟩
  have hm : ∀ {α : Type} {m : U α}, Preserves SameMem m → Preserves SameImg m := by
    intro α m h w
    have := (h w).2.2
    exact ⟨by rw [this], by rw [this], by rw [this]⟩
  have he : ∀ {α : Type} {m : U α}, Preserves Eq m → Preserves SameImg m := by
    intro α m h w
    rw [← h w]; exact ⟨rfl, rfl, rfl⟩
  have hr : ∀ r w, SameImg w (setRoot repo r w) := by
    intro r w; cases repo <;> exact ⟨rfl, rfl, rfl⟩
  have hloop : ∀ n v, Preserves SameImg (rotateLoop c repo n v) := by
    intro n
    induction n with
    | zero => intro v; unfold rotateLoop; wpres sameImg_pre
    | succ n ih =>
      intro v
      unfold rotateLoop verifyRoot
      wpres sameImg_pre
      · exact hm (tryFetchRoot_same c repo v)
      · exact hr _ _
      · exact hw _
      · exact hw _
      · exact ih _
  unfold updateRoot loadOrFetchRoot initRoot checkRootExpired
  wpres sameImg_pre
  · exact he (loadLatestRoot_same _)
  · exact hr _ _
  · exact hr _ _
  · exact hm (fetchRole_same _ _ _ _ _)
  · exact hr _ _
  · exact hr _ _
  · exact hw _
  · exact hloop _ _
  · exact hm (now_same _)

/-- Everything a successful online check of the Image repository establishes. -/
structure Success (c : Ctx) (w w1 w2 w3 w' : World) (rawT rawS raw : String) (t : TimestampMeta) (s : Snapshot) (ts : Targets) : Prop where
  rootOk : updateRoot c .image { w with img := { root := { policy := .acceptAll } } } = (.ok (), w1)
  timestamp : TimestampStep c w1 w2 rawT t
  snapshot : SnapshotStep c w2 w3 rawS s
  targets : TargetsStep c w3 w' raw ts
  img : w'.img = { root := w1.img.root, timestamp := t, snapshot := s, targets := some ts }

theorem updateMeta_success {c : Ctx} {w w' : World} (h : updateMeta c w = (.ok (), w')) :
    ∃ w1 w2 w3 rawT rawS raw t s ts, Success c w w1 w2 w3 w' rawT rawS raw t s ts := by
  unfold updateMeta at h
  simp only [M.bind_ok] at h
  obtain ⟨_, w0, h0, _, w1, h1, _, w2, h2, _, w3, h3, h4⟩ := h
  simp only [resetMeta, modify_eq, Prod.mk.injEq, true_and] at h0
  subst h0
  have hi := (updateRoot_sameImg c .image).of_eq h1
  obtain ⟨rawT, t, st⟩ := updateTimestamp_ok h2
  obtain ⟨rawS, s, ss⟩ := updateSnapshot_ok (by rw [st.img]; show w1.img.snapshot.version = -1; rw [hi.2.2]) h3
  obtain ⟨raw, ts, sts⟩ := updateTargets_ok (by rw [ss.img, st.img]; exact hi.1) h4
  exact ⟨w1, w2, w3, rawT, rawS, raw, t, s, ts, h1, st, ss, sts, by rw [sts.img, ss.img, st.img]⟩

end Image

end Aktualizr
