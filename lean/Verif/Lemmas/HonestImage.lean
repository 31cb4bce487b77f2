import Verif.Lemmas.Honest

/-! Running the Image repository's check forward. -/

namespace Aktualizr

open M Spec

/-! ### Hashes -/

theorem HashOk.run {env : Env} {canonical : String} {h : Hash} (hk : HashOk env canonical h) : Image.hashDiffers env canonical h ≠ some true := by
  obtain ⟨ty, tx⟩ := h
  unfold Image.hashDiffers
  rcases hk with h | ⟨h, h'⟩ | ⟨h, h'⟩ <;> simp at h <;> subst h
  · simp
  · simp at h'; simp [Hash.mk', h']
  · simp at h'; simp [Hash.mk', h']

theorem roleHashLoop_run {env : Env} {canonical : String} : ∀ {l : List Hash}, (∀ x ∈ l, HashOk env canonical x) →
    Image.roleHashLoop env canonical l = .ok ()
  | [], _ => rfl
  | a :: l, h => by
    unfold Image.roleHashLoop
    have ha := (h a (by simp)).run
    split
    · rename_i he; exact absurd he ha
    · exact roleHashLoop_run (fun x hx => h x (by simp [hx]))

theorem snapshotHashLoop_true {env : Env} {canonical : String} : ∀ {l : List Hash}, (∀ x ∈ l, HashOk env canonical x) →
    Image.snapshotHashLoop env canonical true l = .ok true
  | [], _ => rfl
  | a :: l, h => by
    unfold Image.snapshotHashLoop
    have ha := (h a (by simp)).run
    have hl := snapshotHashLoop_true (l := l) (fun x hx => h x (by simp [hx]))
    split
    · exact hl
    · rename_i he; exact absurd he ha
    · exact hl

theorem snapshotHashLoop_run {env : Env} {canonical : String} : ∀ {l : List Hash}, (∀ x ∈ l, HashOk env canonical x) →
    (∃ x ∈ l, x.type ≠ .unknown) → Image.snapshotHashLoop env canonical false l = .ok true
  | [], _, ⟨_, h, _⟩ => by cases h
  | a :: l, h, ⟨x, hx, hu⟩ => by
    unfold Image.snapshotHashLoop
    have ha := (h a (by simp)).run
    split
    · rename_i he
      refine snapshotHashLoop_run (fun x hx => h x (by simp [hx])) ?_
      rcases List.mem_cons.1 hx with rfl | hx
      · obtain ⟨ty, tx⟩ := x
        cases ty <;> simp [Image.hashDiffers] at he hu
      · exact ⟨x, hx, hu⟩
    · rename_i he; exact absurd he ha
    · exact snapshotHashLoop_true (fun x hx => h x (by simp [hx]))

theorem snapshotHashLoop_upt {env : Env} {canonical : String} : ∀ {l : List Hash} {ex : Bool} {e : Err},
    Image.snapshotHashLoop env canonical ex l = .error e → e.isUpt = true
  | [], _, _, h => by cases h
  | a :: l, ex, e, h => by
    unfold Image.snapshotHashLoop at h
    split at h
    · exact snapshotHashLoop_upt h
    · cases h; rfl
    · exact snapshotHashLoop_upt h

theorem roleHashLoop_std {env : Env} {canonical : String} : ∀ {l : List Hash} {e : Err},
    Image.roleHashLoop env canonical l = .error e → e.isStd = true
  | [], _, h => by cases h
  | a :: l, e, h => by
    unfold Image.roleHashLoop at h
    split at h
    · cases h; rfl
    · exact roleHashLoop_std h

theorem ofStrings_run {env : Env} {raw k text : String} (h : k = "sha256" ∨ k = "sha512" → upper text = upper (digest env k raw)) :
    HashOk env (env.canon (env.parseJson raw)) (Hash.ofStrings k text) := by
  by_cases h5 : k = "sha512"
  · subst h5
    have := h (.inr rfl)
    right; right
    simpa [Hash.ofStrings, digest] using this
  · by_cases h6 : k = "sha256"
    · subst h6
      have := h (.inl rfl)
      right; left
      simpa [Hash.ofStrings, digest] using this
    · left
      simp [Hash.ofStrings, h5, h6]

theorem Spec.HashesToAll.run {env : Env} {raw : String} {hashes : Json} {hs : List Hash} (h : HashesToAll env raw hashes)
    (hp : parseHashes hashes.entries = .ok hs) : ∀ x ∈ hs, HashOk env (env.canon (env.parseJson raw)) x := by
  intro x hx
  obtain ⟨kj, hkj, text, ht, rfl⟩ := parseHashes_origin hp x hx
  refine ofStrings_run (fun hk => ?_)
  obtain ⟨text', ht', he⟩ := h kj hkj hk
  rw [ht] at ht'
  cases ht'
  exact he

/-- What the Timestamp says about the Snapshot. -/
theorem timestamp_hashes {env : Env} {rawT rawS : String} {t : TimestampMeta} {v : Int} (hr : ReadsAsTimestamp env rawT t)
    (hv : TimestampVouches env rawT rawS v) :
    t.snapshotVersion = v ∧ Image.snapshotHashLoop env (env.canon (env.parseJson rawS)) false t.snapshotHashes = .ok true ∧
    ∀ old, (∀ alg, upper (digest env alg old) ≠ upper (digest env alg rawS)) →
      ∀ b, Image.snapshotHashLoop env (env.canon (env.parseJson old)) false t.snapshotHashes ≠ .ok b := by
  obtain ⟨signer, hr⟩ := hr
  unfold TimestampMeta.ofJsonSigned at hr
  simp only [exc_bind_ok, exc_pure_ok] at hr
  obtain ⟨_, _, s, hs, m, hm, sj, hsj, hashes, hhs, size, hsz, ver, hver, ty, hty, _, _, hl, hp, _, _, v', hv', rfl⟩ := hr
  obtain ⟨sj', hashes', vj, ⟨s', hs', m', hm', sj'', hsj', he⟩, hh', hall, ⟨kj, hkj, hk⟩, hver', hvj⟩ := hv
  have e1 : s' = s := Except.ok.inj (hs'.symm.trans hs); subst e1
  have e2 : m' = m := Except.ok.inj (hm'.symm.trans hm); subst e2
  have e3 : sj'' = sj := Except.ok.inj (hsj'.symm.trans hsj); subst e3
  have e4 : sj'' = sj' := he; subst e4
  have e5 : hashes' = hashes := Except.ok.inj (hh'.symm.trans hhs); subst e5
  have e6 : vj = ver := Except.ok.inj (hver'.symm.trans hver); subst e6
  have e7 : v' = v := Except.ok.inj (hv'.symm.trans hvj)
  refine ⟨e7, ?_, ?_⟩
  · refine snapshotHashLoop_run (hall.run hp) ?_
    obtain ⟨text, ht, hm⟩ := parseHashes_mem hp kj hkj
    refine ⟨_, hm, ?_⟩
    rcases hk with h | h <;> rw [h] <;> simp [Hash.ofStrings]
  · intro old hne b hb
    obtain ⟨text, ht, hm⟩ := parseHashes_mem hp kj hkj
    have h1 := ofStrings_ok ((snapshotHashLoop_ok hb).1 _ hm) hk
    obtain ⟨text', ht', h2⟩ := hall kj hkj hk
    rw [ht] at ht'
    cases ht'
    exact hne kj.1 (h1.symm.trans h2)

theorem isReserved_name {n : String} {role : Role} (h : (if Role.isReserved n then pure (Role.ofName n) else Role.delegation n) = (.ok role : Except Err Role)) :
    role.name = n := by
  split at h
  · rename_i hr
    simp at h
    rw [← h]
    exact ofName_reserved hr
  · unfold Role.delegation at h
    split at h
    · simp at h
    · simp at h; rw [← h]

/-- What the Snapshot's tables hold comes from its entries. -/
theorem snapshotLoop_origin {n : String} : ∀ {l : List (String × Json)} {sn sn' : Snapshot}, snapshotLoop sn l = .ok sn' →
    (∀ x ∈ (sn'.roleHashes.lookup n).getD [], x ∈ (sn.roleHashes.lookup n).getD [] ∨
      ∃ kj ∈ l, stripExtension kj.1 = n ∧ ∃ hashes hs, kj.2.get "hashes" = .ok hashes ∧ parseHashes hashes.entries = .ok hs ∧ x ∈ hs) ∧
    (∀ p ∈ sn'.roleSize, p ∈ sn.roleSize ∨ p.2 = -1)
  | [], sn, sn', h => by
    simp [snapshotLoop] at h
    subst h
    exact ⟨fun x hx => .inl hx, fun p hp => .inl hp⟩
  | (k, j) :: l, sn, sn', h => by
    simp only [snapshotLoop, exc_bind_ok] at h
    obtain ⟨hashes, hhs, size, _, ver, hver, _, _, role, hrole, v, hv, sz, hsz, hs, hhp, h⟩ := h
    have hname := isReserved_name hrole
    obtain ⟨h1, h2⟩ := snapshotLoop_origin (n := n) h
    simp only [hname] at h1 h2
    refine ⟨fun x hx => ?_, fun p hp => ?_⟩
    · rcases h1 x hx with hx | ⟨kj, hkj, hrest⟩
      · split at hx
        · rename_i hobj
          simp only [Bool.and_eq_true, decide_eq_true_eq] at hobj
          by_cases hn : n = stripExtension k
          · subst hn
            simp only [List.lookup_cons_self, Option.getD_some, List.mem_append] at hx
            rcases hx with hx | hx
            · exact .inl hx
            · refine .inr ⟨(k, j), by simp, rfl, hashes, hs, hhs, ?_, hx⟩
              simpa [hobj.1] using hhp
          · have hb : (n == stripExtension k) = false := by simpa using hn
            simp only [List.lookup_cons, hb] at hx
            exact .inl hx
        · exact .inl hx
      · exact .inr ⟨kj, by simp [hkj], hrest⟩
    · rcases h2 p hp with hp | hp
      · rcases List.mem_cons.1 hp with rfl | hp
        · right
          split at hsz
          · rename_i ho
            cases size <;> simp [Json.isObject, Json.asInt64, Json.asIntIn] at ho hsz
          · simp at hsz; exact hsz.symm
        · exact .inl hp
      · exact .inr hp

/-- What the Snapshot says about a role. -/
theorem snapshot_lists {env : Env} {rawS raw : String} {s : Snapshot} {role : Role} {v : Int} (hr : ReadsAsSnapshot env rawS s)
    (hl : SnapshotLists env rawS role.name raw v) :
    s.versionOf role = v ∧ s.sizeOf role ≤ 0 ∧ Image.roleHashLoop env (env.canon (env.parseJson raw)) (s.hashesOf role) = .ok () := by
  obtain ⟨signer, hs⟩ := hr
  unfold Snapshot.ofJsonSigned at hs
  simp only [exc_bind_ok] at hs
  obtain ⟨_, _, sg, hsg, ml, hml, _, _, _, _, hloop⟩ := hs
  obtain ⟨ml', ⟨sg', hsg', m', hm', he⟩, ⟨kj0, hkj0, hn0⟩, hall⟩ := hl
  have e1 : sg' = sg := Except.ok.inj (hsg'.symm.trans hsg); subst e1
  have e2 : m' = ml := Except.ok.inj (hm'.symm.trans hml); subst e2
  have e3 : m' = ml' := he; subst e3
  obtain ⟨h1, h2⟩ := snapshotLoop_origin (n := role.name) hloop
  obtain ⟨_, _, h3⟩ := snapshotLoop_spec hloop
  refine ⟨?_, ?_, ?_⟩
  · rcases h3 role.name with ⟨kj, hkj, hn, vj, v', hg, hv, hlk⟩ | ⟨hno, _⟩
    · obtain ⟨_, vj', hg', hv'⟩ := hall kj hkj hn
      have e4 : vj' = vj := Except.ok.inj (hg'.symm.trans hg); subst e4
      have e5 : v' = v := Except.ok.inj (hv.symm.trans hv')
      simp [Snapshot.versionOf, hlk, e5]
    · exact absurd hn0 (hno _ hkj0)
  · unfold Snapshot.sizeOf
    cases hlk : s.roleSize.lookup role.name with
    | none => exact Int.le_refl 0
    | some z =>
      have : ∃ p ∈ s.roleSize, p.2 = z := by
        obtain ⟨l1, l2, e, _⟩ := List.lookup_eq_some_iff.1 hlk
        exact ⟨(role.name, z), by rw [e]; simp, rfl⟩
      obtain ⟨p, hp, rfl⟩ := this
      rcases h2 p hp with hp | hp
      · cases hp
      · show p.2 ≤ 0; omega
  · refine roleHashLoop_run (fun x hx => ?_)
    rcases h1 x hx with hx | ⟨kj, hkj, hn, hashes, hs, hg, hp, hx⟩
    · cases hx
    · obtain ⟨⟨hashes', hg', hh⟩, _⟩ := hall kj hkj hn
      have e4 : hashes' = hashes := Except.ok.inj (hg'.symm.trans hg); subst e4
      exact hh.run hp x hx

namespace Image

/-- What a check of the Image repository may not touch. -/
structure OnlyImage (w w' : World) : Prop where
  dir : w'.dir = w.dir
  root : w'.img.root = w.img.root
  other : ∀ t, w'.db.only .director t = w.db.only .director t
  rootRows : w'.db.only .image .root = w.db.only .image .root
  delegations : w'.db.delegations = w.db.delegations

theorem OnlyImage.refl (w : World) : OnlyImage w w := ⟨rfl, rfl, fun _ => rfl, rfl, rfl⟩

theorem OnlyImage.trans {a b c : World} (h1 : OnlyImage a b) (h2 : OnlyImage b c) : OnlyImage a c :=
  ⟨h2.1.trans h1.1, h2.2.trans h1.2, fun t => (h2.3 t).trans (h1.3 t), h2.4.trans h1.4, h2.5.trans h1.5⟩

/-- One role has been dealt with; at most one write. -/
structure RoleDone (w w' : World) (type : RoleKind) (raw : String) : Prop where
  only : OnlyImage w w'
  stored : Stored w'.db .image type raw
  rest : ∀ t, t ≠ type → w'.db.only .image t = w.db.only .image t
  fuel : w.fuel ≤ w'.fuel + 1

theorem compareAndStore_run {lv v : Int} {raw : String} {type : RoleKind} {w : World} (ht : type ≠ .root) (hf : 0 < w.fuel)
    (h : (lv = v ∧ Stored w.db .image type raw) ∨ lv < v) :
    ∃ w', compareAndStore lv v raw type w = (.ok (), w') ∧ RoleDone w w' type raw ∧ w'.img = w.img := by
  unfold compareAndStore
  rcases h with ⟨rfl, h⟩ | h
  · refine ⟨w, ?_, ⟨.refl _, h, fun _ _ => rfl, by omega⟩, rfl⟩
    simp
  · refine ⟨{ w with db := w.db.storeNonRoot raw .image type, fuel := w.fuel - 1 }, ?_, ⟨⟨rfl, rfl, ?_, ?_, rfl⟩, stored_storeNonRoot _ _ _ _, ?_, ?_⟩, rfl⟩
    · rw [if_neg (by omega), if_pos h]
      exact write_run hf
    · exact fun t => MetaDb.only_storeNonRoot_other _ _ (fun e => by cases e.1)
    · exact MetaDb.only_storeNonRoot_other _ _ (fun e => ht e.2.symm)
    · exact fun t h => MetaDb.only_storeNonRoot_other _ _ (fun e => h e.2)
    · show w.fuel ≤ w.fuel - 1 + 1; omega

theorem RoleDone.set {w w' w'' : World} {type : RoleKind} {raw : String} (h : RoleDone w w' type raw) (h1 : w''.db = w'.db) (h2 : w''.dir = w'.dir)
    (h3 : w''.img.root = w'.img.root) (h4 : w''.fuel = w'.fuel) : RoleDone w w'' type raw where
  only := ⟨h2.trans h.only.dir, h3.trans h.only.root, fun t => by rw [h1]; exact h.only.other t, by rw [h1]; exact h.only.rootRows, by rw [h1]; exact h.only.delegations⟩
  stored := by rw [h1]; exact h.stored
  rest := fun t ht => by rw [h1]; exact h.rest t ht
  fuel := by rw [h4]; exact h.fuel

theorem RoleDone.pre {w w0 w' : World} {type : RoleKind} {raw : String} (h : RoleDone w0 w' type raw) (h1 : w0.db = w.db) (h2 : w0.dir = w.dir)
    (h3 : w0.img.root = w.img.root) (h4 : w0.fuel = w.fuel) : RoleDone w w' type raw where
  only := ⟨h.only.dir.trans h2, h.only.root.trans h3, fun t => by rw [← h1]; exact h.only.other t, by rw [← h1]; exact h.only.rootRows, by rw [← h1]; exact h.only.delegations⟩
  stored := h.stored
  rest := fun t ht => by rw [← h1]; exact h.rest t ht
  fuel := by rw [← h4]; exact h.fuel

theorem verifyTimestamp_run {c : Ctx} {raw : String} {t : TimestampMeta} {w : World} (h : Genuine c.env w.img.root Role.timestamp raw)
    (hr : ReadsAsTimestamp c.env raw t) : verifyTimestamp c raw w = (.ok (), { w with img := { w.img with timestamp := t } }) := by
  unfold verifyTimestamp
  rw [run_bind (by rw [gets_eq]), run_bind (m := lift (TimestampMeta.ofJsonSigned c.env (c.env.parseJson raw) w.img.root.base))
    (by rw [lift_eq, timestamp_run h hr]), modify_eq]

theorem checkTimestampExpired_run {c : Ctx} {w : World} (h : Unexpired c w.img.timestamp.expiry) :
    checkTimestampExpired c w = (.ok (), { w with tick := w.tick + 1 }) := by
  unfold checkTimestampExpired
  rw [run_bind (by rw [gets_eq]), run_bind (now_run c w)]
  exact throwWhen_run (h _)

theorem updateTimestamp_run {c : Ctx} {w : World} {raw : String} {t : TimestampMeta}
    (hserved : Served c .image Role.timestamp (-1) (64 * 1024) raw) (hgen : Genuine c.env w.img.root Role.timestamp raw)
    (hreads : ReadsAsTimestamp c.env raw t) (hnew : Newer c.env w.db .image .timestamp raw) (hfresh : Unexpired c t.expiry) (hf : 0 < w.fuel) :
    ∃ w', updateTimestamp c w = (.ok (), w') ∧ RoleDone w w' .timestamp raw ∧ w'.img = { w.img with timestamp := t } := by
  obtain ⟨v, hv, hv0, hold⟩ := hnew
  let w1 : World := { w with tick := w.tick + 1 }
  have hfe : fetchLatestRole c kMaxTimestampSize .image Role.timestamp w = (.ok raw, w1) := hserved.run w
  have hl : ∃ lv, (do match ← loadNonRoot .image .timestamp with
                      | some stored => lift (extractVersionUntrusted c.env stored)
                      | none => pure (-1) : U Int) w1 = (.ok lv, w1) ∧ ((lv = v ∧ Stored w.db .image .timestamp raw) ∨ lv < v) := by
    cases hl : w1.db.latestOf .image .timestamp with
    | none =>
      rw [run_bind (load_none hl)]
      exact ⟨-1, rfl, .inr (by omega)⟩
    | some row =>
      have hs : Stored w1.db .image .timestamp row.data := ⟨row, hl, rfl⟩
      rcases hold _ hs with he | ⟨h1, lv, h2, h3⟩
      · refine ⟨v, ?_, .inl ⟨rfl, he ▸ hs⟩⟩
        rw [run_bind (load_run hs (by rw [he]; exact hgen.nonempty))]
        show lift (extractVersionUntrusted c.env row.data) w1 = _
        rw [he, lift_eq, hv.run]
      · refine ⟨lv, ?_, .inr h3⟩
        rw [run_bind (load_run hs h1)]
        show lift (extractVersionUntrusted c.env row.data) w1 = _
        rw [lift_eq, h2.run]
  obtain ⟨lv, hl, hlv⟩ := hl
  let w2 : World := { w1 with img := { w1.img with timestamp := t } }
  have hv2 : verifyTimestamp c raw w1 = (.ok (), w2) := verifyTimestamp_run hgen hreads
  obtain ⟨w3, h3, hd, hi⟩ := compareAndStore_run (w := w2) (lv := lv) (v := v) (raw := raw) (type := .timestamp) (by decide) hf hlv
  refine ⟨{ w3 with tick := w3.tick + 1 }, ?_, ?_, ?_⟩
  · unfold updateTimestamp
    rw [run_bind hfe, run_bind (m := lift (extractVersionUntrusted c.env raw)) (by rw [lift_eq, hv.run])]
    refine (run_bind hl).trans ?_
    rw [run_bind hv2, run_bind h3]
    exact checkTimestampExpired_run (by rw [hi]; exact hfresh)
  · refine RoleDone.pre (w0 := w2) ?_ rfl rfl rfl rfl
    exact hd.set rfl rfl rfl rfl
  · exact hi

theorem verifySnapshot_run {c : Ctx} {raw : String} {s : Snapshot} {w : World} (h : Genuine c.env w.img.root Role.snapshot raw)
    (hr : ReadsAsSnapshot c.env raw s) (hv : w.img.timestamp.snapshotVersion = s.version)
    (hh : snapshotHashLoop c.env (c.env.canon (c.env.parseJson raw)) false w.img.timestamp.snapshotHashes = .ok true) :
    verifySnapshot c raw w = (.ok (), { w with img := { w.img with snapshot := s } }) := by
  unfold verifySnapshot
  rw [run_bind (by rw [gets_eq]), run_bind (m := lift (snapshotHashLoop c.env (c.env.canon (c.env.parseJson raw)) false w.img.timestamp.snapshotHashes))
    (by rw [lift_eq, hh]), run_bind (throwWhen_run (b := !true) rfl), run_bind (m := lift (Snapshot.ofJsonSigned c.env (c.env.parseJson raw) w.img.root.base))
    (by rw [lift_eq, snapshot_run h hr]), run_bind (by rw [modify_eq])]
  exact throwWhen_run (by simp [hv])

theorem verifySnapshot_other {c : Ctx} {raw : String} {w : World}
    (hh : ∀ b, snapshotHashLoop c.env (c.env.canon (c.env.parseJson raw)) false w.img.timestamp.snapshotHashes ≠ .ok b) :
    ∃ e, verifySnapshot c raw w = (.error e, w) ∧ e.isUpt = true := by
  unfold verifySnapshot
  rw [run_bind (by rw [gets_eq])]
  generalize hx : snapshotHashLoop c.env (c.env.canon (c.env.parseJson raw)) false w.img.timestamp.snapshotHashes = x at hh
  cases x with
  | ok b => exact absurd rfl (hh b)
  | error e => exact ⟨e, run_bind_err (by rw [lift_eq]), snapshotHashLoop_upt hx⟩

theorem checkSnapshotExpired_run {c : Ctx} {w : World} (h : Unexpired c w.img.snapshot.expiry) :
    checkSnapshotExpired c w = (.ok (), { w with tick := w.tick + 1 }) := by
  unfold checkSnapshotExpired
  rw [run_bind (by rw [gets_eq]), run_bind (now_run c w)]
  exact throwWhen_run (h _)

theorem updateSnapshot_run {c : Ctx} {w : World} {raw rawT : String} {s : Snapshot}
    (hserved : Served c .image Role.snapshot (-1) (if w.img.timestamp.snapshotSize > 0 then w.img.timestamp.snapshotSize else 64 * 1024) raw)
    (hgen : Genuine c.env w.img.root Role.snapshot raw) (hreads : ReadsAsSnapshot c.env raw s)
    (hT : ReadsAsTimestamp c.env rawT w.img.timestamp) (hvouch : TimestampVouches c.env rawT raw s.version)
    (hv : StatesVersion c.env raw s.version) (h0 : 0 ≤ s.version) (hknown : ToldApart c.env w.db .snapshot raw)
    (hreset : w.img.snapshot.version = -1) (hfresh : Unexpired c s.expiry) (hf : 0 < w.fuel) :
    ∃ w', updateSnapshot c w = (.ok (), w') ∧ RoleDone w w' .snapshot raw ∧ w'.img = { w.img with snapshot := s } := by
  obtain ⟨hver, hloop, hother⟩ := timestamp_hashes hT hvouch
  let w1 : World := { w with img := { w.img with snapshot := s } }
  have hverify : verifySnapshot c raw w = (.ok (), w1) := verifySnapshot_run hgen hreads hver hloop
  -- after fetching
  have hfetch : tryStoredSnapshot c w = (.ok (true, -1), w) →
      ∃ w', updateSnapshot c w = (.ok (), w') ∧ RoleDone w w' .snapshot raw ∧ w'.img = { w.img with snapshot := s } := by
    intro ht
    let w2 : World := { w with tick := w.tick + 1 }
    let w3 : World := { w2 with img := { w2.img with snapshot := s } }
    have hverify2 : verifySnapshot c raw w2 = (.ok (), w3) := verifySnapshot_run hgen hreads hver hloop
    obtain ⟨w4, h4, hd, hi⟩ := compareAndStore_run (w := w3) (lv := -1) (v := s.version) (raw := raw) (type := .snapshot) (by decide) hf (.inr (by omega))
    have hfs : fetchSnapshot c (-1) w = (.ok (), w4) := by
      have hfe : fetchLatestRole c (if w.img.timestamp.snapshotSize > 0 then w.img.timestamp.snapshotSize else kMaxSnapshotSize) .image Role.snapshot w =
          (.ok raw, w2) := hserved.run w
      unfold fetchSnapshot
      rw [run_bind (by rw [gets_eq])]
      rw [run_bind hfe, run_bind (m := lift (extractVersionUntrusted c.env raw)) (by rw [lift_eq, hv.run]), run_bind hverify2]
      exact h4
    refine ⟨{ w4 with tick := w4.tick + 1 }, ?_, ?_, hi⟩
    · unfold updateSnapshot
      rw [run_bind ht]
      simp only [if_true]
      rw [run_bind hfs]
      exact checkSnapshotExpired_run (by rw [hi]; exact hfresh)
    · refine RoleDone.pre (w0 := w3) ?_ rfl rfl rfl rfl
      exact hd.set rfl rfl rfl rfl
  cases hl : w.db.latestOf .image .snapshot with
  | none =>
    refine hfetch ?_
    unfold tryStoredSnapshot
    rw [run_bind (load_none hl)]
    rfl
  | some row =>
    have hs : Stored w.db .image .snapshot row.data := ⟨row, hl, rfl⟩
    rcases hknown _ hs with he | ⟨hne, hap⟩
    · refine ⟨{ w1 with tick := w1.tick + 1 }, ?_, ?_, rfl⟩
      · have ht : tryStoredSnapshot c w = (.ok (false, s.version), w1) := by
          unfold tryStoredSnapshot
          rw [run_bind (load_run hs (by rw [he]; exact hgen.nonempty))]
          simp only
          have : catchUpt (do verifySnapshot c row.data; pure false) (fun _ => pure true) w = (.ok false, w1) := by
            unfold catchUpt
            have : (do verifySnapshot c row.data; pure false : U Bool) w = (.ok false, w1) := by
              rw [he, run_bind hverify]; rfl
            rw [this]
          rw [run_bind this, run_bind (by rw [gets_eq])]
          rfl
        unfold updateSnapshot
        rw [run_bind ht]
        simp only [Bool.false_eq_true, if_false]
        exact checkSnapshotExpired_run hfresh
      · exact ⟨⟨rfl, rfl, fun _ => rfl, rfl, rfl⟩, he ▸ hs, fun _ _ => rfl, Nat.le_succ _⟩
    · refine hfetch ?_
      obtain ⟨e, h1, h2⟩ := verifySnapshot_other (hother row.data hap)
      unfold tryStoredSnapshot
      rw [run_bind (load_run hs hne)]
      simp only
      have : catchUpt (do verifySnapshot c row.data; pure false) (fun _ => pure true) w = (.ok true, w) := by
        unfold catchUpt
        have : (do verifySnapshot c row.data; pure false : U Bool) w = (.error e, w) := run_bind_err h1
        rw [this]
        simp [h2]
      rw [run_bind this, run_bind (by rw [gets_eq]), hreset]
      rfl

theorem verifyTargets_run {c : Ctx} {raw : String} {ts : Targets} {w : World} (h : Genuine c.env w.img.root Role.targets raw)
    (hr : ReadsAsTargets c.env raw ts) (hv : w.img.snapshot.versionOf Role.targets = ts.base.version)
    (hh : roleHashLoop c.env (c.env.canon (c.env.parseJson raw)) (w.img.snapshot.hashesOf Role.targets) = .ok ()) :
    verifyTargets c raw w = (.ok (), { w with img := { w.img with targets := some ts } }) := by
  have hh' : verifyRoleHashes c w.img.snapshot raw Role.targets = .ok () := hh
  unfold verifyTargets
  rw [run_bind (by rw [gets_eq]), run_bind (m := lift (verifyRoleHashes c w.img.snapshot raw Role.targets)) (by rw [lift_eq, hh']),
    run_bind (m := lift (Targets.ofJsonSigned c.env Role.targets (c.env.parseJson raw) w.img.root.base)) (by rw [lift_eq, targets_run h hr]),
    run_bind (by rw [modify_eq])]
  exact throwWhen_run (by simp [hv])

/-- A document with another version than the one listed is refused. -/
theorem verifyTargets_other {c : Ctx} {raw : String} {w : World} {v : Int} (hv : StatesVersion c.env raw v)
    (hne : v ≠ w.img.snapshot.versionOf Role.targets) :
    ∃ e, e.isStd = true ∧ (verifyTargets c raw w = (.error e, w) ∨
      ∃ ts, ts.base.version = v ∧ verifyTargets c raw w = (.error e, { w with img := { w.img with targets := some ts } })) := by
  unfold verifyTargets
  rw [run_bind (by rw [gets_eq])]
  generalize hx : verifyRoleHashes c w.img.snapshot raw Role.targets = x
  cases x with
  | error e => exact ⟨e, roleHashLoop_std hx, .inl (run_bind_err (by rw [lift_eq]))⟩
  | ok u =>
    rw [run_bind (m := lift (Except.ok u)) (by rw [lift_eq])]
    generalize hy : Targets.ofJsonSigned c.env Role.targets (c.env.parseJson raw) w.img.root.base = y
    cases y with
    | error e => exact ⟨e, Tame.targets _ _ _ _ e hy, .inl (run_bind_err (by rw [lift_eq]))⟩
    | ok ts =>
      have hb := (Targets.ofJsonSigned_ok properTargets hy).2.2.version hv
      rw [run_bind (m := lift (Except.ok ts)) (by rw [lift_eq]), run_bind (by rw [modify_eq])]
      refine ⟨.upt (.versionMismatch "targets"), rfl, .inr ⟨ts, ?_, ?_⟩⟩
      · first | exact hb | exact hb.symm
      · unfold throwWhen
        have : (ts.base.version != w.img.snapshot.versionOf Role.targets) = true := by
          have e : ts.base.version = v := by first | exact hb | exact hb.symm
          rw [e]; simpa using hne
        rw [this]
        rfl

theorem checkTargetsExpired_run {c : Ctx} {w : World} {ts : Targets} (ht : w.img.targets = some ts) (h : Unexpired c ts.base.expiry) :
    checkTargetsExpired c w = (.ok (), { w with tick := w.tick + 1 }) := by
  unfold checkTargetsExpired
  rw [run_bind (by rw [gets_eq])]
  simp only [ht]
  rw [run_bind (now_run c w)]
  exact throwWhen_run (h _)

theorem updateTargets_run {c : Ctx} {w : World} {raw rawS : String} {ts : Targets}
    (hserved : Served c .image Role.targets (-1) (8 * 1024 * 1024) raw) (hgen : Genuine c.env w.img.root Role.targets raw)
    (hreads : ReadsAsTargets c.env raw ts) (hS : ReadsAsSnapshot c.env rawS w.img.snapshot)
    (hlist : SnapshotLists c.env rawS "targets" raw ts.base.version) (hnew : Newer c.env w.db .image .targets raw)
    (hreset : w.img.targets = none) (hfresh : Unexpired c ts.base.expiry) (hf : 0 < w.fuel) :
    ∃ w', updateTargets c w = (.ok (), w') ∧ RoleDone w w' .targets raw ∧ w'.img = { w.img with targets := some ts } := by
  obtain ⟨hver, hsize, hloop⟩ := snapshot_lists (role := Role.targets) hS hlist
  obtain ⟨v, hv, hv0, hold⟩ := hnew
  have hvts : ts.base.version = v := by
    have := hreads.version hv
    first | exact this | exact this.symm
  let w1 : World := { w with img := { w.img with targets := some ts } }
  have hverify : verifyTargets c raw w = (.ok (), w1) := verifyTargets_run hgen hreads hver hloop
  have hfetch : ∀ lv o, tryStoredTargets c w = (.ok (true, lv), { w with img := { w.img with targets := o } }) → lv < v →
      ∃ w', updateTargets c w = (.ok (), w') ∧ RoleDone w w' .targets raw ∧ w'.img = { w.img with targets := some ts } := by
    intro lv o ht hlv
    let w0 : World := { w with img := { w.img with targets := o } }
    let w2 : World := { w0 with tick := w0.tick + 1 }
    let w3 : World := { w2 with img := { w2.img with targets := some ts } }
    have hverify2 : verifyTargets c raw w2 = (.ok (), w3) := verifyTargets_run hgen hreads hver hloop
    obtain ⟨w4, h4, hd, hi⟩ := compareAndStore_run (w := w3) (lv := lv) (v := v) (raw := raw) (type := .targets) (by decide) hf (.inr hlv)
    have hfs : fetchTargets c lv w0 = (.ok (), w4) := by
      have hfe : fetchLatestRole c (if w.img.snapshot.sizeOf Role.targets ≤ 0 then kMaxImageTargetsSize else w.img.snapshot.sizeOf Role.targets) .image Role.targets w0 =
          (.ok raw, w2) := by
        rw [if_pos hsize]; exact hserved.run w0
      unfold fetchTargets
      rw [run_bind (by rw [gets_eq])]
      rw [run_bind hfe, run_bind (m := lift (extractVersionUntrusted c.env raw)) (by rw [lift_eq, hv.run]), run_bind hverify2]
      exact h4
    refine ⟨{ w4 with tick := w4.tick + 1 }, ?_, ?_, hi⟩
    · unfold updateTargets
      rw [run_bind ht]
      simp only [if_true]
      rw [run_bind hfs]
      exact checkTargetsExpired_run (ts := ts) (by rw [hi]) hfresh
    · refine RoleDone.pre (w0 := w3) ?_ rfl rfl rfl rfl
      exact hd.set rfl rfl rfl rfl
  cases hl : w.db.latestOf .image .targets with
  | none =>
    refine hfetch (-1) none ?_ (by omega)
    unfold tryStoredTargets
    rw [run_bind (load_none hl), ← hreset]
    rfl
  | some row =>
    have hs : Stored w.db .image .targets row.data := ⟨row, hl, rfl⟩
    rcases hold _ hs with he | ⟨hne, v', hv', hlt⟩
    · refine ⟨{ w1 with tick := w1.tick + 1 }, ?_, ?_, rfl⟩
      · have ht : tryStoredTargets c w = (.ok (false, ts.base.version), w1) := by
          unfold tryStoredTargets
          rw [run_bind (load_run hs (by rw [he]; exact hgen.nonempty))]
          simp only
          have : catchStd (do verifyTargets c row.data; pure false) (fun _ => pure true) w = (.ok false, w1) := by
            unfold catchStd
            have : (do verifyTargets c row.data; pure false : U Bool) w = (.ok false, w1) := by
              rw [he, run_bind hverify]; rfl
            rw [this]
          rw [run_bind this, run_bind (by rw [gets_eq])]
          rfl
        unfold updateTargets
        rw [run_bind ht]
        simp only [Bool.false_eq_true, if_false]
        exact checkTargetsExpired_run rfl hfresh
      · exact ⟨⟨rfl, rfl, fun _ => rfl, rfl, rfl⟩, he ▸ hs, fun _ _ => rfl, Nat.le_succ _⟩
    · have htry : ∀ e o, e.isStd = true → verifyTargets c row.data w = (.error e, { w with img := { w.img with targets := o } }) →
          tryStoredTargets c w = (.ok (true, match o with | some ts => ts.base.version | none => -1), { w with img := { w.img with targets := o } }) := by
        intro e o h1 h2
        unfold tryStoredTargets
        rw [run_bind (load_run hs hne)]
        simp only
        have : catchStd (do verifyTargets c row.data; pure false) (fun _ => pure true) w = (.ok true, { w with img := { w.img with targets := o } }) := by
          unfold catchStd
          have : (do verifyTargets c row.data; pure false : U Bool) w = (.error e, { w with img := { w.img with targets := o } }) := run_bind_err h2
          rw [this]
          simp [h1]
        rw [run_bind this, run_bind (by rw [gets_eq])]
        rfl
      obtain ⟨e, h1, h2 | ⟨told, h3, h2⟩⟩ := verifyTargets_other (w := w) hv' (by rw [hver, hvts]; omega)
      · exact hfetch (-1) none (htry e none h1 (by rw [h2, ← hreset])) (by omega)
      · exact hfetch told.base.version (some told) (htry e (some told) h1 h2) (by omega)

/-- What the check of the Image repository leaves. -/
structure Done (w w' : World) (rootRaw : String) (root : Root) (rawT rawS raw : String) (t : TimestampMeta) (s : Snapshot) (ts : Targets)
    (n : Nat) : Prop where
  img : w'.img = ⟨root, some ts, t, s⟩
  dir : w'.dir = w.dir
  other : ∀ t, w'.db.only .director t = w.db.only .director t
  delegations : w'.db.delegations = w.db.delegations
  newest : ∃ row, w'.db.latestOf .image .root = some row ∧ row.data = rootRaw ∧ row.version ≤ root.base.version + 1
  storedT : Stored w'.db .image .timestamp rawT
  storedS : Stored w'.db .image .snapshot rawS
  stored : Stored w'.db .image .targets raw
  fuel : w.fuel ≤ w'.fuel + n

theorem newer_mono {env : Env} {db db' : MetaDb} {repo : Repo} {type : RoleKind} {raw : String} (h : Newer env db repo type raw)
    (hs : ∀ old, Stored db' repo type old → Stored db repo type old) : Newer env db' repo type raw := by
  obtain ⟨v, h1, h2, h3⟩ := h
  exact ⟨v, h1, h2, fun old ho => h3 old (hs old ho)⟩

theorem stored_only {db db' : MetaDb} {repo : Repo} {type : RoleKind} {raw : String} (h : db'.only repo type = db.only repo type) :
    Stored db' repo type raw ↔ Stored db repo type raw := by
  unfold Stored
  simp only [MetaDb.latestOf_only, h]

/-- The Image repository's genuine metadata is accepted. -/
theorem updateMeta_run {c : Ctx} {w : World} {first : String} {raws : List String} {last : Root} {rawT rawS raw : String}
    {t : TimestampMeta} {s : Snapshot} {ts : Targets} (h : HonestImage c w.db first raws last rawT rawS raw t s ts)
    (hf : 2 * raws.length + 4 ≤ w.fuel) :
    ∃ w', updateMeta c w = (.ok (), w') ∧ Done w w' (lastOf first raws) last rawT rawS raw t s ts (2 * raws.length + 4) := by
  let w0 : World := { w with img := { root := { policy := .acceptAll }, targets := none, timestamp := {}, snapshot := {} } }
  obtain ⟨w1, h1, hr⟩ := updateRoot_run (w := w0) h.roots (by show _ ≤ w.fuel; omega)
  have hf1 := hr.fuel
  have hf0 : w0.fuel = w.fuel := rfl
  have hi1 : w1.img = ⟨last, none, {}, {}⟩ := by
    have a := hr.same
    have : w1.img = ⟨w1.img.root, w1.img.targets, w1.img.timestamp, w1.img.snapshot⟩ := rfl
    rw [this, a.image, a.timestamp, a.snapshot, show w1.img.root = last from hr.root]
  have hd1 : w1.dir = w.dir := by
    have a := hr.same
    have : w1.dir = ⟨w1.dir.root, w1.dir.targets, w1.dir.latest⟩ := rfl
    rw [this, a.targets, a.latest, show w1.dir.root = w.dir.root from a.other .director (by decide)]
  obtain ⟨w2, h2, hd2, hi2⟩ := updateTimestamp_run (w := w1) h.servedT (by rw [hi1]; exact h.genuineT) h.readsT
    (newer_mono h.newerT (fun old ho => hr.stored (by decide) ho)) h.freshT (by omega)
  have hf2 := hd2.fuel
  rw [hi1] at hi2
  obtain ⟨w3, h3, hd3, hi3⟩ := updateSnapshot_run (w := w2) (rawT := rawT) (by rw [hi2]; exact h.servedS) (by rw [hi2]; exact h.genuineS) h.readsS
    (by rw [hi2]; exact h.readsT) h.vouched h.versionS.1 h.versionS.2
    (fun old ho => h.knownS old (hr.stored (by decide) ((stored_only (hd2.rest _ (by decide))).1 ho))) (by rw [hi2]) h.freshS (by omega)
  have hf3 := hd3.fuel
  rw [hi2] at hi3
  obtain ⟨w4, h4, hd4, hi4⟩ := updateTargets_run (w := w3) (rawS := rawS) h.served (by rw [hi3]; exact h.genuine) h.reads
    (by rw [hi3]; exact h.readsS) h.listed
    (newer_mono h.newer (fun old ho => hr.stored (by decide) ((stored_only (hd2.rest _ (by decide))).1 ((stored_only (hd3.rest _ (by decide))).1 ho))))
    (by rw [hi3]) h.fresh (by omega)
  have hf4 := hd4.fuel
  rw [hi3] at hi4
  refine ⟨w4, ?_, ?_⟩
  · unfold updateMeta
    rw [run_bind (m := resetMeta) (w1 := w0) (by unfold resetMeta; rw [modify_eq]), run_bind h1, run_bind h2, run_bind h3]
    exact h4
  · obtain ⟨row, hn1, hn2⟩ := hr.newest
    have ho : OnlyImage w1 w4 := (hd2.only.trans hd3.only).trans hd4.only
    exact {
      img := hi4
      dir := ho.dir.trans hd1
      other := fun t => (ho.other t).trans (hr.other .director t (by decide))
      delegations := ho.delegations.trans hr.delegations
      newest := ⟨row, by rw [MetaDb.latestOf_only, ho.rootRows, ← MetaDb.latestOf_only]; exact hn1, hn2⟩
      storedT := (stored_only (hd4.rest _ (by decide))).2 ((stored_only (hd3.rest _ (by decide))).2 hd2.stored)
      storedS := (stored_only (hd4.rest _ (by decide))).2 hd3.stored
      stored := hd4.stored
      fuel := by omega }

end Image

end Aktualizr
