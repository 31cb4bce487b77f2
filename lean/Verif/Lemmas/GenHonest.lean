import Verif.Lemmas.GenServer
import Verif.Lemmas.HonestImage

/-! # Lemmas on the generator: Targets, Snapshot and Timestamp as the client reads them -/

namespace Aktualizr

open Spec

namespace Gen

theorem toUpper_toLower (c : Char) : c.toLower.toUpper = c.toUpper := by
  unfold Char.toLower
  split
  · rename_i hc
    have hv : 65 ≤ c.val.toNat ∧ c.val.toNat ≤ 90 := ⟨UInt32.le_iff_toNat_le.1 hc.1, UInt32.le_iff_toNat_le.1 hc.2⟩
    have e1 : ('a'.val - 'A'.val).toNat = 32 := by decide
    have e2 : ('A'.val - 'a'.val).toNat = 4294967264 := by decide
    have n1 : ¬ (c.val ≥ 'a'.val ∧ c.val ≤ 'z'.val) := by
      intro h
      have : 97 ≤ c.val.toNat := UInt32.le_iff_toNat_le.1 h.1
      omega
    have n2 : (c.val + ('a'.val - 'A'.val)) ≥ 'a'.val ∧ (c.val + ('a'.val - 'A'.val)) ≤ 'z'.val := by
      constructor
      · refine UInt32.le_iff_toNat_le.2 ?_
        rw [UInt32.toNat_add, e1]
        show 97 ≤ _
        omega
      · refine UInt32.le_iff_toNat_le.2 ?_
        rw [UInt32.toNat_add, e1]
        show _ ≤ 122
        omega
    unfold Char.toUpper
    rw [dif_neg n1]
    rw [dif_pos n2]
    apply Char.ext
    apply UInt32.toNat_inj.1
    show (c.val + ('a'.val - 'A'.val) + ('A'.val - 'a'.val)).toNat = c.val.toNat
    rw [UInt32.toNat_add, UInt32.toNat_add, e1, e2]
    omega
  · rfl

theorem upper_lower (s : String) : upper (lower s) = upper s := by
  have : Char.toUpper ∘ Char.toLower = Char.toUpper := funext toUpper_toLower
  simp [upper, lower, this]

/-! ### Targets -/

theorem parseTargetList_ok : ∀ (l : List (String × Json)), (∀ kv ∈ l, ∃ x, Target.ofJson kv.1 kv.2 = .ok x) → ∃ tl, parseTargetList l = .ok tl
  | [], _ => ⟨[], rfl⟩
  | (k, j) :: l, h => by
    obtain ⟨x, hx⟩ := h _ List.mem_cons_self
    obtain ⟨tl, htl⟩ := parseTargetList_ok l (fun kv hkv => h kv (List.mem_cons_of_mem _ hkv))
    exact ⟨x :: tl, exc_bind_ok.2 ⟨x, hx, exc_bind_ok.2 ⟨tl, htl, rfl⟩⟩⟩

/-- A role entry written by the generator. -/
def Delegates (r : Json) : Prop := ∃ kid name path term,
    r = .obj [("keyids", .arr [.str kid]), ("name", .str name), ("paths", .arr [.str path]), ("terminating", .bool term), ("threshold", .int 1)] ∧
    Role.isReserved (lower name) = false

theorem parseRole_deleg {m : MetaWithKeys} {kid name path : String} {term : Bool} {role : Role} :
    ∃ m', parseRole m (.obj [("keyids", .arr [.str kid]), ("name", .str name), ("paths", .arr [.str path]), ("terminating", .bool term), ("threshold", .int 1)]) role = .ok m' ∧
      m'.version = m.version ∧ m'.expiry = m.expiry := by
  unfold parseRole
  split
  · exact ⟨m, rfl, rfl, rfl⟩
  · exact ⟨_, rfl, rfl, rfl⟩

theorem parseDelegRoles_ok : ∀ (l : List Json) (ts : Targets), (∀ r ∈ l, Delegates r) → ∃ ts', parseDelegRoles ts l = .ok ts' ∧ ts'.base.version = ts.base.version ∧
    ts'.base.expiry = ts.base.expiry ∧ ts'.targets = ts.targets
  | [], ts, _ => ⟨ts, rfl, rfl, rfl, rfl⟩
  | r :: l, ts, h => by
    obtain ⟨kid, name, path, term, rfl, hres⟩ := h r List.mem_cons_self
    obtain ⟨m, hm, hv, he⟩ := parseRole_deleg (m := ts.base) (kid := kid) (name := name) (path := path) (term := term) (role := ⟨.delegation, name⟩)
    obtain ⟨ts', h1, h2, h3, h4⟩ := parseDelegRoles_ok l { ts with
      base := m, delegatedRoleNames := ts.delegatedRoleNames ++ [name], pathsForRole := (name, [path]) :: ts.pathsForRole,
      terminatingRole := (name, term) :: ts.terminatingRole } (fun r hr => h r (List.mem_cons_of_mem _ hr))
    refine ⟨ts', ?_, h2.trans hv, h3.trans he, h4⟩
    unfold parseDelegRoles
    refine exc_bind_ok.2 ⟨_, rfl, exc_bind_ok.2 ⟨name, rfl, exc_bind_ok.2 ⟨⟨.delegation, name⟩, ?_, exc_bind_ok.2 ⟨m, hm, exc_bind_ok.2 ⟨_, rfl,
      exc_bind_ok.2 ⟨[path], rfl, exc_bind_ok.2 ⟨_, rfl, exc_bind_ok.2 ⟨term, rfl, h1⟩⟩⟩⟩⟩⟩⟩⟩
    unfold Role.delegation
    rw [if_neg (by rw [hres]; decide)]

theorem targets_read {g : GenEnv} (hg : Sound g) {keys : List (String × KeyPair)} {role text : String} {j : Json} {v : Int} {e : String} (hw : Wrote g keys role j text)
    (hb : TargetsBody j v e) (hv : v ≤ 2147483647) : ∃ ts, ReadsAsTargets g.env text ts ∧ ts.base.version = v ∧ ts.base.expiry = ⟨e⟩ ∧
      (∀ tj, j.get "targets" = .ok tj → parseTargetList tj.entries = .ok ts.targets) ∧ (j.get "delegations" = .ok .null → ts.delegatedRoleNames = []) := by
  obtain ⟨n, kp, m, -, -, hp⟩ := hw.parse hg
  have hbase := baseInit_of (g := g) (n := n) (kp := kp) (m := m) hb.version hb.range.1 hv hb.expires hb.time
  obtain ⟨tj, t1, t2, t3⟩ := hb.targets
  obtain ⟨tl, htl⟩ := parseTargetList_ok _ t3
  obtain ⟨dl, d1, d2⟩ := hb.delegations
  obtain ⟨c, c1, c2⟩ := hb.custom
  have hdeleg : ∃ ts1 : Targets, (if dl.isObject then do
      let m ← parseKeys g.env { version := v, expiry := ⟨e⟩ } (← dl.get "keys")
      parseDelegRoles { base := m, targets := tl } (← dl.get "roles").elems
    else pure { base := { version := v, expiry := ⟨e⟩ }, targets := tl }) = .ok ts1 ∧ ts1.base.version = v ∧ ts1.base.expiry = ⟨e⟩ ∧ ts1.targets = tl ∧
      (dl = .null → ts1.delegatedRoleNames = []) := by
    rcases d2 with rfl | hd
    · exact ⟨_, rfl, rfl, rfl, rfl, fun _ => rfl⟩
    · obtain ⟨kvs, rfl⟩ := hd.obj
      obtain ⟨ks, k1, -, k3⟩ := hd.keys
      obtain ⟨rs, r1, -, r3⟩ := hd.roles
      obtain ⟨ks', hk, -, -⟩ := parseKeysLoop_ok (env := g.env) ks.entries { version := v, expiry := ⟨e⟩ } k3
      obtain ⟨ts1, hd1, hd2, hd3, hd4⟩ := parseDelegRoles_ok rs.elems { base := { version := v, expiry := ⟨e⟩, keys := ks' }, targets := tl } r3
      refine ⟨ts1, ?_, hd2, hd3, hd4, fun h => by cases h⟩
      rw [show Json.isObject (.obj kvs) = true from rfl, if_pos rfl, k1, exc_bind_of_ok]
      exact exc_bind_ok.2 ⟨_, hk, exc_bind_ok.2 ⟨rs, r1, hd1⟩⟩
  obtain ⟨ts1, hd1, hd2, hd3, hd4, hd5⟩ := hdeleg
  have hcid : ∃ s, (if c.isObject then do (← c.get "correlationId").asString else pure "" : Except Err String) = .ok s := by
    rcases c2 with rfl | ⟨l, cid, s, rfl, c3, c4⟩
    · exact ⟨"", rfl⟩
    · refine ⟨s, ?_⟩
      rw [show Json.isObject (.obj l) = true from rfl, if_pos rfl]
      exact exc_bind_ok.2 ⟨cid, c3, c4⟩
  obtain ⟨s, hs⟩ := hcid
  refine ⟨{ ts1 with correlationId := s }, ⟨v, ⟨e⟩, by rw [hp]; exact hbase, ?_⟩, hd2, hd3, ?_, ?_⟩
  · rw [hp]
    unfold targetsInit
    refine exc_bind_ok.2 ⟨(), rfl, exc_bind_ok.2 ⟨j, docOf_signed .., exc_bind_ok.2 ⟨_, hb.type, exc_bind_ok.2 ⟨(), ?_, exc_bind_ok.2 ⟨tj, t1, exc_bind_ok.2 ⟨tl, htl,
      exc_bind_ok.2 ⟨dl, d1, exc_bind_ok.2 ⟨ts1, hd1, exc_bind_ok.2 ⟨c, c1, exc_bind_ok.2 ⟨s, hs, rfl⟩⟩⟩⟩⟩⟩⟩⟩⟩⟩
    rfl
  · intro tj' htj'
    rw [t1] at htj'
    cases htj'
    show _ = Except.ok ts1.targets
    rw [hd4]; exact htl
  · intro hdn
    rw [d1] at hdn
    cases hdn
    exact hd5 rfl

/-! ### Snapshot and Timestamp -/

theorem asInt_of {v : Int} (h0 : 0 ≤ v) (h1 : v ≤ 2147483647) : (Json.int v).asInt = .ok v := by
  unfold Json.asInt Json.asIntIn
  exact if_pos ⟨by omega, h1⟩

/-- An entry of a Snapshot that can be read. -/
def Entry (kj : String × Json) : Prop :=
  (∃ name, kj.1 = name ++ ".json" ∧ (Role.isReserved name = true ∨ ∃ role, Role.delegation name = .ok role)) ∧
  ∃ h l v, kj.2 = .obj (h ++ l ++ [("version", .int v)]) ∧ 0 ≤ v ∧ v ≤ 2147483647 ∧
    (h = [] ∨ ∃ a b : String, h = [("hashes", .obj [("sha256", .str a), ("sha512", .str b)])]) ∧ (l = [] ∨ ∃ i : Int, l = [("length", .int i)])

theorem Entry.gets {kj : String × Json} (h : Entry kj) : ∃ hashes size v, kj.2.get "hashes" = .ok hashes ∧ kj.2.get "length" = .ok size ∧
    kj.2.get "version" = .ok (.int v) ∧ 0 ≤ v ∧ v ≤ 2147483647 ∧ size.isObject = false ∧
    (∃ hs, (if hashes.isObject then parseHashes hashes.entries else pure [] : Except Err (List Hash)) = .ok hs) := by
  obtain ⟨-, h, l, v, h1, h2, h3, h4, h5⟩ := h
  rw [h1]
  rcases h4 with rfl | ⟨a, b, rfl⟩ <;> rcases h5 with rfl | ⟨i, rfl⟩ <;> exact ⟨_, _, v, rfl, rfl, rfl, h2, h3, rfl, _, rfl⟩

theorem snapshotLoop_reads : ∀ (l : List (String × Json)) (s : Snapshot), (∀ kj ∈ l, Entry kj) → ∃ s', snapshotLoop s l = .ok s' ∧ s'.version = s.version ∧ s'.expiry = s.expiry
  | [], s, _ => ⟨s, rfl, rfl, rfl⟩
  | kj :: l, s, h => by
    have he := h _ List.mem_cons_self
    obtain ⟨hashes, size, v, g1, g2, g3, g4, g5, g6, hs, g7⟩ := he.gets
    obtain ⟨⟨name, hn, hr⟩, -⟩ := he
    obtain ⟨k, j⟩ := kj
    have hn : k = name ++ ".json" := hn
    subst hn
    obtain ⟨role, hrole⟩ : ∃ role, (if Role.isReserved name then pure (Role.ofName name) else Role.delegation name : Except Err Role) = .ok role := by
      by_cases hres : Role.isReserved name = true
      · exact ⟨_, if_pos hres⟩
      · rcases hr with hr | ⟨role, hr⟩
        · exact absurd hr hres
        · exact ⟨role, by rw [if_neg hres]; exact hr⟩
    obtain ⟨s', h1, h2, h3⟩ := snapshotLoop_reads l { s with
      roleVersion := (role.name, v) :: s.roleVersion
      roleSize := (role.name, -1) :: s.roleSize
      roleHashes := if hashes.isObject && hs ≠ [] then (role.name, ((s.roleHashes.lookup role.name).getD []) ++ hs) :: s.roleHashes else s.roleHashes }
      (fun kj hkj => h kj (List.mem_cons_of_mem _ hkj))
    refine ⟨s', ?_, h2, h3⟩
    unfold snapshotLoop
    refine exc_bind_ok.2 ⟨hashes, g1, exc_bind_ok.2 ⟨size, g2, exc_bind_ok.2 ⟨_, g3, exc_bind_ok.2 ⟨(), rfl, exc_bind_ok.2 ⟨role, ?_, exc_bind_ok.2 ⟨v, asInt_of g4 g5,
      exc_bind_ok.2 ⟨-1, ?_, exc_bind_ok.2 ⟨hs, g7, h1⟩⟩⟩⟩⟩⟩⟩⟩
    · rw [stripExtension_json]; exact hrole
    · rw [g6]; rfl

theorem metaTrue_entry {g : GenEnv} {d : Dir} {m : List (String × Json)} (h : MetaTrue g d m)
    (hv : ∀ p j v, d.signed g p = .ok j → j.get "version" = .ok (.int v) → v ≤ 2147483647) : ∀ kj ∈ m, Entry kj := by
  intro kj hkj
  rcases h kj hkj with ⟨h1, hh, l, v, h2, ⟨j, r1, r2, r3, -⟩, h4, h5⟩ | ⟨role, v, hrole, h1, h2, h3⟩
  · exact ⟨⟨"root", h1, .inl rfl⟩, hh, l, v, h2, r3, hv _ _ _ r1 r2, h4, h5⟩
  · refine ⟨⟨role.name, h1, ?_⟩, [], [], v, h2, ?_, ?_, .inl rfl, .inl rfl⟩
    · rcases hrole with rfl | hrole
      · exact .inl rfl
      · exact .inr ⟨_, hrole⟩
    · rcases h3 with ⟨j, -, -, h0, -⟩ | ⟨-, rfl⟩
      · exact h0
      · exact Int.le_refl _
    · rcases h3 with ⟨j, h1, h2, h0, -⟩ | ⟨-, rfl⟩
      · exact hv _ _ _ h1 h2
      · decide

theorem snapshot_read {g : GenEnv} (hg : Sound g) {keys : List (String × KeyPair)} {text e : String} {m : List (String × Json)} {v : Int} {signer : Root}
    (hw : Wrote g keys "snapshot" (snapshotWith e m v) text) (hgen : Genuine g.env signer Role.snapshot text) (ht : IsTime e) (h0 : 0 ≤ v) (h1 : v ≤ 2147483647)
    (hm : ∀ kj ∈ m, Entry kj) : ∃ s, ReadsAsSnapshot g.env text s ∧ s.version = v ∧ s.expiry = ⟨e⟩ := by
  obtain ⟨n, kp, mm, -, -, hp⟩ := hw.parse hg
  have hbase : baseInit (g.env.parseJson text) = .ok (v, ⟨e⟩) := by rw [hp]; exact baseInit_of (j := snapshotWith e m v) rfl h0 h1 rfl ht
  obtain ⟨s, s1, s2, s3⟩ := snapshotLoop_reads m { version := v, expiry := ⟨e⟩ } hm
  refine ⟨s, ⟨signer.base, ?_⟩, s2, s3⟩
  unfold Snapshot.ofJsonSigned
  rw [baseMetaSigned_run hgen properSnapshot hbase, hp]
  exact s1

theorem timestamp_read {g : GenEnv} (hg : Sound g) {keys : List (String × KeyPair)} {text textS e : String} {w v : Int} {signer : Root}
    (hw : Wrote g keys "timestamp" (timestampWith e (.str (lower (g.env.sha256 textS))) (.str (lower (g.env.sha512 textS)))
      (.int ((textS.utf8ByteSize : Int) % 4294967296)) (.int w) v) text)
    (hgen : Genuine g.env signer Role.timestamp text) (ht : IsTime e) (h0 : 0 ≤ v) (h1 : v ≤ 2147483647) (w0 : 0 ≤ w) (w1 : w ≤ 2147483647)
    (hs : textS.utf8ByteSize < 2 ^ 31) : ∃ t, ReadsAsTimestamp g.env text t ∧ t.version = v ∧ t.expiry = ⟨e⟩ ∧ t.snapshotSize = textS.utf8ByteSize := by
  obtain ⟨n, kp, mm, -, -, hp⟩ := hw.parse hg
  have hbase : baseInit (g.env.parseJson text) = .ok (v, ⟨e⟩) := by rw [hp]; exact baseInit_of (j := timestampWith e _ _ _ _ v) rfl h0 h1 rfl ht
  have hmod : (textS.utf8ByteSize : Int) % 4294967296 = textS.utf8ByteSize := by omega
  refine ⟨⟨v, ⟨e⟩, [Hash.ofStrings "sha256" (lower (g.env.sha256 textS)), Hash.ofStrings "sha512" (lower (g.env.sha512 textS))], textS.utf8ByteSize, w⟩,
    ⟨signer.base, ?_⟩, rfl, rfl, rfl⟩
  · unfold TimestampMeta.ofJsonSigned
    rw [baseMetaSigned_run hgen properTimestamp hbase, hp, hmod]
    refine exc_bind_ok.2 ⟨_, rfl, exc_bind_ok.2 ⟨_, docOf_signed .., exc_bind_ok.2 ⟨_, rfl, exc_bind_ok.2 ⟨_, rfl, exc_bind_ok.2 ⟨_, rfl, exc_bind_ok.2 ⟨_, rfl,
      exc_bind_ok.2 ⟨_, rfl, exc_bind_ok.2 ⟨_, rfl, exc_bind_ok.2 ⟨(), rfl, exc_bind_ok.2 ⟨_, rfl, exc_bind_ok.2 ⟨_, asInt_of (by omega) (by omega),
      exc_bind_ok.2 ⟨_, asInt_of w0 w1, rfl⟩⟩⟩⟩⟩⟩⟩⟩⟩⟩⟩⟩

theorem timestamp_vouches {g : GenEnv} (hg : Sound g) {keys : List (String × KeyPair)} {text textS e es : String} {w v : Int} {m : List (String × Json)}
    (hw : Wrote g keys "timestamp" (timestampWith e (.str (lower (g.env.sha256 textS))) (.str (lower (g.env.sha512 textS)))
      (.int ((textS.utf8ByteSize : Int) % 4294967296)) (.int w) v) text)
    (hws : Wrote g keys "snapshot" (snapshotWith es m w) textS) (w0 : 0 ≤ w) (w1 : w ≤ 2147483647) : TimestampVouches g.env text textS w := by
  obtain ⟨n, kp, mm, -, -, hp⟩ := hw.parse hg
  refine ⟨_, _, _, ⟨_, hw.signed hg, _, rfl, _, rfl, rfl⟩, rfl, ?_, ⟨_, List.mem_cons_self, .inl rfl⟩, rfl, asInt_of w0 w1⟩
  intro kj hkj _
  have hkj : kj = ("sha256", .str (lower (g.env.sha256 textS))) ∨ kj = ("sha512", .str (lower (g.env.sha512 textS))) := by
    simpa [Json.entries] using hkj
  rcases hkj with rfl | rfl
  · exact ⟨_, rfl, by rw [upper_lower]; unfold digest; rw [hws.canon_parse hg]; rfl⟩
  · exact ⟨_, rfl, by rw [upper_lower]; unfold digest; rw [hws.canon_parse hg]; rfl⟩

theorem snapshot_lists {g : GenEnv} (hg : Sound g) {d : Dir} {keys : List (String × KeyPair)} {textS e raw : String} {w v : Int} {m : List (String × Json)}
    (hws : Wrote g keys "snapshot" (snapshotWith e m w) textS) (hm : MetaTrue g d m) (hx : ∃ x, m.lookup "targets.json" = some x) {j : Json}
    (hj : d.signed g .targets = .ok j) (hv : j.get "version" = .ok (.int v)) (h0 : 0 ≤ v) (h1 : v ≤ 2147483647) : SnapshotLists g.env textS "targets" raw v := by
  obtain ⟨x, hx⟩ := hx
  have hmem : ("targets.json", x) ∈ m := by
    clear hm hws
    induction m with
    | nil => cases hx
    | cons a m ih =>
      rw [List.lookup_cons] at hx
      by_cases hk : "targets.json" = a.1
      · rw [hk, beq_self_eq_true] at hx
        injection hx with hx
        rw [hk, ← hx]
        exact List.mem_cons_self
      · rw [beq_false_of_ne hk] at hx
        exact List.mem_cons_of_mem _ (ih hx)
  refine ⟨.obj m, ⟨_, hws.signed hg, _, rfl, rfl⟩, ⟨_, hmem, stripExtension_json "targets"⟩, ?_⟩
  intro kj hkj hname
  rcases hm kj hkj with ⟨hk, _⟩ | ⟨role, v', hrole, hk, hobj, hh⟩
  · rw [hk] at hname
    exact absurd hname (by decide)
  · rw [hk, stripExtension_json] at hname
    have hrt : role = Role.targets := by
      rcases hrole with h | h
      · exact h
      · rw [hname] at h
        exact absurd h (by intro h; cases h)
    subst hrt
    have hvv : v' = v := by
      rcases hh with ⟨j', a1, a2, -⟩ | ⟨hn, -⟩
      · have a1 : d.signed g .targets = .ok j' := a1
        rw [hj] at a1
        cases a1
        rw [hv] at a2
        cases a2
        rfl
      · have hn : d.files.lookup .targets = none := hn
        unfold Dir.signed Dir.json at hj
        rw [hn] at hj
        cases hj
        cases hv
    subst hvv
    rw [hobj]
    exact ⟨⟨.null, rfl, fun kj hkj => by cases hkj⟩, _, rfl, asInt_of h0 h1⟩

/-! ### Versions -/

theorem states {g : GenEnv} (hg : Sound g) {keys : List (String × KeyPair)} {role text : String} {j : Json} {v : Int} (hw : Wrote g keys role j text)
    (hv : j.get "version" = .ok (.int v)) (h0 : 0 ≤ v) (h1 : v ≤ 2147483647) : StatesVersion g.env text v :=
  ⟨j, _, hw.signed hg, hv, rfl, asInt_of h0 h1⟩

/-- What the device holds of a role, compared with what is published. -/
def Behind (g : GenEnv) (p : Path) (d : Dir) (old : String) : Prop :=
  d.files.lookup p = some old ∨ (old ≠ "" ∧ ∃ v v' j, (g.env.parseJson old).get "signed" = .ok j ∧ j.get "version" = .ok (.int v) ∧ 0 ≤ v ∧
    VersionAt g d p v' ∧ v < v')

theorem Behind.of_later {g : GenEnv} {p : Path} {d d' : Dir} {old : String} (hl : Later g p d d') (hf : d.files.lookup p = some old) (hne : old ≠ "") : Behind g p d' old := by
  rcases hl with h | ⟨v, v', ⟨j, h1, h2, h3, -⟩, hv', hlt⟩
  · exact .inl (h.trans hf)
  · refine .inr ⟨hne, v, v', j, ?_, h2, h3, hv', hlt⟩
    unfold Dir.signed Dir.json at h1
    rw [hf] at h1
    exact h1

theorem newer_of {g : GenEnv} (hg : Sound g) {d : Dir} {p : Path} {keys : List (String × KeyPair)} {role text : String} {j : Json} {v : Int} (hw : Wrote g keys role j text)
    (hf : d.files.lookup p = some text) (hv : j.get "version" = .ok (.int v)) (h0 : 0 ≤ v) (h1 : v ≤ 2147483647) {db : MetaDb} {repo : Repo} {type : RoleKind}
    (hold : ∀ old, Stored db repo type old → Behind g p d old) : Newer g.env db repo type text := by
  refine ⟨v, states hg hw hv h0 h1, h0, fun old ho => ?_⟩
  rcases hold old ho with h | ⟨hne, v0, v', j0, a1, a2, a3, ⟨j', b1, b2, -⟩, hlt⟩
  · rw [hf] at h
    cases h
    exact .inl rfl
  · rw [Dir.signed_of hg hf hw] at b1
    cases b1
    rw [hv] at b2
    cases b2
    exact .inr ⟨hne, v0, ⟨j0, _, a1, a2, rfl, asInt_of a3 (by omega)⟩, hlt⟩

/-- The newest Root the device holds is one of the published ones. -/
def HoldsRoot (db : MetaDb) (repo : Repo) (d : Dir) : Prop :=
  db.latestOf repo .root = none ∨ ∃ row k, db.latestOf repo .root = some row ∧ d.files.lookup (.numbered k) = some row.data ∧ row.version ≤ k + 1

theorem holdsRoot_start {g : GenEnv} {d : Dir} {tab : List (String × Json)} {top : Int} (hr : RootFiles g d tab top) {db : MetaDb} {repo : Repo} (h : HoldsRoot db repo d) :
    ∃ k first, 1 ≤ k ∧ k ≤ top ∧ d.files.lookup (.numbered k) = some first ∧
      ((∃ row, db.latestOf repo .root = some row ∧ row.data = first ∧ row.version ≤ k + 1) ∨ (db.latestOf repo .root = none ∧ k = 1)) := by
  rcases h with h | ⟨row, k, h1, h2, h3⟩
  · obtain ⟨e, text, a1, -⟩ := hr.all 1 (by omega) hr.one
    exact ⟨1, text, by omega, hr.one, a1, .inr ⟨h, rfl⟩⟩
  · have hk : ¬ (k < 1 ∨ top < k) := by
      intro hk
      rw [hr.none _ hk] at h2
      cases h2
    exact ⟨k, row.data, by omega, by omega, h2, .inl ⟨row, h1, rfl, h3⟩⟩

theorem honest_director {g : GenEnv} (hg : Sound g) {c : Ctx} (hce : c.env = g.env) {db : MetaDb} {d : Dir} (hd : Fine g d) (hpl : Plain g d)
    (hl : WithinLimits c g .director d) (hp : Publishes c .director d) (hroot : HoldsRoot db .director d)
    (hold : ∀ old, Stored db .director .targets old → Behind g .targets d old) {raw : String} {ts : Targets} (hraw : d.files.lookup .targets = some raw)
    (hts : ReadsAsTargets c.env raw ts) (hsome : ts.targets ≠ []) (honce : EcusOnce ts) :
    ∃ first raws last top, HonestDirector c db first raws last raw ts ∧ d.files.lookup (.numbered top) = some (lastOf first raws) ∧
      last.base.version = top ∧ raws.length < 1000 := by
  obtain ⟨tab, top, hr⟩ := hd.base.roots
  obtain ⟨k, first, k1, k2, k3, k4⟩ := holdsRoot_start hr hroot
  obtain ⟨raws, ks, e, r1, r2, r3, r4⟩ := honest_roots hg hce hd.base hl hp hr k1 k2 k3 k4
  obtain ⟨text, j, v, e', t1, t2, t3⟩ := hd.base.targets
  rw [hraw] at t1
  cases t1
  have hj := Dir.signed_of hg hraw t2
  have hv := hl.versions _ _ _ hj t3.version
  obtain ⟨ts', x1, x2, x3, -, x5⟩ := targets_read hg t2 t3 hv
  have hte : ts' = ts := by
    obtain ⟨a, b, p1, p2⟩ := hts
    obtain ⟨a', b', q1, q2⟩ := x1
    rw [hce, q1] at p1
    cases p1
    rw [hce, q2] at p2
    cases p2
    rfl
  subst hte
  have htop : top < 1000 := by
    obtain ⟨_, text', a1, -⟩ := hr.all top hr.one (Int.le_refl _)
    exact (hl.roots _ _ a1).1
  refine ⟨first, raws, _, top, ⟨r1, ⟨fun n => (hp.targets n).trans hraw, ?_⟩, ?_, hts, ?_, ?_, hsome, ?_, honce⟩, hr.last.symm.trans r3, rfl, by omega⟩
  · have := hl.targets _ hraw
    simp only at this
    omega
  · rw [hce]; exact genuine_of hg hd.base.good hr.table r4 (role := Role.targets) (by simp) (T := "Targets") t3.type (by decide) t2
  · rw [hce]; exact newer_of hg t2 hraw t3.version t3.range.1 hv hold
  · rw [x3]; exact hl.fresh .targets (by simp) j e' hj t3.expires
  · exact x5 (hpl.targets j hj)

theorem honest_image {g : GenEnv} (hg : Sound g) {c : Ctx} (hce : c.env = g.env) {db : MetaDb} {d : Dir} (hd : Fine g d)
    (hl : WithinLimits c g .image d) (hp : Publishes c .image d) (hroot : HoldsRoot db .image d)
    (holdT : ∀ old, Stored db .image .timestamp old → Behind g .timestamp d old)
    (holdS : ∀ old rawS, Stored db .image .snapshot old → d.files.lookup .snapshot = some rawS → old = rawS ∨
      (old ≠ "" ∧ ∀ alg, upper (digest g.env alg old) ≠ upper (digest g.env alg rawS)))
    (hold : ∀ old, Stored db .image .targets old → Behind g .targets d old) {raw : String} {ts : Targets} (hraw : d.files.lookup .targets = some raw)
    (hts : ReadsAsTargets c.env raw ts) :
    ∃ first raws last rawT rawS t s top, HonestImage c db first raws last rawT rawS raw t s ts ∧ d.files.lookup (.numbered top) = some (lastOf first raws) ∧
      last.base.version = top ∧
      d.files.lookup .timestamp = some rawT ∧ d.files.lookup .snapshot = some rawS ∧ raws.length < 1000 := by
  obtain ⟨tab, top, hr⟩ := hd.base.roots
  obtain ⟨k, first, k1, k2, k3, k4⟩ := holdsRoot_start hr hroot
  obtain ⟨raws, ks, e, r1, r2, r3, r4⟩ := honest_roots hg hce hd.base hl hp hr k1 k2 k3 k4
  obtain ⟨text, j, v, e', t1, t2, t3⟩ := hd.base.targets
  rw [hraw] at t1
  cases t1
  have hj := Dir.signed_of hg hraw t2
  have hv := hl.versions _ _ _ hj t3.version
  obtain ⟨ts', x1, x2, x3, -, x5⟩ := targets_read hg t2 t3 hv
  have hte : ts' = ts := by
    obtain ⟨a, b, p1, p2⟩ := hts
    obtain ⟨a', b', q1, q2⟩ := x1
    rw [hce, q1] at p1
    cases p1
    rw [hce, q2] at p2
    cases p2
    rfl
  subst hte
  have htop : top < 1000 := by
    obtain ⟨_, text', a1, -⟩ := hr.all top hr.one (Int.le_refl _)
    exact (hl.roots _ _ a1).1
  obtain ⟨rawS, m, vs, es, rawT, vt, et, s1, s2, s3, s4, s5, s6⟩ := hd.synced
  have htimeS : IsTime es ∧ 0 ≤ vs := by
    obtain ⟨text, m', v', f', a1, a2, a3, a4, -⟩ := hd.base.snapshot
    rw [s1] at a1
    cases a1
    have := (s2.signed hg).symm.trans (a2.signed hg)
    injection this with this
    unfold snapshotWith at this
    simp only [Json.obj.injEq, List.cons.injEq, Prod.mk.injEq, Json.str.injEq, Json.int.injEq, true_and, and_true] at this
    obtain ⟨rfl, -, rfl⟩ := this
    exact ⟨a3, a4⟩
  have htimeT : IsTime et ∧ 0 ≤ vt := by
    obtain ⟨text, _, _, _, _, v', f', a1, a2, a3, a4, -⟩ := hd.base.timestamp
    rw [s5] at a1
    cases a1
    have := (s6.signed hg).symm.trans (a2.signed hg)
    injection this with this
    unfold timestampWith at this
    simp only [Json.obj.injEq, List.cons.injEq, Prod.mk.injEq, Json.str.injEq, Json.int.injEq, true_and, and_true] at this
    obtain ⟨rfl, -, rfl⟩ := this
    exact ⟨a3, a4⟩
  have hjS := Dir.signed_of hg s1 s2
  have hjT := Dir.signed_of hg s5 s6
  have hvs : vs ≤ 2147483647 := hl.versions _ _ _ hjS rfl
  have hvt : vt ≤ 2147483647 := hl.versions _ _ _ hjT rfl
  have hgS : Genuine g.env (rootRead g d.keys ks top e) Role.snapshot rawS :=
    genuine_of hg hd.base.good hr.table r4 (role := Role.snapshot) (by simp) (T := "Snapshot") rfl (by decide) s2
  have hgT : Genuine g.env (rootRead g d.keys ks top e) Role.timestamp rawT :=
    genuine_of hg hd.base.good hr.table r4 (role := Role.timestamp) (by simp) (T := "Timestamp") rfl (by decide) s6
  have hsize := hl.snapshot _ s1
  obtain ⟨s, y1, y2, y3⟩ := snapshot_read hg s2 hgS htimeS.1 htimeS.2 hvs (metaTrue_entry s3 hl.versions)
  obtain ⟨t, z1, z2, z3, z4⟩ := timestamp_read hg s6 hgT htimeT.1 htimeT.2 hvt htimeS.2 hvs hsize
  refine ⟨first, raws, _, rawT, rawS, t, s, top, ⟨r1, ⟨fun n => (hp.timestamp n).trans s5, ?_⟩, hce ▸ hgT, hce ▸ z1, ?_, ?_,
    ⟨fun n => (hp.snapshot n).trans s1, ?_⟩, hce ▸ hgS, hce ▸ y1, ?_, ?_, ?_, ?_,
    ⟨fun n => (hp.targets n).trans hraw, ?_⟩, ?_, hts, ?_, ?_, ?_⟩, hr.last.symm.trans r3, rfl, s5, s1, by omega⟩
  · have := hl.timestamp _ s5
    omega
  · rw [hce]; exact newer_of hg s6 s5 rfl htimeT.2 hvt holdT
  · rw [z3]; exact hl.fresh .timestamp (by simp) _ et hjT rfl
  · rw [z4]
    have hpos : rawS ≠ "" := hgS.nonempty
    have : rawS.utf8ByteSize ≠ 0 := fun h => hpos (String.utf8ByteSize_eq_zero_iff.1 h)
    rw [if_pos (by omega)]
    omega
  · rw [hce, y2]; exact timestamp_vouches hg s6 s2 htimeS.2 hvs
  · rw [hce, y2]; exact ⟨states hg s2 rfl htimeS.2 hvs, htimeS.2⟩
  · rw [hce]; exact fun old ho => holdS old rawS ho s1
  · rw [y3]; exact hl.fresh .snapshot (by simp) _ es hjS rfl
  · have := hl.targets _ hraw
    simp only at this
    omega
  · rw [hce]; exact genuine_of hg hd.base.good hr.table r4 (role := Role.targets) (by simp) (T := "Targets") t3.type (by decide) t2
  · rw [hce, x2]; exact snapshot_lists hg s2 s3 (s4 _ (.refl _)) hj t3.version t3.range.1 hv
  · rw [hce]; exact newer_of hg t2 hraw t3.version t3.range.1 hv hold
  · rw [x3]; exact hl.fresh .targets (by simp) j e' hj t3.expires

end Gen

end Aktualizr
