import Verif.Spec.Honest
import Verif.Lemmas.ImageUpdate
import Verif.Lemmas.Hashes
import Verif.Lemmas.Tame

/-! Running the checks forward, against repositories that offer genuine metadata. -/

namespace Aktualizr

open M Spec

/-! ### Single steps -/

theorem Spec.Served.run {c : Ctx} {repo : Repo} {role : Role} {v max : Int} {raw : String} (h : Served c repo role v max raw) (w : World) :
    fetchRole c max repo role v w = (.ok raw, { w with tick := w.tick + 1 }) := by
  unfold fetchRole
  simp only [h.answer, if_pos (Or.inr h.size)]

theorem write_run {f : MetaDb → MetaDb} {w : World} (h : 0 < w.fuel) :
    write f w = (.ok (), { w with db := f w.db, fuel := w.fuel - 1 }) := by
  unfold write
  cases hf : w.fuel with
  | zero => omega
  | succ n => rfl

theorem throwWhen_run {σ : Type} {b : Bool} {e : Err} {w : σ} (h : b = false) : (throwWhen b e : M σ Unit) w = (.ok (), w) := by
  subst h; rfl

theorem readBlob_run {s : String} {w : World} (h : s ≠ "") : readBlob (some s) w = (.ok (some s), w) := by
  simp [readBlob, h]

theorem load_run {repo : Repo} {type : RoleKind} {w : World} {raw : String} (h : Stored w.db repo type raw) (hne : raw ≠ "") :
    loadNonRoot repo type w = (.ok (some raw), w) := by
  obtain ⟨row, h1, rfl⟩ := h
  unfold loadNonRoot
  rw [h1]
  exact readBlob_run hne

theorem load_none {repo : Repo} {type : RoleKind} {w : World} (h : w.db.latestOf repo type = none) :
    loadNonRoot repo type w = (.ok none, w) := by
  unfold loadNonRoot
  rw [h]
  rfl

theorem now_run (c : Ctx) (w : World) : now c w = (.ok (c.clock w.tick), { w with tick := w.tick + 1 }) := rfl

/-! ### Verification of genuine documents -/

theorem Spec.Genuine.unpack {env : Env} {root : Root} {role : Role} {raw : String} (h : Genuine env root role raw) (hr : ProperRole role) :
    unpackSignedObject env root.base role (env.parseJson raw) = .ok () :=
  C01_signed_is_accepted env root.base role _ hr h.signed.1 h.signed.2 h.format

theorem baseMetaSigned_run {env : Env} {root : Root} {role : Role} {raw : String} (h : Genuine env root role raw) (hr : ProperRole role)
    {p : Int × TimeStamp} (hb : baseInit (env.parseJson raw) = .ok p) :
    baseMetaSigned env role (env.parseJson raw) root.base = .ok p := by
  have hb' := hb
  unfold baseInit at hb'
  simp only [exc_bind_ok, throwIf_ok] at hb'
  obtain ⟨_, h1, b, h2, _, h3, _⟩ := hb'
  unfold baseMetaSigned
  simp only [exc_bind_ok, throwIf_ok]
  exact ⟨(), h1, b, h2, (), h3, (), h.unpack hr, hb⟩

theorem targets_run {env : Env} {root : Root} {raw : String} {ts : Targets} (h : Genuine env root Role.targets raw)
    (hr : ReadsAsTargets env raw ts) : Targets.ofJsonSigned env Role.targets (env.parseJson raw) root.base = .ok ts := by
  obtain ⟨v, e, h1, h2⟩ := hr
  unfold Targets.ofJsonSigned
  rw [baseMetaSigned_run h properTargets h1]
  exact h2

theorem timestamp_run {env : Env} {root : Root} {raw : String} {t : TimestampMeta} (h : Genuine env root Role.timestamp raw)
    (hr : ReadsAsTimestamp env raw t) : TimestampMeta.ofJsonSigned env (env.parseJson raw) root.base = .ok t := by
  obtain ⟨signer, hs⟩ := hr
  unfold TimestampMeta.ofJsonSigned at hs ⊢
  cases hb : baseMetaSigned env Role.timestamp (env.parseJson raw) signer with
  | error e => rw [hb] at hs; simp at hs
  | ok p =>
    rw [hb] at hs
    rw [baseMetaSigned_run h properTimestamp (baseMetaSigned_ok properTimestamp hb).2.2]
    exact hs

theorem snapshot_run {env : Env} {root : Root} {raw : String} {s : Snapshot} (h : Genuine env root Role.snapshot raw)
    (hr : ReadsAsSnapshot env raw s) : Snapshot.ofJsonSigned env (env.parseJson raw) root.base = .ok s := by
  obtain ⟨signer, hs⟩ := hr
  unfold Snapshot.ofJsonSigned at hs ⊢
  cases hb : baseMetaSigned env Role.snapshot (env.parseJson raw) signer with
  | error e => rw [hb] at hs; simp at hs
  | ok p =>
    rw [hb] at hs
    rw [baseMetaSigned_run h properSnapshot (baseMetaSigned_ok properSnapshot hb).2.2]
    exact hs

/-! ### Roots -/

theorem setRoot_fuel (repo : Repo) (r : Root) (w : World) : (setRoot repo r w).fuel = w.fuel := by cases repo <;> rfl
theorem setRoot_tick (repo : Repo) (r : Root) (w : World) : (setRoot repo r w).tick = w.tick := by cases repo <;> rfl

/-- Everything but the Root in use (of `repo`), the database, fuel and tick is as before. -/
structure SameButRoot (repo : Repo) (w w' : World) : Prop where
  targets : w'.dir.targets = w.dir.targets
  latest : w'.dir.latest = w.dir.latest
  image : w'.img.targets = w.img.targets
  timestamp : w'.img.timestamp = w.img.timestamp
  snapshot : w'.img.snapshot = w.img.snapshot
  other : ∀ repo', repo' ≠ repo → getRoot repo' w' = getRoot repo' w

theorem sameButRoot_refl (repo : Repo) (w : World) : SameButRoot repo w w := ⟨rfl, rfl, rfl, rfl, rfl, fun _ _ => rfl⟩

theorem SameButRoot.trans {repo : Repo} {a b c : World} (h1 : SameButRoot repo a b) (h2 : SameButRoot repo b c) : SameButRoot repo a c :=
  ⟨h2.1.trans h1.1, h2.2.trans h1.2, h2.3.trans h1.3, h2.4.trans h1.4, h2.5.trans h1.5, fun r hr => (h2.6 r hr).trans (h1.6 r hr)⟩

theorem sameButRoot_set (repo : Repo) (r : Root) (w : World) : SameButRoot repo w (setRoot repo r w) := by
  cases repo
  · exact ⟨rfl, rfl, rfl, rfl, rfl, fun r hr => by cases r <;> first | rfl | exact absurd rfl hr⟩
  · exact ⟨rfl, rfl, rfl, rfl, rfl, fun r hr => by cases r <;> first | rfl | exact absurd rfl hr⟩

theorem initRoot_run {c : Ctx} {repo : Repo} {raw : String} {r : Root} (h : GenuineRoot c.env raw r) (w : World) :
    initRoot c repo raw w = (.ok (), setRoot repo r (setRoot repo r w)) := by
  have hu := h.genuine.unpack properRoot
  have hp := Root.ofJson_policy h.reads
  have h2 : Root.ofJsonSigned c.env (c.env.parseJson raw) r = .ok r := by
    unfold Root.ofJsonSigned
    rw [h.reads]
    simp [Root.unpackSignedObject, hp, hu]
  unfold initRoot
  rw [run_bind (m := lift (Root.ofJson c.env (c.env.parseJson raw))) (by rw [lift_eq, h.reads])]
  rw [run_bind (by rw [modify_eq]), run_bind (m := lift (Root.ofJsonSigned c.env (c.env.parseJson raw) r)) (by rw [lift_eq, h2])]
  rfl

/-- What rotation leaves; at most `n` writes were needed. -/
structure Rotated (repo : Repo) (w w' : World) (raw : String) (r : Root) (n : Nat) : Prop where
  root : getRoot repo w' = r
  same : SameButRoot repo w w'
  other : ∀ repo' t, repo' ≠ repo → w'.db.only repo' t = w.db.only repo' t
  delegations : w'.db.delegations = w.db.delegations
  newest : ∃ row, w'.db.latestOf repo .root = some row ∧ row.data = raw ∧ row.version ≤ r.base.version + 1
  rest : ∀ t, t ≠ .root → (w'.db.only repo t = w.db.only repo t ∨ w'.db.only repo t = [])
  fuel : w.fuel ≤ w'.fuel + n

theorem Rotated.trans {repo : Repo} {a b c : World} {x y : String} {r s : Root} {m n : Nat} (h1 : Rotated repo a b x r m)
    (h2 : Rotated repo b c y s n) : Rotated repo a c y s (m + n) where
  root := h2.root
  same := h1.same.trans h2.same
  other := fun r t hr => (h2.other r t hr).trans (h1.other r t hr)
  delegations := h2.delegations.trans h1.delegations
  newest := h2.newest
  rest := fun t ht => by
    rcases h2.rest t ht with h | h
    · rw [h]; exact h1.rest t ht
    · exact .inr h
  fuel := by have := h1.fuel; have := h2.fuel; omega

theorem verifyRoot_run {c : Ctx} {repo : Repo} {raw : String} {r r' : Root} {w : World} (hr : getRoot repo w = r) (hp : r.policy = .check)
    (h : GenuineRoot c.env raw r') (hs : SignedToThreshold c.env r.base "root" (c.env.parseJson raw))
    (hv : r'.base.version = r.base.version + 1) (hlt : r.base.version < 2147483647) :
    verifyRoot c repo raw w = (.ok (), setRoot repo r' w) := by
  have hu := h.genuine.unpack properRoot
  have hp' := Root.ofJson_policy h.reads
  have hu2 : unpackSignedObject c.env r.base Role.root (c.env.parseJson raw) = .ok () :=
    C01_signed_is_accepted _ _ _ _ properRoot hs h.genuine.signed.2 h.genuine.format
  have h2 : Root.ofJsonSigned c.env (c.env.parseJson raw) r = .ok r' := by
    unfold Root.ofJsonSigned
    rw [h.reads]
    simp [Root.unpackSignedObject, hp, hp', hu, hu2]
  have hsucc : succInt r.base.version = .ok (r.base.version + 1) := by
    unfold succInt
    rw [if_neg (by omega)]
  unfold verifyRoot
  rw [run_bind (by rw [gets_eq]), hr, run_bind (m := lift (Root.ofJsonSigned c.env (c.env.parseJson raw) r)) (by rw [lift_eq, h2]),
    run_bind (by rw [modify_eq]), run_bind (m := lift (succInt r.base.version)) (by rw [lift_eq, hsucc])]
  exact throwWhen_run (by simp [hv])

theorem tryFetchRoot_run {c : Ctx} {repo : Repo} {raw : String} {v : Int} (h : Served c repo Role.root v (64 * 1024) raw) (w : World) :
    tryFetchRoot c repo v w = (.ok (some raw), { w with tick := w.tick + 1 }) := by
  unfold tryFetchRoot catchStd
  have : (do return some (← fetchRole c kMaxRootSize repo Role.root v) : U (Option String)) w = (.ok (some raw), { w with tick := w.tick + 1 }) := by
    have hr : fetchRole c kMaxRootSize repo Role.root v w = (.ok raw, { w with tick := w.tick + 1 }) := h.run w
    rw [run_bind hr]
    rfl
  rw [this]

theorem tryFetchRoot_end {c : Ctx} {repo : Repo} {v : Int} (h : ∀ n, c.net n repo "root" v = none) (w : World) :
    tryFetchRoot c repo v w = (.ok none, { w with tick := w.tick + 1 }) := by
  unfold tryFetchRoot catchStd
  have : (do return some (← fetchRole c kMaxRootSize repo Role.root v) : U (Option String)) w =
      (.error (.upt (.metadataFetchFailure "root")), { w with tick := w.tick + 1 }) := by
    apply run_bind_err
    unfold fetchRole
    have : c.net w.tick repo Role.root.name v = none := h _
    simp only [this]
    rfl
  rw [this]
  rfl

theorem newest_filed {repo : Repo} {db : MetaDb} {row : MetaRow} (h : db.latestOf repo .root = some row) {raw : String} {v : Int} (hv : row.version ≤ v) :
    (((db.storeRoot raw repo v).clearNonRoot repo).latestOf repo .root) = some ⟨repo, .root, v, raw⟩ := by
  rw [MetaDb.latestOf_only, MetaDb.only_clearNonRoot_root, MetaDb.only_storeRoot_same]
  apply MetaDb.latest_cons_max
  intro x hx
  have := (MetaDb.latest_some h).2 x (List.mem_filter.1 hx).1
  show x.version ≤ v
  omega

theorem rotateLoop_run {c : Ctx} {repo : Repo} : ∀ (raws : List String) (n : Nat) (old : String) (r last : Root) (w : World) (row : MetaRow),
    getRoot repo w = r → ReadsAsRoot c.env old r → w.db.latestOf repo .root = some row → row.data = old → row.version ≤ r.base.version + 1 →
    RootChain c.env old raws → RootsOffered c repo (r.base.version + 1) raws → r.base.version + raws.length < 1000 →
    ReadsAsRoot c.env (lastOf old raws) last → raws.length ≤ n → 2 * raws.length ≤ w.fuel →
    ∃ w', rotateLoop c repo n (r.base.version + 1) w = (.ok (), w') ∧ Rotated repo w w' (lastOf old raws) last (2 * raws.length)
  | [], n, old, r, last, w, row, hr, hold, hrow, hd, hv, hc, ho, hlt, hl, hn, hf => by
    have : last = r := by
      have h1 : Root.ofJson c.env (c.env.parseJson old) = .ok last := hl
      have h2 : Root.ofJson c.env (c.env.parseJson old) = .ok r := hold
      rw [h1] at h2
      exact Except.ok.inj h2
    subst this
    have hrot : ∀ k, Rotated repo w { w with tick := k } (lastOf old []) last (2 * ([] : List String).length) := fun k =>
      { root := hr, same := ⟨rfl, rfl, rfl, rfl, rfl, fun r _ => by cases r <;> rfl⟩, other := fun _ _ _ => rfl, delegations := rfl,
        newest := ⟨row, hrow, hd, hv⟩, rest := fun _ _ => .inl rfl, fuel := by simp }
    cases n with
    | zero => exact ⟨w, rfl, hrot w.tick⟩
    | succ n =>
      refine ⟨{ w with tick := w.tick + 1 }, ?_, hrot _⟩
      unfold rotateLoop
      rw [run_bind (tryFetchRoot_end ho w)]
      rfl
  | raw :: raws, n, old, r, last, w, row, hr, hold, hrow, hd, hv, hc, ho, hlt, hl, hn, hf => by
    obtain ⟨hserved, ⟨r', hgen, hver⟩, ho'⟩ := ho
    obtain ⟨⟨r1, r2, hold1, hnew, hv2, hs1, hs2⟩, hc'⟩ := hc
    have e1 : r1 = r := by
      have h1 : Root.ofJson c.env (c.env.parseJson old) = .ok r1 := hold1
      have h2 : Root.ofJson c.env (c.env.parseJson old) = .ok r := hold
      rw [h1] at h2
      exact Except.ok.inj h2
    have e2 : r2 = r' := by
      have h1 : Root.ofJson c.env (c.env.parseJson raw) = .ok r2 := hnew
      have h2 : Root.ofJson c.env (c.env.parseJson raw) = .ok r' := hgen.reads
      rw [h1] at h2
      exact Except.ok.inj h2
    subst e1 e2
    cases n with
    | zero => simp at hn
    | succ n =>
      simp only [List.length_cons] at hn hf hlt
      have hfuel : 0 < w.fuel := by omega
      let w1 : World := setRoot repo r2 { w with tick := w.tick + 1 }
      have hw1 : w1.db = w.db := setRoot_db repo r2 _
      have hf1 : w1.fuel = w.fuel := setRoot_fuel repo r2 _
      let w2 : World := { w1 with db := w1.db.storeRoot raw repo (r1.base.version + 1), fuel := w1.fuel - 1 }
      let w3 : World := { w2 with db := w2.db.clearNonRoot repo, fuel := w2.fuel - 1 }
      have hstep : rotateLoop c repo (n + 1) (r1.base.version + 1) w = rotateLoop c repo n (r1.base.version + 1 + 1) w3 := by
        conv => lhs; unfold rotateLoop
        rw [run_bind (tryFetchRoot_run hserved w)]
        simp only
        rw [run_bind (verifyRoot_run (r := r1) (by rw [← hr]; cases repo <;> rfl) (Root.ofJson_policy hold) hgen hs1 hv2 (by omega))]
        rw [run_bind (write_run (w := w1) (by omega)), run_bind (write_run (w := w2) (by show 0 < w1.fuel - 1; omega))]
      have hroot3 : getRoot repo w3 = r2 := by
        have : getRoot repo w3 = getRoot repo w1 := by cases repo <;> rfl
        rw [this]; exact getRoot_setRoot repo r2 _
      have hdb3 : w3.db = (w.db.storeRoot raw repo (r1.base.version + 1)).clearNonRoot repo := by
        show (w1.db.storeRoot raw repo _).clearNonRoot repo = _
        rw [hw1]
      have hrow3 : w3.db.latestOf repo .root = some ⟨repo, .root, r1.base.version + 1, raw⟩ := by
        rw [hdb3]; exact newest_filed hrow hv
      have hrot1 : Rotated repo w w3 raw r2 2 := {
        root := hroot3
        same := by
          have h1 : SameButRoot repo w { w with tick := w.tick + 1 } := ⟨rfl, rfl, rfl, rfl, rfl, fun r _ => by cases r <;> rfl⟩
          have h2 : SameButRoot repo { w with tick := w.tick + 1 } w1 := sameButRoot_set repo r2 _
          have h3 : SameButRoot repo w1 w3 := ⟨rfl, rfl, rfl, rfl, rfl, fun r _ => by cases r <;> rfl⟩
          exact (h1.trans h2).trans h3
        other := fun r t hr => by
          rw [hdb3, MetaDb.only_clearNonRoot_other _ t hr, MetaDb.only_storeRoot_other _ _ _ (fun h => hr h.1)]
        delegations := by rw [hdb3]; rfl
        newest := ⟨_, hrow3, rfl, by rw [hver]; show r1.base.version + 1 ≤ _; omega⟩
        rest := fun t ht => by
          rw [hdb3]
          exact .inr (MetaDb.only_clearNonRoot_same _ repo ht)
        fuel := by show w.fuel ≤ (w1.fuel - 1 - 1) + 2; omega }
      rw [← hver] at ho'
      obtain ⟨w', h1, h2⟩ := rotateLoop_run raws n raw r2 last w3 _ hroot3 hgen.reads hrow3 rfl (by rw [hver]; show r1.base.version + 1 ≤ _; omega) hc' ho'
        (by rw [hver]; omega) hl (by omega) (by show _ ≤ w1.fuel - 1 - 1; omega)
      refine ⟨w', ?_, ?_⟩
      · rw [hstep, ← hver]; exact h1
      · have := hrot1.trans h2
        have e : 2 + 2 * raws.length = 2 * (raw :: raws).length := by simp; omega
        rw [e] at this
        exact this

theorem reads_unique {env : Env} {raw : String} {a b : Root} (h1 : ReadsAsRoot env raw a) (h2 : ReadsAsRoot env raw b) : a = b := by
  have h1' : Root.ofJson env (env.parseJson raw) = .ok a := h1
  have h2' : Root.ofJson env (env.parseJson raw) = .ok b := h2
  rw [h1'] at h2'
  exact Except.ok.inj h2'

theorem rootsOffered_last {c : Ctx} {repo : Repo} : ∀ (raws : List String) (v : Int) (first : String) (r0 : Root), GenuineRoot c.env first r0 →
    RootsOffered c repo v raws → ∃ r, GenuineRoot c.env (lastOf first raws) r
  | [], _, _, r0, h, _ => ⟨r0, h⟩
  | _ :: raws, v, _, _, _, ⟨_, ⟨r, h, _⟩, h'⟩ => rootsOffered_last raws (v + 1) _ r h h'

theorem Spec.HonestRoots.genuine {c : Ctx} {repo : Repo} {db : MetaDb} {first : String} {raws : List String} {last : Root}
    (h : HonestRoots c repo db first raws last) : GenuineRoot c.env (lastOf first raws) last := by
  obtain ⟨r0, hg, _, ho, _⟩ := h.offered
  obtain ⟨r, hr⟩ := rootsOffered_last raws _ first r0 hg ho
  rw [reads_unique h.ends hr.reads]
  exact hr

/-- Rotation succeeds and ends at the last Root offered. -/
theorem updateRoot_run {c : Ctx} {repo : Repo} {w : World} {first : String} {raws : List String} {last : Root}
    (h : HonestRoots c repo w.db first raws last) (hf : 2 * raws.length + 1 ≤ w.fuel) :
    ∃ w', updateRoot c repo w = (.ok (), w') ∧ Rotated repo w w' (lastOf first raws) last (2 * raws.length + 1) := by
  obtain ⟨r0, hg, h0, ho, hlt⟩ := h.offered
  have hload : ∃ w1 row, loadOrFetchRoot c repo w = (.ok (), w1) ∧ Rotated repo w w1 first r0 1 ∧
      w1.db.latestOf repo .root = some row ∧ row.data = first ∧ row.version ≤ r0.base.version + 1 := by
    rcases h.start with ⟨row, h1, h2, h3⟩ | ⟨h1, h2⟩
    · refine ⟨setRoot repo r0 (setRoot repo r0 w), row, ?_, ?_, ?_, h2, h3 r0 (by rw [h2]; exact hg.reads)⟩
      · unfold loadOrFetchRoot
        have : loadLatestRoot repo w = (.ok (some first), w) := by
          unfold loadLatestRoot
          rw [h1]
          show readBlob (some row.data) w = _
          rw [h2]
          exact readBlob_run hg.genuine.nonempty
        rw [run_bind this]
        exact initRoot_run hg w
      · exact {
          root := getRoot_setRoot _ _ _
          same := (sameButRoot_set _ _ _).trans (sameButRoot_set _ _ _)
          other := fun _ _ _ => by simp
          delegations := by simp
          newest := ⟨row, by simpa using h1, h2, h3 r0 (by rw [h2]; exact hg.reads)⟩
          rest := fun _ _ => .inl (by simp)
          fuel := by simp [setRoot_fuel] }
      · simpa using h1
    · let w1 : World := { w with tick := w.tick + 1 }
      let w2 : World := setRoot repo r0 (setRoot repo r0 w1)
      have hw2 : w2.db = w.db := by simp [w2, w1]
      have hf2 : w2.fuel = w.fuel := by simp [w2, w1, setRoot_fuel]
      let w3 : World := { w2 with db := w2.db.storeRoot first repo 1, fuel := w2.fuel - 1 }
      have hlat : w3.db.latestOf repo .root = some ⟨repo, .root, 1, first⟩ := by
        show (w2.db.storeRoot first repo 1).latestOf repo .root = _
        rw [hw2, MetaDb.latestOf_only, MetaDb.only_storeRoot_same]
        have : w.db.only repo .root = [] := MetaDb.latest_none.1 h1
        rw [this]
        rfl
      refine ⟨w3, _, ?_, ?_, hlat, rfl, by show (1 : Int) ≤ _; omega⟩
      · unfold loadOrFetchRoot
        have hl : loadLatestRoot repo w = (.ok none, w) := by
          unfold loadLatestRoot
          rw [h1]
          rfl
        have hfe : fetchRole c kMaxRootSize repo Role.root 1 w = (.ok first, w1) := h2.run w
        rw [run_bind hl]
        simp only
        rw [run_bind hfe, run_bind (initRoot_run hg w1)]
        exact write_run (w := w2) (by omega)
      · exact {
          root := by
            have : getRoot repo w3 = getRoot repo w2 := by cases repo <;> rfl
            rw [this]; exact getRoot_setRoot _ _ _
          same := by
            have a1 : SameButRoot repo w w1 := ⟨rfl, rfl, rfl, rfl, rfl, fun r _ => by cases r <;> rfl⟩
            have a2 : SameButRoot repo w1 w2 := (sameButRoot_set _ _ _).trans (sameButRoot_set _ _ _)
            have a3 : SameButRoot repo w2 w3 := ⟨rfl, rfl, rfl, rfl, rfl, fun r _ => by cases r <;> rfl⟩
            exact (a1.trans a2).trans a3
          other := fun r t hr => by
            show (w2.db.storeRoot first repo 1).only r t = _
            rw [hw2, MetaDb.only_storeRoot_other _ _ _ (fun h => hr h.1)]
          delegations := by show w2.db.delegations = _; rw [hw2]
          newest := ⟨_, hlat, rfl, by show (1 : Int) ≤ _; omega⟩
          rest := fun t ht => .inl (by
            show (w2.db.storeRoot first repo 1).only repo t = _
            rw [hw2, MetaDb.only_storeRoot_other _ _ _ (fun h => ht h.2)])
          fuel := by show w.fuel ≤ (w2.fuel - 1) + 1; omega }
  obtain ⟨w1, row, hl, hr1, hrow, hd, hv⟩ := hload
  have hf1 := hr1.fuel
  obtain ⟨w2, h2, hr2⟩ := rotateLoop_run raws (kMaxRotations - (r0.base.version + 1)).toNat first r0 last w1 row hr1.root hg.reads hrow hd hv
    h.chain ho hlt h.ends (by simp only [kMaxRotations]; omega) (by omega)
  refine ⟨{ w2 with tick := w2.tick + 1 }, ?_, ?_⟩
  · unfold updateRoot
    rw [run_bind hl, run_bind (by rw [gets_eq]), hr1.root]
    have hsucc : succInt r0.base.version = .ok (r0.base.version + 1) := by
      unfold succInt
      rw [if_neg (by omega)]
    rw [run_bind (m := lift (succInt r0.base.version)) (by rw [lift_eq, hsucc]), run_bind h2]
    unfold checkRootExpired
    rw [run_bind (by rw [gets_eq]), run_bind (now_run c w2), hr2.root]
    exact throwWhen_run (h.fresh _)
  · have h3 := hr1.trans hr2
    have e : 1 + 2 * raws.length = 2 * raws.length + 1 := by omega
    rw [e] at h3
    exact {
      root := by rw [← h3.root]; cases repo <;> rfl
      same := ⟨h3.same.1, h3.same.2, h3.same.3, h3.same.4, h3.same.5, fun r hr => by rw [← h3.same.6 r hr]; cases r <;> rfl⟩
      other := h3.other
      delegations := h3.delegations
      newest := h3.newest
      rest := h3.rest
      fuel := h3.fuel }


/-! ### Director -/

theorem Spec.StatesVersion.run {env : Env} {raw : String} {v : Int} (h : StatesVersion env raw v) : extractVersionUntrusted env raw = .ok v := by
  obtain ⟨s, j, h1, h2, h3, h4⟩ := h
  unfold extractVersionUntrusted
  simp only [exc_bind_ok]
  exact ⟨s, h1, j, h2, by simp [h3, h4]⟩

theorem Rotated.stored {repo : Repo} {w w' : World} {raw old : String} {r : Root} {n : Nat} (h : Rotated repo w w' raw r n) {t : RoleKind}
    (ht : t ≠ .root) (hs : Stored w'.db repo t old) : Stored w.db repo t old := by
  obtain ⟨row, h1, h2⟩ := hs
  refine ⟨row, ?_, h2⟩
  rw [MetaDb.latestOf_only] at h1 ⊢
  rcases h.rest t ht with e | e
  · rw [← e]; exact h1
  · rw [e] at h1; cases h1

/-- What the check of the Director leaves; at most `n` writes were needed. -/
structure DirectorDone (w w' : World) (rootRaw : String) (root : Root) (raw : String) (ts : Targets) (n : Nat) : Prop where
  dir : w'.dir = ⟨root, ts, ts⟩
  img : w'.img = w.img
  other : ∀ t, w'.db.only .image t = w.db.only .image t
  delegations : w'.db.delegations = w.db.delegations
  newest : ∃ row, w'.db.latestOf .director .root = some row ∧ row.data = rootRaw ∧ row.version ≤ root.base.version + 1
  stored : Stored w'.db .director .targets raw
  fuel : w.fuel ≤ w'.fuel + n

theorem repeatedEcu_none : ∀ (l seen : List String), l.Nodup → (∀ x ∈ l, x ∉ seen) → Director.repeatedEcu seen l = false
  | [], _, _, _ => rfl
  | a :: l, seen, h, hs => by
    unfold Director.repeatedEcu
    have ha : seen.contains a = false := by simpa using hs a (by simp)
    rw [ha]
    refine repeatedEcu_none l (a :: seen) (List.nodup_cons.1 h).2 (fun x hx hm => ?_)
    rcases List.mem_cons.1 hm with rfl | hm
    · exact (List.nodup_cons.1 h).1 hx
    · exact hs x (by simp [hx]) hm

theorem Director.verifyTargets_tame {c : Ctx} {raw : String} {w : World} : ∃ o d, Director.verifyTargets c raw w = (o, { w with dir := d }) ∧
    d.root = w.dir.root ∧ ∀ e, o = .error e → e.isStd = true := by
  unfold Director.verifyTargets
  rw [run_bind (by rw [gets_eq])]
  generalize h : Targets.ofJsonSigned c.env Role.targets (c.env.parseJson raw) w.dir.root.base = x
  cases x with
  | error e =>
    refine ⟨.error e, w.dir, ?_, rfl, fun e' he => ?_⟩
    · exact run_bind_err (by rw [lift_eq])
    · cases he; exact Tame.targets _ _ _ _ e h
  | ok ts =>
    rw [run_bind (m := lift (Except.ok ts)) (by rw [lift_eq]), run_bind (by rw [modify_eq])]
    simp only [modify_eq]
    split
    · exact ⟨.ok (), { w.dir with latest := ts }, rfl, rfl, fun _ he => by cases he⟩
    · exact ⟨.ok (), { w.dir with latest := ts, targets := ts }, rfl, rfl, fun _ he => by cases he⟩

theorem Director.verifyTargets_run {c : Ctx} {raw : String} {ts : Targets} {w : World} (h : Genuine c.env w.dir.root Role.targets raw)
    (hr : ReadsAsTargets c.env raw ts) (hn : ts.targets ≠ []) : Director.verifyTargets c raw w = (.ok (), { w with dir := ⟨w.dir.root, ts, ts⟩ }) := by
  unfold Director.verifyTargets
  rw [run_bind (by rw [gets_eq]), run_bind (m := lift (Targets.ofJsonSigned c.env Role.targets (c.env.parseJson raw) w.dir.root.base))
    (by rw [lift_eq, targets_run h hr]), run_bind (by rw [modify_eq]), modify_eq]
  have : Director.usePreviousTargets { w.dir with latest := ts } = false := by
    unfold Director.usePreviousTargets
    cases hts : ts.targets with
    | nil => exact absurd hts hn
    | cons a l => simp
  simp only [this]
  rfl

theorem Director.loadStored_run {c : Ctx} {w : World} {raw : String} {v : Int} (hraw : raw ≠ "") (hv : StatesVersion c.env raw v) (h0 : 0 ≤ v)
    (hn : ∀ old, Stored w.db .director .targets old → old = raw ∨ (old ≠ "" ∧ ∃ v', StatesVersion c.env old v' ∧ v' < v)) :
    ∃ lv d, Director.loadStoredTargets c w = (.ok lv, { w with dir := d }) ∧ d.root = w.dir.root ∧
      ((lv = v ∧ Stored w.db .director .targets raw) ∨ lv < v) := by
  unfold Director.loadStoredTargets
  cases hl : w.db.latestOf .director .targets with
  | none =>
    rw [run_bind (load_none hl)]
    exact ⟨-1, w.dir, rfl, rfl, .inr (by omega)⟩
  | some row =>
    have hs : Stored w.db .director .targets row.data := ⟨row, hl, rfl⟩
    have key : ∀ lv, StatesVersion c.env row.data lv → row.data ≠ "" →
        ∃ d, (do match ← loadNonRoot .director .targets with
                 | some stored => do
                   let v ← lift (extractVersionUntrusted c.env stored)
                   catchStd (Director.verifyTargets c stored) (fun _ => pure ())
                   pure v
                 | none => pure (-1) : U Int) w = (.ok lv, { w with dir := d }) ∧ d.root = w.dir.root := by
      intro lv h1 h2
      rw [run_bind (load_run hs h2)]
      simp only
      rw [run_bind (m := lift (extractVersionUntrusted c.env row.data)) (by rw [lift_eq, h1.run])]
      obtain ⟨o, d, h3, h4, h5⟩ := Director.verifyTargets_tame (c := c) (raw := row.data) (w := w)
      refine ⟨d, ?_, h4⟩
      have : catchStd (Director.verifyTargets c row.data) (fun _ => pure ()) w = (.ok (), { w with dir := d }) := by
        unfold catchStd
        rw [h3]
        cases o with
        | ok a => rfl
        | error e => simp [h5 e rfl]
      rw [run_bind this]
      rfl
    rcases hn _ hs with he | ⟨h1, lv, h2, h3⟩
    · obtain ⟨d, h1, h2⟩ := key v (by rw [he]; exact hv) (by rw [he]; exact hraw)
      exact ⟨v, d, h1, h2, .inl ⟨rfl, he ▸ hs⟩⟩
    · obtain ⟨d, h4, h5⟩ := key lv h2 h1
      exact ⟨lv, d, h4, h5, .inr h3⟩

/-- The Director's genuine metadata is accepted. -/
theorem Director.updateMeta_run {c : Ctx} {w : World} {first : String} {raws : List String} {last : Root} {raw : String} {ts : Targets}
    (h : HonestDirector c w.db first raws last raw ts) (hf : 2 * raws.length + 2 ≤ w.fuel) :
    ∃ w', Director.updateMeta c w = (.ok (), w') ∧ DirectorDone w w' (lastOf first raws) last raw ts (2 * raws.length + 2) := by
  let w0 : World := { w with dir := { root := { policy := .acceptAll }, targets := {}, latest := {} } }
  obtain ⟨w1, h1, hr⟩ := updateRoot_run (w := w0) h.roots (by show _ ≤ w.fuel; omega)
  have hf1 := hr.fuel
  have hf0 : w0.fuel = w.fuel := rfl
  obtain ⟨v, hv, hv0, hnew⟩ := h.newer
  let w2 : World := { w1 with tick := w1.tick + 1 }
  obtain ⟨lv, d, h3, hd, hlv⟩ := Director.loadStored_run (c := c) (w := w2) h.genuine.nonempty hv hv0
    (fun old ho => hnew old (hr.stored (by decide) ho))
  let w3 : World := { w2 with dir := d }
  have hroot : w3.dir.root = last := by
    show d.root = last
    rw [hd]; exact hr.root
  let w4 : World := { w3 with dir := ⟨w3.dir.root, ts, ts⟩ }
  have h4 : Director.verifyTargets c raw w3 = (.ok (), w4) :=
    Director.verifyTargets_run (by rw [hroot]; exact h.genuine) h.reads h.some
  have hstart : Director.updateMeta c w = (do
      Director.compareAndStore lv v raw
      Director.checkTargetsExpired c
      Director.targetsSanityCheck : U Unit) w4 := by
    have hfe : fetchLatestRole c kMaxDirectorTargetsSize .director Role.targets w1 = (.ok raw, w2) := h.served.run w1
    unfold Director.updateMeta
    rw [run_bind (m := Director.resetMeta) (w1 := w0) (by unfold Director.resetMeta; rw [modify_eq]), run_bind h1, run_bind hfe,
      run_bind (m := lift (extractVersionUntrusted c.env raw)) (by rw [lift_eq, hv.run]), run_bind h3, run_bind h4]
  have husep : Director.usePreviousTargets w4.dir = false := by
    unfold Director.usePreviousTargets
    show (_ && ts.targets.isEmpty) = false
    cases hts : ts.targets with
    | nil => exact absurd hts h.some
    | cons a l => simp
  have hstore : ∃ w5, Director.compareAndStore lv v raw w4 = (.ok (), w5) ∧ w5.dir = w4.dir ∧ w5.img = w4.img ∧
      (∀ t, w5.db.only .image t = w4.db.only .image t) ∧ w5.db.delegations = w4.db.delegations ∧
      w5.db.only .director .root = w4.db.only .director .root ∧ Stored w5.db .director .targets raw ∧ w4.fuel ≤ w5.fuel + 1 := by
    unfold Director.compareAndStore
    rw [run_bind (by rw [gets_eq])]
    rcases hlv with ⟨rfl, hs⟩ | hlt
    · refine ⟨w4, ?_, rfl, rfl, fun _ => rfl, rfl, rfl, hs, by omega⟩
      simp
    · have hfu : 0 < w4.fuel := by show 0 < w1.fuel; omega
      refine ⟨{ w4 with db := w4.db.storeNonRoot raw .director .targets, fuel := w4.fuel - 1 }, ?_, rfl, rfl, ?_, rfl, ?_, ?_, ?_⟩
      · rw [if_neg (by omega), if_pos (by simp [husep, hlt])]
        exact write_run hfu
      · exact fun t => MetaDb.only_storeNonRoot_other _ _ (fun e => by cases e.1)
      · exact MetaDb.only_storeNonRoot_other _ _ (fun e => by cases e.2)
      · exact stored_storeNonRoot _ _ _ _
      · show w4.fuel ≤ w4.fuel - 1 + 1; omega
  obtain ⟨w5, h5, hdir, himg, hoth, hdel, hrt, hst, hfu⟩ := hstore
  have hdir5 : w5.dir = ⟨last, ts, ts⟩ := by rw [hdir]; show DirectorRepo.mk w3.dir.root ts ts = _; rw [hroot]
  have h6 : Director.checkTargetsExpired c w5 = (.ok (), { w5 with tick := w5.tick + 1 }) := by
    unfold Director.checkTargetsExpired
    rw [run_bind (by rw [gets_eq]), run_bind (now_run c w5), hdir5]
    exact throwWhen_run (h.fresh _)
  have h7 : Director.targetsSanityCheck { w5 with tick := w5.tick + 1 } = (.ok (), { w5 with tick := w5.tick + 1 }) := by
    unfold Director.targetsSanityCheck
    rw [run_bind (by rw [gets_eq])]
    simp only [hdir5]
    rw [run_bind (throwWhen_run (by simp [h.plain]))]
    exact throwWhen_run (repeatedEcu_none _ _ h.once (by simp))
  refine ⟨{ w5 with tick := w5.tick + 1 }, ?_, ?_⟩
  · rw [hstart, run_bind h5, run_bind h6]
    exact h7
  · obtain ⟨row, hn1, hn2⟩ := hr.newest
    exact {
      dir := hdir5
      img := by
        have a := hr.same
        have b := a.other .image (by decide)
        show w5.img = w.img
        rw [himg]
        show w1.img = w.img
        have : w1.img = ⟨w1.img.root, w1.img.targets, w1.img.timestamp, w1.img.snapshot⟩ := rfl
        rw [this, a.image, a.timestamp, a.snapshot, show w1.img.root = w.img.root from b]
      other := fun t => (hoth t).trans (hr.other .image t (by decide))
      delegations := hdel.trans hr.delegations
      newest := ⟨row, by
        show w5.db.latestOf .director .root = _
        rw [MetaDb.latestOf_only, hrt, ← MetaDb.latestOf_only]; exact hn1, hn2⟩
      stored := hst
      fuel := by
        have : w4.fuel = w1.fuel := rfl
        show w.fuel ≤ w5.fuel + _
        omega }

end Aktualizr
