import Verif.Lemmas.Match
import Verif.Lemmas.Hashes
import Verif.Lemmas.DirectorUpdate

/-! Delegations: what is parsed, what `getTrusted` guarantees, what the search returns. -/

namespace Aktualizr

open Spec M

theorem parsePaths_ok {l : List Json} {ps : List String} (h : parsePaths l = .ok ps) :
    l.length = ps.length ∧ ∀ p ∈ l.zip ps, p.1.asString = .ok p.2 := by
  induction l generalizing ps with
  | nil => simp [parsePaths] at h; subst h; simp
  | cons j l ih =>
    unfold parsePaths at h
    simp only [exc_bind_ok, exc_pure_ok] at h
    obtain ⟨p, hp, ps', hps, rfl⟩ := h
    obtain ⟨h1, h2⟩ := ih hps
    simp only [List.length_cons, h1, List.zip_cons_cons, List.mem_cons, forall_eq_or_imp]
    exact ⟨trivial, hp, h2⟩

/-- Entry `rj` of a delegation list says this. -/
def RoleSays (rj : Json) (name : String) (patterns : List String) (term : Bool) : Prop :=
  ∃ paths tj, textAt rj "name" name ∧ rj.get "paths" = .ok paths ∧ TextArray paths patterns ∧
    rj.get "terminating" = .ok tj ∧ tj.asBool = .ok term

theorem parseDelegRoles_says {l : List Json} {ts ts' : Targets} (h : parseDelegRoles ts l = .ok ts')
    (name : String) (ps : List String) (b : Bool) :
    ts'.pathsForRole.lookup name = some ps → ts'.terminatingRole.lookup name = some b →
      (∃ rj ∈ l, RoleSays rj name ps b) ∨
      (ts.pathsForRole.lookup name = some ps ∧ ts.terminatingRole.lookup name = some b) := by
  induction l generalizing ts with
  | nil => simp [parseDelegRoles] at h; subst h; exact fun h1 h2 => .inr ⟨h1, h2⟩
  | cons j l ih =>
    intro h1 h2
    unfold parseDelegRoles at h
    simp only [exc_bind_ok] at h
    obtain ⟨nj, hnj, n, hn, role, _, m, _, pj, hpj, paths, hpaths, tj, htj, term, hterm, h⟩ := h
    rcases ih h h1 h2 with ⟨rj, hrj, hs⟩ | ⟨hp, ht⟩
    · exact .inl ⟨rj, List.mem_cons_of_mem _ hrj, hs⟩
    · simp only [List.lookup_cons] at hp ht
      by_cases he : name = n
      · subst he
        simp at hp ht
        subst hp; subst ht
        exact .inl ⟨j, List.mem_cons_self, pj, tj, ⟨nj, hnj, hn⟩, hpj, parsePaths_ok hpaths, htj, hterm⟩
      · have : (name == n) = false := by simpa using he
        rw [this] at hp ht
        exact .inr ⟨hp, ht⟩

theorem delegates_of {env : Env} {raw : String} {ts : Targets} (h : ReadsAsTargets env raw ts) {name : String}
    {ps : List String} {b : Bool} (hp : ts.pathsForRole.lookup name = some ps) (ht : ts.terminatingRole.lookup name = some b) :
    Delegates env raw name ps b := by
  obtain ⟨v, e, _, h⟩ := h
  unfold targetsInit at h
  simp only [exc_bind_ok, exc_pure_ok] at h
  obtain ⟨_, _, s, hs, _, _, _, _, _, _, _, _, d, hd, ts1, hts, _, _, _, _, rfl⟩ := h
  split at hts
  · simp only [exc_bind_ok] at hts
    obtain ⟨_, _, m, _, roles, hroles, hts⟩ := hts
    rcases parseDelegRoles_says hts name ps b hp ht with ⟨rj, hrj, paths, tj, hx⟩ | ⟨hx, _⟩
    · exact ⟨roles, rj, paths, tj, ⟨s, hs, d, hd, roles, hroles, rfl⟩, hrj, hx⟩
    · simp at hx
  · simp at hts
    subst hts
    simp at hp

/-- Repository objects unchanged, time does not go back. -/
def Steady (w w' : World) : Prop := w'.img = w.img ∧ w'.dir = w.dir ∧ w.tick ≤ w'.tick

theorem steady_pre : IsPre Steady :=
  ⟨fun _ => ⟨rfl, rfl, Nat.le_refl _⟩,
   fun _ _ _ h1 h2 => ⟨h2.1.trans h1.1, h2.2.1.trans h1.2.1, Nat.le_trans h1.2.2 h2.2.2⟩⟩

theorem steady_of_eq {α : Type} {m : U α} (h : Preserves Eq m) : Preserves Steady m := by
  intro w; rw [← h w]; exact steady_pre.refl w

theorem steady_write (f : MetaDb → MetaDb) : Preserves Steady (write f) := by
  intro w; unfold write; split <;> exact ⟨rfl, rfl, Nat.le_refl _⟩

theorem steady_fetchRole (c : Ctx) (m : Int) (repo : Repo) (role : Role) (v : Int) : Preserves Steady (fetchRole c m repo role v) := by
  intro w
  unfold fetchRole
  dsimp only
  split
  · split <;> exact ⟨rfl, rfl, Nat.le_succ _⟩
  · exact ⟨rfl, rfl, Nat.le_succ _⟩

theorem steady_now (c : Ctx) : Preserves Steady (now c) := fun w => ⟨rfl, rfl, Nat.le_succ _⟩

namespace Delegation

theorem getTrusted_steady (c : Ctx) (role : Role) (parent : Targets) (offline : Bool) :
    Preserves Steady (getTrusted c role parent offline) := by
  unfold getTrusted stored fetch checkHashes fetchLatestRole
  wpres steady_pre
  · exact steady_of_eq (loadDelegationM_same _)
  · exact steady_write _
  · exact steady_fetchRole _ _ _ _ _
  · exact steady_write _

theorem searchNames_steady (c : Ctx) (q : Target) (offline : Bool) (cur : Targets)
    (sub : Targets → Bool → U (Option Target)) (hsub : ∀ a b, Preserves Steady (sub a b)) :
    ∀ names, Preserves Steady (searchNames c q offline cur sub names)
  | [] => by unfold searchNames; wpres steady_pre
  | n :: names => by
    have ih := searchNames_steady c q offline cur sub hsub names
    unfold searchNames
    wpres steady_pre
    · exact getTrusted_steady c _ _ _
    · exact steady_now c
    · exact hsub _ _

theorem findTarget_steady (c : Ctx) (q : Target) (offline : Bool) :
    ∀ n cur term, Preserves Steady (findTarget c q offline n cur term)
  | 0, cur, term => by unfold findTarget; wpres steady_pre
  | n + 1, cur, term => by
    have ih := findTarget_steady c q offline n
    unfold findTarget
    wpres steady_pre
    exact searchNames_steady c q offline cur _ ih _

theorem findInTree_steady (c : Ctx) (q : Target) (offline : Bool) : Preserves Steady (findInTree c q offline) := by
  unfold findInTree
  wpres steady_pre
  exact findTarget_steady c q offline _ _ _

theorem catchStd_ok {α : Type} {m : U α} {h : Err → U α} (hh : ∀ e w, ∃ e', (h e w).1 = .error e') {w w' : World} {a : α}
    (hr : catchStd m h w = (.ok a, w')) : m w = (.ok a, w') := by
  unfold catchStd at hr
  split at hr
  · split at hr
    · rename_i e w1 _ _
      obtain ⟨e', he⟩ := hh e w1
      rw [hr] at he
      simp at he
    · simp at hr
  · exact hr

theorem checkHashes_ok {c : Ctx} {sn : Snapshot} {raw : String} {role : Role} {w w' : World} {u : Unit}
    (h : checkHashes c sn raw role w = (.ok u, w')) :
    w' = w ∧ Image.roleHashLoop c.env (c.env.canon (c.env.parseJson raw)) (sn.hashesOf role) = .ok () := by
  unfold checkHashes at h
  have := catchStd_ok (fun e w => ⟨_, rfl⟩) h
  simp only [lift_eq, Prod.mk.injEq] at this
  exact ⟨this.2.symm, this.1⟩

theorem loadDelegationM_some {role : Role} {w w' : World} {raw : String} (h : loadDelegationM role w = (.ok (some raw), w')) :
    w' = w ∧ w.db.loadDelegation role.name = some raw := by
  unfold loadDelegationM readBlob at h
  split at h
  · simp at h
  · split at h
    · simp at h
    · simp only [Prod.mk.injEq, Except.ok.injEq, Option.some.injEq] at h
      obtain ⟨rfl, rfl⟩ := h
      exact ⟨rfl, by assumption⟩

/-- Where the document used came from. -/
inductive Origin (c : Ctx) (role : Role) (listed : Int) (offline : Bool) (raw : String) (ts : Targets) (w w' : World) : Prop where
  | stored : w' = w → w.db.loadDelegation role.name = some raw → extractVersionUntrusted c.env raw = .ok listed →
      Origin c role listed offline raw ts w w'
  | fetched {t : Nat} : offline = false → w.tick ≤ t → t < w'.tick → c.net t .image role.name (-1) = some raw →
      ts.base.version = listed → w'.db.loadDelegation role.name = some raw → Origin c role listed offline raw ts w w'

theorem stored_some {c : Ctx} {role : Role} {listed : Int} {w w' : World} {raw : String}
    (h : stored c role listed w = (.ok (some raw), w')) :
    w' = w ∧ w.db.loadDelegation role.name = some raw ∧ extractVersionUntrusted c.env raw = .ok listed := by
  unfold stored at h
  replace h := M.bind_ok.1 h
  obtain ⟨o, w1, h1, h⟩ := h
  cases o with
  | none => simp at h
  | some r =>
    obtain ⟨rfl, hl⟩ := loadDelegationM_some h1
    change (lift (extractVersionUntrusted c.env r) >>= _) _ = _ at h
    replace h := M.bind_ok.1 h
    obtain ⟨v, w2, h2, h⟩ := h
    simp only [lift_eq, Prod.mk.injEq] at h2
    obtain ⟨h2, rfl⟩ := h2
    split at h
    · simp at h
    · split at h
      · obtain ⟨_, _, _, h⟩ := M.bind_ok.1 h
        simp at h
      · simp only [pure_eq, Prod.mk.injEq, Except.ok.injEq, Option.some.injEq] at h
        obtain ⟨rfl, rfl⟩ := h
        refine ⟨rfl, hl, ?_⟩
        rw [h2]
        congr 1
        omega

theorem getTrusted_ok {c : Ctx} {role : Role} {parent ts : Targets} {offline : Bool} {w w' : World}
    (h : getTrusted c role parent offline w = (.ok ts, w')) :
    ∃ raw, Targets.ofJsonSigned c.env role (c.env.parseJson raw) parent.base = .ok ts ∧
      Image.roleHashLoop c.env (c.env.canon (c.env.parseJson raw)) (w.img.snapshot.hashesOf role) = .ok () ∧
      Origin c role (w.img.snapshot.versionOf role) offline raw ts w w' := by
  unfold getTrusted at h
  replace h := M.bind_ok.1 h
  obtain ⟨i, w1, h1, h⟩ := h
  simp only [gets_eq, Prod.mk.injEq, Except.ok.injEq] at h1
  obtain ⟨rfl, rfl⟩ := h1
  replace h := M.bind_ok.1 h
  obtain ⟨o, w2, h2, h⟩ := h
  cases o with
  | some raw =>
    obtain ⟨rfl, hl, hv⟩ := stored_some h2
    change (checkHashes c _ raw role >>= fun _ => lift (Image.verifyDelegation c raw role parent)) _ = _ at h
    replace h := M.bind_ok.1 h
    obtain ⟨_, w3, h3, h⟩ := h
    obtain ⟨rfl, hh⟩ := checkHashes_ok h3
    simp only [lift_eq, Prod.mk.injEq] at h
    obtain ⟨h, rfl⟩ := h
    exact ⟨raw, h, hh, .stored rfl hl hv⟩
  | none =>
    have hs : Steady w w2 := by
      refine Preserves.of_eq ?_ h2
      unfold stored
      wpres steady_pre
      · exact steady_of_eq (loadDelegationM_same _)
      · exact steady_write _
    change (fetch c role offline >>= _) _ = _ at h
    replace h := M.bind_ok.1 h
    obtain ⟨raw, w3, h3, h⟩ := h
    unfold fetch at h3
    replace h3 := M.bind_ok.1 h3
    obtain ⟨_, w4, h4, h3⟩ := h3
    simp only [throwWhen_ok] at h4
    obtain ⟨hoff, rfl⟩ := h4
    have h3 := catchStd_ok (fun e w => ⟨_, rfl⟩) h3
    obtain ⟨hnet, _, rfl⟩ := fetchRole_ok h3
    replace h := M.bind_ok.1 h
    obtain ⟨_, w5, h5, h⟩ := h
    obtain ⟨rfl, hh⟩ := checkHashes_ok h5
    replace h := M.bind_ok.1 h
    obtain ⟨ts', w6, h6, h⟩ := h
    simp only [lift_eq, Prod.mk.injEq] at h6
    obtain ⟨h6, rfl⟩ := h6
    replace h := M.bind_ok.1 h
    obtain ⟨_, w7, h7, h⟩ := h
    simp only [throwWhen_ok] at h7
    obtain ⟨hv, rfl⟩ := h7
    replace h := M.bind_ok.1 h
    obtain ⟨_, w8, h8, h⟩ := h
    simp only [pure_eq, Prod.mk.injEq, Except.ok.injEq] at h
    obtain ⟨rfl, rfl⟩ := h
    have hst : w8.tick = w2.tick + 1 ∧ w8.db.loadDelegation role.name = some raw := by
      unfold write at h8
      split at h8
      · simp at h8
      · simp only [Prod.mk.injEq] at h8
        rw [← h8.2]
        exact ⟨rfl, by simp [MetaDb.loadDelegation, MetaDb.storeDelegation]⟩
    refine ⟨raw, h6, hh, .fetched hoff hs.2.2 (by omega) hnet ?_ hst.2⟩
    simpa using hv

/-- A delegated role name is not reserved, and the role carries that name. -/
theorem delegation_ok {name : String} {role : Role} (h : Role.delegation name = .ok role) : role = ⟨.delegation, name⟩ := by
  unfold Role.delegation at h
  split at h <;> simp at h
  exact h.symm

theorem extractVersion_eq {env : Env} {raw : String} {ts : Targets} {v : Int} (h : ReadsAsTargets env raw ts)
    (hv : extractVersionUntrusted env raw = .ok v) : ts.base.version = v ∨ v = -1 := by
  obtain ⟨v', e, h1, h2⟩ := h
  have h3 := targetsInit_base h2
  unfold extractVersionUntrusted at hv
  simp only [exc_bind_ok] at hv
  obtain ⟨s, hs, vj, hvj, hv⟩ := hv
  unfold baseInit at h1
  simp only [exc_bind_ok] at h1
  obtain ⟨_, _, _, _, _, _, s', hs', vj', hvj', x, hx, _, _, _, _, h1⟩ := h1
  have := hs.symm.trans hs'
  simp at this; subst this
  have := hvj.symm.trans hvj'
  simp at this; subst this
  split at h1
  · simp at h1
  · simp only [exc_pure_ok, Prod.mk.injEq] at h1
    obtain ⟨rfl, rfl⟩ := h1
    split at hv
    · simp at hv; exact .inr hv.symm
    · have := hx.symm.trans hv
      simp at this
      subst this
      exact .inl h3.1

theorem getTrusted_trusted {c : Ctx} {name : String} {parent ts : Targets} {offline : Bool} {w w' : World} {rawS : String}
    (hsn : ReadsAsSnapshot c.env rawS w.img.snapshot)
    (h : getTrusted c ⟨.delegation, name⟩ parent offline w = (.ok ts, w')) :
    ∃ raw v, TrustedDelegate c.env rawS parent name ⟨raw, ts⟩ v ∧ (ts.base.version = v ∨ v = -1) ∧
      v = w.img.snapshot.versionOf ⟨.delegation, name⟩ ∧
      Origin c ⟨.delegation, name⟩ v offline raw ts w w' := by
  obtain ⟨raw, h1, h2, h3⟩ := getTrusted_ok h
  obtain ⟨signer, hsn⟩ := hsn
  have k := Targets.ofJsonSigned_ok (role := ⟨.delegation, name⟩) (.inr rfl) h1
  refine ⟨raw, _, ⟨k.2.2, k.1, k.2.1, snapshot_vouches hsn h2⟩, ?_, rfl, h3⟩
  cases h3 with
  | stored _ _ hv => exact extractVersion_eq k.2.2 hv
  | fetched _ _ _ _ hv _ => exact .inl hv

theorem searchNames_found {c : Ctx} {q : Target} {offline : Bool} {rawS : String} {top parent : Node} {n : Nat} {t0 t1 : Nat}
    {sub : Targets → Bool → U (Option Target)} {Good : Target → Prop}
    (hread : ReadsAsTargets c.env parent.raw parent.content)
    (hch : Chain c.env rawS q.filename (fun x => ∃ t, t0 ≤ t ∧ t < t1 ∧ x = c.clock t) top n false parent)
    (hsteady : ∀ a b, Preserves Steady (sub a b))
    (hsub : ∀ child b w w' found, ReadsAsTargets c.env child.raw child.content →
      Chain c.env rawS q.filename (fun x => ∃ t, t0 ≤ t ∧ t < t1 ∧ x = c.clock t) top (n + 1) b child →
      t0 ≤ w.tick → w'.tick ≤ t1 → ReadsAsSnapshot c.env rawS w.img.snapshot →
      sub child.content b w = (.ok (some found), w') → Good found)
    {names : List String} {w w' : World} {found : Target} (hsn : ReadsAsSnapshot c.env rawS w.img.snapshot)
    (h0 : t0 ≤ w.tick) (h1 : w'.tick ≤ t1)
    (h : searchNames c q offline parent.content sub names w = (.ok (some found), w')) : Good found := by
  induction names generalizing w with
  | nil => simp [searchNames] at h
  | cons name names ih =>
    unfold searchNames at h
    replace h := M.bind_ok.1 h
    obtain ⟨role, w1, h2, h⟩ := h
    simp only [lift_eq, Prod.mk.injEq] at h2
    obtain ⟨hrole, rfl⟩ := h2
    obtain rfl := delegation_ok hrole
    cases hpat : List.lookup name parent.content.pathsForRole with
    | none => simp only [hpat] at h; exact ih hsn h0 h
    | some patterns =>
      simp only [hpat] at h
      split at h
      · exact ih hsn h0 h
      · rename_i hany
        replace h := M.bind_ok.1 h
        obtain ⟨d, w2, h3, h⟩ := h
        obtain ⟨raw, v, htr, hv, _, _⟩ := getTrusted_trusted hsn h3
        have s2 := (getTrusted_steady c _ _ _).of_eq h3
        replace h := M.bind_ok.1 h
        obtain ⟨tm, w3, h4, h⟩ := h
        simp only [now, Prod.mk.injEq, Except.ok.injEq] at h4
        obtain ⟨rfl, rfl⟩ := h4
        have ih' := ih (w := { w2 with tick := w2.tick + 1 })
        have hsn3 : ReadsAsSnapshot c.env rawS w2.img.snapshot := by rw [s2.1]; exact hsn
        have h03 : t0 ≤ w2.tick := Nat.le_trans h0 s2.2.2
        split at h
        · exact ih' hsn3 (Nat.le_succ_of_le h03) h
        · rename_i hexp
          have hall : w2.tick + 1 ≤ w'.tick := by
            have hp : Preserves Steady (do
              let term ← orThrow (parent.content.terminatingRole.lookup name) (.upt .reservedRoleName)
              match ← sub d term with
              | some found => pure (some found)
              | none => searchNames c q offline parent.content sub names : U (Option Target)) := by
              wpres steady_pre
              · exact hsteady _ _
              · exact searchNames_steady c q offline _ _ hsteady _
            exact (hp.of_eq h).2.2
          replace h := M.bind_ok.1 h
          obtain ⟨term, w4, h5, h⟩ := h
          simp only [orThrow_ok] at h5
          obtain ⟨hterm, rfl⟩ := h5
          have hchain : Chain c.env rawS q.filename (fun x => ∃ t, t0 ≤ t ∧ t < t1 ∧ x = c.clock t) top (n + 1) term ⟨raw, d⟩ := by
            refine .step hch (delegates_of hread hpat hterm) ?_ htr hv ⟨w2.tick, h03, by omega, rfl⟩ (by simpa using hexp)
            simpa using hany
          replace h := M.bind_ok.1 h
          obtain ⟨o, w5, h6, h⟩ := h
          have s5 := (hsteady _ _).of_eq h6
          cases o with
          | some f =>
            simp only [pure_eq, Prod.mk.injEq, Except.ok.injEq, Option.some.injEq] at h
            obtain ⟨rfl, rfl⟩ := h
            exact hsub ⟨raw, d⟩ term { w2 with tick := w2.tick + 1 } _ f htr.reads hchain (Nat.le_succ_of_le h03) h1 hsn3 h6
          | none =>
            refine ih ?_ (Nat.le_trans (Nat.le_succ_of_le h03) s5.2.2) h
            rw [s5.1]; exact hsn3

theorem findTarget_found {c : Ctx} {q : Target} {offline : Bool} {rawS : String} {top : Node} {t0 t1 : Nat}
    (m : Nat) {n : Nat} {cur : Node} {term : Bool} {w w' : World} {found : Target}
    (hread : ReadsAsTargets c.env cur.raw cur.content)
    (hch : Chain c.env rawS q.filename (fun x => ∃ t, t0 ≤ t ∧ t < t1 ∧ x = c.clock t) top n term cur)
    (hsn : ReadsAsSnapshot c.env rawS w.img.snapshot) (h0 : t0 ≤ w.tick) (h1 : w'.tick ≤ t1)
    (h : findTarget c q offline m cur.content term w = (.ok (some found), w')) :
    ∃ k b leaf, k ≤ n + m ∧ Chain c.env rawS q.filename (fun x => ∃ t, t0 ≤ t ∧ t < t1 ∧ x = c.clock t) top k b leaf ∧
      found ∈ leaf.content.targets ∧ found.matchTarget q = true := by
  induction m generalizing n cur term w w' found with
  | zero =>
    unfold findTarget at h
    simp only [pure_eq, Prod.mk.injEq, Except.ok.injEq] at h
    exact ⟨n, term, cur, Nat.le_refl _, hch, List.mem_of_find?_eq_some h.1, by simpa using List.find?_some h.1⟩
  | succ m ih =>
    unfold findTarget at h
    cases ht : cur.content.targets.find? (fun t => t.matchTarget q) with
    | some t =>
      simp only [ht] at h
      simp only [pure_eq, Prod.mk.injEq, Except.ok.injEq, Option.some.injEq] at h
      obtain ⟨rfl, rfl⟩ := h
      exact ⟨n, term, cur, Nat.le_add_right _ _, hch, List.mem_of_find?_eq_some ht, by simpa using List.find?_some ht⟩
    | none =>
      simp only [ht] at h
      split at h
      · simp at h
      · rename_i hterm
        have hterm : term = false := by simpa using hterm
        subst hterm
        refine searchNames_found (Good := fun found => ∃ k b leaf, k ≤ n + (m + 1) ∧ Chain c.env rawS q.filename (fun x => ∃ t, t0 ≤ t ∧ t < t1 ∧ x = c.clock t) top k b leaf ∧
          found ∈ leaf.content.targets ∧ found.matchTarget q = true) hread hch (findTarget_steady c q offline m) ?_ hsn h0 h1 h
        intro child b w1 w2 f hr hc h2 h3 hs hf
        obtain ⟨k, b', leaf, hk, hx⟩ := ih hr hc hs h2 h3 hf
        exact ⟨k, b', leaf, by omega, hx⟩

end Delegation

end Aktualizr
