import Verif.Lemmas.Db
import Verif.Lemmas.Monad
import Verif.Props.C01
import Verif.Spec.Roots

/-! Root rotation: what `updateRoot` does to the Root table of its repository. -/

namespace Aktualizr

open Spec M

/-! ### Parsing -/

theorem Root.ofJson_policy {env : Env} {j : Json} {r : Root} (h : Root.ofJson env j = .ok r) : r.policy = .check := by
  simp [Root.ofJson] at h
  obtain ⟨_, _, _, _, _, _, _, _, _, _, _, _, _, _, _, rfl⟩ := h
  rfl

theorem properRoot : ProperRole Role.root := by simp [ProperRole]

theorem Root.ofJsonSigned_check {env : Env} {j : Json} {old r : Root} (hp : old.policy = .check)
    (h : Root.ofJsonSigned env j old = .ok r) :
    Root.ofJson env j = .ok r ∧ SignedToThreshold env old.base "root" j ∧ SignedToThreshold env r.base "root" j := by
  simp only [Root.ofJsonSigned, exc_bind_ok, exc_pure_ok] at h
  obtain ⟨r', h1, _, h2, _, h3, rfl⟩ := h
  have hp' := Root.ofJson_policy h1
  simp only [Root.unpackSignedObject, hp, hp'] at h2 h3
  exact ⟨h1, (C01_accepted_is_signed _ _ _ _ properRoot h2).1, (C01_accepted_is_signed _ _ _ _ properRoot h3).1⟩

@[simp] theorem getRoot_setRoot (repo : Repo) (r : Root) (w : World) : getRoot repo (setRoot repo r w) = r := by
  cases repo <;> rfl

@[simp] theorem setRoot_db (repo : Repo) (r : Root) (w : World) : (setRoot repo r w).db = w.db := by
  cases repo <;> rfl

/-! ### Calls that do not write -/

/-- The database is unchanged. -/
def SameDb (w w' : World) : Prop := w'.db = w.db

theorem sameDb_pre : IsPre SameDb := ⟨fun _ => rfl, fun _ _ _ h1 h2 => Eq.trans h2 h1⟩

/-- Database and volatile objects are unchanged. -/
def SameMem (w w' : World) : Prop := w'.db = w.db ∧ w'.dir = w.dir ∧ w'.img = w.img

theorem sameMem_pre : IsPre SameMem :=
  ⟨fun _ => ⟨rfl, rfl, rfl⟩, fun _ _ _ h1 h2 => ⟨h2.1.trans h1.1, h2.2.1.trans h1.2.1, h2.2.2.trans h1.2.2⟩⟩

theorem readBlob_same (o : Option String) : Preserves Eq (readBlob o) := by
  intro w
  unfold readBlob
  split
  · rfl
  · split <;> rfl

theorem fetchRole_same (c : Ctx) (m : Int) (repo : Repo) (role : Role) (v : Int) :
    Preserves SameMem (fetchRole c m repo role v) := by
  intro w
  simp only [fetchRole]
  split
  · split <;> exact ⟨rfl, rfl, rfl⟩
  · exact ⟨rfl, rfl, rfl⟩

theorem now_same (c : Ctx) : Preserves SameMem (now c) := fun _ => ⟨rfl, rfl, rfl⟩

theorem tryFetchRoot_same (c : Ctx) (repo : Repo) (v : Int) : Preserves SameMem (tryFetchRoot c repo v) :=
  Preserves.catchStd sameMem_pre (Preserves.bind sameMem_pre (fetchRole_same _ _ _ _ _) (fun _ => Preserves.pure sameMem_pre))
    (fun _ => Preserves.pure sameMem_pre)

theorem SameMem.getRoot {w w' : World} (h : SameMem w w') (repo : Repo) : getRoot repo w' = getRoot repo w := by
  cases repo
  · show w'.img.root = w.img.root; rw [h.2.2]
  · show w'.dir.root = w.dir.root; rw [h.2.1]

theorem loadLatestRoot_same (repo : Repo) : Preserves Eq (loadLatestRoot repo) := fun w => readBlob_same _ w

theorem loadLatestRoot_some {repo : Repo} {w w' : World} {raw : String}
    (h : loadLatestRoot repo w = (.ok (some raw), w')) :
    w' = w ∧ raw ≠ "" ∧ ∃ row, w.db.latestOf repo .root = some row ∧ row.data = raw := by
  unfold loadLatestRoot readBlob at h
  split at h
  · simp at h
  · rename_i s hs
    split at h
    · simp at h
    · rename_i hne
      simp at h
      obtain ⟨rfl, rfl⟩ := h
      simp at hs
      exact ⟨rfl, hne, hs⟩

theorem loadLatestRoot_none {repo : Repo} {w w' : World}
    (h : loadLatestRoot repo w = (.ok none, w')) : w' = w ∧ w.db.latestOf repo .root = none := by
  unfold loadLatestRoot readBlob at h
  split at h
  · rename_i hs
    simp at h hs
    exact ⟨h.symm, hs⟩
  · split at h <;> simp at h

theorem write_cases {f : MetaDb → MetaDb} {w w' : World} {o : Except Err Unit} (h : write f w = (o, w')) :
    (o = .ok () ∧ w'.db = f w.db ∧ w'.dir = w.dir ∧ w'.img = w.img) ∨ (o = .error .crash ∧ w' = w) := by
  unfold write at h
  split at h
  · simp at h; exact .inr ⟨h.1.symm, h.2.symm⟩
  · simp at h; obtain ⟨rfl, rfl⟩ := h; exact .inl ⟨rfl, rfl, rfl, rfl⟩

/-! ### `initRoot` -/

theorem initRoot_cases {c : Ctx} {repo : Repo} {raw : String} {w w' : World} {o : Except Err Unit}
    (h : initRoot c repo raw w = (o, w')) :
    w'.db = w.db ∧ (o = .ok () → ∃ r, ReadsAsRoot c.env raw r ∧ SignedToThreshold c.env r.base "root" (c.env.parseJson raw) ∧
      w' = setRoot repo r w) := by
  unfold initRoot at h
  rcases bind_cases h with ⟨r, w1, h1, h⟩ | ⟨e, h1, rfl⟩
  · simp at h1
    obtain ⟨h1, rfl⟩ := h1
    rcases bind_cases h with ⟨_, w2, h2, h⟩ | ⟨e, h2, _⟩
    · simp at h2
      subst h2
      rcases bind_cases h with ⟨r2, w3, h3, h⟩ | ⟨e, h3, rfl⟩
      · simp at h3 h
        obtain ⟨h3, rfl⟩ := h3
        obtain ⟨rfl, rfl⟩ := h
        refine ⟨by simp, fun _ => ⟨r2, ?_⟩⟩
        have := Root.ofJsonSigned_check (Root.ofJson_policy h1) h3
        refine ⟨this.1, this.2.2, ?_⟩
        cases repo <;> rfl
      · simp at h3
        obtain ⟨_, rfl⟩ := h3
        simp
    · simp at h2
  · simp at h1
    obtain ⟨_, rfl⟩ := h1
    simp

/-! ### `verifyRoot` -/

theorem succInt_ok {v x : Int} (h : succInt v = .ok x) : x = v + 1 ∧ v ≠ 2147483647 := by
  unfold succInt at h
  split at h
  · simp at h
  · simp at h; exact ⟨h.symm, ‹_›⟩

theorem verifyRoot_cases {c : Ctx} {repo : Repo} {raw : String} {w w' : World} {o : Except Err Unit}
    (hp : (getRoot repo w).policy = .check) (h : verifyRoot c repo raw w = (o, w')) :
    w'.db = w.db ∧ (o = .ok () → ∃ r, ReadsAsRoot c.env raw r ∧
      SignedToThreshold c.env (getRoot repo w).base "root" (c.env.parseJson raw) ∧
      SignedToThreshold c.env r.base "root" (c.env.parseJson raw) ∧
      r.base.version = (getRoot repo w).base.version + 1 ∧ w' = setRoot repo r w) := by
  unfold verifyRoot at h
  rcases bind_cases h with ⟨old, w1, h1, h⟩ | ⟨e, h1, _⟩
  · simp at h1
    obtain ⟨rfl, rfl⟩ := h1
    rcases bind_cases h with ⟨r, w2, h2, h⟩ | ⟨e, h2, rfl⟩
    · simp at h2
      obtain ⟨h2, rfl⟩ := h2
      rcases bind_cases h with ⟨_, w3, h3, h⟩ | ⟨e, h3, _⟩
      · simp at h3
        subst h3
        rcases bind_cases h with ⟨x, w4, h4, h⟩ | ⟨e, h4, rfl⟩
        · simp at h4
          obtain ⟨h4, rfl⟩ := h4
          have hw := congrArg Prod.snd h
          simp at hw
          subst hw
          refine ⟨by simp, ?_⟩
          rintro rfl
          simp at h
          have hc := Root.ofJsonSigned_check hp h2
          have hs := succInt_ok h4
          exact ⟨r, hc.1, hc.2.1, hc.2.2, by omega, rfl⟩
        · simp at h4
          obtain ⟨_, rfl⟩ := h4
          simp
      · simp at h3
    · simp at h2
      obtain ⟨_, rfl⟩ := h2
      simp
  · simp at h1

end Aktualizr

namespace Aktualizr

open Spec M

/-! ### Chains -/

theorem lastOf_append (a : String) (l l' : List String) : lastOf a (l ++ l') = lastOf (lastOf a l) l' := by
  induction l generalizing a with
  | nil => rfl
  | cons b l ih => exact ih b

theorem Spec.RootChain.append {env : Env} {a : String} {l l' : List String} (h : RootChain env a l)
    (h' : RootChain env (lastOf a l) l') : RootChain env a (l ++ l') := by
  induction l generalizing a with
  | nil => exact h'
  | cons b l ih => exact ⟨h.1, ih h.2 h'⟩

/-- Versions in a chain exceed the starting one. -/
theorem Spec.RootChain.version_gt {env : Env} {a : String} {l : List String} (h : RootChain env a l) {r : Root}
    (hr : ReadsAsRoot env a r) {b : String} (hb : b ∈ l) {r' : Root} (hr' : ReadsAsRoot env b r') :
    r.base.version < r'.base.version := by
  induction l generalizing a r with
  | nil => simp at hb
  | cons x l ih =>
    obtain ⟨⟨r1, r2, h1, h2, h3, _, _⟩, hc⟩ := h
    have e1 : r1 = r := by
      have := h1.symm.trans hr
      simpa using this
    subst e1
    rcases List.mem_cons.1 hb with rfl | hb
    · have : r2 = r' := by
        have := h2.symm.trans hr'
        simpa using this
      subst this
      omega
    · have := ih hc h2 hb
      omega

theorem rootsGrow_refl (env : Env) (l : List MetaRow) : RootsGrow env l l :=
  fun row h hf => ⟨[], row, trivial, h, rfl, hf, by omega, fun _ => rfl, fun x hx => .inl hx, fun x hx => .inl hx⟩

theorem Spec.RootsGrow.trans {env : Env} {l1 l2 l3 : List MetaRow} (h1 : RootsGrow env l1 l2) (h2 : RootsGrow env l2 l3) :
    RootsGrow env l1 l3 := by
  intro row hn hf
  obtain ⟨raws, row', hc, hn', hd, hf', hv, he, hnew, hkeep⟩ := h1 row hn hf
  obtain ⟨raws2, row2, hc2, hn2, hd2, hf2, hv2, he2, hnew2, hkeep2⟩ := h2 row' hn' hf'
  refine ⟨raws ++ raws2, row2, hc.append (hd ▸ hc2), hn2, ?_, hf2, by omega, ?_, ?_, ?_⟩
  · rw [lastOf_append, ← hd, hd2]
  · intro h
    simp at h
    rw [he2 h.2, he h.1]
  · intro x hx
    rcases hnew2 x hx with hx | ⟨hx, r⟩
    · rcases hnew x hx with hx | ⟨hx, r⟩
      · exact .inl hx
      · exact .inr ⟨by simp [hx], r⟩
    · exact .inr ⟨by simp [hx], r⟩
  · intro x hx
    rcases hkeep x hx with hx | ⟨y, hy, hyv, hyd, hyr⟩
    · rcases hkeep2 x hx with hx | ⟨y, hy, hyv, hyd, hyr⟩
      · exact .inl hx
      · exact .inr ⟨y, hy, hyv, by simp [hyd], hyr⟩
    · rcases hkeep2 y hy with hy | ⟨z, hz, hzv, hzd, hzr⟩
      · exact .inr ⟨y, hy, hyv, by simp [hyd], hyr⟩
      · exact .inr ⟨z, hz, by omega, by simp [hzd], hzr⟩

theorem rootsEvolve_refl (env : Env) (repo : Repo) (l : List MetaRow) : RootsEvolve env repo l l :=
  ⟨rootsGrow_refl env l, fun h => .inl h⟩

theorem Spec.RootsEvolve.trans {env : Env} {repo : Repo} {l1 l2 l3 : List MetaRow} (h1 : RootsEvolve env repo l1 l2)
    (h2 : RootsEvolve env repo l2 l3) : RootsEvolve env repo l1 l3 := by
  refine ⟨h1.1.trans h2.1, fun h => ?_⟩
  rcases h1.2 h with h | ⟨raw, hs, hg⟩
  · exact h2.2 h
  · exact .inr ⟨raw, hs, hg.trans h2.1⟩

/-- Storing a successor of the newest Root under its version. -/
theorem rootsGrow_store {env : Env} {repo : Repo} {l : List MetaRow} {row : MetaRow} {raw : String} {r r' : Root}
    (hn : NewestRoot l row) (hr : ReadsAsRoot env row.data r) (hf : FiledSanely env row)
    (hr' : ReadsAsRoot env raw r') (hv : r'.base.version = r.base.version + 1)
    (hs : SignedToThreshold env r.base "root" (env.parseJson raw))
    (hs' : SignedToThreshold env r'.base "root" (env.parseJson raw)) :
    RootsGrow env l (⟨repo, .root, r'.base.version, raw⟩ :: l.filter (fun x => x.version != r'.base.version)) ∧
    NewestRoot (⟨repo, .root, r'.base.version, raw⟩ :: l.filter (fun x => x.version != r'.base.version))
      ⟨repo, .root, r'.base.version, raw⟩ ∧ FiledSanely env ⟨repo, .root, r'.base.version, raw⟩ := by
  have hmax := (MetaDb.latest_some hn).2
  have hle := hf r hr
  have hnew : NewestRoot (⟨repo, .root, r'.base.version, raw⟩ :: l.filter (fun x => x.version != r'.base.version))
      ⟨repo, .root, r'.base.version, raw⟩ := by
    apply MetaDb.latest_cons_max
    intro x hx
    have := hmax x (List.mem_filter.1 hx).1
    show x.version ≤ r'.base.version
    omega
  have hfs : FiledSanely env ⟨repo, .root, r'.base.version, raw⟩ := by
    intro r2 h2
    have : r2 = r' := by
      have := h2.symm.trans hr'
      simpa using this
    subst this
    show r2.base.version ≤ _
    omega
  refine ⟨?_, hnew, hfs⟩
  intro row2 hn2 _
  have e : row2 = row := by
    have := hn2.symm.trans hn
    simpa using this
  subst e
  refine ⟨[raw], _, ⟨⟨r, r', hr, hr', hv, hs, hs'⟩, trivial⟩, hnew, rfl, hfs, ?_, by simp, ?_, ?_⟩
  · show row2.version ≤ r'.base.version
    omega
  · intro x hx
    rcases List.mem_cons.1 hx with rfl | hx
    · exact .inr ⟨by simp, r', hr', rfl⟩
    · exact .inl (List.mem_filter.1 hx).1
  · intro x hx
    by_cases hxv : x.version = r'.base.version
    · exact .inr ⟨_, List.mem_cons_self, hxv.symm, by simp, r', hr', rfl⟩
    · exact .inl (List.mem_cons_of_mem _ (List.mem_filter.2 ⟨hx, by simp [hxv]⟩))

/-- Time is unchanged. -/
def SameTick (w w' : World) : Prop := w'.tick = w.tick

theorem sameTick_pre : IsPre SameTick := ⟨fun _ => rfl, fun _ _ _ h1 h2 => Eq.trans h2 h1⟩

theorem verifyRoot_tick {c : Ctx} {repo : Repo} {raw : String} {w w' : World} {o : Except Err Unit}
    (h : verifyRoot c repo raw w = (o, w')) : w'.tick = w.tick := by
  have : Preserves SameTick (verifyRoot c repo raw) := by
    unfold verifyRoot
    refine .bind sameTick_pre (.gets sameTick_pre) fun _ => .bind sameTick_pre (.lift sameTick_pre) fun _ =>
      .bind sameTick_pre (.modify ?_) fun _ => .bind sameTick_pre (.lift sameTick_pre) fun _ => .throwWhen sameTick_pre
    intro w
    cases repo <;> rfl
  exact this.of_eq h

/-- Either the last answer of the server to a request for Root `v` was not a document of an
acceptable size, or the rotation limit was reached. -/
def RotationEnded (c : Ctx) (repo : Repo) (v : Int) (t : Nat) : Prop :=
  kMaxRotations ≤ v ∨ ∃ t0, t0 < t ∧
    (c.net t0 repo "root" v = none ∨ ∃ b, c.net t0 repo "root" v = some b ∧ kMaxRootSize < (b.utf8ByteSize : Int))

theorem tryFetchRoot_none {c : Ctx} {repo : Repo} {v : Int} {w w' : World}
    (h : tryFetchRoot c repo v w = (.ok none, w')) :
    w'.tick = w.tick + 1 ∧
    (c.net w.tick repo "root" v = none ∨ ∃ b, c.net w.tick repo "root" v = some b ∧ kMaxRootSize < (b.utf8ByteSize : Int)) := by
  unfold tryFetchRoot catchStd at h
  split at h
  · rename_i e w1 he
    split at h
    · simp at h
      subst h
      rcases bind_err.1 he with he | ⟨a, w2, h1, h2⟩
      · simp only [fetchRole] at he
        split at he
        · split at he
          · simp at he
          · simp at he
            obtain ⟨_, rfl⟩ := he
            exact ⟨rfl, .inr ⟨_, by assumption, by omega⟩⟩
        · simp at he
          obtain ⟨_, rfl⟩ := he
          exact ⟨rfl, .inl (by assumption)⟩
      · simp at h2
    · simp at h
  · rw [M.bind_ok] at h
    obtain ⟨a, w1, h1, h2⟩ := h
    simp at h2

theorem tick_le_tryFetch {c : Ctx} {repo : Repo} {v : Int} {w w' : World} {o : Except Err (Option String)}
    (h : tryFetchRoot c repo v w = (o, w')) : w'.tick = w.tick + 1 := by
  unfold tryFetchRoot catchStd at h
  have key : ∀ (o' : Except Err (Option String)) w2, (do return some (← fetchRole c kMaxRootSize repo Role.root v) : U (Option String)) w = (o', w2) →
      w2.tick = w.tick + 1 := by
    intro o' w2 h2
    have hf : ∀ o3 w3, fetchRole c kMaxRootSize repo Role.root v w = (o3, w3) → w3.tick = w.tick + 1 := by
      intro o3 w3 h3
      simp only [fetchRole] at h3
      split at h3
      · split at h3 <;> (simp at h3; obtain ⟨_, rfl⟩ := h3; rfl)
      · simp at h3; obtain ⟨_, rfl⟩ := h3; rfl
    rcases bind_cases h2 with ⟨a, w1, h1, h3⟩ | ⟨e, h1, _⟩
    · simp at h3
      obtain ⟨_, rfl⟩ := h3
      exact hf _ _ h1
    · exact hf _ _ h1
  split at h
  · rename_i e w1 he
    split at h
    · simp at h; obtain ⟨_, rfl⟩ := h; exact key _ _ he
    · simp at h; obtain ⟨_, rfl⟩ := h; exact key _ _ he
  · exact key _ _ h


/-- What the rotation loop relies on: the Root in memory is the newest stored one, and it
enforces signature checks. -/
structure Synced (env : Env) (repo : Repo) (w : World) (row : MetaRow) : Prop where
  newest : NewestRoot (rootRows repo w.db) row
  reads : ReadsAsRoot env row.data (getRoot repo w)
  filed : FiledSanely env row
  policy : (getRoot repo w).policy = .check
  selfSigned : SignedToThreshold env (getRoot repo w).base "root" (env.parseJson row.data)

theorem rotateLoop_spec (c : Ctx) (repo : Repo) : ∀ (n : Nat) (v : Int) (w w' : World) (o : Except Err Unit) (row : MetaRow),
    rotateLoop c repo n v w = (o, w') → Synced c.env repo w row → v = (getRoot repo w).base.version + 1 →
    kMaxRotations ≤ v + n →
    RootsGrow c.env (rootRows repo w.db) (rootRows repo w'.db) ∧ w'.tick ≤ w.tick + n ∧
    (o = .ok () → (∃ row', Synced c.env repo w' row' ∧ (row' = row ∨ row'.version = (getRoot repo w').base.version)) ∧
      RotationEnded c repo ((getRoot repo w').base.version + 1) w'.tick)
  | 0, v, w, w', o, row, h, hs, hv, hn => by
    simp [rotateLoop] at h
    obtain ⟨rfl, rfl⟩ := h
    exact ⟨rootsGrow_refl _ _, by omega, fun _ => ⟨⟨row, hs, .inl rfl⟩, .inl (by omega)⟩⟩
  | n + 1, v, w, w', o, row, h, hs, hv, hn => by
    rw [rotateLoop] at h
    have same := tryFetchRoot_same c repo v
    rcases bind_cases h with ⟨ans, w1, h1, h⟩ | ⟨e, h1, rfl⟩
    · have hm := same.of_eq h1
      have ht := tick_le_tryFetch h1
      have hr1 : getRoot repo w1 = getRoot repo w := hm.getRoot repo
      cases ans with
      | none =>
        simp at h
        obtain ⟨rfl, rfl⟩ := h
        refine ⟨by rw [hm.1]; exact rootsGrow_refl _ _, by omega, fun _ => ⟨⟨row, ?_, .inl rfl⟩, ?_⟩⟩
        · exact ⟨by rw [hm.1]; exact hs.newest, by rw [hr1]; exact hs.reads, hs.filed, by rw [hr1]; exact hs.policy, by rw [hr1]; exact hs.selfSigned⟩
        · have := tryFetchRoot_none h1
          rw [hr1, ← hv]
          exact .inr ⟨w.tick, by omega, this.2⟩
      | some raw =>
        have hp1 : (getRoot repo w1).policy = .check := by rw [hr1]; exact hs.policy
        rcases bind_cases h with ⟨_, w2, h2, h⟩ | ⟨e, h2, rfl⟩
        · obtain ⟨hdb2, hok⟩ := verifyRoot_cases hp1 h2
          obtain ⟨r', hr', hso, hsn, hver, rfl⟩ := hok rfl
          rw [hr1] at hso hver
          have hvr : v = r'.base.version := by omega
          have hst := rootsGrow_store (repo := repo) hs.newest hs.reads hs.filed hr' hver hso hsn
          have rows3 : rootRows repo (w.db.storeRoot raw repo v) =
              ⟨repo, .root, r'.base.version, raw⟩ :: (rootRows repo w.db).filter (fun x => x.version != r'.base.version) := by
            rw [hvr]; exact MetaDb.only_storeRoot_same _ _ _ _
          rw [← rows3] at hst
          rcases bind_cases h with ⟨_, w3, h3, h⟩ | ⟨e, h3, rfl⟩
          · rcases write_cases h3 with ⟨_, hdb3, hd3, hi3⟩ | ⟨h3, _⟩
            · have hdb3' : w3.db = w.db.storeRoot raw repo v := by rw [hdb3, hdb2, hm.1]
              have hr3 : getRoot repo w3 = r' := by
                cases repo
                · show w3.img.root = r'; rw [hi3]; rfl
                · show w3.dir.root = r'; rw [hd3]; rfl
              rcases bind_cases h with ⟨_, w4, h4, h⟩ | ⟨e, h4, rfl⟩
              · rcases write_cases h4 with ⟨_, hdb4, hd4, hi4⟩ | ⟨h4, _⟩
                · have rows4 : rootRows repo w4.db = rootRows repo (w.db.storeRoot raw repo v) := by
                    rw [hdb4, hdb3']; exact MetaDb.only_clearNonRoot_root _ _ _
                  have hr4 : getRoot repo w4 = r' := by
                    rw [← hr3]
                    cases repo
                    · show w4.img.root = w3.img.root; rw [hi4]
                    · show w4.dir.root = w3.dir.root; rw [hd4]
                  have hs4 : Synced c.env repo w4 ⟨repo, .root, r'.base.version, raw⟩ :=
                    ⟨by rw [rows4]; exact hst.2.1, by rw [hr4]; exact hr', hst.2.2, by rw [hr4]; exact Root.ofJson_policy hr', by rw [hr4]; exact hsn⟩
                  have ht4 : w4.tick = w1.tick := by
                    have a : w3.tick = (setRoot repo r' w1).tick := by
                      unfold write at h3; split at h3 <;> simp at h3; rw [← h3]
                    have b : w4.tick = w3.tick := by
                      unfold write at h4; split at h4 <;> simp at h4; rw [← h4]
                    rw [b, a]; cases repo <;> rfl
                  obtain ⟨g, t, k⟩ := rotateLoop_spec c repo n (v + 1) w4 w' o _ h hs4 (by rw [hr4]; omega) (by omega)
                  rw [rows4] at g
                  refine ⟨hst.1.trans g, by omega, fun ho => ?_⟩
                  obtain ⟨⟨row', hs', he⟩, hend⟩ := k ho
                  refine ⟨⟨row', hs', ?_⟩, hend⟩
                  rcases he with rfl | he
                  · right
                    show r'.base.version = _
                    have hrr := hs'.reads
                    have : getRoot repo w' = r' := by
                      have := hrr.symm.trans hr'
                      simpa using this
                    rw [this]
                  · exact .inr he
                · simp at h4
              · rcases write_cases h4 with ⟨h4, _⟩ | ⟨_, rfl⟩
                · simp at h4
                · refine ⟨by rw [hdb3']; exact hst.1, ?_, by simp⟩
                  have a : w'.tick = (setRoot repo r' w1).tick := by
                    unfold write at h3; split at h3 <;> simp at h3; rw [← h3]
                  have b : (setRoot repo r' w1).tick = w1.tick := by cases repo <;> rfl
                  omega
            · simp at h3
          · rcases write_cases h3 with ⟨h3, _⟩ | ⟨_, rfl⟩
            · simp at h3
            · refine ⟨by rw [hdb2, hm.1]; exact rootsGrow_refl _ _, ?_, by simp⟩
              have b : (setRoot repo r' w1).tick = w1.tick := by cases repo <;> rfl
              omega
        · obtain ⟨hdb2, _⟩ := verifyRoot_cases hp1 h2
          refine ⟨by rw [hdb2, hm.1]; exact rootsGrow_refl _ _, ?_, by simp⟩
          have := verifyRoot_tick h2
          omega
    · have hm := same.of_eq h1
      have ht := tick_le_tryFetch h1
      exact ⟨by rw [hm.1]; exact rootsGrow_refl _ _, by omega, by simp⟩

end Aktualizr
