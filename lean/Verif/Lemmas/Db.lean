import Verif.Model.World

/-! Lemmas about the metadata tables. -/

namespace Aktualizr.MetaDb

theorem latest_none {l : List MetaRow} : latest l = none ↔ l = [] := by
  cases l with
  | nil => simp [latest]
  | cons r rs =>
    simp [latest]
    split
    · simp
    · split <;> simp

theorem latest_some : ∀ {l : List MetaRow} {r : MetaRow}, latest l = some r → r ∈ l ∧ ∀ x ∈ l, x.version ≤ r.version
  | [], r, h => by simp [latest] at h
  | a :: l, r, h => by
    simp only [latest] at h
    split at h
    · rename_i hn
      cases h
      rw [latest_none] at hn
      subst hn
      simp
    · rename_i b hb
      obtain ⟨h1, h2⟩ := latest_some hb
      split at h
      · cases h
        refine ⟨List.mem_cons_of_mem _ h1, ?_⟩
        intro x hx
        rcases List.mem_cons.1 hx with rfl | hx
        · omega
        · exact h2 x hx
      · cases h
        refine ⟨by simp, ?_⟩
        intro x hx
        rcases List.mem_cons.1 hx with rfl | hx
        · omega
        · have := h2 x hx; omega

theorem latest_cons_max {a : MetaRow} {l : List MetaRow} (h : ∀ x ∈ l, x.version ≤ a.version) :
    latest (a :: l) = some a := by
  simp only [latest]
  split
  · rfl
  · rename_i b hb
    have := h b (latest_some hb).1
    split
    · omega
    · rfl

@[simp] theorem mem_storeRoot {db : MetaDb} {data : String} {repo : Repo} {v : Int} {x : MetaRow} :
    x ∈ (db.storeRoot data repo v).rows ↔
      x = ⟨repo, .root, v, data⟩ ∨ (x ∈ db.rows ∧ ¬ (x.repo = repo ∧ x.type = .root ∧ x.version = v)) := by
  simp only [storeRoot, List.mem_cons, List.mem_filter]
  simp [-not_and, Decidable.not_and_iff_or_not, or_assoc]

@[simp] theorem mem_storeNonRoot {db : MetaDb} {data : String} {repo : Repo} {t : RoleKind} {x : MetaRow} :
    x ∈ (db.storeNonRoot data repo t).rows ↔
      x = ⟨repo, t, -1, data⟩ ∨ (x ∈ db.rows ∧ ¬ (x.repo = repo ∧ x.type = t)) := by
  simp only [storeNonRoot, List.mem_cons, List.mem_filter]
  simp [-not_and, Decidable.not_and_iff_or_not]

@[simp] theorem mem_clearNonRoot {db : MetaDb} {repo : Repo} {x : MetaRow} :
    x ∈ (db.clearNonRoot repo).rows ↔ x ∈ db.rows ∧ (x.repo = repo → x.type = .root) := by
  simp [clearNonRoot, Decidable.imp_iff_not_or]

/-- The rows of (repo, type), in table order. -/
def only (db : MetaDb) (repo : Repo) (type : RoleKind) : List MetaRow :=
  db.rows.filter (fun r => r.repo == repo && r.type == type)

theorem latestOf_only (db : MetaDb) (repo : Repo) (type : RoleKind) :
    db.latestOf repo type = latest (db.only repo type) := rfl

theorem mem_only {db : MetaDb} {repo : Repo} {type : RoleKind} {x : MetaRow} :
    x ∈ db.only repo type ↔ x ∈ db.rows ∧ x.repo = repo ∧ x.type = type := by
  simp [only]

theorem only_clearNonRoot_root (db : MetaDb) (repo repo' : Repo) :
    (db.clearNonRoot repo').only repo .root = db.only repo .root := by
  simp only [only, clearNonRoot, List.filter_filter]
  apply List.filter_congr
  intro x _
  cases h : x.type <;> simp

theorem only_clearNonRoot_other (db : MetaDb) {repo repo' : Repo} (t : RoleKind) (h : repo ≠ repo') :
    (db.clearNonRoot repo').only repo t = db.only repo t := by
  simp only [only, clearNonRoot, List.filter_filter]
  apply List.filter_congr
  intro x _
  by_cases h1 : x.repo = repo
  · simp [h1, h]
  · simp [h1]

theorem only_clearNonRoot_same (db : MetaDb) (repo : Repo) {t : RoleKind} (h : t ≠ .root) :
    (db.clearNonRoot repo).only repo t = [] := by
  simp only [only, clearNonRoot, List.filter_filter]
  rw [List.filter_eq_nil_iff]
  intro x _
  simp
  intro h1 h2
  exact ⟨h1, h2 ▸ h⟩

theorem only_storeNonRoot_other (db : MetaDb) (data : String) {repo repo' : Repo} {t t' : RoleKind}
    (h : ¬ (repo = repo' ∧ t = t')) : (db.storeNonRoot data repo' t').only repo t = db.only repo t := by
  simp only [only, storeNonRoot, List.filter_cons, List.filter_filter]
  have h1 : (repo' == repo && t' == t) = false := by
    simp
    intro a b
    exact h ⟨a.symm, b.symm⟩
  simp only [h1]
  simp
  apply List.filter_congr
  intro x _
  by_cases h2 : x.repo = repo
  · by_cases h3 : x.type = t
    · simp [h2, h3]
      exact Decidable.not_and_iff_or_not.1 h
    · simp [h3]
  · simp [h2]

theorem only_storeNonRoot_same (db : MetaDb) (data : String) (repo : Repo) (t : RoleKind) :
    (db.storeNonRoot data repo t).only repo t = [⟨repo, t, -1, data⟩] := by
  simp only [only, storeNonRoot, List.filter_cons, List.filter_filter]
  simp

theorem only_storeRoot_other (db : MetaDb) (data : String) (v : Int) {repo repo' : Repo} {t : RoleKind}
    (h : ¬ (repo = repo' ∧ t = .root)) : (db.storeRoot data repo' v).only repo t = db.only repo t := by
  simp only [only, storeRoot, List.filter_cons, List.filter_filter]
  have h1 : (repo' == repo && RoleKind.root == t) = false := by
    simp
    intro a b
    exact h ⟨a.symm, b.symm⟩
  simp only [h1]
  simp
  apply List.filter_congr
  intro x _
  by_cases h2 : x.repo = repo
  · by_cases h3 : x.type = t
    · simp [h2, h3]
      exact Or.inl (Decidable.not_and_iff_or_not.1 h)
    · simp [h3]
  · simp [h2]

theorem only_storeRoot_same (db : MetaDb) (data : String) (v : Int) (repo : Repo) :
    (db.storeRoot data repo v).only repo .root =
      ⟨repo, .root, v, data⟩ :: (db.only repo .root).filter (fun r => r.version != v) := by
  simp only [only, storeRoot, List.filter_cons, List.filter_filter]
  simp
  apply List.filter_congr
  intro x _
  simp only [bne]
  cases x.repo == repo <;> cases x.type == RoleKind.root <;> cases x.version == v <;> rfl

end Aktualizr.MetaDb
