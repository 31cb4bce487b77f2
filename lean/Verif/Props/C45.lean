import Verif.Model.Blob
import Verif.Lemmas.Db
import Verif.Lemmas.Except
import Verif.Spec.ToyRepo

/-!
# C45: metadata storage

The tables refine three maps.
-/

namespace Aktualizr.Spec

/-- What a user of the storage thinks of: a Root per repository and version, one document per repository and other
role, one document per delegated role. -/
structure Shelf where
  roots : Repo → Int → Option String := fun _ _ => none
  others : Repo → RoleKind → Option String := fun _ _ => none
  delegated : String → Option String := fun _ => none

/-- A map changed at one place. -/
def put {α β : Type} [DecidableEq α] (f : α → β) (a : α) (b : β) : α → β := fun x => if x = a then b else f x

/-- Opening the storage: a Root without version goes where its content says it belongs, if that can be read. -/
def settle (env : Env) (s : Shelf) (repo : Repo) : Except Err Shelf :=
  match s.roots repo (-1) with
  | none => .ok s
  | some d =>
    if d = "" then .error (.ub "std::string(nullptr)")
    else match extractVersionUntrusted env (cString d) with
      | .error e => .error e
      | .ok v => if v < 0 then .ok s else .ok { s with roots := put s.roots repo (put (put (s.roots repo) v (some d)) (-1) none) }

/-- What the calls mean. -/
def Shelf.call (env : Env) (s : Shelf) : MetaDb.Call → Except Err Shelf
  | .storeRoot data repo version => .ok { s with roots := put s.roots repo (put (s.roots repo) version (some data)) }
  | .storeNonRoot data repo type => .ok { s with others := put s.others repo (put (s.others repo) type (some data)) }
  | .clearNonRoot repo => .ok { s with others := put s.others repo (fun _ => none) }
  | .clearMetadata => .ok { s with roots := fun _ _ => none, others := fun _ _ => none }
  | .storeDelegation data role => .ok { s with delegated := put s.delegated role (some data) }
  | .deleteDelegation role => .ok { s with delegated := put s.delegated role none }
  | .clearDelegations => .ok { s with delegated := fun _ => none }
  | .reopen =>
    match settle env s .director with
    | .error (.ub w) => .error (.ub w)
    | .error _ => .ok s
    | .ok s1 => match settle env s1 .image with
      | .error (.ub w) => .error (.ub w)
      | .error _ => .ok s1
      | .ok s2 => .ok s2

/-- A history. -/
def Shelf.calls (env : Env) (s : Shelf) : List MetaDb.Call → Except Err Shelf
  | [] => .ok s
  | c :: cs => match s.call env c with
    | .error e => .error e
    | .ok s1 => Shelf.calls env s1 cs

/-- Only documents of other roles are stored with `storeNonRoot`. -/
def ProperCall : MetaDb.Call → Prop
  | .storeNonRoot _ _ type => type ≠ .root
  | _ => True

/-- `v` is the greatest version of a Root. -/
def GreatestRoot (s : Shelf) (repo : Repo) (v : Int) : Prop :=
  (s.roots repo v).isSome ∧ ∀ v', (s.roots repo v').isSome → v' ≤ v

end Aktualizr.Spec

namespace Aktualizr

open Spec MetaDb

/-- The rows of a Root version. -/
def MetaDb.rootsAt (db : MetaDb) (repo : Repo) (v : Int) : List MetaRow :=
  db.rows.filter (fun r => r.repo == repo && r.type == .root && r.version == v)

/-- The tables hold what is on the shelf, once. -/
structure Holds (db : MetaDb) (s : Shelf) : Prop where
  roots : ∀ repo v, (db.rootsAt repo v).map (·.data) = (s.roots repo v).toList
  others : ∀ repo k, k ≠ .root → (db.only repo k).map (·.data) = (s.others repo k).toList
  delegated : ∀ n, (db.delegations.filter (fun p => p.1 == n)).map (·.2) = (s.delegated n).toList

theorem Holds.empty : Holds {} {} := ⟨fun _ _ => rfl, fun _ _ _ => rfl, fun _ => rfl⟩

theorem filter_none {α : Type} {p q : α → Bool} {l : List α} (h : ∀ x, q x = true → p x = false) :
    (l.filter q).filter p = [] := by
  rw [List.filter_eq_nil_iff]
  intro x hx
  rw [h x (List.mem_filter.1 hx).2]
  simp

theorem filter_same {α : Type} {p q : α → Bool} {l : List α} (h : ∀ x, p x = true → q x = true) :
    (l.filter q).filter p = l.filter p := by
  rw [List.filter_filter]
  apply List.filter_congr
  intro x _
  cases hp : p x with
  | false => rfl
  | true => rw [h x hp]; rfl

theorem rootsAt_storeRoot_same (db : MetaDb) (data : String) (repo : Repo) (v : Int) :
    (db.storeRoot data repo v).rootsAt repo v = [⟨repo, .root, v, data⟩] := by
  unfold MetaDb.rootsAt MetaDb.storeRoot
  rw [List.filter_cons_of_pos (by simp), filter_none]
  intro x hx
  rw [Bool.not_eq_true'] at hx
  exact hx

theorem rootsAt_storeRoot_other (db : MetaDb) (data : String) {repo repo' : Repo} {v v' : Int} (h : ¬ (repo' = repo ∧ v' = v)) :
    (db.storeRoot data repo v).rootsAt repo' v' = db.rootsAt repo' v' := by
  unfold MetaDb.rootsAt MetaDb.storeRoot
  rw [List.filter_cons_of_neg, filter_same]
  · intro x hx
    simp only [Bool.and_eq_true, beq_iff_eq] at hx
    simp only [Bool.not_eq_true', Bool.and_eq_false_iff, beq_eq_false_iff_ne, ne_eq]
    by_cases h1 : x.repo = repo
    · by_cases h2 : x.version = v
      · exact absurd ⟨hx.1.1.symm.trans h1, hx.2.symm.trans h2⟩ h
      · exact .inr h2
    · exact .inl (.inl h1)
  · simp only [Bool.and_eq_true, beq_iff_eq, not_and]
    intro h1 h2
    exact h ⟨h1.1.symm, h2.symm⟩

theorem rootsAt_storeNonRoot (db : MetaDb) (data : String) (repo repo' : Repo) (v : Int) {k : RoleKind} (h : k ≠ .root) :
    (db.storeNonRoot data repo' k).rootsAt repo v = db.rootsAt repo v := by
  unfold MetaDb.rootsAt MetaDb.storeNonRoot
  rw [List.filter_cons_of_neg, filter_same]
  · intro x hx
    simp only [Bool.and_eq_true, beq_iff_eq] at hx
    simp only [Bool.not_eq_true', Bool.and_eq_false_iff, beq_eq_false_iff_ne, ne_eq]
    exact .inr (fun e => h (e ▸ hx.1.2))
  · simp [h]

theorem rootsAt_clearNonRoot (db : MetaDb) (repo repo' : Repo) (v : Int) :
    (db.clearNonRoot repo').rootsAt repo v = db.rootsAt repo v := by
  unfold MetaDb.rootsAt MetaDb.clearNonRoot
  rw [filter_same]
  intro x hx
  simp only [Bool.and_eq_true, beq_iff_eq] at hx
  simp [hx.1.2]

theorem rootsAt_empty_of {db : MetaDb} {s : Shelf} (h : Holds db s) {repo : Repo} {v : Int} :
    db.rows.find? (fun r => r.repo == repo && r.type == .root && r.version == v) = none ↔ s.roots repo v = none := by
  have := h.roots repo v
  unfold MetaDb.rootsAt at this
  constructor
  · intro hf
    rw [List.find?_eq_none] at hf
    rw [List.filter_eq_nil_iff.2 (fun x hx => by simpa using hf x hx)] at this
    cases hr : s.roots repo v with
    | none => rfl
    | some d => rw [hr] at this; simp at this
  · intro hr
    rw [hr] at this
    rw [List.find?_eq_none]
    intro x hx hp
    have hm : x ∈ db.rows.filter (fun r => r.repo == repo && r.type == .root && r.version == v) := List.mem_filter.2 ⟨hx, hp⟩
    rw [List.map_eq_nil_iff.1 this] at hm
    cases hm

theorem row_of {db : MetaDb} {s : Shelf} (h : Holds db s) {r : MetaRow} (hr : r ∈ db.rows) (ht : r.type = .root) :
    s.roots r.repo r.version = some r.data := by
  have h1 := h.roots r.repo r.version
  have h2 : r ∈ db.rootsAt r.repo r.version := by
    unfold MetaDb.rootsAt
    rw [List.mem_filter]
    exact ⟨hr, by simp [ht]⟩
  have h3 : r.data ∈ (db.rootsAt r.repo r.version).map (·.data) := List.mem_map_of_mem h2
  rw [h1, Option.mem_toList] at h3
  exact h3

theorem find_of {db : MetaDb} {s : Shelf} (h : Holds db s) {repo : Repo} {v : Int} :
    (db.rows.find? (fun r => r.repo == repo && r.type == .root && r.version == v)).map (·.data) = s.roots repo v := by
  cases hf : db.rows.find? (fun r => r.repo == repo && r.type == .root && r.version == v) with
  | none => rw [(rootsAt_empty_of h).1 hf]; rfl
  | some r =>
    have hp := List.find?_some hf
    simp only [Bool.and_eq_true, beq_iff_eq] at hp
    have := row_of h (List.mem_of_find?_eq_some hf) hp.1.2
    rw [hp.1.1, hp.2] at this
    rw [this]
    rfl

theorem moved_data {q p p' : MetaRow → Bool} {f : MetaRow → MetaRow} {l : List MetaRow} (hf : ∀ x, (f x).data = x.data)
    (h : ∀ x, (q x && p (f x)) = p' x) : (((l.filter q).map f).filter p).map (·.data) = (l.filter p').map (·.data) := by
  induction l with
  | nil => rfl
  | cons a l ih =>
    have := h a
    cases hq : q a with
    | false =>
      rw [List.filter_cons_of_neg (by simp [hq]), ih, List.filter_cons_of_neg]
      rw [← this, hq]
      simp
    | true =>
      rw [List.filter_cons_of_pos hq, List.map_cons]
      rw [hq, Bool.true_and] at this
      cases hp : p (f a) with
      | false =>
        rw [List.filter_cons_of_neg (by simp [hp]), ih, List.filter_cons_of_neg]
        rw [← this, hp]
        simp
      | true =>
        rw [List.filter_cons_of_pos hp, List.map_cons, ih, hf, List.filter_cons_of_pos (by rw [← this, hp]), List.map_cons]

/-- Settling the Root without version. -/
theorem clean_holds {env : Env} {db : MetaDb} {s : Shelf} (h : Holds db s) (repo : Repo) :
    (∃ e, db.cleanMetaVersion env repo = .error e ∧ settle env s repo = .error e) ∨
    ∃ db' s', db.cleanMetaVersion env repo = .ok db' ∧ settle env s repo = .ok s' ∧ Holds db' s' := by
  have hroot := find_of h (repo := repo) (v := -1)
  unfold MetaDb.cleanMetaVersion settle
  cases hf : db.rows.find? (fun r => r.repo == repo && r.type == .root && r.version == -1) with
  | none =>
    rw [hf] at hroot
    rw [← hroot]
    exact .inr ⟨db, s, rfl, rfl, h⟩
  | some r =>
    rw [hf] at hroot
    rw [← hroot]
    simp only [Option.map_some]
    by_cases hd : r.data = ""
    · rw [if_pos hd, if_pos hd]
      exact .inl ⟨_, rfl, rfl⟩
    rw [if_neg hd, if_neg hd]
    cases hv : extractVersionUntrusted env (cString r.data) with
    | error e => exact .inl ⟨e, rfl, rfl⟩
    | ok v =>
      simp only [bind, Except.bind]
      by_cases hneg : v < 0
      · rw [if_pos hneg, if_pos hneg]
        exact .inr ⟨db, s, rfl, rfl, h⟩
      rw [if_neg hneg, if_neg hneg]
      refine .inr ⟨_, _, rfl, rfl, ?_, ?_, h.delegated⟩
      · intro repo' v'
        have hm1 : (db.rootsAt repo (-1)).map (·.data) = [r.data] := by
          rw [h.roots, ← hroot]; rfl
        have hdata : ∀ x : MetaRow, (if (x.repo == repo && x.type == .root && x.version == -1) = true then { x with version := v } else x).data = x.data := by
          intro x; split <;> rfl
        by_cases hr : repo' = repo
        · subst hr
          simp only [put, if_true]
          by_cases hv' : v' = -1
          · subst hv'
            rw [if_pos rfl]
            unfold MetaDb.rootsAt
            rw [moved_data (p' := fun _ => false) hdata]
            · simp
            · intro x
              grind
          · rw [if_neg hv']
            by_cases hvv : v' = v
            · subst hvv
              rw [if_pos rfl]
              unfold MetaDb.rootsAt
              rw [moved_data (p' := fun r => r.repo == repo' && r.type == .root && r.version == -1) hdata]
              · exact hm1
              · intro x
                grind
            · rw [if_neg hvv, ← h.roots]
              unfold MetaDb.rootsAt
              rw [moved_data (p' := fun r => r.repo == repo' && r.type == .root && r.version == v') hdata]
              intro x
              grind
        · simp only [put, if_neg hr]
          rw [← h.roots]
          unfold MetaDb.rootsAt
          rw [moved_data (p' := fun r => r.repo == repo' && r.type == .root && r.version == v') hdata]
          intro x
          grind
      · intro repo' k hk
        simp only
        rw [← h.others repo' k hk]
        unfold MetaDb.only
        rw [moved_data (p' := fun r => r.repo == repo' && r.type == k)]
        · intro x; split <;> rfl
        · intro x
          grind

/-- Every call keeps the correspondence. -/
theorem call_holds {env : Env} {db : MetaDb} {s : Shelf} (h : Holds db s) (c : MetaDb.Call) (hc : ProperCall c) :
    (∃ e, db.call env c = .error e ∧ s.call env c = .error e) ∨
    ∃ db' s', db.call env c = .ok db' ∧ s.call env c = .ok s' ∧ Holds db' s' := by
  cases c with
  | storeRoot data repo version =>
    refine .inr ⟨_, _, rfl, rfl, ?_, ?_, h.delegated⟩
    · intro repo' v'
      simp only [put]
      by_cases hr : repo' = repo
      · subst hr
        rw [if_pos rfl]
        simp only [put]
        by_cases hv : v' = version
        · subst hv
          rw [if_pos rfl, rootsAt_storeRoot_same]
          rfl
        · rw [if_neg hv, rootsAt_storeRoot_other _ _ (by simp [hv]), h.roots]
      · rw [if_neg hr, rootsAt_storeRoot_other _ _ (by simp [hr]), h.roots]
    · intro repo' k hk
      rw [only_storeRoot_other _ _ _ (by simp [hk]), h.others _ _ hk]
  | storeNonRoot data repo type =>
    refine .inr ⟨_, _, rfl, rfl, ?_, ?_, h.delegated⟩
    · intro repo' v'
      rw [rootsAt_storeNonRoot _ _ _ _ _ hc, h.roots]
    · intro repo' k hk
      simp only [put]
      by_cases hr : repo' = repo
      · subst hr
        rw [if_pos rfl]
        simp only [put]
        by_cases hk' : k = type
        · subst hk'
          rw [if_pos rfl, only_storeNonRoot_same]
          rfl
        · rw [if_neg hk', only_storeNonRoot_other _ _ (by simp [hk']), h.others _ _ hk]
      · rw [if_neg hr, only_storeNonRoot_other _ _ (by simp [hr]), h.others _ _ hk]
  | clearNonRoot repo =>
    refine .inr ⟨_, _, rfl, rfl, ?_, ?_, h.delegated⟩
    · intro repo' v'
      rw [rootsAt_clearNonRoot, h.roots]
    · intro repo' k hk
      simp only [put]
      by_cases hr : repo' = repo
      · subst hr
        rw [if_pos rfl, only_clearNonRoot_same _ _ hk]
        rfl
      · rw [if_neg hr, only_clearNonRoot_other _ _ hr, h.others _ _ hk]
  | clearMetadata =>
    exact .inr ⟨_, _, rfl, rfl, fun _ _ => rfl, fun _ _ _ => rfl, h.delegated⟩
  | storeDelegation data role =>
    refine .inr ⟨_, _, rfl, rfl, h.roots, h.others, ?_⟩
    intro n
    simp only [put, MetaDb.storeDelegation]
    by_cases hn : n = role
    · subst hn
      rw [if_pos rfl, List.filter_cons_of_pos (by simp), filter_none]
      · rfl
      · intro x hx
        simpa using hx
    · rw [if_neg hn, List.filter_cons_of_neg (by simp; exact fun e => hn e.symm), filter_same, h.delegated]
      intro x hx
      simp only [beq_iff_eq] at hx
      simp [hx, hn]
  | deleteDelegation role =>
    refine .inr ⟨_, _, rfl, rfl, h.roots, h.others, ?_⟩
    intro n
    simp only [put, MetaDb.deleteDelegation]
    by_cases hn : n = role
    · subst hn
      rw [if_pos rfl, filter_none]
      · rfl
      · intro x hx
        simpa using hx
    · rw [if_neg hn, filter_same, h.delegated]
      intro x hx
      simp only [beq_iff_eq] at hx
      simp [hx, hn]
  | clearDelegations => exact .inr ⟨_, _, rfl, rfl, h.roots, h.others, fun _ => rfl⟩
  | reopen =>
    unfold MetaDb.call MetaDb.openStorage Shelf.call
    rcases clean_holds (env := env) h .director with ⟨e, h1, h2⟩ | ⟨db1, s1, h1, h2, h3⟩
    · rw [h1, h2]
      cases e with
      | ub w => exact .inl ⟨_, rfl, rfl⟩
      | upt e => exact .inr ⟨_, _, rfl, rfl, h⟩
      | std w => exact .inr ⟨_, _, rfl, rfl, h⟩
      | crash => exact .inr ⟨_, _, rfl, rfl, h⟩
    · rw [h1, h2]
      simp only
      rcases clean_holds (env := env) h3 .image with ⟨e, h4, h5⟩ | ⟨db2, s2, h4, h5, h6⟩
      · rw [h4, h5]
        cases e with
        | ub w => exact .inl ⟨_, rfl, rfl⟩
        | upt e => exact .inr ⟨_, _, rfl, rfl, h3⟩
        | std w => exact .inr ⟨_, _, rfl, rfl, h3⟩
        | crash => exact .inr ⟨_, _, rfl, rfl, h3⟩
      · rw [h4, h5]
        exact .inr ⟨_, _, rfl, rfl, h6⟩

theorem calls_holds {env : Env} (cs : List MetaDb.Call) (hc : ∀ c ∈ cs, ProperCall c) {db : MetaDb} {s : Shelf} (h : Holds db s) :
    (∃ e, db.calls env cs = .error e ∧ s.calls env cs = .error e) ∨
    ∃ db' s', db.calls env cs = .ok db' ∧ s.calls env cs = .ok s' ∧ Holds db' s' := by
  induction cs generalizing db s with
  | nil => exact .inr ⟨db, s, rfl, rfl, h⟩
  | cons c cs ih =>
    simp only [MetaDb.calls, Shelf.calls, bind, Except.bind]
    rcases call_holds (env := env) h c (hc c (by simp)) with ⟨e, h1, h2⟩ | ⟨db1, s1, h1, h2, h3⟩
    · rw [h1, h2]
      exact .inl ⟨e, rfl, rfl⟩
    · rw [h1, h2]
      exact ih (fun c h' => hc c (by simp [h'])) h3

theorem latest_single {l : List MetaRow} {d : Option String} (h : l.map (·.data) = d.toList) :
    (MetaDb.latest l).map (·.data) = d := by
  cases l with
  | nil =>
    cases d with
    | none => rfl
    | some x => simp at h
  | cons a l =>
    cases d with
    | none => simp at h
    | some x =>
      simp only [List.map_cons, Option.toList_some, List.cons.injEq, List.map_eq_nil_iff] at h
      obtain ⟨h1, rfl⟩ := h
      rw [← h1]
      rfl

theorem lookup_of_filter {l : List (String × String)} {n : String} :
    l.lookup n = ((l.filter (fun p => p.1 == n)).map (·.2)).head? := by
  induction l with
  | nil => rfl
  | cons a l ih =>
    rw [List.lookup_cons]
    by_cases h : n = a.1
    · subst h
      simp
    · rw [List.filter_cons_of_neg (by simp; exact fun e => h e.symm), ← ih]
      have : (n == a.1) = false := by simpa using h
      rw [this]

/-- C45: after any history of calls, starting from an empty database, loading returns what was stored last in the
place asked for: a non-Root document per repository and role, a Root per repository and version, the Root of the
greatest version, a document per delegated role. (`blobText`: cut at the first NUL, undefined if empty.) -/
theorem C45_loads_last_stored (env : Env) (cs : List MetaDb.Call) (hc : ∀ c ∈ cs, ProperCall c) (db : MetaDb)
    (h : MetaDb.calls env {} cs = .ok db) :
    ∃ s, Shelf.calls env {} cs = .ok s ∧
      (∀ repo k, k ≠ .root → db.loadNonRootBlob repo k = blobText (s.others repo k)) ∧
      (∀ repo v, 0 ≤ v → db.loadRootBlob repo v = .ok (((s.roots repo v).filter (· ≠ "")).map cString)) ∧
      (∀ repo v, v < 0 → ((∀ v', s.roots repo v' = none) ∧ db.loadRootBlob repo v = .ok none) ∨
        ∃ g, GreatestRoot s repo g ∧ db.loadRootBlob repo v = blobText (s.roots repo g)) ∧
      (∀ n, db.loadDelegationBlob n = blobText (s.delegated n)) := by
  rcases calls_holds (env := env) cs hc Holds.empty with ⟨e, h1, _⟩ | ⟨db', s, h1, h2, hh⟩
  · rw [h] at h1; cases h1
  rw [h] at h1
  injection h1 with h1
  subst h1
  refine ⟨s, h2, ?_, ?_, ?_, ?_⟩
  · intro repo k hk
    unfold MetaDb.loadNonRootBlob
    rw [latestOf_only, latest_single (hh.others repo k hk)]
  · intro repo v hv
    unfold MetaDb.loadRootBlob MetaDb.loadRootVersion
    rw [if_neg (by omega), ← find_of hh]
    cases db.rows.find? (fun r => r.repo == repo && r.type == .root && r.version == v) with
    | none => rfl
    | some r =>
      simp only [Option.map_some]
      by_cases hd : r.data = ""
      · rw [if_pos hd, hd]; rfl
      · rw [if_neg hd]; simp [hd, Option.filter_some]
  · intro repo v hv
    unfold MetaDb.loadRootBlob
    rw [if_pos hv]
    cases hl : db.latestOf repo .root with
    | none =>
      refine .inl ⟨fun v' => ?_, rfl⟩
      rw [latestOf_only, latest_none] at hl
      cases hr : s.roots repo v' with
      | none => rfl
      | some d =>
        have h3 := hh.roots repo v'
        rw [hr] at h3
        have : db.rootsAt repo v' = [] := by
          unfold MetaDb.rootsAt
          rw [List.filter_eq_nil_iff]
          intro x hx hp
          simp only [Bool.and_eq_true, beq_iff_eq] at hp
          have : x ∈ db.only repo .root := mem_only.2 ⟨hx, hp.1⟩
          rw [hl] at this
          cases this
        rw [this] at h3
        simp at h3
    | some r =>
      rw [latestOf_only] at hl
      obtain ⟨hm, hmax⟩ := latest_some hl
      obtain ⟨hm1, hm2, hm3⟩ := mem_only.1 hm
      have hr := row_of hh hm1 hm3
      rw [hm2] at hr
      refine .inr ⟨r.version, ⟨by rw [hr]; rfl, ?_⟩, by rw [hr]; rfl⟩
      intro v' hv'
      have h3 := find_of hh (repo := repo) (v := v')
      cases hf : db.rows.find? (fun r => r.repo == repo && r.type == .root && r.version == v') with
      | none => rw [hf] at h3; rw [← h3] at hv'; cases hv'
      | some x =>
        have hp := List.find?_some hf
        simp only [Bool.and_eq_true, beq_iff_eq] at hp
        rw [← hp.2]
        exact hmax x (mem_only.2 ⟨List.mem_of_find?_eq_some hf, hp.1⟩)
  · intro n
    unfold MetaDb.loadDelegationBlob MetaDb.loadDelegation
    rw [lookup_of_filter, hh.delegated]
    cases s.delegated n <;> rfl

/-- Text without NUL is returned as it was stored. -/
theorem C45_text_unchanged (d : String) (hd : d ≠ "") (h : Char.ofNat 0 ∉ d.toList) : blobText (some d) = .ok (some d) := by
  have : cString d = d := by
    unfold cString
    have : ∀ l : List Char, Char.ofNat 0 ∉ l → l.takeWhile (fun c => c ≠ Char.ofNat 0) = l := by
      intro l
      induction l with
      | nil => intro _; rfl
      | cons a l ih =>
        intro hl
        simp only [List.mem_cons, not_or] at hl
        rw [List.takeWhile_cons_of_pos (by simpa using fun e => hl.1 e.symm), ih hl.2]
    rw [this _ h]
    exact String.ofList_toList
  simp only [blobText]
  rw [if_neg hd, this]

/-- C45: storing a Root touches nothing else, whatever is in the tables. -/
theorem C45_storeRoot_frame (db : MetaDb) (data : String) (repo : Repo) (v : Int) (x : MetaRow)
    (hx : ¬ (x.repo = repo ∧ x.type = .root ∧ x.version = v)) : x ∈ (db.storeRoot data repo v).rows ↔ x ∈ db.rows := by
  rw [mem_storeRoot]
  constructor
  · rintro (rfl | h)
    · exact absurd ⟨rfl, rfl, rfl⟩ hx
    · exact h.1
  · exact fun h => .inr ⟨h, hx⟩

/-- C45: loading all delegations succeeds if none of the stored documents is empty, and then returns each of them
whole, under its name, and nothing else. -/
theorem C45_all_delegations (env : Env) (cs : List MetaDb.Call) (hc : ∀ c ∈ cs, ProperCall c) (db : MetaDb)
    (h : MetaDb.calls env {} cs = .ok db) :
    ∃ s, Shelf.calls env {} cs = .ok s ∧
      (db.loadAllDelegations.1 = true ↔ ∀ n, s.delegated n ≠ some "") ∧
      (db.loadAllDelegations.1 = true → ∀ n d, (n, d) ∈ db.loadAllDelegations.2 ↔ s.delegated n = some d) := by
  rcases calls_holds (env := env) cs hc Holds.empty with ⟨e, h1, _⟩ | ⟨db', s, h1, h2, hh⟩
  · rw [h] at h1; cases h1
  rw [h] at h1
  injection h1 with h1
  subst h1
  have key : ∀ n d, (n, d) ∈ db.delegations ↔ s.delegated n = some d := by
    intro n d
    have hd := hh.delegated n
    have : (n, d) ∈ db.delegations ↔ d ∈ (db.delegations.filter (fun p => p.1 == n)).map (·.2) := by
      simp only [List.mem_map, List.mem_filter, beq_iff_eq, Prod.exists]
      constructor
      · intro h; exact ⟨n, d, ⟨h, rfl⟩, rfl⟩
      · rintro ⟨a, b, ⟨h, rfl⟩, rfl⟩; exact h
    rw [this, hd]
    cases s.delegated n <;> simp [eq_comm]
  refine ⟨s, h2, ?_, ?_⟩
  · simp only [MetaDb.loadAllDelegations, List.all_eq_true]
    constructor
    · intro h n hn
      have := h (n, "") ((key n "").mpr hn)
      simp at this
    · rintro h ⟨n, d⟩ hp
      have hd := (key n d).mp hp
      have : d ≠ "" := fun e => h n (by rw [hd, e])
      simpa using this
  · intro hall n d
    simp only [MetaDb.loadAllDelegations] at hall ⊢
    have htw : ∀ (l : List (String × String)), l.all (fun p => p.2 != "") = true → l.takeWhile (fun p => p.2 != "") = l := by
      intro l hl
      induction l with
      | nil => rfl
      | cons p l ih =>
        rw [List.all_cons, Bool.and_eq_true] at hl
        rw [List.takeWhile_cons, if_pos hl.1, ih hl.2]
    rw [htw _ hall]
    exact key n d

/-- Not vacuous: two delegations, one replaced, one deleted. -/
example : ((MetaDb.calls Toy.E {} [.storeDelegation "x" "a", .storeDelegation "y" "b", .storeDelegation "z" "a", .storeDelegation "u" "c",
      .deleteDelegation "c"]).toOption.map (fun db => db.loadAllDelegations)) = some (true, [("a", "z"), ("b", "y")]) := by decide +kernel

/-- C45: storing another document removes exactly the previous ones of its repository and role. -/
theorem C45_storeNonRoot_frame (db : MetaDb) (data : String) (repo : Repo) (k : RoleKind) (x : MetaRow)
    (hx : ¬ (x.repo = repo ∧ x.type = k)) : x ∈ (db.storeNonRoot data repo k).rows ↔ x ∈ db.rows := by
  rw [mem_storeNonRoot]
  constructor
  · rintro (rfl | h)
    · exact absurd ⟨rfl, rfl⟩ hx
    · exact h.1
  · exact fun h => .inr ⟨h, hx⟩

/-- C45: clearing removes exactly the non-Root documents of the repository. -/
theorem C45_clearNonRoot_exact (db : MetaDb) (repo : Repo) (x : MetaRow) :
    x ∈ (db.clearNonRoot repo).rows ↔ x ∈ db.rows ∧ ¬ (x.repo = repo ∧ x.type ≠ .root) := by
  rw [mem_clearNonRoot]
  refine and_congr_right fun _ => ?_
  constructor
  · rintro h ⟨h1, h2⟩
    exact h2 (h h1)
  · intro h h1
    exact Decidable.byContradiction fun h2 => h ⟨h1, h2⟩

/-- A document with a NUL in it is stored whole but returned cut: what was stored cannot be loaded. -/
theorem C45_nul_cuts :
    ((MetaDb.calls Toy.E {} [.storeNonRoot "a\x00b" .director .targets]).toOption.map
      (fun db => ((db.loadNonRootBlob .director .targets).toOption, db.rows.map (·.data)))) = some (some (some "a"), ["a\x00b"]) := by
  decide +kernel

/-- Not vacuous: a history with replacements, two Roots, a Root without version that is settled, and clearing. -/
example : ((MetaDb.calls Toy.E {} [.storeRoot "dr1" .director 1, .storeRoot "dr2" .director (-1), .storeNonRoot "dt1" .director .targets,
      .storeNonRoot "it1" .image .targets, .storeNonRoot "dt2" .director .targets, .reopen, .clearNonRoot .image]).toOption.map
      (fun db => [(db.loadNonRootBlob .director .targets).toOption, (db.loadNonRootBlob .image .targets).toOption,
        (db.loadRootBlob .director (-1)).toOption, (db.loadRootBlob .director 2).toOption, (db.loadRootBlob .director 1).toOption])) =
    some [some (some "dt2"), some none, some (some "dr2"), some (some "dr2"), some (some "dr1")] := by decide +kernel

end Aktualizr
