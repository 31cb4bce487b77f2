import Verif.Props.C36
import Verif.Lemmas.Sql

/-!
# C53: what is stored survives a change of the schema

Spec: the tables of a version are those that the migration scripts make from nothing.  A database
that has the tables of an older version, with any rows that the constraints admit, is brought to
the version of the program, and every table that is not given up holds what it held.
-/

namespace Aktualizr.Spec

open Sql Mig

/-- The scripts of the program are those in `config/sql`. -/
structure Shipped (cfg : Config) : Prop where
  version : cfg.version = 25
  count : cfg.migrations.length = 26
  migrations : ∀ k, k ≤ 25 → cfg.parse (cfg.migrations.getD k "") = Script.migrations.getD k []
  rollbackCount : cfg.rollbacks.length = 26
  schema : cfg.parse cfg.schema = Script.schema

/-- The statements of the migration scripts for versions `a` to `b - 1`. -/
def scripts (a b : Nat) : List Stmt := ((Script.migrations.take b).drop a).flatMap statements

/-- The tables of a version. -/
def tablesAt (v : Nat) : Db := (execAll [] (scripts 0 (v + 1))).getD []

/-- The tables that are given up on the way from version `v`: downloaded images are looked for on the
disk from version 18 on, the single installation result is replaced by two tables in version 16. The
first two are those of the migration itself. -/
def givenUp (v : Nat) : List String :=
  ["version", "rollback_migrations", "installation_result", "target_images_data"] ++ (if v < 18 then ["target_images"] else [])

/-- The name of a table in version 25. -/
def nameNow (n : String) : String := if n = "ecu_serials" then "ecus" else n

/-- The order in which a table is read: ECUs with the Primary first. -/
def readOrder (n : String) : Order := if n = "ecu_serials" ∨ n = "ecus" then .flagFirst "is_primary" else .rowid

/-- `db'` holds in every table what `db`, of version `v`, held. -/
def Keeps (v : Nat) (db db' : Db) : Prop := ∀ n t, (tablesAt v).get n = some t → n ∉ givenUp v →
  (content db n (readOrder n) t.names).isSome ∧ content db' (nameNow n) (readOrder n) t.names = content db n (readOrder n) t.names

/-- The rollback script for a version. -/
def rollbackScript (k : Nat) : List Cmd := (Script.rollbacks.lookup k).getD []

/-- The database stores the scripts of this version of the program for going back from `v` to `w`. -/
def HasRollbacks (cfg : Config) (w v : Nat) (db : Db) : Prop :=
  ∀ k, w < k → k ≤ v → ∃ s, StoredScript db k s ∧ cfg.parse s = rollbackScript k

/-- The name of a table in version `v`. -/
def nameAt (v : Nat) (n : String) : String :=
  if n = "ecu_serials" ∨ n = "ecus" then (if v < 23 then "ecu_serials" else "ecus") else n

/-- `db'`, of the older version `w`, holds in every table what `db` held, up to the numbering of the
rows. -/
def KeepsBack (v w : Nat) (db db' : Db) : Prop := ∀ n t, (tablesAt w).get n = some t → n ∉ ["version", "rollback_migrations"] →
  content db' n (readOrder n) (t.names.filter (· != "id")) = content db (nameAt v n) (readOrder n) (t.names.filter (· != "id"))

end Aktualizr.Spec

namespace Aktualizr.Mig

open Sql Spec

/-! ### From databases to what is known of them -/

/-- The definitions of tables. -/
def defs (db : Db) : Schema := db.map (fun p => (p.1, ⟨p.2.cols, p.2.uniques, none⟩))

theorem get_defs (db : Db) (n : String) : Named.get (defs db) n = (db.get n).map (fun t => ⟨t.cols, t.uniques, none⟩) := by
  unfold Named.get Db.get Named.get defs
  rw [List.find?_map]
  simp only [Function.comp_def, Option.map_map]

theorem conforms_of {like db : Db} (h : TablesOf like db) : Conforms db (defs like) := by
  intro n
  have := h n
  rw [get_defs]
  cases h1 : db.get n <;> cases h2 : like.get n <;> rw [h1, h2] at this
  · trivial
  · exact this.elim
  · exact this.elim
  · exact ⟨this.1, this.2.1, by simp, this.2.2⟩

/-- The same definitions, by name. -/
def sameDefs (sch : Schema) (like : Db) : Bool :=
  sch.all (fun p => (like.get p.1).any (fun t => (Named.get sch p.1).any (fun d => d.cols == t.cols && d.uniques == t.uniques))) &&
  like.all (fun p => (Named.get sch p.1).isSome)

theorem get_mem {α : Type} {l : Named α} {n : String} {x : α} (h : l.get n = some x) : (n, x) ∈ l := by
  unfold Named.get at h
  cases h1 : l.find? (fun p => p.1 == n) with
  | none => rw [h1] at h; simp at h
  | some p =>
    rw [h1] at h
    simp only [Option.map_some, Option.some.injEq] at h
    have h2 := List.find?_some h1
    have h3 := List.mem_of_find?_eq_some h1
    simp only [beq_iff_eq] at h2
    subst h2 h
    exact h3

theorem tables_of {db : Db} {sch : Schema} {like : Db} (h : Conforms db sch) (hs : sameDefs sch like = true) : TablesOf like db := by
  unfold sameDefs at hs
  rw [Bool.and_eq_true] at hs
  obtain ⟨hs1, hs2⟩ := hs
  intro n
  cases hn : Named.get sch n with
  | none =>
    rw [h.absent hn]
    cases hl : like.get n with
    | none => trivial
    | some t =>
      have := List.all_eq_true.1 hs2 _ (get_mem hl)
      simp [hn] at this
  | some d =>
    obtain ⟨t, ht, hc⟩ := h.table hn
    have := List.all_eq_true.1 hs1 _ (get_mem hn)
    simp only [hn, Option.any_some, Option.any_eq_true, Bool.and_eq_true, beq_iff_eq] at this
    obtain ⟨u, hu, e1, e2⟩ := this
    rw [ht, hu]
    exact ⟨hc.cols.trans e1, hc.uniques.trans e2, hc.ok⟩

/-! ### The scripts, checked -/

/-- What is checked of the way from version `v`. -/
def upOk (v : Nat) : Bool :=
  match checkAll (defs (tablesAt v)) (scripts (v + 1) 26) with
  | none => false
  | some sch => sameDefs sch (tablesAt 25) && ((Named.get sch "version").any (fun d => d.known == some [⟨1, [.int 25]⟩])) &&
    (tablesAt v).all (fun p => (givenUp v).contains p.1 ||
      ((tablesAt v).get p.1).all (fun t => traceAll (scripts (v + 1) 26) ⟨nameNow p.1, readOrder p.1, t.names⟩ == some ⟨p.1, readOrder p.1, t.names⟩))

theorem up_ok : ∀ v, 13 ≤ v → v < 25 → upOk v = true := by
  intro v h1 h2
  have : v ∈ List.range' 13 12 := by rw [List.mem_range']; exact ⟨v - 13, by omega, by omega⟩
  have hall : (List.range' 13 12).all upOk = true := by decide +kernel
  exact List.all_eq_true.1 hall v this

/-- One script: what `upOk` checks of all those that follow. -/
def stepOk (v : Nat) : Bool :=
  match checkAll (defs (tablesAt v)) (statements (Script.migrations.getD (v + 1) [])) with
  | none => false
  | some sch => sameDefs sch (tablesAt (v + 1)) && ((Named.get sch "version").any (fun d => d.known == some [⟨1, [.int (v + 1 : Nat)]⟩])) &&
    ((tablesAt (v + 1)).get "version").any (fun t => t.cols == [{ name := "version" }])

theorem step_ok : ∀ v, 13 ≤ v → v < 25 → stepOk v = true := by
  intro v h1 h2
  have : v ∈ List.range' 13 12 := by rw [List.mem_range']; exact ⟨v - 13, by omega, by omega⟩
  have hall : (List.range' 13 12).all stepOk = true := by decide +kernel
  exact List.all_eq_true.1 hall v this

/-! ### The rows for going back -/

/-- The table of the scripts for going back. -/
def rollbackDef : Def := ⟨[{ name := "version_from", unique := true }, { name := "migration", notNull := true }], [], none⟩

theorem replace_safe (k : Int) (s : String) : replaceSafe rollbackDef ["version_from", "migration"] [.int k, .text s] = true := by
  simp [replaceSafe, rollbackDef, Def.empty, Table.complete, Table.names, Table.keys, Table.value, Col.admits, List.lookup]

theorem rows_ok : ∀ {l : List Stmt} {db : Db} {sch : Schema}, (∀ x ∈ l, ∃ (k : Int) (s : String), x = .replace "rollback_migrations" ["version_from", "migration"] [.int k, .text s]) →
    Conforms db sch → Named.get sch "rollback_migrations" = some rollbackDef →
    ∃ db', execAll db l = some db' ∧ Conforms db' sch ∧ ∀ n, n ≠ "rollback_migrations" → db'.get n = db.get n
  | [], db, sch, _, h, _ => ⟨db, rfl, h, fun _ _ => rfl⟩
  | x :: l, db, sch, hl, h, hd => by
    obtain ⟨k, s, rfl⟩ := hl x (by simp)
    have hc : (Stmt.replace "rollback_migrations" ["version_from", "migration"] [.int k, .text s]).check sch =
        some (Named.set sch "rollback_migrations" rollbackDef) := by
      simp only [Stmt.check, hd, replace_safe, if_true]
      rfl
    obtain ⟨db1, e1, c1⟩ := check_sound h hc
    have c1' : Conforms db1 sch := by
      intro n
      have := c1 n
      rw [Named.get_set] at this
      split at this
      · rename_i e
        subst e
        rw [hd] at this ⊢
        exact this
      · exact this
    have hkeep : ∀ n, n ≠ "rollback_migrations" → db1.get n = db.get n := by
      intro n hn
      simp only [Stmt.exec] at e1
      cases hg : db.get "rollback_migrations" with
      | none => rw [hg] at e1; simp at e1
      | some t =>
        rw [hg] at e1
        simp only at e1
        split at e1
        · simp only [Option.map_eq_some_iff] at e1
          obtain ⟨t', -, rfl⟩ := e1
          exact get_set_ne _ _ hn
        · simp at e1
    obtain ⟨db2, e2, c2, k2⟩ := rows_ok (l := l) (fun y hy => hl y (by simp [hy])) c1' hd
    exact ⟨db2, by simp only [execAll, e1, e2], c2, fun n hn => (k2 n hn).trans (hkeep n hn)⟩

theorem backRows_shape (cfg : Config) : ∀ x ∈ backRows cfg, ∃ (k : Int) (s : String), x = .replace "rollback_migrations" ["version_from", "migration"] [.int k, .text s] := by
  intro x hx
  unfold backRows at hx
  rw [List.mem_filterMap] at hx
  obtain ⟨k, -, hx⟩ := hx
  simp only at hx
  split at hx
  · simp at hx
  · simp only [Option.some.injEq] at hx
    exact ⟨k, _, hx.symm⟩

/-! ### The scripts of the program -/

theorem shipped_up {cfg : Config} (hs : Shipped cfg) {v : Nat} (hv : v < 25) : upScripts cfg v = scripts (v + 1) 26 := by
  unfold upScripts scripts
  rw [hs.version]
  have h1 : (List.range' (v + 1) (25 - v)).flatMap (fun k => statements (cfg.parse (cfg.migrations.getD k ""))) =
      (List.range' (v + 1) (25 - v)).flatMap (fun k => statements (Script.migrations.getD k [])) := by
    rw [List.flatMap_def, List.flatMap_def]
    congr 1
    apply List.map_congr_left
    intro k hk
    rw [List.mem_range'] at hk
    obtain ⟨i, hi, rfl⟩ := hk
    rw [hs.migrations _ (by omega)]
  rw [h1]
  have h2 : ∀ v, v ∈ List.range 25 → (List.range' (v + 1) (25 - v)).flatMap (fun k => statements (Script.migrations.getD k [])) =
      ((Script.migrations.take 26).drop (v + 1)).flatMap statements := by
    intro v hv
    have h3 : (Script.migrations.take 26).drop (v + 1) = (List.range' (v + 1) (25 - v)).map (fun k => Script.migrations.getD k []) := by
      have hlen : Script.migrations.length = 26 := rfl
      apply List.ext_getElem?
      intro i
      rw [List.getElem?_drop, List.getElem?_map]
      simp only [List.mem_range] at hv
      by_cases hi : i < 25 - v
      · rw [List.getElem?_take_of_lt (by omega), List.getElem?_range' hi]
        rw [List.getElem?_eq_getElem (by omega)]
        simp only [Option.map_some, Nat.one_mul]
        rw [List.getD_eq_getElem?_getD, List.getElem?_eq_getElem (by omega)]
        rfl
      · rw [List.getElem?_eq_none (by simp [hlen]; omega), List.getElem?_eq_none (by simp; omega)]
        rfl
    rw [h3, List.flatMap_map]
  exact h2 v (by simp; omega)

/-- Every script of the program is one savepoint. -/
theorem shipped_wrapped {cfg : Config} (hs : Shipped cfg) : ∀ s ∈ cfg.migrations, Wrapped (cfg.parse s) := by
  intro s hm
  obtain ⟨k, hk, rfl⟩ := List.getElem_of_mem hm
  have hc := hs.count
  have h1 := hs.migrations k (by omega)
  rw [List.getD_eq_getElem?_getD, List.getElem?_eq_getElem hk] at h1
  simp only [Option.getD_some] at h1
  rw [h1]
  have : k < 26 := by omega
  have hall : ∀ l ∈ Script.migrations, Wrapped l := by
    have hw : ∀ l : List Cmd, (l = .savepoint "MIGRATION" :: ((statements l).map .stmt ++ [.release "MIGRATION"])) → Wrapped l :=
      fun l h => .inr ⟨_, _, h⟩
    have : ∀ l ∈ Script.migrations, l = .savepoint "MIGRATION" :: ((statements l).map Cmd.stmt ++ [.release "MIGRATION"]) := by decide +kernel
    exact fun l hl => hw l (this l hl)
  apply hall
  rw [List.getD_eq_getElem?_getD, List.getElem?_eq_getElem (show k < Script.migrations.length from this)]
  exact List.getElem_mem _

/-! ### Theorems -/

/-- A database with the tables of version 13 or newer, whatever it holds, can be brought to version
25 (no script fails): the result has the tables of version 25, says so, and holds in every table
that is not given up what the old one held. -/
theorem C53_migrates {cfg : Config} (hs : Shipped cfg) {v : Nat} (h13 : 13 ≤ v) (h25 : v < 25) {db : Db} (hdb : TablesOf (tablesAt v) db) :
    ∃ db', Migrated cfg v db db' ∧ TablesOf (tablesAt 25) db' ∧ AtVersion db' 25 ∧ Keeps v db db' := by
  have hok := up_ok v h13 h25
  unfold upOk at hok
  cases hc : checkAll (defs (tablesAt v)) (scripts (v + 1) 26) with
  | none => rw [hc] at hok; simp at hok
  | some sch =>
    rw [hc] at hok
    simp only [Bool.and_eq_true] at hok
    obtain ⟨⟨h1, h2⟩, h3⟩ := hok
    obtain ⟨db1, e1, c1⟩ := checkAll_sound (conforms_of hdb) hc
    -- the table of the scripts for going back
    have hroll : ∃ d, Named.get sch "rollback_migrations" = some d ∧ { d with known := none } = rollbackDef := by
      have hb : Conforms db1 sch := c1
      have ht := tables_of c1 h1 "rollback_migrations"
      have h25' : (tablesAt 25).get "rollback_migrations" = some rollbackDef.empty := by decide +kernel
      rw [h25'] at ht
      cases hn : Named.get sch "rollback_migrations" with
      | none => rw [c1.absent hn] at ht; exact ht.elim
      | some d =>
        obtain ⟨t, hg, hcf⟩ := c1.table hn
        rw [hg] at ht
        refine ⟨d, rfl, ?_⟩
        obtain ⟨a, b, k⟩ := d
        have e1 := hcf.cols.symm.trans ht.1
        have e2 := hcf.uniques.symm.trans ht.2.1
        simp only at e1 e2
        subst e1 e2
        rfl
    obtain ⟨d, hd1, hd2⟩ := hroll
    have c2 : Conforms db1 (Named.set sch "rollback_migrations" rollbackDef) := by
      intro n
      have := c1 n
      rw [Named.get_set]
      split
      · rename_i e
        subst e
        rw [hd1] at this ⊢
        cases hg : db1.get "rollback_migrations" with
        | none => rw [hg] at this; exact this.elim
        | some t =>
          rw [hg] at this
          rw [← hd2]
          exact ⟨this.cols, this.uniques, by simp, this.ok⟩
      · exact this
    obtain ⟨db2, e2, c3, k3⟩ := rows_ok (backRows_shape cfg) c2 (by rw [Named.get_set, if_pos rfl, hd1]; rfl)
    refine ⟨db2, ?_, ?_, ?_, ?_⟩
    · unfold Migrated
      rw [execAll_append, shipped_up hs h25, e1]
      exact e2
    · intro n
      have h4 := tables_of c1 h1 n
      by_cases hn : n = "rollback_migrations"
      · subst hn
        have h5 := c3 "rollback_migrations"
        rw [Named.get_set, if_pos rfl, hd1] at h5
        have h25' : (tablesAt 25).get "rollback_migrations" = some rollbackDef.empty := by decide +kernel
        rw [h25']
        cases hg : db2.get "rollback_migrations" with
        | none => rw [hg] at h5; exact h5.elim
        | some t => rw [hg] at h5; exact ⟨h5.cols, h5.uniques, h5.ok⟩
      · rw [k3 n hn]
        exact h4
    · simp only [Option.any_eq_true, beq_iff_eq] at h2
      obtain ⟨dv, h4, h5⟩ := h2
      obtain ⟨t, ht, hcf⟩ := c1.table h4
      have h6 := tables_of c1 h1 "version"
      have h25' : (tablesAt 25).get "version" = some ⟨[{ name := "version" }], [], [⟨1, [.int 25]⟩]⟩ := by decide +kernel
      rw [ht, h25'] at h6
      refine ⟨t, ⟨1, [.int 25]⟩, ?_, ?_, ?_, by omega, by omega⟩
      · rw [k3 _ (by decide)]; exact ht
      · rw [hcf.known _ h5]; rfl
      · rw [Table.value, Table.names, h6.1]; rfl
    · intro n t hn hg
      have h4 := List.all_eq_true.1 h3 _ (get_mem hn)
      simp only [Bool.or_eq_true, List.contains_iff_mem] at h4
      rcases h4 with h4 | h4
      · exact absurd h4 hg
      · simp only [hn, Option.all_some, beq_iff_eq] at h4
        have h5 := traceAll_sound (conforms_of hdb) hc e1 h4
        have h6 := hdb n
        rw [hn] at h6
        refine ⟨?_, ?_⟩
        · cases hx : db.get n with
          | none => rw [hx] at h6; exact h6.elim
          | some u => simp [content, hx]
        · simp only [view] at h5
          rw [← h5]
          have hne : nameNow n ≠ "rollback_migrations" := by
            unfold nameNow
            split
            · decide
            · rintro rfl
              exact hg (by simp [givenUp])
          simp only [content, k3 _ hne]

/-- Each single script does so too: a database with the tables of the version before, whatever it
holds, gets the tables of the version of the script, and says that it is of this version (the
number is what a later program, or the way back, goes by). -/
theorem C53_each_script {v : Nat} (h13 : 13 ≤ v) (h25 : v < 25) {db : Db} (hdb : TablesOf (tablesAt v) db) :
    ∃ db', execAll db (statements (Script.migrations.getD (v + 1) [])) = some db' ∧ TablesOf (tablesAt (v + 1)) db' ∧ AtVersion db' (v + 1 : Nat) := by
  have hok := step_ok v h13 h25
  unfold stepOk at hok
  cases hc : checkAll (defs (tablesAt v)) (statements (Script.migrations.getD (v + 1) [])) with
  | none => rw [hc] at hok; simp at hok
  | some sch =>
    rw [hc] at hok
    simp only [Bool.and_eq_true] at hok
    obtain ⟨⟨h1, h2⟩, h3⟩ := hok
    obtain ⟨db1, e1, c1⟩ := checkAll_sound (conforms_of hdb) hc
    refine ⟨db1, e1, tables_of c1 h1, ?_⟩
    simp only [Option.any_eq_true, beq_iff_eq] at h2 h3
    obtain ⟨dv, h4, h5⟩ := h2
    obtain ⟨t, ht, hcf⟩ := c1.table h4
    obtain ⟨tv, h6, h7⟩ := h3
    have h8 := tables_of c1 h1 "version"
    rw [ht, h6] at h8
    refine ⟨t, ⟨1, [.int (v + 1 : Nat)]⟩, ht, ?_, ?_, by omega, by omega⟩
    · rw [hcf.known _ h5]; rfl
    · rw [Table.value, Table.names, h8.1, h7]; rfl

/-- So opening the storage succeeds and leaves such a database. -/
theorem C53_opens {cfg : Config} (hs : Shipped cfg) {v : Nat} (h13 : 13 ≤ v) (h25 : v < 25) {db : Db} (hdb : TablesOf (tablesAt v) db)
    (hv : AtVersion db v) :
    ∃ db', openStorage cfg false ⟨db, none, []⟩ = (.ok (), ⟨db', none, []⟩) ∧ TablesOf (tablesAt 25) db' ∧ AtVersion db' 25 ∧ Keeps v db db' := by
  obtain ⟨db', h1, h2, h3, h4⟩ := C53_migrates hs h13 h25 hdb
  have hver := hs.version
  exact ⟨db', C36_completes (shipped_wrapped hs) (by have := hs.count; omega) (.inr (by have := hs.rollbackCount; omega)) hv (by omega) h1, h2, h3, h4⟩

/-- Whatever happens while it is opened, any number of times, the database holds what it held: it is
the old one or the new one. -/
theorem C53_interrupted {cfg : Config} (hs : Shipped cfg) {v : Nat} (h13 : 13 ≤ v) (h25 : v < 25) {db : Db} (hdb : TablesOf (tablesAt v) db)
    (hv : AtVersion db v) (fs : List (List (Option Fault))) :
    afterOpenings cfg db fs = db ∨ (Keeps v db (afterOpenings cfg db fs) ∧ AtVersion (afterOpenings cfg db fs) 25) := by
  obtain ⟨db', h1, h2, h3, h4⟩ := C53_migrates hs h13 h25 hdb
  have hver := hs.version
  obtain ⟨h5, -⟩ := C36_retry (shipped_wrapped hs) (by have := hs.count; omega) (.inr (by have := hs.rollbackCount; omega)) hv (by omega) h1
    (by rw [hver]; exact h3) fs
  rcases h5 with h5 | h5
  · exact .inl h5
  · rw [h5]; exact .inr ⟨h4, h3⟩

/-- A new database has the same tables, and the same rows in them, as one brought from version 0. -/
theorem C53_same_schema : ∃ db, execAll [] (statements Script.schema) = some db ∧ ∀ n, db.get n = (tablesAt 25).get n := by
  have h1 : (execAll [] (statements Script.schema)).isSome = true := by decide +kernel
  obtain ⟨db, hdb⟩ := Option.isSome_iff_exists.1 h1
  refine ⟨db, hdb, ?_⟩
  have h2 : (execAll [] (statements Script.schema)).all (fun db =>
      db.all (fun p => db.get p.1 == (tablesAt 25).get p.1) && (tablesAt 25).all (fun p => db.get p.1 == (tablesAt 25).get p.1)) = true := by decide +kernel
  rw [hdb] at h2
  simp only [Option.all_some, Bool.and_eq_true] at h2
  intro n
  cases hn : db.get n with
  | some t =>
    have := List.all_eq_true.1 h2.1 _ (get_mem hn)
    simp only [beq_iff_eq] at this
    rw [← this, hn]
  | none =>
    cases hm : (tablesAt 25).get n with
    | none => rfl
    | some t =>
      have := List.all_eq_true.1 h2.2 _ (get_mem hm)
      simp only [beq_iff_eq] at this
      rw [hn, hm] at this
      cases this

/-! ### Going back -/

/-- The tables that a statement changes. -/
def touches : Stmt → List String
  | .create n _ _ | .drop n | .addColumn n _ | .insert n _ _ | .replace n _ _ | .select n _ _ _ _ _ | .join n _ _ _ _ _ | .clear n | .delete n _ _ => [n]
  | .rename n m => [n, m]

theorem untouched {db db' : Db} {s : Stmt} {m : String} (h : s.exec db = some db') (hm : m ∉ touches s) : db'.get m = db.get m := by
  have hset : ∀ {n : String} (t : Table), m ∉ [n] → (db.set n t).get m = db.get m := fun t hn => get_set_ne _ _ (by simpa using hn)
  cases s with
  | create n cs us =>
    simp only [touches, List.mem_singleton] at hm
    simp only [Stmt.exec] at h
    split at h
    · simp at h
    · simp only [Option.some.injEq] at h
      subst h
      rw [Db.get, Named.get_append, if_neg (fun e => hm e.symm), Option.or_none]
      rfl
  | drop n =>
    simp only [touches, List.mem_singleton] at hm
    simp only [Stmt.exec] at h
    split at h
    · simp only [Option.some.injEq] at h
      subst h
      rw [Db.get, Db.erase, Named.get_erase, if_neg hm]
      rfl
    · simp at h
  | rename a b =>
    simp only [touches, List.mem_cons, List.not_mem_nil, or_false, not_or] at hm
    simp only [Stmt.exec] at h
    split at h
    · simp at h
    · split at h
      · simp at h
      · simp only [Option.some.injEq] at h
        subst h
        rw [Db.get, Named.get_append, if_neg (fun e => hm.2 e.symm), Option.or_none, Db.erase, Named.get_erase, if_neg hm.1]
        rfl
  | addColumn n c =>
    simp only [Stmt.exec] at h
    split at h
    · simp at h
    · split at h
      · simp at h
      · simp only [Option.some.injEq] at h
        subst h
        exact hset _ hm
  | insert n cs rows =>
    simp only [Stmt.exec] at h
    split at h
    · simp at h
    · split at h
      · simp at h
      · simp only [Option.map_eq_some_iff] at h
        obtain ⟨t', -, rfl⟩ := h
        exact hset _ hm
  | replace n cs row =>
    simp only [Stmt.exec] at h
    split at h
    · simp at h
    · split at h
      · simp only [Option.map_eq_some_iff] at h
        obtain ⟨t', -, rfl⟩ := h
        exact hset _ hm
      · simp at h
  | select n cs src exprs o limit =>
    simp only [Stmt.exec] at h
    split at h
    · split at h
      · simp at h
      · simp only [Option.map_eq_some_iff] at h
        obtain ⟨t', -, rfl⟩ := h
        exact hset _ hm
    · simp at h
  | join n cs l flag r exprs =>
    simp only [Stmt.exec] at h
    split at h
    · split at h
      · simp at h
      · simp only [Option.map_eq_some_iff] at h
        obtain ⟨t', -, rfl⟩ := h
        exact hset _ hm
    · simp at h
  | clear n =>
    simp only [Stmt.exec] at h
    split at h
    · simp at h
    · simp only [Option.some.injEq] at h
      subst h
      exact hset _ hm
  | delete n c v =>
    simp only [Stmt.exec] at h
    split at h
    · simp at h
    · split at h
      · simp only [Option.some.injEq] at h
        subst h
        exact hset _ hm
      · simp at h

theorem untouchedAll : ∀ {l : List Stmt} {db db' : Db} {m : String}, execAll db l = some db' → (∀ s ∈ l, m ∉ touches s) → db'.get m = db.get m
  | [], db, db', m, h, _ => by cases h; rfl
  | s :: l, db, db', m, h, hm => by
    simp only [execAll] at h
    split at h
    · simp at h
    · rename_i d1 h1
      rw [untouchedAll h (fun x hx => hm x (by simp [hx])), untouched h1 (hm s (by simp))]

/-- What is checked of the script for going back from version `k`. -/
def downOk (k : Nat) : Bool :=
  match checkAll (defs (tablesAt k)) (statements (rollbackScript k)) with
  | none => false
  | some sch => sameDefs sch (tablesAt (k - 1)) && ((Named.get sch "version").any (fun d => d.known == some [⟨1, [.int (k - 1)]⟩])) &&
    (statements (rollbackScript k)).all (fun s => !(touches s).contains "rollback_migrations") &&
    rollbackScript k == .savepoint "ROLLBACK_MIGRATION" :: ((statements (rollbackScript k)).map Cmd.stmt ++ [.release "ROLLBACK_MIGRATION"])

theorem down_ok : ∀ k, 20 < k → k ≤ 25 → downOk k = true := by
  intro v h1 h2
  have : v ∈ List.range' 21 5 := by rw [List.mem_range']; exact ⟨v - 21, by omega, by omega⟩
  have hall : (List.range' 21 5).all downOk = true := by decide +kernel
  exact List.all_eq_true.1 hall v this

/-- A view, version by version, that the scripts for going back from `v` to `w` do not change. -/
def Steady (V : Nat → View) (w v : Nat) : Prop :=
  ∀ k, w < k → k ≤ v → (V (k - 1)).table ≠ "rollback_migrations" ∧ (V k).table ≠ "rollback_migrations" ∧
    traceAll (statements (rollbackScript k)) (V (k - 1)) = some (V k)

theorem stored_delete {d1 d2 : Db} {v k : Int} {s : String} (hne : k ≠ v) (h : StoredScript d1 k s)
    (hd : execAll d1 [.delete "rollback_migrations" "version_from" (.int v)] = some d2) : StoredScript d2 k s := by
  obtain ⟨t, r, h1, h2, h3⟩ := h
  simp only [execAll, Stmt.exec, h1] at hd
  split at hd
  · cases hd
  · rename_i d' hx
    split at hx
    · simp only [Option.some.injEq] at hx hd
      subst hx hd
      refine ⟨_, r, get_set_eq _ h1, ?_, h3⟩
      simp only
      rw [List.find?_filter]
      rw [← h2]
      congr 1
      funext a
      show decide ((t.value a "version_from" != some (.int v)) = true ∧ (t.value a "version_from" == some (.int k)) = true) = (t.value a "version_from" == some (.int k))
      cases hb : t.value a "version_from" == some (.int k) with
      | false => simp
      | true =>
        simp only [beq_iff_eq] at hb
        rw [hb]
        simpa using hne
    · cases hx

theorem delete_keeps {d1 d2 : Db} {v : Int} (hd : execAll d1 [.delete "rollback_migrations" "version_from" (.int v)] = some d2) {n : String}
    (hn : n ≠ "rollback_migrations") : d2.get n = d1.get n := by
  simp only [execAll, Stmt.exec] at hd
  split at hd
  · cases hd
  · rename_i d' hx
    cases h1 : d1.get "rollback_migrations" with
    | none => rw [h1] at hx; simp at hx
    | some t =>
      rw [h1] at hx
      simp only at hx
      split at hx
      · simp only [Option.some.injEq] at hx hd
        subst hx hd
        exact get_set_ne _ _ hn
      · cases hx

theorem stored_of_get {a b : Db} (h : b.get "rollback_migrations" = a.get "rollback_migrations") {k : Int} {s : String} (hs : StoredScript a k s) :
    StoredScript b k s := by
  obtain ⟨t, r, h1, h2, h3⟩ := hs
  exact ⟨t, r, h.trans h1, h2, h3⟩

/-- One version back. -/
theorem down_step {k : Nat} (h20 : 20 < k) (h25 : k ≤ 25) {db : Db} (h : TablesOf (tablesAt k) db) :
    Wrapped (rollbackScript k) ∧ ∃ d1 d2, execAll db (statements (rollbackScript k)) = some d1 ∧
      execAll d1 [.delete "rollback_migrations" "version_from" (.int k)] = some d2 ∧ TablesOf (tablesAt (k - 1)) d2 ∧ AtVersion d2 ((k - 1 : Nat) : Int) ∧
      (∀ (j : Int) s, j ≠ k → StoredScript db j s → StoredScript d2 j s) ∧
      (∀ V V' : View, V.table ≠ "rollback_migrations" → traceAll (statements (rollbackScript k)) V = some V' → view d2 V = view db V') := by
  have hok := down_ok k h20 h25
  unfold downOk at hok
  cases hc : checkAll (defs (tablesAt k)) (statements (rollbackScript k)) with
  | none => rw [hc] at hok; simp at hok
  | some sch =>
    rw [hc] at hok
    simp only [Bool.and_eq_true, beq_iff_eq] at hok
    obtain ⟨⟨⟨h1, h2⟩, h3⟩, h4⟩ := hok
    refine ⟨.inr ⟨_, _, h4⟩, ?_⟩
    obtain ⟨d1, e1, c1⟩ := checkAll_sound (conforms_of h) hc
    have ht := tables_of c1 h1
    -- the table of the scripts is there
    have hroll : (tablesAt (k - 1)).get "rollback_migrations" = some rollbackDef.empty := by
      have hall : ∀ v ∈ List.range' 20 5, (tablesAt v).get "rollback_migrations" = some rollbackDef.empty := by decide +kernel
      exact hall (k - 1) (by rw [List.mem_range']; exact ⟨k - 21, by omega, by omega⟩)
    obtain ⟨t, htab⟩ : ∃ t, d1.get "rollback_migrations" = some t := by
      have := ht "rollback_migrations"
      rw [hroll] at this
      cases hg : d1.get "rollback_migrations" with
      | none => rw [hg] at this; exact this.elim
      | some t => exact ⟨t, rfl⟩
    have htc := ht "rollback_migrations"
    rw [htab, hroll] at htc
    have hdel : ∃ d2, execAll d1 [.delete "rollback_migrations" "version_from" (.int k)] = some d2 ∧
        d2.get "rollback_migrations" = some { t with rows := t.rows.filter (fun r => t.value r "version_from" != some (.int k)) } := by
      have hn : t.names.contains "version_from" = true := by rw [Table.names, htc.1]; rfl
      refine ⟨_, by simp only [execAll, Stmt.exec, htab, hn, if_true], get_set_eq _ htab⟩
    obtain ⟨d2, e2, e3⟩ := hdel
    refine ⟨d1, d2, e1, e2, ?_, ?_, ?_, ?_⟩
    · intro n
      by_cases hn : n = "rollback_migrations"
      · subst hn
        rw [e3, hroll]
        exact ⟨htc.1, htc.2.1, tableOk_filter htc.2.2 _⟩
      · rw [delete_keeps e2 hn]
        exact ht n
    · simp only [Option.any_eq_true, beq_iff_eq] at h2
      obtain ⟨dv, h5, h6⟩ := h2
      obtain ⟨u, hu, hcf⟩ := c1.table h5
      have h7 := ht "version"
      have hver : ((tablesAt (k - 1)).get "version").map (·.cols) = some [{ name := "version" }] := by
        have hall : ∀ v ∈ List.range' 20 5, ((tablesAt v).get "version").map (·.cols) = some [{ name := "version" }] := by decide +kernel
        exact hall (k - 1) (by rw [List.mem_range']; exact ⟨k - 21, by omega, by omega⟩)
      cases hx : (tablesAt (k - 1)).get "version" with
      | none => rw [hx] at hver; simp at hver
      | some w =>
        rw [hx] at hver
        simp only [Option.map_some, Option.some.injEq] at hver
        rw [hu, hx] at h7
        refine ⟨u, ⟨1, [.int ((k : Int) - 1)]⟩, ?_, ?_, ?_, by omega, by omega⟩
        · rw [delete_keeps e2 (by decide)]; exact hu
        · rw [hcf.known _ h6]; rfl
        · rw [Table.value, Table.names, h7.1, hver]
          show some (Val.int ((k : Int) - 1)) = _
          congr 2
          omega
    · intro j s hj hs
      refine stored_delete hj (stored_of_get ?_ hs) e2
      refine untouchedAll e1 ?_
      intro x hx
      have := List.all_eq_true.1 h3 x hx
      simpa using this
    · intro V V' hV hV'
      rw [← traceAll_sound (conforms_of h) hc e1 hV']
      simp only [view, content, delete_keeps e2 hV]

/-- Back from version `v` to `w`. -/
theorem down_to {cfg : Config} {w : Nat} (h20 : 20 ≤ w) (hcfg : cfg.version ≤ w) : ∀ (n : Nat) {v : Nat} {db : Db}, v = w + n → v ≤ 25 →
    TablesOf (tablesAt v) db → AtVersion db v → HasRollbacks cfg w v db →
    ∃ db', Back cfg v db w db' ∧ TablesOf (tablesAt w) db' ∧ AtVersion db' w ∧ (∀ (j : Int) s, j ≤ w → StoredScript db j s → StoredScript db' j s) ∧
      (∀ V, Steady V w v → view db' (V w) = view db (V v)) ∧
      backwardLoop cfg (v - cfg.version) v ⟨db, none, []⟩ = backwardLoop cfg (w - cfg.version) w ⟨db', none, []⟩
  | 0, v, db, hv, _, ht, ha, _ => by
    simp only [Nat.add_zero] at hv
    subst hv
    exact ⟨db, .refl _ _, ht, ha, fun _ _ _ h => h, fun _ _ => rfl, rfl⟩
  | n + 1, v, db, hv, h25, ht, ha, hr => by
    obtain ⟨hwr, d1, d2, e1, e2, t2, a2, s2, v2⟩ := down_step (k := v) (by omega) h25 ht
    obtain ⟨s, hst, hp⟩ := hr v (by omega) (Nat.le_refl _)
    obtain ⟨db', b, t3, a3, s3, v3, r3⟩ := down_to (cfg := cfg) h20 hcfg n (v := v - 1) (by omega) (by omega) t2 a2
      (fun k hk hk' => by
        obtain ⟨s', h1, h2⟩ := hr k hk (by omega)
        exact ⟨s', s2 k s' (by omega) h1, h2⟩)
    refine ⟨db', ?_, t3, a3, ?_, ?_, ?_⟩
    · refine .step (by omega) hst (by rw [hp]; exact e1) e2 ?_
      rw [show ((v : Int) - 1) = ((v - 1 : Nat) : Int) by omega]
      exact b
    · intro j s hj hs
      exact s3 j s hj (s2 j s (by omega) hs)
    · intro V hV
      rw [v3 V (fun k hk hk' => hV k hk (by omega))]
      obtain ⟨g1, -, g2⟩ := hV v (by omega) (Nat.le_refl _)
      exact v2 _ _ g1 g2
    · have h1 := back_start (cfg := cfg) (v - 1 - cfg.version) v hst (by rw [hp]; exact hwr)
      rw [hp, e1] at h1
      simp only [e2] at h1
      rw [show v - cfg.version = v - 1 - cfg.version + 1 by omega, h1, ← r3]
      rw [show ((v : Int) - 1) = ((v - 1 : Nat) : Int) by omega]

/-- The views of the tables of version `w`. -/
def viewAt (n : String) (cols : List String) (k : Nat) : View := ⟨nameAt k n, readOrder n, cols⟩

theorem steady_tables : ∀ w v, 20 ≤ w → w ≤ v → v ≤ 25 → ∀ n t, (tablesAt w).get n = some t → n ∉ ["version", "rollback_migrations"] →
    Steady (viewAt n (t.names.filter (· != "id"))) w v := by
  intro w v hw hv hv' n t hn hne k hk hk'
  have hall : (List.range' 20 6).all (fun w => (List.range' 21 5).all (fun k => k ≤ w || (tablesAt w).all (fun p =>
      ["version", "rollback_migrations"].contains p.1 || ((tablesAt w).get p.1).all (fun t =>
        let V := viewAt p.1 (t.names.filter (· != "id"))
        (V (k - 1)).table != "rollback_migrations" && (V k).table != "rollback_migrations" &&
          traceAll (statements (rollbackScript k)) (V (k - 1)) == some (V k))))) = true := by decide +kernel
  have h1 := List.all_eq_true.1 hall w (by rw [List.mem_range']; exact ⟨w - 20, by omega, by omega⟩)
  have h2 := List.all_eq_true.1 h1 k (by rw [List.mem_range']; exact ⟨k - 21, by omega, by omega⟩)
  rw [Bool.or_eq_true] at h2
  rcases h2 with h2 | h2
  · simp at h2; omega
  · have h3 := List.all_eq_true.1 h2 _ (get_mem hn)
    rw [Bool.or_eq_true] at h3
    rcases h3 with h3 | h3
    · exact absurd (List.contains_iff_mem.1 h3) hne
    · simp only [hn, Option.all_some, Bool.and_eq_true, bne_iff_ne, beq_iff_eq] at h3
      exact ⟨h3.1.1, h3.1.2, h3.2⟩

theorem name_at_self : ∀ w, 20 ≤ w → w ≤ 25 → ∀ n t, (tablesAt w).get n = some t → nameAt w n = n := by
  intro w hw hw' n t hn
  have hall : (List.range' 20 6).all (fun w => (tablesAt w).all (fun p => nameAt w p.1 == p.1)) = true := by decide +kernel
  have h1 := List.all_eq_true.1 hall w (by rw [List.mem_range']; exact ⟨w - 20, by omega, by omega⟩)
  simpa using List.all_eq_true.1 h1 _ (get_mem hn)

/-- A program of version 20 to 24 takes the database back to its version, with the stored scripts:
every table of that version holds what it held. -/
theorem C53_back {cfg : Config} {v : Nat} (h20 : 20 ≤ cfg.version) (hlt : cfg.version < v) (h25 : v ≤ 25) {db : Db} (ht : TablesOf (tablesAt v) db)
    (ha : AtVersion db v) (hr : HasRollbacks cfg cfg.version v db) :
    ∃ db', openStorage cfg false ⟨db, none, []⟩ = (.ok (), ⟨db', none, []⟩) ∧ TablesOf (tablesAt cfg.version) db' ∧ AtVersion db' cfg.version ∧
      KeepsBack v cfg.version db db' := by
  obtain ⟨db', h1, h2, h3, -, h4, h5⟩ := down_to (cfg := cfg) h20 (Nat.le_refl _) (v - cfg.version) (by omega) h25 ht ha hr
  simp only [Nat.sub_self, backwardLoop] at h5
  refine ⟨db', open_back ha (by omega) (b := true) (t := none) (by rw [show ((v : Int) - cfg.version).toNat = v - cfg.version by omega, h5]; rfl), h2, h3, ?_⟩
  intro n t hn hne
  have h5 := h4 _ (steady_tables cfg.version v h20 (by omega) h25 n t hn hne)
  simp only [view, viewAt, name_at_self _ h20 (by omega) n t hn] at h5
  exact h5

/-! ### Where going back stops -/

theorem insert_some {t t' : Table} {vs : List Val} (h : t.insert vs = some t') : ∃ id, t'.cols = t.cols ∧ t'.uniques = t.uniques ∧
    (∀ x, x ∈ t'.rows ↔ x = newRow t.cols id vs ∨ x ∈ t.rows) ∧ ∀ k ∈ t.keys, ∀ x ∈ t.rows, t.clash (newRow t.cols id vs) x k = false := by
  unfold Table.insert at h
  split at h
  · simp at h
  · split at h
    · simp at h
    · rename_i id _
      simp only at h
      split at h
      · simp at h
      · split at h
        · simp at h
        · split at h
          · simp at h
          · rename_i hk
            simp only [Option.some.injEq] at h
            subst h
            refine ⟨id, rfl, rfl, ?_, ?_⟩
            · intro x
              have : ∀ (r : Row) (l : List Row) x, x ∈ place r l ↔ x = r ∨ x ∈ l := by
                intro r l
                induction l with
                | nil => simp [place]
                | cons a l ih =>
                  intro x
                  simp only [place]
                  split
                  · simp
                  · simp only [List.mem_cons, ih]
                    constructor
                    · rintro (h | h | h)
                      · exact .inr (.inl h)
                      · exact .inl h
                      · exact .inr (.inr h)
                    · rintro (h | h | h)
                      · exact .inr (.inl h)
                      · exact .inl h
                      · exact .inr (.inr h)
              exact this _ _ x
            · intro k hk' x hx
              rw [Bool.not_eq_true, List.any_eq_false] at hk
              have := hk k hk'
              rw [Bool.not_eq_true, List.any_eq_false] at this
              have := this x hx
              rw [Bool.not_eq_true] at this
              exact this

theorem clash_cols {t t' : Table} (h : t'.cols = t.cols) (a b : Row) (k : List String) : t'.clash a b k = t.clash a b k := by
  have hv : t'.value = t.value := by
    funext r x
    exact value_cols h r x
  simp only [Table.clash, Table.values, hv]

theorem insertAll_old : ∀ {l : List (List Val)} {t t' : Table}, t.insertAll l = some t' → ∀ x ∈ t.rows, ∀ vs ∈ l, ∀ k ∈ t.keys, ∃ id, t.clash (newRow t.cols id vs) x k = false
  | [], _, _, _, _, _, _, h, _, _ => by cases h
  | ws :: l, t, t', h, x, hx, vs, hvs, k, hk => by
    simp only [Table.insertAll] at h
    split at h
    · simp at h
    · rename_i t1 h1
      obtain ⟨id, c1, u1, m1, k1⟩ := insert_some h1
      rcases List.mem_cons.1 hvs with rfl | hvs
      · exact ⟨id, k1 k hk x hx⟩
      · obtain ⟨id', h2⟩ := insertAll_old h x ((m1 x).2 (.inr hx)) vs hvs k (by simpa [Table.keys, c1, u1] using hk)
        refine ⟨id', ?_⟩
        rw [clash_cols c1, c1] at h2
        exact h2

/-- Rows that clash whatever their row ids are not inserted. -/
theorem insertAll_clash : ∀ {l : List (List Val)} {t : Table} {k : List String}, k ∈ t.keys →
    ¬ l.Pairwise (fun a b => ∃ i j, t.clash (newRow t.cols i b) (newRow t.cols j a) k = false) → t.insertAll l = none
  | [], _, _, _, h => absurd List.Pairwise.nil h
  | vs :: l, t, k, hk, h => by
    cases hi : t.insertAll (vs :: l) with
    | none => rfl
    | some t' =>
      exfalso
      simp only [Table.insertAll] at hi
      split at hi
      · simp at hi
      · rename_i t1 h1
        obtain ⟨id, c1, u1, m1, k1⟩ := insert_some h1
        have hk' : k ∈ t1.keys := by simpa [Table.keys, c1, u1] using hk
        have hcl : ∀ a b, t1.clash a b k = t.clash a b k := by
          intro a b
          exact clash_cols c1 a b k
        apply h
        rw [List.pairwise_cons]
        refine ⟨?_, ?_⟩
        · intro b hb
          obtain ⟨i, h2⟩ := insertAll_old hi (newRow t.cols id vs) ((m1 _).2 (.inl rfl)) b hb k hk'
          rw [hcl, c1] at h2
          exact ⟨i, id, h2⟩
        · cases hp : t1.insertAll l with
          | none => rw [hp] at hi; cases hi
          | some t2 =>
            by_cases hpw : l.Pairwise (fun a b => ∃ i j, t1.clash (newRow t1.cols i b) (newRow t1.cols j a) k = false)
            · refine hpw.imp ?_
              rintro a b ⟨i, j, h3⟩
              rw [hcl, c1] at h3
              exact ⟨i, j, h3⟩
            · have := insertAll_clash hk' hpw
              rw [this] at hp
              cases hp

/-- The expressions of `rollback.20.sql` exist. -/
def exprsOk (d : Def) : Bool :=
  (["ecu_serial", "sha256", "name", "hashes", "length", "correlation_id", "is_current", "is_pending"].map Expr.col).all (fun e => match e with
    | .col x => (d.cols.find? (fun c => c.name == x)).isSome
    | .lit _ => true)

/-- The key of the installed versions before version 20. -/
def oldKey : List String := ["ecu_serial", "sha256", "name"]

/-- The table that `rollback.20.sql` makes. -/
def oldVersions : Def := ⟨[{ name := "ecu_serial", notNull := true }, { name := "sha256", notNull := true }, { name := "name", notNull := true },
  { name := "hashes", notNull := true }, { name := "length", notNull := true, dflt := .int 0 }, { name := "correlation_id", notNull := true, dflt := .text "" },
  { name := "is_current", notNull := true, dflt := .int 0, oneOf := some [0, 1] }, { name := "is_pending", notNull := true, dflt := .int 0, oneOf := some [0, 1] }],
  [oldKey], some []⟩

def oldCols : List String := ["ecu_serial", "sha256", "name", "hashes", "length", "correlation_id", "is_current", "is_pending"]

def oldExprs : List Expr := oldCols.map .col

theorem rollback20_shape : ∃ rest, statements (rollbackScript 20) =
    .create "installed_versions_migrate" oldVersions.cols [oldKey] :: .select "installed_versions_migrate" oldCols "installed_versions" oldExprs .rowid none :: rest :=
  ⟨_, rfl⟩

/-- Two entries of the log of installed versions for the same ECU, image and name: the script for
going back from version 20 fails. -/
theorem C53_rollback20 {db : Db} (h : TablesOf (tablesAt 20) db) {l : List (Option (List Val))}
    (hl : content db "installed_versions" .rowid oldKey = some l) (hdup : ¬ l.Nodup) : execAll db (statements (rollbackScript 20)) = none := by
  obtain ⟨rest, hrest⟩ := rollback20_shape
  rw [hrest]
  have hmig : (tablesAt 20).get "installed_versions_migrate" = none := by decide +kernel
  have hm := h "installed_versions_migrate"
  rw [hmig] at hm
  have hm' : db.get "installed_versions_migrate" = none := by
    cases hg : db.get "installed_versions_migrate" with
    | none => rfl
    | some t => rw [hg] at hm; exact hm.elim
  obtain ⟨u, hu⟩ : ∃ u, (tablesAt 20).get "installed_versions" = some u := by
    apply Option.isSome_iff_exists.1
    decide +kernel
  have ht := h "installed_versions"
  rw [hu] at ht
  cases hg : db.get "installed_versions" with
  | none => rw [hg] at ht; exact ht.elim
  | some t =>
    rw [hg] at ht
    obtain ⟨hcols, -, hok⟩ := ht
    have hd : ∀ d : Def, d.cols = u.cols → (exprsOk d && oldVersions.cols.all (colSafe d oldCols oldExprs) &&
        oldKey.all (fun x => (d.cols.find? (fun c => c.name == x)).any (fun c => c.notNull))) = true := by
      have h0 : ((tablesAt 20).get "installed_versions").all (fun u => exprsOk ⟨u.cols, [], none⟩ && oldVersions.cols.all (colSafe ⟨u.cols, [], none⟩ oldCols oldExprs) &&
        oldKey.all (fun x => (u.cols.find? (fun c => c.name == x)).any (fun c => c.notNull))) = true := by decide +kernel
      rw [hu] at h0
      intro d hd
      obtain ⟨a, b, c⟩ := d
      simp only at hd
      subst hd
      exact h0
    have hd' := hd ⟨t.cols, t.uniques, none⟩ hcols
    simp only [Bool.and_eq_true] at hd'
    obtain ⟨⟨he, hs⟩, hnn⟩ := hd'
    -- after the first statement
    have e1 : Stmt.exec db (.create "installed_versions_migrate" oldVersions.cols [oldKey]) = some (db ++ [("installed_versions_migrate", oldVersions.empty)]) := by
      simp only [Stmt.exec, hm', Option.isSome_none, Bool.false_eq_true, if_false]
      rfl
    have g1 : Db.get (db ++ [("installed_versions_migrate", oldVersions.empty)]) "installed_versions_migrate" = some oldVersions.empty := by
      rw [Db.get, Named.get_append, if_pos rfl]
      rw [Db.get] at hm'
      rw [hm']
      rfl
    have g2 : Db.get (db ++ [("installed_versions_migrate", oldVersions.empty)]) "installed_versions" = some t := by
      rw [Db.get, Named.get_append, if_neg (by decide), Option.or_none]
      exact hg
    have hcs : oldCols.all (fun c => oldVersions.empty.names.contains c) = true := by decide
    have hrows : t.rows.mapM (fun r => oldExprs.mapM (·.eval t r) >>= oldVersions.empty.complete oldCols) =
        some (t.rows.map (fun r => oldVersions.empty.cols.map (colVal t r oldCols oldExprs))) :=
      mapM_some (fun r hr => select_row (hok.len r hr) rfl hcs he)
    have hfail : oldVersions.empty.insertAll (t.rows.map (fun r => oldVersions.empty.cols.map (colVal t r oldCols oldExprs))) = none := by
      refine insertAll_clash (k := oldKey) (by decide) ?_
      intro hp
      apply hdup
      rw [List.pairwise_map] at hp
      simp only [content, hg, Option.map_some, Option.some.injEq, Table.ordered] at hl
      subst hl
      unfold List.Nodup
      rw [List.pairwise_map]
      refine hp.imp_of_mem ?_
      rintro a b ha hb ⟨i, j, hij⟩ heq
      have hcl : oldVersions.empty.clash (newRow oldVersions.empty.cols i (oldVersions.empty.cols.map (colVal t b oldCols oldExprs)))
          (newRow oldVersions.empty.cols j (oldVersions.empty.cols.map (colVal t a oldCols oldExprs))) oldKey = true := by
        rw [clash_iff]
        intro x hx
        have hmx : mapped oldCols oldExprs x = some x := by
          have : ∀ x ∈ oldKey, mapped oldCols oldExprs x = some x := by decide
          exact this x hx
        have hv := fun r (hr : r ∈ t.rows) i => value_mapped (cs := oldCols) (exprs := oldExprs) (t := oldVersions.empty) (s := t) (d := ⟨t.cols, t.uniques, none⟩) rfl (hok.len r hr) hcs he hs i hmx
        rw [hv b hb, hv a ha]
        have h3 := List.all_eq_true.1 hnn x hx
        rw [Option.any_eq_true] at h3
        obtain ⟨c, hc1, hc2⟩ := h3
        obtain ⟨va, ea, ma⟩ := value_some (hok.len a ha) hc1
        obtain ⟨vb, eb, mb⟩ := value_some (hok.len b hb) hc1
        have hadm := hok.admits a ha _ ma
        have hvne : va ≠ .null := by
          unfold Col.admits at hadm
          rw [hc2] at hadm
          simp only [Bool.and_eq_true] at hadm
          simpa using hadm.1
        refine ⟨va, hvne, ?_, ea⟩
        have hval : ∀ r, (t.values r oldKey) = (do let p ← t.value r "ecu_serial"; let q ← t.value r "sha256"; let s ← t.value r "name"; pure [p, q, s]) := by
          intro r
          simp only [Table.values, oldKey, List.mapM_cons, List.mapM_nil]
          cases t.value r "ecu_serial" <;> cases t.value r "sha256" <;> cases t.value r "name" <;> rfl
        have hall : ∀ r ∈ t.rows, ∀ y ∈ oldKey, ∃ v, t.value r y = some v := by
          intro r hr y hy
          have h4 := List.all_eq_true.1 hnn y hy
          rw [Option.any_eq_true] at h4
          obtain ⟨c', h5, -⟩ := h4
          obtain ⟨v, h6, -⟩ := value_some (hok.len r hr) h5
          exact ⟨v, h6⟩
        rw [hval a, hval b] at heq
        obtain ⟨a1, ha1⟩ := hall a ha "ecu_serial" (by decide)
        obtain ⟨a2, ha2⟩ := hall a ha "sha256" (by decide)
        obtain ⟨a3, ha3⟩ := hall a ha "name" (by decide)
        obtain ⟨b1, hb1⟩ := hall b hb "ecu_serial" (by decide)
        obtain ⟨b2, hb2⟩ := hall b hb "sha256" (by decide)
        obtain ⟨b3, hb3⟩ := hall b hb "name" (by decide)
        rw [ha1, ha2, ha3, hb1, hb2, hb3] at heq
        simp only [bind, Option.bind, pure, Option.some.injEq, List.cons.injEq, and_true] at heq
        obtain ⟨rfl, rfl, rfl⟩ := heq
        rw [← ea]
        simp only [oldKey, List.mem_cons, List.not_mem_nil, or_false] at hx
        rcases hx with rfl | rfl | rfl
        · rw [ha1, hb1]
        · rw [ha2, hb2]
        · rw [ha3, hb3]
      rw [hij] at hcl
      cases hcl
    have e2 : Stmt.exec (db ++ [("installed_versions_migrate", oldVersions.empty)])
        (.select "installed_versions_migrate" oldCols "installed_versions" oldExprs .rowid none) = none := by
      simp only [Stmt.exec, g1, g2, Table.ordered, hrows, hfail, Option.map_none]
    simp only [execAll, e1, e2]

/-- So a program of version 19 or older, given a database of a newer version where an image was
installed again after another one, stops at version 20, does not report it, and goes on with tables
it does not know. -/
theorem C53_back_stuck {cfg : Config} {v : Nat} (h19 : cfg.version < 20) (h20 : 20 ≤ v) (h25 : v ≤ 25) {db : Db} (ht : TablesOf (tablesAt v) db)
    (ha : AtVersion db v) (hr : HasRollbacks cfg 19 v db) {l : List (Option (List Val))}
    (hl : content db "installed_versions" .rowid oldKey = some l) (hdup : ¬ l.Nodup) :
    ∃ db', openStorage cfg false ⟨db, none, []⟩ = (.ok (), ⟨db', none, []⟩) ∧ AtVersion db' 20 ∧ TablesOf (tablesAt 20) db' := by
  obtain ⟨db', h1, h2, h3, hst, h4, h5⟩ := down_to (cfg := cfg) (w := 20) (Nat.le_refl _) (by omega) (v - 20) (by omega) h25 ht ha
    (fun k hk hk' => hr k (by omega) hk')
  have hview : view db' ⟨"installed_versions", .rowid, oldKey⟩ = view db ⟨"installed_versions", .rowid, oldKey⟩ := by
    refine h4 (fun _ => ⟨"installed_versions", .rowid, oldKey⟩) ?_
    intro k hk hk'
    refine ⟨by simp, by simp, ?_⟩
    have hall : (List.range' 21 5).all (fun k => traceAll (statements (rollbackScript k)) ⟨"installed_versions", .rowid, oldKey⟩ ==
      some ⟨"installed_versions", .rowid, oldKey⟩) = true := by decide +kernel
    have := List.all_eq_true.1 hall k (by rw [List.mem_range']; exact ⟨k - 21, by omega, by omega⟩)
    simpa using this
  have hfail := C53_rollback20 h2 (hview.trans hl) hdup
  obtain ⟨s, hs, hp⟩ := hr 20 (by omega) h20
  have hw : Wrapped (cfg.parse s) := by
    rw [hp]
    exact .inr ⟨"ROLLBACK_MIGRATION", statements (rollbackScript 20), rfl⟩
  have h6 := back_start (cfg := cfg) (20 - 1 - cfg.version) 20 (hst 20 s (by omega) hs) hw
  rw [hp, hfail] at h6
  obtain ⟨t, h6⟩ := h6
  refine ⟨db', open_back ha (by omega) (b := false) (t := t) ?_, h3, h2⟩
  rw [show ((v : Int) - cfg.version).toNat = v - cfg.version by omega, h5, show 20 - cfg.version = 20 - 1 - cfg.version + 1 by omega]
  exact h6

/-! ### Concrete cases -/

section Examples

/-- Names for the texts of the scripts. -/
private def upText (k : Nat) : String := "migrate." ++ String.ofList (List.replicate k '|')
private def downText (k : Nat) : String := if k < 15 then "" else "rollback." ++ String.ofList (List.replicate k '|')

private def parseText (s : String) : List Cmd :=
  if s = "schema" then Script.schema
  else match (List.range 26).find? (fun k => upText k == s) with
    | some k => Script.migrations.getD k []
    | none => match (List.range' 15 11).find? (fun k => downText k == s) with
      | some k => rollbackScript k
      | none => []

/-- The program of version `v`. -/
private def program (v : Nat) : Config :=
  ⟨(List.range (v + 1)).map upText, (List.range (v + 1)).map downText, "schema", v, parseText⟩

private theorem program_shipped : Shipped (program 25) := by
  refine ⟨rfl, by decide +kernel, ?_, by decide +kernel, by decide +kernel⟩
  intro k hk
  have hall : (List.range 26).all (fun k => (program 25).parse ((program 25).migrations.getD k "") == Script.migrations.getD k []) = true := by decide +kernel
  have := List.all_eq_true.1 hall k (by simp; omega)
  simpa using this

private def add (db : Db) (n : String) (vs : List Val) : Db := match db.get n with
  | some t => db.set n ((t.insert vs).getD t)
  | none => db

/-- A device of version 13 with a Primary that was stored after its Secondary and two versions. -/
private def device13 : Db :=
  add (add (add (add (add (tablesAt 13) "device_info" [.int 0, .text "device-1", .int 1])
    "ecu_serials" [.text "secondary", .text "hw2", .int 0])
    "ecu_serials" [.text "primary", .text "hw1", .int 1])
    "installed_versions" [.text "primary", .text "aa", .text "v1", .text "", .int 10, .text "", .int 0, .int 0])
    "installed_versions" [.text "primary", .text "bb", .text "v2", .text "", .int 20, .text "", .int 1, .int 0]

private def tablesOfB (like db : Db) : Bool :=
  (db.all (fun p => (like.get p.1).any (fun u => (db.get p.1).any (fun t => t.cols == u.cols && t.uniques == u.uniques && decide (TableOk t))))) &&
  like.all (fun p => (db.get p.1).isSome)

private theorem tablesOf_of {like db : Db} (h : tablesOfB like db = true) : TablesOf like db := by
  unfold tablesOfB at h
  rw [Bool.and_eq_true] at h
  intro n
  cases hn : db.get n with
  | none =>
    cases hl : like.get n with
    | none => trivial
    | some u =>
      have := List.all_eq_true.1 h.2 _ (get_mem hl)
      rw [hn] at this
      cases this
  | some t =>
    have := List.all_eq_true.1 h.1 _ (get_mem hn)
    simp only [hn, Option.any_some, Option.any_eq_true, Bool.and_eq_true, beq_iff_eq, decide_eq_true_eq] at this
    obtain ⟨u, hu, ⟨h1, h2⟩, h3⟩ := this
    rw [hu]
    exact ⟨h1, h2, h3⟩

private theorem device13_ok : TablesOf (tablesAt 13) device13 := tablesOf_of (by decide +kernel)

private theorem device13_version : AtVersion device13 13 := by
  refine ⟨⟨[{ name := "version" }], [], [⟨1, [.int 13]⟩]⟩, ⟨1, [.int 13]⟩, by decide +kernel, rfl, rfl, by omega, by omega⟩

/-- It is brought to version 25 and keeps what it holds. -/
example : ∃ db', openStorage (program 25) false ⟨device13, none, []⟩ = (.ok (), ⟨db', none, []⟩) ∧ TablesOf (tablesAt 25) db' ∧ AtVersion db' 25 ∧
    Keeps 13 device13 db' := C53_opens program_shipped (by omega) (by omega) device13_ok device13_version

example : content device13 "ecu_serials" (readOrder "ecu_serials") ["serial", "hardware_id"] =
    some [some [.text "primary", .text "hw1"], some [.text "secondary", .text "hw2"]] := by decide +kernel

/-- The outcome, with the process dying at the commit, and with a full disk. -/
example : ((openStorage (program 25) false ⟨device13, none, []⟩).2.disk.get "ecus").map (·.rows) =
    some [⟨1, [.int 1, .text "primary", .text "hw1", .int 1]⟩, ⟨2, [.int 2, .text "secondary", .text "hw2", .int 0]⟩] := by decide +kernel

/-- C36: a disk that is full during the migration. Opening the storage succeeds, with a database of
version 13. -/
private theorem full_disk : (openStorage (program 25) false ⟨device13, none, List.replicate 20 none ++ [some (.fails true)]⟩).1.toOption = some () ∧
    (openStorage (program 25) false ⟨device13, none, List.replicate 20 none ++ [some (.fails true)]⟩).2.disk = device13 := by decide +kernel

/-- The full statement of C36 ("opening storage reports failure if it could not be brought to the
current version") does not hold. -/
theorem C36_not_reported : ¬ ∀ (cfg : Config) (c c' : Conn) (v : Nat), AtVersion c.disk v → openStorage cfg false c = (.ok (), c') → AtVersion c'.disk cfg.version := by
  intro h
  have h1 := full_disk
  generalize hx : openStorage (program 25) false ⟨device13, none, List.replicate 20 none ++ [some (.fails true)]⟩ = p at h1
  obtain ⟨o, c'⟩ := p
  obtain ⟨h2, h3⟩ := h1
  cases o with
  | error e => cases h2
  | ok u =>
    have h4 := h (program 25) _ c' 13 device13_version hx
    simp only at h3
    rw [h3] at h4
    obtain ⟨t, r, e1, e2, e3, -⟩ := h4
    obtain ⟨t', r', f1, f2, f3, -⟩ := device13_version
    rw [e1] at f1
    cases f1
    rw [e2] at f2
    cases f2
    rw [e3] at f3
    exact absurd f3 (by decide)

/-- A device of version 25 where v1 was installed, then v2, then v1 again. -/
private def again25 : Db :=
  let row := fun (h n : String) => [.null, .text "primary", .text h, .text n, .text "", .int 10, .text "", .int 0, .int 0, .int 1, .text ""]
  let db := (execAll (tablesAt 25) (backRows (program 25))).getD []
  add (add (add db "installed_versions" (row "aa" "v1")) "installed_versions" (row "bb" "v2")) "installed_versions" (row "aa" "v1")

private theorem again25_ok : TablesOf (tablesAt 25) again25 := tablesOf_of (by decide +kernel)

private theorem again25_version : AtVersion again25 25 := by
  refine ⟨⟨[{ name := "version" }], [], [⟨1, [.int 25]⟩]⟩, ⟨1, [.int 25]⟩, by decide +kernel, rfl, rfl, by omega, by omega⟩

private theorem again25_rollbacks (v : Nat) : HasRollbacks (program v) 14 25 again25 := by
  intro k h1 h2
  have hall : (List.range' 15 11).all (fun k => (again25.get "rollback_migrations").any (fun t =>
      (t.rows.find? (fun r => t.value r "version_from" == some (.int k))).any (fun r => t.value r "migration" == some (.text (downText k)))) &&
      parseText (downText k) == rollbackScript k) = true := by decide +kernel
  have := List.all_eq_true.1 hall k (by rw [List.mem_range']; exact ⟨k - 15, by omega, by omega⟩)
  simp only [Bool.and_eq_true, Option.any_eq_true, beq_iff_eq] at this
  obtain ⟨⟨t, h3, r, h4, h5⟩, h6⟩ := this
  exact ⟨downText k, ⟨t, r, h3, h4, h5⟩, h6⟩

/-- A program of version 21 takes it back. -/
example : ∃ db', openStorage (program 21) false ⟨again25, none, []⟩ = (.ok (), ⟨db', none, []⟩) ∧ TablesOf (tablesAt 21) db' ∧ AtVersion db' 21 ∧
    KeepsBack 25 21 again25 db' :=
  C53_back (cfg := program 21) (by decide) (by decide) (by omega) again25_ok again25_version
    (fun k h1 h2 => again25_rollbacks 21 k (by have : (program 21).version = 21 := rfl; omega) h2)

/-- A program of version 19 is left with a database of version 20. -/
example : ∃ db', openStorage (program 19) false ⟨again25, none, []⟩ = (.ok (), ⟨db', none, []⟩) ∧ AtVersion db' 20 ∧ TablesOf (tablesAt 20) db' :=
  C53_back_stuck (cfg := program 19) (v := 25) (by decide) (by omega) (by omega) again25_ok again25_version (fun k h1 h2 => again25_rollbacks 19 k (by omega) h2)
    (l := [some [.text "primary", .text "aa", .text "v1"], some [.text "primary", .text "bb", .text "v2"], some [.text "primary", .text "aa", .text "v1"]])
    (by decide +kernel) (by decide)

end Examples

end Aktualizr.Mig
