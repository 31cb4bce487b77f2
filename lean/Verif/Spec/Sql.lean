import Verif.Model.Sql

/-!
# What the tables of a database hold
-/

namespace Aktualizr.Spec

open Sql

/-- The rows of a table satisfy the constraints of its definition: a value for every column that
the column admits, distinct row ids, and no two rows that agree on a key. -/
structure TableOk (t : Table) : Prop where
  len : ∀ r ∈ t.rows, r.vals.length = t.cols.length
  admits : ∀ r ∈ t.rows, ∀ p ∈ t.cols.zip r.vals, p.1.admits p.2 = true
  ids : t.rows.Pairwise (fun a b => a.id < b.id)
  keys : ∀ k ∈ t.keys, t.rows.Pairwise (fun a b => t.clash a b k = false)

/-- The database has the tables of `like`, with whatever rows satisfy the constraints. -/
def TablesOf (like db : Db) : Prop := ∀ n, match db.get n, like.get n with
  | some t, some u => t.cols = u.cols ∧ t.uniques = u.uniques ∧ TableOk t
  | none, none => True
  | _, _ => False

/-- What a table holds in some columns, row by row. -/
def content (db : Db) (table : String) (order : Order) (cols : List String) : Option (List (Option (List Val))) :=
  (db.get table).map (fun t => (t.ordered order).map (fun r => t.values r cols))

end Aktualizr.Spec
