import Verif.Model.Json

/-!
# The part of SQL used by the schema scripts

The storage of aktualizr is an SQLite file.  The scripts in `config/sql` that bring it from one
schema version to another use few kinds of statements; this file gives their meaning on tables of
rows.

Simplified: names are compared exactly (SQLite ignores case), column affinities do not convert
values, row ids do not run out, a SELECT without ORDER BY reads in the order of the row ids.
-/

namespace Aktualizr.Sql

/-- A value. -/
inductive Val where
  | null
  | int (i : Int)
  | text (s : String)
  | blob (b : List UInt8)
  deriving DecidableEq, Repr

/-- A column of a table definition. `oneOf`: a `CHECK (c IN (...))` or `CHECK (c = 0)`.
`rowid`: `INTEGER PRIMARY KEY`, which is the row id. Other primary keys are `unique` (and, in
SQLite, may be NULL). -/
structure Col where
  name : String
  notNull : Bool := false
  dflt : Val := .null
  oneOf : Option (List Int) := none
  unique : Bool := false
  rowid : Bool := false
  deriving DecidableEq, Repr

/-- A row: its row id and its values. -/
structure Row where
  id : Int
  vals : List Val
  deriving DecidableEq, Repr

/-- A table; the rows are in the order of their row ids. `uniques`: the `UNIQUE(a, b)` of the
definition. -/
structure Table where
  cols : List Col
  uniques : List (List String) := []
  rows : List Row := []
  deriving DecidableEq, Repr

/-- Things by name. -/
abbrev Named (α : Type) := List (String × α)

/-- The thing of a name. -/
def Named.get {α : Type} (l : Named α) (n : String) : Option α := (l.find? (fun p => p.1 == n)).map (·.2)

/-- Replaces a thing. -/
def Named.set {α : Type} (l : Named α) (n : String) (t : α) : Named α := l.map (fun p => if p.1 == n then (n, t) else p)

/-- Removes a thing. -/
def Named.erase {α : Type} (l : Named α) (n : String) : Named α := l.filter (fun p => p.1 != n)

/-- A database: tables by name. -/
abbrev Db := Named Table

/-- The table of a name. -/
def Db.get (db : Db) (n : String) : Option Table := Named.get db n

/-- Replaces a table. -/
def Db.set (db : Db) (n : String) (t : Table) : Db := Named.set db n t

/-- Removes a table. -/
def Db.erase (db : Db) (n : String) : Db := Named.erase db n

/-- The names of the columns. -/
def Table.names (t : Table) : List String := t.cols.map (·.name)

/-- The value of a column in a row. -/
def Table.value (t : Table) (r : Row) (c : String) : Option Val := (t.names.zip r.vals).lookup c

/-- The values of some columns in a row. -/
def Table.values (t : Table) (r : Row) (cs : List String) : Option (List Val) := cs.mapM (t.value r)

/-- Every set of columns that may not repeat. -/
def Table.keys (t : Table) : List (List String) := ((t.cols.filter (·.unique)).map (fun c => [c.name])) ++ t.uniques

/-- Constraints of one column on one value. -/
def Col.admits (c : Col) (v : Val) : Bool :=
  (!c.notNull || v != .null) &&
  (match c.oneOf, v with
   | some l, .int i => l.contains i
   | some _, .null => true
   | some _, _ => false
   | none, _ => true)

/-- Whether two rows agree on a set of columns without a NULL. -/
def Table.clash (t : Table) (r r' : Row) (k : List String) : Bool :=
  match t.values r k with
  | none => false
  | some vs => !vs.contains .null && t.values r' k == some vs

/-- The next row id. -/
def Table.nextId (t : Table) : Int := t.rows.foldl (fun m r => max m (r.id + 1)) 1

/-- The row id that an insertion takes: that of the `INTEGER PRIMARY KEY` column, or the next. -/
def Table.newId (t : Table) (vs : List Val) : Option Int :=
  match (t.cols.zip vs).find? (fun p => p.1.rowid) with
  | none => some t.nextId
  | some (_, .null) => some t.nextId
  | some (_, .int i) => some i
  | some _ => none

/-- Puts a row at its place. -/
def place (r : Row) : List Row → List Row
  | [] => [r]
  | x :: l => if r.id < x.id then r :: x :: l else x :: place r l

/-- Inserts a row with a value for every column; `none` when a constraint forbids it. -/
def Table.insert (t : Table) (vs : List Val) : Option Table :=
  if vs.length ≠ t.cols.length then none
  else match t.newId vs with
  | none => none
  | some id =>
    let vs' := (t.cols.zip vs).map (fun p => if p.1.rowid then .int id else p.2)
    let r : Row := ⟨id, vs'⟩
    if !(t.cols.zip vs').all (fun p => p.1.admits p.2) then none
    else if t.rows.any (fun x => x.id == id) then none
    else if t.keys.any (fun k => t.rows.any (fun x => t.clash r x k)) then none
    else some { t with rows := place r t.rows }

/-- Inserts rows, all or none. -/
def Table.insertAll (t : Table) : List (List Val) → Option Table
  | [] => some t
  | vs :: l => match t.insert vs with
    | none => none
    | some t' => t'.insertAll l

/-- A full list of values from a list for some columns: the others take their defaults. -/
def Table.complete (t : Table) (cs : List String) (vs : List Val) : Option (List Val) :=
  if vs.length ≠ cs.length then none
  else if cs.all (fun c => t.names.contains c) then
    some (t.cols.map (fun c => ((cs.zip vs).lookup c.name).getD (if c.rowid then .null else c.dflt)))
  else none

/-- What a SELECT yields for a row. -/
inductive Expr where
  | col (name : String)
  | lit (v : Val)
  deriving DecidableEq, Repr

def Expr.eval (t : Table) (r : Row) : Expr → Option Val
  | .col c => t.value r c
  | .lit v => some v

/-- The order of a SELECT: by row id, or first by a column (1 before 0), then by row id. -/
inductive Order where
  | rowid
  | flagFirst (c : String)
  deriving DecidableEq, Repr

/-- The rows of a table in an order. The column is one that holds only 0 and 1. -/
def Table.ordered (t : Table) : Order → List Row
  | .rowid => t.rows
  | .flagFirst c => t.rows.filter (fun r => t.value r c == some (.int 1)) ++
      t.rows.filter (fun r => !(t.value r c == some (.int 1)))

/-- The statements of the scripts. -/
inductive Stmt where
  /-- `CREATE TABLE` -/
  | create (name : String) (cols : List Col) (uniques : List (List String))
  /-- `DROP TABLE` -/
  | drop (name : String)
  /-- `ALTER TABLE a RENAME TO b` -/
  | rename (name to : String)
  /-- `ALTER TABLE a ADD COLUMN c` -/
  | addColumn (name : String) (col : Col)
  /-- `INSERT INTO a(cols) VALUES ...` -/
  | insert (name : String) (cols : List String) (rows : List (List Val))
  /-- `INSERT OR REPLACE INTO a(cols) VALUES ...` where the first column is the key -/
  | replace (name : String) (cols : List String) (row : List Val)
  /-- `INSERT INTO a(cols) SELECT exprs FROM b ORDER BY ... [LIMIT 1]` -/
  | select (name : String) (cols : List String) (src : String) (exprs : List Expr) (order : Order) (limit : Option Nat)
  /-- `INSERT INTO a(cols) SELECT ... FROM l INNER JOIN r ON l.flag = 1`: `lexprs` and `rexprs` are
  the columns from both sides, an expression takes from the left first -/
  | join (name : String) (cols : List String) (l flag r : String) (exprs : List (Bool × Expr))
  /-- `DELETE FROM a` -/
  | clear (name : String)
  /-- `DELETE FROM a WHERE c = v` -/
  | delete (name : String) (col : String) (v : Val)
  deriving DecidableEq, Repr

/-- One statement; `none`: SQLite reports an error and the statement has no effect. -/
def Stmt.exec (db : Db) : Stmt → Option Db
  | .create n cols uniques => if (db.get n).isSome then none else some (db ++ [(n, { cols := cols, uniques := uniques })])
  | .drop n => if (db.get n).isSome then some (db.erase n) else none
  | .rename n m => match db.get n with
    | none => none
    | some t => if (db.get m).isSome then none else some (db.erase n ++ [(m, t)])
  | .addColumn n c => match db.get n with
    | none => none
    | some t =>
      if t.names.contains c.name || (c.notNull && c.dflt == .null) || c.unique || c.rowid then none
      else some (db.set n { t with cols := t.cols ++ [c], rows := t.rows.map (fun r => { r with vals := r.vals ++ [c.dflt] }) })
  | .insert n cs rows => match db.get n with
    | none => none
    | some t => match rows.mapM (t.complete cs) with
      | none => none
      | some vs => (t.insertAll vs).map (db.set n)
  | .replace n cs row => match db.get n with
    | none => none
    | some t => match t.complete cs row, cs, row with
      | some vs, k :: _, v :: _ =>
        ({ t with rows := t.rows.filter (fun r => t.value r k != some v) }.insert vs).map (db.set n)
      | _, _, _ => none
  | .select n cs src exprs order limit => match db.get n, db.get src with
    | some t, some s =>
      let rows := s.ordered order
      let rows := match limit with | none => rows | some k => rows.take k
      match rows.mapM (fun r => exprs.mapM (·.eval s r) >>= t.complete cs) with
      | none => none
      | some vs => (t.insertAll vs).map (db.set n)
    | _, _ => none
  | .join n cs l flag r exprs => match db.get n, db.get l, db.get r with
    | some t, some tl, some tr =>
      let pairs := (tl.rows.filter (fun x => tl.value x flag == some (.int 1))).flatMap (fun x => tr.rows.map (fun y => (x, y)))
      match pairs.mapM (fun p => exprs.mapM (fun e => if e.1 then e.2.eval tl p.1 else e.2.eval tr p.2) >>= t.complete cs) with
      | none => none
      | some vs => (t.insertAll vs).map (db.set n)
    | _, _, _ => none
  | .clear n => match db.get n with
    | none => none
    | some t => some (db.set n { t with rows := [] })
  | .delete n c v => match db.get n with
    | none => none
    | some t => if t.names.contains c then some (db.set n { t with rows := t.rows.filter (fun r => t.value r c != some v) }) else none

/-- Several statements. -/
def execAll (db : Db) : List Stmt → Option Db
  | [] => some db
  | s :: l => match s.exec db with
    | none => none
    | some db' => execAll db' l

end Aktualizr.Sql
