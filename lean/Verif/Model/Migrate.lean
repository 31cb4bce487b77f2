import Verif.Model.Monad
import Verif.Model.Scripts

/-!
# Opening the storage

Models `SQLStorageBase` of `src/libaktualizr/storage/sqlstorage_base.cc`: reading the schema version
and bringing the database to the version of the program, over connections as in
`src/libaktualizr/storage/sql_utils.h`.  The process can die and SQLite can fail at every command.

Not modelled: permissions of the directory, the lock file (it only warns), other processes that use
the same database, the mutex.
-/

namespace Aktualizr.Mig

open Sql
open M (throwWhen throw gets modify lift)

/-- What goes wrong at a command: SQLite reports an error, after which a transaction may have been
rolled back (as for a full disk) or not; or the process dies, before or after the command. -/
inductive Fault where
  | fails (rolls : Bool)
  | dies (after : Bool)
  deriving DecidableEq

/-- An open transaction: the database as the connection sees it, whether it was begun by `BEGIN`, and
the open savepoints, last first. -/
structure Tx where
  work : Db
  begun : Bool
  saves : List String

/-- The database file, the transaction of the connection, and what goes wrong at the next
commands. -/
structure Conn where
  disk : Db
  tx : Option Tx := none
  faults : List (Option Fault) := []

abbrev C (α : Type) := M Conn α

/-- One command: whether it succeeded. -/
def command (f : Db → Option Tx → Option (Db × Option Tx)) : C Bool := fun c =>
  match c.faults.head? with
  | some (some (.dies after)) =>
    (.error .crash, { disk := if after then (match f c.disk c.tx with | some p => p.1 | none => c.disk) else c.disk, tx := none, faults := c.faults.tail })
  | some (some (.fails rolls)) => (.ok false, { c with tx := if rolls then none else c.tx, faults := c.faults.tail })
  | _ => match f c.disk c.tx with
    | none => (.ok false, { c with faults := c.faults.tail })
    | some p => (.ok true, { disk := p.1, tx := p.2, faults := c.faults.tail })

/-- `BEGIN TRANSACTION` (sql_utils.h:186-193); fails inside a transaction. -/
def beginEff (d : Db) : Option Tx → Option (Db × Option Tx)
  | none => some (d, some ⟨d, true, []⟩)
  | some _ => none

/-- `COMMIT TRANSACTION` (sql_utils.h:195-200). -/
def commitEff (d : Db) : Option Tx → Option (Db × Option Tx)
  | none => none
  | some x => let _ := d; some (x.work, none)

/-- A statement: in a transaction it changes what the connection sees, otherwise the file. -/
def stmtEff (s : Stmt) (d : Db) : Option Tx → Option (Db × Option Tx)
  | none => (s.exec d).map (fun d' => (d', none))
  | some x => (s.exec x.work).map (fun w => (d, some { x with work := w }))

/-- `SAVEPOINT n`: opens a transaction if there is none. -/
def savepointEff (n : String) (d : Db) : Option Tx → Option (Db × Option Tx)
  | none => some (d, some ⟨d, false, [n]⟩)
  | some x => some (d, some { x with saves := n :: x.saves })

/-- `RELEASE n`: ends the savepoints up to the last one of that name; if a transaction was opened by
the outermost one, it is committed. -/
def releaseEff (n : String) (d : Db) : Option Tx → Option (Db × Option Tx)
  | none => none
  | some x =>
    if x.saves.contains n then
      let rest := (x.saves.dropWhile (fun m => m != n)).drop 1
      if rest.isEmpty && !x.begun then some (x.work, none) else some (d, some { x with saves := rest })
    else none

/-- The effect of a command of a script. -/
def Cmd.eff : Cmd → Db → Option Tx → Option (Db × Option Tx)
  | .stmt s => stmtEff s
  | .savepoint n => savepointEff n
  | .release n => releaseEff n

/-- `sqlite3_exec` (sql_utils.h:165-167): the commands of a script up to the first that fails. -/
def execScript : List Cmd → C Bool
  | [] => pure true
  | x :: l => do
    if ← command (Cmd.eff x) then execScript l else pure false

/-- A query: it changes nothing. -/
def query {α : Type} (f : Db → α) : C (Option α) := do
  if ← command (fun d t => some (d, t)) then do
    let c ← gets id
    pure (some (f (match c.tx with | none => c.disk | some x => x.work)))
  else pure none

/-- `dbConnection` (sqlstorage_base.cc:77-83) and the end of the connection: what was not committed is
rolled back (sql_utils.h:178-184). -/
def withConnection {α : Type} (m : C α) : C α := fun c =>
  match command (fun d _ => some (d, none)) c with
  | (.ok true, c1) => let p := m c1; (p.1, { p.2 with tx := none })
  | (.ok false, c1) => (.error (.std "Can't open database"), { c1 with tx := none })
  | (.error e, c1) => (.error e, c1)

/-- The scripts of the program (sqlstorage.cc:61-64), and the parser of SQL. -/
structure Config where
  migrations : List String
  rollbacks : List String
  schema : String
  version : Nat
  parse : String → List Cmd

/-- `static_cast<int32_t>` of a 64 bit number. -/
def toInt32 (i : Int) : Int := (i + 2147483648) % 4294967296 - 2147483648

/-- `sqlite3_column_int64` (text that is a number is simplified to 0). -/
def columnInt : Val → Int
  | .int i => i
  | _ => 0

/-- The answer to `SELECT version FROM version LIMIT 1`: no such table or column, no row, or a
value. -/
def versionRow (db : Db) : Option (Option Val) :=
  match db.get "version" with
  | none => none
  | some t => if t.names.contains "version" then some (t.rows.head?.bind (fun r => t.value r "version")) else none

/-- `SQLStorageBase::getVersion` (sqlstorage_base.cc:244-273); -1: empty, -2: invalid. -/
def getVersion : C Int := withConnection do
  match ← query (fun db => db.length) with
  | none => pure (-2)
  | some n =>
    if n = 0 then pure (-1)
    else match ← query versionRow with
      | some (some (some v)) => pure (toInt32 (columnInt v))
      | _ => pure (-2)

/-- `std::vector::at` (throws out_of_range). -/
def at' (l : List String) (k : Int) : C String :=
  match (if k < 0 then none else l[k.toNat]?) with
  | some s => pure s
  | none => throw (.std "vector::_M_range_check")

/-- The loop of `dbInsertBackMigrations`, for versions `k`, `k + 1`, ... . -/
def insertBackLoop (cfg : Config) : Nat → Nat → C Bool
  | 0, _ => pure true
  | n + 1, k => do
    let s ← at' cfg.rollbacks k
    if s = "" then insertBackLoop cfg n (k + 1)
    else do
      -- preparing the statement throws when there is no such table
      let has ← query (fun db => (db.get "rollback_migrations").isSome)
      throwWhen (has != some true) (.std "Could not prepare statement")
      if ← command (stmtEff (.replace "rollback_migrations" ["version_from", "migration"] [.int k, .text s])) then
        insertBackLoop cfg n (k + 1)
      else pure false

/-- `SQLStorageBase::dbInsertBackMigrations` (sqlstorage_base.cc:104-129). -/
def dbInsertBackMigrations (cfg : Config) : C Bool :=
  if cfg.rollbacks.isEmpty then pure true
  else if cfg.rollbacks.length < cfg.version + 1 then pure false
  else insertBackLoop cfg cfg.version 1

/-- The loop over the scripts in `dbMigrateForward`: `n` scripts from version `k` on. -/
def forwardLoop (cfg : Config) : Nat → Int → C Bool
  | 0, _ => pure true
  | n + 1, k => do
    let s ← at' cfg.migrations k
    if ← execScript (cfg.parse s) then forwardLoop cfg n (k + 1) else pure false

/-- `SQLStorageBase::dbMigrateForward` (sqlstorage_base.cc:131-161) to the version of the program. -/
def dbMigrateForward (cfg : Config) (from' : Int) : C Bool := withConnection do
  if !(← command beginEff) then pure false
  else if !(← forwardLoop cfg ((cfg.version : Int) - from').toNat (from' + 1)) then pure false
  else if !(← dbInsertBackMigrations cfg) then pure false
  else do
    throwWhen (!(← command commitEff)) (.std "Can't begin transaction")
    pure true

/-- The script stored for going back from a version: no such table, no such row, or its text. -/
def storedRollback (ver : Int) (db : Db) : Option (Option Val) :=
  match db.get "rollback_migrations" with
  | none => none
  | some t => some ((t.rows.find? (fun r => t.value r "version_from" == some (.int ver))).bind (fun r => t.value r "migration"))

/-- The loop of `dbMigrateBackward`: `n` versions back from `ver`. -/
def backwardLoop (cfg : Config) : Nat → Int → C Bool
  | 0, _ => pure true
  | n + 1, ver => do
    match ← query (storedRollback ver) with
    | none => pure false
    | some none => throw (.std "Could not prepare statement")
    | some (some none) => pure false
    | some (some (some v)) => do
      throwWhen (v == .null) (.ub "dereferencing boost::none")
      let s := match v with | .text s => s | _ => ""
      if !(← execScript (cfg.parse s)) then pure false
      else if !(← command (stmtEff (.delete "rollback_migrations" "version_from" (.int ver)))) then pure false
      else backwardLoop cfg n (ver - 1)

/-- `SQLStorageBase::dbMigrateBackward` (sqlstorage_base.cc:163-194) to the version of the program. -/
def dbMigrateBackward (cfg : Config) (from' : Int) : C Bool :=
  withConnection (backwardLoop cfg (from' - (cfg.version : Int)).toNat from')

/-- The branch of `dbMigrate` for an empty database (sqlstorage_base.cc:214-234). -/
def bootstrap (cfg : Config) : C Bool := withConnection do
  if !(← command beginEff) then pure false
  else if !(← execScript (cfg.parse cfg.schema)) then pure false
  else if !(← dbInsertBackMigrations cfg) then pure false
  else do
    throwWhen (!(← command commitEff)) (.std "Can't begin transaction")
    pure true

/-- `SQLStorageBase::dbMigrate` (sqlstorage_base.cc:196-242). -/
def dbMigrate (cfg : Config) (readonly : Bool) : C Bool := do
  let v ← getVersion
  if v = -2 then pure false
  else if v = (cfg.version : Int) then pure true
  else if readonly then pure false
  else if v = -1 then bootstrap cfg
  else if v > (cfg.version : Int) then do
    let _ ← dbMigrateBackward cfg v
    pure true
  else do
    let _ ← dbMigrateForward cfg v
    pure true

/-- The constructor of `SQLStorageBase` (sqlstorage_base.cc:72-74). -/
def openStorage (cfg : Config) (readonly : Bool) : C Unit := do
  throwWhen (!(← dbMigrate cfg readonly)) (.std "SQLite database migration failed")

end Aktualizr.Mig
