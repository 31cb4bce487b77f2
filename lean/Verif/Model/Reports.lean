import Verif.Model.Monad

/-!
# The report queue

Models `src/libaktualizr/primary/reportqueue.cc` and the table `report_events`
(`src/libaktualizr/storage/sqlstorage.cc`). An event is its canonical JSON text.

`enqueue` and the flushes of the queue's thread hold the same mutex (reportqueue.cc:28, 37), and
the destructor's flush comes after the thread has ended, so the two never overlap. The queue has
no state outside the database, so that a restart changes nothing.
-/

namespace Aktualizr.Reports

open M (throwWhen gets modify)

/-- Largest `int64_t`. -/
def idLimit : Int := 9223372036854775807

/-- Rows of `report_events`, in the order of the key `id` (schema.sql:28), which is the order in
which SQLite scans the table. -/
structure Store where
  rows : List (Int × String) := []

/-- `MAX(id)`; `none` is `NULL`. -/
def Store.maxId (s : Store) : Option Int := (s.rows.map Prod.fst).max?

/-- `SQLStorage::saveReportEvent` (sqlstorage.cc:1563-1572): `INSERT ... SELECT MAX(id) + 1, ?`. In
an empty table `MAX(id) + 1` is `NULL` and SQLite picks 1. When the sum exceeds the integer range
it becomes a floating point number, which is no valid key: the insertion fails (and an error is
logged). -/
def Store.save (s : Store) (event : String) : Store :=
  match s.maxId with
  | none => { rows := s.rows ++ [(1, event)] }
  | some m => if m = idLimit then s else { rows := s.rows ++ [(m + 1, event)] }

/-- The loop of `SQLStorage::loadReportEvents` (sqlstorage.cc:1574-1606): the events, and the
largest id, at least the given one, of those that parse; others are skipped. -/
def loadLoop (parses : String → Bool) : List (Int × String) → Int → List String × Int
  | [], m => ([], m)
  | (id, text) :: rest, m =>
    if parses text then
      let r := loadLoop parses rest (if m > id then m else id)
      (text :: r.1, r.2)
    else loadLoop parses rest m

/-- `SQLStorage::loadReportEvents`. -/
def Store.load (parses : String → Bool) (s : Store) : List String × Int := loadLoop parses s.rows 0

/-- `SQLStorage::deleteReportEvents` (sqlstorage.cc:1608-1615). -/
def Store.delete (s : Store) (idMax : Int) : Store := { rows := s.rows.filter (fun r => !(r.1 ≤ idMax)) }

/-- `HttpResponse` (http/httpinterface.h:16-36): whether curl succeeded, and the status. -/
structure Answer where
  curlOk : Bool
  status : Int
  deriving DecidableEq

/-- `HttpResponse::isOk` (httpinterface.h:29). -/
def Answer.isOk (a : Answer) : Bool := a.curlOk && decide (200 ≤ a.status) && decide (a.status < 400)

/-- The queue, with the batches posted to the server and the answers. `fuel` is the number of
further effects before the process dies. -/
structure World where
  store : Store := {}
  posts : List (List String × Answer) := []
  fuel : Nat := 0

/-- One effect on the outside or the database. -/
def effect (f : World → World) : M World Unit := fun w =>
  match w.fuel with
  | 0 => (.error .crash, w)
  | k + 1 => (.ok (), { f w with fuel := k })

/-- `ReportQueue::flushQueue` (reportqueue.cc:42-67); `server` says whether a server is
configured, `answer` is what it answers. -/
def flushQueue (parses : String → Bool) (server : Bool) (answer : Answer) : M World Unit := do
  let w ← gets id
  let r := w.store.load parses
  let batch := if server then r.1 else []
  if batch.isEmpty then pure ()
  else do
    effect (fun w => { w with posts := w.posts ++ [(batch, answer)] })
    if answer.isOk || answer.status == 404 then effect (fun w => { w with store := w.store.delete r.2 })
    else pure ()

/-- What happens to the queue. -/
inductive Op where
  /-- `ReportQueue::enqueue` (reportqueue.cc:34-40). A crash before the insertion is the same as
  no call. -/
  | enqueue (event : String)
  /-- `flushQueue`, dying after `fuel` effects. -/
  | flush (server : Bool) (answer : Answer) (fuel : Nat)

/-- One operation. -/
def Op.step (parses : String → Bool) (w : World) : Op → World
  | .enqueue e => { w with store := w.store.save e }
  | .flush server answer fuel => (flushQueue parses server answer { w with fuel := fuel }).2

/-- A history. -/
def run (parses : String → Bool) (w : World) (ops : List Op) : World := ops.foldl (Op.step parses) w

end Aktualizr.Reports
