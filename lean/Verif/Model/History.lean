import Verif.Model.Delegation

/-!
# Histories of metadata operations

A history is a list of calls, each with its own server, clock and crash point.  The process
may be restarted between calls; after a crash it always is.
-/

namespace Aktualizr

/-- The metadata operations of the client. -/
inductive Call where
  /-- `DirectorRepository::updateMeta`. -/
  | updateDirector
  /-- `ImageRepository::updateMeta`. -/
  | updateImage
  /-- `DirectorRepository::checkMetaOffline`. -/
  | offlineDirector
  /-- `ImageRepository::checkMetaOffline`. -/
  | offlineImage
  /-- `DirectorRepository::dropTargets`. -/
  | dropTargets
  /-- `SotaUptaneClient::findTargetInDelegationTree`. -/
  | find (q : Target) (offline : Bool)
  /-- The process is restarted. -/
  | restart

/-- A call together with everything outside the client's control. -/
structure Event where
  call : Call
  net : Nat → Repo → String → Int → Option String
  clock : Nat → TimeStamp
  fuel : Nat

/-- A fresh process on an existing database. -/
def boot (db : MetaDb) : World := { db := db, fuel := 0 }

/-- The client code run by a call. -/
def Call.run (c : Ctx) : Call → U Unit
  | .updateDirector => Director.updateMeta c
  | .updateImage => Image.updateMeta c
  | .offlineDirector => Director.checkMetaOffline c
  | .offlineImage => Image.checkMetaOffline c
  | .dropTargets => Director.dropTargets
  | .find q offline => do let _ ← Delegation.findInTree c q offline; pure ()
  | .restart => M.modify (fun w => { boot w.db with fuel := w.fuel })

/-- Outcome of an event in state `w`. -/
def Event.exec (env : Env) (e : Event) (w : World) : Except Err Unit × World :=
  e.call.run { env := env, net := e.net, clock := e.clock } { w with tick := 0, fuel := e.fuel }

/-- State after an event: a crash loses the volatile state. Undefined behaviour is treated
like a crash at that point (nothing is claimed about what the program does after it). -/
def Event.step (env : Env) (w : World) (e : Event) : World :=
  match e.exec env w with
  | (.error .crash, w') => boot w'.db
  | (.error (.ub _), w') => boot w'.db
  | (_, w') => w'

/-- State after a history. -/
def runHistory (env : Env) (w : World) (es : List Event) : World := es.foldl (Event.step env) w

end Aktualizr
