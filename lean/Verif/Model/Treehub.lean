import Verif.Model.Json

/-!
# Pushing an OSTree commit to Treehub

Models `src/sota_tools/ostree_object.cc`, `request_pool.cc` and the loop of `deploy.cc`.

Objects are numbers. libcurl is replaced by the list of objects with a request under way; when
and how a request is completed is an input, as is the number of requests launched (the rate
controller is modelled in `Model/Rate.lean`). Reference counts and files are not modelled.
-/

namespace Aktualizr.Treehub

abbrev Obj := Nat

/-- The source repository: what the objects refer to, in the order in which `PopulateChildren`
(ostree_object.cc:74-171) finds it, and which objects there are (`GetObject`, ostree_repo.cc:10-40). -/
structure Repo where
  refs : Obj → List Obj
  has : Obj → Bool

/-- `RunMode` (garage_common.h). -/
inductive Mode where
  | default | dryRun | walkTree | pushTree
  deriving DecidableEq, Repr

/-- `PresenceOnServer` (ostree_object.h:19). -/
inductive Presence where
  | unknown | present | missing | inProgress
  deriving DecidableEq, Repr

/-- `CurrentOp` (ostree_object.h:21). -/
inductive CurrentOp where
  | uploading | presenceCheck
  deriving DecidableEq, Repr

/-- `OSTreeObject` (ostree_object.h:105-125). An iterator into `children_` is a number that is not used
again; `busy` says whether there is a curl handle. -/
structure ObjState where
  presence : Presence := .unknown
  op : CurrentOp := .uploading
  children : List (Nat × Obj) := []
  parents : List (Obj × Nat) := []
  nextSlot : Nat := 0
  busy : Bool := false

/-- What can be seen from outside. -/
inductive Event where
  /-- a HEAD request was sent -/
  | head (o : Obj)
  /-- an object was sent -/
  | put (o : Obj)
  /-- the server confirmed that it has the object -/
  | seen (o : Obj)
  deriving DecidableEq, Repr

/-- `RequestPool` (request_pool.h:44-54) with the objects. -/
structure Pool where
  objs : Obj → ObjState := fun _ => {}
  queries : List Obj := []
  uploads : List Obj := []
  running : List Obj := []
  stopped : Bool := false
  log : List Event := []

def Pool.set (p : Pool) (o : Obj) (s : ObjState) : Pool := { p with objs := fun x => if x = o then s else p.objs x }

def Pool.setPresence (p : Pool) (o : Obj) (s : Presence) : Pool := p.set o { p.objs o with presence := s }

/-- `AddQuery` (request_pool.cc:36-41) with `LaunchNotify` (ostree_object.h:58). -/
def Pool.addQuery (p : Pool) (o : Obj) : Pool :=
  let p := p.setPresence o .inProgress
  if p.stopped then p else { p with queries := p.queries ++ [o] }

/-- `AddUpload` (request_pool.cc:43-48). -/
def Pool.addUpload (p : Pool) (o : Obj) : Pool :=
  let p := p.setPresence o .inProgress
  if p.stopped then p else { p with uploads := p.uploads ++ [o] }

/-- `Abort` (request_pool.h:18-22). -/
def Pool.abort (p : Pool) : Pool := { p with stopped := true, queries := [], uploads := [] }

/-- `ChildNotify` (ostree_object.cc:45-48): erasing by an iterator that is not valid any more is
undefined. -/
def childNotify (p : Pool) (parent : Obj) (slot : Nat) : Except Err Pool :=
  let s := p.objs parent
  if s.children.any (fun c => c.1 == slot) then
    .ok (p.set parent { s with children := s.children.filter (fun c => c.1 != slot) })
  else .error (.ub "erase of an invalid iterator")

/-- The loop of `NotifyParents` (ostree_object.cc:53-58). -/
def notifyLoop (p : Pool) : List (Obj × Nat) → Except Err Pool
  | [] => .ok p
  | (parent, slot) :: rest => do
    let p ← childNotify p parent slot
    let p := if (p.objs parent).children.isEmpty then p.addUpload parent else p
    notifyLoop p rest

/-- `NotifyParents` (ostree_object.cc:50-59). -/
def notifyParents (p : Pool) (o : Obj) : Except Err Pool := notifyLoop p (p.objs o).parents

/-- `AppendChild` (ostree_object.cc:61-71) and `AddParent` (ostree_object.cc:37-43). -/
def appendChild (p : Pool) (o c : Obj) : Pool :=
  if (p.objs c).presence = .present then p
  else
    let s := p.objs o
    let p := p.set o { s with children := s.children ++ [(s.nextSlot, c)], nextSlot := s.nextSlot + 1 }
    let t := p.objs c
    p.set c { t with parents := t.parents ++ [(o, s.nextSlot)] }

/-- `PopulateChildren` (ostree_object.cc:74-171); `false` if an object is not in the repository. -/
def populate (repo : Repo) (o : Obj) : Pool → List Obj → Pool × Bool
  | p, [] => (p, true)
  | p, c :: cs => if repo.has c then populate repo o (appendChild p o c) cs else (p, false)

/-- `QueryChildren` (ostree_object.cc:173-179). -/
def queryChildren (p : Pool) : List (Nat × Obj) → Pool
  | [] => p
  | (_, c) :: cs => queryChildren (if (p.objs c).presence = .unknown then p.addQuery c else p) cs

/-- `CheckChildren` (ostree_object.cc:255-270). -/
def checkChildren (repo : Repo) (p : Pool) (o : Obj) (rescode : Nat) : Pool :=
  let (p, ok) := populate repo o p (repo.refs o)
  if !ok then p.abort
  else if (p.objs o).children.isEmpty then
    if rescode ≠ 200 then p.addUpload o else p
  else queryChildren p (p.objs o).children

/-- `PresenceError` (ostree_object.cc:272-279). -/
def presenceError (p : Pool) (o : Obj) : Pool := (p.setPresence o .unknown).addQuery o

/-- `UploadError` (ostree_object.cc:281-288). -/
def uploadError (p : Pool) (o : Obj) : Pool := (p.setPresence o .missing).addUpload o

/-- `CurlDone` (ostree_object.cc:290-348): `urlOk` says whether the effective URL contains the name of
the object. -/
def curlDone (repo : Repo) (mode : Mode) (p : Pool) (o : Obj) (urlOk : Bool) (rescode : Nat) : Except Err Pool := do
  let p := { p with running := p.running.filter (· != o) }
  let seen (p : Pool) : Pool := { p.setPresence o .present with log := p.log ++ [.seen o] }
  let p ← match (p.objs o).op with
    | .presenceCheck =>
      if !urlOk then pure (presenceError p o)
      else if rescode = 200 then
        let p := seen p
        if mode = .walkTree ∨ mode = .pushTree then pure (checkChildren repo p o rescode)
        else notifyParents p o
      else if rescode = 404 then pure (checkChildren repo (p.setPresence o .missing) o rescode)
      else pure (presenceError p o)
    | .uploading =>
      if !urlOk then pure (uploadError p o)
      else if rescode = 204 ∨ rescode = 409 then notifyParents (seen p) o
      else pure (uploadError p o)
  return p.set o { p.objs o with busy := false }

/-- `MakeTestRequest` (ostree_object.cc:183-207). -/
def makeTestRequest (p : Pool) (o : Obj) : Except Err Pool :=
  if (p.objs o).busy then .error .crash
  else .ok { p.set o { p.objs o with busy := true, op := .presenceCheck } with
    running := p.running ++ [o], log := p.log ++ [.head o] }

/-- `Upload` (ostree_object.cc:209-253). -/
def upload (mode : Mode) (p : Pool) (o : Obj) : Except Err Pool :=
  if mode = .default ∨ mode = .pushTree then
    if (p.objs o).busy then .error .crash
    else .ok { p.set o { p.objs o with busy := true, op := .uploading } with
      running := p.running ++ [o], log := p.log ++ [.put o] }
  else .ok (p.setPresence o .present)

/-- One turn of `LoopLaunch` (request_pool.cc:50-75). -/
def launch (mode : Mode) (p : Pool) : Except Err Pool :=
  match p.queries with
  | o :: qs => makeTestRequest { p with queries := qs } o
  | [] =>
    match p.uploads with
    | [] => .ok p
    | o :: us => do
      let p ← upload mode { p with uploads := us } o
      if mode = .dryRun ∨ mode = .walkTree then notifyParents p o else return p

/-- What can happen: a request is launched; a request is completed; the rate controller reports
that the server has failed (request_pool.cc:147-148). -/
inductive Step where
  | launch
  | done (o : Obj) (urlOk : Bool) (rescode : Nat)
  | serverFailed
  deriving DecidableEq, Repr

def step (repo : Repo) (mode : Mode) (p : Pool) : Step → Except Err Pool
  | .launch => launch mode p
  | .done o urlOk rescode => if o ∈ p.running then curlDone repo mode p o urlOk rescode else .ok p
  | .serverFailed => .ok p.abort

def run (repo : Repo) (mode : Mode) : Pool → List Step → Except Err Pool
  | p, [] => .ok p
  | p, s :: ss => do run repo mode (← step repo mode p s) ss

/-- `UploadToTreehub` up to its loop (deploy.cc:26-41). -/
def start (root : Obj) : Pool := ({} : Pool).addQuery root

/-- `is_idle` (request_pool.h:23). -/
def Pool.idle (p : Pool) : Bool := p.queries.isEmpty && p.uploads.isEmpty && p.running.isEmpty

/-- `CheckPoolState` (deploy.cc:14-24): whether the loop goes on. -/
def goesOn (mode : Mode) (root : Obj) (p : Pool) : Bool :=
  match mode with
  | .walkTree | .pushTree => !p.stopped && !p.idle
  | _ => (p.objs root).presence != .present && !p.stopped

/-- The result of `UploadToTreehub` (deploy.cc:61). -/
def succeeded (root : Obj) (p : Pool) : Bool := (p.objs root).presence == .present

end Aktualizr.Treehub
