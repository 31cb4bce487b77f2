import Verif.Model.Json

/-!
# The command queue of the API and its flow-control token

Models `src/libaktualizr/utilities/apiqueue.cc`. What is done under one lock is one step; threads may take their
steps in any order. A thread that waits on a condition variable can go on as soon as its condition holds (every change
of the condition is followed by `notify_all`, so no wake-up is lost).
-/

namespace Aktualizr.Queue

/-- `FlowControlToken::State` (apiqueue.h:49-53). -/
inductive Token where
  | running | paused | aborted
  deriving DecidableEq, Repr

/-- `setPause` (apiqueue.cc:6-19): the new state and what is returned. -/
def Token.setPause (t : Token) (pause : Bool) : Token × Bool :=
  if pause && t = .running then (.paused, true)
  else if !pause && t = .paused then (.running, true)
  else (t, false)

/-- `setAbort` (apiqueue.cc:21-31). -/
def Token.setAbort (t : Token) : Token × Bool :=
  if t = .aborted then (t, false) else (.aborted, true)

/-- `canContinue` (apiqueue.cc:33-39); `none` if the caller goes to sleep. -/
def Token.canContinue (t : Token) (blocking : Bool) : Option Bool :=
  if blocking && t = .paused then none else some (t = .running)

/-- `reset` (apiqueue.cc:41-44). -/
def Token.reset (_ : Token) : Token := .running

/-- The worker (apiqueue.cc:56-74). `none`: `thread_` is not joinable. -/
inductive Worker where
  | none | waiting | running (task : Nat) | exited
  deriving DecidableEq, Repr

/-- Where a call of `abort` is (apiqueue.cc:89-112) that holds `thread_m_`. -/
inductive Phase where
  | joining | flushing
  deriving DecidableEq, Repr

/-- What can be seen from outside. -/
inductive Event where
  | submitted (task : Nat)
  | started (task : Nat)
  | finished (task : Nat)
  | dropped (task : Nat)
  | paused
  | resumed
  | abortBegins
  | abortEnds
  deriving DecidableEq, Repr

/-- `CommandQueue` (apiqueue.h:88-98). Tasks are numbered in the order of submission. `owed` counts the calls of `abort`
that have yet to call `run` (apiqueue.cc:109-111); `begun` says that `run` has been called by `Initialize`. -/
structure State where
  queue : List Nat := []
  next : Nat := 0
  paused : Bool := false
  shutdown : Bool := false
  token : Token := .running
  worker : Worker := .none
  aborting : Option Phase := .none
  owed : Nat := 0
  begun : Bool := false
  log : List Event := []

inductive Step where
  | enqueue
  | pause (b : Bool)
  | abort
  | join
  | flush
  | run
  | restart
  | take
  | finish
  | exit
  deriving DecidableEq, Repr

/-- The part of `run` under `thread_m_` (apiqueue.cc:57-58). -/
def startThread (s : State) : State := if s.worker = .none then { s with worker := .waiting } else s

/-- The condition of the worker (apiqueue.cc:62). -/
def State.ready (s : State) : Bool := (!s.queue.isEmpty && !s.paused) || s.shutdown

/-- One step of one of the threads; a step that is not possible changes nothing. -/
def step (s : State) : Step → State
  /- `enqueue` (apiqueue.h:64-84) -/
  | .enqueue => { s with queue := s.queue ++ [s.next], next := s.next + 1, log := s.log ++ [.submitted s.next] }
  /- `pause` (apiqueue.cc:76-87) -/
  | .pause b => { s with paused := b, token := (s.token.setPause b).1, log := s.log ++ [if b then .paused else .resumed] }
  /- the beginning of `abort` (apiqueue.cc:91-97) -/
  | .abort =>
    if s.aborting = none then
      { s with token := s.token.setAbort.1, shutdown := true, aborting := some .joining, log := s.log ++ [.abortBegins] }
    else s
  /- `join` (apiqueue.cc:98-100) -/
  | .join =>
    if s.aborting = some .joining ∧ (s.worker = .none ∨ s.worker = .exited) then
      { s with worker := .none, aborting := some .flushing }
    else s
  /- the end of `abort` (apiqueue.cc:101-107); a task that is dropped breaks its promise -/
  | .flush =>
    if s.aborting = some .flushing then
      { s with queue := [], token := s.token.reset, shutdown := false, aborting := none, owed := s.owed + 1,
               log := s.log ++ s.queue.map .dropped ++ [.abortEnds] }
    else s
  /- `run` called by `Aktualizr::Initialize` (aktualizr.cc:35) -/
  | .run => if s.aborting = none then { startThread s with begun := true } else s
  /- `run` called by `abort` -/
  | .restart => if s.aborting = none ∧ 0 < s.owed then { startThread s with owed := s.owed - 1, begun := true } else s
  /- the worker takes the next task (apiqueue.cc:62-68) -/
  | .take =>
    if s.worker = .waiting ∧ s.ready = true ∧ s.shutdown = false then
      match s.queue with
      | t :: ts => { s with queue := ts, worker := .running t, log := s.log ++ [.started t] }
      | [] => s
    else s
  /- the worker goes back to waiting (apiqueue.cc:68-69) -/
  | .finish =>
    match s.worker with
    | .running t => { s with worker := .waiting, log := s.log ++ [.finished t] }
    | _ => s
  /- the worker ends (apiqueue.cc:63-65) -/
  | .exit => if s.worker = .waiting ∧ s.ready = true ∧ s.shutdown = true then { s with worker := .exited } else s

def run : State → List Step → State
  | s, [] => s
  | s, x :: xs => run (step s x) xs

/-- What `pause` returns (apiqueue.cc:80, 86). -/
def pauseResult (s : State) (b : Bool) : Bool := s.paused != b

end Aktualizr.Queue
