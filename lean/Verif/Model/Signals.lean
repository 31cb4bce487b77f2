import Verif.Model.Monad

/-!
# Signals that end the daemon

Models `src/libaktualizr/utilities/sig_handler.cc`, what `src/aktualizr_primary/main.cc:138-146` does on a signal, and `Aktualizr::RunForever`
and `Shutdown` (`src/libaktualizr/primary/aktualizr.cc:38-101`), as threads that take their steps in any order: the daemon, the worker of the
command queue, the thread that polls for signals. `Model/Queue.lean` has the queue for any number of clients; here its only client is the
daemon, which waits for each command, so that the queue is either empty or has this one command.
-/

namespace Aktualizr.Signals

/-- The commands of the daemon. -/
inductive Cmd where
  | data
  | check
  | download
  | install
  | manifest
  deriving DecidableEq, Repr

/-- The thread of `RunForever` (aktualizr.cc:75-93) and the command it waits for: about to queue it, queued, taken by the worker, done, dropped
from the queue; in `wait_for`; ended (`false`: with the exception of the broken promise). -/
inductive Daemon where
  | ask (c : Cmd)
  | queued (c : Cmd)
  | running (c : Cmd)
  | answered (c : Cmd)
  | dropped (c : Cmd)
  | sleeping
  | ended (ok : Bool)
  deriving DecidableEq, Repr

/-- The worker of the queue. -/
inductive Worker where
  | alive
  | exited
  | none
  deriving DecidableEq, Repr

/-- The thread of `SigHandler` (sig_handler.cc:34-49): polling; in `Abort` (apiqueue.cc:89-112) before the join, before the flush, before the
restart; in `Shutdown` (aktualizr.cc:95-101) before the lock, before `notify_all`; ended. -/
inductive Handler where
  | polling
  | joining
  | flushing
  | restarting
  | locking
  | notifying
  | over
  deriving DecidableEq, Repr

/-- The process. `gone`: `main` has destroyed the object `aktualizr`; `exited`: the process is over; `ub`: the handler used that object
after its destruction. -/
structure State where
  daemon : Daemon := .ask .data
  worker : Worker := .alive
  handler : Handler := .polling
  marker : Bool := false
  flag : Bool := false
  gone : Bool := false
  exited : Bool := false
  ub : Bool := false
  deriving DecidableEq, Repr

/-- Whether the results of a command let the cycle go on, let it report a failure, end it, or end the daemon (for a reboot). -/
inductive Outcome where
  | next
  | report
  | rest
  | leave
  deriving DecidableEq, Repr

/-- `UptaneCycle` (aktualizr.cc:38-73) and the loop around it (77-90). -/
def after : Cmd → Outcome → Daemon
  | .data, _ => .ask .check
  | .check, .next => .ask .download
  | .check, .report => .ask .manifest
  | .download, .next => .ask .install
  | .download, .report => .ask .manifest
  | .install, .leave => .ended true
  | .install, .report => .ask .manifest
  | _, _ => .sleeping

/-- The command that the daemon is busy with. -/
def Daemon.cmd : Daemon → Option Cmd
  | .ask c | .queued c | .running c | .answered c | .dropped c => some c
  | _ => none

/-- The worker is in the command. -/
def Daemon.busy : Daemon → Bool
  | .running _ => true
  | _ => false

/-- The mutex of `exit_cond_` (aktualizr.cc:79-89): free before the first cycle, in `wait_for` and at the end. -/
def Daemon.unlocked (d : Daemon) : Bool := d.cmd = none || d.cmd = some .data

/-- One step of one thread, or a signal. -/
inductive Step where
  | signal
  | enqueue
  | take
  | finish
  | quit
  | get (o : Outcome)
  | wake
  | poll
  | join
  | flush
  | restart
  | lock
  | notify
  | destroy
  | leave
  deriving DecidableEq, Repr

/-- What is seen. -/
inductive Event where
  | signalled
  | handled
  | begins (c : Cmd)
  | shutdown
  deriving DecidableEq, Repr

/-- The queue is being aborted (`shutdown_`, apiqueue.cc:93-106). -/
def State.aborting (s : State) : Bool := s.handler = .joining || s.handler = .flushing

/-- One step; a step that is not possible changes nothing. -/
def step (s : State) (x : Step) : State :=
  match x, s.daemon, s.handler with
  /- `signal_handler` (sig_handler.cc:53-58) -/
  | .signal, _, _ => { s with marker := true }
  /- `enqueue` (apiqueue.h:64-84) -/
  | .enqueue, .ask c, _ => { s with daemon := .queued c }
  /- the worker (apiqueue.cc:60-70) -/
  | .take, .queued c, _ => if s.worker = .alive ∧ s.aborting = false then { s with daemon := .running c } else s
  | .finish, .running c, _ => { s with daemon := .answered c }
  | .quit, d, .joining => if s.worker = .alive ∧ d.busy = false then { s with worker := .exited } else s
  /- `get` of the future -/
  | .get o, .answered c, _ => { s with daemon := after c o }
  | .get _, .dropped _, _ => { s with daemon := .ended false }
  /- `wait_for` (aktualizr.cc:85-88) -/
  | .wake, .sleeping, _ => { s with daemon := if s.flag then .ended true else .ask .check }
  /- the polling (sig_handler.cc:37-42), `on_signal` (main.cc:139-142) and the beginning of `abort` (apiqueue.cc:91-97) -/
  | .poll, _, .polling =>
    if s.marker = false ∨ s.exited then s
    else if s.gone then { s with marker := false, ub := true, handler := .over } else { s with marker := false, handler := .joining }
  | .join, _, .joining => if s.worker = .alive then s else { s with worker := .none, handler := .flushing }
  | .flush, d, .flushing =>
    { s with daemon := match d with | .queued c => .dropped c | d => d
             handler := .restarting }
  | .restart, _, .restarting => if s.gone then { s with ub := true } else { s with worker := .alive, handler := .locking }
  | .lock, d, .locking =>
    if s.gone then { s with ub := true } else if d.unlocked then { s with flag := true, handler := .notifying } else s
  | .notify, _, .notifying => if s.gone then { s with ub := true } else { s with handler := .over }
  /- the end of `main`: `~Aktualizr` waits for `thread_m_` (apiqueue.cc:91) -/
  | .destroy, .ended _, _ => if s.aborting then s else { s with gone := true, worker := .none }
  /- `~SigHandler` (sig_handler.cc:14-27) -/
  | .leave, _, h => if s.gone ∧ (h = .polling ∨ h = .over) then { s with exited := true, handler := .over } else s
  | _, _, _ => s

/-- What is seen of a step. -/
def seen (s : State) (x : Step) : List Event :=
  match x with
  | .signal => [.signalled]
  | .poll => if s.handler = .polling ∧ s.marker ∧ s.exited = false then [.handled] else []
  | .take => match s.daemon with
    | .queued c => if s.worker = .alive ∧ s.aborting = false then [.begins c] else []
    | _ => []
  | .lock => if s.flag = false ∧ (step s .lock).flag then [.shutdown] else []
  | _ => []

/-- Many steps. -/
def run : State → List Step → State
  | s, [] => s
  | s, x :: xs => run (step s x) xs

/-- What is seen of many steps. -/
def trace : State → List Step → List Event
  | _, [] => []
  | s, x :: xs => seen s x ++ trace (step s x) xs

/-- A process that has started. -/
def init : State := {}

end Aktualizr.Signals
