import Verif.Model.Json

/-!
# Message buffer and server of a Secondary

Models `src/libaktualizr/utilities/dequeue_buffer.cc` and `HandleOneConnection` and `run` of
`src/aktualizr_secondary/secondary_tcp_server.cc`.
-/

namespace Aktualizr.Buffer

abbrev Bytes := List UInt8

/-- Size of `buffer_` (dequeue_buffer.h:53). -/
def capacity : Nat := 4096

/-- Number of values of a `size_t`. -/
def sizeT : Nat := 2 ^ 64

/-- `DequeueBuffer` (dequeue_buffer.h:44-56). The sentinel is not modelled: writing past the end of
the buffer is undefined behaviour. -/
structure Dequeue where
  written : Nat := 0
  buffer : Bytes := List.replicate capacity 0
  deriving DecidableEq, Repr

/-- `Head()` ... `Head() + Size()` (dequeue_buffer.cc:6-14). -/
def Dequeue.contents (d : Dequeue) : Bytes := d.buffer.take d.written

/-- `TailSpace` (dequeue_buffer.cc:39-42). -/
def Dequeue.tailSpace (d : Dequeue) : Nat := (sizeT + capacity - d.written) % sizeT

/-- Bytes stored from `Tail()` on (dequeue_buffer.cc:33-37), by `recv`. -/
def Dequeue.write (d : Dequeue) (bytes : Bytes) : Except Err Dequeue :=
  if d.written + bytes.length > capacity then .error (.ub "write past the end")
  else .ok { d with buffer := d.buffer.take d.written ++ bytes ++ d.buffer.drop (d.written + bytes.length) }

/-- `Consume` (dequeue_buffer.cc:16-31). -/
def Dequeue.consume (d : Dequeue) (bytes : Nat) : Except Err Dequeue :=
  if d.written < bytes then .error (.std "logic_error: Attempt to DequeueBuffer::Consume() more bytes than are valid")
  else
    let moved := (d.buffer.take d.written).drop bytes
    .ok { written := d.written - bytes, buffer := moved ++ d.buffer.drop moved.length }

/-- `HaveEnqueued` (dequeue_buffer.cc:44-53); the sum wraps around. -/
def Dequeue.haveEnqueued (d : Dequeue) (bytes : Nat) : Except Err Dequeue :=
  let sum := (d.written + bytes) % sizeT
  if capacity < sum then .error (.std "logic_error: Wrote bytes beyond the end of the buffer")
  else .ok { d with written := sum }

/-- What `recv` returns: a positive number of bytes, 0 or -1. -/
inductive Recv where
  | data (bytes : Bytes)
  | closed
  | error
  deriving DecidableEq, Repr

/-- `recv` into the tail and `HaveEnqueued` of its result (secondary_tcp_server.cc:115-116). -/
def Dequeue.receive (d : Dequeue) : Recv → Except Err Dequeue
  | .data bytes => do (← d.write bytes).haveEnqueued bytes.length
  | .closed => d.haveEnqueued 0
  | .error => d.haveEnqueued (sizeT - 1)

/-- What `recv` returns when it is given the space there is: at most that many bytes, and 0 if there
is none. -/
def Dequeue.limit (d : Dequeue) : Recv → Recv
  | .data bytes => if (bytes.take d.tailSpace).isEmpty then .closed else .data (bytes.take d.tailSpace)
  | r => r

/-! ## The server -/

/-- `asn_dec_rval_code_e`. -/
inductive Code where
  | ok | more | fail
  deriving DecidableEq, Repr

/-- `MsgHandler::ReturnCode` after the response was sent, or not. -/
inductive Handled where
  | ok | reboot | unknown | sendFailed | rebootSendFailed
  deriving DecidableEq, Repr

/-- `ber_decode`, restartable, from the state of the decoder and the bytes there are: the code, the
number of bytes consumed, the state. What is decoded is a request of type `ρ`. -/
structure Decoder (σ ρ : Type) where
  init : σ
  step : σ → Bytes → Code × Nat × σ
  request : σ → ρ

/-- How reading a message ends. -/
inductive Read (σ : Type) where
  /-- The server waits in `recv`. -/
  | waiting (d : Dequeue)
  | done (last : Recv) (code : Code) (state : σ) (d : Dequeue) (rest : List Recv)

/-- The loop that reads one message (secondary_tcp_server.cc:114-119), over what `recv` is to return
if there is space for it. -/
def readMessage {σ ρ : Type} (dec : Decoder σ ρ) : List Recv → Dequeue → σ → Except Err (Read σ)
  | [], d, _ => .ok (.waiting d)
  | r :: rest, d, s => do
    let r := d.limit r
    let d ← d.receive r
    let (code, consumed, s) := dec.step s d.contents
    let d ← d.consume consumed
    match r with
    | .data _ => if code = .more then readMessage dec rest d s else return .done r code s d rest
    | _ => return .done r code s d rest

/-- How a connection ends. -/
inductive Session where
  | waiting
  | closed (keepRunning : Bool)
  deriving DecidableEq, Repr

/-- `HandleOneConnection` (secondary_tcp_server.cc:98-168) for at most `fuel` messages, with what was
handled. `handle` is `MsgHandler::handleMsg` together with sending the response; `reboot` is
`reboot_after_install_`. -/
def handleConnection {σ ρ : Type} (dec : Decoder σ ρ) (handle : ρ → Handled) (reboot : Bool) :
    Nat → List Recv → Dequeue → List ρ → Except Err (Session × List ρ)
  | 0, _, _, log => .ok (.waiting, log)
  | fuel + 1, rs, d, log => do
    match ← readMessage dec rs d dec.init with
    | .waiting _ => return (.waiting, log)
    | .done .closed _ _ _ _ => return (.closed true, log)
    | .done .error _ _ _ _ => return (.closed true, log)
    | .done (.data _) code s d rest =>
      if code ≠ .ok then return (.closed true, log)
      let log := log ++ [dec.request s]
      match handle (dec.request s) with
      | .ok => handleConnection dec handle reboot fuel rest d log
      | .sendFailed | .unknown => return (.closed true, log)
      | .reboot => if reboot then return (.closed false, log) else handleConnection dec handle reboot fuel rest d log
      | .rebootSendFailed => return (.closed (!reboot), log)

/-- State of the process: `run` (secondary_tcp_server.cc:32-83) goes on to the next connection unless
told to stop; an exception leaves it and ends the process (main.cc:120-123). -/
inductive Process where
  | serving
  | stopped
  | died (e : Err)
  deriving DecidableEq, Repr

/-- The connections of `run`, one after the other. -/
def runServer {σ ρ : Type} (dec : Decoder σ ρ) (handle : ρ → Handled) (reboot : Bool) (fuel : Nat) :
    List (List Recv) → Process
  | [] => .serving
  | rs :: conns =>
    match handleConnection dec handle reboot fuel rs {} [] with
    | .error e => .died e
    | .ok (.waiting, _) => .serving
    | .ok (.closed true, _) => runServer dec handle reboot fuel conns
    | .ok (.closed false, _) => .stopped

end Aktualizr.Buffer
