import Verif.Model.Cycle
import Verif.Model.Download

/-!
# The C interface

Models `src/libaktualizr-c/libaktualizr-c.cc` (with `include/libaktualizr-c.h`) on top of the
operations of `Model/Cycle.lean`, `Model/Device.lean` and `Model/Download.lean`.

A pointer is `none` when it is null. `get()` of a future gives the result of the command, or throws what the
command threw; that a command dropped by `Abort` breaks its promise is another exception here. Simplified: the
caller's custom part of a manifest (`sotauptaneclient.cc:1130-1132`) is left out, as in `Model/Install.lean`;
texts written to `std::cerr` are left out.

Not modelled: campaigns (`Model/Campaign.lean`), device data (`Model/DeviceData.lean`), `Aktualizr_pause`,
`Aktualizr_resume` and `Aktualizr_abort` (`Model/Queue.lean`), the signal handler, creating and freeing objects.
-/

namespace Aktualizr.CApi

open M (throw gets lift catchStd)
open Download (Bytes Digest Io)

/-- `try { … } catch (const std::exception &e) { return -1; } return 0;`, as in all functions that return `int`. -/
def status {α : Type} (m : D α) : D Int :=
  catchStd (do
    let _ ← m
    pure 0) (fun _ => pure (-1))

/-- `Aktualizr_initialize` (libaktualizr-c.cc:27-35); the provisioning of `startUp` is that of
`Model/Device.lean`. -/
def initialise (env : Env) (p : Peers) (cfg : EcuConfig) (ok : Bool) : D Int := status (startUp env p cfg ok)

/-- `Aktualizr_uptane_cycle` (libaktualizr-c.cc:37-45). -/
def cycle (c : Ctx) (p : Peers) (f : Fetched) (force : Bool) : D Int := status (uptaneCycle c p f force)

/-- `Aktualizr_updates_check` (libaktualizr-c.cc:116-124). -/
def updatesCheck (c : Ctx) (p : Peers) : D (Option (List Target)) :=
  catchStd (do
    let r ← fetchMeta c p
    pure (if r.updates.isEmpty then none else some r.updates)) (fun _ => pure none)

/-- `Aktualizr_get_targets_num` (libaktualizr-c.cc:128). -/
def targetsNum (u : Option (List Target)) : Nat :=
  match u with
  | none => 0
  | some l => l.length

/-- `Aktualizr_get_nth_target` (libaktualizr-c.cc:130-141); `at` throws when there is no such element. -/
def nthTarget (u : Option (List Target)) (n : Nat) : Option Target :=
  match u with
  | none => none
  | some l => l[n]?

/-- `Aktualizr_get_target_name` (libaktualizr-c.cc:144-153): `strncpy` stops at the first zero byte and fills up with
zeroes; this is what a C program sees as the name, without the terminating zero. -/
def targetName (t : Option Target) : Option Bytes :=
  match t with
  | none => none
  | some t => some (t.filename.toUTF8.data.toList.takeWhile (· != 0))

/-- `Aktualizr_download_target` (libaktualizr-c.cc:157-165): the pointer is dereferenced unchecked. -/
def downloadTarget (c : Ctx) (f : Fetched) (t : Option Target) : D Int :=
  match t with
  | none => throw (.ub "*t")
  | some t => status (downloadImages c f [t])

/-- `Aktualizr_install_target` (libaktualizr-c.cc:167-175). -/
def installTarget (c : Ctx) (p : Peers) (t : Option Target) : D Int :=
  match t with
  | none => throw (.ub "*t")
  | some t => status (uptaneInstall c p [t])

/-- `Aktualizr_send_manifest` (libaktualizr-c.cc:177-186). -/
def sendManifest (env : Env) (p : Peers) : D Int :=
  catchStd (do
    let r ← putManifestSimple env p
    pure (if r then 0 else -1)) (fun _ => pure (-1))

/-! ## Stored images -/

/-- A `std::ifstream`: what has not been read of the file, and whether `eofbit` or `failbit` is set. The file is not
changed while it is open, and reading it does not fail. -/
structure Handle where
  rest : Bytes
  failed : Bool := false
  deriving DecidableEq

/-- `Aktualizr_open_stored_target` (libaktualizr-c.cc:198-211) with `openStoredTarget` (sotauptaneclient.h:90-97);
`io1` and `io2` are what the system grants to the check and to the opening. -/
def openStored (digest : Digest) (io1 io2 : Io) (t : Option Target) : M Download.World (Option Handle) :=
  match t with
  | none => pure none
  | some t => catchStd (do
      let s ← Download.verifyTarget digest io1 t
      if s = .good then do
        let b ← Download.openTargetFile io2 t
        pure (some { rest := b })
      else throw (.std "Failed to open Target")) (fun _ => pure none)

/-- `istream::read(buf, n)` and the bytes it stores: nothing if the stream is not good; otherwise up to `n` bytes, and
if there are fewer the stream has failed from then on. A negative `n` reads nothing (libstdc++), which is not `n`. -/
def Handle.read (h : Handle) (n : Int) : Bytes × Handle :=
  if h.failed then ([], h)
  else ((h.rest.take n.toNat), { rest := h.rest.drop n.toNat, failed := decide ((h.rest.take n.toNat).length ≠ n) })

/-- `static_cast<std::streamsize>(size)` of a `size_t`. -/
def streamsize (size : Nat) : Int := if size < 9223372036854775808 then size else size - 18446744073709551616

/-- `Aktualizr_read_stored_target` (libaktualizr-c.cc:213-222) with a buffer: what is stored in it, whose length is
returned. -/
def readStored (h : Option Handle) (buf : Bool) (size : Nat) : Bytes × Option Handle :=
  match h with
  | none => ([], none)
  | some h => if buf then ((h.read (streamsize size)).1, some (h.read (streamsize size)).2) else ([], some h)

/-- `Aktualizr_close_stored_target` (libaktualizr-c.cc:224-233). -/
def closeStored (h : Option Handle) : Int := if h.isSome then 0 else -1

end Aktualizr.CApi
