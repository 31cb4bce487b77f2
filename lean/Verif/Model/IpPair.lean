import Verif.Model.IpSecondary
import Verif.Model.SecondaryStart

/-!
# A Primary and an IP Secondary, with a network between them

The requests of `Model/IpSecondary.lean` reach the process of `Model/SecondaryStart.lean`, or do not. Models the dispatch of
requests (`src/aktualizr_secondary/msg_handler.cc:11-26`, `aktualizr_secondary.cc:193-345`, `aktualizr_secondary_file.cc:14-16,
62-83`) for the file update agent.

Not modelled: encoding (`Cer`), connections (`Buffer`): a request or its answer is delivered as a whole or lost.
-/

namespace Aktualizr.Pair

open Ip (Req Resp)
open Sec (Bytes)
open SecId (Around)

/-- The number of a result as it is sent (`static_cast<AKInstallationResultCode_t>`, e.g. aktualizr_secondary.cc:327). -/
def code : Sec.Answer → Int
  | .ok => ResultCode.ok.num
  | .verificationFailed => ResultCode.verificationFailed.num
  | .downloadFailed => ResultCode.downloadFailed.num
  | .installFailed => ResultCode.installFailed.num
  | .internalError => ResultCode.internalError.num
  | .generalError => ResultCode.generalError.num

/-- What happens around one request: `before` is what happens to the Secondary before it (starts, requests of others), `arrives`
says whether the request reaches it, `returns` whether its answer comes back; the rest is as in `Sec.Op`. -/
structure Fate where
  before : List SecId.Op := []
  arrives : Bool := true
  returns : Bool := true
  clock : Nat → TimeStamp
  fuel : Nat
  io : Bytes → Sec.Io := fun d => { kept := d.length }
  renames : Bool := true

/-- The operation a request is (`registerHandlers`, aktualizr_secondary.cc:193-208, aktualizr_secondary_file.cc:14-16). `none`: a
request for the version, which changes nothing, or one without handler. -/
def operation (f : Fate) : Req → Option SecId.Op
  | .info => some .getInfo
  | .manifest => some .getManifest
  | .putMeta2 d i => some (.putMeta ⟨d, i⟩ f.clock f.fuel)
  | .uploadData data => some (.upload (f.io data) data)
  | .install _ => some (.install f.renames f.fuel)
  | _ => none

/-- The answer as it is sent (aktualizr_secondary.cc:210-345, aktualizr_secondary_file.cc:62-83). Descriptions are left out. -/
def response (env : Env) : Req → SecId.Reply → Resp
  | .info, .info _ _ _ => .info
  | .manifest, .manifest j => .manifest (some (env.canon j))
  | .putMeta2 _ _, .answer x => .putMeta2 (code x) ""
  | .uploadData _, .answer x => .uploadData (code x) ""
  | .install _, .answer x => .install2 (code x) ""
  | _, _ => .nothing

/-- One request: the answer as the Primary gets it and the Secondary afterwards. -/
def deliver (a : Around) (f : Fate) (s : SecId.State) (r : Req) : Except String (Resp × SecId.State) := do
  let s ← SecId.run a s f.before
  if !f.arrives then return (.nothing, s)
  match operation f r with
  | none =>
    let x := match r with
      | .version v => if s.core.up then Ip.versionHdlr v else .nothing
      | _ => .nothing
    return (if f.returns then x else .nothing, s)
  | some o => do
    let q ← SecId.step a s o
    return (if f.returns then (q.1.map (response a.g.env r)).getD .nothing else .nothing, q.2)

/-- The Secondary after a number of requests; the error case is undefined behaviour. -/
def after (a : Around) (fates : Nat → Fate) : SecId.State → Nat → List Req → Except String SecId.State
  | s, _, [] => .ok s
  | s, n, r :: rs => do
    let q ← deliver a (fates n) s r
    after a fates q.2 (n + 1) rs

/-- The Secondary as the other end. -/
def peer (a : Around) (fates : Nat → Fate) (s : SecId.State) : Ip.Peer := fun asked =>
  match asked.getLast? with
  | none => .nothing
  | some r =>
    match (after a fates s 0 asked.dropLast) >>= (fun s => deliver a (fates (asked.length - 1)) s r) with
    | .ok q => q.1
    | .error _ => .nothing

end Aktualizr.Pair
