import Verif.Model.Repos

/-!
# Delegated Targets and the delegation search

Models `src/libaktualizr/uptane/iterator.cc:5-56` and
`src/libaktualizr/primary/sotauptaneclient.cc:566-628`.
-/

namespace Aktualizr

open M (throwWhen orThrow gets modify lift catchStd catchUpt)

namespace Delegation

/-- The stored copy, unless it is older than the Snapshot says, in which case it is deleted
(iterator.cc:11-20). -/
def stored (c : Ctx) (role : Role) (listed : Int) : U (Option String) := do
  match ← loadDelegationM role with
  | none => pure none
  | some raw => do
    let v ← lift (extractVersionUntrusted c.env raw)
    if v > listed then M.throw (.upt (.security "Rollback attempt on delegated targets"))
    else if v < listed then do
      write (fun db => db.deleteDelegation role.name)
      pure none
    else pure (some raw)

/-- Fetching a delegation (iterator.cc:23-34). -/
def fetch (c : Ctx) (role : Role) (offline : Bool) : U String := do
  throwWhen offline (.upt (.delegationMissing role.name))
  catchStd (fetchLatestRole c kMaxImageTargetsSize .image role)
    (fun _ => M.throw (.upt (.delegationMissing role.name)))

/-- `catch (const std::exception &) { throw DelegationHashMismatch }` (iterator.cc:36-41). -/
def checkHashes (c : Ctx) (sn : Snapshot) (raw : String) (role : Role) : U Unit :=
  catchStd (lift (Image.verifyRoleHashes c sn raw role))
    (fun _ => M.throw (.upt (.delegationHashMismatch role.name)))

/-- `Uptane::getTrustedDelegation` (iterator.cc:5-56). -/
def getTrusted (c : Ctx) (role : Role) (parent : Targets) (offline : Bool) : U Targets := do
  let i ← gets (·.img)
  let listed := i.snapshot.versionOf role
  match ← stored c role listed with
  | some raw => do
    checkHashes c i.snapshot raw role
    lift (Image.verifyDelegation c raw role parent)
  | none => do
    let raw ← fetch c role offline
    checkHashes c i.snapshot raw role
    let ts ← lift (Image.verifyDelegation c raw role parent)
    throwWhen (ts.base.version != listed) (.upt (.versionMismatch role.name))
    write (fun db => db.storeDelegation raw role.name)
    pure ts

/-- `kDelegationsMaxDepth` (uptane/imagerepository.h:11). -/
def kMaxDepth : Nat := 5

/-- The `for` loop over delegated roles in `findTargetHelper` (sotauptaneclient.cc:580-615);
`sub` is the recursive call. -/
def searchNames (c : Ctx) (q : Target) (offline : Bool) (cur : Targets)
    (sub : Targets → Bool → U (Option Target)) : List String → U (Option Target)
  | [] => pure none
  | name :: rest => do
    let role ← lift (Role.delegation name)
    match cur.pathsForRole.lookup role.name with
    | none => searchNames c q offline cur sub rest
    | some patterns =>
      if !patterns.any (fun p => c.env.fnmatch p q.filename) then searchNames c q offline cur sub rest
      else do
        let d ← getTrusted c role cur offline
        let t ← now c
        if d.base.expiry.isExpiredAt t then searchNames c q offline cur sub rest
        else do
          let term ← orThrow (cur.terminatingRole.lookup role.name) (.upt .reservedRoleName)
          match ← sub d term with
          | some found => pure (some found)
          | none => searchNames c q offline cur sub rest

/-- `SotaUptaneClient::findTargetHelper` (sotauptaneclient.cc:566-618) with
`TargetCompare` (sotauptaneclient.h:202-209). The first argument is
`kDelegationsMaxDepth - level`. -/
def findTarget (c : Ctx) (q : Target) (offline : Bool) : Nat → Targets → Bool → U (Option Target)
  | 0, cur, _ => pure (cur.targets.find? (fun t => t.matchTarget q))
  | n + 1, cur, terminating =>
    match cur.targets.find? (fun t => t.matchTarget q) with
    | some t => pure (some t)
    | none =>
      if terminating then pure none
      else searchNames c q offline cur (findTarget c q offline n) cur.delegatedRoleNames

/-- `SotaUptaneClient::findTargetInDelegationTree` (sotauptaneclient.cc:620-628). -/
def findInTree (c : Ctx) (q : Target) (offline : Bool) : U (Option Target) := do
  let i ← gets (·.img)
  match i.targets with
  | none => pure none
  | some ts => findTarget c q offline kMaxDepth ts false

end Delegation

end Aktualizr
