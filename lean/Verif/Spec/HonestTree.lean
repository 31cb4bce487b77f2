import Verif.Spec.Honest
import Verif.Spec.Delegation

/-! # Specification: delegated roles that offer genuine metadata -/

namespace Aktualizr.Spec

/-- The Targets list the image `m`, which is what `t` asks for. -/
def ListedBy (its : Targets) (t m : Target) : Prop := m ∈ its.targets ∧ SameContent m t ∧ SameAssignment m t

/-- The delegation of `cur` to `name` is for files called `file`. -/
def DelegatedFor (env : Env) (cur : Targets) (name file : String) : Prop :=
  ∃ ps, cur.pathsForRole.lookup name = some ps ∧ ∃ p ∈ ps, env.fnmatch p file = true

/-- `raw`, with content `d`, is what the server has for the role `name` delegated by `cur`: properly
signed, listed in the Snapshot `rawS` and not expired. A stored copy is the same or older. -/
structure HonestRole (c : Ctx) (stored : List (String × String)) (rawS : String) (cur : Targets) (name raw : String) (d : Targets)
    (terminating : Bool) : Prop where
  served : Served c .image ⟨.delegation, name⟩ (-1) (8 * 1024 * 1024) raw
  signed : SignedToThreshold c.env cur.base name (c.env.parseJson raw)
  type : DeclaresType ⟨.delegation, name⟩ (c.env.parseJson raw)
  format : WellFormedSignatures (c.env.parseJson raw)
  nonempty : raw ≠ ""
  reads : ReadsAsTargets c.env raw d
  version : StatesVersion c.env raw d.base.version
  listed : SnapshotLists c.env rawS name raw d.base.version
  fresh : Unexpired c d.base.expiry
  kind : cur.terminatingRole.lookup name = some terminating
  newer : ∀ old, stored.lookup name = some old → old = raw ∨ (old ≠ "" ∧ ∃ v, StatesVersion c.env old v ∧ v < d.base.version)

/-- Delegations at most `n` deep, starting from `cur`, are honest as far as the search for `q` may
follow them, and lead through at most `k` roles. Nothing is asked of what lies below a role that
lists `q` or below a terminating delegation (`b`). -/
def HonestTree (c : Ctx) (stored : List (String × String)) (rawS : String) (q : Target) : Nat → Targets → Bool → Nat → Prop
  | 0, _, _, _ => True
  | n + 1, cur, b, k =>
    (∃ m, ListedBy cur q m) ∨ b = true ∨
    ∃ ks : String → Nat, (cur.delegatedRoleNames.map (fun x => ks x + 1)).sum ≤ k ∧
      ∀ name ∈ cur.delegatedRoleNames, Role.isReserved (lower name) = false ∧
        (DelegatedFor c.env cur name q.filename → ∃ raw d b', HonestRole c stored rawS cur name raw d b' ∧ HonestTree c stored rawS q n d b' (ks name))

/-- `m` is listed for `q` by `cur`, or by a role delegated (at most `n` deep) from `cur` for files of
this name, along delegations none of which but the last is terminating, where no role before lists
it. -/
def ListedUnder (c : Ctx) (stored : List (String × String)) (rawS : String) (q m : Target) : Nat → Targets → Bool → Prop
  | 0, cur, _ => ListedBy cur q m
  | n + 1, cur, b =>
    ListedBy cur q m ∨ ((∀ m', ¬ ListedBy cur q m') ∧ b = false ∧
      ∃ name ∈ cur.delegatedRoleNames, DelegatedFor c.env cur name q.filename ∧
        ∃ raw d b', HonestRole c stored rawS cur name raw d b' ∧ ListedUnder c stored rawS q m n d b')

/-- The Image repository lists `m` for the Director's target `t`: at the top, or in a delegated role. -/
def Listed (c : Ctx) (stored : List (String × String)) (rawS : String) (its : Targets) (t m : Target) : Prop :=
  ListedUnder c stored rawS t m 5 its false

/-- The image for `t` can be found: it is listed, and the delegations the search may follow are
honest, at most `k` of them. -/
def Attainable (c : Ctx) (stored : List (String × String)) (rawS : String) (its : Targets) (k : Nat) (t : Target) : Prop :=
  HonestTree c stored rawS t 5 its false k ∧ ∃ m, Listed c stored rawS its t m

end Aktualizr.Spec
