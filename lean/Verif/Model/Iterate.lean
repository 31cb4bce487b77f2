import Verif.Model.Monad

/-!
# Going through the targets of all roles of the Image repository

Models `LazyTargetsList::DelegationIterator` (`src/libaktualizr/uptane/iterator.cc:59-190`), which `SotaUptaneClient::allTargets` returns
(sotauptaneclient.cc:1394-1396).

The roles are given as a tree: every role with its targets, and for each delegation whether it is terminating and the role it leads to.
Simplified: every delegated document can be had and is the same each time it is asked for (that it is trusted is C26, which has the same
`getTrustedDelegation`); so the cache `cur_targets_` is left out. That `terminating_role_` has an entry for every delegated role is a fact
of how Targets are read (tuf.cc:338-356). Roles that delegate to each other in a circle are a tree here cut off below the level where the
iterator stops.
-/

namespace Aktualizr.Iterate

mutual
/-- A role: its targets (`targets`), its delegations (`delegated_role_names_`, `terminating_role_`). -/
inductive Tree (α : Type) where
  | node (targets : List α) (kids : Kids α)
/-- Delegations, in order. -/
inductive Kids (α : Type) where
  | nil
  | cons (terminating : Bool) (role : Tree α) (rest : Kids α)
end

variable {α : Type}

def Tree.targets : Tree α → List α
  | .node ts _ => ts

def Tree.kids : Tree α → Kids α
  | .node _ ks => ks

def Kids.length : Kids α → Nat
  | .nil => 0
  | .cons _ _ r => r.length + 1

def Kids.get : Kids α → Nat → Option (Bool × Tree α)
  | .nil, _ => none
  | .cons b t _, 0 => some (b, t)
  | .cons _ _ r, n + 1 => r.get n

/-- The role reached by these indices, the last one first (`renewTargetsData`, iterator.cc:71-99). -/
def Tree.at (t : Tree α) : List Nat → Option (Tree α)
  | [] => some t
  | i :: up => (t.at up).bind (fun p => (p.kids.get i).map (·.2))

/-- `kDelegationsMaxDepth` (imagerepository.h:11). -/
def maxDepth : Nat := 5

/-- A `DelegationIterator` that is not at its end (iterator.h:46-56): the place in the tree (`tree_node_`), `target_idx_`, `children_idx_`,
`terminating_`, `level_`. -/
structure It where
  path : List Nat := []
  target : Nat := 0
  child : Nat := 0
  terminating : Bool := false
  level : Nat := 0
  deriving DecidableEq

/-- `begin()` (iterator.cc:59-69). -/
def begin : It := {}

/-- `operator*` (iterator.cc:109-123). -/
def deref (t : Tree α) (it : It) : Except Err α :=
  match t.at it.path with
  | none => .error (.ub "index")
  | some r =>
    match r.targets[it.target]? with
    | none => .error (.std "Inconsistent delegation iterator")
    | some x => .ok x

/-- What `operator++` finds in the current role (iterator.cc:134-173): another position or the end, or nothing, so that it goes on in the
role above. -/
inductive Move | to (o : Option It) | up

def move (r : Tree α) (path : List Nat) (target child : Nat) (terminating : Bool) (level : Nat) : Move :=
  if target + 1 < r.targets.length then .to (some ⟨path, target + 1, child, terminating, level⟩)
  else if terminating || decide (level ≥ maxDepth) then .to none
  else
    match r.kids.get child with
    | some (flag, _) => .to (some ⟨child :: path, 0, 0, flag, level + 1⟩)
    | none => .up

/-- `operator++` (iterator.cc:125-190); `none` is the end. -/
def next (t : Tree α) : List Nat → Nat → Nat → Bool → Nat → Except Err (Option It)
  | [], target, child, terminating, level =>
    match move t [] target child terminating level with
    | .to o => .ok o
    | .up => .ok none
  | i :: up, target, child, terminating, level =>
    match t.at (i :: up) with
    | none => .error (.ub "index")
    | some r =>
      match move r (i :: up) target child terminating level with
      | .to o => .ok o
      | .up => next t up (((t.at up).map (·.targets.length)).getD 0) (i + 1) false (level - 1)

def It.next (t : Tree α) (it : It) : Except Err (Option It) := Iterate.next t it.path it.target it.child it.terminating it.level

/-- `for (auto &target : allTargets()) { … }` (with `operator!=`, iterator.cc:101-107): the targets the body sees, and whether an exception
ends it. -/
inductive Loop (t : Tree α) : Option It → List α → Bool → Prop
  | done : Loop t none [] false
  | bad {it : It} {e : Err} (h : deref t it = .error e) : Loop t (some it) [] true
  | badNext {it : It} {x : α} {e : Err} (h : deref t it = .ok x) (hn : it.next t = .error e) : Loop t (some it) [x] true
  | step {it : It} {x : α} {o : Option It} {xs : List α} {b : Bool} (h : deref t it = .ok x) (hn : it.next t = .ok o)
      (hl : Loop t o xs b) : Loop t (some it) (x :: xs) b

end Aktualizr.Iterate
