import Verif.Spec.HonestTree
import Verif.Lemmas.GenServer

/-! # Specification: delegated roles published by the generator -/

namespace Aktualizr.Spec

open Gen

/-- The server has the files of delegated roles, which are within the limits of the client and have
not expired. -/
structure PublishesRoles (c : Ctx) (g : GenEnv) (d : Gen.Dir) : Prop where
  net : ∀ n name, Role.isReserved (lower name) = false → c.net n .image name (-1) = d.files.lookup (.delegation name)
  size : ∀ name text, d.files.lookup (.delegation name) = some text → text.utf8ByteSize ≤ 8 * 1024 * 1024
  fresh : ∀ name j e, d.signed g (.delegation name) = .ok j → j.get "expires" = .ok (.str e) → Unexpired c ⟨e⟩

/-- In the published files `m` is listed for `q` by the role with content `cur`, or by a role delegated
(at most `n` deep) from it for files of this name, along delegations none of which but the last is
terminating (`b`), where no role before lists it. -/
def PublishedUnder (env : Env) (d : Gen.Dir) (q m : Target) : Nat → Targets → Bool → Prop
  | 0, cur, _ => ListedBy cur q m
  | n + 1, cur, b =>
    ListedBy cur q m ∨ ((∀ m', ¬ ListedBy cur q m') ∧ b = false ∧
      ∃ name ∈ cur.delegatedRoleNames, DelegatedFor env cur name q.filename ∧
        ∃ raw r b', d.files.lookup (.delegation name) = some raw ∧ ReadsAsTargets env raw r ∧ cur.terminatingRole.lookup name = some b' ∧
          PublishedUnder env d q m n r b')

/-- There are at most `k` delegations at most `n` deep below `cur`, those to the same role along
different ways counted separately. -/
def Below (env : Env) (d : Gen.Dir) : Nat → Targets → Nat → Prop
  | 0, _, _ => True
  | n + 1, cur, k => ∃ ks : String → Nat, (cur.delegatedRoleNames.map (fun x => ks x + 1)).sum ≤ k ∧
      ∀ name ∈ cur.delegatedRoleNames, ∀ raw r, d.files.lookup (.delegation name) = some raw → ReadsAsTargets env raw r → Below env d n r (ks name)

end Aktualizr.Spec
