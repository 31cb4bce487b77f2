import Verif.Model.History
import Verif.Spec.Signatures

/-! # Specification: the chain of trusted Roots -/

namespace Aktualizr.Spec

/-- Text `raw` is a Root document whose content is `r`. -/
def ReadsAsRoot (env : Env) (raw : String) (r : Root) : Prop := Root.ofJson env (env.parseJson raw) = .ok r

/-- `new` may follow `old`: exactly the next version, signed to threshold by the keys of `old`
and by its own keys. -/
def RootSuccessor (env : Env) (old new : String) : Prop :=
  ∃ r r', ReadsAsRoot env old r ∧ ReadsAsRoot env new r' ∧ r'.base.version = r.base.version + 1 ∧
    SignedToThreshold env r.base "root" (env.parseJson new) ∧
    SignedToThreshold env r'.base "root" (env.parseJson new)

/-- `a` followed by `l` is a chain of Roots. -/
def RootChain (env : Env) : String → List String → Prop
  | _, [] => True
  | a, b :: l => RootSuccessor env a b ∧ RootChain env b l

/-- The last element of `a :: l`. -/
def lastOf (a : String) : List String → String
  | [] => a
  | b :: l => lastOf b l

/-- The stored Roots of `repo`. -/
def rootRows (repo : Repo) (db : MetaDb) : List MetaRow :=
  db.rows.filter (fun r => r.repo == repo && r.type == .root)

/-- `row` is the newest of the stored Roots `l` (the one filed under the highest version). -/
def NewestRoot (l : List MetaRow) (row : MetaRow) : Prop := MetaDb.latest l = some row

/-- The row is not filed under a version higher than the next version of the document it
holds. Every Root the client stores satisfies this, except possibly a very first Root whose
own version number is negative. -/
def FiledSanely (env : Env) (row : MetaRow) : Prop :=
  ∀ r, ReadsAsRoot env row.data r → row.version ≤ r.base.version + 1

/-- A Root signed to threshold by its own keys. -/
def SelfSigned (env : Env) (raw : String) : Prop :=
  ∃ r, ReadsAsRoot env raw r ∧ SignedToThreshold env r.base "root" (env.parseJson raw)

/-- How the stored Roots may change from `l` to `l'` when there is a stored Root: along one
doubly signed chain `raws` starting at the newest one, each new Root filed under its own
version. -/
def RootsGrow (env : Env) (l l' : List MetaRow) : Prop :=
  ∀ row, NewestRoot l row → FiledSanely env row →
    ∃ raws row', RootChain env row.data raws ∧
      NewestRoot l' row' ∧ row'.data = lastOf row.data raws ∧ FiledSanely env row' ∧
      row.version ≤ row'.version ∧ (raws = [] → row' = row) ∧
      (∀ x ∈ l', x ∈ l ∨ (x.data ∈ raws ∧ ∃ r, ReadsAsRoot env x.data r ∧ x.version = r.base.version)) ∧
      (∀ x ∈ l, x ∈ l' ∨ ∃ y ∈ l', y.version = x.version ∧ y.data ∈ raws ∧
        ∃ r, ReadsAsRoot env y.data r ∧ y.version = r.base.version)

/-- How the stored Roots of `repo` may change at all: from none, first a self-signed Root filed
under version 1. -/
def RootsEvolve (env : Env) (repo : Repo) (l l' : List MetaRow) : Prop :=
  RootsGrow env l l' ∧
  (l = [] → l' = [] ∨ ∃ raw, SelfSigned env raw ∧ RootsGrow env [⟨repo, .root, 1, raw⟩] l')

end Aktualizr.Spec
