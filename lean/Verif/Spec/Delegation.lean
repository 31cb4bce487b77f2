import Verif.Spec.Metadata

/-! # Specification: matching targets and delegation chains -/

namespace Aktualizr.Spec

/-- Same file name and length, at least one hash in common, and no hash algorithm on which the
two disagree. -/
def SameContent (a b : Target) : Prop :=
  a.filename = b.filename ∧ a.length = b.length ∧ (∃ h, h ∈ a.hashes ∧ h ∈ b.hashes) ∧
    ∀ h ∈ a.hashes, ∀ h' ∈ b.hashes, h.type = h'.type → h = h'

/-- `d` names ECUs (and no hardware ids), `i` lists hardware ids (and no ECUs), and the
hardware id of every ECU named is one of those listed. -/
def HardwareAllowed (d i : Target) : Prop :=
  d.hwids = [] ∧ d.ecus ≠ [] ∧ i.ecus = [] ∧ i.hwids ≠ [] ∧ ∀ ecu hw, (ecu, hw) ∈ d.ecus → hw ∈ i.hwids

/-- Two targets are for the same ECUs and hardware, or one is a Director target allowed by the
other, an Image repository target. -/
def SameAssignment (a b : Target) : Prop :=
  (a.hwids = b.hwids ∧ a.ecus = b.ecus) ∨ HardwareAllowed a b ∨ HardwareAllowed b a

/-- The elements of a JSON array of texts. -/
def TextArray (j : Json) (l : List String) : Prop :=
  j.elems.length = l.length ∧ ∀ p ∈ j.elems.zip l, p.1.asString = .ok p.2

/-- The Targets document `raw` has a delegation to role `name` for the path patterns
`patterns`, terminating or not. -/
def Delegates (env : Env) (raw name : String) (patterns : List String) (terminating : Bool) : Prop :=
  ∃ roles rj paths tj, At (env.parseJson raw) ["signed", "delegations", "roles"] roles ∧ rj ∈ roles.elems ∧
    textAt rj "name" name ∧ rj.get "paths" = .ok paths ∧ TextArray paths patterns ∧
    rj.get "terminating" = .ok tj ∧ tj.asBool = .ok terminating

/-- A Targets document and its content. -/
structure Node where
  raw : String
  content : Targets

/-- `child` is a proper delegate of `parent` called `name` as regards signatures and the
Snapshot document `rawS`: a document of the right type, signed to the threshold with the keys
the parent gives for that name, of version `v` as pinned by the Snapshot. -/
structure TrustedDelegate (env : Env) (rawS : String) (parent : Targets) (name : String) (child : Node) (v : Int) : Prop where
  reads : ReadsAsTargets env child.raw child.content
  signed : SignedToThreshold env parent.base name (env.parseJson child.raw)
  type : DeclaresType ⟨.delegation, name⟩ (env.parseJson child.raw)
  vouched : SnapshotVouches env rawS name child.raw v

/-- Chains of delegations from `top` for the file name `file`: `Chain … n terminating node` says
`node` is reached in `n` delegations, the last of them terminating or not. No chain goes
through a terminating delegation. Every delegation has a matching pattern, every delegated
document is properly signed and listed, and unexpired at one of the times in `times`. -/
inductive Chain (env : Env) (rawS file : String) (times : TimeStamp → Prop) (top : Node) : Nat → Bool → Node → Prop where
  | top : Chain env rawS file times top 0 false top
  | step {n : Nat} {parent child : Node} {name : String} {patterns : List String} {terminating : Bool} {v : Int} {t : TimeStamp} :
      Chain env rawS file times top n false parent →
      Delegates env parent.raw name patterns terminating →
      (∃ p ∈ patterns, env.fnmatch p file = true) →
      TrustedDelegate env rawS parent.content name child v →
      (child.content.base.version = v ∨ v = -1) →
      times t → child.content.base.expiry.isExpiredAt t = false →
      Chain env rawS file times top (n + 1) terminating child


theorem Chain.mono {env : Env} {rawS file : String} {P Q : TimeStamp → Prop} {top : Node} {n : Nat} {b : Bool} {node : Node}
    (h : Chain env rawS file P top n b node) (hpq : ∀ x, P x → Q x) : Chain env rawS file Q top n b node := by
  induction h with
  | top => exact .top
  | step _ h1 h2 h3 h4 h5 h6 ih => exact .step ih h1 h2 h3 h4 (hpq _ h5) h6

end Aktualizr.Spec
