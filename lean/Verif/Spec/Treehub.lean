import Verif.Model.Treehub

/-!
# What is expected of a push
-/

namespace Aktualizr.Treehub

/-- Objects are sent in order: what an object refers to has been confirmed before. -/
def Ordered (refs : Obj → List Obj) (log : List Event) : Prop :=
  ∀ pre o post, log = pre ++ .put o :: post → ∀ c ∈ refs o, .seen c ∈ pre

/-- The objects of the commit. -/
inductive Reach (refs : Obj → List Obj) (root : Obj) : Obj → Prop where
  | root : Reach refs root root
  | step {o c : Obj} : Reach refs root o → c ∈ refs o → Reach refs root c

/-- The response settles the request. -/
def Definite (op : CurrentOp) (urlOk : Bool) (code : Nat) : Prop :=
  urlOk = true ∧ match op with
    | .presenceCheck => code = 200 ∨ code = 404
    | .uploading => code = 204 ∨ code = 409

instance (op : CurrentOp) (urlOk : Bool) (code : Nat) : Decidable (Definite op urlOk code) := by
  unfold Definite; cases op <;> infer_instance

end Aktualizr.Treehub
