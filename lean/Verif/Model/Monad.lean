import Verif.Model.Json

/-!
# The execution monad

A C++ call is a function from the state before to its outcome (a value or an exception) and
the state after; effects made before a throw persist.
-/

namespace Aktualizr

/-- A computation on state `σ` that may throw. -/
def M (σ α : Type) := σ → Except Err α × σ

instance {σ : Type} : Monad (M σ) where
  pure a := fun w => (.ok a, w)
  bind m f := fun w => match m w with
    | (.ok a, w') => f a w'
    | (.error e, w') => (.error e, w')

namespace M

variable {σ τ α : Type}

/-- `throw e`. -/
def throw (e : Err) : M σ α := fun w => (.error e, w)

/-- Run a pure computation that may throw. -/
def lift (x : Except Err α) : M σ α := fun w => (x, w)

/-- `if (b) throw e;` -/
def throwWhen (b : Bool) (e : Err) : M σ Unit := fun w => (if b then .error e else .ok (), w)

/-- `if (!found) throw e;`, returning what was found. -/
def orThrow (o : Option α) (e : Err) : M σ α := fun w => match o with
  | some a => (.ok a, w)
  | none => (.error e, w)

/-- Read from the state. -/
def gets (f : σ → α) : M σ α := fun w => (.ok (f w), w)

/-- Change the state. -/
def modify (f : σ → σ) : M σ Unit := fun w => (.ok (), f w)

/-- `try { m } catch (const std::exception &) { h }`; effects of `m` persist. -/
def catchStd (m : M σ α) (h : Err → M σ α) : M σ α := fun w => match m w with
  | (.error e, w') => if e.isStd then h e w' else (.error e, w')
  | r => r

/-- `try { m } catch (const Uptane::Exception &) { h }`. -/
def catchUpt (m : M σ α) (h : Err → M σ α) : M σ α := fun w => match m w with
  | (.error e, w') => if e.isUpt then h e w' else (.error e, w')
  | r => r

/-- Run a computation on a component of a larger state. -/
def zoom (get : τ → σ) (set : σ → τ → τ) (m : M σ α) : M τ α := fun t =>
  match m (get t) with
  | (r, s') => (r, set s' t)

end M

end Aktualizr
