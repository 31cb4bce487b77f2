import Verif.Model.Json

/-! Inversion lemmas for `Except`. -/

namespace Aktualizr

@[simp] theorem exc_bind_ok {ε α β : Type} {x : Except ε α} {f : α → Except ε β} {b : β} :
    (x >>= f) = .ok b ↔ ∃ a, x = .ok a ∧ f a = .ok b := by
  cases x <;> simp [bind, Except.bind]

@[simp] theorem exc_map_ok {ε α β : Type} {x : Except ε α} {f : α → β} {b : β} :
    (f <$> x) = .ok b ↔ ∃ a, x = .ok a ∧ f a = b := by
  cases x <;> simp [Functor.map, Except.map]

@[simp] theorem exc_pure_ok {ε α : Type} {a b : α} : (pure a : Except ε α) = .ok b ↔ a = b := by
  simp [pure, Except.pure]

@[simp] theorem exc_throw_ne {ε α : Type} {e : ε} {b : α} : ((throw e : Except ε α) = .ok b) ↔ False := by
  simp [throw, throwThe, MonadExceptOf.throw]

@[simp] theorem exc_bind_of_ok {ε α β : Type} {a : α} {f : α → Except ε β} :
    ((Except.ok a : Except ε α) >>= f) = f a := rfl

@[simp] theorem exc_bind_of_error {ε α β : Type} {e : ε} {f : α → Except ε β} :
    ((Except.error e : Except ε α) >>= f) = .error e := rfl

theorem exc_throw_eq {ε α : Type} {e : ε} : (throw e : Except ε α) = .error e := rfl

theorem exc_pure_eq {ε α : Type} {a : α} : (pure a : Except ε α) = .ok a := rfl

@[simp] theorem throwIf_ok {b : Bool} {e : Err} {u : Unit} : throwIf b e = .ok u ↔ b = false := by
  cases b <;> simp [throwIf]

end Aktualizr
