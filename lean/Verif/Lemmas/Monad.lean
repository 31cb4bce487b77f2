import Verif.Lemmas.Except
import Verif.Model.Monad

/-! Inversion and preservation lemmas for the execution monad. -/

namespace Aktualizr.M

variable {σ τ α β : Type}

@[simp] theorem bind_ok {m : M σ α} {f : α → M σ β} {w w' : σ} {b : β} :
    (m >>= f) w = (.ok b, w') ↔ ∃ a w1, m w = (.ok a, w1) ∧ f a w1 = (.ok b, w') := by
  show (match m w with | (.ok a, w') => f a w' | (.error e, w') => (.error e, w')) = _ ↔ _
  cases h : m w with
  | mk o w1 =>
    cases o with
    | ok a =>
      simp only [Prod.mk.injEq, Except.ok.injEq]
      exact ⟨fun hf => ⟨a, w1, ⟨rfl, rfl⟩, hf⟩, fun ⟨_, _, ⟨h1, h2⟩, hf⟩ => by subst h1; subst h2; exact hf⟩
    | error e => simp

theorem bind_cases {m : M σ α} {f : α → M σ β} {w w' : σ} {o : Except Err β}
    (h : (m >>= f) w = (o, w')) :
    (∃ a w1, m w = (.ok a, w1) ∧ f a w1 = (o, w')) ∨ (∃ e, m w = (.error e, w') ∧ o = .error e) := by
  change (match m w with | (.ok a, w') => f a w' | (.error e, w') => (.error e, w')) = _ at h
  cases hm : m w with
  | mk x w1 =>
    rw [hm] at h
    cases x with
    | ok a => exact .inl ⟨a, w1, rfl, h⟩
    | error e => simp at h; obtain ⟨rfl, rfl⟩ := h; exact .inr ⟨e, rfl, rfl⟩

theorem bind_err {m : M σ α} {f : α → M σ β} {w w' : σ} {e : Err} :
    (m >>= f) w = (.error e, w') ↔
      m w = (.error e, w') ∨ ∃ a w1, m w = (.ok a, w1) ∧ f a w1 = (.error e, w') := by
  show (match m w with | (.ok a, w') => f a w' | (.error e, w') => (.error e, w')) = _ ↔ _
  cases h : m w with
  | mk o w1 =>
    cases o with
    | ok a =>
      simp only [Prod.mk.injEq, Except.ok.injEq, reduceCtorEq, false_and, false_or]
      exact ⟨fun hf => ⟨a, w1, ⟨rfl, rfl⟩, hf⟩, fun ⟨_, _, ⟨h1, h2⟩, hf⟩ => by subst h1; subst h2; exact hf⟩
    | error e => simp

theorem run_bind {m : M σ α} {f : α → M σ β} {w w1 : σ} {a : α} (h : m w = (.ok a, w1)) :
    (m >>= f) w = f a w1 := by
  show (match m w with | (.ok a, w') => f a w' | (.error e, w') => (.error e, w')) = _
  rw [h]

theorem run_bind_err {m : M σ α} {f : α → M σ β} {w w1 : σ} {e : Err} (h : m w = (.error e, w1)) :
    (m >>= f) w = (.error e, w1) := by
  show (match m w with | (.ok a, w') => f a w' | (.error e, w') => (.error e, w')) = _
  rw [h]

@[simp] theorem map_ok {m : M σ α} {f : α → β} {w w' : σ} {b : β} :
    (f <$> m) w = (.ok b, w') ↔ ∃ a, m w = (.ok a, w') ∧ f a = b := by
  show (match m w with | (Except.ok a, w') => (Except.ok (f a), w') | (Except.error e, w') => (Except.error e, w')) = _ ↔ _
  cases h : m w with
  | mk o w1 =>
    cases o with
    | ok a =>
      simp only [Prod.mk.injEq, Except.ok.injEq]
      exact ⟨fun ⟨h1, h2⟩ => ⟨a, ⟨rfl, h2⟩, h1⟩, fun ⟨_, ⟨h1, h2⟩, hf⟩ => by subst h1; exact ⟨hf, h2⟩⟩
    | error e => simp

@[simp] theorem pure_eq {w : σ} {a : α} : (pure a : M σ α) w = (.ok a, w) := rfl
@[simp] theorem throw_eq {w : σ} {e : Err} : (M.throw e : M σ α) w = (.error e, w) := rfl
@[simp] theorem lift_eq {w : σ} {x : Except Err α} : (M.lift x : M σ α) w = (x, w) := rfl
@[simp] theorem gets_eq {w : σ} {f : σ → α} : (M.gets f : M σ α) w = (.ok (f w), w) := rfl
@[simp] theorem modify_eq {w : σ} {f : σ → σ} : (M.modify f : M σ Unit) w = (.ok (), f w) := rfl

@[simp] theorem throwWhen_ok {w w' : σ} {b : Bool} {e : Err} {u : Unit} :
    (throwWhen b e : M σ Unit) w = (.ok u, w') ↔ b = false ∧ w = w' := by
  cases b <;> simp [throwWhen]

@[simp] theorem throwWhen_snd {w : σ} {b : Bool} {e : Err} : ((throwWhen b e : M σ Unit) w).2 = w := rfl

@[simp] theorem orThrow_ok {w w' : σ} {o : Option α} {e : Err} {a : α} :
    (orThrow o e : M σ α) w = (.ok a, w') ↔ o = some a ∧ w = w' := by
  cases o <;> simp [orThrow]

theorem orThrow_snd {w : σ} {o : Option α} {e : Err} : ((orThrow o e : M σ α) w).2 = w := by
  cases o <;> rfl

theorem ite_app {c : Prop} [Decidable c] {a b : M σ α} {w : σ} : (if c then a else b) w = if c then a w else b w := by
  split <;> rfl

/-! ### Preservation of a reflexive-transitive relation, whatever the outcome -/

/-- The state after `m` is `R`-related to the state before, whether `m` returns, throws or
crashes. -/
def Preserves (R : σ → σ → Prop) (m : M σ α) : Prop := ∀ w, R w (m w).2

structure IsPre (R : σ → σ → Prop) : Prop where
  refl : ∀ w, R w w
  trans : ∀ a b c, R a b → R b c → R a c

theorem Preserves.bind {R : σ → σ → Prop} (hR : IsPre R) {m : M σ α} {f : α → M σ β}
    (hm : Preserves R m) (hf : ∀ a, Preserves R (f a)) : Preserves R (m >>= f) := by
  intro w
  have h1 := hm w
  show R w (match m w with | (.ok a, w') => f a w' | (.error e, w') => (.error e, w')).2
  cases h : m w with
  | mk o w1 =>
    rw [h] at h1
    cases o with
    | ok a => exact hR.trans _ _ _ h1 (hf a w1)
    | error e => exact h1

theorem Preserves.map {R : σ → σ → Prop} {m : M σ α} {f : α → β} (hm : Preserves R m) :
    Preserves R (f <$> m) := by
  intro w
  have h1 := hm w
  show R w (match m w with | (Except.ok a, w') => (Except.ok (f a), w') | (Except.error e, w') => (Except.error e, w')).2
  cases h : m w with
  | mk o w1 =>
    rw [h] at h1
    cases o <;> exact h1

theorem Preserves.pure {R : σ → σ → Prop} (hR : IsPre R) {a : α} : Preserves R (pure a : M σ α) :=
  fun w => hR.refl w
theorem Preserves.throw {R : σ → σ → Prop} (hR : IsPre R) {e : Err} : Preserves R (M.throw e : M σ α) :=
  fun w => hR.refl w
theorem Preserves.lift {R : σ → σ → Prop} (hR : IsPre R) {x : Except Err α} : Preserves R (M.lift x : M σ α) :=
  fun w => hR.refl w
theorem Preserves.gets {R : σ → σ → Prop} (hR : IsPre R) {f : σ → α} : Preserves R (M.gets f : M σ α) :=
  fun w => hR.refl w
theorem Preserves.throwWhen {R : σ → σ → Prop} (hR : IsPre R) {b : Bool} {e : Err} :
    Preserves R (M.throwWhen b e : M σ Unit) :=
  fun w => hR.refl w
theorem Preserves.orThrow {R : σ → σ → Prop} (hR : IsPre R) {o : Option α} {e : Err} :
    Preserves R (M.orThrow o e : M σ α) :=
  fun w => by rw [orThrow_snd]; exact hR.refl w
theorem Preserves.modify {R : σ → σ → Prop} {f : σ → σ} (h : ∀ w, R w (f w)) :
    Preserves R (M.modify f : M σ Unit) := h

theorem Preserves.catchStd {R : σ → σ → Prop} (hR : IsPre R) {m : M σ α} {h : Err → M σ α}
    (hm : Preserves R m) (hh : ∀ e, Preserves R (h e)) : Preserves R (M.catchStd m h) := by
  intro w
  have h1 := hm w
  unfold M.catchStd
  split
  · rename_i e w' heq
    rw [heq] at h1
    split
    · exact hR.trans _ _ _ h1 (hh e w')
    · exact h1
  · exact h1

theorem Preserves.catchUpt {R : σ → σ → Prop} (hR : IsPre R) {m : M σ α} {h : Err → M σ α}
    (hm : Preserves R m) (hh : ∀ e, Preserves R (h e)) : Preserves R (M.catchUpt m h) := by
  intro w
  have h1 := hm w
  unfold M.catchUpt
  split
  · rename_i e w' heq
    rw [heq] at h1
    split
    · exact hR.trans _ _ _ h1 (hh e w')
    · exact h1
  · exact h1

theorem Preserves.of_eq {R : σ → σ → Prop} {m : M σ α} (h : Preserves R m) {w w' : σ} {o : Except Err α}
    (he : m w = (o, w')) : R w w' := by
  have := h w
  rw [he] at this
  exact this

end Aktualizr.M
