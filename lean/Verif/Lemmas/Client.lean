import Verif.Model.Client
import Verif.Lemmas.Delegation
import Verif.Lemmas.ImageUpdate

/-! Inverting the client's computations. -/

namespace Aktualizr

open M

variable {α : Type}

theorem inWorld_eq (m : U α) (cl : Client) : inWorld m cl = ((m cl.w).1, { cl with w := (m cl.w).2 }) := rfl

theorem inWorld_ok {m : U α} {cl cl' : Client} {a : α} :
    inWorld m cl = (.ok a, cl') ↔ ∃ w', m cl.w = (.ok a, w') ∧ cl' = { cl with w := w' } := by
  rw [inWorld_eq, Prod.mk.injEq]
  constructor
  · rintro ⟨h1, rfl⟩
    exact ⟨_, by rw [← h1], rfl⟩
  · rintro ⟨w', h1, rfl⟩
    rw [h1]
    exact ⟨rfl, rfl⟩

theorem catchStd_ok {σ : Type} {m : M σ α} {h : Err → M σ α} {s s' : σ} {a : α} :
    catchStd m h s = (.ok a, s') ↔
      m s = (.ok a, s') ∨ ∃ e s1, m s = (.error e, s1) ∧ e.isStd = true ∧ h e s1 = (.ok a, s') := by
  unfold catchStd
  cases hm : m s with
  | mk o s1 =>
    cases o with
    | ok b => simp
    | error e =>
      by_cases he : e.isStd = true
      · simp only [he, if_true, Prod.mk.injEq, reduceCtorEq, false_and, false_or]
        constructor
        · intro h; exact ⟨e, s1, ⟨rfl, rfl⟩, he, h⟩
        · rintro ⟨_, _, ⟨h1, rfl⟩, _, h⟩; cases h1; exact h
      · simp only [he, if_false, Prod.mk.injEq, reduceCtorEq, false_and, false_or, false_iff, Bool.false_eq_true]
        rintro ⟨_, _, ⟨h1, rfl⟩, h2, _⟩
        cases h1; exact he h2

theorem cwrite_ok {f : Client → Client} {cl cl' : Client} {u : Unit} :
    cwrite f cl = (.ok u, cl') ↔ ∃ n, cl.w.fuel = n + 1 ∧ cl' = { f cl with w := { (f cl).w with fuel := n } } := by
  unfold cwrite
  cases hf : cl.w.fuel with
  | zero => simp
  | succ n =>
    constructor
    · intro h; simp only [Prod.mk.injEq, true_and] at h; exact ⟨n, rfl, h.symm⟩
    · rintro ⟨m, hm, rfl⟩; cases hm; rfl

theorem cwrite_cases {f : Client → Client} {cl cl' : Client} {o : Except Err Unit} (h : cwrite f cl = (o, cl')) :
    (∃ n, o = .ok () ∧ cl.w.fuel = n + 1 ∧ cl' = { f cl with w := { (f cl).w with fuel := n } }) ∨ (o = .error .crash ∧ cl' = cl) := by
  unfold cwrite at h
  split at h
  · simp only [Prod.mk.injEq] at h; exact .inr ⟨h.1.symm, h.2.symm⟩
  · next n hn => simp only [Prod.mk.injEq] at h; exact .inl ⟨n, h.1.symm, hn, h.2.symm⟩

end Aktualizr

/-! ### Image repository operations leave the Director object alone -/

namespace Aktualizr

open M

/-- The Director object is the same and time has not gone back. -/
def KeepsDir (w w' : World) : Prop := w'.dir = w.dir ∧ w.tick ≤ w'.tick

theorem keepsDir_pre : IsPre KeepsDir :=
  ⟨fun _ => ⟨rfl, Nat.le_refl _⟩, fun _ _ _ h1 h2 => ⟨h2.1.trans h1.1, Nat.le_trans h1.2 h2.2⟩⟩

theorem Steady.keepsDir {α : Type} {m : U α} (h : Preserves Steady m) : Preserves KeepsDir m :=
  fun w => (h w).2

theorem keepsDir_write (f : MetaDb → MetaDb) : Preserves KeepsDir (write f) := Steady.keepsDir (steady_write f)
theorem keepsDir_eq {α : Type} {m : U α} (h : Preserves Eq m) : Preserves KeepsDir m := Steady.keepsDir (steady_of_eq h)
theorem keepsDir_fetch (c : Ctx) (m : Int) (repo : Repo) (role : Role) (v : Int) :
    Preserves KeepsDir (fetchRole c m repo role v) := Steady.keepsDir (steady_fetchRole c m repo role v)
theorem keepsDir_now (c : Ctx) : Preserves KeepsDir (now c) := Steady.keepsDir (steady_now c)
theorem keepsDir_setRoot (r : Root) (w : World) : KeepsDir w (setRoot .image r w) := ⟨rfl, Nat.le_refl _⟩

theorem keepsDir_updateRoot (c : Ctx) : Preserves KeepsDir (updateRoot c .image) := by
  have hloop : ∀ n v, Preserves KeepsDir (rotateLoop c .image n v) := by
    intro n
    induction n with
    | zero => intro v; unfold rotateLoop; wpres keepsDir_pre
    | succ n ih =>
      intro v
      unfold rotateLoop verifyRoot tryFetchRoot
      wpres keepsDir_pre
      · exact keepsDir_fetch _ _ _ _ _
      · exact keepsDir_setRoot _ _
      · exact keepsDir_write _
      · exact keepsDir_write _
      · exact ih _
  unfold updateRoot loadOrFetchRoot initRoot checkRootExpired
  wpres keepsDir_pre
  · exact keepsDir_eq (loadLatestRoot_same _)
  · exact keepsDir_setRoot _ _
  · exact keepsDir_setRoot _ _
  · exact keepsDir_fetch _ _ _ _ _
  · exact keepsDir_setRoot _ _
  · exact keepsDir_setRoot _ _
  · exact keepsDir_write _
  · exact hloop _ _
  · exact keepsDir_now _

theorem Image.updateMeta_keepsDir (c : Ctx) : Preserves KeepsDir (Image.updateMeta c) := by
  unfold Image.updateMeta Image.resetMeta Image.updateTimestamp Image.updateSnapshot Image.updateTargets Image.tryStoredSnapshot
    Image.tryStoredTargets Image.fetchSnapshot Image.fetchTargets Image.verifyTimestamp Image.verifySnapshot Image.verifyTargets
    Image.checkTimestampExpired Image.checkSnapshotExpired Image.checkTargetsExpired Image.compareAndStore fetchLatestRole
  wpres keepsDir_pre
  all_goals first
    | exact keepsDir_updateRoot c
    | exact keepsDir_fetch _ _ _ _ _
    | exact keepsDir_eq (loadNonRoot_same _ _)
    | exact keepsDir_now _
    | exact keepsDir_write _
    | exact ⟨rfl, Nat.le_refl _⟩

theorem Image.checkMetaOffline_keepsDir (c : Ctx) : Preserves KeepsDir (Image.checkMetaOffline c) := by
  unfold Image.checkMetaOffline Image.resetMeta initRoot checkRootExpired Image.verifyTimestamp Image.verifySnapshot Image.verifyTargets
    Image.checkTimestampExpired Image.checkSnapshotExpired Image.checkTargetsExpired
  wpres keepsDir_pre
  all_goals first
    | exact keepsDir_eq (loadNonRoot_same _ _)
    | exact keepsDir_eq (loadLatestRoot_same _)
    | exact keepsDir_now _
    | exact keepsDir_setRoot _ _
    | exact ⟨rfl, Nat.le_refl _⟩

end Aktualizr
