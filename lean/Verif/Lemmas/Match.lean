import Verif.Spec.Delegation

namespace Aktualizr

open Spec

theorem matchHashInner_some {h : Hash} {one one' : Bool} {l : List Hash} :
    matchHashInner h one l = some one' ↔
      (∀ h2 ∈ l, h.type = h2.type → h = h2) ∧ one' = (one || l.contains h) := by
  induction l generalizing one with
  | nil => simp [matchHashInner, eq_comm]
  | cons a l ih =>
    unfold matchHashInner
    by_cases hc : h.type = a.type ∧ ¬ h = a
    · rw [if_pos hc]
      simp only [reduceCtorEq, List.mem_cons, forall_eq_or_imp, false_iff]
      exact fun hx => hc.2 (hx.1.1 hc.1)
    · rw [if_neg hc, ih]
      have hc' : h.type = a.type → h = a := fun ht => Classical.byContradiction fun hn => hc ⟨ht, hn⟩
      simp only [List.mem_cons, forall_eq_or_imp, List.contains_cons]
      by_cases he : h = a
      · subst he; simp
      · have : (h == a) = false := by simpa using he
        simp [he, this]
        intro _ _ ht
        exact he (hc' ht)

theorem matchHashLoop_iff {hs2 : List Hash} {one : Bool} {l : List Hash} :
    matchHashLoop hs2 one l = true ↔
      (one = true ∨ ∃ h, h ∈ l ∧ h ∈ hs2) ∧ ∀ h ∈ l, ∀ h' ∈ hs2, h.type = h'.type → h = h' := by
  induction l generalizing one with
  | nil => simp [matchHashLoop]
  | cons a l ih =>
    unfold matchHashLoop
    cases hm : matchHashInner a one hs2 with
    | none =>
      simp only [Bool.false_eq_true, List.mem_cons, forall_eq_or_imp, false_iff]
      intro hx
      have := (matchHashInner_some (one := one) (one' := (one || hs2.contains a))).2 ⟨hx.2.1, rfl⟩
      rw [hm] at this
      simp at this
    | some one' =>
      obtain ⟨h1, rfl⟩ := matchHashInner_some.1 hm
      simp only [ih, List.mem_cons, forall_eq_or_imp, Bool.or_eq_true, List.contains_iff_mem]
      constructor
      · rintro ⟨(h | h) | ⟨x, h, h'⟩, h2⟩
        · exact ⟨.inl h, h1, h2⟩
        · exact ⟨.inr ⟨a, .inl rfl, h⟩, h1, h2⟩
        · exact ⟨.inr ⟨x, .inr h, h'⟩, h1, h2⟩
      · rintro ⟨h | ⟨x, h | h, h'⟩, _, h2⟩
        · exact ⟨.inl (.inl h), h2⟩
        · subst h; exact ⟨.inl (.inr h'), h2⟩
        · exact ⟨.inr ⟨x, h, h'⟩, h2⟩

theorem matchHwids_iff {a b : Target} : matchHwids a b = true ↔ SameAssignment a b := by
  unfold matchHwids SameAssignment HardwareAllowed
  by_cases h : a.hwids ≠ b.hwids ∨ a.ecus ≠ b.ecus
  · rw [if_pos h]
    have hn : ¬ (a.hwids = b.hwids ∧ a.ecus = b.ecus) := by
      rintro ⟨h1, h2⟩; rcases h with h | h
      · exact h h1
      · exact h h2
    split
    · rename_i hc
      obtain ⟨h1, h2, h3, h4⟩ := hc
      simp only [hn, false_or, List.all_eq_true, List.contains_iff_mem, Prod.forall]
      constructor
      · exact fun hx => .inr ⟨h3, h4, h2, h1, hx⟩
      · rintro (⟨h, _⟩ | ⟨_, _, _, _, h⟩)
        · exact (h1 h).elim
        · exact h
    · rename_i hc
      split
      · rename_i hc2
        obtain ⟨h1, h2, h3, h4⟩ := hc2
        simp only [hn, false_or, List.all_eq_true, List.contains_iff_mem, Prod.forall]
        constructor
        · exact fun hx => .inl ⟨h3, h4, h2, h1, hx⟩
        · rintro (⟨_, _, _, _, h⟩ | ⟨h, _⟩)
          · exact h
          · exact (h1 h).elim
      · rename_i hc2
        simp only [hn, false_or, Bool.false_eq_true, false_iff]
        rintro (⟨h1, h2, h3, h4, _⟩ | ⟨h1, h2, h3, h4, _⟩)
        · exact hc2 ⟨h4, h3, h1, h2⟩
        · exact hc ⟨h4, h3, h1, h2⟩
  · rw [if_neg h]
    have : a.hwids = b.hwids ∧ a.ecus = b.ecus := by
      constructor
      · exact Classical.byContradiction fun hn => h (.inl hn)
      · exact Classical.byContradiction fun hn => h (.inr hn)
    simp [this]

theorem matchTarget_iff {a b : Target} : a.matchTarget b = true ↔ SameContent a b ∧ SameAssignment a b := by
  unfold Target.matchTarget SameContent
  by_cases h1 : a.filename = b.filename
  · by_cases h2 : a.length = b.length
    · rw [if_neg (by simpa using h1), if_neg (by simpa using h2)]
      rw [← matchHwids_iff]
      cases hm : matchHwids a b
      · simp
      · simp [matchHashLoop_iff, h1, h2]
    · simp [h1, h2]
  · simp [h1]

end Aktualizr
