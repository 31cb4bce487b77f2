import Verif.Model.Codec

namespace Aktualizr

theorem cut_append {sep : Char} {a b : List Char} (h : sep ∉ a) : cut sep (a ++ sep :: b) = some (a, b) := by
  induction a with
  | nil => simp [cut]
  | cons c a ih =>
    simp only [List.mem_cons, not_or] at h
    simp [cut, Ne.symm h.1, ih h.2]

theorem cut_none {sep : Char} {a : List Char} (h : sep ∉ a) : cut sep a = none := by
  induction a with
  | nil => rfl
  | cons c a ih =>
    simp only [List.mem_cons, not_or] at h
    simp [cut, Ne.symm h.1, ih h.2]

theorem pieces_none {sep : Char} {a : List Char} (h : sep ∉ a) : pieces sep a = [a] := by
  induction a with
  | nil => rfl
  | cons c a ih =>
    simp only [List.mem_cons, not_or] at h
    simp [pieces, Ne.symm h.1, ih h.2]

theorem pieces_append {sep : Char} {a b : List Char} (h : sep ∉ a) : pieces sep (a ++ sep :: b) = a :: pieces sep b := by
  induction a with
  | nil => simp [pieces]
  | cons c a ih =>
    simp only [List.mem_cons, not_or] at h
    simp [pieces, Ne.symm h.1, ih h.2]

theorem digit_not_space {c : Char} (h : c.isDigit = true) : isSpace c = false := by
  simp only [Char.isDigit, Bool.and_eq_true, decide_eq_true_eq] at h
  have h1 : 48 ≤ c.toNat := h.1
  have h2 : c ≠ ' ' := by rintro rfl; revert h1; decide
  simp only [isSpace]
  have : ¬ c.toNat ≤ 13 := by omega
  simp [h2, this]

theorem takeWhile_all {α : Type} {p : α → Bool} {l : List α} (h : ∀ x ∈ l, p x = true) : l.takeWhile p = l := by
  induction l with
  | nil => rfl
  | cons a l ih => simp [List.takeWhile, h a List.mem_cons_self, ih (fun x hx => h x (List.mem_cons_of_mem _ hx))]

theorem stoi_decimal {i : Int} (h1 : -2147483648 ≤ i) (h2 : i ≤ 2147483647) : stoi (decimal i) = .ok i := by
  have hd : ∀ c ∈ Nat.toDigits 10 i.natAbs, c.isDigit = true := fun c hc => Nat.isDigit_of_mem_toDigits (by decide) (by decide) hc
  have hne : Nat.toDigits 10 i.natAbs ≠ [] := Nat.toDigits_ne_nil
  have hv : Nat.ofDigitChars 10 (Nat.toDigits 10 i.natAbs) 0 = i.natAbs := Nat.ofDigitChars_toDigits (by decide) (by decide)
  have ht : leadingDigits (Nat.toDigits 10 i.natAbs) = Nat.toDigits 10 i.natAbs := takeWhile_all hd
  unfold decimal
  split
  · rename_i hneg
    have hs : isSpace '-' = false := by decide
    simp only [stoi, List.dropWhile_cons, hs, Bool.false_eq_true, if_false, signOf, ht, if_neg hne, hv, if_true]
    rw [if_neg (by omega)]
    congr 1
    omega
  · rename_i hpos
    cases hl : Nat.toDigits 10 i.natAbs with
    | nil => exact (hne hl).elim
    | cons c cs =>
      have hc := hd c (by rw [hl]; exact List.mem_cons_self)
      have hs := digit_not_space hc
      have hm : c ≠ '-' := by rintro rfl; revert hc; decide
      have hp : c ≠ '+' := by rintro rfl; revert hc; decide
      rw [hl] at ht hv
      simp only [stoi, List.dropWhile_cons, hs, Bool.false_eq_true, if_false, signOf, if_neg hm, if_neg hp]
      simp only [ht, Bool.false_eq_true, if_false, hv, reduceCtorEq]
      rw [if_neg (by omega)]
      congr 1
      omega

theorem quote_not_decimal {i : Int} {c : Char} (h1 : c ≠ '-') (h2 : c.isDigit = false) : c ∉ decimal i := by
  have : c ∉ Nat.toDigits 10 i.natAbs := fun h => by
    have := Nat.isDigit_of_mem_toDigits (by decide) (by decide) h
    rw [h2] at this; simp at this
  unfold decimal
  split <;> simp [this, h1]

end Aktualizr
