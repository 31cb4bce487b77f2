import Verif.Model.Time

/-!
# C32: the comparison of time stamps is chronological
-/

namespace Aktualizr.Spec

/-- The Gregorian calendar. -/
def leap (y : Nat) : Bool := y % 4 == 0 && (y % 100 != 0 || y % 400 == 0)

def yearLength (y : Nat) : Nat := if leap y then 366 else 365

def monthLength (isLeap : Bool) : Nat → Nat
  | 2 => if isLeap then 29 else 28
  | 4 | 6 | 9 | 11 => 30
  | _ => 31

/-- Days from the beginning of year 0 to the beginning of year `y`. -/
def daysBeforeYear : Nat → Nat
  | 0 => 0
  | y + 1 => daysBeforeYear y + yearLength y

/-- Days of a year before the month that follows the `m`-th. -/
def daysOfMonths (isLeap : Bool) : Nat → Nat
  | 0 => 0
  | m + 1 => daysOfMonths isLeap m + monthLength isLeap (m + 1)

/-- A calendar instant with a four-digit year. -/
structure Instant (t : Tm) : Prop where
  year : t.year < 10000
  month : 1 ≤ t.month ∧ t.month ≤ 12
  day : 1 ≤ t.day ∧ t.day ≤ monthLength (leap t.year) t.month
  hour : t.hour < 24
  min : t.min < 60
  sec : t.sec < 60

/-- Seconds since the beginning of year 0. -/
def seconds (t : Tm) : Nat :=
  (((daysBeforeYear t.year + daysOfMonths (leap t.year) (t.month - 1) + (t.day - 1)) * 24 + t.hour) * 60 + t.min) * 60 + t.sec

/-- RFC 3339 text, UTC, whole seconds: "YYYY-MM-DDThh:mm:ssZ". -/
def rfc3339 (t : Tm) : String :=
  let d (n : Nat) : Char := "0123456789".toList.getD n '?'
  String.ofList [d (t.year / 1000), d (t.year / 100 % 10), d (t.year / 10 % 10), d (t.year % 10), '-',
    d (t.month / 10), d (t.month % 10), '-', d (t.day / 10), d (t.day % 10), 'T',
    d (t.hour / 10), d (t.hour % 10), ':', d (t.min / 10), d (t.min % 10), ':', d (t.sec / 10), d (t.sec % 10), 'Z']

end Aktualizr.Spec

namespace Aktualizr

open Aktualizr.Spec

theorem digit_spec : ∀ n < 10, ("0123456789".toList.getD n '?').toNat = 48 + n ∧
    ("0123456789".toList.getD n '?').utf8Size = 1 ∧ "0123456789".toList.getD n '?' = digitChar n := by decide +kernel

theorem ltChars_digit {m n : Nat} (hm : m < 10) (hn : n < 10) (x y : List Char) :
    ltChars ("0123456789".toList.getD m '?' :: x) ("0123456789".toList.getD n '?' :: y) =
      (decide (m < n) || (decide (m = n) && ltChars x y)) := by
  rw [ltChars, (digit_spec m hm).1, (digit_spec n hn).1]
  by_cases h1 : m < n
  · simp [h1]
  · by_cases h2 : n < m
    · have : m ≠ n := by omega
      simp [h1, h2, this]
    · have : m = n := by omega
      simp [this]

theorem ltChars_same (c : Char) (x y : List Char) : ltChars (c :: x) (c :: y) = ltChars x y := by
  simp [ltChars]

/-- Order of the fields. -/
def fieldsLt (a b : Tm) : Prop :=
  a.year < b.year ∨ a.year = b.year ∧ (a.month < b.month ∨ a.month = b.month ∧ (a.day < b.day ∨ a.day = b.day ∧
    (a.hour < b.hour ∨ a.hour = b.hour ∧ (a.min < b.min ∨ a.min = b.min ∧ a.sec < b.sec))))

theorem monthLength_le (b : Bool) (m : Nat) : monthLength b m ≤ 31 := by
  unfold monthLength
  split <;> (try split) <;> omega

theorem two_digits_lt {a b : Nat} (P : Prop) :
    (a / 10 < b / 10 ∨ a / 10 = b / 10 ∧ (a % 10 < b % 10 ∨ a % 10 = b % 10 ∧ P)) ↔ (a < b ∨ a = b ∧ P) := by
  by_cases hP : P <;> simp only [hP, and_true, and_false, or_false] <;> omega

theorem four_digits_lt {a b : Nat} (ha : a < 10000) (hb : b < 10000) (P : Prop) :
    (a / 1000 < b / 1000 ∨ a / 1000 = b / 1000 ∧ (a / 100 % 10 < b / 100 % 10 ∨ a / 100 % 10 = b / 100 % 10 ∧
      (a / 10 % 10 < b / 10 % 10 ∨ a / 10 % 10 = b / 10 % 10 ∧ (a % 10 < b % 10 ∨ a % 10 = b % 10 ∧ P)))) ↔
    (a < b ∨ a = b ∧ P) := by
  by_cases hP : P <;> simp only [hP, and_true, and_false, or_false] <;> omega

theorem text_order {a b : Tm} (ha : Instant a) (hb : Instant b) :
    ltChars (rfc3339 a).toList (rfc3339 b).toList = true ↔ fieldsLt a b := by
  have hda := monthLength_le (leap a.year) a.month
  have hdb := monthLength_le (leap b.year) b.month
  obtain ⟨ya, ma, da, ha, na, sa⟩ := ha
  obtain ⟨yb, mb, db, hb, nb, sb⟩ := hb
  simp only [rfc3339, String.toList_ofList]
  rw [ltChars_digit (by omega) (by omega), ltChars_digit (by omega) (by omega), ltChars_digit (by omega) (by omega),
    ltChars_digit (by omega) (by omega), ltChars_same,
    ltChars_digit (by omega) (by omega), ltChars_digit (by omega) (by omega), ltChars_same,
    ltChars_digit (by omega) (by omega), ltChars_digit (by omega) (by omega), ltChars_same,
    ltChars_digit (by omega) (by omega), ltChars_digit (by omega) (by omega), ltChars_same,
    ltChars_digit (by omega) (by omega), ltChars_digit (by omega) (by omega), ltChars_same,
    ltChars_digit (by omega) (by omega), ltChars_digit (by omega) (by omega), ltChars_same]
  simp only [Bool.or_eq_true, Bool.and_eq_true, decide_eq_true_eq, ltChars, Bool.false_eq_true]
  rw [two_digits_lt (a := a.sec), two_digits_lt (a := a.min),
    two_digits_lt (a := a.hour), two_digits_lt (a := a.day),
    two_digits_lt (a := a.month), four_digits_lt (by omega) (by omega)]
  simp [fieldsLt]

theorem daysBeforeYear_mono {y z : Nat} (h : y < z) : daysBeforeYear y + yearLength y ≤ daysBeforeYear z := by
  induction z with
  | zero => omega
  | succ z ih =>
    rw [show daysBeforeYear (z + 1) = daysBeforeYear z + yearLength z from rfl]
    by_cases hz : y = z
    · subst hz; exact Nat.le_refl _
    · have := ih (by omega); omega

theorem daysOfMonths_mono (l : Bool) {m n : Nat} (h : m < n) :
    daysOfMonths l m + monthLength l (m + 1) ≤ daysOfMonths l n := by
  induction n with
  | zero => omega
  | succ n ih =>
    rw [daysOfMonths]
    by_cases hz : m = n
    · subst hz; exact Nat.le_refl _
    · have := ih (by omega); omega

theorem daysOfMonths_year (y : Nat) : daysOfMonths (leap y) 12 = yearLength y := by
  unfold yearLength
  cases leap y <;> decide +kernel

/-- Days within the year. -/
theorem day_of_year {a : Tm} (ha : Instant a) :
    daysOfMonths (leap a.year) (a.month - 1) + (a.day - 1) < yearLength a.year := by
  have h1 := daysOfMonths_mono (leap a.year) (m := a.month - 1) (n := a.month) (by have := ha.month; omega)
  have h2 : daysOfMonths (leap a.year) a.month ≤ daysOfMonths (leap a.year) 12 := by
    by_cases h : a.month = 12
    · rw [h]; exact Nat.le_refl _
    · have := daysOfMonths_mono (leap a.year) (m := a.month) (n := 12) (by have := ha.month; omega); omega
  rw [daysOfMonths_year] at h2
  have h3 : a.month - 1 + 1 = a.month := by have := ha.month; omega
  rw [h3] at h1
  have := ha.day
  omega

theorem fieldsLt_seconds {a b : Tm} (ha : Instant a) (hb : Instant b) (h : fieldsLt a b) : seconds a < seconds b := by
  have hya := day_of_year ha
  have hma := ha.month
  have hmb := hb.month
  have hda := ha.day
  have hdb := hb.day
  have t1 := ha.hour; have t2 := ha.min; have t3 := ha.sec
  unfold seconds
  rcases h with h | ⟨hy, h | ⟨hm, h | ⟨hd, h⟩⟩⟩
  · have := daysBeforeYear_mono h
    generalize daysOfMonths (leap b.year) (b.month - 1) = q at *
    omega
  · rw [← hy]
    have h1 := daysOfMonths_mono (leap a.year) (m := a.month - 1) (n := b.month - 1) (by omega)
    have h3 : a.month - 1 + 1 = a.month := by omega
    rw [h3] at h1
    omega
  · rw [← hy, ← hm]; omega
  · rw [← hy, ← hm, ← hd]; omega

theorem fieldsLt_total {a b : Tm} : fieldsLt a b ∨ a = b ∨ fieldsLt b a := by
  unfold fieldsLt
  by_cases h : a = b
  · exact .inr (.inl h)
  · have : ¬ (a.year = b.year ∧ a.month = b.month ∧ a.day = b.day ∧ a.hour = b.hour ∧ a.min = b.min ∧ a.sec = b.sec) := by
      intro ⟨h1, h2, h3, h4, h5, h6⟩
      exact h (by cases a; cases b; simp_all)
    omega

theorem fieldsLt_iff {a b : Tm} (ha : Instant a) (hb : Instant b) : fieldsLt a b ↔ seconds a < seconds b := by
  refine ⟨fieldsLt_seconds ha hb, fun h => ?_⟩
  rcases fieldsLt_total (a := a) (b := b) with h' | rfl | h'
  · exact h'
  · omega
  · have := fieldsLt_seconds hb ha h'; omega

theorem rfc3339_ne (t : Tm) : rfc3339 t ≠ "" := by
  intro h
  have := congrArg String.toList h
  simp [rfc3339] at this

theorem size_ofList_cons (c : Char) (l : List Char) :
    (String.ofList (c :: l)).utf8ByteSize = c.utf8Size + (String.ofList l).utf8ByteSize := by
  rw [show c :: l = [c] ++ l from rfl, String.ofList_append, String.utf8ByteSize_append, ← String.singleton_eq_ofList,
    String.utf8ByteSize_singleton]

theorem parse_rfc3339 {t : Tm} (h : Instant t) : TimeStamp.parse (rfc3339 t) = some ⟨rfc3339 t⟩ := by
  have hd := monthLength_le (leap t.year) t.month
  obtain ⟨y, m, d, hh, n, s⟩ := h
  have hsize : (rfc3339 t).utf8ByteSize = 20 := by
    simp only [rfc3339, size_ofList_cons]
    rw [(digit_spec (t.year / 1000) (by omega)).2.1, (digit_spec (t.year / 100 % 10) (by omega)).2.1,
      (digit_spec (t.year / 10 % 10) (by omega)).2.1, (digit_spec (t.year % 10) (by omega)).2.1,
      (digit_spec (t.month / 10) (by omega)).2.1, (digit_spec (t.month % 10) (by omega)).2.1,
      (digit_spec (t.day / 10) (by omega)).2.1, (digit_spec (t.day % 10) (by omega)).2.1,
      (digit_spec (t.hour / 10) (by omega)).2.1, (digit_spec (t.hour % 10) (by omega)).2.1,
      (digit_spec (t.min / 10) (by omega)).2.1, (digit_spec (t.min % 10) (by omega)).2.1,
      (digit_spec (t.sec / 10) (by omega)).2.1, (digit_spec (t.sec % 10) (by omega)).2.1]
    decide +kernel
  have hlast : (rfc3339 t).toList.getLast? = some 'Z' := by simp [rfc3339]
  simp [TimeStamp.parse, hsize, hlast]

/-- For well-formed time stamps metadata is expired exactly when its expiry is strictly before
the current instant. -/
theorem C32_chronological (expiry now : Tm) (he : Instant expiry) (hn : Instant now) :
    ∃ e n, TimeStamp.parse (rfc3339 expiry) = some e ∧ TimeStamp.parse (rfc3339 now) = some n ∧
      (e.isExpiredAt n = true ↔ seconds expiry < seconds now) := by
  refine ⟨_, _, parse_rfc3339 he, parse_rfc3339 hn, ?_⟩
  have h1 : TimeStamp.isValid ⟨rfc3339 expiry⟩ = true := by simp [TimeStamp.isValid, rfc3339_ne]
  have h2 : TimeStamp.isValid ⟨rfc3339 now⟩ = true := by simp [TimeStamp.isValid, rfc3339_ne]
  rw [← fieldsLt_iff he hn, ← text_order he hn]
  simp [TimeStamp.isExpiredAt, TimeStamp.lt, h1, h2]

theorem yearDigits_four {y : Nat} (h1 : 1000 ≤ y) (h2 : y < 10000) :
    yearDigits y = [digitChar (y / 1000), digitChar (y / 100 % 10), digitChar (y / 10 % 10), digitChar (y % 10)] := by
  unfold yearDigits
  rw [decDigits, if_neg (by omega), decDigits, if_neg (by omega), decDigits, if_neg (by omega), decDigits, if_pos (by omega)]
  simp [digitChar, Nat.div_div_eq_div_mul]

theorem digitChar_mod (n : Nat) : digitChar (n % 10) = digitChar n := by simp [digitChar]

/-- The current time of the system clock is given this form, from the year 1000 on. -/
theorem C32_now_well_formed (t : Tm) (h : Instant t) (hy : 1000 ≤ t.year) :
    TimeStamp.ofTm t = .ok ⟨rfc3339 t⟩ := by
  have hd := monthLength_le (leap t.year) t.month
  have hp := parse_rfc3339 h
  obtain ⟨y, m, d, hh, n, s⟩ := h
  have htext : timeToString t = .ok (rfc3339 t) := by
    unfold timeToString
    rw [yearDigits_four hy y]
    simp only [twoDigits, rfc3339]
    rw [(digit_spec (t.year / 1000) (by omega)).2.2, (digit_spec (t.year / 100 % 10) (by omega)).2.2,
      (digit_spec (t.year / 10 % 10) (by omega)).2.2, (digit_spec (t.year % 10) (by omega)).2.2,
      (digit_spec (t.month / 10) (by omega)).2.2, (digit_spec (t.month % 10) (by omega)).2.2,
      (digit_spec (t.day / 10) (by omega)).2.2, (digit_spec (t.day % 10) (by omega)).2.2,
      (digit_spec (t.hour / 10) (by omega)).2.2, (digit_spec (t.hour % 10) (by omega)).2.2,
      (digit_spec (t.min / 10) (by omega)).2.2, (digit_spec (t.min % 10) (by omega)).2.2,
      (digit_spec (t.sec / 10) (by omega)).2.2, (digit_spec (t.sec % 10) (by omega)).2.2]
    simp [digitChar_mod]
  unfold TimeStamp.ofTm
  rw [htext]
  simp only [bind, Except.bind, hp]
  rfl

/-- Text of another length or without 'Z' at the end is not accepted as a time stamp, and a time
stamp without text is expired at any time and nothing is unexpired at it. Missing for the full
claim: other malformed text, see `C32_malformed_never_expires`. -/
theorem C32_malformed_partial (s : String) (t : TimeStamp) :
    (s.utf8ByteSize ≠ 20 ∨ s.toList.getLast? ≠ some 'Z' → TimeStamp.parse s = none) ∧
    TimeStamp.isExpiredAt ⟨""⟩ t = true ∧ t.isExpiredAt ⟨""⟩ = true := by
  refine ⟨?_, by simp [TimeStamp.isExpiredAt, TimeStamp.isValid], ?_⟩
  · rintro (h | h) <;> simp [TimeStamp.parse, h]
  · unfold TimeStamp.isExpiredAt
    split
    · rfl
    · simp [TimeStamp.isValid]

/-- Malformed text of the right length that is accepted and does not expire in any four-digit
year. -/
theorem C32_malformed_never_expires : ∃ e, TimeStamp.parse "zzzz-zz-zzTzz:zz:zzZ" = some e ∧
    ∀ now, Instant now → e.isExpiredAt ⟨rfc3339 now⟩ = false := by
  refine ⟨⟨"zzzz-zz-zzTzz:zz:zzZ"⟩, by decide +kernel, fun now h => ?_⟩
  have h2 : TimeStamp.isValid ⟨rfc3339 now⟩ = true := by simp [TimeStamp.isValid, rfc3339_ne]
  have h1 : TimeStamp.isValid ⟨"zzzz-zz-zzTzz:zz:zzZ"⟩ = true := by decide +kernel
  have hy := h.year
  have hd := (digit_spec (now.year / 1000) (by omega)).1
  simp only [TimeStamp.isExpiredAt, h1, h2, Bool.not_true, Bool.false_eq_true, if_false, TimeStamp.lt, Bool.true_and]
  have hz : "zzzz-zz-zzTzz:zz:zzZ".toList = 'z' :: "zzz-zz-zzTzz:zz:zzZ".toList := by decide +kernel
  rw [hz]
  simp only [rfc3339, String.toList_ofList]
  rw [ltChars, hd, show 'z'.toNat = 122 from rfl, if_neg (by omega), if_pos (by omega)]

/-- Beyond the year 9999 the clock gives no time stamp: first an exception, then, as `strftime`
does not have room for the text, undefined behaviour. -/
theorem C32_far_future : TimeStamp.ofTm ⟨10000, 1, 1, 0, 0, 0⟩ = .error (.std "InvalidTimeStamp") ∧
    TimeStamp.ofTm ⟨99999, 12, 31, 23, 59, 59⟩ = .error (.std "InvalidTimeStamp") ∧
    TimeStamp.ofTm ⟨100000, 1, 1, 0, 0, 0⟩ = .error (.ub "strftime") := by
  decide +kernel

/-- Not vacuous: the last second of a leap day and the next one. -/
example : Instant ⟨2024, 2, 29, 23, 59, 59⟩ ∧ Instant ⟨2024, 3, 1, 0, 0, 0⟩ ∧
    rfc3339 ⟨2024, 2, 29, 23, 59, 59⟩ = "2024-02-29T23:59:59Z" ∧
    seconds ⟨2024, 3, 1, 0, 0, 0⟩ = seconds ⟨2024, 2, 29, 23, 59, 59⟩ + 1 := by
  refine ⟨⟨?_, ?_, ?_, ?_, ?_, ?_⟩, ⟨?_, ?_, ?_, ?_, ?_, ?_⟩, ?_, ?_⟩ <;> decide +kernel

/-- The scale of seconds is that of Unix time. -/
example : seconds ⟨2024, 2, 29, 23, 59, 59⟩ - seconds ⟨1970, 1, 1, 0, 0, 0⟩ = 1709251199 := by decide +kernel

end Aktualizr
