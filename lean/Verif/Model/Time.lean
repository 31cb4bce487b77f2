import Verif.Model.Tuf

/-!
# Time stamps made from broken-down time

Models `TimeToString` and `TimeStamp::TimeStamp(struct tm)` of `utilities/types.cc`. The system
clock and `gmtime_r` are not modelled: the broken-down time is an input.
-/

namespace Aktualizr

/-- `struct tm`, with the year counted from zero and months from one. -/
structure Tm where
  year : Nat
  month : Nat
  day : Nat
  hour : Nat
  min : Nat
  sec : Nat
  deriving DecidableEq, Repr

def digitChar (n : Nat) : Char := Char.ofNat (48 + n % 10)

/-- `%m`, `%d`, `%H`, `%M`, `%S`. -/
def twoDigits (n : Nat) : List Char := [digitChar (n / 10), digitChar n]

/-- Decimal digits without leading zeros, at most `fuel + 1` of them. -/
def decDigits : Nat → Nat → List Char
  | 0, n => [digitChar n]
  | fuel + 1, n => if n < 10 then [digitChar n] else decDigits fuel (n / 10) ++ [digitChar n]

/-- `%Y`: decimal, without leading zeros. The year of a `struct tm` has at most ten digits. -/
def yearDigits (y : Nat) : List Char := decDigits 10 y

/-- `TimeToString` (utilities/types.cc:26-30). `strftime` writes at most 21 characters; if that is
not enough, what is in the array is unspecified. -/
def timeToString (t : Tm) : Except Err String :=
  let text := yearDigits t.year ++ '-' :: twoDigits t.month ++ '-' :: twoDigits t.day ++
    'T' :: twoDigits t.hour ++ ':' :: twoDigits t.min ++ ':' :: twoDigits t.sec ++ ['Z']
  if text.length > 21 then .error (.ub "strftime") else .ok (String.ofList text)

/-- `TimeStamp::TimeStamp(struct tm)` (utilities/types.cc:50). -/
def TimeStamp.ofTm (t : Tm) : Except Err TimeStamp := do
  match TimeStamp.parse (← timeToString t) with
  | none => throw (.std "InvalidTimeStamp")
  | some ts => return ts

end Aktualizr
