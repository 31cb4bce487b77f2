import Verif.Model.Tuf

/-!
# Text helpers of the C++ standard library used by the sources

Texts are lists of characters here. C++ works on bytes; for the separators concerned (all
ASCII) splitting bytes and splitting code points is the same.
-/

namespace Aktualizr

/-- `std::to_string(int)` / `operator<<(int)`. -/
def decimal (i : Int) : List Char :=
  if i < 0 then '-' :: Nat.toDigits 10 i.natAbs else Nat.toDigits 10 i.natAbs

/-- `isspace` in the "C" locale. -/
def isSpace (c : Char) : Bool := c == ' ' || (9 ≤ c.toNat && c.toNat ≤ 13)

/-- The digits read by `strtol` with base 10. -/
def leadingDigits (l : List Char) : List Char := l.takeWhile Char.isDigit

/-- The optional sign read by `strtol`. -/
def signOf : List Char → Bool × List Char
  | [] => (false, [])
  | c :: cs => if c = '-' then (true, cs) else if c = '+' then (false, cs) else (false, c :: cs)

/-- `std::stoi(text)`: leading white space and an optional sign are skipped, at least one digit
is required, text after the digits is ignored, the value must fit an `int`. -/
def stoi (text : List Char) : Except Err Int :=
  let p := signOf (text.dropWhile isSpace)
  let ds := leadingDigits p.2
  if ds = [] then .error (.std "stoi")
  else
    let v : Int := if p.1 then -(Nat.ofDigitChars 10 ds 0 : Nat) else (Nat.ofDigitChars 10 ds 0 : Nat)
    if v < -2147483648 ∨ 2147483647 < v then .error (.std "stoi out of range") else .ok v

/-- `s.find(c)` as the text before and after the first occurrence. -/
def cut (sep : Char) : List Char → Option (List Char × List Char)
  | [] => none
  | c :: cs => if c = sep then some ([], cs) else (cut sep cs).map (fun p => (c :: p.1, p.2))

/-- The pieces between separators. -/
def pieces (sep : Char) : List Char → List (List Char)
  | [] => [[]]
  | c :: cs => if c = sep then [] :: pieces sep cs
    else match pieces sep cs with
      | [] => [[c]]
      | p :: ps => (c :: p) :: ps

end Aktualizr
