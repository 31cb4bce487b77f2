/-!
# Which integers survive the CER encoder and decoder

The decoder keeps the encoding of a number apart from that of another one only when the sign it takes from the most
significant byte is that of the number, and the encoder looks at the least significant byte to see to it. What is
left is said here of the numbers themselves, without bytes of an encoding.
-/

namespace Aktualizr.Spec

/-- How far a number is from 0 or, if it is negative, from -1. -/
def reach (n : Int) : Nat := (if 0 ≤ n then n else -1 - n).toNat

/-- The numbers that come back, by whether `char` is signed. -/
def ComesBack (cs : Bool) (n : Int) : Prop :=
  if cs then
    (0 ≤ n ∧ reach n % 256 < 128 ∧ reach n / 256 % 256 < 128 ∧ reach n / 65536 % 256 < 128) ∨
    (n < 0 ∧ (reach n < 256 ∨ (reach n % 256 ≥ 128 ∧ reach n < 32768) ∨
      (reach n % 256 ≥ 128 ∧ reach n / 256 % 256 ≥ 128 ∧ reach n < 16777216)))
  else
    (reach n % 256 ≥ 128 ∧ reach n < 16777216) ∨
    (reach n % 256 < 128 ∧ (reach n < 128 ∨ (256 ≤ reach n ∧ reach n < 32768) ∨
      (65536 ≤ reach n ∧ reach n < 8388608) ∨ 16777216 ≤ reach n))

instance (cs : Bool) (n : Int) : Decidable (ComesBack cs n) := by unfold ComesBack; infer_instance

end Aktualizr.Spec
