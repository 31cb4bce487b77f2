import Verif.Model.Json

/-!
# Utilities

Models parts of `src/libaktualizr/utilities/utils.cc`: Base64, URL encoding, replacement of files.
-/

namespace Aktualizr.Util

abbrev Bytes := List UInt8

/-! ## Base64 -/

/-- The bits of a value, most significant first. -/
def toBits : Nat → Nat → List Bool
  | 0, _ => []
  | k + 1, v => decide (v / 2 ^ k % 2 = 1) :: toBits k v

/-- The value of bits, most significant first. -/
def ofBits (l : List Bool) : Nat := l.foldl (fun v b => 2 * v + b.toNat) 0

/-- `boost::archive::iterators::transform_width<_, 6, 8>` at the level of bits: groups of six, the
last filled with zeros. -/
def groups6 : List Bool → List Nat
  | [] => []
  | a :: b :: c :: d :: e :: f :: rest => ofBits [a, b, c, d, e, f] :: groups6 rest
  | l => [ofBits ((l ++ List.replicate 6 false).take 6)]

/-- `transform_width<_, 8, 6>`: groups of eight, left over bits are dropped. -/
def groups8 : List Bool → List Nat
  | a :: b :: c :: d :: e :: f :: g :: h :: rest => ofBits [a, b, c, d, e, f, g, h] :: groups8 rest
  | _ => []

/-- `base64_from_binary`: the alphabet of RFC 4648. -/
def b64Char (v : Nat) : UInt8 :=
  if v < 26 then UInt8.ofNat (65 + v)
  else if v < 52 then UInt8.ofNat (97 + (v - 26))
  else if v < 62 then UInt8.ofNat (48 + (v - 52))
  else if v = 62 then 43 else 47

/-- `binary_from_base64`, which throws on other characters. -/
def b64Value (c : UInt8) : Option Nat :=
  if 65 ≤ c ∧ c ≤ 90 then some (c.toNat - 65)
  else if 97 ≤ c ∧ c ≤ 122 then some (c.toNat - 97 + 26)
  else if 48 ≤ c ∧ c ≤ 57 then some (c.toNat - 48 + 52)
  else if c = 43 then some 62 else if c = 47 then some 63 else none

/-- `Utils::toBase64` (utils.cc:201-205). -/
def toBase64 (s : Bytes) : Bytes :=
  (groups6 (s.flatMap (fun b => toBits 8 b.toNat))).map b64Char ++ List.replicate ((3 - s.length % 3) % 3) 61

/-- `std::isspace`. -/
def isSpace (c : UInt8) : Bool := c == 32 || (9 ≤ c && c ≤ 13)

/-- Values of the characters, in order; throws at the first that is none. -/
def b64Values : Bytes → Except Err (List Nat)
  | [] => .ok []
  | c :: cs => match b64Value c with
    | none => .error (.std "dataflow_exception")
    | some v => do return v :: (← b64Values cs)

/-- `Utils::fromBase64` (utils.cc:193-199). `remove_whitespace` looks for the next character beyond
the end of the text when white space is left at the end, and so does `transform_width` when a
single character is left after groups of four: undefined behaviour. So is erasing more
characters than there are. -/
def fromBase64 (text : Bytes) : Except Err Bytes := do
  let padding := text.count 61
  let replaced := text.map (fun c => if c = 61 then 65 else c)
  let values ← b64Values (replaced.filter (fun c => !isSpace c))
  if replaced.getLast?.any isSpace || values.length % 4 == 1 then .error (.ub "read past the end")
  else
    let result := (groups8 (values.flatMap (toBits 6))).map UInt8.ofNat
    if padding > result.length then .error (.ub "erase before the beginning")
    else .ok (result.take (result.length - padding))

/-! ## URL encoding -/

/-- Characters left as they are (utils.cc:801-802). A `char` above 127 is negative and in none of
the ranges. -/
def urlPlain (c : UInt8) : Bool :=
  (65 ≤ c && c ≤ 90) || (97 ≤ c && c ≤ 122) || (48 ≤ c && c ≤ 57) || c == 45 || c == 46 || c == 95 || c == 126 || c == 47

/-- A hexadecimal digit (utils.cc:807, 809). -/
def urlNibble (n : Nat) : UInt8 := if n < 10 then UInt8.ofNat (n + 48) else UInt8.ofNat (n - 10 + 65)

/-- `Utils::urlEncode` (utils.cc:797-814). -/
def urlEncode : Bytes → Bytes
  | [] => []
  | c :: cs =>
    if urlPlain c then c :: urlEncode cs
    else 37 :: urlNibble (c.toNat / 16) :: urlNibble (c.toNat % 16) :: urlEncode cs

/-! ## Replacement of files -/

/-- A directory: names to contents. -/
abbrev Files := String → Option Bytes

def Files.set (fs : Files) (name : String) (c : Option Bytes) : Files := fun n => if n = name then c else fs n

/-- The states a directory goes through in `Utils::writeFile` (utils.cc:326-340), when the file
system takes the first `kept` bytes of the content: the new file is opened, filled bit by bit,
and renamed. The results of writing and closing are not looked at. -/
def writeFileStates (fs : Files) (name : String) (content : Bytes) (kept : Nat) : List Files :=
  let tmp := name ++ ".new"
  let written := content.take kept
  fs ::
    (List.range (written.length + 1)).map (fun k => fs.set tmp (some (written.take k))) ++
    [(fs.set tmp none).set name (some written)]

/-- `Utils::readFile` without trimming (utils.cc:274-289): the content and the directory
afterwards; a file that cannot be opened reads as empty. -/
def readFile (fs : Files) (name : String) : Bytes × Files := ((fs name).getD [], fs.set (name ++ ".new") none)

end Aktualizr.Util
