import Verif.Model.Json

/-!
# ASN.1 Canonical Encoding Rules

Models `src/libaktualizr-posix/asn1/asn1-cer.cc` and `asn1-cerstream.cc`.

`char` is signed on some of the platforms and unsigned on others, and the decoder depends on
it: `cs` says whether it is signed. Shifting a negative number to the left, undefined before
C++20, is given the meaning all compilers in use give it. Lengths are below 2^31.
-/

namespace Aktualizr.Cer

abbrev Bytes := List UInt8

/-- How a computation that may not return ends. -/
inductive Stop where
  | err (e : Err)
  /-- The computation needs more steps than it was given. -/
  | unfinished
  deriving DecidableEq, Repr

/-! ## Encoding -/

/-- The loop of `cer_encode_length` (asn1-cer.cc:13-16): least significant byte first. A `size_t`
has at most eight bytes. -/
def lengthBytes : Nat → Nat → Bytes
  | 0, _ => []
  | fuel + 1, len => UInt8.ofNat (len % 256) :: (if len / 256 = 0 then [] else lengthBytes fuel (len / 256))

/-- `cer_encode_length` (asn1-cer.cc:4-22). -/
def encodeLength (len : Nat) : Bytes :=
  if len ≤ 127 then [UInt8.ofNat len]
  else
    let res := lengthBytes 8 len
    (res ++ [UInt8.ofNat res.length ||| 0x80]).reverse

/-- The loop of `cer_encode_integer` (asn1-cer.cc:32-35): bytes, least significant first, and what
is left of the number. `number & 0xFF` is the remainder and `shr8` the quotient of the division
by 256, rounded down. After four steps nothing but the sign is left. -/
def integerBytes : Nat → Int → Bytes × Int
  | 0, n => ([], n)
  | fuel + 1, n =>
    let b := UInt8.ofNat (n % 256).toNat
    let n := n / 256
    if n ≠ 0 ∧ n ≠ -1 then
      let (r, n) := integerBytes fuel n
      (b :: r, n)
    else ([b], n)

/-- `cer_encode_integer` (asn1-cer.cc:29-46): `res[0]` is the least significant byte. -/
def encodeInteger (number : Int) : Bytes :=
  let (res, n) := integerBytes 4 number
  let low := res.headD 0
  let res := if low &&& 0x80 ≠ 0 ∧ n = 0 then res ++ [0x00]
    else if low &&& 0x80 = 0 ∧ n = -1 then res ++ [0xFF] else res
  (res ++ [UInt8.ofNat res.length]).reverse

/-- `CER_MAX_PRIMITIVESTRING` (asn1-cer.h:12). -/
def maxPrimitive : Nat := 1000

/-- The loop of `cer_encode_string` (asn1-cer.cc:61-67) for contents of at most `fuel` bytes. A
chunk is short and encoded as such. -/
def encodeChunks (tag : UInt8) : Nat → Bytes → Bytes
  | 0, _ => []
  | fuel + 1, contents =>
    if contents.isEmpty then []
    else
      let size := if contents.length > maxPrimitive then maxPrimitive else contents.length
      tag :: encodeLength size ++ contents.take size ++ encodeChunks tag fuel (contents.drop size)

/-- `cer_encode_string` (asn1-cer.cc:48-71). -/
def encodeString (contents : Bytes) (tag : UInt8) : Bytes :=
  if contents.length ≤ maxPrimitive then encodeLength contents.length ++ contents
  else 0x80 :: encodeChunks tag contents.length contents ++ [0x00, 0x00]

/-! ## Decoding -/

/-- `content[i]`: the terminating zero may be read, nothing beyond it. -/
def charAt (content : Bytes) (i : Nat) : Except Stop UInt8 :=
  if i < content.length then .ok (content.getD i 0)
  else if i = content.length then .ok 0 else .error (.err (.ub "read past the end"))

/-- The loop of `cer_decode_length` (asn1-cer.cc:91-94). -/
def decodeLengthLoop (content : Bytes) : Nat → Nat → BitVec 32 → Except Stop (BitVec 32)
  | 0, _, res => .ok res
  | k + 1, i, res => do
    let c ← charAt content (i + 1)
    decodeLengthLoop content k (i + 1) ((res <<< 8) ||| c.toBitVec.zeroExtend 32)

/-- `cer_decode_length` (asn1-cer.cc:73-103): the length and `endpos`. -/
def decodeLength (content : Bytes) : Except Stop (Int × Nat) := do
  let c ← charAt content 0
  if c = 0x80 then return (-1, 1)
  if c &&& 0x80 = 0 then return (c.toNat, 1)
  let lenLen := (c &&& 0x7F).toNat
  if lenLen > 4 then return (-2, lenLen + 1)
  let res ← decodeLengthLoop content lenLen 0 0
  return (if res.toInt < 0 then -2 else res.toInt, lenLen + 1)

/-- `std::string::substr`. -/
def substr (s : Bytes) (pos : Nat) : Except Stop Bytes :=
  if pos > s.length then .error (.err (.std "out_of_range")) else .ok (s.drop pos)

/-- What `cer_decode_token` returns: the token and the values left in the output parameters. -/
structure Token where
  tag : UInt8
  endpos : Nat := 0
  int : Option Int := none
  str : Option Bytes := none
  deriving DecidableEq, Repr

def kUnknown : UInt8 := 0xff
def kEndSequence : UInt8 := 0x00
def kSequence : UInt8 := 0x10
def kBoolean : UInt8 := 0x01
def kInteger : UInt8 := 0x02
def kOctetString : UInt8 := 0x04
def kEnum : UInt8 := 0x0a
def kUtf8String : UInt8 := 0x0c

/-- The tags of strings (asn1-cer.cc:182-195). -/
def stringTags : List UInt8 :=
  [0x04, 0x0c, 0x12, 0x13, 0x14, 0x15, 0x16, 0x17, 0x18, 0x19, 0x1a, 0x1b, 0x1c, 0x1d]

/-- A `char` as `int`. -/
def charInt (cs : Bool) (c : UInt8) : BitVec 32 :=
  if cs then c.toBitVec.signExtend 32 else c.toBitVec.zeroExtend 32

/-- The value of the bytes of an integer (asn1-cer.cc:161-173). -/
def integerValue (cs : Bool) (content : Bytes) (tokenLen : Nat) : Int :=
  let res := content.foldl (fun (r : BitVec 32) c => (r <<< 8) ||| charInt cs c) 0
  let res := if content.headD 0 &&& 0x80 ≠ 0 then
      (List.range 4).foldl (fun (r : BitVec 32) i => if tokenLen ≤ i then r ||| (0xff#32 <<< (8 * i)) else r) res
    else res
  res.toInt

mutual

/-- `cer_decode_token` (asn1-cer.cc:105-242), with at most `fuel` nested calls. The recursive call
for the segments of a string passes no place for an integer. -/
def decodeToken (cs : Bool) : Nat → Bytes → Except Stop Token
  | 0, _ => .error .unfinished
  | fuel + 1, ber =>
    if ber.length < 2 then .ok { tag := kUnknown }
    else do
      let first := ber.headD 0
      let tag := first &&& 0x1F
      let constructed := first &&& 0x20 ≠ 0
      let (tokenLen, lenEnd) ← decodeLength (ber.drop 1)
      if tokenLen < -1 then return { tag := kUnknown }
      let content ← if tokenLen = -1 then substr ber 2
        else (·.take tokenLen.toNat) <$> substr ber (1 + lenEnd)
      if first &&& 0xC0 = 0 then
        if tag = kSequence then
          if ¬ constructed then return { tag := kUnknown }
          return { tag := kSequence, endpos := lenEnd + 1, int := some tokenLen }
        else if tag = kEndSequence then
          return { tag := if tokenLen ≠ 0 then kUnknown else kEndSequence }
        else if tag = kInteger ∨ tag = kBoolean ∨ tag = kEnum then
          if constructed ∨ tokenLen = -1 then return { tag := kUnknown }
          if content.length > 4 ∨ content.length < 1 then return { tag := kUnknown }
          return { tag, endpos := 1 + lenEnd + tokenLen.toNat, int := some (integerValue cs content tokenLen.toNat) }
        else if tag ∈ stringTags then
          if tokenLen ≥ 0 then
            return { tag, endpos := 1 + lenEnd + tokenLen.toNat, str := some content }
          else decodeSegments cs fuel tag ber (1 + lenEnd) []
        else return { tag := kUnknown }
      else
        if ¬ constructed then return { tag := kUnknown }
        return { tag := tag ||| (first &&& 0xC0), endpos := lenEnd + 1, int := some tokenLen }

/-- The loop over the segments of a string of indefinite length (asn1-cer.cc:207-226). It is left
by `return`: `*endpos = position` is never reached. -/
def decodeSegments (cs : Bool) : Nat → UInt8 → Bytes → Nat → Bytes → Except Stop Token
  | 0, _, _, _, _ => .error .unfinished
  | fuel + 1, tag, ber, position, acc => do
    let rest ← substr ber position
    let t ← decodeToken cs fuel rest
    if t.tag = kEndSequence then return { tag, str := some acc }
    if t.tag ≠ tag then return { tag := kUnknown, str := some acc }
    decodeSegments cs fuel tag ber (position + t.endpos) (acc ++ t.str.getD [])

end

/-! ## Streams

`Serializer` and `Deserializer` (asn1-cerstream.cc). Optional parts, `restseq` and `peekexpl` are
not modelled. -/

/-- What can be written. -/
inductive Item where
  | int (tag : UInt8) (n : Int)
  | bool (b : Bool)
  | str (tag : UInt8) (s : Bytes)
  | seq
  | endseq
  | expl (fullTag : UInt8)
  | endexpl
  deriving DecidableEq, Repr

/-- `Serializer::operator<<` (asn1-cerstream.cc:5-49). -/
def serializeItem : Item → Bytes
  | .int tag n => tag :: encodeInteger n
  | .bool b => kBoolean :: encodeInteger (if b then 1 else 0)
  | .str tag s => tag :: encodeString s tag
  | .seq => [0x30, 0x80]
  | .endseq | .endexpl => [0x00, 0x00]
  | .expl fullTag => [fullTag ||| 0x20, 0x80]

def serialize (items : List Item) : Bytes := items.flatMap serializeItem

/-- `Deserializer` (asn1-cerstream.h:122-143); the top of the stacks comes first. -/
structure Des where
  data : Bytes
  lengths : List Int := []
  consumed : List Int := []
  intParam : Int := 0
  strParam : Bytes := []
  deriving DecidableEq, Repr

/-- What is asked for. -/
inductive Want where
  | int (tag : UInt8)
  | bool
  | str (tag : UInt8)
  | seq
  | endseq
  | expl (fullTag : UInt8)
  | endexpl
  deriving DecidableEq, Repr

def deserError : Stop := .err (.std "deserialization_error")

/-- `Deserializer::operator>>(ASN1_UniversalTag)` (asn1-cerstream.cc:72-101), outside of optional
parts. -/
def readTag (cs : Bool) (fuel : Nat) (d : Des) (tag : UInt8) : Except Stop Des := do
  let t ← decodeToken cs fuel d.data
  let d := { d with intParam := t.int.getD d.intParam, strParam := t.str.getD d.strParam }
  if tag ≠ t.tag then throw deserError
  let d ← match d.lengths, d.consumed with
    | l :: _, c :: cs' =>
      if l > 0 then
        if c + t.endpos > l then throw deserError else pure { d with consumed := (c + t.endpos) :: cs' }
      else pure d
    | _, _ => pure d
  return { d with data := ← substr d.data t.endpos }

/-- Beginning of a sequence or an explicitly tagged value (asn1-cerstream.cc:119-138, 220-240). -/
def readOpen (cs : Bool) (fuel : Nat) (d : Des) (tag : UInt8) : Except Stop Des := do
  let t ← decodeToken cs fuel d.data
  if tag ≠ t.tag then throw deserError
  return { d with data := ← substr d.data t.endpos, lengths := t.int.getD 0 :: d.lengths, consumed := 0 :: d.consumed }

/-- End of a sequence or an explicitly tagged value (asn1-cerstream.cc:140-164). -/
def readClose (cs : Bool) (fuel : Nat) (d : Des) : Except Stop Des := do
  match d.lengths, d.consumed with
  | len :: lengths, cons :: consumed =>
    let (data, cons) ← if len ≥ 0 then
        if cons ≠ len then throw deserError else pure (d.data, cons)
      else do
        let t ← decodeToken cs fuel d.data
        if t.tag ≠ kEndSequence then throw deserError
        pure (← substr d.data t.endpos, cons + t.endpos)
    let consumed := match consumed with
      | [] => []
      | c :: r => (c + cons + 2) :: r
    return { d with data, lengths, consumed }
  | _, _ => throw (.err (.ub "top of an empty stack"))

/-- One `>>`: what was read, if it is a value. -/
def readItem (cs : Bool) (fuel : Nat) (d : Des) : Want → Except Stop (Item × Des)
  | .int tag => do
    let d ← readTag cs fuel d tag
    return (.int tag d.intParam, d)
  | .bool => do
    let d ← readTag cs fuel d kBoolean
    return (.bool (d.intParam ≠ 0), d)
  | .str tag => do
    let d ← readTag cs fuel d tag
    return (.str tag d.strParam, d)
  | .seq => do return (.seq, ← readOpen cs fuel d kSequence)
  | .endseq => do return (.endseq, ← readClose cs fuel d)
  | .expl fullTag => do return (.expl fullTag, ← readOpen cs fuel d fullTag)
  | .endexpl => do return (.endexpl, ← readClose cs fuel d)

/-- A chain of `>>`. -/
def deserialize (cs : Bool) (fuel : Nat) (d : Des) : List Want → Except Stop (List Item × Des)
  | [] => .ok ([], d)
  | w :: ws => do
    let (i, d) ← readItem cs fuel d w
    let (is, d) ← deserialize cs fuel d ws
    return (i :: is, d)

end Aktualizr.Cer
