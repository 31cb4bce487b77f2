import Verif.Model.Text

/-!
# Textual forms kept in the database: hash lists and result codes
-/

namespace Aktualizr

/-- `Hash::TypeString` (crypto/crypto.cc:720-729). -/
def HashType.text : HashType → String
  | .sha256 => "sha256" | .sha512 => "sha512" | .unknown => "unknown"

/-- One `type:hash` item (tuf.cc:42). -/
def Hash.item (h : Hash) : List Char := h.type.text.toList ++ ':' :: h.hash.toList

/-- `Hash::encodeVector` (uptane/tuf.cc:38-49). -/
def encodeHashes : List Hash → List Char
  | [] => []
  | [h] => h.item
  | h :: hs => h.item ++ ';' :: encodeHashes hs

/-- The loop of `Hash::decodeVector` (tuf.cc:55-80) over the `;`-separated tokens: it stops at
the first empty token or token without a colon. (The C++ loop also stops when the remaining
text is empty, which is the same as the next token being empty.) -/
def decodeTokens : List (List Char) → List Hash
  | [] => []
  | t :: ts =>
    if t = [] then []
    else match cut ':' t with
      | none => []
      | some (ty, value) =>
        let h := Hash.ofStrings (String.ofList ty) (String.ofList value)
        if value ≠ [] ∧ h.type ≠ .unknown then h :: decodeTokens ts else decodeTokens ts

/-- `Hash::decodeVector` (tuf.cc:51-83). -/
def decodeHashes (text : List Char) : List Hash := decodeTokens (pieces ';' text)

/-! ## Result codes -/

/-- `data::ResultCode` (include/libaktualizr/types.h:219-273); the numeric code is an `enum`
with underlying type `int` and may hold any `int`. -/
structure ResultCode where
  num : Int
  text : String := ""
  deriving DecidableEq, Repr

namespace ResultCode

/-- `string_repr` (utilities/types.cc:75-86). -/
def table : List (Int × String) :=
  [(0, "OK"), (1, "ALREADY_PROCESSED"), (3, "VERIFICATION_FAILED"), (4, "INSTALL_FAILED"), (5, "DOWNLOAD_FAILED"),
   (18, "INTERNAL_ERROR"), (19, "GENERAL_ERROR"), (21, "NEED_COMPLETION"), (22, "CUSTOM_ERROR"), (-1, "UNKNOWN")]

/-- `kOk` and so on (types.h:221-241). -/
def ok : ResultCode := ⟨0, ""⟩
def alreadyProcessed : ResultCode := ⟨1, ""⟩
def verificationFailed : ResultCode := ⟨3, ""⟩
def installFailed : ResultCode := ⟨4, ""⟩
def downloadFailed : ResultCode := ⟨5, ""⟩
def internalError : ResultCode := ⟨18, ""⟩
def generalError : ResultCode := ⟨19, ""⟩
def needCompletion : ResultCode := ⟨21, ""⟩
def customError : ResultCode := ⟨22, ""⟩
def unknown : ResultCode := ⟨-1, ""⟩

/-- `toString` (types.h:259-265): `std::map::at` throws for a code without a name. -/
def toText (r : ResultCode) : Except Err String :=
  if r.text ≠ "" then .ok r.text
  else match table.lookup r.num with
    | some s => .ok s
    | none => .error (.std "map::at")

/-- `operator==` (types.h:248), when both texts exist. -/
def same (a b : ResultCode) : Except Err Bool :=
  if a.num ≠ b.num then .ok false
  else do return (← a.toText) == (← b.toText)

/-- `toRepr` (utilities/types.cc:88-96). -/
def toRepr (r : ResultCode) : Except Err (List Char) := do
  let s ← r.toText
  if s.toList.contains '"' then throw (.std "Result code cannot contain double quotes")
  return '"' :: s.toList ++ '"' :: ':' :: decimal r.num

/-- The text after the colon at `col` (types.cc:113-119); `none` when there is none. -/
def finish (s : List Char) (afterColon : Option (List Char)) : Except Err ResultCode :=
  match afterColon with
  | none => .ok ⟨-1, String.ofList s⟩
  | some [] => .ok ⟨-1, String.ofList s⟩
  | some rest => do return ⟨← stoi rest, String.ofList s⟩

/-- `fromRepr` (utilities/types.cc:98-120). A quote that is the last character does not count
as an opening quote (`quote_n < repr.size() - 1`). Without a closing quote the colon is
searched from the beginning (`npos + 1 == 0`) and the text is everything after the quote. -/
def fromRepr (repr : List Char) : Except Err ResultCode :=
  match cut '"' repr with
  | some (_, q :: qs) =>
    match cut '"' (q :: qs) with
    | some (s, rest) => finish s ((cut ':' rest).map Prod.snd)
    | none => finish (q :: qs) ((cut ':' repr).map Prod.snd)
  | _ => match cut ':' repr with
    | none => finish repr none
    | some (s, rest) => finish s (some rest)

end ResultCode

end Aktualizr
