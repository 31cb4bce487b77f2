/-!
# JSON values and the jsoncpp accessors used by aktualizr

aktualizr reads all Uptane metadata through jsoncpp (`Json::Value`).  jsoncpp is not part
of `/repo`; this file states the accessor behaviour the sources rely on.  Accessors that
throw `Json::LogicError` / `Json::RuntimeError` in jsoncpp throw `Err.std` here.

Simplifications: object members are kept in a list in iteration order (jsoncpp keeps a
`std::map`, so keys are unique and sorted; nothing here assumes it); floating point
values are represented only by what the accessors can observe.
-/

namespace Aktualizr

/-- Kinds of `Uptane::Exception` (src/libaktualizr/uptane/exceptions.h:9-180) that the
modelled code throws, without their messages except the role concerned. -/
inductive UptErr where
  | metadataFetchFailure (role : String)
  | security (what : String)
  | targetContentMismatch
  | illegalThreshold
  | unmetThreshold (role : String)
  | expiredMetadata (role : String)
  | invalidMetadata (role : String)
  | targetMismatch
  | nonUniqueSignatures (role : String)
  | badKeyId
  | badEcuId
  | badHardwareId
  | rootRotationError
  | versionMismatch (role : String)
  | delegationHashMismatch (role : String)
  | delegationMissing (role : String)
  | invalidTarget
  | reservedRoleName
  deriving DecidableEq, Repr

/-- What can leave a C++ function other than a normal return.
* `upt`  : an `Uptane::Exception`;
* `std`  : any other `std::exception`;
* `crash`: the process is killed here (power loss); no C++ handler sees it;
* `ub`   : undefined behaviour has been reached. -/
inductive Err where
  | upt (e : UptErr)
  | std (what : String)
  | crash
  | ub (what : String)
  deriving DecidableEq, Repr

/-- `catch (const std::exception &)` would catch it. -/
def Err.isStd : Err → Bool
  | .upt _ => true
  | .std _ => true
  | _ => false

/-- `catch (const Uptane::Exception &)` would catch it. -/
def Err.isUpt : Err → Bool
  | .upt _ => true
  | _ => false

deriving instance DecidableEq for Except

/-- `if (b) throw e;` -/
def throwIf (b : Bool) (e : Err) : Except Err Unit := if b then .error e else .ok ()

/-- A `Json::Value`. `real` carries the observable behaviour of a double: its truncation,
whether it is integral, whether it is non-zero and its printed form. -/
inductive Json where
  | null
  | bool (b : Bool)
  | int (i : Int)
  | real (trunc : Int) (integral : Bool) (nonzero : Bool) (repr : String)
  | str (s : String)
  | arr (xs : List Json)
  | obj (kvs : List (String × Json))

/-- ASCII lower-casing, `std::transform(..., ::tolower)` /
`boost::algorithm::to_lower_copy` in the "C" locale
(e.g. src/libaktualizr/uptane/role.cc:15, metawithkeys.cc:14,87). -/
def lower (s : String) : String := String.ofList (s.toList.map Char.toLower)

/-- ASCII upper-casing, `boost::algorithm::to_upper_copy`
(src/libaktualizr/crypto/crypto.cc:706). -/
def upper (s : String) : String := String.ofList (s.toList.map Char.toUpper)

namespace Json

/-- `Json::Value::isObject` (strict: `null` is not an object). -/
def isObject : Json → Bool
  | .obj _ => true
  | _ => false

/-- `Json::Value::isString`. -/
def isString : Json → Bool
  | .str _ => true
  | _ => false

/-- `Json::Value::isIntegral`. -/
def isIntegral : Json → Bool
  | .int _ => true
  | .real _ integral _ _ => integral
  | _ => false

/-- Const `Json::Value::operator[](key)`: `null` for a missing member and for a `null`
value, throws `Json::LogicError` on any other non-object. -/
def get (j : Json) (k : String) : Except Err Json :=
  match j with
  | .null => .ok .null
  | .obj kvs => .ok ((kvs.lookup k).getD .null)
  | _ => .error (.std "Json::LogicError: operator[] requires object")

/-- `Json::Value::isMember`: throws on values that are neither `null` nor an object. -/
def isMember (j : Json) (k : String) : Except Err Bool :=
  match j with
  | .null => .ok false
  | .obj kvs => .ok (kvs.lookup k).isSome
  | _ => .error (.std "Json::LogicError: find requires object")

/-- `Json::Value::asString`. -/
def asString : Json → Except Err String
  | .null => .ok ""
  | .bool b => .ok (if b then "true" else "false")
  | .int i => .ok (toString i)
  | .real _ _ _ r => .ok r
  | .str s => .ok s
  | .arr _ => .error (.std "Json::LogicError: Type is not convertible to string")
  | .obj _ => .error (.std "Json::LogicError: Type is not convertible to string")

/-- Range-checked integer conversion shared by `asInt`, `asInt64`, `asUInt64`. -/
def asIntIn (lo hi : Int) : Json → Except Err Int
  | .null => .ok 0
  | .bool b => .ok (if b then 1 else 0)
  | .int i => if lo ≤ i ∧ i ≤ hi then .ok i else .error (.std "Json::LogicError: out of range")
  | .real t _ _ _ => if lo ≤ t ∧ t ≤ hi then .ok t else .error (.std "Json::LogicError: out of range")
  | _ => .error (.std "Json::LogicError: Value is not convertible to Int")

/-- `Json::Value::asInt` (32 bit). -/
def asInt (j : Json) : Except Err Int := j.asIntIn (-2147483648) 2147483647

/-- `Json::Value::asInt64`. -/
def asInt64 (j : Json) : Except Err Int := j.asIntIn (-9223372036854775808) 9223372036854775807

/-- `Json::Value::asUInt64`. -/
def asUInt64 (j : Json) : Except Err Int := j.asIntIn 0 18446744073709551615

/-- `Json::Value::asBool`. -/
def asBool : Json → Except Err Bool
  | .null => .ok false
  | .bool b => .ok b
  | .int i => .ok (i != 0)
  | .real _ _ nz _ => .ok nz
  | _ => .error (.std "Json::LogicError: Value is not convertible to bool")

/-- Index/value pairs of an array, keys printed as decimal numbers. -/
def numbered (n : Nat) : List Json → List (String × Json)
  | [] => []
  | x :: xs => (toString n, x) :: numbered (n + 1) xs

/-- The pairs (`it.key().asString()`, `*it`) met by `for (it = begin(); it != end(); ++it)`:
members of an object, elements of an array, nothing for any other value. -/
def entries : Json → List (String × Json)
  | .obj kvs => kvs
  | .arr xs => numbered 0 xs
  | _ => []

/-- The values met by the same loop. -/
def elems (j : Json) : List Json := j.entries.map Prod.snd

/-- `Json::Value::size`. -/
def size (j : Json) : Nat := j.entries.length

/-- `json == "text"` / `json != "text"` against a string literal. -/
def isStr (j : Json) (s : String) : Bool :=
  match j with
  | .str t => t == s
  | _ => false

end Json

end Aktualizr
