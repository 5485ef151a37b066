import Verif.Model.Text
import Verif.Model.Value
/-!
# Conversions between `Value` and Rust types

Models /repo/src/model/into.rs, from.rs and the `Display` of value.rs.
-/
namespace Verif

/-! ## TryInto -/

/-- /repo/src/model/errors.rs:73-80 `conversion_error!` without a reason. -/
def notSupported (source target : String) : ModelError :=
  .conversionError source target "conversion not supported"

/-- /repo/src/model/into.rs:28-33 `to_number!`: `<$to>::try_from($value)` with the error naming `$from`. -/
def toNumber (n : Int) (source : String) (t : IntTy) : Except ModelError (IntOf t) :=
  match t.tryFrom n with
  | some v => .ok v
  | none => .error (.conversionError source t.name "Number value is out of target bounds")

/-- `match value.parse::<T>() { Ok(v) => Ok(v), Err(_) => err_conversion_error!(String, T, "can't parse string") }`:
/repo/src/model/into.rs:49-52 and the same lines of the other integer types. -/
def parseArm (t : IntTy) (s : String) : Except ModelError (IntOf t) :=
  match parseInt t s with
  | some v => .ok v
  | none => .error (.conversionError "String" t.name "can't parse string")

/-- `value as T` from `bool`: /repo/src/model/into.rs:48 and the same line of the other integer types. -/
def boolToInt (t : IntTy) (b : Bool) : IntOf t := if b then ⟨1, by cases t <;> decide⟩ else IntOf.zero t

/-- /repo/src/model/into.rs:5-26 `TryInto<bool>`. -/
def Value.tryIntoBool : Value → Except ModelError Bool
  | .boolean v => .ok v
  | .integer v => .ok (v.1 != 0)
  | .longInteger v => .ok (v.1 != 0)
  | .uInteger v => .ok (v.1 != 0)
  | .uLongInteger v => .ok (v.1 != 0)
  | .float v => .ok v.1.neZero
  | .string s =>
    if toLowercase s = "true" then .ok true
    else if toLowercase s = "false" then .ok false
    else .error (.conversionError "String" "bool" "can't parse string as boolean")
  | .none => .error (notSupported "None" "bool")
  | .array _ => .error (notSupported "Array" "bool")
  | .map _ => .error (notSupported "Map" "bool")

/-- /repo/src/model/into.rs:35-58 `TryInto<i8>`. -/
def Value.tryIntoI8 : Value → Except ModelError (IntOf .i8)
  | .integer v => toNumber v.1 "i64" .i8
  | .longInteger v => toNumber v.1 "i128" .i8
  | .uInteger v => toNumber v.1 "u64" .i8
  | .uLongInteger v => toNumber v.1 "u128" .i8
  | .float v => toNumber (v.1.castTo .i128).1 "f64" .i8   -- `let val = value as i128`
  | .boolean v => .ok (boolToInt .i8 v)
  | .string s => parseArm .i8 s
  | .none => .error (notSupported "None" "i8")
  | .array _ => .error (notSupported "Array" "i8")
  | .map _ => .error (notSupported "Map" "i8")

/-- /repo/src/model/into.rs:60-83 `TryInto<i16>`. -/
def Value.tryIntoI16 : Value → Except ModelError (IntOf .i16)
  | .integer v => toNumber v.1 "i64" .i16
  | .longInteger v => toNumber v.1 "i128" .i16
  | .uInteger v => toNumber v.1 "u64" .i16
  | .uLongInteger v => toNumber v.1 "u128" .i16
  | .float v => toNumber (v.1.castTo .i128).1 "f64" .i16   -- `let val = value as i128`
  | .boolean v => .ok (boolToInt .i16 v)
  | .string s => parseArm .i16 s
  | .none => .error (notSupported "None" "i16")
  | .array _ => .error (notSupported "Array" "i16")
  | .map _ => .error (notSupported "Map" "i16")

/-- /repo/src/model/into.rs:85-108 `TryInto<i32>`. -/
def Value.tryIntoI32 : Value → Except ModelError (IntOf .i32)
  | .integer v => toNumber v.1 "i64" .i32
  | .longInteger v => toNumber v.1 "i128" .i32
  | .uInteger v => toNumber v.1 "u64" .i32
  | .uLongInteger v => toNumber v.1 "u128" .i32
  | .float v => toNumber (v.1.castTo .i128).1 "f64" .i32   -- `let val = value as i128`
  | .boolean v => .ok (boolToInt .i32 v)
  | .string s => parseArm .i32 s
  | .none => .error (notSupported "None" "i32")
  | .array _ => .error (notSupported "Array" "i32")
  | .map _ => .error (notSupported "Map" "i32")

/-- /repo/src/model/into.rs:110-130 `TryInto<i64>`. -/
def Value.tryIntoI64 : Value → Except ModelError (IntOf .i64)
  | .integer v => .ok v
  | .longInteger v => toNumber v.1 "i128" .i64
  | .uInteger v => toNumber v.1 "u64" .i64
  | .uLongInteger v => toNumber v.1 "u128" .i64
  | .float v => .ok (v.1.castTo .i64)
  | .boolean v => .ok (boolToInt .i64 v)
  | .string s => parseArm .i64 s
  | .none => .error (notSupported "None" "i64")
  | .array _ => .error (notSupported "Array" "i64")
  | .map _ => .error (notSupported "Map" "i64")

/-- /repo/src/model/into.rs:132-152 `TryInto<i128>`. -/
def Value.tryIntoI128 : Value → Except ModelError (IntOf .i128)
  | .integer v => .ok (IntTy.wrap .i128 v.1)   -- `value as i128`
  | .longInteger v => .ok v
  | .uInteger v => .ok (IntTy.wrap .i128 v.1)   -- `value as i128`
  | .uLongInteger v => toNumber v.1 "u128" .i128
  | .float v => .ok (v.1.castTo .i128)
  | .boolean v => .ok (boolToInt .i128 v)
  | .string s => parseArm .i128 s
  | .none => .error (notSupported "None" "i128")
  | .array _ => .error (notSupported "Array" "i128")
  | .map _ => .error (notSupported "Map" "i128")

/-- /repo/src/model/into.rs:154-177 `TryInto<u8>`. -/
def Value.tryIntoU8 : Value → Except ModelError (IntOf .u8)
  | .integer v => toNumber v.1 "i64" .u8
  | .longInteger v => toNumber v.1 "i128" .u8
  | .uInteger v => toNumber v.1 "u64" .u8
  | .uLongInteger v => toNumber v.1 "u128" .u8
  | .float v => toNumber (v.1.castTo .i128).1 "f64" .u8   -- `let val = value as i128`
  | .boolean v => .ok (boolToInt .u8 v)
  | .string s => parseArm .u8 s
  | .none => .error (notSupported "None" "u8")
  | .array _ => .error (notSupported "Array" "u8")
  | .map _ => .error (notSupported "Map" "u8")

/-- /repo/src/model/into.rs:179-202 `TryInto<u16>`. -/
def Value.tryIntoU16 : Value → Except ModelError (IntOf .u16)
  | .integer v => toNumber v.1 "i64" .u16
  | .longInteger v => toNumber v.1 "i128" .u16
  | .uInteger v => toNumber v.1 "u64" .u16
  | .uLongInteger v => toNumber v.1 "u128" .u16
  | .float v => toNumber (v.1.castTo .i128).1 "f64" .u16   -- `let val = value as i128`
  | .boolean v => .ok (boolToInt .u16 v)
  | .string s => parseArm .u16 s
  | .none => .error (notSupported "None" "u16")
  | .array _ => .error (notSupported "Array" "u16")
  | .map _ => .error (notSupported "Map" "u16")

/-- /repo/src/model/into.rs:204-227 `TryInto<u32>`. -/
def Value.tryIntoU32 : Value → Except ModelError (IntOf .u32)
  | .integer v => toNumber v.1 "i64" .u32
  | .longInteger v => toNumber v.1 "i128" .u32
  | .uInteger v => toNumber v.1 "u64" .u32
  | .uLongInteger v => toNumber v.1 "u128" .u32
  | .float v => toNumber (v.1.castTo .i128).1 "f64" .u32   -- `let val = value as i128`
  | .boolean v => .ok (boolToInt .u32 v)
  | .string s => parseArm .u32 s
  | .none => .error (notSupported "None" "u32")
  | .array _ => .error (notSupported "Array" "u32")
  | .map _ => .error (notSupported "Map" "u32")

/-- /repo/src/model/into.rs:229-249 `TryInto<u64>`. -/
def Value.tryIntoU64 : Value → Except ModelError (IntOf .u64)
  | .integer v => toNumber v.1 "i64" .u64
  | .longInteger v => toNumber v.1 "i128" .u64
  | .uInteger v => .ok v
  | .uLongInteger v => toNumber v.1 "u128" .u64
  | .float v => .ok (v.1.castTo .u64)
  | .boolean v => .ok (boolToInt .u64 v)
  | .string s => parseArm .u64 s
  | .none => .error (notSupported "None" "u64")
  | .array _ => .error (notSupported "Array" "u64")
  | .map _ => .error (notSupported "Map" "u64")

/-- /repo/src/model/into.rs:251-274 `TryInto<u128>`. -/
def Value.tryIntoU128 : Value → Except ModelError (IntOf .u128)
  | .integer v => toNumber v.1 "i64" .u128
  | .longInteger v => toNumber v.1 "i128" .u128
  | .uInteger v => .ok (IntTy.wrap .u128 v.1)   -- `value as u128`
  | .uLongInteger v => .ok v
  | .float v => toNumber (v.1.castTo .i128).1 "f64" .u128   -- `let val = value as i128`
  | .boolean v => .ok (boolToInt .u128 v)
  | .string s => parseArm .u128 s
  | .none => .error (notSupported "None" "u128")
  | .array _ => .error (notSupported "Array" "u128")
  | .map _ => .error (notSupported "Map" "u128")

/-- The integer conversion selected by the requested type (Rust's trait resolution). Needed for /repo/src/model/into.rs:35-274. -/
def Value.tryIntoInt (t : IntTy) (v : Value) : Except ModelError (IntOf t) :=
  match t with
  | .i8 => v.tryIntoI8
  | .i16 => v.tryIntoI16
  | .i32 => v.tryIntoI32
  | .i64 => v.tryIntoI64
  | .i128 => v.tryIntoI128
  | .u8 => v.tryIntoU8
  | .u16 => v.tryIntoU16
  | .u32 => v.tryIntoU32
  | .u64 => v.tryIntoU64
  | .u128 => v.tryIntoU128

/-- /repo/src/model/into.rs:276-296 `TryInto<f64>`. -/
def Value.tryIntoF64 : Value → Except ModelError F64
  | .float v => .ok v
  | .integer v => .ok (F64.ofInt v.1)
  | .longInteger v => .ok (F64.ofInt v.1)
  | .uInteger v => .ok (F64.ofInt v.1)
  | .uLongInteger v => .ok (F64.ofInt v.1)
  | .boolean v => .ok (F64.ofInt (boolToInt .i64 v).1)
  | .string s => match parseF64 s with
    | some v => .ok v
    | Option.none => .error (.conversionError "String" "f64" "can't parse string")
  | .none => .error (notSupported "None" "f64")
  | .array _ => .error (notSupported "Array" "f64")
  | .map _ => .error (notSupported "Map" "f64")

/-- `match to_number!(value, $from, u8) { Ok(v) => Ok(v as char), Err(e) => Err(e) }`:
/repo/src/model/into.rs:309-324. -/
def byteToChar (n : Int) (source : String) : Except ModelError Char :=
  match toNumber n source .u8 with
  | .ok v => .ok (Char.ofNat v.1.toNat)
  | .error e => .error e

/-- /repo/src/model/into.rs:298-330 `TryInto<char>` (the `ULongInteger` arm does say `i64`: line 321). -/
def Value.tryIntoChar : Value → Except ModelError Char
  | .string s => match s.toList with
    | c :: _ => .ok c
    | [] => .error (.conversionError "String" "char" "can't parse string")
  | .none => .error (notSupported "None" "char")
  | .boolean v => .ok (if v then '1' else '0')
  | .integer v => byteToChar v.1 "i64"
  | .longInteger v => byteToChar v.1 "i128"
  | .uInteger v => byteToChar v.1 "u64"
  | .uLongInteger v => byteToChar v.1 "i64"
  | .float _ => .error (notSupported "Float" "char")
  | .array _ => .error (notSupported "Array" "char")
  | .map _ => .error (notSupported "Map" "char")

/-- std `impl Display for bool`. Needed for /repo/src/model/into.rs:343, /repo/src/model/value.rs:24. -/
def boolText (b : Bool) : String := if b then "true" else "false"

/-- /repo/src/model/into.rs:332-349 `TryInto<String>`. -/
def Value.tryIntoString : Value → Except ModelError String
  | .string s => .ok s
  | .integer v => .ok v.toText
  | .longInteger v => .ok v.toText
  | .float v => .ok v.toText
  | .uInteger v => .ok v.toText
  | .uLongInteger v => .ok v.toText
  | .boolean v => .ok (boolText v)
  | .none => .error (notSupported "None" "String")
  | .array _ => .error (notSupported "Array" "String")
  | .map _ => .error (notSupported "Map" "String")

/-- The fourteen scalar targets of /repo/src/model/into.rs:398. -/
inductive Scalar where
  | bool | f64 | char | string | int (t : IntTy)
  deriving DecidableEq, Repr

/-- The Rust type of a scalar target. Needed for /repo/src/model/into.rs:5-349. -/
abbrev Scalar.T : Scalar → Type
  | .bool => Bool
  | .f64 => F64
  | .char => Char
  | .string => String
  | .int t => IntOf t

/-- The name of the target, as `stringify!`-ed in /repo/src/model/into.rs. -/
def Scalar.name : Scalar → String
  | .bool => "bool"
  | .f64 => "f64"
  | .char => "char"
  | .string => "String"
  | .int t => t.name

/-- `value.try_into()` for a scalar target (Rust's trait resolution among the impls above). Needed for /repo/src/model/into.rs:5-349. -/
def Value.tryInto (s : Scalar) (v : Value) : Except ModelError s.T :=
  match s with
  | .bool => v.tryIntoBool
  | .f64 => v.tryIntoF64
  | .char => v.tryIntoChar
  | .string => v.tryIntoString
  | .int t => v.tryIntoInt t

/-- `Clone for Value` (derived): /repo/src/model/value.rs:6; `to_owned` on a reference. -/
def Value.clone (v : Value) : Value := v

/-- /repo/src/model/into.rs:351-361 `impl TryInto<$type> for &Value`. -/
def Value.tryIntoRef (s : Scalar) (v : Value) : Except ModelError s.T := v.clone.tryInto s

/-- /repo/src/model/into.rs:363-373 `impl TryInto<$type> for &mut Value`: the result and the referenced value
after the call. -/
def Value.tryIntoMut (s : Scalar) (v : Value) : Except ModelError s.T × Value := (v.clone.tryInto s, v)

/-- /repo/src/model/into.rs:385-387 `try_into_<type>`. -/
def Value.tryIntoMethod (s : Scalar) (v : Value) : Except ModelError s.T := v.tryIntoRef s

/-- /repo/src/model/into.rs:389-391 `into_<type>_or`: `try_into().unwrap_or(default)`. -/
def Value.intoOr (s : Scalar) (v : Value) (d : s.T) : s.T :=
  match v.tryInto s with
  | .ok x => x
  | .error _ => d

/-! ## From -/

/-- Widening `.into()` between integer types (lossless in Rust by construction). Needed for /repo/src/model/from.rs:23-75. -/
def widen {s : IntTy} (t : IntTy) (h : t.lo ≤ s.lo ∧ s.hi ≤ t.hi) (n : IntOf s) : IntOf t :=
  ⟨n.1, Int.le_trans h.1 n.2.1, Int.le_trans n.2.2 h.2⟩

/-- /repo/src/model/from.rs:23-81 `From<i8>` … `From<u128>`. -/
def Value.ofInt : (t : IntTy) → IntOf t → Value
  | .i8, n => .integer (widen .i64 (by decide) n)
  | .i16, n => .integer (widen .i64 (by decide) n)
  | .i32, n => .integer (widen .i64 (by decide) n)
  | .i64, n => .integer n
  | .i128, n => .longInteger n
  | .u8, n => .uInteger (widen .u64 (by decide) n)
  | .u16, n => .uInteger (widen .u64 (by decide) n)
  | .u32, n => .uInteger (widen .u64 (by decide) n)
  | .u64, n => .uInteger n
  | .u128, n => .uLongInteger n

/-- /repo/src/model/from.rs:83-87 `From<f32>`. -/
def Value.ofF32 (x : F32) : Value := .float (F64.ofF32 x)
/-- /repo/src/model/from.rs:89-93 `From<f64>`. -/
def Value.ofF64 (x : F64) : Value := .float x
/-- /repo/src/model/from.rs:95-99 `From<bool>`. -/
def Value.ofBool (b : Bool) : Value := .boolean b
/-- /repo/src/model/from.rs:101-111 `From<String>`, `From<&str>`. -/
def Value.ofString (s : String) : Value := .string s
/-- /repo/src/model/from.rs:11-21 `From<Option<T>>`, for any `T: Into<Value>` given by `f`. -/
def Value.ofOption {α : Type} (f : α → Value) : Option α → Value
  | some x => f x
  | Option.none => .none
/-- /repo/src/model/from.rs:113-120 `From<HashMap<String, T>>`, for any `T: Into<Value>` given by `f`; the source
map's entries in iteration order. -/
def Value.ofHashMap {α : Type} (f : α → Value) (m : List (String × α)) : Value :=
  .map (hmOfList (m.map fun e => (e.1, f e.2)))
/-- /repo/src/model/from.rs:122-129 `From<Vec<T>>`, for any `T: Into<Value>` given by `f`. -/
def Value.ofVec {α : Type} (f : α → Value) (xs : List α) : Value := .array (xs.map f)

/-! ## Display -/

mutual
/-- /repo/src/model/value.rs:20-53 `Display for Value`. -/
def Value.display (v : Value) : String :=
  match v with
  | .none => "none"
  | .boolean b => boolText b
  | .integer n => n.toText
  | .longInteger n => n.toText
  | .uInteger n => n.toText
  | .uLongInteger n => n.toText
  | .float x => x.toText
  | .string s => s
  | .array xs => "[" ++ displayElems true xs ++ "]"
  | .map m => "{" ++ displayEntries true m ++ "}"
  termination_by structural v
/-- The loop of /repo/src/model/value.rs:34-40 (`first` is `i == 0`). -/
def displayElems (first : Bool) (xs : List Value) : String :=
  match xs with
  | [] => ""
  | x :: r => (if first then "" else ", ") ++ Value.display x ++ displayElems false r
  termination_by structural xs
/-- The loop of /repo/src/model/value.rs:44-49. -/
def displayEntries (first : Bool) (m : List (String × Value)) : String :=
  match m with
  | [] => ""
  | e :: r => (if first then "" else ", ") ++ displayEntry e ++ displayEntries false r
  termination_by structural m
/-- /repo/src/model/value.rs:48 `"{}: {}"`. -/
def displayEntry (e : String × Value) : String :=
  match e with
  | (k, v) => k ++ ": " ++ Value.display v
  termination_by structural e
end

end Verif
