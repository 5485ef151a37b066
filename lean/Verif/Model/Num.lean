/-!
# Rust's fixed-width integers

`i8 … u128` as subtypes of `Int`, with the conversions the crate uses.
-/
namespace Verif

/-- The ten integer types listed at /repo/src/model/into.rs:398. -/
inductive IntTy where
  | i8 | i16 | i32 | i64 | i128 | u8 | u16 | u32 | u64 | u128
  deriving DecidableEq, Repr

/-- Least number of the type (Rust's `T::MIN`). Needed for /repo/src/model/into.rs:28-33. -/
def IntTy.lo : IntTy → Int
  | i8 => -128
  | i16 => -32768
  | i32 => -2147483648
  | i64 => -9223372036854775808
  | i128 => -170141183460469231731687303715884105728
  | _ => 0

/-- Greatest number of the type (Rust's `T::MAX`). Needed for /repo/src/model/into.rs:28-33. -/
def IntTy.hi : IntTy → Int
  | i8 => 127
  | i16 => 32767
  | i32 => 2147483647
  | i64 => 9223372036854775807
  | i128 => 170141183460469231731687303715884105727
  | u8 => 255
  | u16 => 65535
  | u32 => 4294967295
  | u64 => 18446744073709551615
  | u128 => 340282366920938463463374607431768211455

/-- Whether the type is signed. Needed for /repo/src/model/into.rs:28-33. -/
def IntTy.signed : IntTy → Bool
  | i8 | i16 | i32 | i64 | i128 => true
  | _ => false

/-- The type's name, as produced by `stringify!` in /repo/src/model/errors.rs:73-88. -/
def IntTy.name : IntTy → String
  | i8 => "i8" | i16 => "i16" | i32 => "i32" | i64 => "i64" | i128 => "i128"
  | u8 => "u8" | u16 => "u16" | u32 => "u32" | u64 => "u64" | u128 => "u128"

/-- The numbers of an integer type. Needed for /repo/src/model/value.rs:10-13. -/
abbrev IntOf (t : IntTy) : Type := { n : Int // t.lo ≤ n ∧ n ≤ t.hi }

instance (t : IntTy) : DecidableEq (IntOf t) := inferInstanceAs (DecidableEq { _n : Int // _ })
instance (t : IntTy) : Repr (IntOf t) := ⟨fun n p => reprPrec n.1 p⟩

/-- `T::try_from(n)` between integer types (std `TryFrom`): exact, or an error. Needed for /repo/src/model/into.rs:30. -/
def IntTy.tryFrom (t : IntTy) (n : Int) : Option (IntOf t) :=
  if h : t.lo ≤ n ∧ n ≤ t.hi then some ⟨n, h⟩ else none

/-- `0` of the type. Needed for /repo/src/model/into.rs:11. -/
def IntOf.zero (t : IntTy) : IntOf t := ⟨0, by cases t <;> decide⟩

/-- Nearest number of the type: the saturation of Rust's float-to-int `as`. Needed for /repo/src/model/into.rs:45. -/
def IntTy.clamp (t : IntTy) (n : Int) : IntOf t :=
  if h : t.lo ≤ n ∧ n ≤ t.hi then ⟨n, h⟩
  else if n < t.lo then ⟨t.lo, by cases t <;> decide⟩
  else ⟨t.hi, by cases t <;> decide⟩

/-- `n as T` between integers: two's-complement wrap-around (Rust reference, "numeric cast").
Used where /repo/src/model/into.rs writes `value as i128`, `value as u128`, `value as i8`, … -/
def IntTy.wrap (t : IntTy) (n : Int) : IntOf t :=
  ⟨t.lo + (n - t.lo) % (t.hi - t.lo + 1), by
    have h1 : 0 < t.hi - t.lo + 1 := by cases t <;> decide
    have h2 := Int.emod_nonneg (n - t.lo) (by omega : t.hi - t.lo + 1 ≠ 0)
    have h3 := Int.emod_lt_of_pos (n - t.lo) h1
    omega⟩

/-- `checked_mul`/`checked_add`/`checked_sub`: the exact result if it fits. Needed for /repo/src/model/into.rs:49 (inside `str::parse`). -/
def IntTy.checked (t : IntTy) (n : Int) : Option Int :=
  if t.lo ≤ n ∧ n ≤ t.hi then some n else none

end Verif
