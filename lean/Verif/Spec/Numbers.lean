import Verif.Model.Value
import Verif.Spec.Float
import Mathlib.Data.Nat.Digits.Defs
import Mathlib.Algebra.Order.Floor.Defs
import Mathlib.Algebra.Order.Floor.Ring
import Mathlib.Data.Rat.Floor
/-!
# Numbers: ranges, spellings, truncation

Stated with powers of two, Mathlib's `Nat.ofDigits` and floor/ceiling; independent of the model's parser, printer
and casts.
-/
namespace Verif.Spec

/-- The width of an integer type in bits. -/
def width : IntTy → Nat
  | .i8 | .u8 => 8
  | .i16 | .u16 => 16
  | .i32 | .u32 => 32
  | .i64 | .u64 => 64
  | .i128 | .u128 => 128

/-- Whether the type has negative numbers. -/
def isSigned : IntTy → Bool
  | .i8 | .i16 | .i32 | .i64 | .i128 => true
  | .u8 | .u16 | .u32 | .u64 | .u128 => false

/-- `n` is a number of type `t`. -/
def InRange (t : IntTy) (n : Int) : Prop :=
  if isSigned t then -2 ^ (width t - 1) ≤ n ∧ n < 2 ^ (width t - 1) else 0 ≤ n ∧ n < 2 ^ width t

/-- The mathematical integer held by an integer value, and the Rust name of its type. -/
def integerOf : Value → Option (Int × String)
  | .integer n => some (n.1, "i64")
  | .longInteger n => some (n.1, "i128")
  | .uInteger n => some (n.1, "u64")
  | .uLongInteger n => some (n.1, "u128")
  | _ => none

/-- The kind of integer value a number of this type is stored as: up to 64 bits, signed or unsigned, or 128 bits, named by its own type. -/
def storedAs : IntTy → String
  | .i8 | .i16 | .i32 | .i64 => "i64"
  | .u8 | .u16 | .u32 | .u64 => "u64"
  | .i128 => "i128"
  | .u128 => "u128"

/-- A non-empty list of ASCII digits and the number it spells in base ten. -/
def DigitsSpell (ds : List Char) (n : Nat) : Prop :=
  ds ≠ [] ∧ (∀ c ∈ ds, '0' ≤ c ∧ c ≤ '9') ∧ n = Nat.ofDigits 10 (ds.map (fun c => c.toNat - '0'.toNat)).reverse

/-- The text spells the integer `n` the way Rust integers of type `t` may be spelled: optional `+`, or `-` if
the type is signed, then one or more digits. -/
def Spells (t : IntTy) (s : String) (n : Int) : Prop :=
  ∃ ds m, DigitsSpell ds m ∧
    ((s.toList = ds ∧ n = m) ∨ (s.toList = '+' :: ds ∧ n = m) ∨
      (isSigned t = true ∧ s.toList = '-' :: ds ∧ n = -(m : Int)))

/-- Truncation toward zero. -/
def trunc (q : ℚ) : Int := if 0 ≤ q then ⌊q⌋ else ⌈q⌉

/-- Equal ignoring ASCII case, for a lower-case word. -/
def EqIgnoreAsciiCase (s word : String) : Prop :=
  s.toList.length = word.toList.length ∧ ∀ (i : Nat) c d, s.toList[i]? = some c → word.toList[i]? = some d →
    (c = d ∨ (c.toNat + 32 = d.toNat ∧ 'a' ≤ d ∧ d ≤ 'z'))

end Verif.Spec
