import Verif.Spec.Numbers
import Verif.Spec.Float
import Verif.Spec.Blame
/-!
# A setting, and the text of that setting

A file says `port = 8080`, a variable says `8080`: one is a number, the other a text. When do both mean the same to the program that reads them?
-/
namespace Verif.Spec

/-- The value and its text (the one it is shown with) are converted alike: to the same result, or both refused. -/
def TextAgrees (s : Scalar) (v : Value) : Prop :=
  ∀ x, (Value.string v.display).tryInto s = .ok x ↔ v.tryInto s = .ok x

/-- The types that refuse what does not fit them when they are read from a float. -/
def refusesBigFloats : IntTy → Bool
  | .i8 | .i16 | .i32 | .u8 | .u16 | .u32 => true
  | _ => false

/-- A float that the integer type refuses: an infinity or a number out of its range for the types up to 32 bits, a negative one for `u128`. -/
def FloatRefused (t : IntTy) (x : FpRaw) : Prop :=
  (refusesBigFloats t = true ∧ ((∃ neg, x = .inf neg) ∨ ∃ q, ratOf x = some q ∧ ¬ InRange t (trunc q))) ∨
  (t = .u128 ∧ (x = .inf true ∨ ∃ q, ratOf x = some q ∧ q ≤ -1))

/-- A float that is a whole number of the type, and is shown as just that number. -/
def ShownWhole (t : IntTy) (x : F64) : Prop :=
  ∃ n : Int, ratOf x.1 = some (n : ℚ) ∧ InRange t n ∧ (t = .u128 → n < 2 ^ 127) ∧ Spells t (Value.float x).display n

/-- For which scalar values and targets a value and its text mean the same. -/
inductive MeansSame : Scalar → Value → Prop
  | text (s : Scalar) (x : String) : MeansSame s (.string x)
  | toText (v : Value) : MeansSame .string v
  | bool (b : Bool) : MeansSame .bool (.boolean b)
  | int {v : Value} {n : Int} {src : String} (t : IntTy) : integerOf v = some (n, src) → MeansSame (.int t) v
  | intFloat {v : Value} {n : Int} {src : String} : integerOf v = some (n, src) → MeansSame .f64 v
  | five {v : Value} {src : String} : integerOf v = some (53, src) → MeansSame .char v
  | float (x : F64) : MeansSame .f64 (.float x)
  | whole (t : IntTy) (x : F64) : ShownWhole t x → MeansSame (.int t) (.float x)
  | refused (t : IntTy) (x : F64) : FloatRefused t x.1 → MeansSame (.int t) (.float x)

/-- A type that is read with this conversion, directly or inside `Option` or a newtype. -/
inductive ReadWith : Scalar → Ty → Prop
  | scalar {s : Scalar} {T : Ty} : scalarOf T = some s → ReadWith s T
  | option {s : Scalar} {T : Ty} : ReadWith s T → ReadWith s (.option T)
  | newtype {s : Scalar} {T : Ty} : ReadWith s T → ReadWith s (.newtype T)

end Verif.Spec
