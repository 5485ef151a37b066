import Verif.Model.Float
import Mathlib.Algebra.Order.Field.Rat
import Mathlib.Algebra.Order.AbsoluteValue.Basic
/-!
# What a float datum means

The rational number a finite float denotes, and the IEEE notion of a correctly rounded result. These do not
use the model's rounding algorithm.
-/
namespace Verif.Spec

/-- The rational number denoted by a finite datum (`none` for NaN and the infinities). -/
def ratOf : FpRaw → Option ℚ
  | .fin neg m e => some ((if neg then -1 else 1) * (m : ℚ) * (2 : ℚ) ^ e)
  | _ => none

/-- `r` is a correctly rounded (nearest, ties to even) result for the rational `x` in format `f`:
a canonical finite datum, no canonical finite datum is closer to `x`, and if another datum is equally close
the mantissa of `r` is even. -/
def CorrectlyRounded (f : Fmt) (x : ℚ) (r : FpRaw) : Prop :=
  f.Canon r ∧ ∃ v, ratOf r = some v ∧
    (∀ y w, f.Canon y → ratOf y = some w → |x - v| ≤ |x - w|) ∧
    (∀ y w, f.Canon y → ratOf y = some w → w ≠ v → |x - v| = |x - w| →
      ∃ neg m e, r = .fin neg m e ∧ m % 2 = 0)

end Verif.Spec
