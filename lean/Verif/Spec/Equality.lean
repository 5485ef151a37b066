import Verif.Spec.View
import Verif.Spec.Float
/-!
# Equality of values as a user understands it

Same shape and same scalars at every path, floats compared as numbers.
-/
namespace Verif.Spec

/-- Two floats are the same number: they denote the same rational, or are the same infinity. NaN is no number. -/
def NumEq (x y : F64) : Prop :=
  (∃ q, ratOf x.1 = some q ∧ ratOf y.1 = some q) ∨ ∃ s, x.1 = .inf s ∧ y.1 = .inf s

/-- What is visible agrees, floats compared with `R`. -/
def HeadRel (R : F64 → F64 → Prop) : Head → Head → Prop
  | .float x, h => match h with | .float y => R x y | _ => False
  | h, h' => h = h'

/-- At the path both values have nothing, or both have something that agrees. -/
def AgreeAt (R : F64 → F64 → Prop) (a b : Value) (p : Path) : Prop :=
  match view a p, view b p with
  | none, none => True
  | some h, some h' => HeadRel R h h'
  | _, _ => False

/-- Equal as a user understands it. -/
def EqualAsSeen (a b : Value) : Prop := ∀ p, AgreeAt NumEq a b p

/-- Some float inside the value is NaN. -/
def ContainsNaN (v : Value) : Prop := ∃ p x, view v p = some (.float x) ∧ x.1 = .nan

end Verif.Spec
