import Verif.Spec.Doc
import Verif.Spec.Serde
/-! # Data that differ only in the kinds of their integers (C66) -/
namespace Verif.Spec

/-- The number shown, if an integer of any kind is shown. -/
def dnumberOf : DHead → Option Int
  | .int _ n => some n.1
  | _ => none

/-- Equal, or integers with the same number. -/
def DHeadAlike (h h' : DHead) : Prop := h = h' ∨ ∃ n, dnumberOf h = some n ∧ dnumberOf h' = some n

/-- The data have the same paths and show the same there, up to the kind of integers. -/
def DAlike (a b : Data) : Prop := ∀ p,
  (dview a p = none ∧ dview b p = none) ∨ ∃ h h', dview a p = some h ∧ dview b p = some h' ∧ DHeadAlike h h'

end Verif.Spec
